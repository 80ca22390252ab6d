import Verif.Str.Prog

/-!
How large the capacities of strings get: what is stated.
-/

namespace Verif.Str

/-- The capacity an operation asks for besides what the characters need: `reserve(n)` asks for `n`, and `getline` for at least 63
(string.hpp:1941). -/
def Op.asks : Op → Nat
  | .reserve _ n => n
  | .getline .. => 63
  | _ => 0

/-- The states that programs reach in which all operations succeed, no string is ever longer than `N` and nobody asks for a capacity above
`R`. -/
inductive Within (cfg : Cfg) (N R : Nat) : Abs → St → Prop
  | start : Within cfg N R (fun _ => none) St.init
  | step {a a' : Abs} {s s' : St} {op : Op} : Within cfg N R a s → op.spec cfg.arena a = some (.done a') → op.run cfg s = (.ok (), s') →
      (∀ i xs, a' i = some xs → xs.length ≤ N) → op.asks ≤ R → Within cfg N R a' s'

/-- The largest capacity that growing by half leads to. -/
def topCap (cfg : Cfg) (N R : Nat) : Nat := max R (max (2 * cfg.ms) (1 + (N - 1) * 3 / 2))

end Verif.Str
