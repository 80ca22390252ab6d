import Verif.Arena.Model

/-!
Specification of the arena, stated on API histories (calls paired with their results) and on the
trace of observable events; it does not refer to blocks, positions or limits.
-/

namespace Verif.Arena

/-- A range of addresses `[start, start + len)`. -/
structure Region where
  start : Nat
  len : Nat
  deriving DecidableEq, Repr

/-- Membership of an address. -/
def Region.Mem (r : Region) (x : Nat) : Prop := r.start ≤ x ∧ x < r.start + r.len

/-- Two regions share no address. -/
def Region.Disjoint (r s : Region) : Prop := ∀ x, ¬ (r.Mem x ∧ s.Mem x)

/-- One region is contained in another. -/
def Region.Within (r s : Region) : Prop := s.start ≤ r.start ∧ r.start + r.len ≤ s.start + s.len

/-- An API history, oldest call first. -/
abbrev Hist := List (Op × Ret)

/-- The memory a call hands to its caller. -/
def regionsOf : Op × Ret → List Region
  | (.allocate b _, .ptr (some p)) => [⟨p, b⟩]
  | (.create s _, .ptr (some p)) => [⟨p, s⟩]
  | (.createArray s n, .ptr (some p)) => [⟨p, s * n⟩]
  | (.createBegin s, .ptr (some p)) => [⟨p, s⟩]
  | (.allocateCleanup b _ _, .ptr (some p)) => [⟨p, b⟩]
  | (.pmrAllocate b _, .ptr (some p)) => [⟨p, b⟩]
  | _ => []

/-- A destructor call the arena owes: which node, and the memory the destructor may use: all that was handed
out since the last `Reset` up to the registration, that of the object itself included. -/
structure Pending where
  node : Node
  needs : List Region
  deriving DecidableEq, Repr

/-- The destructor a successful call registers; `regs` is the memory handed out before the call. -/
def registeredBy (regs : List Region) : Op × Ret → List Pending
  | (.create s (some f), .ptr (some p)) => [⟨⟨p, f⟩, ⟨p, s⟩ :: regs⟩]
  | (.createEnd p _ (some f), .bool true) => [⟨⟨p, f⟩, regs⟩]
  | (.allocateCleanup b f none, .ptr (some p)) => [⟨⟨p, f⟩, ⟨p, b⟩ :: regs⟩]
  | (.allocateCleanup b f (some e), .ptr (some p)) => [⟨⟨e, f⟩, ⟨p, b⟩ :: regs⟩]
  | (.own o f, .bool true) => [⟨⟨o, f⟩, regs⟩]
  | _ => []

/-- Memory handed out since the last `Reset`, newest first. -/
def live (h : Hist) : List Region :=
  h.foldl (fun acc x => if x.1 = .reset then [] else regionsOf x ++ acc) []

/-- Destructors registered since the last `Reset`, newest first. -/
def pending (h : Hist) : List Pending :=
  (h.foldl (fun acc x => if x.1 = .reset then ([], []) else (regionsOf x ++ acc.1, registeredBy acc.1 x ++ acc.2))
    ([], [])).2

/-- Did a call succeed in obtaining something from the arena? -/
def succeeded : Op × Ret → Bool
  | (_, .ptr (some _)) => true
  | (_, .bool true) => true
  | _ => false

/-- Blocks obtained from `block_alloc` and not yet given back, according to the trace
(newest event first). -/
def held : List Ev → List Region
  | [] => []
  | .blockAlloc s (some p) :: tr => ⟨p, s⟩ :: held tr
  | .dealloc p :: tr => (held tr).filter (fun r => r.start ≠ p)
  | _ :: tr => held tr

/-- Is the pointer returned by a call aligned as its caller may expect? -/
def AlignedRet : Op × Ret → Prop
  | (.allocate _ a, .ptr (some p)) => a ∣ p
  | (.pmrAllocate _ a, .ptr (some p)) => max 8 a ∣ p
  | (_, .ptr (some p)) => 8 ∣ p
  | _ => True

/-- The byte count `on_arena_allocation` must report for a call (`none`: the hook must not fire). -/
def hookOf : Op × Ret → Option Nat
  | (.allocate b _, .ptr (some _)) => some b
  | (.create s _, .ptr (some _)) => some s
  | (.createArray s n, .ptr (some _)) => some (s * n)
  | (.createEnd _ s _, .bool true) => some s
  | (.allocateCleanup b _ _, .ptr (some _)) => some b
  | _ => none

/-- Least multiple of 8 that is at least `n`. -/
def round8 (n : Nat) : Nat := (n + 7) / 8 * 8

/-- The documented block sizes: what is asked from `block_alloc` for a request of `m` bytes
(already a multiple of 8). -/
def blockPolicy (cfg : Cfg) (m : Nat) (first : Bool) : Nat :=
  if first then max cfg.init (m + 32)
  else if m + 32 ≤ cfg.normal then cfg.normal
  else if m + 32 ≤ cfg.huge / 4 then max ((m + cfg.normal - 1) / cfg.normal * cfg.normal) (m + 32)
  else if m + 32 ≤ cfg.huge then cfg.huge
  else m + 32

/-- The requests that a call may have to serve from a new block: the object and the 16-byte record
of its destructor. -/
def requests : Op → List Nat
  | .allocate b _ => [round8 b]
  | .create s none => [round8 s]
  | .create s (some _) => [round8 s, 16]
  | .createArray s n => [round8 (s * n)]
  | .createBegin s => [round8 s]
  | .createEnd _ _ none => []
  | .createEnd _ _ (some _) => [16]
  | .allocateCleanup b _ _ => [round8 b, 16]
  | .own _ _ => [16]
  | .pmrAllocate b _ => [round8 b]
  | .pmrDeallocate _ _ _ => []
  | .reset => []
  | .write _ _ => []

/-- The events that obtaining memory may produce (newest first): requests to `block_alloc` of a size
given by the policy for one of the requests `ms`, each successful one followed by one
`on_arena_newblock` carrying the number of blocks held before and the size. -/
inductive Grow (cfg : Cfg) (cookie : Option Nat) (ms : List Nat) : List Ev → List Ev → Prop where
  | refl (tr : List Ev) : Grow cfg cookie ms tr tr
  | fail {tr tr' : List Ev} {m s : Nat} : Grow cfg cookie ms tr tr' → m ∈ ms →
      s = blockPolicy cfg m (held tr').isEmpty → cfg.blockAlloc tr' s = none →
      Grow cfg cookie ms tr (.blockAlloc s none :: tr')
  | block {tr tr' : List Ev} {m s p : Nat} : Grow cfg cookie ms tr tr' → m ∈ ms →
      s = blockPolicy cfg m (held tr').isEmpty → cfg.blockAlloc tr' s = some p →
      Grow cfg cookie ms tr
        (.newblock (held tr').length s cookie :: .blockAlloc s (some p) :: tr')

/-- Bytes certainly placed by a successful call. -/
def minBytes (x : Op × Ret) : Nat := ((regionsOf x).map (fun r => round8 r.len)).sum

/-- Bytes at most placed by a call, successful or not: the rounded size and the padding for the
alignment. -/
def maxBytes : Op → Nat
  | .allocate b a => round8 b + (a - 8)
  | .create s _ => round8 s
  | .createArray s n => round8 (s * n)
  | .createBegin s => round8 s
  | .allocateCleanup b _ _ => round8 b
  | .pmrAllocate b a => round8 b + (a - 8)
  | _ => 0

/-- Lower bound of the bytes placed since the last `Reset`. -/
def placedMin (h : Hist) : Nat :=
  h.foldl (fun acc x => if x.1 = .reset then 0 else acc + minBytes x) 0

/-- Upper bound of the bytes placed since the last `Reset`. -/
def placedMax (h : Hist) : Nat :=
  h.foldl (fun acc x => if x.1 = .reset then 0 else acc + maxBytes x.1) 0

/-- The protocol of tearing down: starting with the blocks `held` and the owed destructors `pend`,
the events (in order of occurrence) run each owed destructor exactly once, in the order of `pend`,
each while the memory it needs is still held, and give back only blocks that are held; at
the end the blocks `rest` are still held.  No block is requested and nothing else is run. -/
inductive Teardown : List Region → List Pending → List Ev → List Region → Prop where
  | done (held : List Region) : Teardown held [] [] held
  | cleanup {held rest : List Region} {x : Pending} {pend : List Pending} {evs : List Ev} :
      (∀ r ∈ x.needs, ∃ b ∈ held, Region.Within r b) →
      Teardown held pend evs rest → Teardown held (x :: pend) (.cleanup x.node :: evs) rest
  | dealloc {held rest : List Region} {b : Region} {pend : List Pending} {evs : List Ev} :
      b ∈ held → Teardown (held.filter (fun r => r.start ≠ b.start)) pend evs rest →
      Teardown held pend (.dealloc b.start :: evs) rest
  | hook {held rest : List Region} {pend : List Pending} {evs : List Ev} (u w : Nat)
      (c : Option Nat) :
      Teardown held pend evs rest → Teardown held pend (.reset u w c :: evs) rest

/-- Contract of `block_alloc`: what it returns is aligned to `A`, not null, lies in the lower half
of the address space and is disjoint from the blocks currently held.  It may fail at any time. -/
structure Sane (A : Nat) (cfg : Cfg) : Prop where
  aligned : ∀ tr s p, cfg.blockAlloc tr s = some p → A ∣ p
  nonnull : ∀ tr s p, cfg.blockAlloc tr s = some p → 0 < p
  fits : ∀ tr s p, cfg.blockAlloc tr s = some p → p + s ≤ 2 ^ 63
  fresh : ∀ tr s p, cfg.blockAlloc tr s = some p → ∀ r ∈ held tr, Region.Disjoint ⟨p, s⟩ r

/-- Contract on the options: non-zero normal size, multiples of 8, and no absurdly large sizes. -/
structure GoodCfg (cfg : Cfg) : Prop where
  normal_pos : 0 < cfg.normal
  normal8 : 8 ∣ cfg.normal
  huge8 : 8 ∣ cfg.huge
  init8 : 8 ∣ cfg.init
  normal_le : cfg.normal ≤ 2 ^ 62
  huge_le : cfg.huge ≤ 2 ^ 62
  init_le : cfg.init ≤ 2 ^ 62

/-- Supported alignments: 8, 16 or 32, not exceeding what `block_alloc` guarantees. -/
def GoodAlign (A a : Nat) : Prop := (a = 8 ∨ a = 16 ∨ a = 32) ∧ a ∣ A

/-- Contract of a call after history `h`. -/
def Contract (A : Nat) (h : Hist) : Op → Prop
  | .allocate b a => b ≤ 2 ^ 62 ∧ GoodAlign A a
  | .create s _ => s ≤ 2 ^ 62
  | .createArray s n => 0 < s ∧ s * n ≤ 2 ^ 62
  | .createBegin s => s ≤ 2 ^ 62
  | .createEnd p s _ => ⟨p, s⟩ ∈ live h
  | .allocateCleanup b _ _ => b ≤ 2 ^ 62
  | .own _ _ => True
  | .pmrAllocate b a => b ≤ 2 ^ 62 ∧ GoodAlign A (max 8 a)
  | .pmrDeallocate _ _ _ => True
  | .reset => ∃ x ∈ h, succeeded x
  | .write p n => ∃ r ∈ live h, r.start ≤ p ∧ p + n ≤ r.start + r.len

/-- All in-contract executions. -/
inductive Exec (cfg : Cfg) (A : Nat) : Hist → St → Prop where
  | init (cookie : Option Nat) : Exec cfg A [] (mkArena cookie)
  | step {h : Hist} {st st' : St} {op : Op} {r : Ret} :
      Exec cfg A h st → Contract A h op → Arena.step cfg st op = .ok (r, st') →
      Exec cfg A (h ++ [(op, r)]) st'

end Verif.Arena
