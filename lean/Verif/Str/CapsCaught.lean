import Verif.Str.FirmNew
import Verif.Str.CapsProps

/-!
C140: how large the capacities of strings get, when calls fail for want of memory and the program goes on.
-/

namespace Verif.Str

open M Caps Firm

variable {cfg : Cfg} {N R : Nat} {a a' : Abs} {s s' : St} {op : Op} {v : Nat} {w : String}

/-! ### Specification -/

/-- The states that programs reach in which no string is ever longer than `N`, nobody gets a capacity above `R` by name, and calls that
make a string, lengthen or shorten it, or change its capacity may fail for want of memory: the program catches the exception and goes on. -/
inductive Lasting (cfg : Cfg) (N R : Nat) : Abs → St → Prop
  | start : Lasting cfg N R (fun _ => none) St.init
  | step {a a' : Abs} {s s' : St} {op : Op} : Lasting cfg N R a s → op.spec cfg.arena a = some (.done a') → op.run cfg s = (.ok (), s') →
      (∀ i xs, a' i = some xs → xs.length ≤ N) → op.asks ≤ R → Lasting cfg N R a' s'
  | failed {a a' : Abs} {s s' : St} {op : Op} {v : Nat} {w : String} : Lasting cfg N R a s → op.makes = true ∨ op.growsOnly v = true →
      op.spec cfg.arena a = some (.done a') → op.run cfg s = (.error (.throw w), s') → s'.lost = false →
      Lasting cfg N R a { s' with refused := false }

theorem failed_bare (hc : cfg.Ok) (h : Reach cfg a s) (hm : op.makes = true ∨ op.growsOnly v = true)
    (ho : op.spec cfg.arena a = some (.done a')) (hr : op.run cfg s = (.error (.throw w), s')) (hl : s'.lost = false) :
    Reach cfg a { s' with refused := false } ∧ Bare s { s' with refused := false } := by
  have hb : Bare s s' := by
    rcases hm with hm | hm
    · exact makes_bare hc h hm ho hr
    · rcases grows_firm hc h hm ho w s' hr with ⟨_, h1⟩ | h1
      · rw [hl] at h1; cases h1
      · exact h1
  have hw : op.weak = none := by
    rcases hm with hm | hm
    · cases op <;> first | rfl | cases hm
    · cases op <;> first | rfl | cases hm
  refine ⟨h.caught ho hr hl fun i => ?_, hb.vars, hb.heap, hb.next⟩
  rw [hw]
  rfl

theorem Lasting.reach (hc : cfg.Ok) (h : Lasting cfg N R a s) : Reach cfg a s := by
  induction h with
  | start => exact .start
  | step _ ho hr _ _ ih => exact ih.done ho hr
  | failed _ hm ho hr hl ih => exact (failed_bare hc ih hm ho hr hl).1

theorem Lasting.fit (hc : cfg.Ok) (h : Lasting cfg N R a s) : Fit (max N (cfg.ms + 1)) (topCap cfg N R) s := by
  induction h with
  | start => exact fun _ => ⟨trivial, trivial⟩
  | @step a a' s s' op hw ho hr hl hk ih =>
    refine op_fit (topCap_lim hc) (reach_rel hc (hw.reach hc)).1 ih ho (fun i xs h => ?_) ?_ hr
    · have := hl i xs h; omega
    · unfold topCap; omega
  | @failed a a' s s' op v w hw hm ho hr hl ih =>
    intro i
    rw [(failed_bare hc (hw.reach hc) hm ho hr hl).2.vars]
    exact ih i

/-- C140: the same when calls fail for want of memory, and the program goes on: what was asked for in vain does not count.  Left
out of the programs are refused `realloc`s (C81) and caught failures of other calls, such as assignments. -/
theorem capacity_bounded_caught (hc : cfg.Ok) (h : Lasting cfg N R a s) {i c : Nat} (hcap : capacity cfg (.user i) s = (.ok c, s')) :
    c ≤ max R (max (2 * cfg.ms) (1 + (N - 1) * 3 / 2)) :=
  fit_cap (topCap_lim hc) (h.fit hc) hcap

-- 46 characters, then `reserve(1000)` is refused, then one more: the capacity is 70
example : ∀ dbg, ∃ a s, Lasting (refusing dbg 1) 47 0 a s ∧ a 0 = some (List.replicate 46 97 ++ [98]) ∧
    (capacity (refusing dbg 1) (.user 0) s).1 = .ok 70 := by
  have key : ∀ {a : Abs} {xs ys : List Ch} {i : Nat}, (∀ i xs, a i = some xs → xs.length ≤ 47) → xs.length ≤ 47 → upd a 0 (some xs) i = some ys →
      ys.length ≤ 47 := by
    intro a xs ys i h hx e
    by_cases hi : i = 0
    · subst hi; simp at e; subst e; exact hx
    · rw [upd_other _ _ hi] at e; exact h i ys e
  have h0 : ∀ i xs, (fun _ => none : Abs) i = some xs → xs.length ≤ 47 := by simp
  have h1 := fun i xs => key (a := fun _ => none) (xs := List.replicate 46 97) (ys := xs) (i := i) h0 (by decide)
  have h2 := fun i xs => key (xs := List.replicate 46 97 ++ [98]) (ys := xs) (i := i) h1 (by decide)
  intro dbg
  have step : ∀ {a : Abs} {s : St} {op : Op} {xs : List Ch}, Lasting (refusing dbg 1) 47 0 a s → (op.run (refusing dbg 1) s).1 = .ok () →
      op.spec false a = some (.done (upd a 0 (some xs))) → (∀ i ys, upd a 0 (some xs) i = some ys → ys.length ≤ 47) → op.asks ≤ 0 →
      Lasting (refusing dbg 1) 47 0 (upd a 0 (some xs)) (op.run (refusing dbg 1) s).2 := fun h e ho hl hk => .step h ho (Prod.ext e rfl) hl hk
  have w1 := step .start (op := .makeFill 0 0 46 97) (by cases dbg <;> decide +kernel) rfl h1 (Nat.le_refl _)
  have w2 := Lasting.failed w1 (op := .reserve 0 1000) (v := 0) (w := "bad_alloc") (a' := upd _ 0 (some (List.replicate 46 97))) (.inr rfl) rfl
    (Prod.ext (by cases dbg <;> decide +kernel) rfl) (by cases dbg <;> decide +kernel)
  have w3 := step w2 (op := .pushBack 0 98) (by cases dbg <;> decide +kernel) rfl h2 (Nat.le_refl _)
  exact ⟨_, _, w3, rfl, by cases dbg <;> decide +kernel⟩

end Verif.Str
