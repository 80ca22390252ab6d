import Verif.Str.CapsStep

/-!
C140: how large the capacities of strings get.
-/

namespace Verif.Str

open M Caps

variable {cfg : Cfg} {N R : Nat} {a : Abs} {s s' : St}

theorem Within.reach (h : Within cfg N R a s) : Reach cfg a s := by
  induction h with
  | start => exact .start
  | step _ ho hr _ _ ih => exact ih.done ho hr

theorem topCap_lim (hc : cfg.Ok) : Lim cfg (max N (cfg.ms + 1)) (topCap cfg N R) := by
  have := hc.msle
  unfold topCap
  exact ⟨hc, by omega, by omega, by omega⟩

theorem Within.fit (hc : cfg.Ok) (h : Within cfg N R a s) : Fit (max N (cfg.ms + 1)) (topCap cfg N R) s := by
  induction h with
  | start => exact fun _ => ⟨trivial, trivial⟩
  | @step a a' s s' op hw ho hr hl hk ih =>
    refine op_fit (topCap_lim hc) (reach_rel hc hw.reach).1 ih ho (fun i xs h => ?_) ?_ hr
    · have := hl i xs h; omega
    · unfold topCap; omega

/-- C140: in a program whose calls succeed, in which no string is ever longer than `N` characters and no capacity above `R` is asked for by
name, no string ever has a capacity above `R`, twice what fits in the object, and half as much again as `N`, whichever is the largest: however
long the program runs, and however often strings are emptied and filled again. -/
theorem capacity_bounded (hc : cfg.Ok) (h : Within cfg N R a s) {i c : Nat} (hcap : capacity cfg (.user i) s = (.ok c, s')) :
    c ≤ max R (max (2 * cfg.ms) (1 + (N - 1) * 3 / 2)) :=
  fit_cap (topCap_lim hc) (h.fit hc) hcap

-- the bound is met: 46 characters and one more give a capacity of 70, which stays after `clear()`
example : ∀ dbg, ∃ a s, Within (heapCfg dbg) 47 0 a s ∧ a 0 = some [] ∧ (capacity (heapCfg dbg) (.user 0) s).1 = .ok 70 ∧
    max 0 (max (2 * (heapCfg dbg).ms) (1 + (47 - 1) * 3 / 2)) = 70 := by
  have key : ∀ {a : Abs} {xs ys : List Ch} {i : Nat}, (∀ i xs, a i = some xs → xs.length ≤ 47) → xs.length ≤ 47 → upd a 0 (some xs) i = some ys →
      ys.length ≤ 47 := by
    intro a xs ys i h hx e
    by_cases hi : i = 0
    · subst hi; simp at e; subst e; exact hx
    · rw [upd_other _ _ hi] at e; exact h i ys e
  have h0 : ∀ i xs, (fun _ => none : Abs) i = some xs → xs.length ≤ 47 := by simp
  have h1 := fun i xs => key (a := fun _ => none) (xs := List.replicate 46 97) (ys := xs) (i := i) h0 (by decide)
  have h2 := fun i xs => key (xs := List.replicate 46 97 ++ [98]) (ys := xs) (i := i) h1 (by decide)
  have h3 := fun i xs => key (xs := []) (ys := xs) (i := i) h2 (by decide)
  intro dbg
  have step : ∀ {a : Abs} {s : St} {op : Op} {xs : List Ch}, Within (heapCfg dbg) 47 0 a s → (op.run (heapCfg dbg) s).1 = .ok () →
      op.spec false a = some (.done (upd a 0 (some xs))) → (∀ i ys, upd a 0 (some xs) i = some ys → ys.length ≤ 47) → op.asks ≤ 0 →
      Within (heapCfg dbg) 47 0 (upd a 0 (some xs)) (op.run (heapCfg dbg) s).2 := fun h e ho hl hk => .step h ho (Prod.ext e rfl) hl hk
  have w1 := step .start (op := .makeFill 0 0 46 97) (by cases dbg <;> decide +kernel) rfl h1 (Nat.le_refl _)
  have w2 := step w1 (op := .pushBack 0 98) (by cases dbg <;> decide +kernel) rfl h2 (Nat.le_refl _)
  have w3 := step w2 (op := .clear 0) (by cases dbg <;> decide +kernel) rfl h3 (Nat.le_refl _)
  exact ⟨_, _, w3, rfl, by cases dbg <;> decide +kernel, by cases dbg <;> decide +kernel⟩

end Verif.Str
