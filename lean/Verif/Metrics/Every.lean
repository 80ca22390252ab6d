import Verif.Metrics.Props

/-!
C32 in every state: printing metrics with a total that is zero.
-/

namespace Verif.Metrics

/-- C32 is violated in every state in which nothing was allocated or no arena was destroyed: printing the metrics divides
by zero. -/
theorem c32_everywhere_violated (g : Metrics) (h : g.ctr .alloc = 0 ∨ g.ctr .destruct = 0) :
    percentages g = .error (.ub "division by zero") := by
  have key : ∀ (f : Fin 8 → Nat) (t : Nat), t = 0 → percentLoop 0 ((List.finRange 8).map fun i => (f i, t)) = .error (.ub "division by zero") := by
    intro f t ht
    simp [List.finRange, List.ofFn, Fin.foldr, Fin.foldr.loop, percentLoop, ht]
  unfold percentages
  by_cases ha : g.ctr .alloc = 0
  · rw [key _ _ ha]; rfl
  · have hd := h.resolve_left ha
    have : ∀ c l, (∀ x ∈ l, x.2 ≠ 0) → ∃ r, percentLoop c l = .ok r := by
      intro c l
      induction l generalizing c with
      | nil => intro _; exact ⟨[], rfl⟩
      | cons x l ih =>
        intro hx
        obtain ⟨r, hr⟩ := ih (add64 c x.1) fun y hy => hx y (List.mem_cons_of_mem _ hy)
        obtain ⟨x1, x2⟩ := x
        have := hx (x1, x2) (List.mem_cons_self ..)
        simp only at this hr
        exact ⟨mul64 (add64 c x1) 100 / x2 :: r, by simp only [percentLoop, if_neg this, hr]; rfl⟩
    obtain ⟨r, hr⟩ := this 0 ((List.finRange 8).map (fun i => (g.ctr (.size i), g.ctr .alloc))) (by
      intro x hx
      obtain ⟨i, _, rfl⟩ := List.mem_map.1 hx
      exact ha)
    rw [hr, key _ _ hd]
    rfl

/-- Such states: the metrics of a process that has allocated 8 bytes in an arena which it has not destroyed yet. -/
example : ∃ m, probes .zero [.init, .newblock, .allocated 8 (some ⟨0, ⟨['a'], 1⟩⟩)] = .ok m ∧ (report .zero m).1.ctr .alloc = 1 ∧
    (report .zero m).1.ctr .destruct = 0 := ⟨_, rfl, by decide +kernel, by decide +kernel⟩

end Verif.Metrics
