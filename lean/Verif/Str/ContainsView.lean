import Verif.Str.SearchProps

/-!
C59 for every string and every view: what `contains(string_view)` decides.
-/

namespace Verif.Str

/-! ### Lemmas -/

/-- Memory up to the first NUL and after it. -/
theorem split_nul {mem : List Ch} (h : (0 : Ch) ∈ mem) :
    ∃ view rest, mem = view ++ 0 :: rest ∧ (0 : Ch) ∉ view ∧ mem.takeWhile (· ≠ 0) = view := by
  induction mem with
  | nil => cases h
  | cons c mem ih =>
    by_cases hc : c = 0
    · subst hc
      exact ⟨[], mem, rfl, by simp, by simp⟩
    · have hm : (0 : Ch) ∈ mem := by
        rcases List.mem_cons.1 h with h | h
        · exact absurd h.symm hc
        · exact h
      obtain ⟨view, rest, h1, h2, h3⟩ := ih hm
      refine ⟨c :: view, rest, by rw [h1]; rfl, ?_, by rw [List.takeWhile_cons_of_pos (by simpa using hc), h3]⟩
      intro h
      rcases List.mem_cons.1 h with h | h
      · exact hc h.symm
      · exact h2 h

theorem strlen_no_nul {mem : List Ch} (h : (0 : Ch) ∉ mem) (k : Nat) : ∀ i, mem.length - i = k → ∃ f, strlen mem i = .error (.ub f) := by
  induction k with
  | zero =>
    intro i hi
    unfold strlen
    rw [if_neg (by omega)]
    exact ⟨_, rfl⟩
  | succ k ih =>
    intro i hi
    unfold strlen
    have hlt : i < mem.length := by omega
    rw [if_pos hlt]
    have hr : rd mem i = .ok mem[i] := by simp [rd, hlt]
    rw [hr]
    have hne : mem[i] ≠ 0 := fun e => h (e ▸ List.getElem_mem hlt)
    obtain ⟨f, hf⟩ := ih (i + 1) (by omega)
    refine ⟨f, ?_⟩
    simp only [bind, Except.bind, if_neg hne]
    exact hf

theorem occurs_mem {hay needle : List Ch} {i : Nat} (h : OccursAt hay needle i) {c : Ch} (hc : c ∈ needle) : c ∈ hay := by
  obtain ⟨p, q, e, _⟩ := h
  rw [e]
  simp [hc]

/-! ### C59 -/

/-- C59: what `contains(string_view)` decides for any view: whether the characters up to the first NUL in memory, counted from the start
of the view, occur, whatever the length of the view.  If there is no NUL in the memory that may be read, it reads past it. -/
theorem contains_view_spec (hay mem : List Ch) (n : Nat) (hh : hay.length < npos) (hn : mem.length < M64) :
    ((0 : Ch) ∈ mem → ∃ e, containsView hay mem n = .ok e ∧ (e = true ↔ ∃ i, OccursAt hay (mem.takeWhile (· ≠ 0)) i)) ∧
    ((0 : Ch) ∉ mem → ∃ f, containsView hay mem n = .error (.ub f)) := by
  constructor
  · intro h
    obtain ⟨view, rest, h1, h2, h3⟩ := split_nul h
    rw [h3, h1]
    have hl : view.length < M64 := by
      have : mem.length = view.length + (rest.length + 1) := by rw [h1]; simp
      omega
    exact contains_view_partial hay view rest hh hl h2
  · intro h
    obtain ⟨f, hf⟩ := strlen_no_nul h _ 0 rfl
    refine ⟨f, ?_⟩
    unfold containsView findCStr
    rw [hf]
    rfl

/-- C59 is violated for every string without NUL and every view with one, if the part of the view before its NUL occurs: the view is
reported as contained.  And it is violated for every view that occurs but continues in memory, before the next NUL, to something that
does not occur: it is reported as missing. -/
theorem contains_view_everywhere_violated (hay : List Ch) (hh : hay.length < npos) :
    (∀ view rest : List Ch, (view ++ rest).length < M64 → (0 : Ch) ∉ hay → (0 : Ch) ∈ view →
      (∃ i, OccursAt hay (view.takeWhile (· ≠ 0)) i) →
      containsView hay (view ++ rest) view.length = .ok true ∧ ¬ ∃ i, OccursAt hay view i) ∧
    (∀ view more rest : List Ch, (view ++ (more ++ 0 :: rest)).length < M64 → (0 : Ch) ∉ view → (0 : Ch) ∉ more →
      (∃ i, OccursAt hay view i) → (¬ ∃ i, OccursAt hay (view ++ more) i) →
      containsView hay (view ++ (more ++ 0 :: rest)) view.length = .ok false) := by
  constructor
  · intro view rest hl h0 hv ho
    obtain ⟨pre, post, e1, e2, e3⟩ := split_nul hv
    obtain ⟨e, h1, h2⟩ := (contains_view_spec hay (view ++ rest) view.length hh hl).1 (List.mem_append_left _ hv)
    have ht : (view ++ rest).takeWhile (· ≠ 0) = view.takeWhile (· ≠ 0) := by
      obtain ⟨pre', post', f1, f2, f3⟩ := split_nul (List.mem_append_left rest hv)
      rw [f3, e3]
      have hpos : ∀ c ∈ pre, (decide (c ≠ 0)) = true := fun c hc => decide_eq_true (fun e => e2 (e ▸ hc))
      rw [← f3, e1, List.append_assoc, List.takeWhile_append_of_pos hpos]
      simp
    rw [ht] at h2
    refine ⟨by rw [h1, h2.2 ho], ?_⟩
    rintro ⟨i, hi⟩
    exact h0 (occurs_mem hi hv)
  · intro view more rest hl h0 h1 _ hn
    obtain ⟨e, h2, h3⟩ := (contains_view_spec hay (view ++ (more ++ 0 :: rest)) view.length hh hl).1 (by simp)
    have ht : (view ++ (more ++ 0 :: rest)).takeWhile (· ≠ 0) = view ++ more := by
      have hp : ∀ c ∈ view ++ more, (decide (c ≠ 0)) = true := fun c hc => by
        rcases List.mem_append.1 hc with hc | hc
        · exact decide_eq_true (fun e => h0 (e ▸ hc))
        · exact decide_eq_true (fun e => h1 (e ▸ hc))
      rw [← List.append_assoc, List.takeWhile_append_of_pos hp]
      simp
    rw [ht] at h3
    rw [h2]
    cases e with
    | false => rfl
    | true => exact absurd (h3.1 rfl) hn

/-- Both happen to `ab`: with the view `a\0c`, and with the view `a` of `ax`. -/
example : (containsView [97, 98] ([97, 0, 99] ++ [0]) 3 = .ok true ∧ ¬ ∃ i, OccursAt [97, 98] [97, 0, 99] i) ∧
    containsView [97, 98] ([97] ++ ([120] ++ 0 :: [])) 1 = .ok false := by
  obtain ⟨h1, h2⟩ := contains_view_everywhere_violated [97, 98] (by decide)
  refine ⟨h1 [97, 0, 99] [0] (by decide) (by decide) (by decide) ⟨0, [], [98], rfl, rfl⟩,
    h2 [97] [120] [] (by decide) (by decide) (by decide) ⟨0, [], [98], rfl, rfl⟩ ?_⟩
  rintro ⟨i, ho⟩
  have h3 : (120 : Ch) ∈ [97, 98] := occurs_mem ho (c := (120 : Ch)) (by simp)
  revert h3
  decide

/-- Memory without a NUL. -/
example : ∃ f, containsView [97, 98] [97, 98] 2 = .error (.ub f) :=
  (contains_view_spec [97, 98] [97, 98] 2 (by decide) (by decide)).2 (by decide)

end Verif.Str
