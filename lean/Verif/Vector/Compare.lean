import Verif.Vector.Props2
import Mathlib.Order.Defs.LinearOrder
import Mathlib.Order.Nat

/-! The properties of vectors: comparison (C44). -/

namespace Verif.Vector

open V

variable {α β : Type} {cfg : Cfg α} {w : World α} {i j : Nat} {xs zs : List α}

theorem load_ptr {s : S α} {v : Vec} {k : Nat} {x : α} (h : VecOK cfg s.mem v xs) (hk : xs[k]? = some x) :
    load (v.ptr k) s = (.ok x, s) := by
  have := deref_ok (s := s) (a := .own k) h hk (fun _ _ => rfl)
  exact this

theorem drop_cons {l : List α} {k : Nat} {x : α} (h : l[k]? = some x) : l.drop k = x :: l.drop (k + 1) := by
  have hk := lt_of_getElem? h
  rw [List.drop_eq_getElem_cons hk]
  rw [List.getElem?_eq_getElem hk] at h
  simp only [Option.some.injEq] at h
  rw [h]

theorem eqLoop_ok [DecidableEq α] {s : S α} {u v : Vec} (hu : VecOK cfg s.mem u xs) (hv : VecOK cfg s.mem v zs) (n : Nat) :
    ∀ k, k + n = xs.length → k + n = zs.length →
      eqLoop u v k n s = (.ok (decide (xs.drop k = zs.drop k)), s) := by
  induction n with
  | zero =>
    intro k h1 h2
    rw [List.drop_eq_nil_of_le (by omega), List.drop_eq_nil_of_le (by omega)]
    simp [eqLoop]
  | succ n ih =>
    intro k h1 h2
    have e1 : xs[k]? = some (xs[k]'(by omega)) := List.getElem?_eq_getElem _
    have e2 : zs[k]? = some (zs[k]'(by omega)) := List.getElem?_eq_getElem _
    rw [eqLoop, bind_ok (load_ptr hu e1), bind_ok (load_ptr hv e2), drop_cons e1, drop_cons e2]
    generalize xs[k]'(by omega) = a
    generalize zs[k]'(by omega) = b
    by_cases h : a = b
    · rw [if_neg (by simpa using h), ih (k + 1) (by omega) (by omega)]
      simp [h]
    · rw [if_pos h]
      simp [h]

/-- C44: `==` holds iff the elements are the same. -/
theorem equality [DecidableEq α] (hg : Good cfg) (hr : Reachable cfg w) (hx : w.Reads i xs) (hz : w.Reads j zs) :
    w.equal i j = some (.ok (decide (xs = zs))) := by
  obtain ⟨u, hu, huok, _⟩ := hr.vec hg hx
  obtain ⟨v, hv, hvok, _⟩ := hr.vec hg hz
  unfold World.equal
  simp only [hu, hv]
  unfold vecEq
  rw [huok.fin_eq, hvok.fin_eq]
  by_cases h : xs.length = zs.length
  · rw [if_neg (by simpa using h), eqLoop_ok (s := ⟨w.mem, u⟩) huok hvok xs.length 0 (by omega) (by omega)]
    simp
  · rw [if_pos h]
    have : xs ≠ zs := fun e => h (by rw [e])
    simp [this]

example : (exWorld .mov).equal 0 0 = some (.ok (decide ([3, 1, 9, 2, 3] = [3, 1, 9, 2, 3]))) ∧
    (exWorld .mov).equal 0 2 = some (.ok (decide ([3, 1, 9, 2, 3] = [0, 0]))) :=
  ⟨equality exGood exReach exReads.1 exReads.1, equality exGood exReach exReads.1 exReads.2.2⟩

theorem cmpLoop_ok [LinearOrder α] {s : S α} {u v : Vec} (hu : VecOK cfg s.mem u xs) (hv : VecOK cfg s.mem v zs) (n : Nat) :
    ∀ k, k + n = min xs.length zs.length →
      ∃ o, cmpLoop (fun x y => decide (x < y)) u v k n s = (.ok o, s) ∧
        (o = some .lt → xs.drop k < zs.drop k) ∧ (o = some .gt → zs.drop k < xs.drop k) ∧ (o ≠ some .eq) ∧
        (o = none → ((xs.drop k < zs.drop k ↔ xs.length < zs.length) ∧ (zs.drop k < xs.drop k ↔ zs.length < xs.length) ∧
          (xs.drop k = zs.drop k ↔ xs.length = zs.length))) := by
  induction n with
  | zero =>
    intro k hk
    refine ⟨none, rfl, by simp, by simp, by simp, fun _ => ?_⟩
    by_cases h : xs.length ≤ zs.length
    · rw [List.drop_eq_nil_of_le (as := xs) (by omega)]
      by_cases h2 : zs.length ≤ xs.length
      · rw [List.drop_eq_nil_of_le (as := zs) (by omega)]
        simp
        omega
      · have e2 : zs[k]? = some (zs[k]'(by omega)) := List.getElem?_eq_getElem _
        rw [drop_cons e2]
        exact ⟨⟨fun _ => by omega, fun _ => List.nil_lt_cons _ _⟩, ⟨fun h => absurd h (List.not_lt_nil _), fun h => by omega⟩,
          ⟨fun h => (List.cons_ne_nil _ _ h.symm).elim, fun h => by omega⟩⟩
    · rw [List.drop_eq_nil_of_le (as := zs) (by omega)]
      have e1 : xs[k]? = some (xs[k]'(by omega)) := List.getElem?_eq_getElem _
      rw [drop_cons e1]
      exact ⟨⟨fun h => absurd h (List.not_lt_nil _), fun h => by omega⟩, ⟨fun _ => by omega, fun _ => List.nil_lt_cons _ _⟩,
        ⟨fun h => (List.cons_ne_nil _ _ h).elim, fun h => by omega⟩⟩
  | succ n ih =>
    intro k hk
    have e1 : xs[k]? = some (xs[k]'(by omega)) := List.getElem?_eq_getElem _
    have e2 : zs[k]? = some (zs[k]'(by omega)) := List.getElem?_eq_getElem _
    rw [cmpLoop, bind_ok (load_ptr hu e1), bind_ok (load_ptr hv e2), drop_cons e1, drop_cons e2]
    generalize xs[k]'(by omega) = a
    generalize zs[k]'(by omega) = b
    rcases lt_trichotomy a b with h | h | h
    · refine ⟨some .lt, by simp [h], fun _ => ?_, by simp, by simp, by simp⟩
      exact List.cons_lt_cons_iff.2 (.inl h)
    · subst h
      obtain ⟨o, ho, h1, h2, h3, h4⟩ := ih (k + 1) (by omega)
      refine ⟨o, by simpa [lt_irrefl] using ho, fun h => ?_, fun h => ?_, h3, fun h => ?_⟩
      · exact List.cons_lt_cons_iff.2 (.inr ⟨rfl, h1 h⟩)
      · exact List.cons_lt_cons_iff.2 (.inr ⟨rfl, h2 h⟩)
      · obtain ⟨g1, g2, g3⟩ := h4 h
        refine ⟨?_, ?_, ?_⟩
        · rw [List.cons_lt_cons_iff, ← g1]; simp
        · rw [List.cons_lt_cons_iff, ← g2]; simp
        · rw [← g3]; simp
    · refine ⟨some .gt, by simp [h, not_lt_of_gt h], by simp, fun _ => ?_, by simp, by simp⟩
      exact List.cons_lt_cons_iff.2 (.inl h)

theorem lt_asymm_list [LinearOrder α] : ∀ {a b : List α}, a < b → b < a → False := by
  intro a
  induction a with
  | nil => intro b _ h2; simp at h2
  | cons x a ih =>
    intro b h1 h2
    cases b with
    | nil => simp at h1
    | cons y b =>
      rw [List.cons_lt_cons_iff] at h1 h2
      rcases h1 with h1 | ⟨rfl, h1⟩
      · rcases h2 with h2 | ⟨rfl, _⟩
        · exact lt_asymm h1 h2
        · exact lt_irrefl _ h1
      · rcases h2 with h2 | ⟨_, h2⟩
        · exact lt_irrefl _ h2
        · exact ih h1 h2

/-- C44: for elements with a total order, `<=>` is the lexicographic order of the contents. -/
theorem comparison [LinearOrder α] [DecidableEq α] (hg : Good cfg) (hr : Reachable cfg w) (hx : w.Reads i xs) (hz : w.Reads j zs) :
    ∃ o, w.compare (fun x y => decide (x < y)) i j = some (.ok o) ∧
      (o = .lt ↔ xs < zs) ∧ (o = .eq ↔ xs = zs) ∧ (o = .gt ↔ zs < xs) := by
  obtain ⟨u, hu, huok, _⟩ := hr.vec hg hx
  obtain ⟨v, hv, hvok, _⟩ := hr.vec hg hz
  unfold World.compare
  simp only [hu, hv]
  unfold vecCmp
  rw [huok.fin_eq, hvok.fin_eq]
  obtain ⟨o, ho, h1, h2, h3, h4⟩ := cmpLoop_ok (s := ⟨w.mem, u⟩) huok hvok (min xs.length zs.length) 0 (by omega)
  rw [bind_ok ho]
  simp only [List.drop_zero] at h1 h2 h4
  have irr : ∀ {a b : List α}, a = b → a < b → False := by
    rintro a _ rfl h; exact lt_asymm_list h h
  match o, h1, h2, h3, h4 with
  | some .lt, h1, _, _, _ =>
    have := h1 rfl
    exact ⟨.lt, rfl, by simp [this], by simp; exact fun e => irr e this, by simp; exact fun e => lt_asymm_list this e⟩
  | some .gt, _, h2, _, _ =>
    have := h2 rfl
    exact ⟨.gt, rfl, by simp; exact fun e => lt_asymm_list this e, by simp; exact fun e => irr e.symm this, by simp [this]⟩
  | some .eq, _, _, h3, _ => exact absurd rfl h3
  | none, _, _, _, h4 =>
    obtain ⟨g1, g2, g3⟩ := h4 rfl
    rw [g1, g2, g3]
    rcases Nat.lt_trichotomy xs.length zs.length with h | h | h
    · exact ⟨.lt, by simp only [h, if_true]; rfl, by simp [h], by simp; omega, by simp; omega⟩
    · exact ⟨.eq, by simp only [h, Nat.lt_irrefl, if_false]; rfl, by simp; omega, by simp [h], by simp; omega⟩
    · exact ⟨.gt, by simp only [h, Nat.lt_asymm h, if_true, if_false]; rfl, by simp; omega, by simp; omega, by simp [h]⟩

example : ∃ o, (exWorld .mov).compare (fun x y => decide (x < y)) 0 2 = some (.ok o) ∧
    (o = .lt ↔ [3, 1, 9, 2, 3] < [0, 0]) ∧ (o = .eq ↔ [3, 1, 9, 2, 3] = [0, 0]) ∧ (o = .gt ↔ [0, 0] < [3, 1, 9, 2, 3]) :=
  comparison exGood exReach exReads.1 exReads.2.2

end Verif.Vector
