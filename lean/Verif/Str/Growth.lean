import Verif.Str.Reach

/-!
How `push_back` and `reserve` change the capacity.
-/

namespace Verif.Str

open M

variable {β γ : Type} {cfg : Cfg} {s s' : St} {v : Obj}

/-- What becomes of the storage of a string of size `k` and capacity `c` when `delta` characters are
added: it stays, or there was not enough of it and there is half as much again. -/
def Storage (cfg : Cfg) (v : Obj) (core : Core) (k c delta : Nat) (core' : Core) : Prop :=
  core'.ptr v = core.ptr v ∧ core'.cap cfg = core.cap cfg ∧ k + delta ≤ core.cap cfg ∨
    (c < k + delta ∨ k = 0) ∧ 1 + c * 3 / 2 ≤ core'.cap cfg

theorem cap_small (hc : cfg.Ok) : 1 + cfg.ms * 3 / 2 ≤ 2 * cfg.ms := by
  unfold Cfg.ms
  rcases hc.w with h | h | h <;> rw [h] <;> decide

theorem expand_core (hc : cfg.Ok) (hw : WInv cfg s) {ob : Ob} {l : List Cell} {k delta c : Nat}
    (h : Holds cfg s v ob l k) (h0 : s.vars (.tmp 0) = none) (hd : k + delta < M64)
    (hcap : capacity cfg v s = (.ok c, s)) :
    Tri (expandNoinit cfg v delta true) s
      (fun _ s' => ∃ ob', s'.vars v = some ob' ∧ Storage cfg v ob.core k c delta ob'.core ∧ (Excl s v → Excl s' v)) (fun _ _ => True) := by
  obtain ⟨l2, n2, h2, h3, h4, h5⟩ := hw.view h.var
  obtain ⟨_, rfl, rfl⟩ := h.unique h2
  obtain ⟨c', d1, d2, d3, d4, d5⟩ := h.capM hw
  rw [hcap] at d1; cases d1
  have hnew : add64 k delta = k + delta := add64_of_lt hd
  unfold expandNoinit
  refine Tri.step hcap (Tri.step h.sizeM (Tri.step (assert_ok (by simpa using d2) _) (Tri.step (getOb_ok h.var) ?_)))
  simp only [hnew, if_true]
  have hgrow : ∀ {m : Nat} {s1 : St}, 1 + c * 3 / 2 ≤ m → (c < k + delta ∨ k = 0) → Grown cfg v (l.take k) m true s s1 →
      Tri (expandTail cfg v k (k + delta)) s1
        (fun _ s' => ∃ ob', s'.vars v = some ob' ∧ Storage cfg v ob.core k c delta ob'.core ∧ (Excl s v → Excl s' v)) (fun _ _ => True) := by
    rintro m s1 hm hk ⟨w1, f1, ob', l', k', a1, a2, a3, a4, a5⟩
    obtain ⟨core, al⟩ := ob'
    obtain ⟨d, m', cap, large, e⟩ := a5 rfl
    simp only at e; subst e
    refine (expandTail_core a1.var).mono (fun _ s' g => ⟨_, g.1, Or.inr ⟨hk, ?_⟩, fun _ => g.2 a2⟩) (fun _ _ _ => trivial)
    simp only [Core.cap] at a4 ⊢
    omega
  obtain ⟨core, al⟩ := ob
  cases core with
  | small c0 =>
    have := small_cells h
    subst this
    have hcc : c = cfg.ms := d4 (by intro d n cap al' he; rw [h.var] at he; cases he)
    simp only
    split
    · next hs =>
      simp only [Bool.and_eq_true, decide_eq_true_eq] at hs
      refine Tri.step (setSmallSize_small h.var hs.2) (Tri.ret ⟨_, upd_same _ _ _, Or.inl ⟨rfl, rfl, hs.2⟩, fun _ d n cap al' he => ?_⟩)
      simp at he
    · next hs =>
      have hk : c < k + delta ∨ k = 0 := by
        by_cases hb : cfg.sso = true
        · left; simp only [hb, Bool.true_and, decide_eq_true_eq] at hs; omega
        · right
          have hco := hw.core v _ h.var
          obtain ⟨_, n, _, g1, g2, _⟩ := hco
          have := g1 (by simpa using hb)
          subst this
          have hsz := h.size
          simp [Core.size?, g2] at hsz
          omega
      have hm := cap_small hc
      refine Tri.bind ((reserveSmall_tri hc hw h).mono (fun _ _ h => h) (fun _ _ _ => trivial))
        (fun _ s1 G => hgrow (m := max (k + delta) (2 * cfg.ms)) (by rw [hcc]; omega) hk (G.weaken (Nat.le_refl _) ?_))
      intro _
      simp only [Bool.and_eq_true, decide_eq_true_eq, not_and] at hs
      simp only [Bool.not_eq_true', Bool.and_eq_false_iff, decide_eq_false_iff_not]
      by_cases hb : cfg.sso = true
      · right; have := hs hb; omega
      · left; simpa using hb
  | ml d m cap large =>
    have : m = k := by simpa [Core.size?] using h.size
    subst this
    simp only
    obtain ⟨B, _, _, _, _, _, hbig⟩ := hw.core v _ h.var
    have hc3 : mul64 c 3 = c * 3 := by
      apply mul64_of_lt
      simp only [Core.cap] at d3
      rcases hc.w with e | e | e <;> rw [e] at hbig <;> omega
    have hc4 : add64 1 (c * 3 / 2) = 1 + c * 3 / 2 := by
      apply add64_of_lt
      simp only [Core.cap] at d3
      rcases hc.w with e | e | e <;> rw [e] at hbig <;> omega
    rw [hc3, hc4]
    by_cases hcn : c < m + delta
    · rw [doIf_pos (by simpa using hcn)]
      exact Tri.bind ((reserveCore_tri hc hw h h0).mono (fun _ _ h => h) (fun _ _ _ => trivial))
        (fun _ s1 G => hgrow (Nat.le_max_right _ _) (Or.inl hcn) (G.weaken (Nat.le_refl _) (fun _ => rfl)))
    · rw [doIf_neg (by simpa using hcn)]
      refine Tri.step (pure_apply _ _) ?_
      refine (expandTail_core h.var).mono (fun _ s' g => ⟨_, g.1, Or.inl ⟨rfl, rfl, ?_⟩, g.2⟩) (fun _ _ _ => trivial)
      simp only [Core.cap] at d3 ⊢
      omega

/-- What `push_back` does to the storage. -/
theorem pushBack_core (hc : cfg.Ok) (hw : WInv cfg s) {ob : Ob} {l : List Cell} {k c : Nat} {ch : Ch}
    (h : Holds cfg s v ob l k) (h0 : s.vars (.tmp 0) = none) (hd : k + 1 < M64) (hcap : capacity cfg v s = (.ok c, s)) :
    Tri (pushBack cfg v ch) s
      (fun _ s' => Excl s' v ∧ ∃ ob', s'.vars v = some ob' ∧ Storage cfg v ob.core k c 1 ob'.core) (fun _ _ => True) := by
  unfold pushBack
  refine Tri.bind (((expandNoinit_tri hc hw true h h0 hd).and (expand_core hc hw h h0 hd hcap)).mono
    (fun _ _ h => h) (fun _ _ _ => trivial)) ?_
  rintro r s1 ⟨⟨w1, f1, p, cs', _, _, _, _, _, h6⟩, ob1, g1, g2, _⟩
  obtain ⟨_, _, _, hh, hx, _⟩ := h6 (by decide)
  refine (write_core (cfg := cfg) g1).mono ?_ (fun _ _ _ => trivial)
  rintro _ s2 ⟨ob2, e1, e2, e3, e4⟩
  refine ⟨e4 hx, ob2, e1, ?_⟩
  unfold Storage
  rw [e2, e3]
  exact g2

end Verif.Str
