import Verif.Str.Replace

/-!
What the functions that make new strings, and `swap`, do to the characters.
-/

namespace Verif.Str

open M

variable {β γ : Type} {cfg : Cfg} {s s' : St} {v u t : Obj}

/-- A string under construction: refused allocations leave no trace of it. -/
theorem building_tri {body : M Unit} {Q : Unit → St → Prop} {s1 : St} (h0 : s.vars v = none)
    (hb : Tri body s1 Q (Err cfg (· = v) (fun s' => ∃ zs, Raw cfg s' v zs) s)) : Tri (building cfg v body) s1 Q (Err0 cfg s) := by
  unfold Tri building at *
  generalize body s1 = r at hb ⊢
  obtain ⟨r, s'⟩ := r
  cases r with
  | ok b => exact hb
  | error e =>
    rcases hb with ⟨har, hl⟩ | ⟨h1, h2, h3, h4, zs, ob, l, n, h5, _⟩
    · have hk := keepsLost_destroy (cfg := cfg) v s' hl
      cases e with
      | throw w =>
        simp only
        generalize destroy cfg v s' = r at hk ⊢
        obtain ⟨r, s''⟩ := r
        cases r <;> exact Or.inl ⟨har, hk⟩
      | ub w => exact Or.inl ⟨har, hl⟩
      | assertFail w => exact Or.inl ⟨har, hl⟩
    · obtain ⟨s2, k1, k2, k3, k4, _, k6, k7⟩ := destroy_ok h3 h5.var
      have : ∃ w, e = .throw w := by rcases h2 with h | h | h <;> exact ⟨_, h⟩
      obtain ⟨w, rfl⟩ := this
      simp only
      rw [k1]
      exact Or.inr ⟨k6.trans h1, h2, k2, (h4.trans k3).vanish0 h0 k4, trivial⟩

/-- The copy constructor. -/
theorem copy_tri (hc : cfg.Ok) (hw : WInv cfg s) {cs : List Cell} (hv : s.vars v = none) (hu : Raw cfg s u cs) :
    Tri (ctorCopy cfg v u) s (fun _ s' => Done cfg v cs s s') (Err0 cfg s) :=
  (ctorCopy_tri hc hw hv hu).mono (fun _ _ h => ⟨h.1, h.2.1, h.2.2.1⟩) (fun _ _ h => h)

/-- `clone()`. -/
theorem clone_tri (hc : cfg.Ok) (hw : WInv cfg s) {cs : List Cell} (hv : s.vars v = none) (hu : Raw cfg s u cs) :
    Tri (clone cfg v u) s (fun _ s' => Done cfg v cs s s') (Err0 cfg s) := by
  have hu0 := hu
  obtain ⟨ob, l, n, h, rfl⟩ := hu
  have huv : v ≠ u := hu0.ne_of_none hv
  unfold clone
  refine Tri.step (getOb_ok h.var) ?_
  obtain ⟨core, al⟩ := ob
  cases core with
  | small c => exact copy_tri hc hw hv hu0
  | ml d m cap large =>
    cases large with
    | false => exact copy_tri hc hw hv hu0
    | true =>
      simp only
      refine Tri.bind (ctorCopy_tri hc hw hv hu0) ?_
      rintro _ s1 ⟨w1, f1, r1, sh⟩
      obtain ⟨hv1, ⟨rc, src, B⟩, hB, r, hr, hr1⟩ := sh d m cap al h.var
      simp only at hr
      subst hr
      have hm : m = n := by simpa [Core.size?] using h.size
      subst hm
      have hH : Holds cfg s1 v ⟨.ml d m cap true, al⟩ B m := ⟨hv1, by simp [cellsOf, hB], rfl⟩
      have e : l.take m = B.take m := r1.unique ⟨_, _, _, hH, rfl⟩
      refine building_tri hv ?_
      refine ((unshare_tri hc w1 hH hB hr1).strong r1).mono (fun _ s2 g => ?_) (fun _ _ g => ?_)
      · obtain ⟨g1, g2, ob', l', k', g3, g4, g5, _⟩ := g
        exact ⟨g1, f1.trans g2, ob', l', k', g3, by rw [e, g5]⟩
      · exact (g.after f1).mono (fun _ h => h) (fun _ _ h => ⟨_, h⟩)

/-- `substr(pos, n) const&`. -/
theorem substr_tri (hc : cfg.Ok) (hw : WInv cfg s) {cs : List Cell} {pos n : Nat} (hv : s.vars v = none) (hu : Raw cfg s u cs)
    (hp : pos ≤ cs.length) :
    Tri (substr cfg v u pos n) s (fun _ s' => Done cfg v ((cs.drop pos).take n) s s') (Err0 cfg s) := by
  unfold substr
  obtain ⟨p, hpp, _⟩ := hu.dataM
  obtain ⟨ob, hob⟩ := hu.var
  refine Tri.step (hu.sizeM hw) (Tri.step (enforce_ok (by simpa using hp)) (Tri.step hpp (Tri.step (getOb_ok hob) ?_)))
  have hr := hu.read hpp (i := pos) (k := min n (cs.length - pos)) (by omega)
  refine (ctorData_tri hc hw hv (hw.al u _ hob) hr).mono (fun _ s' h => ?_) (fun _ _ h => h)
  obtain ⟨h1, h2, q, h3⟩ := h
  refine ⟨h1, h2, ?_⟩
  have e : (cs.drop pos).take (min n (cs.length - pos)) = (cs.drop pos).take n := by
    by_cases hle : n ≤ cs.length - pos
    · rw [Nat.min_eq_left hle]
    · rw [Nat.min_eq_right (by omega), List.take_of_length_le (by simp), List.take_of_length_le (by simp; omega)]
  rw [← e]
  exact h3.raw

/-- `substr(pos, n) &&`. -/
theorem substrMove_tri (hc : cfg.Ok) (hw : WInv cfg s) {cs : List Cell} {pos n : Nat} (hv : s.vars v = none) (hu : Raw cfg s u cs)
    (hp : pos ≤ cs.length) :
    Tri (substrMove cfg v u pos n) s (fun _ s' => WInv cfg s' ∧ Frame (fun o => o = v ∨ o = u) s s' ∧
      Raw cfg s' v ((cs.drop pos).take n) ∧ Raw cfg s' u []) (ErrS cfg u cs s) := by
  have huv : v ≠ u := hu.ne_of_none hv
  unfold substrMove
  refine Tri.step (hu.sizeM hw) (Tri.step (enforce_ok (by simpa using hp)) ?_)
  refine Tri.bind (erase_tri hc hw hu (pos := 0) (n := pos) (by omega)) ?_
  rintro _ s1 ⟨w1, f1, q, o1⟩
  have e0 : cs.take 0 ++ cs.drop (0 + min pos (cs.length - 0)) = cs.drop pos := by
    rw [Nat.min_eq_left (by omega)]; simp
  rw [e0] at o1
  refine Tri.step (o1.raw.sizeM w1) ?_
  have hres : ∃ s2, doIf (decide (n < (cs.drop pos).length)) (resize cfg u n 0) s1 = (.ok (), s2) ∧ WInv cfg s2 ∧
      Frame (· = u) s1 s2 ∧ Raw cfg s2 u ((cs.drop pos).take n) := by
    by_cases hlt : n < (cs.drop pos).length
    · obtain ⟨s2, g1, g2, g3, g4⟩ := resize_own hc w1 o1 (n := n) (c := 0) (by omega)
      exact ⟨s2, by rw [doIf_pos (by simpa using hlt)]; exact g1, g2, g3, g4.raw⟩
    · refine ⟨s1, by rw [doIf_neg (by simpa using hlt)]; rfl, w1, Frame.refl _ _, ?_⟩
      rw [List.take_of_length_le (by omega)]
      exact o1.raw
  obtain ⟨s2, g1, g2, g3, g4⟩ := hres
  refine Tri.step g1 ?_
  have f2 := f1.trans g3
  obtain ⟨s3, k1, k2, k3, k4, k5, _⟩ := ctorMove_ok g2 (f2.none huv hv) g4
  exact Tri.of_ok k1 ⟨k2, (f2.mono (fun _ h => Or.inr h)).trans k3, k4, k5⟩

/-- `operator+`. -/
theorem concat_tri (hc : cfg.Ok) (hw : WInv cfg s) (hf : Free s) {u1 u2 : Obj} {cs ds : List Cell} (hv : s.vars v = none)
    (hv0 : v ≠ .tmp 0) (hv1 : v ≠ .tmp 1) (h1 : Raw cfg s u1 cs) (h2 : Raw cfg s u2 ds) (hn : cs.length + ds.length < M64) :
    Tri (concat cfg v u1 u2) s (fun _ s' => Done cfg v (cs ++ ds) s s') (Err0 cfg s) := by
  unfold concat
  obtain ⟨ob, hob⟩ := h1.var
  have n1 := h1.ne_of_none hv
  have n2 := h2.ne_of_none hv
  obtain ⟨s1, l1, e1, e2, e3, e4, _⟩ := ctorEmpty_ok hw hv (hw.al u1 _ hob)
  refine Tri.step (getOb_ok hob) (Tri.step e1 ?_)
  refine building_tri hv ?_
  have r1 := e3.raw (Ne.symm n1) h1
  have r2 := e3.raw (Ne.symm n2) h2
  have hf1 : Free s1 := ⟨e3.none (Ne.symm hv0) hf.1, e3.none (Ne.symm hv1) hf.2⟩
  have rv : Raw cfg s1 v [] := ⟨_, _, _, e4, by simp⟩
  have weak : ∀ {s2 : St} {zs : List Cell} {x : M Unit} {Q : Unit → St → Prop}, Frame (· = v) s s2 →
      Tri x s2 Q (ErrS cfg v zs s2) → Tri x s2 Q (Err cfg (· = v) (fun s' => ∃ zs, Raw cfg s' v zs) s) := by
    intro s2 zs x Q f1 h
    exact (Tri.later f1 h).mono (fun _ _ h => h) (fun _ _ h => h.mono (fun _ h => h) (fun _ _ h => ⟨_, h⟩))
  refine Tri.step (r1.sizeM e2) (Tri.step (r2.sizeM e2) ?_)
  refine Tri.bind (weak e3 (reserve_tri hc e2 hf1 rv)) ?_
  intro _ s2 d2
  have f2 := e3.trans d2.frame
  refine Tri.bind (weak f2 (appendStr_tri hc d2.inv (hf1.frame rv d2.frame) d2.raw (d2.frame.raw (Ne.symm n1) r1) (by simp; omega))) ?_
  intro _ s3 d3
  have f3 := f2.trans d3.frame
  refine (weak f3 (appendStr_tri hc d3.inv ((hf1.frame rv d2.frame).frame d2.raw d3.frame) d3.raw
    ((d2.frame.trans d3.frame).raw (Ne.symm n2) r2) (by simpa using hn))).mono (fun _ s4 h => ?_) (fun _ _ h => h)
  simp only [List.nil_append] at h
  exact Done.of f3 h

/-- The cells of a part, when those of the string are `cs`. -/
def Part.cells (cs : List Cell) : Part → List Cell
  | .str => cs
  | .chars xs => xs.map some
  | .char c => [some c]

theorem partSize_ok (hw : WInv cfg s) {cs : List Cell} (h : Raw cfg s u cs) (q : Part) :
    partSize cfg u q s = (.ok (q.cells cs).length, s) := by
  cases q with
  | str => exact h.sizeM hw
  | chars xs => simp [partSize, Part.cells]
  | char c => rfl

theorem addPart_tri (hc : cfg.Ok) (hw : WInv cfg s) (hf : Free s) {cs ds : List Cell} (hv : Raw cfg s v ds) (hu : Raw cfg s u cs)
    (q : Part) (hn : ds.length + (q.cells cs).length < M64) :
    Tri (addPart cfg v u q) s (fun _ s' => Done cfg v (ds ++ q.cells cs) s s') (ErrS cfg v ds s) := by
  cases q with
  | str => exact appendStr_tri hc hw hf hv hu hn
  | chars xs =>
    have hsrc : SrcOk cfg s v (.ext xs 0) (xs.map some) := Or.inl ⟨xs, 0, rfl, by simp, by simp⟩
    have := append_tri hc hw hf hv (Or.inl hsrc) hn
    rw [List.length_map] at this
    exact this
  | char c => exact pushBack_tri hc hw hf hv hn

/-- `operator+` with a C string or a character. -/
theorem plusNew_tri (hc : cfg.Ok) (hw : WInv cfg s) (hf : Free s) {cs : List Cell} (hv : s.vars v = none)
    (hv0 : v ≠ .tmp 0) (hv1 : v ≠ .tmp 1) (h1 : Raw cfg s u cs) (q1 q2 : Part) (hn : (q1.cells cs).length + (q2.cells cs).length < M64) :
    Tri (plusNew cfg v u q1 q2) s (fun _ s' => Done cfg v (q1.cells cs ++ q2.cells cs) s s') (Err0 cfg s) := by
  unfold plusNew
  obtain ⟨ob, hob⟩ := h1.var
  have n1 := h1.ne_of_none hv
  obtain ⟨s1, l1, e1, e2, e3, e4, _⟩ := ctorEmpty_ok hw hv (hw.al u _ hob)
  refine Tri.step (getOb_ok hob) (Tri.step e1 ?_)
  refine building_tri hv ?_
  have r1 := e3.raw (Ne.symm n1) h1
  have hf1 : Free s1 := ⟨e3.none (Ne.symm hv0) hf.1, e3.none (Ne.symm hv1) hf.2⟩
  have rv : Raw cfg s1 v [] := ⟨_, _, _, e4, by simp⟩
  have weak : ∀ {s2 : St} {zs : List Cell} {x : M Unit} {Q : Unit → St → Prop}, Frame (· = v) s s2 →
      Tri x s2 Q (ErrS cfg v zs s2) → Tri x s2 Q (Err cfg (· = v) (fun s' => ∃ zs, Raw cfg s' v zs) s) := by
    intro s2 zs x Q f1 h
    exact (Tri.later f1 h).mono (fun _ _ h => h) (fun _ _ h => h.mono (fun _ h => h) (fun _ _ h => ⟨_, h⟩))
  refine Tri.step (partSize_ok e2 r1 q1) (Tri.step (partSize_ok e2 r1 q2) ?_)
  refine Tri.bind (weak e3 (reserve_tri hc e2 hf1 rv)) ?_
  intro _ s2 d2
  have f2 := e3.trans d2.frame
  unfold addParts
  refine Tri.bind (weak f2 (addPart_tri hc d2.inv (hf1.frame rv d2.frame) d2.raw (d2.frame.raw (Ne.symm n1) r1) q1 (by simp; omega))) ?_
  intro _ s3 d3
  have f3 := f2.trans d3.frame
  refine (weak f3 (addPart_tri hc d3.inv ((hf1.frame rv d2.frame).frame d2.raw d3.frame) d3.raw
    ((d2.frame.trans d3.frame).raw (Ne.symm n1) r1) q2 (by simpa using hn))).mono (fun _ s4 h => ?_) (fun _ _ h => h)
  simp only [List.nil_append] at h
  exact Done.of f3 h

/-- `swap`, also with itself. -/
theorem swap_any (hw : WInv cfg s) {cs ds : List Cell} (hu : Raw cfg s u cs) (hv : Raw cfg s v ds) :
    ∃ s', swap u v s = (.ok (), s') ∧ WInv cfg s' ∧ Frame (fun o => o = u ∨ o = v) s s' ∧ Raw cfg s' u ds ∧ Raw cfg s' v cs ∧
      s'.refused = s.refused ∧ s'.lost = s.lost := by
  by_cases e : u = v
  · subst e
    have e := hu.unique hv
    subst e
    obtain ⟨ob, hob⟩ := hu.var
    refine ⟨s, ?_, hw, Frame.refl _ _, hu, hu, rfl, rfl⟩
    unfold swap
    have hs : setCore u ob.core s = (.ok (), s) := by
      rw [setCore_ok hob]
      congr 1
      rw [show (⟨ob.core, ob.al⟩ : Ob) = ob from rfl, upd_self hob]
    rw [bind_ok (getOb_ok hob), bind_ok (getOb_ok hob), bind_ok hs]
    exact hs
  · obtain ⟨a, l, n, h1, rfl⟩ := hu
    obtain ⟨b, l', n', h2, rfl⟩ := hv
    obtain ⟨s', k1, k2, k3, k4, k5, _, _, k8, k9⟩ := swap_holds hw h1 h2 e
    exact ⟨s', k1, k2, k3, ⟨_, _, _, k4, rfl⟩, ⟨_, _, _, k5, rfl⟩, k8, k9⟩

end Verif.Str
