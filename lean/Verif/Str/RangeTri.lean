import Verif.Str.RangeLow

/-!
What the functions for single pass iterators do to the characters.
-/

namespace Verif.Str.Ranges

open M

variable {β γ : Type} {cfg : Cfg} {s s' : St} {v u t : Obj} {r : Range}

/-! ### Failing -/

/-- The ways to fail: for want of memory, or because an iterator threw, which leaves all objects outside `X` as they were, and `P`. -/
def ErrI (r : Range) (cfg : Cfg) (X : Obj → Prop) (P : St → Prop) (s : St) (e : Fault) (s' : St) : Prop :=
  Err cfg X P s e s' ∨
    (none ∈ r ∧ e = .throw "iterator" ∧ WInv cfg s' ∧ Frame X s s' ∧ P s' ∧ s'.refused = s.refused ∧ s'.lost = s.lost)

theorem ErrI.mono {X Y : Obj → Prop} {P R : St → Prop} {e : Fault} (h : ErrI r cfg X P s e s') (hX : ∀ o, X o → Y o)
    (hP : Frame X s s' → P s' → R s') : ErrI r cfg Y R s e s' := by
  rcases h with h | ⟨h1, h2, h3, h4, h5, h6⟩
  · exact Or.inl (h.mono hX (fun _ => hP))
  · exact Or.inr ⟨h1, h2, h3, h4.mono hX, hP h4 h5, h6⟩

theorem ErrI.after {X : Obj → Prop} {P : St → Prop} {e : Fault} {s1 : St} (hf : Frame X s s1)
    (hq : s1.refused = s.refused ∧ s1.lost = s.lost) (h : ErrI r cfg X P s1 e s') : ErrI r cfg X P s e s' := by
  rcases h with h | ⟨h1, h2, h3, h4, h5, h6, h7⟩
  · exact Or.inl (h.after hf)
  · exact Or.inr ⟨h1, h2, h3, hf.trans h4, h5, h6.trans hq.1, h7.trans hq.2⟩

/-- Successful actions keep the flags. -/
theorem Tri.flags {x : M β} {Q : β → St → Prop} {E : Fault → St → Prop} (h : Tri x s Q E) (hq : Quiet x) :
    Tri x s (fun b s' => Q b s' ∧ s'.refused = s.refused ∧ s'.lost = s.lost) E := by
  have h1 := hq.flags s
  unfold Tri at *
  rcases e : x s with ⟨r, s1⟩
  rw [e] at h h1
  cases r with
  | ok b => exact ⟨h, h1⟩
  | error e => exact h

/-- A local object is destroyed in the end. -/
theorem withTemp_tri {body : M β} {Q Q' : β → St → Prop} {X Y : Obj → Prop} {P R : St → Prop} {s0 : St}
    (hb : Tri body s0 Q' (ErrI r cfg Y R s))
    (hq : ∀ b s', Q' b s' → ∃ s'', destroy cfg t s' = (.ok (), s'') ∧ Q b s'')
    (he : ∀ s', WInv cfg s' → Frame Y s s' → R s' → ∃ s'', destroy cfg t s' = (.ok (), s'') ∧
      s''.refused = s'.refused ∧ s''.lost = s'.lost ∧ WInv cfg s'' ∧ Frame X s s'' ∧ P s'') :
    Tri (withTemp cfg t body) s0 Q (ErrI r cfg X P s) := by
  rcases e : body s0 with ⟨x, s'⟩
  have hb' := hb
  unfold Tri at hb'
  rw [e] at hb'
  have old : Tri body s0 Q' (Err cfg Y R s) → Tri (withTemp cfg t body) s0 Q (ErrI r cfg X P s) := fun h =>
    (Str.withTemp_tri h hq (fun s' h1 h2 h3 => by
      obtain ⟨s'', g1, g2, _, g4⟩ := he s' h1 h2 h3
      exact ⟨s'', g1, fun h => g2.trans h, g4⟩)).mono (fun _ _ h => h) (fun _ _ h => Or.inl h)
  cases x with
  | ok b => exact old (Tri.of_ok e hb')
  | error f =>
    rcases hb' with h | ⟨h1, rfl, h3, h4, h5, h6, h7⟩
    · exact old (Tri.of_err e h)
    · obtain ⟨s'', g1, g2, g3, g4, g5, g6⟩ := he s' h3 h4 h5
      refine Tri.of_err (e := .throw "iterator") (s' := s'') ?_ (Or.inr ⟨h1, rfl, g4, g5, g6, g2.trans h6, g3.trans h7⟩)
      unfold withTemp
      simp only [e, g1]

/-- A string under construction leaves no trace. -/
theorem building_tri {body : M Unit} {Q : Unit → St → Prop} {s1 : St} (h0 : s.vars v = none)
    (hb : Tri body s1 Q (ErrI r cfg (· = v) (fun s' => ∃ zs, Raw cfg s' v zs) s)) :
    Tri (building cfg v body) s1 Q (ErrI r cfg (fun _ => False) (fun _ => True) s) := by
  rcases e : body s1 with ⟨x, s'⟩
  have hb' := hb
  unfold Tri at hb'
  rw [e] at hb'
  have old : Tri body s1 Q (Err cfg (· = v) (fun s' => ∃ zs, Raw cfg s' v zs) s) →
      Tri (building cfg v body) s1 Q (ErrI r cfg (fun _ => False) (fun _ => True) s) := fun h =>
    (Str.building_tri h0 h).mono (fun _ _ h => h) (fun _ _ h => Or.inl h)
  cases x with
  | ok b => exact old (Tri.of_ok e hb')
  | error f =>
    rcases hb' with h | ⟨h1, rfl, h3, h4, ⟨zs, ob, l, n, h5, _⟩, h6, h7⟩
    · exact old (Tri.of_err e h)
    · obtain ⟨s2, k1, k2, k3, k4, _, k6, k7⟩ := destroy_ok h3 h5.var
      refine Tri.of_err (e := .throw "iterator") (s' := s2) ?_
        (Or.inr ⟨h1, rfl, k2, (h4.trans k3).vanish0 h0 k4, trivial, k6.trans h6, k7.trans h7⟩)
      unfold building
      simp only [e, k1]

/-! ### The loop -/

theorem pushRange_quiet (t : Obj) : ∀ r : Range, Quiet (pushRange cfg t r)
  | [] => by unfold pushRange; quiet
  | none :: _ => by unfold pushRange; quiet
  | some c :: r => by
    unfold pushRange
    quiet
    exact pushRange_quiet t r

/-- The characters of the range are added one by one. -/
theorem pushRange_tri (hc : cfg.Ok) {n : Nat} : ∀ (r : Range) {s : St} {cs : List Cell}, WInv cfg s → Free s →
    Raw cfg s (.tmp (n + 2)) cs → cs.length + (given r).length < M64 →
    Tri (pushRange cfg (.tmp (n + 2)) r) s
      (fun _ s' => Done cfg (.tmp (n + 2)) (cs ++ (given r).map some) s s' ∧ none ∉ r)
      (ErrI r cfg (· = .tmp (n + 2)) (fun s' => ∃ zs, Raw cfg s' (.tmp (n + 2)) zs) s)
  | [], s, cs, hw, _, hv, _ => by
    refine Tri.ret ⟨⟨hw, Frame.refl _ _, ?_⟩, by simp⟩
    simpa [given] using hv
  | none :: r, s, cs, hw, _, hv, _ =>
    Tri.of_err rfl (Or.inr ⟨by simp, rfl, hw, Frame.refl _ _, ⟨_, hv⟩, rfl, rfl⟩)
  | some c :: r, s, cs, hw, hf, hv, hn => by
    unfold pushRange
    simp only [given, List.length_cons] at hn
    refine Tri.bind (Tri.flags ((pushBack_tri hc hw hf hv (c := c) (by omega)).mono (fun _ _ h => h)
      (fun _ _ h => Or.inl (h.mono (fun _ h => h) (fun _ _ h => ⟨_, h⟩)))) (by quiet)) ?_
    rintro _ s1 ⟨d1, q1⟩
    refine (pushRange_tri hc r d1.inv (hf.frameT d1.frame) d1.raw (by simp; omega)).mono ?_ ?_
    · rintro _ s2 ⟨d2, h2⟩
      refine ⟨⟨d2.inv, d1.frame.trans d2.frame, ?_⟩, by simpa using h2⟩
      simpa [given] using d2.raw
    · intro e s2 h
      have := h.after d1.frame q1
      rcases this with h | ⟨h1, h2⟩
      · exact Or.inl h
      · exact Or.inr ⟨by simp [h1], h2⟩

/-! ### insert -/

theorem distance_ok (hw : WInv cfg s) {cs : List Cell} {q : Ptr} {pos : Nat} (hv : Raw cfg s v cs) (hq : dataPtr v s = (.ok q, s))
    (hp : pos ≤ cs.length) : distance cfg v q (q.add pos) s = (.ok pos, s) := by
  unfold distance
  have hs : (q.add pos).same q = true := by
    obtain ⟨ob, l, n, h, _⟩ := hv
    rw [h.dataM] at hq; cases hq
    have := Ptr.same_add (ob.core.ptr v) (ob.core.ptr v) pos 0
    rw [Ptr.add_zero] at this
    rw [this]; simp
  rw [bind_ok (hv.sizeM hw)]
  rw [if_pos (by rw [hs]; simp [hp])]
  simp

/-- Exchanging with an unshared temporary, then destroying it. -/
theorem Own.after {X : Obj → Prop} {p : Ptr} {cs : List Cell} (h : Own cfg s v p cs) (hf : Frame X s s') (hX : ¬ X v)
    (hx : Excl s v → Excl s' v) : Own cfg s' v p cs := by
  obtain ⟨ob, l, n, h1, h2, h3, h4⟩ := h
  exact ⟨ob, l, n, hf.holds hX h1, hx h2, h3, h4⟩

theorem Own.excl {p : Ptr} {cs : List Cell} (h : Own cfg s v p cs) : Excl s v := by
  obtain ⟨_, _, _, _, h2, _⟩ := h
  exact h2

/-- What is left of `temp` when a function that made it failed. -/
theorem destroyTemp (h0 : s.vars t = none) (hw : WInv cfg s') (hf : Frame (· = t) s s') (hz : ∃ zs, Raw cfg s' t zs) :
    ∃ s'', destroy cfg t s' = (.ok (), s'') ∧ s''.refused = s'.refused ∧ s''.lost = s'.lost ∧ WInv cfg s'' ∧
      Frame (fun _ => False) s s'' ∧ True := by
  obtain ⟨zs, ob, l, n, h5, _⟩ := hz
  obtain ⟨s2, k1, k2, k3, k4, _, k6, k7⟩ := destroy_ok hw h5.var
  exact ⟨s2, k1, k6, k7, k2, (hf.trans k3).vanish0 h0 k4, trivial⟩

/-- The string and the temporary after the exchange. -/
structure Swapped (cfg : Cfg) (v t : Obj) (cs : List Cell) (s s' : St) : Prop where
  inv : WInv cfg s'
  frame : Frame (fun o => o = t ∨ o = v) s s'
  temp : ∃ zs, Raw cfg s' t zs
  own : ∃ p, Own cfg s' v p cs

theorem Swapped.destroy {cs : List Cell} (h0 : s.vars t = none) (hvt : v ≠ t) (h : Swapped cfg v t cs s s') :
    ∃ s'', Str.destroy cfg t s' = (.ok (), s'') ∧ DoneX cfg v cs s s'' := by
  obtain ⟨h1, h2, ⟨zs, ob, l, n, h5, _⟩, p, h6⟩ := h
  obtain ⟨s2, k1, k2, k3, k4, k5, _⟩ := destroy_ok h1 h5.var
  exact ⟨s2, k1, k2, (h2.trans (k3.mono (fun _ h => Or.inl h))).vanish h0 k4, p, Own.after h6 k3 hvt (k5 v hvt)⟩

/-- The last step: exchange with `temp`. -/
theorem swap_swapped {cs zs : List Cell} {p : Ptr} (hw : WInv cfg s') (hf : Frame (· = t) s s') (ht : Own cfg s' t p cs)
    (hv : Raw cfg s' v zs) (hvt : v ≠ t) : ∃ s'', swap v t s' = (.ok (), s'') ∧ Swapped cfg v t cs s s'' := by
  obtain ⟨obt, lt, nt, gt, xt, _, et⟩ := ht
  obtain ⟨obv, lv, nv, gv, ev⟩ := hv
  obtain ⟨s5, e1, e2, e3, e4, e5, e6, e7, _⟩ := swap_holds hw gv gt hvt
  exact ⟨s5, e1, e2, (hf.mono (fun _ h => Or.inl h)).trans (e3.mono (fun _ h => h.symm)), ⟨_, _, _, _, e5, rfl⟩,
    _, _, _, _, e4, e7 xt, rfl, et⟩

/-- `insert(i, b, e)` for input iterators. -/
theorem insertInputAt_tri (hc : cfg.Ok) (hw : WInv cfg s) (hf : Free s) {n : Nat} (h0 : s.vars (.tmp (n + 2)) = none) {cs : List Cell}
    {q : Ptr} (hv : Raw cfg s v cs) (hq : dataPtr v s = (.ok q, s)) {pos : Nat} (hp : pos ≤ cs.length)
    (hn : cs.length + (given r).length < M64) :
    Tri (insertInputAt cfg v (.tmp (n + 2)) (q.add pos) r) s
      (fun _ s' => DoneX cfg v (cs.take pos ++ (given r).map some ++ cs.drop pos) s s' ∧ none ∉ r)
      (ErrI r cfg (fun _ => False) (fun _ => True) s) := by
  have hvt : v ≠ .tmp (n + 2) := Ne.symm (hv.ne_of_none h0)
  obtain ⟨ob, hob⟩ := hv.var
  unfold insertInputAt
  refine Tri.step hq (Tri.step (distance_ok hw hv hq hp) (Tri.step (getOb_ok hob) ?_))
  have hread := hv.read hq (i := 0) (k := pos) (by omega)
  rw [Ptr.add_zero, List.drop_zero] at hread
  refine Tri.bind (Tri.flags ((ctorData_tri hc hw h0 (hw.al v _ hob) hread).mono (fun _ _ h => h) (fun _ _ h => Or.inl h)) (by quiet)) ?_
  rintro _ s1 ⟨⟨w1, f1, p1, o1⟩, q1⟩
  refine withTemp_tri (Q' := fun _ s' => Swapped cfg v (.tmp (n + 2)) (cs.take pos ++ (given r).map some ++ cs.drop pos) s s' ∧ none ∉ r)
    (Y := (· = .tmp (n + 2))) (R := fun s' => ∃ zs, Raw cfg s' (.tmp (n + 2)) zs) ?_ ?_ (fun s' h1 h2 h3 => destroyTemp h0 h1 h2 h3)
  · unfold insertInputBody
    refine Tri.bind (Tri.flags ((pushRange_tri hc r w1 (hf.frameT f1) o1.raw (by simp; omega)).mono (fun _ _ h => h)
      (fun _ _ h => h.after f1 q1)) (pushRange_quiet _ _)) ?_
    rintro _ s2 ⟨⟨d2, hr⟩, q2⟩
    have f2 := f1.trans d2.frame
    refine Tri.step ((f2.raw hvt hv).sizeM d2.inv) ?_
    have src := (hv.srcPart hw hq hvt (i := pos) (k := cs.length - pos) (by omega)).frame f2
    have l3 : ((cs.drop pos).take (cs.length - pos)).length = cs.length - pos := by simp
    have a3 := appendRange_tri hc d2.inv (hf.frameT f2) d2.raw src (by simp; omega)
    rw [l3] at a3
    refine Tri.bind (a3.mono (fun _ _ h => h) (fun _ _ h => Or.inl ((h.after f2).mono (fun _ h => h) (fun _ _ h => ⟨_, h⟩)))) ?_
    rintro _ s3 ⟨w3, f3, p3, o3⟩
    have e3 : (cs.drop pos).take (cs.length - pos) = cs.drop pos := List.take_of_length_le (by simp)
    rw [e3] at o3
    obtain ⟨s4, e1, e2⟩ := swap_swapped w3 (f2.trans f3) o3 ((f2.trans f3).raw hvt hv) hvt
    refine Tri.step e1 ?_
    obtain ⟨p, hp⟩ := e2.own
    refine Tri.step (begin_own e2.inv hp) (Tri.ret ⟨?_, hr⟩)
    simpa using e2
  · rintro _ s' ⟨h, hr⟩
    obtain ⟨s'', k1, k2⟩ := h.destroy h0 hvt
    exact ⟨s'', k1, k2, hr⟩

/-- `s.insert(s.begin() + pos, b, e)` for input iterators. -/
theorem insertInput_tri (hc : cfg.Ok) (hw : WInv cfg s) (hf : Free s) {n : Nat} (h0 : s.vars (.tmp (n + 2)) = none) {cs : List Cell}
    (hv : Raw cfg s v cs) {pos : Nat} (hp : pos ≤ cs.length) (hn : cs.length + (given r).length < M64) :
    Tri (insertInput cfg v (.tmp (n + 2)) pos r) s
      (fun _ s' => DoneX cfg v (cs.take pos ++ (given r).map some ++ cs.drop pos) s s' ∧ none ∉ r)
      (ErrI r cfg (· = v) (fun s' => Raw cfg s' v cs) s) := by
  unfold insertInput
  refine Tri.bind (Tri.flags (((begin_tri hc hw hv).strong hv).mono (fun _ _ h => h) (fun _ _ h => Or.inl h)) (by quiet)) ?_
  rintro b s1 ⟨⟨w1, f1, o1⟩, q1⟩
  have h01 := f1.none (hv.ne_of_none h0) h0
  refine (insertInputAt_tri hc w1 (hf.frame hv f1) h01 o1.raw o1.dataM hp hn).mono ?_ ?_
  · rintro _ s2 ⟨⟨a, b, c⟩, hr⟩
    exact ⟨⟨a, f1.trans b, c⟩, hr⟩
  · intro e s2 h
    exact (h.mono (fun _ h => h.elim) (fun f _ => f.raw id o1.raw)).after f1 q1

theorem appendInput_tri (hc : cfg.Ok) (hw : WInv cfg s) (hf : Free s) {n : Nat} (h0 : s.vars (.tmp (n + 2)) = none) {cs : List Cell}
    (hv : Raw cfg s v cs) (hn : cs.length + (given r).length < M64) :
    Tri (appendInput cfg v (.tmp (n + 2)) r) s
      (fun _ s' => DoneX cfg v (cs ++ (given r).map some) s s' ∧ none ∉ r)
      (ErrI r cfg (· = v) (fun s' => Raw cfg s' v cs) s) := by
  unfold appendInput
  refine Tri.bind (Tri.flags (((begin_tri hc hw hv).strong hv).mono (fun _ _ h => h) (fun _ _ h => Or.inl h)) (by quiet)) ?_
  rintro b s1 ⟨⟨w1, f1, o1⟩, q1⟩
  have h01 := f1.none (hv.ne_of_none h0) h0
  refine Tri.step (o1.raw.sizeM w1) ?_
  refine (insertInputAt_tri hc w1 (hf.frame hv f1) h01 o1.raw o1.dataM (Nat.le_refl _) hn).mono ?_ ?_
  · rintro _ s2 ⟨⟨a, b, c⟩, hr⟩
    exact ⟨⟨a, f1.trans b, by simpa using c⟩, hr⟩
  · intro e s2 h
    exact (h.mono (fun _ h => h.elim) (fun f _ => f.raw id o1.raw)).after f1 q1

/-! ### replace -/

/-- `replace(i1, i1 + n1, b, e)` for input iterators, of an unshared string. -/
theorem replaceInputAt_tri (hc : cfg.Ok) (hw : WInv cfg s) (hf : Free s) (h0 : s.vars (.tmp 2) = none) (h3 : s.vars (.tmp 3) = none)
    {cs : List Cell} {q : Ptr} (hv : Own cfg s v q cs) {pos n1 : Nat} (hp : pos + n1 ≤ cs.length)
    (hn : cs.length - n1 + (given r).length < M64) :
    Tri (replaceInputAt cfg v (q.add pos) n1 r) s
      (fun _ s' => DoneX cfg v (cs.take pos ++ (given r).map some ++ cs.drop (pos + n1)) s s' ∧ none ∉ r)
      (ErrI r cfg (fun _ => False) (fun _ => True) s) := by
  have hvt : v ≠ .tmp 2 := Ne.symm (hv.raw.ne_of_none h0)
  obtain ⟨ob, hob⟩ := hv.raw.var
  unfold replaceInputAt
  refine Tri.step (begin_own hw hv) (Tri.step (distance_ok hw hv.raw hv.dataM (by omega)) (Tri.step (getOb_ok hob) ?_))
  have hread := hv.raw.read hv.dataM (i := 0) (k := pos) (by omega)
  rw [Ptr.add_zero, List.drop_zero] at hread
  have hcd := ctorData_tri hc hw h0 (hw.al v _ hob) hread
  -- the unshared string stays unshared
  have hcd' : Tri (ctorData cfg (.tmp 2) ob.al q pos) s
      (fun _ s' => (Made cfg (.tmp 2) (cs.take pos) s s' ∧ Excl s' v) ∧ s'.refused = s.refused ∧ s'.lost = s.lost)
      (ErrI r cfg (fun _ => False) (fun _ => True) s) := by
    refine Tri.flags ?_ (by quiet)
    rcases e : ctorData cfg (.tmp 2) ob.al q pos s with ⟨x, s1⟩
    unfold Tri at hcd ⊢
    rw [e] at hcd ⊢
    cases x with
    | ok _ => exact ⟨hcd, Low.excl (by low) e hw hcd.inv hcd.frame hvt (Own.excl hv)⟩
    | error f => exact Or.inl hcd
  refine Tri.bind hcd' ?_
  rintro _ s1 ⟨⟨⟨w1, f1, p1, o1⟩, x1⟩, q1⟩
  have v1 : Own cfg s1 v q cs := Own.after hv f1 hvt (fun _ => x1)
  refine withTemp_tri (Q' := fun _ s' => Swapped cfg v (.tmp 2) (cs.take pos ++ (given r).map some ++ cs.drop (pos + n1)) s s' ∧ none ∉ r)
    (Y := (· = .tmp 2)) (R := fun s' => ∃ zs, Raw cfg s' (.tmp 2) zs) ?_ ?_ (fun s' h1 h2 h3 => destroyTemp h0 h1 h2 h3)
  · unfold replaceInputBody
    have hai := appendInput_tri (n := 1) (r := r) hc w1 (hf.frameT (n := 0) f1) (f1.none (by simp) h3) o1.raw (by simp; omega)
    have hai' : Tri (appendInput cfg (.tmp 2) (.tmp 3) r) s1
        (fun _ s' => (DoneX cfg (.tmp 2) (cs.take pos ++ (given r).map some) s1 s' ∧ none ∉ r) ∧ Excl s' v)
        (ErrI r cfg (· = .tmp 2) (fun s' => ∃ zs, Raw cfg s' (.tmp 2) zs) s) := by
      rcases e : appendInput cfg (.tmp 2) (.tmp 3) r s1 with ⟨x, s2⟩
      unfold Tri at hai ⊢
      rw [e] at hai ⊢
      cases x with
      | ok _ => exact ⟨hai, Low.excl (by low) e w1 hai.1.inv hai.1.frame hvt x1⟩
      | error f => exact (hai.mono (fun _ h => h) (fun _ h => ⟨_, h⟩)).after f1 q1
    refine Tri.bind hai' ?_
    rintro _ s2 ⟨⟨⟨w2, g2, p2, o2⟩, hr⟩, x2⟩
    have f2 := f1.trans g2
    have v2 : Own cfg s2 v q cs := Own.after hv f2 hvt (fun _ => x2)
    refine Tri.step (begin_own w2 v2) (Tri.step (v2.raw.sizeM w2) ?_)
    have src := v2.raw.srcPart w2 v2.dataM hvt (i := pos + n1) (k := cs.length - (pos + n1)) (by omega)
    have l3 : ((cs.drop (pos + n1)).take (cs.length - (pos + n1))).length = cs.length - (pos + n1) := by simp
    have a3 := appendRange_tri hc w2 (hf.frameT (n := 0) f2) o2.raw src (by simp; omega)
    rw [l3] at a3
    rw [Ptr.add_add]
    refine Tri.bind (a3.mono (fun _ _ h => h) (fun _ _ h => Or.inl ((h.after f2).mono (fun _ h => h) (fun _ _ h => ⟨_, h⟩)))) ?_
    rintro _ s3 ⟨w3, g3, p3, o3⟩
    have e3 : (cs.drop (pos + n1)).take (cs.length - (pos + n1)) = cs.drop (pos + n1) := List.take_of_length_le (by simp)
    rw [e3] at o3
    obtain ⟨s4, e1, e2⟩ := swap_swapped w3 (f2.trans g3) o3 ((f2.trans g3).raw hvt hv.raw) hvt
    exact Tri.of_ok e1 ⟨e2, hr⟩
  · rintro _ s' ⟨h, hr⟩
    obtain ⟨s'', k1, k2⟩ := h.destroy h0 hvt
    exact ⟨s'', k1, k2, hr⟩

/-- `s.replace(s.begin() + pos, s.begin() + pos + n1, b, e)` for input iterators. -/
theorem replaceInput_tri (hc : cfg.Ok) (hw : WInv cfg s) (hf : Free s) (h0 : s.vars (.tmp 2) = none) (h3 : s.vars (.tmp 3) = none)
    {cs : List Cell} (hv : Raw cfg s v cs) {pos n1 : Nat} (hp : pos + n1 ≤ cs.length)
    (hn : cs.length - n1 + (given r).length < M64) :
    Tri (replaceInput cfg v pos n1 r) s
      (fun _ s' => DoneX cfg v (cs.take pos ++ (given r).map some ++ cs.drop (pos + n1)) s s' ∧ none ∉ r)
      (ErrI r cfg (· = v) (fun s' => Raw cfg s' v cs) s) := by
  unfold replaceInput
  refine Tri.bind (Tri.flags (((begin_tri hc hw hv).strong hv).mono (fun _ _ h => h) (fun _ _ h => Or.inl h)) (by quiet)) ?_
  rintro b s1 ⟨⟨w1, f1, o1⟩, q1⟩
  refine (replaceInputAt_tri hc w1 (hf.frame hv f1) (f1.none (hv.ne_of_none h0) h0) (f1.none (hv.ne_of_none h3) h3) o1 hp hn).mono ?_ ?_
  · rintro _ s2 ⟨⟨a, b, c⟩, hr⟩
    exact ⟨⟨a, f1.trans b, c⟩, hr⟩
  · intro e s2 h
    exact (h.mono (fun _ h => h.elim) (fun f _ => f.raw id o1.raw)).after f1 q1

/-- `assign(b, e)` for input iterators. -/
theorem assignInput_tri (hc : cfg.Ok) (hw : WInv cfg s) (hf : Free s) (h0 : s.vars (.tmp 2) = none) (h3 : s.vars (.tmp 3) = none)
    {cs : List Cell} (hv : Raw cfg s v cs) (hn : (given r).length < M64) :
    Tri (assignInput cfg v r) s
      (fun _ s' => DoneX cfg v ((given r).map some) s s' ∧ none ∉ r)
      (ErrI r cfg (· = v) (fun s' => Raw cfg s' v cs) s) := by
  unfold assignInput
  refine Tri.bind (Tri.flags (((begin_tri hc hw hv).strong hv).mono (fun _ _ h => h) (fun _ _ h => Or.inl h)) (by quiet)) ?_
  rintro b s1 ⟨⟨w1, f1, o1⟩, q1⟩
  refine Tri.step (o1.raw.sizeM w1) ?_
  have := replaceInputAt_tri (r := r) (pos := 0) (n1 := cs.length) hc w1 (hf.frame hv f1) (f1.none (hv.ne_of_none h0) h0)
    (f1.none (hv.ne_of_none h3) h3) o1 (by omega) (by omega)
  rw [Ptr.add_zero] at this
  refine this.mono ?_ ?_
  · rintro _ s2 ⟨⟨a, b, c⟩, hr⟩
    exact ⟨⟨a, f1.trans b, by simpa using c⟩, hr⟩
  · intro e s2 h
    exact (h.mono (fun _ h => h.elim) (fun f _ => f.raw id o1.raw)).after f1 q1

/-- The constructor from input iterators. -/
theorem makeInput_tri (hc : cfg.Ok) (hw : WInv cfg s) (hf : Free s) (h0 : s.vars (.tmp 2) = none) (h3 : s.vars (.tmp 3) = none)
    {i al : Nat} (hv : s.vars (.user i) = none) (ha : cfg.arena = (al != 0)) (hn : (given r).length < M64) :
    Tri (makeInput cfg (.user i) al r) s
      (fun _ s' => Done cfg (.user i) ((given r).map some) s s' ∧ none ∉ r)
      (ErrI r cfg (fun _ => False) (fun _ => True) s) := by
  obtain ⟨s1, l1, e1, e2, e3, e4, e5, e6⟩ := ctorEmpty_ok hw (v := .user i) (al := al) hv ha
  unfold makeInput
  refine Tri.step e1 (building_tri hv ?_)
  have f0 : Free s1 := ⟨e3.none (by simp) hf.1, e3.none (by simp) hf.2⟩
  refine (assignInput_tri (r := r) hc e2 f0 (e3.none (by simp) h0) (e3.none (by simp) h3) (cs := []) ⟨_, _, _, e4, by simp⟩ hn).mono ?_ ?_
  · rintro _ s2 ⟨h, hr⟩
    exact ⟨⟨h.inv, e3.trans h.frame, h.done.raw⟩, hr⟩
  · intro e s2 h
    exact (h.mono (fun _ h => h) (fun _ h => ⟨_, h⟩)).after e3 ⟨e5, e6⟩

end Verif.Str.Ranges
