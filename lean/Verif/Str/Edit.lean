import Verif.Str.Ops

/-!
What assignment, insertion, erasure and replacement do to the characters of a string.
-/

namespace Verif.Str

open M

variable {β γ : Type} {cfg : Cfg} {s s' : St} {v u t : Obj}

/-- All characters of a list have values. -/
def Full (cs : List Cell) : Prop := ∃ xs : List Ch, cs = xs.map some

/-- Failing with the string in some valid state. -/
abbrev ErrB (cfg : Cfg) (v : Obj) (s : St) (e : Fault) (s' : St) : Prop :=
  Err cfg (· = v) (fun s' => ∃ xs, Reads cfg s' v xs) s e s'

theorem ErrS.basic {e : Fault} {cs : List Cell} (hcs : Full cs) (h : ErrS cfg v cs s e s') : ErrB cfg v s e s' := by
  obtain ⟨xs, rfl⟩ := hcs
  exact h.mono (fun _ h => h) (fun _ _ h => ⟨xs, h⟩)

theorem Tri.basic {x : M β} {Q : β → St → Prop} {cs : List Cell} (hcs : Full cs) (h : Tri x s Q (ErrS cfg v cs s)) :
    Tri x s Q (ErrB cfg v s) := h.mono (fun _ _ h => h) (fun _ _ h => h.basic hcs)

/-- Outcome with the string unshared. -/
structure DoneX (cfg : Cfg) (v : Obj) (cs : List Cell) (s s' : St) : Prop where
  inv : WInv cfg s'
  frame : Frame (· = v) s s'
  own : ∃ p, Own cfg s' v p cs

theorem DoneX.done {cs : List Cell} (h : DoneX cfg v cs s s') : Done cfg v cs s s' := by
  obtain ⟨h1, h2, p, h3⟩ := h
  exact ⟨h1, h2, h3.raw⟩

theorem DoneX.check {cs : List Cell} (h : DoneX cfg v cs s s') : WInv cfg s' ∧ ∃ cs, Raw cfg s' v cs := h.done.check

/-! ### assign -/

theorem expand_tri (hc : cfg.Ok) (hw : WInv cfg s) (hf : Free s) {cs : List Cell} (hv : Raw cfg s v cs) {delta : Nat} (exp : Bool)
    (hn : cs.length + delta < M64) :
    Tri (expandNoinit cfg v delta exp) s (fun r s' => Expanded cfg v cs delta r s s') (ErrS cfg v cs s) := by
  have hv0 := hv
  obtain ⟨ob, l, n, h, rfl⟩ := hv
  have hl := Raw.length_take hw h
  exact (expandNoinit_tri hc hw exp h hf.1 (by omega)).strong hv0

theorem put_take_front {cs ys : List Cell} : (put cs 0 ys).take ys.length = ys := by
  unfold put; simp

/-- The cases of `assign`. -/
theorem assignBy_tri (hc : cfg.Ok) (hw : WInv cfg s) (hf : Free s) {cs ys : List Cell} {p : Ptr} (hv : Raw cfg s v cs) (hcs : Full cs)
    (hp : SrcOk cfg s v p ys ∨ OwnSrc cfg s v p ys) (hn : ys.length < M64) :
    Tri (assignBy cfg v p ys.length cs.length) s (fun _ s' => Done cfg v ys s s') (ErrB cfg v s) := by
  unfold assignBy
  split
  · next h0 =>
    have : ys = [] := List.length_eq_zero_iff.1 h0
    subst this
    exact ((resize_tri hc hw hf hv (n := 0) (c := 0) (by decide)).basic hcs).mono (fun _ _ h => by simpa using h) (fun _ _ h => h)
  · next h0 =>
    split
    · next hle =>
      obtain ⟨q0, hq0, _⟩ := hv.dataM
      refine Tri.bind (((mutableData_full hc hw hv hq0).strong hv).basic hcs) ?_
      rintro q s1 ⟨w1, f1, o1, alt⟩
      have hmove : ∃ s2, podMove p ys.length q s1 = (.ok (), s2) ∧ WInv cfg s2 ∧ Frame (· = v) s1 s2 ∧ Own cfg s2 v q (put cs 0 ys) := by
        obtain ⟨s2, e1, e2, e3, e4, _⟩ := o1.write w1 (xs := ys) (i := 0) (by omega)
        rw [Ptr.add_zero] at e1
        refine ⟨s2, ?_, e2, e3, e4⟩
        have hr : readCells p ys.length s1 = (.ok ys, s1) := by
          rcases hp with hp | ⟨ob, l, n, i, g1, rfl, g3, g4⟩
          · exact (hp.frame f1).read w1
          · rw [g1.dataM] at hq0; cases hq0
            have e : cs = l.take n := hv.unique ⟨ob, l, n, g1, rfl⟩
            have hl := Raw.length_take hw g1
            rcases alt with ⟨rfl, _⟩ | ⟨_, alt⟩
            · exact OwnSrc.read hw ⟨ob, l, n, i, g1, rfl, g3, g4⟩
            · rw [alt i ys.length (by rw [e, hl]; exact g3)]
              congr 2
              rw [e, List.drop_take, List.take_take, Nat.min_eq_left (by omega)]
              exact g4.symm
        unfold podMove
        rw [bind_ok hr]; exact e1
      obtain ⟨s2, e1, e2, e3, e4⟩ := hmove
      have hpl : (put cs 0 ys).length = cs.length := put_length (by omega)
      refine Tri.step e1 (Tri.step (e4.raw.sizeM e2) ?_)
      rw [hpl]
      obtain ⟨s3, g1, g2, g3, g4⟩ := shrink_own hc e2 e4 (delta := cs.length - ys.length) (by omega)
      rw [hpl, show cs.length - (cs.length - ys.length) = ys.length by omega, put_take_front] at g4
      exact Tri.of_ok g1 ⟨g2, (f1.trans e3).trans g3, g4.raw⟩
    · next hgt =>
      have hsrc : SrcOk cfg s v p ys := by
        rcases hp with hp | ⟨ob, l, n, i, g1, rfl, g3, g4⟩
        · exact hp
        · exfalso
          have e : cs = l.take n := hv.unique ⟨ob, l, n, g1, rfl⟩
          have hl := Raw.length_take hw g1
          have : cs.length = n := by rw [e, hl]
          omega
      refine Tri.bind ((resize_tri hc hw hf hv (n := 0) (c := 0) (by decide)).basic hcs) ?_
      rintro _ s1 ⟨w1, f1, r1⟩
      simp only [List.take_zero, Nat.zero_sub, List.replicate_zero, List.append_nil] at r1
      refine Tri.bind (Tri.later f1 ((expand_tri hc w1 (hf.frame hv f1) r1 (delta := ys.length) false (by simpa using hn)).basic ⟨[], rfl⟩)) ?_
      rintro r s2 ⟨w2, f2, p', cs', h1, h2, h3, h4, rfl, h6⟩
      obtain ⟨s3, e0, e1, e2, e3, e4⟩ := (h6 h0).copyFrom w2 ((hsrc.frame f1).frame f2) (j := ([] : List Cell).length) (by simp at h3 ⊢; omega)
      rw [put_tail h3 h4] at e4
      exact Tri.of_ok e1 ⟨e2, (f1.trans f2).trans e3, e4.raw⟩

theorem basic_check {X : Obj → Prop} (s' : St) (_ : WInv cfg s') (_ : Frame X s s') (h : ∃ xs, Reads cfg s' v xs) : ∃ cs, Raw cfg s' v cs := by
  obtain ⟨xs, h⟩ := h
  exact ⟨_, h⟩

/-- `assign(s, n)`. -/
theorem assign_tri (hc : cfg.Ok) (hw : WInv cfg s) (hf : Free s) {cs ys : List Cell} {p : Ptr} (hv : Raw cfg s v cs) (hcs : Full cs)
    (hp : SrcOk cfg s v p ys ∨ OwnSrc cfg s v p ys) (hn : ys.length < M64) :
    Tri (assign cfg v p ys.length) s (fun _ s' => Done cfg v ys s s') (ErrB cfg v s) := by
  unfold assign
  refine checker_tri hw hv ?_ (fun _ _ h => h.check) basic_check
  refine Tri.step (hv.sizeM hw) ?_
  refine Tri.bind (assignBy_tri hc hw hf hv hcs hp hn) ?_
  intro _ s1 h1
  exact Tri.step (h1.raw.sizeM h1.inv) (Tri.of_ok (assert_ok (by simp) _) h1)

/-- `operator=(const basic_string&)`. -/
theorem assignStr_tri (hc : cfg.Ok) (hw : WInv cfg s) (hf : Free s) {cs ys : List Cell} (hv : Raw cfg s v cs) (hcs : Full cs)
    (hu : Raw cfg s u ys) :
    Tri (assignStr cfg v u) s (fun _ s' => Done cfg v ys s s') (ErrB cfg v s) := by
  unfold assignStr
  refine checker_tri hw hv ?_ (fun _ _ h => h.check) basic_check
  split
  · next e =>
    subst e
    exact Tri.ret ⟨hw, Frame.refl _ _, hu⟩
  · next e =>
    obtain ⟨p, hp, _, hsrc⟩ := hu.src (v := v) hw
    refine Tri.step (hu.sizeM hw) (Tri.step hp ?_)
    exact assign_tri hc hw hf hv hcs (Or.inl (hsrc e)) (by have := hu.short hc hw; omega)

/-- `operator=(basic_string&&)`. -/
theorem assignMove_ok (hw : WInv cfg s) {cs ys : List Cell} (hv : Raw cfg s v cs) (hu : Raw cfg s u ys) (huv : u ≠ v) :
    ∃ s', assignMove cfg v u s = (.ok (), s') ∧ WInv cfg s' ∧ Frame (fun o => o = v ∨ o = u) s s' ∧ Raw cfg s' v ys ∧ Raw cfg s' u [] ∧
      s'.refused = s.refused ∧ s'.lost = s.lost := by
  obtain ⟨ob, hvar⟩ := hv.var
  obtain ⟨s1, e1, e2, e3, e4, e5, e6, e7⟩ := destroy_ok hw hvar
  obtain ⟨s2, g1, g2, g3, g4, g5, g6, g7⟩ := ctorMove_ok e2 e4 (e3.raw huv hu)
  refine ⟨s2, ?_, g2, (e3.mono (fun _ h => Or.inl h)).trans g3, g4, g5, g6.trans e6, g7.trans e7⟩
  refine noexcept_ok ?_
  rw [if_neg huv, bind_ok e1]
  exact g1

/-- `front() = c` of a string with one character. -/
theorem setFront_tri (hc : cfg.Ok) (hw : WInv cfg s) {cs : List Cell} (hv : Raw cfg s v cs) {c : Ch} (h1 : cs.length = 1) :
    Tri (setFront cfg v c) s (fun _ s' => Done cfg v [some c] s s') (ErrS cfg v cs s) := by
  unfold setFront
  refine Tri.bind ((begin_tri hc hw hv).strong hv) ?_
  rintro p s1 ⟨w1, f1, o1⟩
  obtain ⟨s2, e1, e2, e3, e4, _⟩ := o1.write w1 (xs := [some c]) (i := 0) (by simp [h1])
  rw [Ptr.add_zero] at e1
  refine Tri.of_ok e1 ⟨e2, f1.trans e3, ?_⟩
  have : put cs 0 [some c] = [some c] := by
    unfold put
    rw [List.drop_of_length_le (by simp [h1])]; simp
  rw [this] at e4
  exact e4.raw

/-- `isShared()`. -/
theorem isShared_ok (hw : WInv cfg s) {cs : List Cell} (hv : Raw cfg s v cs) :
    ∃ b, isShared v s = (.ok b, s) ∧ (b = false → Excl s v) := by
  obtain ⟨ob, l, n, h, rfl⟩ := hv
  unfold isShared
  rw [bind_ok (getOb_ok h.var)]
  obtain ⟨core, al⟩ := ob
  cases core with
  | small c => exact ⟨false, rfl, fun _ => excl_small h.var⟩
  | ml d m cap large =>
    cases large with
    | false => exact ⟨false, rfl, fun _ => excl_medium h.var⟩
    | true =>
      obtain ⟨r, src, B, hB, hr⟩ := hw.large h.var
      refine ⟨decide (1 < r), by simp only; rw [bind_ok (refs_ok hB)]; rfl, fun h1 => (excl_iff h.var hB).2 ?_⟩
      simp at h1; omega

/-- `operator=(value_type)`, not on an arena. -/
theorem assignChar_tri (hc : cfg.Ok) (hw : WInv cfg s) (hf : Free s) (h4 : s.vars (.tmp 4) = none) (har : cfg.arena = false)
    {cs : List Cell} (hv : Raw cfg s v cs) (hcs : Full cs) {c : Ch} :
    Tri (assignChar cfg v c) s (fun _ s' => Done cfg v [some c] s s') (ErrB cfg v s) := by
  unfold assignChar
  refine checker_tri hw hv ?_ (fun _ _ h => h.check) basic_check
  obtain ⟨b, hb, hx⟩ := isShared_ok hw hv
  refine Tri.step (hv.sizeM hw) (Tri.step hb ?_)
  split
  · next h0 =>
    have : cs = [] := List.length_eq_zero_iff.1 h0
    subst this
    refine Tri.bind ((expand_tri hc hw hf hv (delta := 1) false (by decide)).basic hcs) ?_
    rintro r s1 ⟨w1, f1, p', cs', h1, h2, h3, h5, rfl, h6⟩
    have own := h6 (by omega)
    have hbeg := begin_own w1 own
    obtain ⟨s2, e1, e2, e3, e4, _⟩ := own.write w1 (xs := [some c]) (i := 0) (by simp at h3; simp [h3])
    rw [Ptr.add_zero] at e1
    have : put cs' 0 [some c] = [some c] := by
      unfold put
      rw [List.drop_of_length_le (by simp at h3; simp [h3])]; simp
    rw [this] at e4
    refine Tri.of_ok (b := ()) (s' := s2) ?_ ⟨e2, f1.trans e3, e4.raw⟩
    unfold setFront
    rw [bind_ok hbeg]; exact e1
  · next h0 =>
    split
    · next hs =>
      have htv := hv.ne_of_none h4
      have hr := ctorFill_tri hc hw (al := 0) (n := 1) (c := c) h4 (by decide) hf.1 (by simp [har]) (by decide)
      refine Tri.bind ((hr.strong hv).basic hcs) ?_
      rintro _ s1 ⟨d1, x1⟩
      obtain ⟨ob, l, n, g, e⟩ := d1.raw
      have own : Own cfg s1 (.tmp 4) (ob.core.ptr (.tmp 4)) (List.replicate 1 (some c)) := ⟨ob, l, n, g, x1 (by omega), rfl, e⟩
      refine ((swapTemp_tri d1.inv d1.frame own (d1.frame.raw (Ne.symm htv) hv) htv h4).mono (fun _ s' h => ?_) (fun _ _ h => ?_))
      · exact h.1
      · exact (h.strong hv).basic hcs
    · next hs =>
      have hx' := hx (by simpa using hs)
      have hv0 := hv
      obtain ⟨ob, l, n, g, rfl⟩ := hv
      have own : Own cfg s v (ob.core.ptr v) (l.take n) := ⟨ob, l, n, g, hx', rfl, rfl⟩
      have hl := Raw.length_take hw g
      rw [hl] at h0 ⊢
      obtain ⟨s1, e1, e2, e3, e4⟩ := shrink_own hc hw own (delta := n - 1) (by omega)
      rw [hl, show n - (n - 1) = 1 by omega] at e4
      refine Tri.step e1 ?_
      have hbeg := begin_own e2 e4
      have hlen : ((l.take n).take 1).length = 1 := by simp at hl ⊢; omega
      obtain ⟨s2, g1, g2, g3, g4, _⟩ := e4.write e2 (xs := [some c]) (i := 0) (by rw [hlen]; simp)
      rw [Ptr.add_zero] at g1
      have : put ((l.take n).take 1) 0 [some c] = [some c] := by
        unfold put
        rw [List.drop_of_length_le (by rw [hlen]; simp)]; simp
      rw [this] at g4
      refine Tri.of_ok (b := ()) (s' := s2) ?_ ⟨g2, e3.trans g3, g4.raw⟩
      unfold setFront
      rw [bind_ok hbeg]; exact g1

/-! ### Capacity and elements -/

/-- `reserve(n)`. -/
theorem reserve_tri (hc : cfg.Ok) (hw : WInv cfg s) (hf : Free s) {cs : List Cell} (hv : Raw cfg s v cs) {n : Nat} :
    Tri (reserve cfg v n) s (fun _ s' => Done cfg v cs s s') (ErrS cfg v cs s) := by
  have hv0 := hv
  obtain ⟨ob, l, k, h, rfl⟩ := hv
  refine ((reserveCore_tri hc hw h hf.1).strong hv0).mono (fun _ s' g => ?_) (fun _ _ h => h)
  obtain ⟨w1, f1, ob', l', k', a1, a2, a3, a4, a5⟩ := g
  exact ⟨w1, f1, ob', l', k', a1, a3⟩

/-- `shrink_to_fit()`. -/
theorem shrinkToFit_tri (hc : cfg.Ok) (hw : WInv cfg s) (h5 : s.vars (.tmp 5) = none) {cs : List Cell} (hv : Raw cfg s v cs) :
    Tri (shrinkToFit cfg v) s (fun _ s' => Done cfg v cs s s') (ErrS cfg v cs s) := by
  unfold shrinkToFit
  split
  · exact Tri.ret ⟨hw, Frame.refl _ _, hv⟩
  · next har =>
    have hv0 := hv
    obtain ⟨ob, l, k, h, rfl⟩ := hv
    obtain ⟨c, d1, d2, _⟩ := h.capM hw
    refine Tri.step d1 (Tri.step h.sizeM ?_)
    split
    · exact Tri.ret ⟨hw, Frame.refl _ _, hv0⟩
    · have htv := hv0.ne_of_none h5
      have hb := h.bound hw
      refine Tri.step h.dataM ?_
      have hrd := h.read0 (k := k) (by omega)
      refine Tri.bind ((ctorData_tri hc hw h5 (al := 0) (by simpa using har) hrd).strong hv0) ?_
      rintro _ s1 ⟨w1, f1, p, o1⟩
      exact (swapTemp_tri w1 f1 o1 (f1.raw (Ne.symm htv) hv0) htv h5).mono (fun _ _ h => h.1) (fun _ _ h => h.strong hv0)

/-- `pop_back()`. -/
theorem popBack_tri (hc : cfg.Ok) (hw : WInv cfg s) (hf : Free s) {cs : List Cell} (hv : Raw cfg s v cs) (h0 : cs ≠ []) :
    Tri (popBack cfg v) s (fun _ s' => Done cfg v cs.dropLast s s') (ErrS cfg v cs s) := by
  have hv0 := hv
  have hpos : 0 < cs.length := List.length_pos_of_ne_nil h0
  obtain ⟨ob, l, k, h, rfl⟩ := hv
  have hl := Raw.length_take hw h
  unfold popBack
  refine noexcept_err ?_
  refine Tri.step (hv0.sizeM hw) (Tri.step (assert_ok (decide_eq_true (Nat.ne_of_gt hpos)) _) ?_)
  refine ((shrink_tri hc hw h hf.2 (delta := 1) (by omega)).strong hv0).mono (fun _ s' g => ?_) (fun _ _ h => h)
  rw [List.dropLast_eq_take, hl, List.take_take, Nat.min_eq_left (by omega)]
  exact g

/-- `s[i] = c`. -/
theorem setAt_tri (hc : cfg.Ok) (hw : WInv cfg s) {cs : List Cell} (hv : Raw cfg s v cs) {i : Nat} {c : Ch} (hi : i < cs.length) :
    Tri (setAt cfg v i c) s (fun _ s' => Done cfg v (cs.set i (some c)) s s') (ErrS cfg v cs s) := by
  unfold setAt
  refine Tri.bind ((begin_tri hc hw hv).strong hv) ?_
  rintro p s1 ⟨w1, f1, o1⟩
  obtain ⟨s2, e1, e2, e3, e4, _⟩ := o1.write w1 (xs := [some c]) (i := i) (by simp; omega)
  refine Tri.of_ok e1 ⟨e2, f1.trans e3, ?_⟩
  have : put cs i [some c] = cs.set i (some c) := by
    unfold put
    rw [List.set_eq_take_append_cons_drop, if_pos hi]; simp
  rw [this] at e4
  exact e4.raw

/-! ### insert -/

theorem posOf_ok (hw : WInv cfg s) {cs : List Cell} {q : Ptr} {pos : Nat} (hv : Raw cfg s v cs) (hq : dataPtr v s = (.ok q, s))
    (hp : pos ≤ cs.length) : posOf cfg v (q.add pos) s = (.ok pos, s) := by
  unfold posOf
  have hs : (q.add pos).same q = true := by
    obtain ⟨ob, l, n, h, _⟩ := hv
    rw [h.dataM] at hq; cases hq
    have := Ptr.same_add (ob.core.ptr v) (ob.core.ptr v) pos 0
    rw [Ptr.add_zero] at this
    rw [this]; simp
  rw [bind_ok hq, bind_ok (hv.sizeM hw)]
  rw [if_pos (by rw [hs]; simp [hp])]
  simp

theorem insert_list {cs cs' ys : List Cell} {pos : Nat} (hp : pos ≤ cs.length) (h1 : cs'.length = cs.length + ys.length)
    (h2 : cs'.take cs.length = cs) :
    put (put cs' (pos + ys.length) ((cs'.drop pos).take (cs.length - pos))) pos ys = cs.take pos ++ ys ++ cs.drop pos := by
  have e1 : (cs'.drop pos).take (cs.length - pos) = cs.drop pos := by
    conv_rhs => rw [← h2]
    rw [List.drop_take]
  have e2 : cs'.take pos = cs.take pos := by
    conv_rhs => rw [← h2]
    rw [List.take_take, Nat.min_eq_left hp]
  rw [e1]
  unfold put
  have e3 : cs'.drop (pos + ys.length + (cs.drop pos).length) = [] := List.drop_of_length_le (by simp; omega)
  rw [e3, List.append_nil]
  have l1 : (cs'.take (pos + ys.length)).length = pos + ys.length := by simp; omega
  rw [List.take_append_of_le_length (by omega), List.take_take, Nat.min_eq_left (by omega), e2]
  rw [List.drop_append_of_le_length (by omega), List.drop_of_length_le (by omega), List.nil_append]

/-- The part common to both kinds of `insert`: room is made at `pos`. -/
theorem insert_room (hc : cfg.Ok) (hw : WInv cfg s) (hf : Free s) {cs : List Cell} (hv : Raw cfg s v cs) {pos n : Nat}
    (hp : pos ≤ cs.length) (hn : cs.length + n < M64) {fin : Ptr → M Unit} {R : St → Prop}
    (hfin : ∀ b s1 cs', cs'.length = cs.length + n → cs'.take cs.length = cs → WInv cfg s1 → Frame (· = v) s s1 →
      Own cfg s1 v b (put cs' (pos + n) ((cs'.drop pos).take (cs.length - pos))) →
      Tri (fin b) s1 (fun _ s' => R s') (ErrS cfg v cs s)) :
    Tri (do
      let _ ← expandNoinit cfg v n true
      let b ← begin_ cfg v
      podMove (b.add pos) (cs.length - pos) (b.add (pos + n))
      fin b : M Unit) s (fun _ s' => R s') (ErrS cfg v cs s) := by
  refine Tri.bind (expand_tri hc hw hf hv (delta := n) true hn) ?_
  rintro r s1 ⟨w1, f1, p', cs', h1, h2, h3, h4, rfl, h6⟩
  have hbeg : Tri (begin_ cfg v) s1 (fun b s2 => WInv cfg s2 ∧ Frame (· = v) s1 s2 ∧ Own cfg s2 v b cs') (ErrS cfg v cs s) := by
    by_cases hn0 : n = 0
    · have : cs' = cs := by rw [← h4, List.take_of_length_le (by omega)]
      subst this
      exact Tri.later f1 ((begin_tri hc w1 h1).strong h1)
    · have := h6 hn0
      exact Tri.of_ok (begin_own w1 this) ⟨w1, Frame.refl _ _, this⟩
  refine Tri.bind hbeg ?_
  rintro b s2 ⟨w2, f2, o2⟩
  obtain ⟨s3, e1, e2, e3, e4, _⟩ := o2.move w2 (i := pos) (j := pos + n) (k := cs.length - pos) (by omega) (by omega)
  refine Tri.step e1 ?_
  exact hfin b s3 cs' h3 h4 e2 ((f1.trans f2).trans e3) e4

/-- `insert(i, n, c)`. -/
theorem insertFillAt_tri (hc : cfg.Ok) (hw : WInv cfg s) (hf : Free s) {cs : List Cell} {q : Ptr} (hv : Raw cfg s v cs)
    (hq : dataPtr v s = (.ok q, s)) {pos n : Nat} {c : Ch} (hp : pos ≤ cs.length) (hn : cs.length + n < M64) :
    Tri (insertFillAt cfg v (q.add pos) n c) s
      (fun _ s' => DoneX cfg v (cs.take pos ++ List.replicate n (some c) ++ cs.drop pos) s s') (ErrS cfg v cs s) := by
  unfold insertFillAt
  refine checker_tri hw hv ?_ (fun _ _ h => h.check) (fun _ _ _ h => ⟨_, h⟩)
  refine Tri.step (posOf_ok hw hv hq hp) (Tri.step (hv.sizeM hw) ?_)
  refine insert_room hc hw hf hv hp hn (fin := fun b => podFill (b.add pos) n c) ?_
  intro b s1 cs' h1 h2 w1 f1 o1
  have hl1 : (put cs' (pos + n) ((cs'.drop pos).take (cs.length - pos))).length = cs'.length := put_length (by simp; omega)
  obtain ⟨s2, e1, e2, e3, e4, _⟩ := o1.fill w1 (i := pos) (k := n) (c := c) (by omega)
  refine Tri.of_ok e1 ⟨e2, f1.trans e3, b, ?_⟩
  have := insert_list (ys := List.replicate n (some c)) hp (by simpa using h1) h2
  simp only [List.length_replicate] at this
  rw [this] at e4
  exact e4

/-- `insert(i, s, s + n)`, the source not being in the string. -/
theorem insertRangeAt_tri (hc : cfg.Ok) (hw : WInv cfg s) (hf : Free s) {cs ys : List Cell} {p q : Ptr} (hv : Raw cfg s v cs)
    (hq : dataPtr v s = (.ok q, s)) {pos : Nat} (hp : pos ≤ cs.length) (hsrc : SrcOk cfg s v p ys) (hn : cs.length + ys.length < M64) :
    Tri (insertRangeAt cfg v (q.add pos) p ys.length) s
      (fun _ s' => DoneX cfg v (cs.take pos ++ ys ++ cs.drop pos) s s') (ErrS cfg v cs s) := by
  unfold insertRangeAt
  refine checker_tri hw hv ?_ (fun _ _ h => h.check) (fun _ _ _ h => ⟨_, h⟩)
  refine Tri.step (posOf_ok hw hv hq hp) (Tri.step (hv.sizeM hw) ?_)
  refine insert_room hc hw hf hv hp hn (fin := fun b => podMove p ys.length (b.add pos)) ?_
  intro b s1 cs' h1 h2 w1 f1 o1
  have hl1 : (put cs' (pos + ys.length) ((cs'.drop pos).take (cs.length - pos))).length = cs'.length := put_length (by simp; omega)
  obtain ⟨s2, e1, _, e2, e3, e4⟩ := o1.copyFrom w1 (hsrc.frame f1) (j := pos) (by omega)
  refine Tri.of_ok e1 ⟨e2, f1.trans e3, b, ?_⟩
  rw [insert_list hp h1 h2] at e4
  exact e4

theorem enforce_ok {c : Bool} (h : c = true) : enforce c s = (.ok (), s) := by unfold enforce; rw [if_pos h]; rfl

theorem enforce_no {c : Bool} (h : c = false) : enforce c s = (.error (.throw "out_of_range"), s) := by
  unfold enforce; rw [if_neg (by simp [h])]; rfl

/-- `insert(pos, n, c)`. -/
theorem insertFill_tri (hc : cfg.Ok) (hw : WInv cfg s) (hf : Free s) {cs : List Cell} (hv : Raw cfg s v cs) {pos n : Nat} {c : Ch}
    (hp : pos ≤ cs.length) (hn : cs.length + n < M64) :
    Tri (insertFill cfg v pos n c) s
      (fun _ s' => Done cfg v (cs.take pos ++ List.replicate n (some c) ++ cs.drop pos) s s') (ErrS cfg v cs s) := by
  unfold insertFill
  refine Tri.step (hv.sizeM hw) (Tri.step (enforce_ok (by simpa using hp)) ?_)
  refine Tri.bind ((begin_tri hc hw hv).strong hv) ?_
  rintro b s1 ⟨w1, f1, o1⟩
  refine (Tri.later f1 (insertFillAt_tri hc w1 (hf.frame hv f1) o1.raw o1.dataM hp hn)).mono (fun _ s' h => ?_) (fun _ _ h => h)
  exact ⟨h.inv, f1.trans h.frame, h.done.raw⟩

/-- `insert(pos, s, n)`. -/
theorem insert_tri (hc : cfg.Ok) (hw : WInv cfg s) (hf : Free s) {cs ys : List Cell} {p : Ptr} (hv : Raw cfg s v cs) {pos : Nat}
    (hp : pos ≤ cs.length) (hsrc : SrcOk cfg s v p ys) (hn : cs.length + ys.length < M64) :
    Tri (Str.insert cfg v pos p ys.length) s
      (fun _ s' => Done cfg v (cs.take pos ++ ys ++ cs.drop pos) s s') (ErrS cfg v cs s) := by
  unfold Str.insert
  refine Tri.step (hv.sizeM hw) (Tri.step (enforce_ok (by simpa using hp)) ?_)
  refine Tri.bind ((begin_tri hc hw hv).strong hv) ?_
  rintro b s1 ⟨w1, f1, o1⟩
  refine (Tri.later f1 (insertRangeAt_tri hc w1 (hf.frame hv f1) o1.raw o1.dataM hp (hsrc.frame f1) hn)).mono (fun _ s' h => ?_) (fun _ _ h => h)
  exact ⟨h.inv, f1.trans h.frame, h.done.raw⟩

/-- `append(first, last)`. -/
theorem appendRange_tri (hc : cfg.Ok) (hw : WInv cfg s) (hf : Free s) {cs ys : List Cell} {p : Ptr} (hv : Raw cfg s v cs)
    (hsrc : SrcOk cfg s v p ys) (hn : cs.length + ys.length < M64) :
    Tri (appendRange cfg v p ys.length) s (fun _ s' => DoneX cfg v (cs ++ ys) s s') (ErrS cfg v cs s) := by
  unfold appendRange
  refine Tri.bind ((begin_tri hc hw hv).strong hv) ?_
  rintro b s1 ⟨w1, f1, o1⟩
  refine Tri.step (o1.raw.sizeM w1) ?_
  refine (Tri.later f1 (insertRangeAt_tri hc w1 (hf.frame hv f1) o1.raw o1.dataM (Nat.le_refl _) (hsrc.frame f1) hn)).mono (fun _ s' h => ?_) (fun _ _ h => h)
  simp only [List.take_length, List.drop_length, List.append_nil] at h
  exact ⟨h.inv, f1.trans h.frame, h.own⟩

/-! ### erase -/

theorem erase_list {cs : List Cell} {pos m : Nat} (hm : pos + m ≤ cs.length) :
    (put cs pos ((cs.drop (pos + m)).take (cs.length - (pos + m)))).take (cs.length - m) = cs.take pos ++ cs.drop (pos + m) := by
  have e : (cs.drop (pos + m)).take (cs.length - (pos + m)) = cs.drop (pos + m) := List.take_of_length_le (by simp)
  rw [e]
  unfold put
  rw [List.take_append_of_le_length (by simp; omega), List.take_of_length_le (by simp; omega)]

/-- `erase` of an unshared string cannot fail. -/
theorem erase_own (hc : cfg.Ok) (hw : WInv cfg s) {cs : List Cell} {p : Ptr} (hv : Own cfg s v p cs) {pos n : Nat} (hp : pos ≤ cs.length) :
    ∃ s', erase cfg v pos n s = (.ok (), s') ∧ WInv cfg s' ∧ Frame (· = v) s s' ∧
      Own cfg s' v p (cs.take pos ++ cs.drop (pos + min n (cs.length - pos))) := by
  obtain ⟨s1, e1, e2, e3, e4, _⟩ := hv.move hw (i := pos + min n (cs.length - pos)) (j := pos) (k := cs.length - (pos + min n (cs.length - pos))) (by omega) (by omega)
  have hl : (put cs pos ((cs.drop (pos + min n (cs.length - pos))).take (cs.length - (pos + min n (cs.length - pos))))).length = cs.length :=
    put_length (by simp; omega)
  obtain ⟨s2, g1, g2, g3, g4⟩ := resize_own hc e2 e4 (n := cs.length - min n (cs.length - pos)) (c := 0) (by omega)
  rw [erase_list (by omega)] at g4
  refine ⟨s2, ?_, g2, e3.trans g3, g4⟩
  unfold erase
  refine checker_ok hw hv.raw ?_ g2 g4.raw
  rw [bind_ok (hv.raw.sizeM hw), bind_ok (enforce_ok (by simpa using hp))]
  refine (bind_ok (begin_own hw hv)).trans ((bind_ok e1).trans g1)

/-- `erase(pos, n)`. -/
theorem erase_tri (hc : cfg.Ok) (hw : WInv cfg s) {cs : List Cell} (hv : Raw cfg s v cs) {pos n : Nat} (hp : pos ≤ cs.length) :
    Tri (erase cfg v pos n) s (fun _ s' => DoneX cfg v (cs.take pos ++ cs.drop (pos + min n (cs.length - pos))) s s') (ErrS cfg v cs s) := by
  unfold erase
  refine checker_tri hw hv ?_ (fun _ _ h => h.check) (fun _ _ _ h => ⟨_, h⟩)
  refine Tri.step (hv.sizeM hw) (Tri.step (enforce_ok (by simpa using hp)) ?_)
  simp only
  refine Tri.bind ((begin_tri hc hw hv).strong hv) ?_
  rintro b s1 ⟨w1, f1, o1⟩
  obtain ⟨s2, e1, e2, e3, e4, _⟩ := o1.move w1 (i := pos + min n (cs.length - pos)) (j := pos) (k := cs.length - (pos + min n (cs.length - pos))) (by omega) (by omega)
  have hl : (put cs pos ((cs.drop (pos + min n (cs.length - pos))).take (cs.length - (pos + min n (cs.length - pos))))).length = cs.length :=
    put_length (by simp; omega)
  obtain ⟨s3, g1, g2, g3, g4⟩ := resize_own hc e2 e4 (n := cs.length - min n (cs.length - pos)) (c := 0) (by omega)
  rw [erase_list (by omega)] at g4
  exact Tri.step e1 (Tri.of_ok g1 ⟨g2, (f1.trans e3).trans g3, _, g4⟩)

/-- `erase(first, last)` of an unshared string. -/
theorem eraseAt_own (hc : cfg.Ok) (hw : WInv cfg s) {cs : List Cell} {p : Ptr} (hv : Own cfg s v p cs) {pos n : Nat} (hp : pos + n ≤ cs.length) :
    ∃ s', eraseAt cfg v (p.add pos) n s = (.ok (), s') ∧ WInv cfg s' ∧ Frame (· = v) s s' ∧
      Own cfg s' v p (cs.take pos ++ cs.drop (pos + n)) := by
  obtain ⟨s', e1, e2, e3, e4⟩ := erase_own hc hw hv (pos := pos) (n := n) (by omega)
  rw [Nat.min_eq_left (by omega)] at e4
  refine ⟨s', ?_, e2, e3, e4⟩
  unfold eraseAt
  rw [bind_ok (begin_own hw hv)]
  have hs : (p.add pos).same p = true := by
    obtain ⟨ob, l, n, h, _, rfl, _⟩ := hv
    have := Ptr.same_add (ob.core.ptr v) (ob.core.ptr v) pos 0
    rw [Ptr.add_zero] at this
    rw [this]; simp
  rw [if_pos (by rw [hs]; simp)]
  simp only [Ptr.off_add, Nat.add_sub_cancel_left]
  exact e1

end Verif.Str
