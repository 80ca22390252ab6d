import Verif.Str.Expand

/-!
What the member functions that change the end of a string do to its characters.
-/

namespace Verif.Str

open M

variable {β γ : Type} {cfg : Cfg} {s s' : St} {v u t : Obj}

/-- The temporaries of the cores are not in use. -/
def Free (s : St) : Prop := s.vars (.tmp 0) = none ∧ s.vars (.tmp 1) = none

theorem Raw.ne_of_none {cs : List Cell} (h : Raw cfg s v cs) (hn : s.vars t = none) : t ≠ v := by
  rintro rfl
  obtain ⟨ob, hv⟩ := h.var
  rw [hn] at hv; cases hv

theorem Frame.none {X : Obj → Prop} (hf : Frame X s s') (ht : ¬ X t) (hn : s.vars t = none) : s'.vars t = none :=
  (hf t ht).1.trans hn

theorem Free.frame (h : Free s) {cs : List Cell} (hr : Raw cfg s v cs) (hf : Frame (· = v) s s') : Free s' :=
  ⟨hf.none (hr.ne_of_none h.1) h.1, hf.none (hr.ne_of_none h.2) h.2⟩

/-- Failing with the string as it was. -/
abbrev ErrS (cfg : Cfg) (v : Obj) (cs : List Cell) (s : St) (e : Fault) (s' : St) : Prop :=
  Err cfg (· = v) (fun s' => Raw cfg s' v cs) s e s'

theorem Err0.strong {e : Fault} {cs : List Cell} (h : Err0 cfg s e s') (hr : Raw cfg s v cs) : ErrS cfg v cs s e s' :=
  Err0.to h (fun f => f.raw (fun h => h) hr)

theorem Tri.strong {x : M β} {Q : β → St → Prop} {cs : List Cell} (h : Tri x s Q (Err0 cfg s)) (hr : Raw cfg s v cs) :
    Tri x s Q (ErrS cfg v cs s) := h.mono (fun _ _ h => h) (fun _ _ h => h.strong hr)

theorem Tri.later {x : M β} {Q : β → St → Prop} {s1 : St} {X : Obj → Prop} {P : St → Prop} (hf : Frame X s s1)
    (h : Tri x s1 Q (Err cfg X P s1)) : Tri x s1 Q (Err cfg X P s) := h.mono (fun _ _ h => h) (fun _ _ h => h.after hf)

/-! ### Sources -/

/-- `p` points to the characters `ys`, in memory of the caller or in another string than `v`. -/
def SrcOk (cfg : Cfg) (s : St) (v : Obj) (p : Ptr) (ys : List Cell) : Prop :=
  (∃ m i, p = .ext m i ∧ i + ys.length ≤ m.length ∧ ys = ((m.drop i).take ys.length).map some) ∨
  (∃ u ob l n i, u ≠ v ∧ Holds cfg s u ob l n ∧ p = (ob.core.ptr u).add i ∧ i + ys.length ≤ n ∧ ys = (l.drop i).take ys.length)

/-- `p` points to the characters `ys` in `v` itself. -/
def OwnSrc (cfg : Cfg) (s : St) (v : Obj) (p : Ptr) (ys : List Cell) : Prop :=
  ∃ ob l n i, Holds cfg s v ob l n ∧ p = (ob.core.ptr v).add i ∧ i + ys.length ≤ n ∧ ys = (l.drop i).take ys.length

theorem SrcOk.frame {p : Ptr} {ys : List Cell} (h : SrcOk cfg s v p ys) (hf : Frame (· = v) s s') : SrcOk cfg s' v p ys := by
  rcases h with h | ⟨u, ob, l, n, i, h1, h2, h3, h4⟩
  · exact Or.inl h
  · exact Or.inr ⟨u, ob, l, n, i, h1, hf.holds h1 h2, h3, h4⟩

theorem Holds.bound (hw : WInv cfg s) {ob : Ob} {l : List Cell} {n : Nat} (h : Holds cfg s v ob l n) : n < l.length := by
  obtain ⟨l2, n2, h2, h3, h4, h5⟩ := hw.view h.var
  obtain ⟨_, rfl, rfl⟩ := h.unique h2
  omega

theorem SrcOk.read (hw : WInv cfg s) {p : Ptr} {ys : List Cell} (h : SrcOk cfg s v p ys) :
    readCells p ys.length s = (.ok ys, s) := by
  rcases h with ⟨m, i, rfl, h2, h3⟩ | ⟨u, ob, l, n, i, h1, h2, rfl, h4, h5⟩
  · simp only [readCells]
    rw [if_pos h2, ← h3]
  · have := h2.bound hw
    rw [h2.read (by omega), ← h5]

theorem OwnSrc.read (hw : WInv cfg s) {p : Ptr} {ys : List Cell} (h : OwnSrc cfg s v p ys) :
    readCells p ys.length s = (.ok ys, s) := by
  obtain ⟨ob, l, n, i, h2, rfl, h4, h5⟩ := h
  have := h2.bound hw
  rw [h2.read (by omega), ← h5]

/-- Two strings in the same block are equal. -/
theorem Holds.shared (hw : WInv cfg s) {ob ob' : Ob} {l l' : List Cell} {n n' : Nat} (h : Holds cfg s v ob l n)
    (h' : Holds cfg s u ob' l' n') (huv : u ≠ v) (hs : (ob'.core.ptr u).same (ob.core.ptr v) = true) :
    l' = l ∧ n' = n ∧ ob'.core.ptr u = ob.core.ptr v ∧ ¬ Excl s v := by
  obtain ⟨core, al⟩ := ob
  obtain ⟨core', al'⟩ := ob'
  cases core with
  | small c =>
    cases core' with
    | small c' => simp [Core.ptr, Ptr.same, huv] at hs
    | ml d' m' cap' large' => simp [Core.ptr, Ptr.same] at hs
  | ml d m cap large =>
    cases core' with
    | small c' => simp [Core.ptr, Ptr.same] at hs
    | ml d' m' cap' large' =>
      have hd : d' = d := by simpa [Core.ptr, Ptr.same] using hs
      subst hd
      refine ⟨?_, ?_, rfl, ?_⟩
      · have h1 := h.cells
        have h2 := h'.cells
        simp only [cellsOf] at h1 h2
        rw [h1] at h2
        exact (Option.some.inj h2).symm
      · have := hw.agree u v _ _ d' h'.var h.var rfl rfl
        rw [h.size, h'.size] at this
        exact Option.some.inj this
      · intro hx
        obtain ⟨B, hB, c1, c2, c3, c4, c5⟩ := hw.core v _ h.var
        have : B.rc = none ∨ B.rc = some 1 := by
          cases large with
          | false => left; simpa using c4
          | true =>
            obtain ⟨B', hB', e⟩ := hx _ _ _ _ h.var
            rw [hB] at hB'; cases hB'; exact Or.inr e
        exact huv (hw.only hB this (blkOf_ml h.var) (blkOf_ml h'.var))

theorem SrcOk.own (hw : WInv cfg s) {p q : Ptr} {ys cs : List Cell} (h : SrcOk cfg s v p ys) (hv : Raw cfg s v cs)
    (hq : dataPtr v s = (.ok q, s)) (hs : p.same q = true) : OwnSrc cfg s v p ys := by
  rcases h with ⟨m, i, rfl, h2, h3⟩ | ⟨u, ob, l, n, i, h1, h2, rfl, h4, h5⟩
  · cases q <;> simp [Ptr.same] at hs
  · obtain ⟨ob', l', n', h', rfl⟩ := hv
    rw [h'.dataM] at hq; cases hq
    have hs' : (ob.core.ptr u).same (ob'.core.ptr v) = true := by
      rw [← hs, ← Ptr.same_add (ob.core.ptr u) (ob'.core.ptr v) i 0, Ptr.add_zero]
    obtain ⟨rfl, rfl, e, _⟩ := h'.shared hw h2 h1 hs'
    exact ⟨ob', l, n, i, h', by rw [e], h4, h5⟩

theorem SrcOk.apart (hw : WInv cfg s) {p q : Ptr} {ys cs : List Cell} (h : SrcOk cfg s v p ys) (hv : Own cfg s v q cs) (j : Nat) :
    p.same (q.add j) = false := by
  rcases h with ⟨m, i, rfl, h2, h3⟩ | ⟨u, ob, l, n, i, h1, h2, rfl, h4, h5⟩
  · rfl
  · obtain ⟨ob', l', n', h', hx, rfl, rfl⟩ := hv
    rw [Ptr.same_add]
    by_contra hs
    simp only [Bool.not_eq_false] at hs
    exact (h'.shared hw h2 h1 hs).2.2.2 hx

theorem SrcOk.part {p : Ptr} {ys : List Cell} (h : SrcOk cfg s v p ys) {i k : Nat} (hk : i + k ≤ ys.length) :
    SrcOk cfg s v (p.add i) ((ys.drop i).take k) := by
  have hl : ((ys.drop i).take k).length = k := by simp; omega
  rcases h with ⟨m, j, rfl, h2, h3⟩ | ⟨u, ob, l, n, j, h1, h2, rfl, h4, h5⟩
  · refine Or.inl ⟨m, j + i, rfl, by rw [hl]; omega, ?_⟩
    rw [hl]
    conv_lhs => rw [h3]
    rw [← List.map_drop, ← List.map_take, List.drop_take, List.take_take, List.drop_drop]
    congr 2; omega
  · refine Or.inr ⟨u, ob, l, n, j + i, h1, h2, by simp, by rw [hl]; omega, ?_⟩
    rw [hl]
    conv_lhs => rw [h5]
    rw [List.drop_take, List.take_take, List.drop_drop]
    congr 1; omega

/-- Copying from another string or from the caller. -/
theorem Own.copyFrom (hw : WInv cfg s) {p q : Ptr} {ys cs : List Cell} {j : Nat} (h : Own cfg s v q cs) (hp : SrcOk cfg s v p ys)
    (hj : j + ys.length ≤ cs.length) :
    ∃ s', podMove p ys.length (q.add j) s = (.ok (), s') ∧ podCopy cfg p ys.length (q.add j) s = (.ok (), s') ∧
      WInv cfg s' ∧ Frame (· = v) s s' ∧ Own cfg s' v q (put cs j ys) := by
  obtain ⟨s', h1, h2, h3, h4, _⟩ := h.write hw (xs := ys) (i := j) hj
  refine ⟨s', ?_, ?_, h2, h3, h4⟩
  · unfold podMove
    rw [bind_ok (hp.read hw)]; exact h1
  · unfold podCopy
    rw [hp.apart hw h j]
    simp only [Bool.false_and, Bool.false_eq_true, if_false]
    rw [bind_ok (hp.read hw)]; exact h1

/-! ### Lists -/

theorem put_tail {cs cs' xs : List Cell} (h1 : cs'.length = cs.length + xs.length) (h2 : cs'.take cs.length = cs) :
    put cs' cs.length xs = cs ++ xs := by
  unfold put
  rw [h2, List.drop_of_length_le (by omega), List.append_nil]

/-! ### resize -/

theorem Raw.length_take (hw : WInv cfg s) {ob : Ob} {l : List Cell} {n : Nat} (h : Holds cfg s v ob l n) : (l.take n).length = n := by
  have := h.bound hw
  simp; omega

theorem podFill_zero (hw : WInv cfg s) {cs : List Cell} {q : Ptr} {i : Nat} {c : Ch} (h : Raw cfg s v cs) (hq : dataPtr v s = (.ok q, s))
    (hi : i ≤ cs.length) : podFill (q.add i) 0 c s = (.ok (), s) := by
  obtain ⟨ob, l, n, h, rfl⟩ := h
  rw [h.dataM] at hq; cases hq
  have hb := h.bound hw
  have hi' : i ≤ n := by simp at hi; omega
  have hput : put l i [] = l := by unfold put; simp
  obtain ⟨core, al⟩ := ob
  have hv := h.var
  unfold podFill
  cases core with
  | small c =>
    have := small_cells h
    subst this
    have hr : room ((Core.ptr v (.small c)).add i) s = (.ok (c.length - (0 + i)), s) := by
      simp [Str.room, Core.ptr, Ptr.add, hv]
    rw [bind_ok hr, if_pos (by omega)]
    simp only [Core.ptr, Ptr.add, writeCells, hv, List.replicate_zero, List.length_nil]
    rw [if_pos (by omega), Nat.zero_add, hput, upd_self hv]
  | ml d m cap large =>
    obtain ⟨B, hB, _⟩ := hw.core v _ hv
    have hBl : B.cells = l := by simpa [cellsOf, hB] using h.cells
    have hr : room ((Core.ptr v (.ml d m cap large)).add i) s = (.ok (B.cells.length - (0 + i)), s) := by
      simp [Str.room, Core.ptr, Ptr.add, hB]
    rw [bind_ok hr, if_pos (by omega)]
    simp only [Core.ptr, Ptr.add, writeCells, hB, List.replicate_zero, List.length_nil]
    rw [if_pos (by rw [hBl]; omega), Nat.zero_add, hBl, hput, ← hBl]
    rw [show ({ B with cells := B.cells } : Blk) = B from rfl, upd_self hB]

/-- Filling the room made by `expandNoinit`. -/
theorem fill_ok {cs : List Cell} {delta : Nat} {r : Ptr} {c : Ch} {s1 : St} (h : Expanded cfg v cs delta r s s1) :
    ∃ s', podFill r delta c s1 = (.ok (), s') ∧ Done cfg v (cs ++ List.replicate delta (some c)) s s' := by
  obtain ⟨w1, f1, p, cs', h1, h2, h3, h4, rfl, h6⟩ := h
  by_cases hd : delta = 0
  · subst hd
    refine ⟨s1, podFill_zero w1 h1 h2 (by omega), w1, f1, ?_⟩
    have : cs' = cs := by rw [← h4, List.take_of_length_le (by omega)]
    simpa [this] using h1
  · obtain ⟨s', e1, e2, e3, e4, _⟩ := (h6 hd).fill w1 (i := cs.length) (k := delta) (c := c) (by omega)
    refine ⟨s', e1, e2, f1.trans e3, ?_⟩
    rw [put_tail (by simpa using h3) h4] at e4
    exact e4.raw

/-- `resize` to more characters, or appending `n` times `c`. -/
theorem growFill_tri (hc : cfg.Ok) (hw : WInv cfg s) (hf : Free s) {cs : List Cell} (hv : Raw cfg s v cs) {delta : Nat} {c : Ch} (exp : Bool)
    (hd : cs.length + delta < M64) :
    Tri (do let p ← expandNoinit cfg v delta exp; podFill p delta c : M Unit) s
      (fun _ s' => Done cfg v (cs ++ List.replicate delta (some c)) s s') (ErrS cfg v cs s) := by
  have hv0 := hv
  obtain ⟨ob, l, n, h, rfl⟩ := hv
  have hl := Raw.length_take hw h
  refine Tri.bind ((expandNoinit_tri hc hw exp h hf.1 (by omega)).strong hv0) ?_
  intro r s1 h1
  obtain ⟨s', e1, e2⟩ := fill_ok h1 (c := c)
  exact Tri.of_ok e1 e2

theorem Done.check {cs : List Cell} (h : Done cfg v cs s s') : WInv cfg s' ∧ ∃ cs, Raw cfg s' v cs := ⟨h.inv, _, h.raw⟩

/-- `resize(n, c)`. -/
theorem resize_tri (hc : cfg.Ok) (hw : WInv cfg s) (hf : Free s) {cs : List Cell} (hv : Raw cfg s v cs) {n : Nat} {c : Ch}
    (hn : n < M64) :
    Tri (resize cfg v n c) s (fun _ s' => Done cfg v (cs.take n ++ List.replicate (n - cs.length) (some c)) s s')
      (ErrS cfg v cs s) := by
  unfold resize
  refine checker_tri hw hv ?_ (fun _ _ h => h.check) (fun _ _ _ h => ⟨_, h⟩)
  refine Tri.step (hv.sizeM hw) ?_
  split
  · next hle =>
    have hv0 := hv
    obtain ⟨ob, l, k, h, rfl⟩ := hv
    have hl := Raw.length_take hw h
    rw [hl] at hle ⊢
    refine ((shrink_tri hc hw h hf.2 (delta := k - n) (by omega)).strong hv0).mono (fun _ s' h => ?_) (fun _ _ h => h)
    have e1 : k - (k - n) = n := by omega
    rw [e1] at h
    have e2 : n - k = 0 := by omega
    rw [e2, List.take_take, Nat.min_eq_left hle]
    simpa using h
  · next hle =>
    refine (growFill_tri hc hw hf hv false (by omega)).mono (fun _ s' h => ?_) (fun _ _ h => h)
    rw [List.take_of_length_le (by omega)]
    exact h

/-- Shrinking an unshared string cannot fail. -/
theorem shrink_own (hc : cfg.Ok) (hw : WInv cfg s) {cs : List Cell} {p : Ptr} (hv : Own cfg s v p cs) {delta : Nat} (hd : delta ≤ cs.length) :
    ∃ s', shrink cfg v delta s = (.ok (), s') ∧ WInv cfg s' ∧ Frame (· = v) s s' ∧ Own cfg s' v p (cs.take (cs.length - delta)) := by
  obtain ⟨ob, l, k, h, hx, rfl, rfl⟩ := hv
  have hl := Raw.length_take hw h
  rw [hl] at hd ⊢
  have hk := h.short hc hw
  have hsub : sub64 k delta = k - delta := sub64_of_le hd (by omega)
  rw [List.take_take, Nat.min_eq_left (by omega)]
  unfold shrink
  rw [bind_ok (getOb_ok h.var)]
  obtain ⟨core, al⟩ := ob
  cases core with
  | small c =>
    have := small_cells h
    subst this
    have hcore := hw.core v _ h.var
    obtain ⟨g1, m, g2, g3, g4, g5⟩ := hcore
    have hm : m = k := by
      have := smallSize_eq g2 g4
      rw [h.size] at this; cases this; rfl
    subst hm
    obtain ⟨s', e1, e2, e3, e4, e5, _⟩ := setSmall_ok hw h (n := m - delta) (by omega) (fun hh => by have := g3 hh; omega)
    rw [e5] at e4
    refine ⟨s', ?_, e2, e3, e4⟩
    simp only
    unfold shrinkSmall
    rw [bind_ok h.sizeM, bind_ok (assert_ok (by simpa using hd) _), hsub]
    exact e1
  | ml d m cap large =>
    have : m = k := by simpa [Core.size?] using h.size
    subst this
    obtain ⟨s', e1, e2, e3, e4⟩ := shrinkMedium_ok hc hw h hx hd
    refine ⟨s', ?_, e2, e3, e4⟩
    cases large with
    | false => exact e1
    | true =>
      obtain ⟨r, src, B, hB, hr⟩ := hw.large h.var
      have := (excl_iff h.var hB).1 hx
      simp only
      rw [bind_ok (refs_ok hB), if_pos this]
      exact e1

theorem checker_ok {body : M β} {b : β} {cs cs' : List Cell} (hw : WInv cfg s) (hv : Raw cfg s v cs) (hb : body s = (.ok b, s'))
    (hw' : WInv cfg s') (hv' : Raw cfg s' v cs') : checker cfg v body s = (.ok b, s') := by
  unfold checker
  rw [bind_ok (sane_ok hw hv)]
  unfold checking
  rw [hb]
  simp only [sane_ok hw' hv']

/-- `resize` of an unshared string to fewer characters cannot fail. -/
theorem resize_own (hc : cfg.Ok) (hw : WInv cfg s) {cs : List Cell} {p : Ptr} (hv : Own cfg s v p cs) {n : Nat} {c : Ch} (hn : n ≤ cs.length) :
    ∃ s', resize cfg v n c s = (.ok (), s') ∧ WInv cfg s' ∧ Frame (· = v) s s' ∧ Own cfg s' v p (cs.take n) := by
  obtain ⟨s', e1, e2, e3, e4⟩ := shrink_own hc hw hv (delta := cs.length - n) (by omega)
  rw [show cs.length - (cs.length - n) = n by omega] at e4
  refine ⟨s', ?_, e2, e3, e4⟩
  unfold resize
  refine checker_ok hw hv.raw ?_ e2 e4.raw
  rw [bind_ok (hv.raw.sizeM hw), if_pos hn]
  exact e1

/-! ### append -/

/-- `append(s, n)`: the source may be in the string itself. -/
theorem append_tri (hc : cfg.Ok) (hw : WInv cfg s) (hf : Free s) {cs ys : List Cell} {p : Ptr} (hv : Raw cfg s v cs)
    (hp : SrcOk cfg s v p ys ∨ OwnSrc cfg s v p ys) (hn : cs.length + ys.length < M64) :
    Tri (append cfg v p ys.length) s (fun _ s' => Done cfg v (cs ++ ys) s s') (ErrS cfg v cs s) := by
  unfold append
  refine checker_tri hw hv ?_ (fun _ _ h => h.check) (fun _ _ _ h => ⟨_, h⟩)
  split
  · next h0 =>
    have : ys = [] := List.length_eq_zero_iff.1 h0
    subst this
    exact Tri.ret ⟨hw, Frame.refl _ _, by simpa using hv⟩
  · next h0 =>
    obtain ⟨q, hq, hq0⟩ := hv.dataM
    refine Tri.step (hv.sizeM hw) (Tri.step hq ?_)
    have hexp : Tri (expandNoinit cfg v ys.length true) s (fun r s' => Expanded cfg v cs ys.length r s s') (ErrS cfg v cs s) := by
      have hv0 := hv
      obtain ⟨ob, l, n, h, rfl⟩ := hv
      have hl := Raw.length_take hw h
      exact (expandNoinit_tri hc hw true h hf.1 (by omega)).strong hv0
    refine Tri.bind hexp ?_
    rintro r s1 ⟨w1, f1, p', cs', h1, h2, h3, h4, rfl, h6⟩
    have own := h6 h0
    have hend : ∀ {s2 : St}, WInv cfg s2 → Frame (· = v) s1 s2 → Own cfg s2 v p' (put cs' cs.length ys) →
        Tri (do
          let k ← size cfg v
          assert cfg (decide (k = add64 cs.length ys.length)) "append: size" : M Unit) s2
          (fun _ s' => Done cfg v (cs ++ ys) s s') (ErrS cfg v cs s) := by
      intro s2 w2 f2 o2
      rw [put_tail h3 h4] at o2
      refine Tri.step (o2.raw.sizeM w2) (Tri.of_ok (assert_ok ?_ _) ⟨w2, f1.trans f2, o2.raw⟩)
      rw [add64_of_lt hn]; simp
    by_cases hin : p.within q cs.length = true
    · have hsame : p.same q = true := by
        unfold Ptr.within at hin
        simp only [Bool.and_eq_true] at hin
        exact hin.1.1
      have hown : OwnSrc cfg s v p ys := by
        rcases hp with hp | hp
        · exact hp.own hw hv hq hsame
        · exact hp
      obtain ⟨ob, l, n, i, g1, rfl, g3, g4⟩ := hown
      rw [g1.dataM] at hq; cases hq
      have e : cs = l.take n := hv.unique ⟨ob, l, n, g1, rfl⟩
      have hl := Raw.length_take hw g1
      have hlen : cs.length = n := by rw [e, hl]
      have hys : ys = (cs'.drop i).take ys.length := by
        have : (cs'.drop i).take ys.length = ((cs'.take cs.length).drop i).take ys.length := by
          rw [List.drop_take, List.take_take]; congr 1; omega
        rw [this, h4, e, List.drop_take, List.take_take, Nat.min_eq_left (by omega)]
        exact g4
      obtain ⟨s2, e1, e2, e3, e4, _⟩ := own.move w1 (i := i) (j := cs.length) (k := ys.length) (by omega) (by omega)
      rw [← hys] at e4
      have hcopy : appendCopy cfg v ((ob.core.ptr v).add i) ys.length (ob.core.ptr v) cs.length (p'.add cs.length) s1 = (.ok (), s2) := by
        unfold appendCopy
        rw [if_pos hin, bind_ok (assert_ok (by simp; omega) _), bind_ok own.dataM]
        simpa using e1
      exact Tri.step hcopy (hend e2 e3 e4)
    · have hsrc : SrcOk cfg s v p ys := by
        rcases hp with hp | ⟨ob, l, n, i, g1, rfl, g3, g4⟩
        · exact hp
        · exfalso
          apply hin
          rw [g1.dataM] at hq; cases hq
          have e : cs = l.take n := hv.unique ⟨ob, l, n, g1, rfl⟩
          have hl := Raw.length_take hw g1
          unfold Ptr.within
          have := Ptr.same_add (ob.core.ptr v) (ob.core.ptr v) i 0
          rw [Ptr.add_zero] at this
          rw [this]
          simp
          have : cs.length = n := by rw [e, hl]
          omega
      obtain ⟨s2, e0, e1, e2, e3, e4⟩ := own.copyFrom w1 (hsrc.frame f1) (j := cs.length) (by omega)
      have hcopy : appendCopy cfg v p ys.length q cs.length (p'.add cs.length) s1 = (.ok (), s2) := by
        unfold appendCopy
        rw [if_neg hin]; exact e1
      exact Tri.step hcopy (hend e2 e3 e4)

/-- `append(n, c)`. -/
theorem appendFill_tri (hc : cfg.Ok) (hw : WInv cfg s) (hf : Free s) {cs : List Cell} (hv : Raw cfg s v cs) {n : Nat} {c : Ch}
    (hn : cs.length + n < M64) :
    Tri (appendFill cfg v n c) s (fun _ s' => Done cfg v (cs ++ List.replicate n (some c)) s s') (ErrS cfg v cs s) := by
  unfold appendFill
  exact checker_tri hw hv (growFill_tri hc hw hf hv true hn) (fun _ _ h => h.check) (fun _ _ _ h => ⟨_, h⟩)

/-- `push_back(c)`. -/
theorem pushBack_tri (hc : cfg.Ok) (hw : WInv cfg s) (hf : Free s) {cs : List Cell} (hv : Raw cfg s v cs) {c : Ch}
    (hn : cs.length + 1 < M64) :
    Tri (pushBack cfg v c) s (fun _ s' => Done cfg v (cs ++ [some c]) s s') (ErrS cfg v cs s) := by
  have hv0 := hv
  obtain ⟨ob, l, n, h, rfl⟩ := hv
  have hl := Raw.length_take hw h
  unfold pushBack
  refine Tri.bind ((expandNoinit_tri hc hw true h hf.1 (by omega)).strong hv0) ?_
  rintro r s1 ⟨w1, f1, p', cs', h1, h2, h3, h4, rfl, h6⟩
  obtain ⟨s', e1, e2, e3, e4, _⟩ := (h6 (by omega)).write w1 (xs := [some c]) (i := (l.take n).length) (by simpa using Nat.le_of_eq h3.symm)
  rw [put_tail (by simpa using h3) h4] at e4
  exact Tri.of_ok e1 ⟨e2, f1.trans e3, e4.raw⟩

/-- The characters of a string as a source. -/
theorem Raw.src {cs : List Cell} (hu : Raw cfg s u cs) (hw : WInv cfg s) :
    ∃ p, dataPtr u s = (.ok p, s) ∧ (SrcOk cfg s v p cs ∨ OwnSrc cfg s v p cs) ∧ (u ≠ v → SrcOk cfg s v p cs) := by
  obtain ⟨ob, l, n, h, rfl⟩ := hu
  have hl := Raw.length_take hw h
  have hs : ∀ h : u ≠ v, SrcOk cfg s v (ob.core.ptr u) (l.take n) := by
    intro hne
    exact Or.inr ⟨u, ob, l, n, 0, hne, h, by simp, by omega, by rw [hl]; simp⟩
  refine ⟨_, h.dataM, ?_, hs⟩
  by_cases e : u = v
  · subst e
    exact Or.inr ⟨ob, l, n, 0, h, by simp, by omega, by rw [hl]; simp⟩
  · exact Or.inl (hs e)

/-- `append(str)`. -/
theorem appendStr_tri (hc : cfg.Ok) (hw : WInv cfg s) (hf : Free s) {cs ys : List Cell} (hv : Raw cfg s v cs) (hu : Raw cfg s u ys)
    (hn : cs.length + ys.length < M64) :
    Tri (appendStr cfg v u) s (fun _ s' => Done cfg v (cs ++ ys) s s') (ErrS cfg v cs s) := by
  obtain ⟨p, hp, hsrc, _⟩ := hu.src (v := v) hw
  unfold appendStr
  refine Tri.step (hv.sizeM hw) (Tri.step (hu.sizeM hw) (Tri.step hp ?_))
  refine Tri.bind (append_tri hc hw hf hv hsrc hn) ?_
  intro _ s1 h1
  refine Tri.step (h1.raw.sizeM h1.inv) (Tri.of_ok (assert_ok ?_ _) h1)
  rw [add64_of_lt hn]; simp

/-! ### A new string of one character repeated -/

/-- `basic_string(n, c, a)`. -/
theorem ctorFill_tri (hc : cfg.Ok) (hw : WInv cfg s) {n al : Nat} {c : Ch} (hv : s.vars v = none) (hv0 : v ≠ .tmp 0)
    (h0 : s.vars (.tmp 0) = none) (ha : cfg.arena = (al != 0)) (hn : n < M64) :
    Tri (ctorFill cfg v al n c) s (fun _ s' => Done cfg v (List.replicate n (some c)) s s' ∧ (n ≠ 0 → Excl s' v)) (Err0 cfg s) := by
  obtain ⟨k1, k2, k3⟩ := smallOk (cfg := cfg) (s := s) (c := List.replicate (cfg.ms + 1) (some 0)) (n := 0) (by simp) (by omega) (fun _ => rfl)
  obtain ⟨w1, f1⟩ := hw.addSmall hv k1 ha
  unfold ctorFill construct
  refine Tri.step (newOb_ok hv ha) ?_
  have hset := setSmallSize_small (cfg := cfg) (s := ⟨s.heap, s.next, upd s.vars v (some ⟨.small (List.replicate (cfg.ms + 1) (some 0)), al⟩), s.refused, s.lost⟩)
    (v := v) (n := 0) (upd_same _ _ _) (by omega)
  simp only [upd_upd] at hset
  obtain ⟨s1, hs1⟩ : ∃ s1 : St, s1 = ⟨s.heap, s.next, upd s.vars v (some ⟨.small (((List.replicate (cfg.ms + 1) (some 0)).set cfg.ms (some (cfg.ms - 0))).set 0 (some 0)), al⟩), s.refused, s.lost⟩ := ⟨_, rfl⟩
  have hH : Holds cfg s1 v ⟨.small (((List.replicate (cfg.ms + 1) (some 0)).set cfg.ms (some (cfg.ms - 0))).set 0 (some 0)), al⟩
      (((List.replicate (cfg.ms + 1) (some 0)).set cfg.ms (some (cfg.ms - 0))).set 0 (some 0)) 0 := by
    rw [hs1]; exact ⟨upd_same _ _ _, rfl, k2⟩
  replace w1 : WInv cfg s1 := by rw [hs1]; exact w1
  replace f1 : Frame (· = v) s s1 := by rw [hs1]; exact f1
  rw [← hs1] at hset
  refine constructing_tri (E := Err0 cfg s1) ?_ ?_
  · refine Tri.step hset ?_
    refine Tri.bind (expandNoinit_tri hc w1 false hH (f1.none (Ne.symm hv0) h0) (by omega)) ?_
    intro r s2 h2
    by_cases hn0 : n = 0
    · obtain ⟨s3, e1, e2⟩ := fill_ok h2 (c := c)
      refine Tri.of_ok e1 ⟨⟨e2.inv, f1.trans e2.frame, by simpa using e2.raw⟩, fun h => absurd hn0 h⟩
    · obtain ⟨w2, f2, p, cs', h1, h2, h3, h4, rfl, h6⟩ := h2
      obtain ⟨s', e1, e2, e3, e4, _⟩ := (h6 hn0).fill w2 (i := (List.take 0 (((List.replicate (cfg.ms + 1) (some 0)).set cfg.ms (some (cfg.ms - 0))).set 0 (some 0)) : List Cell).length) (k := n) (c := c) (by rw [h3]; exact Nat.le_refl _)
      rw [put_tail (by simpa using h3) h4] at e4
      have hraw := e4.raw
      obtain ⟨ob, l, m, g1, g2, _⟩ := e4
      exact Tri.of_ok e1 ⟨⟨e2, (f1.trans f2).trans e3, by simpa using hraw⟩, fun _ => g2⟩
  · intro e s' h
    rcases h with h | ⟨h1, h2, h3, h4, _⟩
    · exact Or.inl h
    · have hv' := h4.holds (fun h => h) hH
      obtain ⟨w3, f3⟩ := h3.drop hv'.var (H := s'.heap) rfl s'.next (Nat.le_refl _) s'.refused s'.lost
      refine Or.inr ⟨h1, h2, w3, ?_⟩
      refine Frame.vanish0 (t := v) ?_ hv (upd_same _ _ _)
      exact (f1.trans (h4.mono (fun _ h => h.elim))).trans f3

end Verif.Str
