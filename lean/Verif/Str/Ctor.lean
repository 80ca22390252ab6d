import Verif.Str.Reserve

/-!
Constructors of the string cores.
-/

namespace Verif.Str

open M

variable {β γ : Type} {cfg : Cfg} {s s' : St} {v u t : Obj}

/-- What can be read before `v` begins to exist can be read afterwards. -/
theorem read_more {p : Ptr} {k b nx : Nat} {cs : List Cell} {x : Option Blk} {y : Option Ob} {rf ls : Bool}
    (h : readCells p k s = (.ok cs, s)) (hv : s.vars v = none) (hb : s.heap b = none) :
    readCells p k ⟨upd s.heap b x, nx, upd s.vars v y, rf, ls⟩ = (.ok cs, ⟨upd s.heap b x, nx, upd s.vars v y, rf, ls⟩) := by
  cases p with
  | ext m i =>
    unfold readCells at h ⊢
    simp only at h ⊢
    split at h
    · next hi => rw [if_pos hi]; cases h; rfl
    · cases h
  | blk d i =>
    unfold readCells at h ⊢
    simp only at h ⊢
    have hd : d ≠ b := by rintro rfl; rw [hb] at h; cases h
    rw [upd_other _ _ hd]
    split at h
    · split at h
      · next hi => rw [if_pos hi]; cases h; rfl
      · cases h
    · cases h
  | inl o i =>
    unfold readCells at h ⊢
    simp only at h ⊢
    have ho : o ≠ v := by rintro rfl; rw [hv] at h; cases h
    rw [upd_other _ _ ho]
    split at h
    · split at h
      · next hi => rw [if_pos hi]; cases h; rfl
      · cases h
    · cases h

theorem read_obj {p : Ptr} {k : Nat} {cs : List Cell} {y : Option Ob} {rf ls : Bool}
    (h : readCells p k s = (.ok cs, s)) (hv : s.vars v = none) :
    readCells p k ⟨s.heap, s.next, upd s.vars v y, rf, ls⟩ = (.ok cs, ⟨s.heap, s.next, upd s.vars v y, rf, ls⟩) := by
  cases p with
  | ext m i =>
    unfold readCells at h ⊢
    simp only at h ⊢
    split at h
    · next hi => rw [if_pos hi]; cases h; rfl
    · cases h
  | blk d i =>
    unfold readCells at h ⊢
    simp only at h ⊢
    split at h
    · split at h
      · next hi => rw [if_pos hi]; cases h; rfl
      · cases h
    · cases h
  | inl o i =>
    unfold readCells at h ⊢
    simp only at h ⊢
    have ho : o ≠ v := by rintro rfl; rw [hv] at h; cases h
    rw [upd_other _ _ ho]
    split at h
    · split at h
      · next hi => rw [if_pos hi]; cases h; rfl
      · cases h
    · cases h

theorem same_obj {p : Ptr} {k : Nat} {cs : List Cell} (h : readCells p k s = (.ok cs, s)) (hv : s.vars v = none) (i : Nat) :
    p.same (.inl v i) = false := by
  cases p with
  | ext m i => rfl
  | blk d i => rfl
  | inl o i =>
    simp only [Ptr.same, beq_eq_false_iff_ne, ne_eq]
    rintro rfl
    unfold readCells at h
    simp only [hv] at h
    cases h

/-- Outcome of a constructor: `v` has the characters `cs`. -/
structure Made (cfg : Cfg) (v : Obj) (cs : List Cell) (s s' : St) : Prop where
  inv : WInv cfg s'
  frame : Frame (· = v) s s'
  own : ∃ p, Own cfg s' v p cs

/-- Constructing: success as the body, and refused allocations leave no trace. -/
theorem constructing_tri {body : M Unit} {Q : Unit → St → Prop} {E : Fault → St → Prop} {s0 : St}
    (hb : Tri body s0 Q E)
    (he : ∀ e s', E e s' → (cfg.arena = false ∧ s'.lost = true) ∨
      (s'.refused = true ∧ AllocThrow e ∧ WInv cfg { s' with vars := upd s'.vars v none } ∧
        Frame (fun _ => False) s { s' with vars := upd s'.vars v none })) :
    Tri (constructing v body) s0 Q (Err0 cfg s) := by
  unfold Tri constructing at *
  generalize body s0 = r at hb ⊢
  obtain ⟨r, s'⟩ := r
  cases r with
  | ok b => exact hb
  | error e =>
    rcases he e s' hb with ⟨har, hl⟩ | ⟨h1, h2, h3, h4⟩
    · cases e with
      | throw w => exact Or.inl ⟨har, hl⟩
      | ub w => exact Or.inl ⟨har, hl⟩
      | assertFail w => exact Or.inl ⟨har, hl⟩
    · have : ∃ w, e = .throw w := by rcases h2 with h | h | h <;> exact ⟨_, h⟩
      obtain ⟨w, rfl⟩ := this
      exact Or.inr ⟨h1, h2, h3, h4, trivial⟩

theorem initCheck_ok (hw' : WInv cfg s') {ob : Ob} {l cs : List Cell} {p : Ptr} {n : Nat} (h : Holds cfg s' v ob l n)
    (hcs : l.take n = cs) (hr : readCells p n s' = (.ok cs, s')) : initCheck cfg v p n s' = (.ok (), s') := by
  obtain ⟨l2, n2, h2, h3, h4, h5⟩ := hw'.view h.var
  obtain ⟨_, rfl, rfl⟩ := h.unique h2
  unfold initCheck
  rw [bind_ok h.sizeM, bind_ok (assert_ok (by simp) _)]
  split
  · rw [bind_ok h.dataM, bind_ok (h.read0 (k := n) (by omega)), bind_ok hr]
    exact assert_ok (by simp [hcs]) _
  · rfl

/-- `n` characters and the terminator in a new array. -/
theorem filled {cs : List Cell} {n cap : Nat} (hcs : cs.length = n) (hn : n ≤ cap) :
    (put (put (List.replicate (cap + 1) none) 0 cs) n [some 0]).length = cap + 1 ∧
    (put (put (List.replicate (cap + 1) none) 0 cs) n [some 0])[n]? = some (some 0) ∧
    (put (put (List.replicate (cap + 1) none) 0 cs) n [some 0]).take n = cs := by
  subst hcs
  obtain ⟨h1, h2, h3⟩ := put_new (m := cap + 1) (cs := cs) (by omega)
  refine ⟨by rw [put_length (by rw [h1]; simp; omega), h1], ?_, ?_⟩
  · rw [put_getElem? (by rw [h1]; simp; omega), if_neg (by omega), if_pos (by simp)]
    simp
  · apply List.ext_getElem?
    intro i
    by_cases hi : i < cs.length
    · rw [List.getElem?_take_of_lt hi, put_getElem? (by rw [h1]; simp; omega), if_pos hi, h3 i hi]
    · rw [List.getElem?_take_eq_none (by omega), List.getElem?_eq_none (by omega)]

/-- The end of the constructors that allocate. -/
theorem initBlock_ok (hw : WInv cfg s) {p : Ptr} {cs : List Cell} {n al nx : Nat} {large : Bool} {ob0 : Ob} {rf ls : Bool}
    (hv : s.vars v = none) (ha : cfg.arena = (al != 0)) (h0 : ob0.al = al)
    (hr : readCells p n s = (.ok cs, s)) (hb : (n + 1) * cfg.w < 4611686018427387904) (hnx : s.next < nx) :
    ∃ s', (do doIf (n != 0) (podCopy cfg p n (.blk s.next 0)); setCore v (.ml s.next n n large); writeCells (.blk s.next n) [some 0] : M Unit)
        ⟨upd s.heap s.next (some ⟨if large then some 1 else none, al, List.replicate (n + 1) none⟩), nx, upd s.vars v (some ob0), rf, ls⟩
        = (.ok (), s') ∧ WInv cfg s' ∧ Frame (· = v) s s' ∧ readCells p n s' = (.ok cs, s') ∧
          ∃ l, Holds cfg s' v ⟨.ml s.next n n large, al⟩ l n ∧ l.take n = cs ∧ Excl s' v := by
  have hb0 := hw.fresh s.next (Nat.le_refl _)
  have hl := (read_length hr).1
  obtain ⟨c1, c2, c3⟩ := filled (cap := n) hl (Nat.le_refl _)
  obtain ⟨w1, f1⟩ := hw.addFresh hv (B := ⟨if large then some 1 else none, al, put (put (List.replicate (n + 1) none) 0 cs) n [some 0]⟩)
    (large := large) c1 (Nat.le_refl _) c2 rfl hb ha (fun h => by rw [h] at ha; simpa using ha.symm) s.next nx (Nat.le_refl _) hnx
  obtain ⟨w2, f2⟩ := w1.count nx (Nat.le_refl _) rf ls
  refine ⟨_, ?_, w2, f1.trans (f2 _), read_more hr hv hb0, _, ⟨upd_same _ _ _, ?_, rfl⟩, c3, ?_⟩
  · have hstep1 : doIf (n != 0) (podCopy cfg p n (.blk s.next 0))
        ⟨upd s.heap s.next (some ⟨if large then some 1 else none, al, List.replicate (n + 1) none⟩), nx, upd s.vars v (some ob0), rf, ls⟩
        = (.ok (), ⟨upd s.heap s.next (some ⟨if large then some 1 else none, al, put (List.replicate (n + 1) none) 0 cs⟩), nx, upd s.vars v (some ob0), rf, ls⟩) := by
      by_cases hn : n = 0
      · subst hn
        have : cs = [] := List.length_eq_zero_iff.1 hl
        subst this
        rw [doIf_neg (by simp)]
        simp [put]
      · rw [doIf_pos (by simpa using hn)]
        unfold podCopy
        rw [same_new hr hb0]
        simp only [Bool.false_and, Bool.false_eq_true, if_false]
        rw [bind_ok (read_more hr hv hb0)]
        simp only [writeCells, upd_same]
        rw [if_pos (by simp [hl])]
        simp
    rw [bind_ok hstep1]
    rw [bind_ok (setCore_ok (upd_same _ _ _))]
    simp only [writeCells, upd_same]
    rw [if_pos (by rw [(put_new (m := n + 1) (cs := cs) (by omega)).1]; simp)]
    simp [h0]
  · simp [cellsOf]
  · intro d' n'' cap' al' he
    simp at he
    obtain ⟨⟨rfl, rfl, rfl, rfl⟩, rfl⟩ := he
    exact ⟨_, upd_same _ _ _, rfl⟩

/-- A new object that ends at once. -/
theorem unborn (hw : WInv cfg s) {nx : Nat} {y : Option Ob} (hv : s.vars v = none) (hnx : s.next ≤ nx) :
    WInv cfg ⟨s.heap, nx, upd (upd s.vars v y) v none, true, s.lost⟩ ∧
      Frame (fun _ => False) s ⟨s.heap, nx, upd (upd s.vars v y) v none, true, s.lost⟩ := by
  have : upd (upd s.vars v y) v none = s.vars := by rw [upd_upd]; exact upd_self hv
  rw [this]
  obtain ⟨w1, f1⟩ := hw.count nx hnx true s.lost
  exact ⟨w1, f1 _⟩

/-- `string_core(data, size)`. -/
theorem ctorData_tri (hc : cfg.Ok) (hw : WInv cfg s) {p : Ptr} {cs : List Cell} {n al : Nat}
    (hv : s.vars v = none) (ha : cfg.arena = (al != 0)) (hr : readCells p n s = (.ok cs, s)) :
    Tri (ctorData cfg v al p n) s (fun _ s' => Made cfg v cs s s') (Err0 cfg s) := by
  unfold ctorData construct
  refine Tri.step (newOb_ok hv ha) ?_
  have hl := (read_length hr).1
  refine constructing_tri (E := fun e s' => ∃ nx, s.next ≤ nx ∧ AllocThrow e ∧
    s' = ⟨s.heap, nx, upd s.vars v (some ⟨.small (List.replicate (cfg.ms + 1) (some 0)), al⟩), true, s.lost⟩) ?_ ?_
  · have fin : ∀ {x : M Unit}, Tri x ⟨s.heap, s.next, upd s.vars v (some ⟨.small (List.replicate (cfg.ms + 1) (some 0)), al⟩), s.refused, s.lost⟩
        (fun _ s' => WInv cfg s' ∧ Frame (· = v) s s' ∧ readCells p n s' = (.ok cs, s') ∧
          ∃ ob l, Holds cfg s' v ob l n ∧ l.take n = cs ∧ Excl s' v)
        (fun e s' => ∃ nx, s.next ≤ nx ∧ AllocThrow e ∧
          s' = ⟨s.heap, nx, upd s.vars v (some ⟨.small (List.replicate (cfg.ms + 1) (some 0)), al⟩), true, s.lost⟩) →
        Tri (do x; initCheck cfg v p n) ⟨s.heap, s.next, upd s.vars v (some ⟨.small (List.replicate (cfg.ms + 1) (some 0)), al⟩), s.refused, s.lost⟩
          (fun _ s' => Made cfg v cs s s')
          (fun e s' => ∃ nx, s.next ≤ nx ∧ AllocThrow e ∧
            s' = ⟨s.heap, nx, upd s.vars v (some ⟨.small (List.replicate (cfg.ms + 1) (some 0)), al⟩), true, s.lost⟩) := by
      intro x hx
      refine Tri.bind hx ?_
      rintro _ s' ⟨w1, f1, r1, ob, l, h1, h2, h3⟩
      exact Tri.of_ok (initCheck_ok w1 h1 h2 r1) ⟨w1, f1, _, ob, l, n, h1, h3, rfl, h2.symm⟩
    refine fin ?_
    unfold initData
    split
    · next hs =>
      simp only [Bool.and_eq_true, decide_eq_true_eq] at hs
      have hpl : (put (List.replicate (cfg.ms + 1) (some 0)) 0 cs).length = cfg.ms + 1 := by rw [put_length (by simp; omega)]; simp
      obtain ⟨k1, k2, k3⟩ := smallOk (cfg := cfg) (s := s) (c := put (List.replicate (cfg.ms + 1) (some 0)) 0 cs) (n := n)
        hpl hs.2 (fun h => by rw [hs.1] at h; cases h)
      obtain ⟨w1, f1⟩ := hw.addSmall hv k1 ha
      refine Tri.of_ok (s' := ⟨s.heap, s.next, upd s.vars v (some ⟨.small (((put (List.replicate (cfg.ms + 1) (some 0)) 0 cs).set cfg.ms (some (cfg.ms - n))).set n (some 0)), al⟩), s.refused, s.lost⟩) (b := ()) ?_ ?_
      · unfold initSmall
        have hstep1 : doIf (n != 0) (podCopy cfg p n (.inl v 0))
            ⟨s.heap, s.next, upd s.vars v (some ⟨.small (List.replicate (cfg.ms + 1) (some 0)), al⟩), s.refused, s.lost⟩
            = (.ok (), ⟨s.heap, s.next, upd s.vars v (some ⟨.small (put (List.replicate (cfg.ms + 1) (some 0)) 0 cs), al⟩), s.refused, s.lost⟩) := by
          by_cases hn : n = 0
          · subst hn
            have : cs = [] := List.length_eq_zero_iff.1 hl
            subst this
            rw [doIf_neg (by simp)]
            simp [put]
          · rw [doIf_pos (by simpa using hn)]
            unfold podCopy
            rw [same_obj hr hv]
            simp only [Bool.false_and, Bool.false_eq_true, if_false]
            rw [bind_ok (read_obj hr hv)]
            simp only [writeCells, upd_same]
            rw [if_pos (by simp [hl]; omega)]
            simp
        rw [bind_ok hstep1, setSmallSize_small (upd_same _ _ _) hs.2]
        simp
      · refine ⟨w1, f1, read_obj hr hv, _, _, ⟨upd_same _ _ _, rfl, k2⟩, ?_, ?_⟩
        · rw [k3]
          unfold put
          rw [List.take_zero, List.nil_append, List.take_append_of_le_length (by omega), ← hl, List.take_length]
        · intro d n cap al' he
          simp at he
    · split
      · next hm =>
        have hmm := hc.mmle.2
        have hbytes : mul64 (add64 1 n) cfg.w = (n + 1) * cfg.w := by
          have hwl := hc.wle
          rw [add64_of_lt (by omega), Nat.add_comm 1 n, mul64_of_lt]
          have : (n + 1) * cfg.w ≤ 255 * 4 := Nat.mul_le_mul (by omega) hwl
          omega
        have hq : (n + 1) * cfg.w / cfg.w = n + 1 := Nat.mul_div_cancel _ hc.wpos
        unfold initMedium
        simp only [hbytes, hq]
        rcases alloc_raw hc ⟨s.heap, s.next, upd s.vars v (some ⟨.small (List.replicate (cfg.ms + 1) (some 0)), al⟩), s.refused, s.lost⟩
          ((n + 1) * cfg.w) false ha with ⟨b1, b2⟩ | b1
        · simp only [hdrBytes, Bool.false_eq_true, if_false, Nat.sub_zero, hq] at b2
          refine Tri.step b2 ?_
          obtain ⟨s', g1, g2, g3, g4, l, g5, g6, g7⟩ := initBlock_ok hw (large := false) (rf := s.refused) (ls := s.lost)
            (ob0 := ⟨.small (List.replicate (cfg.ms + 1) (some 0)), al⟩) hv ha rfl hr b1 (Nat.lt_succ_self s.next)
          exact Tri.of_ok g1 ⟨g2, g3, g4, _, l, g5, g6, g7⟩
        · refine Tri.of_err (by rw [bind_apply, b1]) ⟨s.next + 1, by omega, Or.inl rfl, rfl⟩
      · unfold initLarge
        rcases create_raw hc ⟨s.heap, s.next, upd s.vars v (some ⟨.small (List.replicate (cfg.ms + 1) (some 0)), al⟩), s.refused, s.lost⟩
          n ha with ⟨b1, b2⟩ | ⟨e, nx, b0, b1, b2⟩
        · refine Tri.step b2 ?_
          obtain ⟨s', g1, g2, g3, g4, l, g5, g6, g7⟩ := initBlock_ok hw (large := true) (rf := s.refused) (ls := s.lost)
            (ob0 := ⟨.small (List.replicate (cfg.ms + 1) (some 0)), al⟩) hv ha rfl hr b1 (Nat.lt_succ_self s.next)
          exact Tri.of_ok g1 ⟨g2, g3, g4, _, l, g5, g6, g7⟩
        · exact Tri.of_err (by rw [bind_apply, b2]) ⟨nx, b0, b1, rfl⟩
  · rintro e s' ⟨nx, h1, h2, rfl⟩
    obtain ⟨u1, u2⟩ := unborn hw (y := some ⟨.small (List.replicate (cfg.ms + 1) (some 0)), al⟩) hv h1
    exact Or.inr ⟨rfl, h2, u1, u2⟩

/-- Outcome of the copy constructor. -/
theorem ctorCopy_tri (hc : cfg.Ok) (hw : WInv cfg s) {cs : List Cell} (hv : s.vars v = none) (hu : Raw cfg s u cs) :
    Tri (ctorCopy cfg v u) s (fun _ s' => WInv cfg s' ∧ Frame (· = v) s s' ∧ Raw cfg s' v cs ∧
      (∀ d n cap al, s.vars u = some ⟨.ml d n cap true, al⟩ → s'.vars v = some ⟨.ml d n cap true, al⟩ ∧
        ∃ B, s'.heap d = some B ∧ ∃ r, B.rc = some r ∧ 1 < r)) (Err0 cfg s) := by
  obtain ⟨ob, l, n, h, rfl⟩ := hu
  have huv : u ≠ v := by rintro rfl; have := h.var; rw [hv] at this; cases this
  have ha := hw.al u _ h.var
  obtain ⟨l2, n2, h2, h3, h4, h5⟩ := hw.view h.var
  obtain ⟨_, rfl, rfl⟩ := h.unique h2
  unfold ctorCopy
  refine noexceptIf_err ?_
  refine Tri.step (getOb_ok h.var) ?_
  unfold construct
  refine Tri.step (newOb_ok hv ha) ?_
  refine constructing_tri (E := fun e s' => ∃ nx, s.next ≤ nx ∧ AllocThrow e ∧
    s' = ⟨s.heap, nx, upd s.vars v (some ⟨.small (List.replicate (cfg.ms + 1) (some 0)), ob.al⟩), true, s.lost⟩) ?_ ?_
  · have fin : ∀ {x : M Unit}, Tri x ⟨s.heap, s.next, upd s.vars v (some ⟨.small (List.replicate (cfg.ms + 1) (some 0)), ob.al⟩), s.refused, s.lost⟩
        (fun _ s' => WInv cfg s' ∧ Frame (· = v) s s' ∧ (∃ ob' l', Holds cfg s' v ob' l' n ∧ l'.take n = l.take n) ∧
          (∀ d n cap al, s.vars u = some ⟨.ml d n cap true, al⟩ → s'.vars v = some ⟨.ml d n cap true, al⟩ ∧
        ∃ B, s'.heap d = some B ∧ ∃ r, B.rc = some r ∧ 1 < r))
        (fun e s' => ∃ nx, s.next ≤ nx ∧ AllocThrow e ∧
          s' = ⟨s.heap, nx, upd s.vars v (some ⟨.small (List.replicate (cfg.ms + 1) (some 0)), ob.al⟩), true, s.lost⟩) →
        Tri (do x; copyCheck cfg v u) ⟨s.heap, s.next, upd s.vars v (some ⟨.small (List.replicate (cfg.ms + 1) (some 0)), ob.al⟩), s.refused, s.lost⟩
          (fun _ s' => WInv cfg s' ∧ Frame (· = v) s s' ∧ Raw cfg s' v (l.take n) ∧
          (∀ d n cap al, s.vars u = some ⟨.ml d n cap true, al⟩ → s'.vars v = some ⟨.ml d n cap true, al⟩ ∧
        ∃ B, s'.heap d = some B ∧ ∃ r, B.rc = some r ∧ 1 < r))
          (fun e s' => ∃ nx, s.next ≤ nx ∧ AllocThrow e ∧
            s' = ⟨s.heap, nx, upd s.vars v (some ⟨.small (List.replicate (cfg.ms + 1) (some 0)), ob.al⟩), true, s.lost⟩) := by
      intro x hx
      refine Tri.bind hx ?_
      rintro _ s' ⟨w1, f1, ⟨ob', l', q1, q2⟩, q3⟩
      have hu' := f1.holds huv h
      obtain ⟨l3, n3, g2, g3, g4, g5⟩ := w1.view q1.var
      obtain ⟨_, rfl, rfl⟩ := q1.unique g2
      refine Tri.of_ok (b := ()) (s' := s') ?_ ⟨w1, f1, ⟨ob', l', n, q1, q2.symm⟩, q3⟩
      unfold copyCheck
      rw [bind_ok q1.sizeM, bind_ok hu'.sizeM, bind_ok (assert_ok (by simp) _)]
      split
      · rw [bind_ok q1.dataM, bind_ok hu'.dataM, bind_ok (q1.read0 (k := n) (by omega)), bind_ok (hu'.read0 (k := n) (by omega))]
        exact assert_ok (by simp [q2]) _
      · rfl
    refine fin ?_
    obtain ⟨core, al⟩ := ob
    unfold copyCore
    cases core with
    | small c =>
      have hcl : c = l := by simpa [cellsOf] using h.cells
      subst hcl
      obtain ⟨w1, f1⟩ := hw.addSmall hv (hw.core u _ h.var) ha
      refine Tri.of_ok (setCore_ok (upd_same _ _ _)) ?_
      simp only [upd_upd]
      refine ⟨w1, f1, ⟨_, c, ⟨upd_same _ _ _, rfl, h.size⟩, rfl⟩, ?_⟩
      intro d n cap al' he
      rw [h.var] at he; cases he
    | ml d m cap large =>
      have hm : m = n := by simpa [Core.size?] using h.size
      subst hm
      obtain ⟨B, hB, c1, c2, c3, c4, c5⟩ := hw.core u _ h.var
      have hBl : B.cells = l := by simpa [cellsOf, hB] using h.cells
      subst hBl
      cases large with
      | false =>
        simp only
        unfold copyMedium
        have hcw : cap + 1 ≤ (cap + 1) * cfg.w := Nat.le_mul_of_pos_right _ hc.wpos
        have hmc : (m + 1) * cfg.w ≤ (cap + 1) * cfg.w := Nat.mul_le_mul_right _ (by omega)
        have hbytes : mul64 (add64 1 m) cfg.w = (m + 1) * cfg.w := by
          rw [add64_of_lt (by omega), Nat.add_comm 1 m, mul64_of_lt (by omega)]
        have hq : (m + 1) * cfg.w / cfg.w = m + 1 := Nat.mul_div_cancel _ hc.wpos
        simp only [hbytes, hq]
        rcases alloc_raw hc ⟨s.heap, s.next, upd s.vars v (some ⟨.small (List.replicate (cfg.ms + 1) (some 0)), al⟩), s.refused, s.lost⟩
          ((m + 1) * cfg.w) false ha with ⟨b1, b2⟩ | b1
        · simp only [hdrBytes, Bool.false_eq_true, if_false, Nat.sub_zero, hq] at b2
          refine Tri.step b2 ?_
          have hb0 := hw.fresh s.next (Nat.le_refl _)
          have hrd : readCells (.blk d 0) (m + 1) s = (.ok (B.cells.take (m + 1)), s) := h.read0 (by omega)
          obtain ⟨e1, e2, e3⟩ := copied (cap := m) c3 (Nat.le_refl _)
          obtain ⟨w1, f1⟩ := hw.addFresh hv (B := ⟨none, al, put (List.replicate (m + 1) none) 0 (B.cells.take (m + 1))⟩)
            (large := false) e1 (Nat.le_refl _) e2 rfl b1 ha (fun h => by rw [h] at ha; simpa using ha.symm) s.next (s.next + 1)
            (Nat.le_refl _) (Nat.lt_succ_self _)
          have hpod : podCopy cfg (.blk d 0) (m + 1) (.blk s.next 0) ⟨upd s.heap s.next (some ⟨none, al, List.replicate (m + 1) none⟩), s.next + 1,
              upd s.vars v (some ⟨.small (List.replicate (cfg.ms + 1) (some 0)), al⟩), s.refused, s.lost⟩ =
              (.ok (), ⟨upd s.heap s.next (some ⟨none, al, put (List.replicate (m + 1) none) 0 (B.cells.take (m + 1))⟩), s.next + 1,
              upd s.vars v (some ⟨.small (List.replicate (cfg.ms + 1) (some 0)), al⟩), s.refused, s.lost⟩) := by
            unfold podCopy
            rw [same_new hrd hb0]
            simp only [Bool.false_and, Bool.false_eq_true, if_false]
            rw [bind_ok (read_more hrd hv hb0)]
            simp only [writeCells, upd_same]
            rw [if_pos (by simp; omega)]
            simp
          refine Tri.step hpod ?_
          refine Tri.of_ok (setCore_ok (upd_same _ _ _)) ?_
          simp only [upd_upd]
          refine ⟨w1, f1, ⟨_, _, ⟨upd_same _ _ _, by simp [cellsOf], rfl⟩, e3⟩, ?_⟩
          intro d n cap al' he
          rw [h.var] at he; cases he
        · exact Tri.of_err (by rw [bind_apply, b1]) ⟨s.next + 1, by omega, Or.inl rfl, rfl⟩
      | true =>
        obtain ⟨rc, src, cells⟩ := B
        obtain ⟨r, rfl⟩ := Option.isSome_iff_exists.1 c4
        obtain ⟨L, g1, g2, g3⟩ := hw.own d _ hB
        have hL : 0 < L.length := List.length_pos_of_mem ((g2 u).2 (blkOf_ml h.var))
        have hr1 : 1 ≤ r := by have := g3.2.1; omega
        obtain ⟨w1, f1⟩ := hw.share hv h.var hB
        refine Tri.step (setCore_ok (upd_same _ _ _)) ?_
        simp only [upd_upd]
        have hi : incrementRefs d ⟨s.heap, s.next, upd s.vars v (some ⟨.ml d m cap true, al⟩), s.refused, s.lost⟩ =
            (.ok (), ⟨upd s.heap d (some ⟨some (r + 1), src, cells⟩), s.next, upd s.vars v (some ⟨.ml d m cap true, al⟩), s.refused, s.lost⟩) := by
          unfold incrementRefs
          rw [bind_ok (refs_ok (s := ⟨s.heap, s.next, upd s.vars v (some ⟨.ml d m cap true, al⟩), s.refused, s.lost⟩) hB)]
          exact setRefs_ok (s := ⟨s.heap, s.next, upd s.vars v (some ⟨.ml d m cap true, al⟩), s.refused, s.lost⟩) hB
        refine Tri.of_ok hi ?_
        refine ⟨w1, f1, ⟨_, cells, ⟨upd_same _ _ _, by simp [cellsOf], rfl⟩, rfl⟩, ?_⟩
        intro d' n' cap' al' he
        rw [h.var] at he; cases he
        exact ⟨upd_same _ _ _, _, upd_same _ _ _, r + 1, rfl, by omega⟩
  · rintro e s' ⟨nx, h1, h2, rfl⟩
    obtain ⟨u1, u2⟩ := unborn hw (y := some ⟨.small (List.replicate (cfg.ms + 1) (some 0)), ob.al⟩) hv h1
    exact Or.inr ⟨rfl, h2, u1, u2⟩

/-- The move constructor. -/
theorem ctorMove_ok (hw : WInv cfg s) {cs : List Cell} (hv : s.vars v = none) (hu : Raw cfg s u cs) :
    ∃ s', ctorMove cfg v u s = (.ok (), s') ∧ WInv cfg s' ∧ Frame (fun o => o = v ∨ o = u) s s' ∧ Raw cfg s' v cs ∧ Raw cfg s' u [] ∧
      s'.refused = s.refused ∧ s'.lost = s.lost := by
  obtain ⟨ob, l, n, h, rfl⟩ := hu
  have huv : u ≠ v := by rintro rfl; have := h.var; rw [hv] at this; cases this
  have ha := hw.al u _ h.var
  obtain ⟨base, hbase⟩ : ∃ base, base = (match ob.core with | .small cells => cells | .ml _ _ _ _ => List.replicate (cfg.ms + 1) none) := ⟨_, rfl⟩
  have hbl : base.length = cfg.ms + 1 := by
    have hcore := hw.core u _ h.var
    rw [hbase]
    cases hco : ob.core with
    | small c => rw [hco] at hcore; exact hcore.1
    | ml d n cap large => simp
  obtain ⟨k1, k2, k3⟩ := smallOk (cfg := cfg) (s := s) (c := base) (n := 0) hbl (by omega) (fun _ => rfl)
  obtain ⟨w1, f1⟩ := hw.addSmall hv k1 ha
  have hu1 : Holds cfg ⟨s.heap, s.next, upd s.vars v (some ⟨.small ((base.set cfg.ms (some (cfg.ms - 0))).set 0 (some 0)), ob.al⟩), s.refused, s.lost⟩ u ob l n :=
    f1.holds huv h
  have hv1 : Holds cfg ⟨s.heap, s.next, upd s.vars v (some ⟨.small ((base.set cfg.ms (some (cfg.ms - 0))).set 0 (some 0)), ob.al⟩), s.refused, s.lost⟩ v
      ⟨.small ((base.set cfg.ms (some (cfg.ms - 0))).set 0 (some 0)), ob.al⟩ ((base.set cfg.ms (some (cfg.ms - 0))).set 0 (some 0)) 0 :=
    ⟨upd_same _ _ _, rfl, k2⟩
  obtain ⟨s', g1, g2, g3, g4, g5, g6, g7, g8, g9⟩ := swap_holds w1 hv1 hu1 (Ne.symm huv)
  refine ⟨s', ?_, g2, ?_, ⟨_, _, _, g4, rfl⟩, ⟨_, _, _, g5, by simp⟩, g8, g9⟩
  · have hs' : s' = ⟨s.heap, s.next, upd (upd s.vars v (some ⟨ob.core, ob.al⟩)) u (some ⟨.small ((base.set cfg.ms (some (cfg.ms - 0))).set 0 (some 0)), ob.al⟩), s.refused, s.lost⟩ := by
      have := swap_ok hv1.var hu1.var (Ne.symm huv)
      rw [g1] at this
      simp only [Prod.mk.injEq, true_and] at this
      rw [this]
      simp
    rw [hs']
    unfold ctorMove construct
    rw [bind_ok (getOb_ok h.var), bind_ok (newOb_ok hv ha)]
    have hset : setSmallSize cfg u 0 ⟨s.heap, s.next, upd s.vars v (some ⟨ob.core, ob.al⟩), s.refused, s.lost⟩ =
        (.ok (), ⟨s.heap, s.next, upd (upd s.vars v (some ⟨ob.core, ob.al⟩)) u (some ⟨.small ((base.set cfg.ms (some (cfg.ms - 0))).set 0 (some 0)), ob.al⟩), s.refused, s.lost⟩) := by
      unfold setSmallSize
      have hu2 : (upd s.vars v (some ⟨ob.core, ob.al⟩)) u = some ob := by rw [upd_other _ _ huv]; exact h.var
      rw [bind_ok (assert_ok (by simp) _), bind_ok (getOb_ok hu2)]
      rw [if_pos (by omega)]
      subst hbase
      exact setCore_ok (ob := ob) hu2
    unfold constructing
    rw [bind_ok (setCore_ok (upd_same _ _ _))]
    simp only [upd_upd]
    rw [hset]
  · exact (f1.mono (fun _ h => Or.inl h)).trans g3

end Verif.Str
