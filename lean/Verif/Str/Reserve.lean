import Verif.Str.Core

/-!
`reserve`, `expandNoinit`, `shrink`, `mutableData` of the string cores.
-/

namespace Verif.Str

open M

variable {β γ : Type} {cfg : Cfg} {s s' : St} {v u t : Obj}

theorem setCore_ok {ob : Ob} {c : Core} (h : s.vars v = some ob) :
    setCore v c s = (.ok (), ⟨s.heap, s.next, upd s.vars v (some ⟨c, ob.al⟩), s.refused, s.lost⟩) := by
  unfold setCore; rw [h]

/-- A copy of the first `k + 1` characters in a new array. -/
theorem copied {l : List Cell} {k cap : Nat} (hz : l[k]? = some (some 0)) (hk : k ≤ cap) :
    (put (List.replicate (cap + 1) none) 0 (l.take (k + 1))).length = cap + 1 ∧
    (put (List.replicate (cap + 1) none) 0 (l.take (k + 1)))[k]? = some (some 0) ∧
    (put (List.replicate (cap + 1) none) 0 (l.take (k + 1))).take k = l.take k := by
  have hkl : k < l.length := by
    apply Nat.lt_of_not_le; intro h
    rw [List.getElem?_eq_none h] at hz; cases hz
  have hl : (l.take (k + 1)).length = k + 1 := by simp; omega
  obtain ⟨h1, h2, h3⟩ := put_new (m := cap + 1) (cs := l.take (k + 1)) (by omega)
  refine ⟨h1, ?_, ?_⟩
  · rw [h3 k (by omega), List.getElem?_take_of_lt (by omega)]; exact hz
  · have : (put (List.replicate (cap + 1) none) 0 (l.take (k + 1))).take k =
        ((put (List.replicate (cap + 1) none) 0 (l.take (k + 1))).take (k + 1)).take k := by
      rw [List.take_take]; congr 1; omega
    rw [this]
    rw [hl] at h2
    rw [h2, List.take_take]; congr 1; omega

/-- `v` takes a new block. -/
theorem install (hw : WInv cfg s) {ob : Ob} (hv : s.vars v = some ob) {H : Nat → Option Blk} (hd : DropOk cfg s ob.core H)
    {cells : List Cell} {k cap src b nx : Nat} {large : Bool} (hlen : cells.length = cap + 1) (hk : k ≤ cap)
    (hz : cells[k]? = some (some 0)) (h5 : (cap + 1) * cfg.w < 4611686018427387904) (hs : cfg.arena = false → src = 0)
    (hb : s.next ≤ b) (hnx : b < nx) (rf ls : Bool) :
    WInv cfg ⟨upd H b (some ⟨if large then some 1 else none, src, cells⟩), nx, upd s.vars v (some ⟨.ml b k cap large, ob.al⟩), rf, ls⟩ ∧
    Frame (· = v) s ⟨upd H b (some ⟨if large then some 1 else none, src, cells⟩), nx, upd s.vars v (some ⟨.ml b k cap large, ob.al⟩), rf, ls⟩ ∧
    Holds cfg ⟨upd H b (some ⟨if large then some 1 else none, src, cells⟩), nx, upd s.vars v (some ⟨.ml b k cap large, ob.al⟩), rf, ls⟩ v
      ⟨.ml b k cap large, ob.al⟩ cells k ∧
    Excl ⟨upd H b (some ⟨if large then some 1 else none, src, cells⟩), nx, upd s.vars v (some ⟨.ml b k cap large, ob.al⟩), rf, ls⟩ v := by
  obtain ⟨w1, f1⟩ := hw.toFresh hv hd (B := ⟨if large then some 1 else none, src, cells⟩) hlen hk hz rfl h5 (hw.al v ob hv) hs b nx hb hnx rf ls
  refine ⟨w1, f1, ⟨by simp, by simp [cellsOf], rfl⟩, ?_⟩
  intro d' n'' cap' al' he
  simp at he
  obtain ⟨⟨rfl, rfl, rfl, rfl⟩, rfl⟩ := he
  exact ⟨_, upd_same _ _ _, rfl⟩

/-- Outcome of reserving: same characters, unshared, room for `n`. -/
structure Grown (cfg : Cfg) (v : Obj) (cs : List Cell) (n : Nat) (ml : Bool) (s s' : St) : Prop where
  inv : WInv cfg s'
  frame : Frame (· = v) s s'
  ob : ∃ ob l k, Holds cfg s' v ob l k ∧ Excl s' v ∧ cs = l.take k ∧ n ≤ ob.core.cap cfg ∧
    (ml = true → ∃ d m cap large, ob.core = .ml d m cap large)

theorem reserveSmall_tri (hc : cfg.Ok) (hw : WInv cfg s) {l : List Cell} {al k n : Nat}
    (h : Holds cfg s v ⟨.small l, al⟩ l k) :
    Tri (reserveSmall cfg v n) s (fun _ s' => Grown cfg v (l.take k) n (!(cfg.sso && decide (n ≤ cfg.ms))) s s') (Err0 cfg s) := by
  have hv := h.var
  have ha := hw.al v _ hv
  obtain ⟨l2, n2, h2, h3, h4, h5⟩ := hw.view hv
  obtain ⟨_, rfl, rfl⟩ := h.unique h2
  have hcore := hw.core v _ hv
  obtain ⟨g1, m, g2, g3, g4, g5⟩ := hcore
  have hsz := h.size
  rw [smallSize_eq g2 g4] at hsz; cases hsz
  have hx : Excl s v := by intro d n cap al' he; rw [hv] at he; cases he
  unfold reserveSmall
  refine Tri.step (getOb_ok hv) ?_
  by_cases hs : (cfg.sso && decide (n ≤ cfg.ms)) = true
  · rw [if_pos hs]
    refine Tri.ret ⟨hw, Frame.refl _ _, _, l, k, h, hx, rfl, ?_, ?_⟩
    · simp only [Bool.and_eq_true, decide_eq_true_eq] at hs; exact hs.2
    · rw [hs]; intro h; cases h
  · rw [if_neg hs]
    have hkn : k ≤ n := by
      cases hss : cfg.sso with
      | false => rw [g3 hss]; omega
      | true => simp [hss] at hs; omega
    have hrd : readCells (.inl v 0) (k + 1) s = (.ok (l.take (k + 1)), s) := h.read0 (by omega)
    obtain ⟨c1, c2, c3⟩ := copied (cap := n) h5 hkn
    by_cases hm : n ≤ cfg.mm
    · rw [if_pos hm]
      have hmm := hc.mmle.2
      have hbytes : mul64 (add64 1 n) cfg.w = (n + 1) * cfg.w := by
        have hwl := hc.wle
        rw [add64_of_lt (by omega), Nat.add_comm 1 n, mul64_of_lt]
        have : (n + 1) * cfg.w ≤ 255 * 4 := Nat.mul_le_mul (by omega) hwl
        omega
      have hq : (n + 1) * cfg.w / cfg.w = n + 1 := Nat.mul_div_cancel _ hc.wpos
      simp only [hbytes]
      rcases alloc_cases hc hw (bytes := (n + 1) * cfg.w) false ha with ⟨b1, b2⟩ | ⟨s', b1, b2⟩
      · simp only [hdrBytes, Bool.false_eq_true, if_false, Nat.sub_zero, hq] at b2
        refine Tri.step b2 ?_
        have hb0 := hw.fresh s.next (Nat.le_refl _)
        have h' : Holds cfg ⟨upd s.heap s.next (some ⟨none, al, List.replicate (n + 1) none⟩), s.next + 1, s.vars, s.refused, s.lost⟩ v ⟨.small l, al⟩ l k :=
          ⟨hv, rfl, h.size⟩
        refine Tri.step h'.sizeM ?_
        refine Tri.step (podCopy_new hrd hb0 (by omega)) ?_
        have hsc := setCore_ok (s := ⟨upd s.heap s.next (some ⟨none, al, put (List.replicate (n + 1) none) 0 (l.take (k + 1))⟩), s.next + 1, s.vars, s.refused, s.lost⟩) (c := .ml s.next k ((n + 1) * cfg.w / cfg.w - 1) false) hv
        refine Tri.of_ok hsc ?_
        rw [hq]
        obtain ⟨w1, f1, o1, x1⟩ := install hw hv (H := s.heap) rfl (src := al) (large := false) c1 hkn c2 b1
          (fun h => by rw [h] at ha; simpa using ha.symm) (Nat.le_refl _) (Nat.lt_succ_self _) s.refused s.lost
        exact ⟨w1, f1, _, _, _, o1, x1, c3.symm, Nat.le_refl _, fun _ => ⟨_, _, _, _, rfl⟩⟩
      · refine Tri.of_err (s' := s') ?_ b2
        rw [bind_apply, b1]
    · rw [if_neg hm]
      rcases create_cases hc hw (n := n) ha with ⟨b1, b2⟩ | ⟨e, s', b1, b2⟩
      · refine Tri.step b2 ?_
        have hb0 := hw.fresh s.next (Nat.le_refl _)
        have h' : Holds cfg ⟨upd s.heap s.next (some ⟨some 1, al, List.replicate (n + 1) none⟩), s.next + 1, s.vars, s.refused, s.lost⟩ v ⟨.small l, al⟩ l k :=
          ⟨hv, rfl, h.size⟩
        refine Tri.step h'.sizeM ?_
        refine Tri.step (podCopy_new hrd hb0 (by omega)) ?_
        have hsc := setCore_ok (s := ⟨upd s.heap s.next (some ⟨some 1, al, put (List.replicate (n + 1) none) 0 (l.take (k + 1))⟩), s.next + 1, s.vars, s.refused, s.lost⟩) (c := .ml s.next k n true) hv
        refine Tri.step hsc ?_
        obtain ⟨w1, f1, o1, x1⟩ := install hw hv (H := s.heap) rfl (src := al) (large := true) c1 hkn c2 b1
          (fun h => by rw [h] at ha; simpa using ha.symm) (Nat.le_refl _) (Nat.lt_succ_self _) s.refused s.lost
        obtain ⟨c, d1, d2, d3, d4, d5⟩ := o1.capM w1
        refine Tri.step d1 ?_
        refine Tri.of_ok (assert_ok ?_ _) ?_
        · have := d4 x1
          simp only [Core.cap] at this
          simp [this]
        · exact ⟨w1, f1, _, _, _, o1, x1, c3.symm, Nat.le_refl _, fun _ => ⟨_, _, _, _, rfl⟩⟩
      · refine Tri.of_err (s' := s') ?_ b2
        rw [bind_apply, b1]

theorem unshare_full (hc : cfg.Ok) (hw : WInv cfg s) {l : List Cell} {d al k cap n r src : Nat} {B : List Cell}
    (h : Holds cfg s v ⟨.ml d k cap true, al⟩ l k) (hB : s.heap d = some ⟨some r, src, B⟩) (hr : 1 < r) :
    Tri (unshare cfg v n) s (fun _ s' => Grown cfg v (l.take k) (max n cap) true s s' ∧
      (∃ B', s'.heap d = some B' ∧ B'.cells = l) ∧ blkOf s' v ≠ some d) (Err0 cfg s) := by
  have hv := h.var
  have ha := hw.al v _ hv
  obtain ⟨l2, n2, h2, h3, h4, h5⟩ := hw.view hv
  obtain ⟨_, rfl, rfl⟩ := h.unique h2
  simp only [Core.cap] at h3 h4
  unfold unshare
  refine Tri.step (getOb_ok hv) ?_
  simp only
  have hkn : k ≤ max n cap := by omega
  have hrd : readCells (.blk d 0) (k + 1) s = (.ok (l.take (k + 1)), s) := h.read0 (by omega)
  obtain ⟨c1, c2, c3⟩ := copied (cap := max n cap) h5 hkn
  rcases create_cases hc hw (n := max n cap) ha with ⟨b1, b2⟩ | ⟨e, s', b1, b2⟩
  · refine Tri.step b2 ?_
    refine Tri.step (assert_ok (decide_eq_true (Nat.le_max_right _ _)) _) ?_
    have hb0 := hw.fresh s.next (Nat.le_refl _)
    have hdb : d ≠ s.next := by rintro rfl; rw [hb0] at hB; cases hB
    refine Tri.step (podCopy_new hrd hb0 (by omega)) ?_
    obtain ⟨q, rfl⟩ : ∃ q, r = q + 1 := ⟨r - 1, by omega⟩
    have hB' : (upd s.heap s.next (some ⟨some 1, al, put (List.replicate (max n cap + 1) none) 0 (l.take (k + 1))⟩)) d = some ⟨some (q + 1), src, B⟩ := by
      rw [upd_other _ _ hdb]; exact hB
    refine Tri.step (decrementRefs_dec (s := ⟨upd s.heap s.next (some ⟨some 1, al, put (List.replicate (max n cap + 1) none) 0 (l.take (k + 1))⟩), s.next + 1, s.vars, s.refused, s.lost⟩) hB' (by omega)) ?_
    refine Tri.of_ok (setCore_ok (ob := ⟨.ml d k cap true, al⟩) hv) ?_
    have hdrop : DropOk cfg s (Core.ml d k cap true) (upd s.heap d (some ⟨some q, src, B⟩)) :=
      ⟨_, hB, Or.inr (Or.inl ⟨q, rfl, by omega, rfl⟩)⟩
    obtain ⟨w1, f1, o1, x1⟩ := install hw hv hdrop (src := al) (large := true) c1 hkn c2 b1
      (fun h => by rw [h] at ha; simpa using ha.symm) (Nat.le_refl _) (Nat.lt_succ_self _) s.refused s.lost
    simp only
    rw [upd_comm _ (Ne.symm hdb)]
    refine ⟨⟨w1, f1, _, _, _, o1, x1, c3.symm, Nat.le_refl _, fun _ => ⟨_, _, _, _, rfl⟩⟩, ⟨⟨some q, src, B⟩, ?_, ?_⟩, ?_⟩
    · simp only [upd_other _ _ hdb, upd_same]
    · simpa [cellsOf, hB] using h.cells
    · rw [blkOf_upd]
      simpa [Core.blk?] using Ne.symm hdb
  · refine Tri.of_err (s' := s') ?_ b2
    rw [bind_apply, b1]

theorem unshare_tri (hc : cfg.Ok) (hw : WInv cfg s) {l : List Cell} {d al k cap n r src : Nat} {B : List Cell}
    (h : Holds cfg s v ⟨.ml d k cap true, al⟩ l k) (hB : s.heap d = some ⟨some r, src, B⟩) (hr : 1 < r) :
    Tri (unshare cfg v n) s (fun _ s' => Grown cfg v (l.take k) (max n cap) true s s') (Err0 cfg s) :=
  (unshare_full hc hw h hB hr).mono (fun _ _ h => h.1) (fun _ _ h => h)

/-- A bigger block instead of the one an unshared string has. -/
theorem smartRealloc_tri (hc : cfg.Ok) (hw : WInv cfg s) {d al k cap n : Nat} {hdr large : Bool} {B : Blk}
    (hv : s.vars v = some ⟨.ml d k cap large, al⟩) (hB : s.heap d = some B) (hrc : B.rc = if hdr then some 1 else none)
    (hn : cap < n) :
    Tri (smartRealloc cfg al d hdr (hdrBytes hdr + (k + 1) * cfg.w) (hdrBytes hdr + (cap + 1) * cfg.w) (hdrBytes hdr + (n + 1) * cfg.w)) s
      (fun b s' => b = s.next ∧ (n + 1) * cfg.w < 4611686018427387904 ∧
        ∃ H src cells, DropOk cfg s (.ml d k cap large) H ∧ (cfg.arena = false → src = 0) ∧ cells.length = n + 1 ∧
          cells.take (k + 1) = B.cells.take (k + 1) ∧
          s' = ⟨upd H s.next (some ⟨if hdr then some 1 else none, src, cells⟩), s.next + 1, s.vars, s.refused, s.lost⟩)
      (Err0 cfg s) := by
  obtain ⟨B', hB', h1, h2, h3, h4, h5⟩ := hw.core v _ hv
  rw [hB] at hB'; cases hB'
  have ha := hw.al v _ hv
  simp only at ha
  have hwp := hc.wpos
  have hb0 := hw.fresh s.next (Nat.le_refl _)
  have hdb : d ≠ s.next := by rintro rfl; rw [hb0] at hB; cases hB
  have hkc : (k + 1) * cfg.w ≤ (cap + 1) * cfg.w := Nat.mul_le_mul_right _ (by omega)
  have hcn : (cap + 1) * cfg.w < (n + 1) * cfg.w := Nat.mul_lt_mul_of_pos_right (by omega) hwp
  have hqk : (hdrBytes hdr + (k + 1) * cfg.w - hdrBytes hdr) / cfg.w = k + 1 := by
    rw [Nat.add_sub_cancel_left, Nat.mul_div_cancel _ hwp]
  have hqn : (hdrBytes hdr + (n + 1) * cfg.w - hdrBytes hdr) / cfg.w = n + 1 := by
    rw [Nat.add_sub_cancel_left, Nat.mul_div_cancel _ hwp]
  have hrd : readCells (.blk d 0) (k + 1) s = (.ok (B.cells.take (k + 1)), s) := by
    have : k + 1 ≤ B.cells.length := by omega
    simp [readCells, hB, this]
  have hlk : (B.cells.take (k + 1)).length = k + 1 := by simp; omega
  obtain ⟨c1, c2, c3⟩ := put_new (m := n + 1) (cs := B.cells.take (k + 1)) (by omega)
  rw [hlk] at c2
  have hcopy : ∀ rf ls, copyBlk d s.next (k + 1) ⟨upd s.heap s.next (some ⟨if hdr then some 1 else none, al, List.replicate (n + 1) none⟩), s.next + 1, s.vars, rf, ls⟩ =
      (.ok (), ⟨upd s.heap s.next (some ⟨if hdr then some 1 else none, al, put (List.replicate (n + 1) none) 0 (B.cells.take (k + 1))⟩), s.next + 1, s.vars, rf, ls⟩) := by
    intro rf ls
    unfold copyBlk
    rw [bind_ok (read_new hrd hb0)]
    have : k + 1 ≤ n + 1 := by omega
    simp only [writeCells, upd_same]
    rw [if_pos (by rw [hlk]; simp; omega)]
    simp
  unfold smartRealloc
  refine Tri.step (assert_ok (by simp; omega) _) ?_
  cases har : cfg.arena with
  | true =>
    simp only [if_true]
    rcases alloc_cases hc hw (bytes := hdrBytes hdr + (n + 1) * cfg.w) hdr ha with ⟨b1, b2⟩ | ⟨s', b1, b2⟩
    · rw [hqn] at b2
      refine Tri.step b2 ?_
      rw [hqk]
      refine Tri.step (hcopy _ _) ?_
      have hal : (al == 0) = false := by
        rw [har] at ha
        simpa using ha.symm
      rw [doIf_neg hal]
      refine Tri.step (pure_apply _ _) ?_
      refine Tri.ret ⟨rfl, by omega, s.heap, al, _, ⟨B, hB, Or.inl ⟨rfl, har⟩⟩, ?_, c1, c2, rfl⟩
      intro h; cases h
    · refine Tri.of_err (s' := s') ?_ b2
      rw [bind_apply, b1]
  | false =>
    simp only [Bool.false_eq_true, if_false]
    have hal : al = 0 := by rw [har] at ha; simpa using ha.symm
    have hsrc := hw.src d B hB har
    have hrc1 : B.rc = none ∨ B.rc = some 1 := by rw [hrc]; cases hdr <;> simp
    have hdrop : DropOk cfg s (.ml d k cap large) (upd s.heap d none) := ⟨B, hB, Or.inr (Or.inr ⟨har, hrc1, rfl⟩)⟩
    split
    · rcases alloc_cases hc hw (bytes := hdrBytes hdr + (n + 1) * cfg.w) hdr ha with ⟨b1, b2⟩ | ⟨s', b1, b2⟩
      · rw [hqn] at b2
        refine Tri.step b2 ?_
        rw [hqk]
        refine Tri.step (hcopy _ _) ?_
        have hde : dealloc cfg al d ⟨upd s.heap s.next (some ⟨if hdr then some 1 else none, al, put (List.replicate (n + 1) none) 0 (B.cells.take (k + 1))⟩), s.next + 1, s.vars, s.refused, s.lost⟩ =
            (.ok (), ⟨upd (upd s.heap s.next (some ⟨if hdr then some 1 else none, al, put (List.replicate (n + 1) none) 0 (B.cells.take (k + 1))⟩)) d none, s.next + 1, s.vars, s.refused, s.lost⟩) := by
          unfold dealloc
          simp only [upd_other _ _ hdb, hB]
          simp [har, hsrc, hal]
        refine Tri.step hde ?_
        refine Tri.ret ⟨rfl, by omega, upd s.heap d none, al, _, hdrop, fun _ => hal, c1, c2, ?_⟩
        rw [upd_comm _ (Ne.symm hdb)]
      · refine Tri.of_err (s' := s') ?_ b2
        rw [bind_apply, b1]
    · unfold checkedRealloc Tri
      simp only [hB]
      by_cases hm : cfg.malloc s.next (hdrBytes hdr + (n + 1) * cfg.w) = true
      · simp only [hm, if_true, hqn]
        have hlt : hdrBytes hdr + (n + 1) * cfg.w < 4611686018427387904 := by
          apply Nat.lt_of_not_le
          intro hle
          rw [hc.malloc _ _ hle] at hm; cases hm
        refine ⟨trivial, by omega, upd s.heap d none, B.src, _, hdrop, fun _ => hsrc, ?_, ?_, by rw [hrc]⟩
        · simp; omega
        · rw [List.take_append_of_le_length (by simp; omega), List.take_take]
          congr 1; omega
      · simp only [hm]
        exact Or.inl ⟨har, rfl⟩

/-- After `smartRealloc`. -/
theorem realloced (hw : WInv cfg s) {d al k cap n src nx : Nat} {hdr : Bool} {B : Blk} {H : Nat → Option Blk} {cells : List Cell}
    (hv : s.vars v = some ⟨.ml d k cap hdr, al⟩) (hB : s.heap d = some B) (hn : cap < n)
    (hb : (n + 1) * cfg.w < 4611686018427387904) (hd : DropOk cfg s (.ml d k cap hdr) H) (hs : cfg.arena = false → src = 0)
    (hl : cells.length = n + 1) (ht : cells.take (k + 1) = B.cells.take (k + 1)) (hnx : s.next < nx) (rf ls : Bool) :
    Grown cfg v (B.cells.take k) n true s
      ⟨upd H s.next (some ⟨if hdr then some 1 else none, src, cells⟩), nx, upd s.vars v (some ⟨.ml s.next k n hdr, al⟩), rf, ls⟩ := by
  obtain ⟨B', hB', h1, h2, h3, h4, h5⟩ := hw.core v _ hv
  rw [hB] at hB'; cases hB'
  have hz : cells[k]? = some (some 0) := by
    rw [← List.getElem?_take_of_lt (Nat.lt_succ_self k), ht, List.getElem?_take_of_lt (Nat.lt_succ_self k)]; exact h3
  have hk : cells.take k = B.cells.take k := by
    have e1 : cells.take k = (cells.take (k + 1)).take k := by rw [List.take_take]; congr 1; omega
    have e2 : B.cells.take k = (B.cells.take (k + 1)).take k := by rw [List.take_take]; congr 1; omega
    rw [e1, ht, ← e2]
  obtain ⟨w1, f1, o1, x1⟩ := install hw hv hd (src := src) (large := hdr) hl (by omega) hz hb hs (Nat.le_refl _) hnx rf ls
  exact ⟨w1, f1, _, _, _, o1, x1, hk.symm, Nat.le_refl _, fun _ => ⟨_, _, _, _, rfl⟩⟩

theorem reserveLarge_tri (hc : cfg.Ok) (hw : WInv cfg s) {l : List Cell} {d al k cap n : Nat}
    (h : Holds cfg s v ⟨.ml d k cap true, al⟩ l k) :
    Tri (reserveLarge cfg v n) s (fun _ s' => Grown cfg v (l.take k) n true s s') (Err0 cfg s) := by
  have hv := h.var
  have ha := hw.al v _ hv
  obtain ⟨B, hB, h1, h2, h3, h4, h5⟩ := hw.core v _ hv
  have hl : B.cells = l := by simpa [cellsOf, hB] using h.cells
  obtain ⟨rc, src, cells⟩ := B
  obtain ⟨r, rfl⟩ := Option.isSome_iff_exists.1 h4
  simp only at hl h1 h3; subst hl
  obtain ⟨L, g1, g2, g3⟩ := hw.own d _ hB
  have hL : 0 < L.length := List.length_pos_of_mem ((g2 v).2 (blkOf_ml hv))
  have hr1 : 1 ≤ r := by have := g3.2.1; omega
  unfold reserveLarge
  refine Tri.step (getOb_ok hv) ?_
  simp only
  refine Tri.step (refs_ok hB) ?_
  by_cases hr : r > 1
  · rw [if_pos hr]
    refine (unshare_tri hc hw h hB hr).mono (fun _ s' g => ?_) (fun _ _ h => h)
    obtain ⟨w1, f1, ob, l', k', a1, a2, a3, a4, a5⟩ := g
    exact ⟨w1, f1, ob, l', k', a1, a2, a3, by omega, a5⟩
  · rw [if_neg hr]
    have : r = 1 := by omega
    subst this
    have hx : Excl s v := by
      intro d' n' cap' al' he
      rw [hv] at he; cases he
      exact ⟨_, hB, rfl⟩
    by_cases hn : n > cap
    · rw [if_pos hn]
      have hkc : (k + 1) * cfg.w ≤ (cap + 1) * cfg.w := Nat.mul_le_mul_right _ (by omega)
      have hcw : cap + 1 ≤ (cap + 1) * cfg.w := Nat.le_mul_of_pos_right _ hc.wpos
      have hre : Tri (reallocate cfg al d k cap n) s
          (fun r s' => r.1 = s.next ∧ r.2 = n ∧ ∃ H src cells', (n + 1) * cfg.w < 4611686018427387904 ∧
            DropOk cfg s (.ml d k cap true) H ∧ (cfg.arena = false → src = 0) ∧ cells'.length = n + 1 ∧
            cells'.take (k + 1) = cells.take (k + 1) ∧
            s' = ⟨upd H s.next (some ⟨some 1, src, cells'⟩), s.next + 1, s.vars, s.refused, s.lost⟩) (Err0 cfg s) := by
        unfold reallocate
        refine Tri.step (assert_ok (by simp; omega) _) ?_
        have hlen : Tri (lengthError : M Nat) s (fun b s' => False) (Err0 cfg s) := by
          refine Or.inr ⟨rfl, Or.inr (Or.inl rfl), ?_⟩
          obtain ⟨w1, f1⟩ := hw.count s.next (Nat.le_refl _) true s.lost
          exact ⟨w1, f1 _, trivial⟩
        have hlb : Tri (largeBytes cfg n) s (fun b s' => b = (n + 1) * cfg.w + 8 ∧ s' = s) (Err0 cfg s) := by
          unfold largeBytes
          split
          · split
            · exact Tri.ret ⟨rfl, rfl⟩
            · exact hlen.mono (fun _ _ h => h.elim) (fun _ _ h => h)
          · exact hlen.mono (fun _ _ h => h.elim) (fun _ _ h => h)
        refine Tri.bind hlb ?_
        rintro _ _ ⟨rfl, rfl⟩
        refine Tri.step (refs_ok hB) ?_
        refine Tri.step (assert_ok (by simp) _) ?_
        rw [add64_of_lt (a := k) (by omega), add64_of_lt (a := cap) (by omega), mul64_of_lt (a := k + 1) (by omega), mul64_of_lt (a := cap + 1) (by omega)]
        have := smartRealloc_tri hc hw (hdr := true) hv hB rfl hn
        rw [show hdrBytes true = 8 from rfl, Nat.add_comm 8 ((n + 1) * cfg.w)] at this
        refine Tri.bind this ?_
        rintro b s1 ⟨rfl, hb, H, src', cells', i1, i2, i3, i4, rfl⟩
        refine Tri.ret ⟨rfl, ?_, H, src', cells', hb, i1, i2, i3, i4, rfl⟩
        have hq : (n + 1) * cfg.w / cfg.w = n + 1 := Nat.mul_div_cancel _ hc.wpos
        simp [hq]
      refine Tri.bind hre ?_
      rintro ⟨b, ncap⟩ s1 ⟨e1, e2, H, src', cells', hb, i1, i2, i3, i4, rfl⟩
      simp only at e1 e2
      subst e1; subst e2
      have G := realloced hw hv hB hn hb i1 i2 i3 i4 (Nat.lt_succ_self _) s.refused s.lost
      refine Tri.step (setCore_ok (ob := ⟨.ml d k cap true, al⟩) hv) ?_
      simp only [if_true] at G
      obtain ⟨ob, l', k', a1, a2, a3, a4, a5⟩ := G.ob
      obtain ⟨c, d1, d2, d3, d4, d5⟩ := a1.capM G.inv
      refine Tri.step d1 ?_
      refine Tri.of_ok (assert_ok ?_ _) G
      have := d4 a2
      simp; omega
    · rw [if_neg hn]
      obtain ⟨c, d1, d2, d3, d4, d5⟩ := h.capM hw
      have hcap := d4 hx
      simp only [Core.cap] at hcap
      refine Tri.step d1 ?_
      refine Tri.of_ok (assert_ok (by simp; omega) _) ?_
      exact ⟨hw, Frame.refl _ _, _, _, _, h, hx, rfl, by simp only [Core.cap]; omega, fun _ => ⟨_, _, _, _, rfl⟩⟩

/-- A small array of size `n`. -/
theorem smallOk {c : List Cell} {n : Nat} (hl : c.length = cfg.ms + 1) (hn : n ≤ cfg.ms) (h0 : cfg.sso = false → n = 0) :
    CoreOk cfg s (.small ((c.set cfg.ms (some (cfg.ms - n))).set n (some 0))) ∧
      (Core.small ((c.set cfg.ms (some (cfg.ms - n))).set n (some 0))).size? cfg = some n ∧
      ((c.set cfg.ms (some (cfg.ms - n))).set n (some 0)).take n = c.take n := by
  have h1 : ((c.set cfg.ms (some (cfg.ms - n))).set n (some 0))[cfg.ms]? = some (some (cfg.ms - n)) := by
    by_cases e : n = cfg.ms
    · subst e
      rw [List.getElem?_set_self (by simp [hl])]; simp
    · rw [List.getElem?_set_ne e, List.getElem?_set_self (by omega)]
  have h2 : ((c.set cfg.ms (some (cfg.ms - n))).set n (some 0))[n]? = some (some 0) := by
    rw [List.getElem?_set_self (by simp [hl]; omega)]
  refine ⟨⟨by simp [hl], n, hn, h0, h1, h2⟩, smallSize_eq hn h1, ?_⟩
  rw [List.take_set_of_le (Nat.le_refl _), List.take_set_of_le hn]

theorem setSmallSize_small {c : List Cell} {al n : Nat} (hv : s.vars v = some ⟨.small c, al⟩) (hn : n ≤ cfg.ms) :
    setSmallSize cfg v n s = (.ok (), ⟨s.heap, s.next,
      upd s.vars v (some ⟨.small ((c.set cfg.ms (some (cfg.ms - n))).set n (some 0)), al⟩), s.refused, s.lost⟩) := by
  unfold setSmallSize
  rw [bind_ok (assert_ok (by simpa using hn) _), bind_ok (getOb_ok hv)]
  simp only
  rw [if_pos hn]
  exact setCore_ok hv

theorem newOb_ok {al : Nat} (hv : s.vars v = none) (ha : cfg.arena = (al != 0)) :
    newOb cfg v al s = (.ok (), ⟨s.heap, s.next, upd s.vars v (some ⟨.small (List.replicate (cfg.ms + 1) (some 0)), al⟩), s.refused, s.lost⟩) := by
  unfold newOb
  have h0 : (cfg.arena && cfg.dbg && al == 0) = false := by
    rw [ha]
    by_cases h : al = 0 <;> simp [h]
  simp only [hv, h0, Bool.false_eq_true, if_false]

/-- The default constructor. -/
theorem ctorEmpty_ok (hw : WInv cfg s) {al : Nat} (hv : s.vars v = none) (ha : cfg.arena = (al != 0)) :
    ∃ s' l, ctorEmpty cfg v al s = (.ok (), s') ∧ WInv cfg s' ∧ Frame (· = v) s s' ∧
      Holds cfg s' v ⟨.small l, al⟩ l 0 ∧ s'.refused = s.refused ∧ s'.lost = s.lost := by
  obtain ⟨k1, k2, k3⟩ := smallOk (cfg := cfg) (s := s) (c := List.replicate (cfg.ms + 1) (some 0)) (n := 0) (by simp) (by omega) (fun _ => rfl)
  obtain ⟨w1, f1⟩ := hw.addSmall hv k1 ha
  refine ⟨_, _, ?_, w1, f1, ⟨by simp, rfl, k2⟩, rfl, rfl⟩
  unfold ctorEmpty construct
  rw [bind_ok (newOb_ok hv ha)]
  have := setSmallSize_small (cfg := cfg) (s := ⟨s.heap, s.next, upd s.vars v (some ⟨.small (List.replicate (cfg.ms + 1) (some 0)), al⟩), s.refused, s.lost⟩)
    (v := v) (n := 0) (upd_same _ _ _) (by omega)
  unfold constructing initEmpty
  rw [this]
  simp

theorem swap_ok {a b : Ob} (hu : s.vars u = some a) (hv : s.vars v = some b) (huv : u ≠ v) :
    swap u v s = (.ok (), ⟨s.heap, s.next, upd (upd s.vars u (some ⟨b.core, a.al⟩)) v (some ⟨a.core, b.al⟩), s.refused, s.lost⟩) := by
  unfold swap
  rw [bind_ok (getOb_ok hu), bind_ok (getOb_ok hv), bind_ok (setCore_ok hu)]
  exact setCore_ok (s := ⟨s.heap, s.next, upd s.vars u (some ⟨b.core, a.al⟩), s.refused, s.lost⟩) (ob := b) (by simp only; rw [upd_other _ _ (Ne.symm huv)]; exact hv)

/-- `u` and `v` exchange what they hold. -/
theorem swap_holds (hw : WInv cfg s) {a b : Ob} {l l' : List Cell} {n n' : Nat} (hu : Holds cfg s u a l n)
    (hv : Holds cfg s v b l' n') (huv : u ≠ v) :
    ∃ s', swap u v s = (.ok (), s') ∧ WInv cfg s' ∧ Frame (fun o => o = u ∨ o = v) s s' ∧
      Holds cfg s' u ⟨b.core, a.al⟩ l' n' ∧ Holds cfg s' v ⟨a.core, b.al⟩ l n ∧
      (Excl s u → Excl s' v) ∧ (Excl s v → Excl s' u) ∧ s'.refused = s.refused ∧ s'.lost = s.lost := by
  have cl : ∀ (c : Core) (vs : Obj → Option Ob), cellsOf ⟨s.heap, s.next, vs, s.refused, s.lost⟩ c = cellsOf s c := by
    intro c vs; cases c <;> rfl
  refine ⟨_, swap_ok hu.var hv.var huv, hw.swap hu.var hv.var, Frame.swap, ⟨?_, ?_, hv.size⟩, ⟨?_, ?_, hu.size⟩, ?_, ?_, rfl, rfl⟩
  · simp only [upd_other _ _ huv, upd_same]
  · rw [cl]; exact hv.cells
  · simp only [upd_same]
  · rw [cl]; exact hu.cells
  · intro hx d m cap al he
    simp only [upd_same, Option.some.injEq, Ob.mk.injEq] at he
    exact hx d m cap a.al (by rw [hu.var, ← he.1])
  · intro hx d m cap al he
    simp only [upd_other _ _ huv, upd_same, Option.some.injEq, Ob.mk.injEq] at he
    exact hx d m cap b.al (by rw [hv.var, ← he.1])

theorem reserveMedium_tri (hc : cfg.Ok) (hw : WInv cfg s) {l : List Cell} {d al k cap n : Nat}
    (h : Holds cfg s v ⟨.ml d k cap false, al⟩ l k) (h0 : s.vars (.tmp 0) = none) :
    Tri (reserveMedium cfg v n) s (fun _ s' => Grown cfg v (l.take k) n true s s') (Err0 cfg s) := by
  have hv := h.var
  have ha := hw.al v _ hv
  simp only at ha
  obtain ⟨B, hB, h1, h2, h3, h4, h5⟩ := hw.core v _ hv
  have hl : B.cells = l := by simpa [cellsOf, hB] using h.cells
  have hrc : B.rc = none := by simpa using h4
  subst hl
  have hx : Excl s v := by
    intro d' n' cap' al' he
    rw [hv] at he; cases he
  have htv : Obj.tmp 0 ≠ v := by rintro rfl; rw [h0] at hv; cases hv
  unfold reserveMedium
  refine Tri.step (getOb_ok hv) ?_
  simp only
  by_cases hn : n ≤ cap
  · rw [if_pos hn]
    exact Tri.ret ⟨hw, Frame.refl _ _, _, _, _, h, hx, rfl, hn, fun _ => ⟨_, _, _, _, rfl⟩⟩
  rw [if_neg hn]
  by_cases hm : n ≤ cfg.mm
  · rw [if_pos hm]
    have hmm := hc.mmle.2
    have hwl := hc.wle
    have hkc : (k + 1) * cfg.w ≤ (cap + 1) * cfg.w := Nat.mul_le_mul_right _ (by omega)
    have hcw : cap + 1 ≤ (cap + 1) * cfg.w := Nat.le_mul_of_pos_right _ hc.wpos
    have hnw : (n + 1) * cfg.w ≤ 255 * 4 := Nat.mul_le_mul (by omega) hwl
    have hq : (n + 1) * cfg.w / cfg.w = n + 1 := Nat.mul_div_cancel _ hc.wpos
    have hbytes : mul64 (add64 1 n) cfg.w = (n + 1) * cfg.w := by
      rw [add64_of_lt (by omega), Nat.add_comm 1 n, mul64_of_lt (by omega)]
    simp only [hbytes]
    rw [add64_of_lt (a := k) (by omega), add64_of_lt (a := cap) (by omega), mul64_of_lt (a := k + 1) (by omega), mul64_of_lt (a := cap + 1) (by omega)]
    have := smartRealloc_tri hc hw (hdr := false) (n := n) hv hB hrc (by omega)
    simp only [hdrBytes, Bool.false_eq_true, if_false, Nat.zero_add] at this
    refine Tri.bind this ?_
    rintro b s1 ⟨rfl, hb, H, src', cells', i1, i2, i3, i4, rfl⟩
    have G := realloced hw hv hB (n := n) (by omega) hb i1 i2 i3 i4 (Nat.lt_succ_self _) s.refused s.lost
    refine Tri.of_ok (setCore_ok (ob := ⟨.ml d k cap false, al⟩) hv) ?_
    simp only [hq]
    exact G
  · rw [if_neg hm]
    obtain ⟨s1, l1, t1, w1, f1, o1, _, _⟩ := ctorEmpty_ok hw h0 ha
    refine Tri.step t1 ?_
    have hv1 : Holds cfg s1 v ⟨.ml d k cap false, al⟩ B.cells k := f1.holds (Ne.symm htv) h
    have hbody : Tri (growNascent cfg (.tmp 0) v d k n) s1 (fun _ s' => WInv cfg s' ∧ Frame (fun o => o = .tmp 0 ∨ o = v) s s' ∧
        (∃ ot, s'.vars (.tmp 0) = some ot) ∧ ∃ ob l' k', Holds cfg s' v ob l' k' ∧ Excl s' v ∧ B.cells.take k = l'.take k' ∧ n ≤ ob.core.cap cfg ∧
          ∃ d m cap large, ob.core = .ml d m cap large)
        (Err cfg (· = .tmp 0) (fun s' => ∃ ot, s'.vars (.tmp 0) = some ot) s) := by
      unfold growNascent
      have hg := reserveSmall_tri hc w1 (n := n) o1
      have hsso : (!(cfg.sso && decide (n ≤ cfg.ms))) = true := by
        have := hc.mmle.1
        have : ¬ n ≤ cfg.ms := by omega
        simp [this]
      rw [hsso] at hg
      refine Tri.bind (hg.mono (fun _ _ h => h) (fun e s' h => ?_)) ?_
      · refine Err.after f1 (h.to (fun hf => ?_))
        exact ⟨_, ((hf (.tmp 0) (fun h => h)).1).trans o1.var⟩
      rintro _ s2 ⟨w2, f2, ot, lt, kt, a1, a2, a3, a4, a5⟩
      obtain ⟨b, m, cap2, large, hcore⟩ := a5 rfl
      obtain ⟨core2, al2⟩ := ot
      simp only at hcore; subst hcore
      simp only [Core.cap] at a4
      refine Tri.step (getOb_ok a1.var) ?_
      simp only
      have hv2 := f2.holds (Ne.symm htv) hv1
      -- set the size and copy the characters
      obtain ⟨l3, k3, b1, b2, b3, b4⟩ := w2.view a1.var
      obtain ⟨_, rfl, rfl⟩ := a1.unique b1
      simp only [Core.cap] at b2 b3
      have hrd2 : readCells (.blk d 0) (k + 1) s2 = (.ok (B.cells.take (k + 1)), s2) := hv2.read0 (by omega)
      have hlk : (B.cells.take (k + 1)).length = k + 1 := by simp; omega
      have hpl : (put lt 0 (B.cells.take (k + 1))).length = lt.length := put_length (by omega)
      have hpz : (put lt 0 (B.cells.take (k + 1)))[k]? = some (some 0) := by
        rw [put_getElem? (by omega), if_neg (by omega), if_pos (by omega), Nat.sub_zero, List.getElem?_take_of_lt (by omega)]
        exact h3
      have hpt : (put lt 0 (B.cells.take (k + 1))).take k = B.cells.take k := by
        unfold put
        rw [List.take_zero, List.nil_append, List.take_append_of_le_length (by omega), List.take_take]
        congr 1; omega
      obtain ⟨S1, _⟩ := setStore w2 a1 a2 (l' := put lt 0 (B.cells.take (k + 1))) (n' := k) hpl (by simp only [Core.cap]; omega) hpz
      obtain ⟨Bt, c1, c2, c3, c4, c5⟩ := S1 b m cap2 large rfl
      refine Tri.step (setCore_ok a1.var) ?_
      have hdb : d ≠ b := by
        rintro rfl
        have e1 : blkOf s2 (.tmp 0) = some d := blkOf_ml a1.var
        have e2 : blkOf s2 v = some d := blkOf_ml hv2.var
        have e3 := hv2.cells
        obtain ⟨B2, hB2, _, _, _, r2, _⟩ := w2.core v _ hv2.var
        exact htv (w2.only hB2 (Or.inl (by simpa using r2)) e2 e1)
      have hpod : podCopy cfg (.blk d 0) (k + 1) (.blk b 0) ⟨s2.heap, s2.next, upd s2.vars (.tmp 0) (some ⟨.ml b k cap2 large, al2⟩), s2.refused, s2.lost⟩ =
          (.ok (), ⟨upd s2.heap b (some { Bt with cells := put lt 0 (B.cells.take (k + 1)) }), s2.next, upd s2.vars (.tmp 0) (some ⟨.ml b k cap2 large, al2⟩), s2.refused, s2.lost⟩) := by
        unfold podCopy
        have : (Ptr.blk d 0).same (.blk b 0) = false := by simp [Ptr.same, hdb]
        rw [this]
        simp only [Bool.false_and, Bool.false_eq_true, if_false]
        have hrd3 : readCells (.blk d 0) (k + 1) ⟨s2.heap, s2.next, upd s2.vars (.tmp 0) (some ⟨.ml b k cap2 large, al2⟩), s2.refused, s2.lost⟩ =
            (.ok (B.cells.take (k + 1)), ⟨s2.heap, s2.next, upd s2.vars (.tmp 0) (some ⟨.ml b k cap2 large, al2⟩), s2.refused, s2.lost⟩) := by
          have e := hv2.cells
          simp only [cellsOf, Option.map_eq_some_iff] at e
          obtain ⟨B2, hB2, e⟩ := e
          have : k + 1 ≤ B.cells.length := by omega
          simp [readCells, hB2, e, this]
        rw [bind_ok hrd3]
        have : k + 1 ≤ lt.length := by omega
        simp only [writeCells, c1, c2]
        rw [if_pos (by omega)]
      refine Tri.step hpod ?_
      generalize hs3 : (⟨upd s2.heap b (some { Bt with cells := put lt 0 (B.cells.take (k + 1)) }), s2.next, upd s2.vars (.tmp 0) (some ⟨.ml b k cap2 large, al2⟩), s2.refused, s2.lost⟩ : St) = s3 at *
      have hv3 := c4.holds (Ne.symm htv) hv2
      obtain ⟨ob5, l5, n5, e1, e2, e3, e4⟩ := c5
      have hob5 : ob5 = ⟨.ml b k cap2 large, al2⟩ := by
        have := e1.var
        rw [← hs3] at this
        simpa using this.symm
      obtain ⟨s4, g1, g2, g3, g4, g5, g6, _, _, _⟩ := swap_holds c3 e1 hv3 htv
      refine Tri.step g1 ?_
      obtain ⟨c, d1, d2, d3, d4, d5⟩ := g5.capM g2
      have hcap := d4 (g6 e2)
      rw [hob5] at hcap
      simp only [Core.cap] at hcap
      refine Tri.step d1 ?_
      refine Tri.of_ok (assert_ok (by simp; omega) _) ?_
      refine ⟨g2, ?_, ⟨_, g4.var⟩, _, _, _, g5, g6 e2, ?_, ?_, ?_⟩
      · refine Frame.trans ?_ g3
        refine Frame.trans (f1.mono (fun _ h => Or.inl h)) ?_
        exact (f2.trans c4).mono (fun _ h => Or.inl h)
      · rw [← e4, hpt]
      · rw [hob5]; simp only [Core.cap]; omega
      · rw [hob5]; exact ⟨_, _, _, _, rfl⟩
    refine withTemp_tri hbody ?_ ?_
    · rintro _ s' ⟨p1, p2, ⟨ot, p3⟩, ob, l', k', q1, q2, q3, q4, q5⟩
      obtain ⟨s'', r1, r2, r3, r4, r5, _, _⟩ := destroy_ok p1 p3
      refine ⟨s'', r1, r2, ?_, ob, l', k', r3.holds (Ne.symm htv) q1, r5 v (Ne.symm htv) q2, q3, q4, fun _ => q5⟩
      exact (p2.trans (r3.mono (fun _ h => Or.inl h))).vanish h0 r4
    · rintro s' p1 p2 ⟨ot, p3⟩
      obtain ⟨s'', r1, r2, r3, r4, r5, r6, _⟩ := destroy_ok p1 p3
      exact ⟨s'', r1, fun h => r6.trans h, r2, (p2.trans r3).vanish0 h0 r4, trivial⟩

theorem Grown.weaken {cs : List Cell} {n n' : Nat} {m m' : Bool} (h : Grown cfg v cs n m s s') (hn : n' ≤ n) (hm : m' = true → m = true) :
    Grown cfg v cs n' m' s s' := by
  obtain ⟨w1, f1, ob, l', k', a1, a2, a3, a4, a5⟩ := h
  exact ⟨w1, f1, ob, l', k', a1, a2, a3, Nat.le_trans hn a4, fun h => a5 (hm h)⟩

/-- `reserve`. -/
theorem reserveCore_tri (hc : cfg.Ok) (hw : WInv cfg s) {ob : Ob} {l : List Cell} {k n : Nat}
    (h : Holds cfg s v ob l k) (h0 : s.vars (.tmp 0) = none) :
    Tri (reserveCore cfg v n) s
      (fun _ s' => Grown cfg v (l.take k) n ob.core.blk?.isSome s s') (Err0 cfg s) := by
  have key : Tri (reserveBy cfg v n) s
      (fun _ s' => Grown cfg v (l.take k) n ob.core.blk?.isSome s s') (Err0 cfg s) := by
    unfold reserveBy
    refine Tri.step (getOb_ok h.var) ?_
    obtain ⟨core, al⟩ := ob
    cases core with
    | small c =>
      have : c = l := by simpa [cellsOf] using h.cells
      subst this
      refine (reserveSmall_tri hc hw h).mono (fun _ _ g => g.weaken (Nat.le_refl _) ?_) (fun _ _ h => h)
      intro h; cases h
    | ml d m cap large =>
      have : m = k := by simpa [Core.size?] using h.size
      subst this
      cases large with
      | false => exact (reserveMedium_tri hc hw h h0).mono (fun _ _ g => g.weaken (Nat.le_refl _) (fun _ => rfl)) (fun _ _ h => h)
      | true => exact (reserveLarge_tri hc hw h).mono (fun _ _ g => g.weaken (Nat.le_refl _) (fun _ => rfl)) (fun _ _ h => h)
  unfold reserveCore
  refine Tri.bind key ?_
  rintro _ s' G
  obtain ⟨w1, f1, ob', l', k', a1, a2, a3, a4, a5⟩ := G
  obtain ⟨c, d1, d2, d3, d4, d5⟩ := a1.capM w1
  have := d4 a2
  refine Tri.step d1 ?_
  exact Tri.of_ok (assert_ok (by simp; omega) _) ⟨w1, f1, ob', l', k', a1, a2, a3, a4, a5⟩

end Verif.Str
