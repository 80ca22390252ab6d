import Verif.Str.Ctor

/-!
Changing the size of a string, and access to characters that may be written.
-/

namespace Verif.Str

open M

variable {β γ : Type} {cfg : Cfg} {s s' : St} {v u t : Obj}

theorem put_same {l : List Cell} {k : Nat} {x : Cell} (h : l[k]? = some x) : put l k [x] = l := by
  have hk : k < l.length := by
    apply Nat.lt_of_not_le; intro h'
    rw [List.getElem?_eq_none h'] at h; cases h
  apply List.ext_getElem?
  intro i
  rw [put_getElem? (by simp; omega)]
  split
  · rfl
  · split
    · next h1 h2 =>
      have : i = k := by simp at h2; omega
      subst this
      simp [h]
    · rfl

/-- Outcome of making the string `delta` characters longer: `r` is where the new ones are. -/
structure Expanded (cfg : Cfg) (v : Obj) (cs : List Cell) (delta : Nat) (r : Ptr) (s s' : St) : Prop where
  inv : WInv cfg s'
  frame : Frame (· = v) s s'
  out : ∃ p cs', Raw cfg s' v cs' ∧ dataPtr v s' = (.ok p, s') ∧ cs'.length = cs.length + delta ∧ cs'.take cs.length = cs ∧
    r = p.add cs.length ∧ (delta ≠ 0 → Own cfg s' v p cs')

theorem expandTail_ok (hw : WInv cfg s) {l : List Cell} {d k cap al new : Nat} {large : Bool}
    (h : Holds cfg s v ⟨.ml d k cap large, al⟩ l k) (hn : k ≤ new) (hx : Excl s v ∧ new ≤ cap ∨ new = k) :
    ∃ s', expandTail cfg v k new s = (.ok (.blk d k), s') ∧ Expanded cfg v (l.take k) (new - k) (.blk d k) s s' := by
  obtain ⟨l2, n2, h2, h3, h4, h5⟩ := hw.view h.var
  obtain ⟨_, rfl, rfl⟩ := h.unique h2
  simp only [Core.cap] at h3 h4
  have hlk : (l.take k).length = k := by simp; omega
  obtain ⟨c, d1, d2, d3, d4, d5⟩ := h.capM hw
  have hnc : new ≤ c := by
    rcases hx with ⟨hx, hx'⟩ | rfl
    · have := d4 hx; simp only [Core.cap] at this; omega
    · exact d2
  have hncap : new ≤ cap := by simp only [Core.cap] at d3; omega
  have hrun : ∀ B, s.heap d = some B → B.cells = l → expandTail cfg v k new s = (.ok (.blk d k),
      ⟨upd s.heap d (some { B with cells := put l new [some 0] }), s.next, upd s.vars v (some ⟨.ml d new cap large, al⟩), s.refused, s.lost⟩) := by
    intro B hB hBl
    unfold expandTail
    rw [bind_ok d1, bind_ok (assert_ok (by simpa using hnc) _), bind_ok (getOb_ok h.var)]
    simp only
    rw [bind_ok (setCore_ok h.var)]
    rw [bind_ok (s' := ⟨upd s.heap d (some { B with cells := put l new [some 0] }), s.next, upd s.vars v (some ⟨.ml d new cap large, al⟩), s.refused, s.lost⟩) (b := ())]
    · rfl
    · simp only [writeCells, hB]
      rw [if_pos (by rw [hBl]; simp; omega), hBl]
  by_cases hxx : Excl s v
  · have hpl : (put l new [some 0]).length = l.length := put_length (by simp; omega)
    have hz : (put l new [some 0])[new]? = some (some 0) := by
      rw [put_getElem? (by simp; omega), if_neg (by omega), if_pos (by simp)]; simp
    obtain ⟨B, hB, hBl, w1, f1, o1⟩ := (setStore hw h hxx hpl hncap hz).1 d k cap large rfl
    refine ⟨_, hrun B hB hBl, w1, f1, _, _, o1.raw, o1.dataM, ?_, ?_, ?_, fun _ => o1⟩
    · rw [hlk, List.length_take, hpl]; omega
    · rw [hlk, List.take_take, Nat.min_eq_left hn]
      apply List.ext_getElem?
      intro i
      by_cases hi : i < k
      · rw [List.getElem?_take_of_lt hi, List.getElem?_take_of_lt hi, put_getElem? (by simp; omega), if_pos (by omega)]
      · rw [List.getElem?_take_eq_none (by omega), List.getElem?_take_eq_none (by omega)]
    · rw [hlk]; simp [Core.ptr, Ptr.add]
  · rcases hx with ⟨hx, _⟩ | rfl
    · exact absurd hx hxx
    · obtain ⟨B, hB, _⟩ := hw.core v _ h.var
      have hBl : B.cells = l := by simpa [cellsOf, hB] using h.cells
      have e1 := hrun B hB hBl
      have e2 : (some { B with cells := put l new [some 0] }) = s.heap d := by
        rw [hB, put_same h5, ← hBl]
      rw [e2, ← h.var, upd_self rfl, upd_self rfl] at e1
      refine ⟨s, e1, hw, Frame.refl _ _, _, l.take new, ⟨_, l, new, h, rfl⟩, h.dataM, by simp, by rw [hlk, List.take_take, Nat.min_self], ?_, ?_⟩
      · rw [hlk]; simp [Core.ptr, Ptr.add]
      · intro hne; exact absurd (Nat.sub_self _) hne

theorem small_cells {l c : List Cell} {al k : Nat} (h : Holds cfg s v ⟨.small c, al⟩ l k) : c = l := by
  simpa [cellsOf] using h.cells

/-- A small string gets another size. -/
theorem setSmall_ok (hw : WInv cfg s) {l : List Cell} {k al n : Nat} (h : Holds cfg s v ⟨.small l, al⟩ l k)
    (hn : n ≤ cfg.ms) (h0 : cfg.sso = false → n = 0) :
    ∃ s', setSmallSize cfg v n s = (.ok (), s') ∧ WInv cfg s' ∧ Frame (· = v) s s' ∧ Own cfg s' v (.inl v 0) (((l.set cfg.ms (some (cfg.ms - n))).set n (some 0)).take n) ∧
      ((l.set cfg.ms (some (cfg.ms - n))).set n (some 0)).take n = l.take n ∧ l.length = cfg.ms + 1 ∧ s'.refused = s.refused ∧ s'.lost = s.lost := by
  have hcore := hw.core v _ h.var
  have hx : Excl s v := by
    intro d n cap al' he
    rw [h.var] at he; cases he
  obtain ⟨k1, k2, k3⟩ := smallOk (cfg := cfg) (s := s) (c := l) (n := n) hcore.1 hn h0
  obtain ⟨g1, m, g2, g3, g4, g5⟩ := k1
  have hm : m = n := by
    have := smallSize_eq g2 g4
    rw [k2] at this; cases this; rfl
  subst hm
  obtain ⟨_, w1, f1, o1⟩ := (setStore hw h hx (l' := (l.set cfg.ms (some (cfg.ms - m))).set m (some 0)) (n' := m) (by simp) hn g5).2 l rfl g4 h0
  exact ⟨_, setSmallSize_small h.var hn, w1, f1, o1, k3, hcore.1, rfl, rfl⟩

/-- `expandNoinit`. -/
theorem expandNoinit_tri (hc : cfg.Ok) (hw : WInv cfg s) {ob : Ob} {l : List Cell} {k delta : Nat} (exp : Bool)
    (h : Holds cfg s v ob l k) (h0 : s.vars (.tmp 0) = none) (hd : k + delta < M64) :
    Tri (expandNoinit cfg v delta exp) s (fun r s' => Expanded cfg v (l.take k) delta r s s') (Err0 cfg s) := by
  obtain ⟨l2, n2, h2, h3, h4, h5⟩ := hw.view h.var
  obtain ⟨_, rfl, rfl⟩ := h.unique h2
  have hlk : (l.take k).length = k := by simp; omega
  obtain ⟨c, d1, d2, d3, d4, d5⟩ := h.capM hw
  have hnew : add64 k delta = k + delta := add64_of_lt hd
  unfold expandNoinit
  refine Tri.step d1 (Tri.step h.sizeM (Tri.step (assert_ok (by simpa using d2) _) (Tri.step (getOb_ok h.var) ?_)))
  simp only [hnew]
  have hgrow : ∀ {m : Nat} {s1 : St}, k + delta ≤ m → Grown cfg v (l.take k) m true s s1 →
      Tri (expandTail cfg v k (k + delta)) s1 (fun r s' => Expanded cfg v (l.take k) delta r s s') (Err0 cfg s) := by
    rintro m s1 hm ⟨w1, f1, ob', l', k', a1, a2, a3, a4, a5⟩
    obtain ⟨l2, n2, b2, b3, b4, b5⟩ := w1.view a1.var
    obtain ⟨_, rfl, rfl⟩ := a1.unique b2
    obtain ⟨core, al⟩ := ob'
    obtain ⟨d, m', cap, large, e⟩ := a5 rfl
    simp only at e; subst e
    have : m' = k' := by simpa [Core.size?] using a1.size
    subst this
    have hkk : m' = k := by
      have := congrArg List.length a3
      rw [hlk] at this
      simp at this; omega
    subst hkk
    simp only [Core.cap] at a4
    obtain ⟨s', e1, e2⟩ := expandTail_ok w1 a1 (new := m' + delta) (by omega) (Or.inl ⟨a2, by omega⟩)
    refine Tri.of_ok e1 ?_
    rw [Nat.add_sub_cancel_left, ← a3] at e2
    exact ⟨e2.inv, f1.trans e2.frame, e2.out⟩
  obtain ⟨core, al⟩ := ob
  cases core with
  | small c =>
    have := small_cells h
    subst this
    simp only
    split
    · next hs =>
      simp only [Bool.and_eq_true, decide_eq_true_eq] at hs
      obtain ⟨s', e1, e2, e3, e4, e5, e6, _⟩ := setSmall_ok hw h (n := k + delta) hs.2 (fun hh => by rw [hs.1] at hh; cases hh)
      refine Tri.step e1 (Tri.ret ⟨e2, e3, _, _, e4.raw, e4.dataM, ?_, ?_, ?_, fun _ => e4⟩)
      · rw [hlk, e5]; simp; omega
      · rw [hlk, e5, List.take_take, Nat.min_eq_left (by omega)]
      · rw [hlk]; simp [Ptr.add]
    · next hs =>
      have hm : k + delta ≤ (if exp then max (k + delta) (2 * cfg.ms) else k + delta) := by
        split
        · exact Nat.le_max_left _ _
        · exact Nat.le_refl _
      refine Tri.bind (reserveSmall_tri hc hw h) (fun _ s1 G => hgrow hm (G.weaken (Nat.le_refl _) ?_))
      intro _
      simp only [Bool.and_eq_true, decide_eq_true_eq, not_and] at hs
      simp only [Bool.not_eq_true', Bool.and_eq_false_iff, decide_eq_false_iff_not]
      by_cases hb : cfg.sso = true
      · right; have := hs hb; omega
      · left; simpa using hb
  | ml d m cap large =>
    have : m = k := by simpa [Core.size?] using h.size
    subst this
    simp only
    by_cases hcn : c < m + delta
    · rw [doIf_pos (by simpa using hcn)]
      have hm : m + delta ≤ (if exp then max (m + delta) (add64 1 (mul64 c 3 / 2)) else m + delta) := by
        split
        · exact Nat.le_max_left _ _
        · exact Nat.le_refl _
      refine Tri.bind (reserveCore_tri hc hw h h0) (fun _ s1 G => hgrow hm (G.weaken (Nat.le_refl _) (fun _ => rfl)))
    · rw [doIf_neg (by simpa using hcn)]
      refine Tri.step (pure_apply _ _) ?_
      have hh : Excl s v ∧ m + delta ≤ cap ∨ m + delta = m := by
        by_cases hx : Excl s v
        · left
          have := d4 hx; simp only [Core.cap] at this
          exact ⟨hx, by omega⟩
        · right
          have := d5 hx; omega
      obtain ⟨s', e1, e2⟩ := expandTail_ok hw h (new := m + delta) (by omega) hh
      rw [Nat.add_sub_cancel_left] at e2
      exact Tri.of_ok e1 e2

/-! ### shrink -/

/-- Outcome of an operation on `v` alone: its characters. -/
structure Done (cfg : Cfg) (v : Obj) (cs : List Cell) (s s' : St) : Prop where
  inv : WInv cfg s'
  frame : Frame (· = v) s s'
  raw : Raw cfg s' v cs

/-- A new temporary is exchanged with `v` and destroyed. -/
theorem swapTemp_tri {cs cs' : List Cell} {p : Ptr} (hw : WInv cfg s') (hf : Frame (· = t) s s')
    (ht : Own cfg s' t p cs) (hv : Raw cfg s' v cs') (htv : t ≠ v) (h0 : s.vars t = none) :
    Tri (withTemp cfg t (swap t v)) s' (fun _ s'' => Done cfg v cs s s'' ∧ Excl s'' v) (Err0 cfg s) := by
  obtain ⟨ob, l, n, h1, hx, rfl, rfl⟩ := ht
  obtain ⟨ob2, l2, n2, h2, rfl⟩ := hv
  obtain ⟨s1, e1, e2, e3, e4, e5, e6, e7, e8, e9⟩ := swap_holds hw h1 h2 htv
  obtain ⟨s2, f1, f2, f3, f4, f5, f6, f7⟩ := destroy_ok e2 e4.var
  unfold withTemp
  refine Tri.of_ok (b := ()) (s' := s2) ?_ ⟨⟨f2, ?_, ?_⟩, ?_⟩
  · rw [e1]; simp only [f1]
  · refine Frame.vanish (t := t) (v := v) ?_ h0 f4
    exact ((hf.mono (fun _ h => Or.inl h)).trans e3).trans (f3.mono (fun _ h => Or.inl h))
  · exact ⟨_, l, n, f3.holds (Ne.symm htv) e5, rfl⟩
  · exact f5 v (Ne.symm htv) (e6 hx)

/-- Strings are far shorter than the largest number. -/
theorem Holds.short (hc : cfg.Ok) (hw : WInv cfg s) {ob : Ob} {l : List Cell} {k : Nat} (h : Holds cfg s v ob l k) :
    k < 4611686018427387904 := by
  obtain ⟨l2, n2, h2, h3, h4, h5⟩ := hw.view h.var
  obtain ⟨_, rfl, rfl⟩ := h.unique h2
  have hcore := hw.core v _ h.var
  obtain ⟨core, al⟩ := ob
  cases core with
  | small c => simp only [Core.cap] at h4; have := hc.msle.2; omega
  | ml d m cap large =>
    obtain ⟨B, _, _, _, _, _, g⟩ := hcore
    have : cap + 1 ≤ (cap + 1) * cfg.w := Nat.le_mul_of_pos_right _ hc.wpos
    simp only [Core.cap] at h4; omega

theorem Raw.short (hc : cfg.Ok) (hw : WInv cfg s) {cs : List Cell} (h : Raw cfg s v cs) : cs.length < 4611686018427387904 := by
  obtain ⟨ob, l, n, h1, rfl⟩ := h
  have := h1.short hc hw
  simp; omega

theorem shrinkMedium_ok (hc : cfg.Ok) (hw : WInv cfg s) {l : List Cell} {d k cap al delta : Nat} {large : Bool}
    (h : Holds cfg s v ⟨.ml d k cap large, al⟩ l k) (hx : Excl s v) (hd : delta ≤ k) :
    ∃ s', shrinkMedium cfg v d k cap large delta s = (.ok (), s') ∧ WInv cfg s' ∧ Frame (· = v) s s' ∧
      Own cfg s' v (.blk d 0) (l.take (k - delta)) := by
  obtain ⟨l2, n2, h2, h3, h4, h5⟩ := hw.view h.var
  obtain ⟨_, rfl, rfl⟩ := h.unique h2
  simp only [Core.cap] at h3 h4
  have hk := h.short hc hw
  have hsub : sub64 k delta = k - delta := sub64_of_le hd (by omega)
  have hpl : (put l (k - delta) [some 0]).length = l.length := put_length (by simp; omega)
  have hz : (put l (k - delta) [some 0])[k - delta]? = some (some 0) := by
    rw [put_getElem? (by simp; omega), if_neg (by omega), if_pos (by simp)]; simp
  obtain ⟨B, hB, hBl, w1, f1, o1⟩ := (setStore hw h hx hpl (n' := k - delta) (by simp only [Core.cap]; omega) hz).1 d k cap large rfl
  refine ⟨_, ?_, w1, f1, ?_⟩
  · unfold shrinkMedium
    rw [bind_ok (assert_ok (by simpa using hd) _), hsub, bind_ok (setCore_ok h.var)]
    simp only [writeCells, hB]
    rw [if_pos (by rw [hBl]; simp; omega), hBl]
  · have e : (put l (k - delta) [some 0]).take (k - delta) = l.take (k - delta) := by
      apply List.ext_getElem?
      intro i
      by_cases hi : i < k - delta
      · rw [List.getElem?_take_of_lt hi, List.getElem?_take_of_lt hi, put_getElem? (by simp; omega), if_pos (by omega)]
      · rw [List.getElem?_take_eq_none (by omega), List.getElem?_take_eq_none (by omega)]
    rw [e] at o1
    exact o1

/-- Not being shared, in terms of the count. -/
theorem excl_iff {d k cap al : Nat} {r src : Nat} {B : List Cell} (hv : s.vars v = some ⟨.ml d k cap true, al⟩)
    (hB : s.heap d = some ⟨some r, src, B⟩) : Excl s v ↔ r = 1 := by
  constructor
  · intro hx
    obtain ⟨B', h1, h2⟩ := hx d k cap al hv
    rw [hB] at h1; cases h1; simpa using h2
  · rintro rfl d' n' cap' al' he
    rw [hv] at he; cases he
    exact ⟨_, hB, rfl⟩

theorem excl_small {c : List Cell} {al : Nat} (hv : s.vars v = some ⟨.small c, al⟩) : Excl s v := by
  intro d n cap al' he
  rw [hv] at he; cases he

theorem excl_medium {d k cap al : Nat} (hv : s.vars v = some ⟨.ml d k cap false, al⟩) : Excl s v := by
  intro d n cap al' he
  rw [hv] at he; cases he

/-- A large string has a count, at least 1. -/
theorem WInv.large (hw : WInv cfg s) {d k cap al : Nat} (hv : s.vars v = some ⟨.ml d k cap true, al⟩) :
    ∃ r src B, s.heap d = some ⟨some r, src, B⟩ ∧ 1 ≤ r := by
  obtain ⟨⟨rc, src, cells⟩, hB, c1, c2, c3, c4, c5⟩ := hw.core v _ hv
  obtain ⟨r, rfl⟩ := Option.isSome_iff_exists.1 c4
  obtain ⟨L, g1, g2, g3⟩ := hw.own d _ hB
  have hL : 0 < L.length := List.length_pos_of_mem ((g2 v).2 (blkOf_ml hv))
  exact ⟨r, src, cells, hB, by have := g3.2.1; omega⟩

/-- `shrink`. -/
theorem shrink_tri (hc : cfg.Ok) (hw : WInv cfg s) {ob : Ob} {l : List Cell} {k delta : Nat}
    (h : Holds cfg s v ob l k) (h1 : s.vars (.tmp 1) = none) (hd : delta ≤ k) :
    Tri (shrink cfg v delta) s (fun _ s' => Done cfg v (l.take (k - delta)) s s') (Err0 cfg s) := by
  obtain ⟨l2, n2, h2, h3, h4, h5⟩ := hw.view h.var
  obtain ⟨_, rfl, rfl⟩ := h.unique h2
  have hk := h.short hc hw
  have hsub : sub64 k delta = k - delta := sub64_of_le hd (by omega)
  have ha := hw.al v _ h.var
  unfold shrink
  refine Tri.step (getOb_ok h.var) ?_
  obtain ⟨core, al⟩ := ob
  cases core with
  | small c =>
    have := small_cells h
    subst this
    have hcore := hw.core v _ h.var
    obtain ⟨g1, m, g2, g3, g4, g5⟩ := hcore
    have hm : m = k := by
      have := smallSize_eq g2 g4
      rw [h.size] at this; cases this; rfl
    subst hm
    simp only
    unfold shrinkSmall
    refine Tri.step h.sizeM (Tri.step (assert_ok (by simpa using hd) _) ?_)
    rw [hsub]
    obtain ⟨s', e1, e2, e3, e4, e5, _⟩ := setSmall_ok hw h (n := m - delta) (by omega) (fun hh => by have := g3 hh; omega)
    rw [e5] at e4
    exact Tri.of_ok e1 ⟨e2, e3, e4.raw⟩
  | ml d m cap large =>
    have : m = k := by simpa [Core.size?] using h.size
    subst this
    cases large with
    | false =>
      obtain ⟨s', e1, e2, e3, e4⟩ := shrinkMedium_ok hc hw h (excl_medium h.var) hd
      exact Tri.of_ok e1 ⟨e2, e3, e4.raw⟩
    | true =>
      obtain ⟨r, src, B, hB, hr⟩ := hw.large h.var
      simp only
      refine Tri.step (refs_ok hB) ?_
      by_cases hr1 : r = 1
      · rw [if_pos hr1]
        obtain ⟨s', e1, e2, e3, e4⟩ := shrinkMedium_ok hc hw h ((excl_iff h.var hB).2 hr1) hd
        exact Tri.of_ok e1 ⟨e2, e3, e4.raw⟩
      · rw [if_neg hr1]
        unfold shrinkLarge
        refine Tri.step (assert_ok (by simpa using hd) _) ?_
        by_cases hd0 : delta = 0
        · rw [if_pos hd0]
          subst hd0
          exact Tri.ret ⟨hw, Frame.refl _ _, _, l, m, h, rfl⟩
        · rw [if_neg hd0, hsub]
          have htv : Obj.tmp 1 ≠ v := by rintro rfl; have := h.var; rw [h1] at this; cases this
          have hrd := h.read0 (k := m - delta) (by omega)
          refine Tri.bind (ctorData_tri hc hw h1 ha hrd) ?_
          rintro _ s1 ⟨w1, f1, p, o1⟩
          exact (swapTemp_tri w1 f1 o1 (f1.raw (Ne.symm htv) ⟨_, l, m, h, rfl⟩) htv h1).mono (fun _ _ h => h.1) (fun _ _ h => h)

/-! ### Access for writing -/

/-- `mutableData()`: either nothing happens, or `v` moves to a block of its own and the characters at
the old place `q` stay readable. -/
theorem mutableData_full (hc : cfg.Ok) (hw : WInv cfg s) {cs : List Cell} {q : Ptr} (h : Raw cfg s v cs) (hq : dataPtr v s = (.ok q, s)) :
    Tri (mutableData cfg v) s (fun p s' => WInv cfg s' ∧ Frame (· = v) s s' ∧ Own cfg s' v p cs ∧
      (s' = s ∧ p = q ∨ (∀ i j, (q.add i).same (p.add j) = false) ∧
        ∀ i k, i + k ≤ cs.length → readCells (q.add i) k s' = (.ok ((cs.drop i).take k), s'))) (Err0 cfg s) := by
  obtain ⟨ob, l, k, h, rfl⟩ := h
  rw [h.dataM] at hq; cases hq
  unfold mutableData
  refine noexceptIf_err ?_
  refine Tri.step (getOb_ok h.var) ?_
  obtain ⟨core, al⟩ := ob
  cases core with
  | small c => exact Tri.of_ok h.dataM ⟨hw, Frame.refl _ _, ⟨_, l, k, h, excl_small h.var, rfl, rfl⟩, Or.inl ⟨rfl, rfl⟩⟩
  | ml d m cap large =>
    have : m = k := by simpa [Core.size?] using h.size
    subst this
    cases large with
    | false => exact Tri.of_ok h.dataM ⟨hw, Frame.refl _ _, ⟨_, l, m, h, excl_medium h.var, rfl, rfl⟩, Or.inl ⟨rfl, rfl⟩⟩
    | true =>
      obtain ⟨r, src, B, hB, hr⟩ := hw.large h.var
      simp only
      refine Tri.step (refs_ok hB) ?_
      by_cases hr1 : r > 1
      · rw [if_pos hr1]
        refine Tri.bind (unshare_full hc hw h hB hr1) ?_
        rintro _ s1 ⟨⟨w1, f1, ob', l', k', a1, a2, a3, a4, a5⟩, ⟨B', b1, b2⟩, b3⟩
        refine Tri.of_ok a1.dataM ⟨w1, f1, ⟨_, l', k', a1, a2, rfl, a3⟩, Or.inr ⟨?_, ?_⟩⟩
        · intro i j
          rw [Ptr.same_add]
          have hv1 := a1.var
          obtain ⟨core, al'⟩ := ob'
          cases core with
          | small c => rfl
          | ml d' n' cap' large' =>
            rw [blkOf_ml hv1] at b3
            simp only [Core.ptr, Ptr.same, beq_eq_false_iff_ne, ne_eq]
            rintro rfl
            exact b3 rfl
        · intro i k hk
          have hk' : i + k ≤ m ∧ i + k ≤ l.length := by simp at hk; omega
          simp only [Core.ptr, Ptr.add, readCells, b1]
          rw [if_pos (by rw [b2]; omega), b2, List.drop_take, List.take_take, Nat.min_eq_left (by omega), Nat.zero_add]
      · rw [if_neg hr1]
        exact Tri.of_ok h.dataM ⟨hw, Frame.refl _ _, ⟨_, l, m, h, (excl_iff h.var hB).2 (by omega), rfl, rfl⟩, Or.inl ⟨rfl, rfl⟩⟩

theorem mutableData_tri (hc : cfg.Ok) (hw : WInv cfg s) {cs : List Cell} (h : Raw cfg s v cs) :
    Tri (mutableData cfg v) s (fun p s' => WInv cfg s' ∧ Frame (· = v) s s' ∧ Own cfg s' v p cs) (Err0 cfg s) := by
  obtain ⟨q, hq, _⟩ := h.dataM
  exact (mutableData_full hc hw h hq).mono (fun _ _ h => ⟨h.1, h.2.1, h.2.2.1⟩) (fun _ _ h => h)

/-- `begin()`. -/
theorem begin_tri (hc : cfg.Ok) (hw : WInv cfg s) {cs : List Cell} (h : Raw cfg s v cs) :
    Tri (begin_ cfg v) s (fun p s' => WInv cfg s' ∧ Frame (· = v) s s' ∧ Own cfg s' v p cs) (Err0 cfg s) :=
  noexcept_err (mutableData_tri hc hw h)

theorem noexcept_ok {x : M β} {b : β} (h : x s = (.ok b, s')) : noexcept x s = (.ok b, s') := by
  unfold noexcept; rw [h]

theorem noexceptIf_ok {x : M β} {b : β} {c : Bool} (h : x s = (.ok b, s')) : noexceptIf c x s = (.ok b, s') := by
  unfold noexceptIf; split
  · exact noexcept_ok h
  · exact h

/-- `begin()` of an unshared string. -/
theorem begin_own (hw : WInv cfg s) {cs : List Cell} {p : Ptr} (h : Own cfg s v p cs) : begin_ cfg v s = (.ok p, s) := by
  obtain ⟨ob, l, k, h, hx, rfl, rfl⟩ := h
  have key : (do
    let o ← getOb v
    match o.core with
    | .ml d _ _ true => do
      let r ← refs d
      if r > 1 then do
        unshare cfg v 0
        dataPtr v
      else dataPtr v
    | _ => dataPtr v : M Ptr) s = (.ok (ob.core.ptr v), s) := by
    rw [bind_ok (getOb_ok h.var)]
    obtain ⟨core, al⟩ := ob
    cases core with
    | small c => exact h.dataM
    | ml d m cap large =>
      cases large with
      | false => exact h.dataM
      | true =>
        obtain ⟨r, src, B, hB, hr⟩ := hw.large h.var
        have := (excl_iff h.var hB).1 hx
        simp only
        rw [bind_ok (refs_ok hB), if_neg (by omega)]
        exact h.dataM
  exact noexcept_ok (noexceptIf_ok key)

/-! ### The debug checks -/

theorem sane_ok (hw : WInv cfg s) {cs : List Cell} (h : Raw cfg s v cs) : sane cfg v s = (.ok (), s) := by
  obtain ⟨ob, l, k, h, rfl⟩ := h
  obtain ⟨l2, n2, h2, h3, h4, h5⟩ := hw.view h.var
  obtain ⟨_, rfl, rfl⟩ := h.unique h2
  obtain ⟨c, d1, d2, d3, d4, d5⟩ := h.capM hw
  unfold sane
  split
  · rw [bind_ok h.sizeM, bind_ok d1, bind_ok h.dataM, bind_ok (h.read (i := k) (k := 1) (by omega))]
    refine assert_ok ?_ _
    have hkl : k < l.length := by omega
    have e : (l.drop k).take 1 = [some 0] := by
      rw [List.drop_eq_getElem_cons hkl]
      have : l[k] = some 0 := by
        rw [List.getElem?_eq_getElem hkl] at h5
        exact Option.some.inj h5
      simp [this]
    simp [d2, e]
  · rfl

theorem sane_lost (hl : s.lost = true) : (sane cfg v s).2.lost = true := by
  have h1 : ∀ v, KeepsLost (getOb v) := by
    intro v s h; unfold getOb; split <;> exact h
  have h2 : ∀ b, KeepsLost (refs b) := by
    intro b s h; unfold refs; split <;> exact h
  have h3 : ∀ p n, KeepsLost (readCells p n) := by
    intro p n s h; unfold readCells
    cases p with
    | ext m i => simp only; split <;> exact h
    | blk d i =>
      simp only
      split
      · split <;> exact h
      · exact h
    | inl o i =>
      simp only
      split
      · split <;> exact h
      · exact h
  have h4 : KeepsLost (sane cfg v) := by
    unfold sane
    split
    · refine KeepsLost.bind (KeepsLost.bind (h1 _) (fun o => ?_)) (fun n => KeepsLost.bind (KeepsLost.bind (h1 _) (fun o => ?_)) (fun c =>
        KeepsLost.bind (KeepsLost.bind (h1 _) (fun _ => KeepsLost.pure _)) (fun p => KeepsLost.bind (h3 _ _) (fun cs => ?_))))
      · split
        · exact KeepsLost.pure _
        · exact KeepsLost.fail _
      · split
        · exact KeepsLost.pure _
        · exact KeepsLost.pure _
        · refine KeepsLost.bind (h2 _) (fun r => ?_)
          split <;> exact KeepsLost.pure _
      · unfold assert; split
        · exact KeepsLost.fail _
        · exact KeepsLost.pure _
    · exact KeepsLost.pure _
  exact h4 s hl

/-- The checker around a body. -/
theorem checker_tri {body : M β} {Q : β → St → Prop} {X : Obj → Prop} {P : St → Prop} {cs : List Cell}
    (hw : WInv cfg s) (hv : Raw cfg s v cs) (hb : Tri body s Q (Err cfg X P s))
    (hq : ∀ r s', Q r s' → WInv cfg s' ∧ ∃ cs, Raw cfg s' v cs)
    (he : ∀ s', WInv cfg s' → Frame X s s' → P s' → ∃ cs, Raw cfg s' v cs) :
    Tri (checker cfg v body) s Q (Err cfg X P s) := by
  unfold checker
  refine Tri.step (sane_ok hw hv) ?_
  unfold Tri checking at *
  generalize body s = r at hb ⊢
  obtain ⟨r, s'⟩ := r
  cases r with
  | ok b =>
    obtain ⟨w, cs', hr⟩ := hq b s' hb
    simp only [sane_ok w hr]
    exact hb
  | error e =>
    rcases hb with ⟨har, hl⟩ | ⟨h1, h2, h3, h4, h5⟩
    · cases e with
      | throw w =>
        have := sane_lost (cfg := cfg) (v := v) hl
        simp only
        generalize sane cfg v s' = r2 at this ⊢
        obtain ⟨r2, s2⟩ := r2
        cases r2 with
        | ok _ => exact Or.inl ⟨har, this⟩
        | error _ => exact Or.inl ⟨har, this⟩
      | ub w => exact Or.inl ⟨har, hl⟩
      | assertFail w => exact Or.inl ⟨har, hl⟩
    · obtain ⟨cs', hr⟩ := he s' h3 h4 h5
      have : ∃ w, e = .throw w := by rcases h2 with h | h | h <;> exact ⟨_, h⟩
      obtain ⟨w, rfl⟩ := this
      simp only [sane_ok h3 hr]
      exact Or.inr ⟨h1, h2, h3, h4, h5⟩

/-- The checker around a body that throws without effect. -/
theorem checker_throw {body : M β} {cs : List Cell} {w : String} (hw : WInv cfg s) (hv : Raw cfg s v cs)
    (hb : body s = (.error (.throw w), s)) : checker cfg v body s = (.error (.throw w), s) := by
  unfold checker
  rw [bind_ok (sane_ok hw hv)]
  unfold checking
  rw [hb]
  simp only [sane_ok hw hv]

end Verif.Str
