import Verif.Str.Wraps

/-!
C60 in every state: inserting so many characters that the new length passes 2^64.
-/

namespace Verif.Str

/-! ### Lemmas -/

/-- Moving characters to a place that ends outside the array of an object. -/
theorem podMove_inl {cells : List Cell} {o : Obj} {i j n al : Nat} (hv : s.vars o = some ⟨.small cells, al⟩) (hi : i + n ≤ cells.length)
    (hj : cells.length < j + n) : podMove (.inl o i) n (.inl o j) s = (.error (.ub "write outside a string object"), s) := by
  have e1 : readCells (.inl o i) n s = (.ok ((cells.drop i).take n), s) := by simp only [readCells, hv, if_pos hi]
  have hl : ((cells.drop i).take n).length = n := by simp; omega
  unfold podMove
  rw [bind_ok e1]
  simp only [writeCells, hv, hl, if_neg (Nat.not_le.2 hj)]

/-- Moving characters to a place that ends outside a block. -/
theorem podMove_blk {B : Blk} {d i j n : Nat} (hB : s.heap d = some B) (hi : i + n ≤ B.cells.length)
    (hj : B.cells.length < j + n) : podMove (.blk d i) n (.blk d j) s = (.error (.ub "write outside a block"), s) := by
  have e1 : readCells (.blk d i) n s = (.ok ((B.cells.drop i).take n), s) := by simp only [readCells, hB, if_pos hi]
  have hl : ((B.cells.drop i).take n).length = n := by simp; omega
  unfold podMove
  rw [bind_ok e1]
  simp only [writeCells, hB, hl, if_neg (Nat.not_le.2 hj)]

/-- When the new length passes 2^64 `expandNoinit` finds room, and the characters after the place of insertion are moved outside the array. -/
theorem expand_insert_wrapped (hc : cfg.Ok) (hw : WInv cfg s) {ob : Ob} {l : List Cell} {k n pos : Nat} (h : Holds cfg s v ob l k)
    (hx : Excl s v) (hk : k < 2 ^ 62) (hn : n < 2 ^ 64) (hp : 2 ^ 64 ≤ k + n) (hpos : pos ≤ k) :
    ∃ p s' q w, expandNoinit cfg v n true s = (.ok p, s') ∧ begin_ cfg v s' = (.ok q, s') ∧
      podMove (q.add pos) (k - pos) (q.add (pos + n)) s' = (.error (.ub w), s') := by
  obtain ⟨c, d1, d2, d3, d4, d5⟩ := h.capM hw
  have hadd : add64 k n = k + n - 2 ^ 64 := by
    unfold add64
    rw [Nat.mod_eq_sub_mod hp]
    exact Nat.mod_eq_of_lt (by omega)
  have hcore := hw.core _ _ h.var
  have hv := h.var
  have hs := h.size
  unfold expandNoinit
  rw [bind_ok d1, bind_ok h.sizeM, bind_ok (assert_ok (by simpa using d2) _), bind_ok (getOb_ok h.var)]
  obtain ⟨core, al⟩ := ob
  cases core with
  | small cells =>
    obtain ⟨h1, m, hm, h0, ht, hz⟩ := hcore
    rw [smallSize_eq hm ht] at hs; cases hs
    have hsso : cfg.sso = true := by
      cases e : cfg.sso
      · have := h0 e; omega
      · rfl
    have hle : add64 k n ≤ cfg.ms := by omega
    have e1 : setSmallSize cfg v (add64 k n) s = (.ok (),
        ⟨s.heap, s.next, upd s.vars v (some ⟨.small ((cells.set cfg.ms (some (cfg.ms - add64 k n))).set (add64 k n) (some 0)), al⟩), s.refused, s.lost⟩) := by
      unfold setSmallSize
      rw [bind_ok (assert_ok (by simpa using hle) _), bind_ok (getOb_ok hv)]
      simp only [if_pos hle]
      exact setCore_ok hv
    have hms := hc.msle
    refine ⟨.inl v k, ⟨s.heap, s.next, upd s.vars v (some ⟨.small ((cells.set cfg.ms (some (cfg.ms - add64 k n))).set (add64 k n) (some 0)), al⟩), s.refused, s.lost⟩,
      .inl v 0, _, ?_, ?_, podMove_inl (upd_same ..) ?_ ?_⟩
    · simp only [hsso, hle, decide_true, Bool.and_self, if_true]
      rw [bind_ok e1]; rfl
    · refine noexcept_ok (noexceptIf_ok ?_)
      rw [bind_ok (getOb_ok (upd_same ..))]
      unfold dataPtr
      simp only
      rw [bind_ok (getOb_ok (upd_same ..))]
      rfl
    · simp [h1]; omega
    · simp [h1]; omega
  | ml d m cap large =>
    obtain ⟨B, hB, hlen, hm, hz, hr, hb⟩ := hcore
    cases hs
    have hw1 := hc.wpos
    have hcap : cap + 1 ≤ (cap + 1) * cfg.w := Nat.le_mul_of_pos_right _ hw1
    have hlt : ¬ c < add64 k n := by omega
    have e2 : add64 k n + [some (0 : Ch)].length ≤ B.cells.length := by simp; omega
    have e3 : writeCells (.blk d (add64 k n)) [some 0] ⟨s.heap, s.next, upd s.vars v (some ⟨.ml d (add64 k n) cap large, al⟩), s.refused, s.lost⟩ =
        (.ok (), ⟨upd s.heap d (some { B with cells := put B.cells (add64 k n) [some 0] }), s.next,
          upd s.vars v (some ⟨.ml d (add64 k n) cap large, al⟩), s.refused, s.lost⟩) := by
      unfold writeCells; simp only [hB, if_pos e2]
    have e4 := put_length e2
    have hdat : ∀ t : St, t.vars v = some ⟨.ml d (add64 k n) cap large, al⟩ → dataPtr v t = (.ok (.blk d 0), t) := by
      intro t ht
      unfold dataPtr
      rw [bind_ok (getOb_ok ht)]
      rfl
    refine ⟨.blk d k, ⟨upd s.heap d (some { B with cells := put B.cells (add64 k n) [some 0] }), s.next,
      upd s.vars v (some ⟨.ml d (add64 k n) cap large, al⟩), s.refused, s.lost⟩, .blk d 0, _, ?_, ?_, podMove_blk (upd_same ..) ?_ ?_⟩
    · simp only [doIf_neg (decide_eq_false hlt)]
      unfold expandTail
      rw [bind_ok (show (pure () : M Unit) s = (.ok (), s) from rfl), bind_ok d1,
        bind_ok (assert_ok (by simpa using Nat.le_of_not_lt hlt) _), bind_ok (getOb_ok hv)]
      simp only
      rw [bind_ok (setCore_ok hv), bind_ok e3]
      rfl
    · refine noexcept_ok (noexceptIf_ok ?_)
      rw [bind_ok (getOb_ok (upd_same ..))]
      cases large with
      | false => exact hdat _ (upd_same ..)
      | true =>
        obtain ⟨B', hB', hrc⟩ := hx _ _ _ _ hv
        rw [hB] at hB'
        cases hB'
        obtain ⟨rc, src, cells⟩ := B
        simp only at hrc
        subst hrc
        simp only
        rw [bind_ok (refs_ok (upd_same ..)), if_neg (by omega)]
        exact hdat _ (upd_same ..)
    · simp only [e4, hlen]; omega
    · simp only [e4, hlen]; omega

/-! ### C60 -/

/-- C60, violated in every state: `insert(pos, n, c)` at any place of a string that is not shared, when the new length does not fit in
64 bits, throws nothing; it writes outside the array. -/
theorem insert_wraps_everywhere_violated (hc : cfg.Ok) (h : Reach cfg a s) (hv : a v = some xs) (hs : (isShared (.user v) s).1 = .ok false)
    (hn : n < 2 ^ 64) (hp : 2 ^ 64 ≤ xs.length + n) (hpos : pos ≤ xs.length) (c : Ch) :
    ∃ w, ((Op.insertFill v pos n c).run cfg s).1 = .error (.ub w) := by
  have hr := (reach_rel hc h).1
  obtain ⟨ob, l, g, _⟩ := h.holds hc hv
  have hx : Excl s (.user v) := by
    obtain ⟨b, e1, e2⟩ := isShared_ok hr.inv ⟨ob, l, _, g, rfl⟩
    rw [e1] at hs
    cases hs
    exact e2 rfl
  obtain ⟨p, s', q, w, e1, e2, e3⟩ := expand_insert_wrapped hc hr.inv g hx (lengths_fit hc h hv) hn hp hpos
  have ho : Own cfg s (.user v) (ob.core.ptr (.user v)) (l.take xs.length) := ⟨ob, l, _, g, hx, rfl, rfl⟩
  have hlen : pos ≤ (l.take xs.length).length := by
    have := g.bound hr.inv
    simp; omega
  refine ⟨w, ?_⟩
  show (insertFill cfg (.user v) pos n c s).1 = _
  unfold insertFill
  rw [bind_ok g.sizeM, bind_ok (enforce_ok (by simpa using hpos)), bind_ok (begin_own hr.inv ho)]
  unfold insertFillAt checker
  rw [bind_ok (sane_ok hr.inv ho.raw)]
  unfold checking
  rw [bind_ok (posOf_ok hr.inv ho.raw ho.dataM hlen), bind_ok g.sizeM, bind_ok e1, bind_ok e2, bind_apply, e3]

/-- Its hypotheses hold of a short string and of a long one. -/
example (d : Bool) : ∀ k ∈ [5, 300], ∃ a s, Reach (heapCfg d) a s ∧ a 0 = some (List.replicate k 97) ∧
    (isShared (.user 0) s).1 = .ok false ∧ 2 ^ 64 - 3 < 2 ^ 64 ∧ 2 ^ 64 ≤ (List.replicate k (97 : Ch)).length + (2 ^ 64 - 3) := by
  intro k hk
  have h0 : k = 5 ∨ k = 300 := by simpa using hk
  obtain ⟨a, h, e, _⟩ := reached (heapCfg_ok d) (v := 0) (xs := List.replicate k 97)
    (ops := [.makeFill 0 0 k 97]) (by rcases h0 with rfl | rfl <;> cases d <;> decide +kernel)
    (by rcases h0 with rfl | rfl <;> cases d <;> decide +kernel)
  exact ⟨a, _, h, e, by rcases h0 with rfl | rfl <;> cases d <;> decide +kernel, by omega, by simp; omega⟩

end Verif.Str
