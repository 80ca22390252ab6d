import Verif.Str.StringMore
import Verif.Str.StringViolations

/-!
C60 in every state: appending so many characters that the new length passes 2^64.
-/

namespace Verif.Str

/-! ### Lemmas -/

/-- When the new length passes 2^64 the wrapped length is below the old one, so `expandNoinit` finds room and returns a pointer into an
array far shorter than what will be written. -/
theorem expand_wrapped (hc : cfg.Ok) (hw : WInv cfg s) {ob : Ob} {l : List Cell} {k n : Nat} (h : Holds cfg s v ob l k) (hk : k < 2 ^ 62)
    (hn : n < 2 ^ 64) (hp : 2 ^ 64 ≤ k + n) (exp : Bool) :
    ∃ p s' r, expandNoinit cfg v n exp s = (.ok p, s') ∧ room p s' = (.ok r, s') ∧ r < n := by
  obtain ⟨c, d1, d2, d3, d4, d5⟩ := h.capM hw
  have hadd : add64 k n = k + n - 2 ^ 64 := by
    unfold add64
    rw [Nat.mod_eq_sub_mod hp]
    exact Nat.mod_eq_of_lt (by omega)
  have hcore := hw.core _ _ h.var
  have hv := h.var
  have hs := h.size
  unfold expandNoinit
  rw [bind_ok d1, bind_ok h.sizeM, bind_ok (assert_ok (by simpa using d2) _), bind_ok (getOb_ok h.var)]
  obtain ⟨core, al⟩ := ob
  cases core with
  | small cells =>
    obtain ⟨h1, m, hm, h0, ht, hz⟩ := hcore
    rw [smallSize_eq hm ht] at hs; cases hs
    have hsso : cfg.sso = true := by
      cases e : cfg.sso
      · have := h0 e; omega
      · rfl
    have hle : add64 k n ≤ cfg.ms := by omega
    have e1 : setSmallSize cfg v (add64 k n) s = (.ok (),
        ⟨s.heap, s.next, upd s.vars v (some ⟨.small ((cells.set cfg.ms (some (cfg.ms - add64 k n))).set (add64 k n) (some 0)), al⟩), s.refused, s.lost⟩) := by
      unfold setSmallSize
      rw [bind_ok (assert_ok (by simpa using hle) _), bind_ok (getOb_ok hv)]
      simp only [if_pos hle]
      exact setCore_ok hv
    have hms := hc.msle
    refine ⟨.inl v k, ⟨s.heap, s.next, upd s.vars v (some ⟨.small ((cells.set cfg.ms (some (cfg.ms - add64 k n))).set (add64 k n) (some 0)), al⟩), s.refused, s.lost⟩,
      cfg.ms + 1 - k, ?_, ?_, by omega⟩
    · simp only [hsso, hle, decide_true, Bool.and_self, if_true]
      rw [bind_ok e1]; rfl
    · simp [room, upd, h1]
  | ml d m cap large =>
    obtain ⟨B, hB, hlen, hm, hz, hr, hb⟩ := hcore
    cases hs
    have hw1 := hc.wpos
    have hcap : cap + 1 ≤ (cap + 1) * cfg.w := Nat.le_mul_of_pos_right _ hw1
    have hlt : ¬ c < add64 k n := by omega
    have e2 : add64 k n + [some (0 : Ch)].length ≤ B.cells.length := by simp; omega
    have e3 : writeCells (.blk d (add64 k n)) [some 0] ⟨s.heap, s.next, upd s.vars v (some ⟨.ml d (add64 k n) cap large, al⟩), s.refused, s.lost⟩ =
        (.ok (), ⟨upd s.heap d (some { B with cells := put B.cells (add64 k n) [some 0] }), s.next,
          upd s.vars v (some ⟨.ml d (add64 k n) cap large, al⟩), s.refused, s.lost⟩) := by
      unfold writeCells; simp only [hB, if_pos e2]
    refine ⟨.blk d k, ⟨upd s.heap d (some { B with cells := put B.cells (add64 k n) [some 0] }), s.next,
      upd s.vars v (some ⟨.ml d (add64 k n) cap large, al⟩), s.refused, s.lost⟩, cap + 1 - k, ?_, ?_, by omega⟩
    · simp only [doIf_neg (decide_eq_false hlt)]
      unfold expandTail
      rw [bind_ok (show (pure () : M Unit) s = (.ok (), s) from rfl), bind_ok d1,
        bind_ok (assert_ok (by simpa using Nat.le_of_not_lt hlt) _), bind_ok (getOb_ok hv)]
      simp only
      rw [bind_ok (setCore_ok hv), bind_ok e3]
      rfl
    · have e4 := put_length e2
      simp only [room, upd, if_true, e4, hlen]

/-! ### C60 -/

/-- C60, violated in every state: `append(n, c)` to any string, when the new length does not fit in 64 bits, throws nothing; it
writes outside the array. -/
theorem append_wraps_everywhere_violated (hc : cfg.Ok) (h : Reach cfg a s) (hv : a v = some xs) (hn : n < 2 ^ 64)
    (hp : 2 ^ 64 ≤ xs.length + n) (c : Ch) :
    ((Op.appendFill v n c).run cfg s).1 = .error (.ub "fill outside the array") := by
  have hr := (reach_rel hc h).1
  obtain ⟨ob, l, g, _⟩ := h.holds hc hv
  obtain ⟨p, s', r, e1, e2, e3⟩ := expand_wrapped hc hr.inv g (lengths_fit hc h hv) hn hp true
  have e4 : podFill p n c s' = (.error (.ub "fill outside the array"), s') := by
    unfold podFill
    rw [bind_ok e2]
    simp only [if_neg (Nat.not_le.2 e3)]
    rfl
  show (appendFill cfg (.user v) n c s).1 = _
  unfold appendFill checker
  rw [bind_ok (sane_ok hr.inv ⟨ob, l, _, g, rfl⟩)]
  unfold checking
  rw [bind_ok e1, e4]

/-- Its hypotheses hold of a short string and of a long one. -/
example (d : Bool) : ∀ k ∈ [5, 40], ∃ a s, Reach (heapCfg d) a s ∧ a 0 = some (List.replicate k 97) ∧
    (2 ^ 64 - 3 < 2 ^ 64 ∧ 2 ^ 64 ≤ (List.replicate k (97 : Ch)).length + (2 ^ 64 - 3)) := by
  intro k hk
  have h0 : k = 5 ∨ k = 40 := by simpa using hk
  obtain ⟨a, h, e, _⟩ := reached (heapCfg_ok d) (v := 0) (xs := List.replicate k 97)
    (ops := [.makeFill 0 0 k 97]) (by rcases h0 with rfl | rfl <;> cases d <;> decide +kernel)
    (by rcases h0 with rfl | rfl <;> cases d <;> decide +kernel)
  exact ⟨a, _, h, e, by omega, by simp; omega⟩

end Verif.Str
