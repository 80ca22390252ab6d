import Verif.Vector.ThrowMore
import Verif.Vector.Violations

/-!
C35, C36 and C38 in every state: what `erase(first, last)` returns, and `insert` and `assign` of no elements.
-/

namespace Verif.Vector

open V

variable {α β : Type} {cfg : Cfg α} {w : World α} {i : Nat} {xs : List α}

/-! ### Lemmas -/

theorem assert_false {c : Bool} {s : S α} (hd : cfg.dbg = true) (hc : c = false) (m : String) :
    assert cfg c m s = (.error (.assertFail m), s) := by
  subst hc
  simp only [assert, hd]
  rfl

theorem member_ok {v : Vec} {x : V α Unit} {s' : S α} (hv : w.vecs[i]? = some (some v)) (h : x ⟨w.mem, v⟩ = (.ok (), s')) :
    w.member i (noRet x) = (.ok .unit, ⟨s'.mem, w.vecs.set i (some s'.this)⟩) := by
  have : noRet x ⟨w.mem, v⟩ = (.ok .unit, s') := bind_ok h
  simp only [World.member, hv, this]

/-- The elements of a vector are destroyed. -/
theorem destroyAll_block {b : Nat} {B : Block α} {m : Mem α} (hB : m.heap b = some B) (hle : xs.length ≤ B.len)
    (hl : LiveOn B 0 xs.length) :
    destroyAll cfg ⟨m, ⟨some b, xs.length, B.len⟩⟩ = (.ok (),
      (⟨m, ⟨some b, xs.length, B.len⟩⟩ : S α).put b (gone cfg.kind B 0 xs.length) 0 (dtorsOf cfg.kind xs.length) 0) := by
  unfold destroyAll
  rw [bind_ok (this_apply _), bind_ok (assert_true (by simpa using hle) _)]
  exact destroyRange_ok (s := ⟨m, ⟨some b, xs.length, B.len⟩⟩) (n := xs.length) hB (by omega) hl

theorem gone_dead' {B : Block α} {k n : Nat} (hk : cfg.kind ≠ .triv) (h : k < n) : (gone cfg.kind B 0 n).cell k = .raw := by
  cases hc : cfg.kind
  · exact absurd hc hk
  all_goals simp only [gone, over]; rw [if_pos (by omega)]

/-- Nothing is done to destroy trivial elements. -/
theorem destroyRange_triv (hk : cfg.kind = .triv) (n : Nat) : ∀ (p : Ptr) (s : S α), destroyRange cfg p n s = (.ok (), s) := by
  induction n with
  | zero => exact fun _ s => pure_apply _ s
  | succ n ih =>
    intro p s
    unfold destroyRange
    have : destroyPtr cfg p s = (.ok (), s) := by simp [destroyPtr, hk]
    rw [bind_ok this]
    exact ih _ _

/-! ### C36 -/

/-- C36 is violated in every state: `erase(first, last)` of a range that is not empty removes the right elements, but the iterator it
returns is `last - first` elements behind the one that follows the erased elements. -/
theorem erase_range_return_everywhere_violated [DecidableEq α] {a b : Nat} (hg : Good cfg) (hr : Reachable cfg w) (hl : Lucky cfg w.mem)
    (hx : w.Reads i xs) (hab : a < b) (hb : b ≤ xs.length) :
    ∃ r w', wstep cfg w (.call i (.eraseRange a b)) = (.ok (.num r), w') ∧ w'.Reads i (xs.take a ++ xs.drop b) ∧ r = a + (b - a) ∧ r ≠ a := by
  obtain ⟨r, w', e, hbec, -⟩ := erase_range_partial hg hr hl hx (Nat.le_of_lt hab) hb
  obtain ⟨v, hv, hok, -⟩ := hr.vec hg hx
  obtain ⟨c, s', e', rfl, -⟩ := eraseRange_ok (s := ⟨w.mem, v⟩) hg hok (Nat.le_of_lt hab) hb
  have en : numRet (eraseRange cfg a c) ⟨w.mem, v⟩ = (.ok (.num c), s') := bind_ok e'
  have es : step cfg (.eraseRange a c) ⟨w.mem, v⟩ = (.ok (.num c), s') := (bind_ok (this_apply _)).trans en
  have : r = c := by
    simp only [wstep, World.member, hv, es] at e
    injection e with e _
    injection e with e
    injection e with e
    exact e.symm
  exact ⟨r, w', e, hbec.1, by omega, by omega⟩

example : ∃ r w', wstep (exCfg .mov) (exWorld .mov) (.call 0 (.eraseRange 1 4)) = (.ok (.num r), w') ∧ w'.Reads 0 [3, 3] ∧
    r = 1 + (4 - 1) ∧ r ≠ 1 :=
  erase_range_return_everywhere_violated exGood exReach exLucky exReads.1 (by decide) (by decide)

/-! ### C35 -/

/-- C35 is violated in every state of a debug build: inserting no copies of a value fails an assertion. -/
theorem insert_none_everywhere_violated [DecidableEq α] {pos : Nat} {x : α} {safe : Bool} (hd : cfg.dbg = true) (hg : Good cfg)
    (hr : Reachable cfg w) (hx : w.Reads i xs) :
    ∃ m w', wstep cfg w (.call i (.insertN safe pos 0 (.ext x))) = (.error (.assertFail m), w') := by
  obtain ⟨v, hv, -, -⟩ := hr.vec hg hx
  have e : step cfg (.insertN safe pos 0 (.ext x)) ⟨w.mem, v⟩ = (.error (.assertFail "count should be larger than 0"), ⟨w.mem, v⟩) := by
    refine (bind_ok (this_apply _)).trans ?_
    refine bind_err ?_
    unfold insertN
    exact bind_err (assert_false hd (by decide) _)
  exact ⟨_, _, by simp only [wstep, World.member, hv, e]; rfl⟩

example : ∃ m w', wstep (exCfg .mov) (exWorld .mov) (.call 0 (.insertN true 2 0 (.ext 9))) = (.error (.assertFail m), w') :=
  insert_none_everywhere_violated rfl exGood exReach exReads.1

/-! ### C38 -/

/-- C38 is violated in every state of a debug build: `assign(0, value)` fails an assertion. -/
theorem assign_zero_everywhere_violated [DecidableEq α] {x : α} (hd : cfg.dbg = true) (hg : Good cfg) (hr : Reachable cfg w)
    (hx : w.Reads i xs) : ∃ m w', wstep cfg w (.call i (.assignN 0 (.ext x))) = (.error (.assertFail m), w') := by
  obtain ⟨v, hv, hok, -⟩ := hr.vec hg hx
  have ed : ∃ s', destroyAll cfg ⟨w.mem, v⟩ = (.ok (), s') := by
    rcases hok with ⟨rfl, -⟩ | ⟨b, B, rfl, hB, hb⟩
    · refine ⟨⟨w.mem, nullVec⟩, ?_⟩
      unfold destroyAll
      rw [bind_ok (this_apply _), bind_ok (assert_true (by rfl) _)]
      cases hc : cfg.kind <;> simp [destroyRange, nullVec, pure_apply]
    · exact ⟨_, destroyAll_block hB hb.le (hb.liveOn (by omega))⟩
  obtain ⟨s1, ed⟩ := ed
  have e : ∃ m s', assignN cfg 0 (.ext x) ⟨w.mem, v⟩ = (.error (.assertFail m), s') := by
    unfold assignN
    rw [bind_ok (this_apply _), if_neg (by omega), bind_ok ed, bind_ok (this_apply _), bind_ok (setThis_apply _ _)]
    unfold constructRange
    by_cases hs : s1.this.startPtr.blk.isSome = true
    · rw [bind_ok (assert_true hs _)]
      exact ⟨_, _, bind_err (assert_false hd (by decide) _)⟩
    · exact ⟨_, _, bind_err (assert_false hd (by simpa using hs) _)⟩
  obtain ⟨m, ⟨m', v'⟩, e⟩ := e
  exact ⟨m, _, member_throw hv e⟩

example : ∃ m w', wstep (exCfg .mov) (exWorld .mov) (.call 0 (.assignN 0 (.ext 9))) = (.error (.assertFail m), w') :=
  assign_zero_everywhere_violated rfl exGood exReach exReads.1

/-- C38 is violated in every state: assigning an empty range keeps the size and destroys the elements, unless they are trivial.  No
element can be read afterwards, and the destructor of the vector destroys them again. -/
theorem assign_empty_everywhere_violated [DecidableEq α] {src : Source α} (hg : Good cfg) (hk : cfg.kind ≠ .triv) (hr : Reachable cfg w)
    (hx : w.Reads i xs) (hne : xs ≠ []) (hsrc : src.list = []) :
    ∃ w', wstep cfg w (.call i (.assignRange src)) = (.ok .unit, w') ∧ w'.size i = xs.length ∧
      (∀ k, k < xs.length → ∃ m, w'.look i (at' cfg k) = some (.error (.ub m))) ∧
      ∃ m, (wstep cfg w' (.destroy i)).1 = .error (.ub m) := by
  obtain ⟨v, hv, hok, -⟩ := hr.vec hg hx
  have hpos : 0 < xs.length := List.length_pos_iff.2 hne
  rcases hok with ⟨_, rfl⟩ | ⟨b, B, rfl, hB, hb⟩
  · simp at hpos
  let s1 : S α := (⟨w.mem, ⟨some b, xs.length, B.len⟩⟩ : S α).put b (gone cfg.kind B 0 xs.length) 0 (dtorsOf cfg.kind xs.length) 0
  have e : assignRange cfg src ⟨w.mem, ⟨some b, xs.length, B.len⟩⟩ = (.ok (), s1) := by
    unfold assignRange
    rw [bind_ok (this_apply _)]
    simp only [hsrc, List.length_nil]
    rw [if_neg (by omega), bind_ok (destroyAll_block hB hb.le (hb.liveOn (by omega))), if_neg (by omega)]
    rfl
  have hlen : (gone cfg.kind B 0 xs.length).len = B.len := by cases cfg.kind <;> rfl
  have hdead := fun k hk' => dead_element (cfg := cfg) (j := k) hv (s' := s1) (by rfl) (put_same _ _ _ _ _)
    (by rw [hlen]; exact hb.le) hk'
  refine ⟨_, member_ok hv e, by rw [size_eq (set_vec hv)]; rfl, fun k hk' => (hdead k hk').1 ?_, (hdead 0 hpos).2 hk (gone_dead' hk hpos)⟩
  rw [gone_dead' hk hk']; simp

example : ∃ w', wstep (exCfg .mov) (exWorld .mov) (.call 0 (.assignRange (.forward []))) = (.ok .unit, w') ∧ w'.size 0 = 5 ∧
    (∀ k, k < 5 → ∃ m, w'.look 0 (at' (exCfg .mov) k) = some (.error (.ub m))) ∧
    ∃ m, (wstep (exCfg .mov) w' (.destroy 0)).1 = .error (.ub m) :=
  assign_empty_everywhere_violated exGood (by decide) exReach exReads.1 (by decide) rfl

/-- C38 is violated in every state: assigning an empty range to a vector of trivial elements changes nothing. -/
theorem assign_empty_trivial_everywhere_violated [DecidableEq α] {src : Source α} (hg : Good cfg) (hk : cfg.kind = .triv)
    (hr : Reachable cfg w) (hx : w.Reads i xs) (hne : xs ≠ []) (hsrc : src.list = []) :
    ∃ w', wstep cfg w (.call i (.assignRange src)) = (.ok .unit, w') ∧ w'.Reads i xs ∧ ¬ w'.Reads i src.list := by
  obtain ⟨v, hv, hok, -⟩ := hr.vec hg hx
  have hpos : 0 < xs.length := List.length_pos_iff.2 hne
  rcases hok with ⟨_, rfl⟩ | ⟨b, B, rfl, hB, hb⟩
  · simp at hpos
  have e : assignRange cfg src ⟨w.mem, ⟨some b, xs.length, B.len⟩⟩ = (.ok (), ⟨w.mem, ⟨some b, xs.length, B.len⟩⟩) := by
    unfold assignRange
    rw [bind_ok (this_apply _)]
    simp only [hsrc, List.length_nil]
    have ed : destroyAll cfg ⟨w.mem, ⟨some b, xs.length, B.len⟩⟩ = (.ok (), ⟨w.mem, ⟨some b, xs.length, B.len⟩⟩) := by
      unfold destroyAll
      rw [bind_ok (this_apply _), bind_ok (assert_true (by simpa using hb.le) _)]
      exact destroyRange_triv hk _ _ _
    rw [if_neg (by omega), bind_ok ed, if_neg (by omega)]
    rfl
  have hw : (⟨w.mem, w.vecs.set i (some ⟨some b, xs.length, B.len⟩)⟩ : World α) = w := by
    have : w.vecs.set i (some ⟨some b, xs.length, B.len⟩) = w.vecs := by
      obtain ⟨hi, h⟩ := List.getElem?_eq_some_iff.1 hv
      rw [← h, List.set_getElem_self]
    rw [this]
  have e' := member_ok hv e
  simp only [hw] at e'
  refine ⟨w, e', hx, fun h => ?_⟩
  rw [hsrc] at h
  have := hx.symm.trans h
  simp at this
  exact hne this

example : ∃ w', wstep (exCfg .triv) (run (exCfg .triv) World.empty [.ctorRange (.contiguous [3, 1, 2])]).2
    (.call 0 (.assignRange (.forward []))) = (.ok .unit, w') ∧ w'.Reads 0 [3, 1, 2] ∧ ¬ w'.Reads 0 [] :=
  assign_empty_trivial_everywhere_violated (by unfold Good exCfg; decide) rfl
    ⟨[.ctorRange (.contiguous [3, 1, 2])], ⟨fun _ _ => rfl, ⟨by simp [Source.Copied, exCfg], by unfold Fits exCfg; decide⟩, trivial⟩, rfl⟩
    (by unfold World.Reads; decide +kernel) (by decide) rfl

end Verif.Vector
