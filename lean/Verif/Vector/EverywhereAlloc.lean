import Verif.Vector.Everywhere
import Verif.Vector.Failure

/-!
C45 and C75 in every state: access out of range, and the calls that lose the storage of a vector when an allocation fails.
-/

namespace Verif.Vector

open V

variable {α β : Type} [DecidableEq α] {cfg : Cfg α} {w : World α} {i : Nat} {xs : List α}

/-! ### C45 -/

omit [DecidableEq α] in
theorem load_no_throw (p : Ptr) (s : S α) (m : String) : (load p s).1 ≠ .error (.throw m) := by
  have hr : ∀ c s', readCell p s = (c, s') → c ≠ .error (.throw m) := by
    intro c s' h
    unfold readCell at h
    split at h
    · cases h; simp
    · split at h
      · cases h; simp
      · split at h <;> cases h <;> simp
  unfold load
  cases h : readCell p s with
  | mk c s' =>
    cases c with
    | error e => rw [bind_err h]; exact fun h' => hr _ _ h (by injection h' with h'; rw [h'])
    | ok c =>
      rw [bind_ok h]
      cases c <;> simp [ub, fail, pure_apply]

/-- C45 is violated in every state: `at` never throws.  In a debug build an index out of range fails an assertion; in a release build
it reads what is there, and an index beyond the capacity is undefined. -/
theorem at_never_throws_violated (hg : Good cfg) (hr : Reachable cfg w) (hx : w.Reads i xs) {k : Nat} (hk : xs.length ≤ k) :
    (∀ m, w.look i (at' cfg k) ≠ some (.error (.throw m))) ∧
    (cfg.dbg = true → ∃ m, w.look i (at' cfg k) = some (.error (.assertFail m))) ∧
    (cfg.dbg = false → w.capacity i ≤ k → ∃ m, w.look i (at' cfg k) = some (.error (.ub m))) := by
  obtain ⟨v, hv, hok, -⟩ := hr.vec hg hx
  have hfin : v.fin = xs.length := hok.fin_eq
  have hdbg : cfg.dbg = false → at' cfg k ⟨w.mem, v⟩ = load (v.ptr k) ⟨w.mem, v⟩ := fun hd => by
    unfold at'
    rw [bind_ok (this_apply _)]
    exact bind_ok (by simp only [assert, hd]; rfl)
  rw [look_eq hv]
  refine ⟨fun m h => ?_, fun hd => ⟨"index out of range", ?_⟩, fun hd hc => ?_⟩
  · injection h with h
    by_cases hd : cfg.dbg = true
    · unfold at' at h
      rw [bind_ok (this_apply _), bind_err (assert_false hd (by simp; omega) _)] at h
      simp at h
    · rw [hdbg (by simpa using hd)] at h
      exact load_no_throw _ _ _ h
  · unfold at'
    rw [bind_ok (this_apply _), bind_err (assert_false hd (by simp; omega) _)]
  · rw [capacity_eq hv] at hc
    rw [hdbg hd]
    rcases hok with ⟨rfl, -⟩ | ⟨b, B, rfl, hB, hb⟩
    · exact ⟨_, rfl⟩
    · refine ⟨"access outside the block", ?_⟩
      have : readCell (Vec.ptr ⟨some b, xs.length, B.len⟩ k) (⟨w.mem, ⟨some b, xs.length, B.len⟩⟩ : S α)
          = (.error (.ub "access outside the block"), ⟨w.mem, ⟨some b, xs.length, B.len⟩⟩) := by
        have hc' : ¬ (Vec.ptr ⟨some b, xs.length, B.len⟩ k).off < B.len := Nat.not_lt.2 hc
        unfold readCell
        simp only [show (Vec.ptr ⟨some b, xs.length, B.len⟩ k).blk = some b from rfl, hB]
        exact if_neg hc'
      unfold load
      rw [bind_err this]

example : (∀ m, (exWorld .mov).look 0 (at' (exCfg .mov) 7) ≠ some (.error (.throw m))) ∧
    (∃ m, (exWorld .mov).look 0 (at' (exCfg .mov) 7) = some (.error (.assertFail m))) :=
  have h := at_never_throws_violated (k := 7) exGood exReach exReads.1 (by decide)
  ⟨h.1, h.2.1 rfl⟩

/-! ### C75 -/

/-- Vector `i` claims to have `n` elements, none of which can be read; unless they are trivial, its destructor is undefined. -/
def World.Ruined (cfg : Cfg α) (w : World α) (i n : Nat) : Prop :=
  w.size i = n ∧ (∀ k, k < n → ∃ m, w.look i (at' cfg k) = some (.error (.ub m))) ∧
    (cfg.kind ≠ .triv → ∃ m, (wstep cfg w (.destroy i)).1 = .error (.ub m))

/-- A vector that has lost its storage. -/
theorem ruined {v : Vec} {m : Mem α} {n e : Nat} (hv : w.vecs[i]? = some (some v)) (h0 : 0 < n) :
    World.Ruined cfg ⟨m, w.vecs.set i (some ⟨none, n, e⟩)⟩ i n := by
  refine ⟨by rw [size_eq (set_vec hv)], fun k hk => ?_, fun hk => ?_⟩
  · refine ⟨"null pointer dereferenced", ?_⟩
    rw [look_eq (set_vec hv)]
    unfold at'
    rw [bind_ok (this_apply _), bind_ok (assert_true (by simpa using hk) _)]
    rfl
  · refine ⟨"null pointer dereferenced", ?_⟩
    obtain ⟨n, rfl⟩ : ∃ k, n = k + 1 := ⟨n - 1, by omega⟩
    have : coreDestroy cfg ⟨m, ⟨none, n + 1, e⟩⟩ = (.error (.ub "null pointer dereferenced"), ⟨m, ⟨none, n + 1, e⟩⟩) := by
      unfold coreDestroy
      rw [bind_ok (this_apply _)]
      refine bind_err ?_
      unfold destroyRange
      refine bind_err ?_
      cases hc : cfg.kind
      · exact absurd hc hk
      all_goals simp only [destroyPtr, hc]; rfl
    simp only [wstep]
    rw [member_throw (set_vec hv) this]

omit [DecidableEq α] in
theorem allocate_refused' {s : S α} {n : Nat} (h : Refused cfg s.mem) (h0 : 0 < n) :
    allocate cfg n s = (.error (.throw "bad_alloc"),
      ⟨{ s.mem with next := s.mem.next + 1 }, { s.this with start := none }⟩) := by
  unfold allocate
  rw [bind_ok (assert_true (by simpa using h0) _), bind_ok (malloc_refused (h _)), bind_ok (this_apply _)]
  rfl

/-- C75 is violated in every state: when `push_back` or `emplace_back` on a full vector gets no memory, the exception is thrown, but no
element of the vector can be read any more, the vector cannot be destroyed, and its storage is lost: it stays allocated, and no vector
has it. -/
theorem push_back_refused_violated {x : α} {e : Bool} (hg : Good cfg) (hr : Reachable cfg w) (hx : w.Reads i xs) (hne : xs ≠ [])
    (hfull : w.capacity i = xs.length) (hfit : Fits cfg xs.length) (h : Refused cfg w.mem) :
    ∃ w', wstep cfg w (.call i (.pushBack true e (.ext x))) = (.error (.throw "bad_alloc"), w') ∧ w'.Ruined cfg i xs.length ∧
      ∃ b, w.data i = some b ∧ w'.mem.heap b = w.mem.heap b ∧ w'.mem.heap b ≠ none ∧ ∀ j, w'.data j ≠ some b := by
  obtain ⟨ys, hr'⟩ := hr.reach
  have hw := hr'.winv hg
  obtain ⟨v, hv, hok, -⟩ := hr.vec hg hx
  have hpos : 0 < xs.length := List.length_pos_iff.2 hne
  have hfl := full_ok (s := ⟨w.mem, v⟩) hok
  rw [capacity_eq hv] at hfull
  rcases hok with ⟨_, rfl⟩ | ⟨b, B, rfl, hB, hb⟩
  · simp at hpos
  simp only at hfull
  have hcap := (nextCapacity_ok (c := B.len) hg (by rw [hfull]; exact hfit)).1
  have ep : pushBack cfg true e (.ext x) ⟨w.mem, ⟨some b, xs.length, B.len⟩⟩ = (.error (.throw "bad_alloc"),
      ⟨{ w.mem with next := w.mem.next + 1 }, ⟨none, xs.length, B.len⟩⟩) := by
    unfold pushBack
    rw [bind_ok hfl, bind_ok (this_apply _)]
    simp only [if_true]
    rw [if_pos (by simpa using hfull)]
    unfold reallocAndEmplaceBack
    rw [bind_ok (this_apply _), bind_ok (assert_true (by simp; omega) _)]
    exact bind_err (allocate_refused' (s := ⟨w.mem, ⟨some b, xs.length, B.len⟩⟩) h (by omega))
  refine ⟨_, member_throw hv ep, ruined hv hpos, b, by rw [data_eq hv], rfl, by simp [hB], fun j hj => ?_⟩
  by_cases hij : j = i
  · subst hij
    rw [data_eq (set_vec hv)] at hj
    cases hj
  · unfold World.data at hj
    simp only [List.getElem?_set_ne (Ne.symm hij)] at hj
    split at hj
    · next u hu => exact hij (hw.sep j i _ _ b hu hv hj rfl)
    · cases hj

example : ∃ w', wstep (exShort .mov 2) (exShortWorld .mov) (.call 0 (.pushBack true false (.ext 8))) = (.error (.throw "bad_alloc"), w') ∧
    w'.Ruined (exShort .mov 2) 0 2 ∧
    ∃ b, (exShortWorld .mov).data 0 = some b ∧ w'.mem.heap b = (exShortWorld .mov).mem.heap b ∧ w'.mem.heap b ≠ none ∧
      ∀ j, w'.data j ≠ some b :=
  push_back_refused_violated exShortGood exShortReach exShortReads.1 (by decide) (by decide +kernel) (by unfold Fits exShort; decide) exShortRefused

omit [DecidableEq α] in
theorem Freed.refused {s s1 : S α} (hF : Freed cfg s s1 xs) (h : Refused cfg s.mem) : Refused cfg s1.mem := by
  intro n; rw [hF.next]; exact h n

/-- C75 is violated in every state: the same for `assign` with more elements than there is room for. -/
theorem assign_refused_violated {n : Nat} {x : α} {src : Source α} (hg : Good cfg) (hr : Reachable cfg w) (hx : w.Reads i xs)
    (hne : xs ≠ []) (h : Refused cfg w.mem) :
    (w.capacity i < n → ∃ w', wstep cfg w (.call i (.assignN n (.ext x))) = (.error (.throw "bad_alloc"), w') ∧
      w'.Ruined cfg i xs.length) ∧
    (w.capacity i < src.list.length → ∃ w', wstep cfg w (.call i (.assignRange src)) = (.error (.throw "bad_alloc"), w') ∧
      w'.Ruined cfg i xs.length) := by
  obtain ⟨v, hv, hok, -⟩ := hr.vec hg hx
  have hpos : 0 < xs.length := List.length_pos_iff.2 hne
  have hfin : v.fin = xs.length := hok.fin_eq
  have hdrop : ∀ n, 0 < n → ∃ m, reallocDropOldData cfg n ⟨w.mem, v⟩ = (.error (.throw "bad_alloc"), ⟨m, ⟨none, xs.length, v.edge⟩⟩) := by
    intro n hn
    obtain ⟨_, s1, e1, hF⟩ := coreDestroy_ok (s := ⟨w.mem, v⟩) hok
    have ea := allocate_refused' (hF.refused h) hn
    refine ⟨{ s1.mem with next := s1.mem.next + 1 }, ?_⟩
    unfold reallocDropOldData
    rw [bind_ok e1, ea, hF.this, ← hfin]
  rw [capacity_eq hv]
  refine ⟨fun hn => ?_, fun hn => ?_⟩
  · obtain ⟨m, e⟩ := hdrop n (by omega)
    have ep : assignN cfg n (.ext x) ⟨w.mem, v⟩ = (.error (.throw "bad_alloc"), ⟨m, ⟨none, xs.length, v.edge⟩⟩) := by
      unfold assignN
      rw [bind_ok (this_apply _), if_pos (by exact hn)]
      exact bind_err e
    exact ⟨_, member_throw hv ep, ruined hv hpos⟩
  · obtain ⟨m, e⟩ := hdrop src.list.length (by omega)
    have ep : assignRange cfg src ⟨w.mem, v⟩ = (.error (.throw "bad_alloc"), ⟨m, ⟨none, xs.length, v.edge⟩⟩) := by
      unfold assignRange
      rw [bind_ok (this_apply _)]
      simp only
      rw [if_pos (by exact hn)]
      exact bind_err e
    exact ⟨_, member_throw hv ep, ruined hv hpos⟩

example : ∃ w', wstep (exShort .mov 2) (exShortWorld .mov) (.call 0 (.assignRange (.forward [4, 5, 6]))) = (.error (.throw "bad_alloc"), w') ∧
    w'.Ruined (exShort .mov 2) 0 2 :=
  (assign_refused_violated (n := 0) (x := 0) exShortGood exShortReach exShortReads.1 (by decide) exShortRefused).2 (by decide +kernel)

/-- C75 is violated in every state: the same for the copy assignment of a vector with more elements than there is room for. -/
theorem copy_assign_refused_violated {j : Nat} {ys : List α} (hg : Good cfg) (hr : Reachable cfg w) (hx : w.Reads i xs)
    (hy : w.Reads j ys) (hne : xs ≠ []) (hroom : w.capacity i < ys.length) (h : Refused cfg w.mem) :
    ∃ w', wstep cfg w (.copyAssign i j) = (.error (.throw "bad_alloc"), w') ∧ w'.Ruined cfg i xs.length := by
  obtain ⟨v, hv, hok, -⟩ := hr.vec hg hx
  obtain ⟨u, hu, hok', -⟩ := hr.vec hg hy
  have hpos : 0 < xs.length := List.length_pos_iff.2 hne
  have hfin : v.fin = xs.length := hok.fin_eq
  have hufin : u.fin = ys.length := hok'.fin_eq
  rw [capacity_eq hv] at hroom
  have hij : i ≠ j := by
    rintro rfl
    have hc : xs.length ≤ v.edge := hok.fin_le
    rw [hv] at hu
    cases hu
    omega
  obtain ⟨s0, s1, h1, h2, hF, -⟩ := destroyFree_ok (s := ⟨w.mem, v⟩) hok
  have ea := allocate_refused' (n := ys.length) (hF.refused h) (by omega)
  have ep : coreCopyAssign cfg u ⟨w.mem, v⟩ = (.error (.throw "bad_alloc"),
      ⟨{ s1.mem with next := s1.mem.next + 1 }, ⟨none, xs.length, v.edge⟩⟩) := by
    unfold coreCopyAssign
    simp only [hufin]
    rw [bind_ok (this_apply _), if_pos (by exact hroom), bind_ok h1, bind_ok h2]
    refine bind_err ?_
    rw [ea, hF.this, ← hfin]
  refine ⟨⟨{ s1.mem with next := s1.mem.next + 1 }, w.vecs.set i (some ⟨none, xs.length, v.edge⟩)⟩, ?_, ruined hv hpos⟩
  simp only [wstep, hu, if_neg hij]
  exact member_throw hv ep

example : ∃ w', wstep (exShort .mov 2) (exShortWorld .mov) (.copyAssign 0 1) = (.error (.throw "bad_alloc"), w') ∧
    w'.Ruined (exShort .mov 2) 0 2 :=
  copy_assign_refused_violated exShortGood exShortReach exShortReads.1 exShortReads.2 (by decide) (by decide +kernel) exShortRefused

/-- C75 is violated in every state: `reserve` on a vector without storage does not report that there is no memory, and the vector
claims to have the capacity.  The next `emplace_back`, and in a release build the next `push_back`, dereferences a null pointer. -/
theorem reserve_refused_violated {n : Nat} (hg : Good cfg) (hr : Reachable cfg w) (hx : w.Reads i []) (hnone : w.data i = none)
    (hn : 0 < n) (h : Refused cfg w.mem) :
    ∃ w', wstep cfg w (.call i (.reserve n)) = (.ok .unit, w') ∧ w'.capacity i = n ∧ w'.data i = none ∧
      ∀ x e, (cfg.dbg = true → e = true) → ∃ m, (wstep cfg w' (.call i (.pushBack true e (.ext x)))).1 = .error (.ub m) := by
  obtain ⟨v, hv, hok, -⟩ := hr.vec hg hx
  rw [data_eq hv] at hnone
  rcases hok with ⟨rfl, -⟩ | ⟨b, B, rfl, hB, hb⟩
  case inr => cases hnone
  have er : reserve cfg n ⟨w.mem, nullVec⟩ = (.ok (), ⟨{ w.mem with next := w.mem.next + 1 }, ⟨none, 0, n⟩⟩) := by
    unfold reserve
    rw [bind_ok (this_apply _), doIf_pos (by simpa [nullVec] using hn)]
    unfold reallocWithOldData
    rw [bind_ok (this_apply _), bind_ok (assert_true (by simp [nullVec]) _)]
    simp only [nullVec]
    rw [bind_ok (assert_true (by simp) _), bind_ok (malloc_refused (s := ⟨w.mem, ⟨none, 0, 0⟩⟩) (h _))]
    rfl
  refine ⟨_, member_ok hv er, by rw [capacity_eq (set_vec hv)], by rw [data_eq (set_vec hv)], fun x e hde => ?_⟩
  have ep : pushBack cfg true e (.ext x) ⟨{ w.mem with next := w.mem.next + 1 }, ⟨none, 0, n⟩⟩
      = (.error (.ub "null pointer dereferenced"), ⟨{ w.mem with next := w.mem.next + 1 }, ⟨none, 1, n⟩⟩) := by
    have hfl : full cfg (⟨{ w.mem with next := w.mem.next + 1 }, ⟨none, 0, n⟩⟩ : S α)
        = (.ok false, ⟨{ w.mem with next := w.mem.next + 1 }, ⟨none, 0, n⟩⟩) := by
      unfold full
      rw [bind_ok (this_apply _), bind_ok (assert_true (by simp) _)]
      have : decide (n = 0) = false := decide_eq_false (by omega)
      simp only [this]
      rfl
    unfold pushBack
    rw [bind_ok hfl, bind_ok (this_apply _)]
    simp only [if_true, Bool.false_eq_true, if_false]
    rw [bind_ok (setThis_apply _ _)]
    cases e with
    | true => rfl
    | false =>
      have hd : cfg.dbg = false := by
        cases hd : cfg.dbg with
        | false => rfl
        | true => exact absurd (hde hd) (by simp)
      simp only [putAt, Bool.false_eq_true, if_false]
      unfold copyCref
      refine (bind_ok (by simp only [assert, hd]; rfl)).trans ((bind_ok (by rfl)).trans ?_)
      cases hc : cfg.kind <;> simp only [Kind.relocatable, assignTo, hc, Bool.false_eq_true] <;> rfl
  refine ⟨"null pointer dereferenced", ?_⟩
  simp only [wstep]
  rw [show step cfg (.pushBack true e (.ext x)) = fun s => noRet (pushBack cfg true e (.ext x)) s from rfl]
  rw [member_throw (set_vec hv) ep]

-- the first vector has no storage and the third allocation fails
example : let w := (run (exShort .mov 2) World.empty (.ctor :: exShortProg)).2
    ∃ w', wstep (exShort .mov 2) w (.call 0 (.reserve 4)) = (.ok .unit, w') ∧ w'.capacity 0 = 4 ∧ w'.data 0 = none ∧
    ∀ x e, ((exShort .mov 2).dbg = true → e = true) →
      ∃ m, (wstep (exShort .mov 2) w' (.call 0 (.pushBack true e (.ext x)))).1 = .error (.ub m) :=
  reserve_refused_violated exShortGood
    ⟨.ctor :: exShortProg, ⟨fun _ _ => by rw [exShort_malloc]; decide +kernel, trivial, fun _ _ => by rw [exShort_malloc]; decide +kernel,
      by unfold WContract Fits exShort; decide, fun _ _ => by rw [exShort_malloc]; decide +kernel,
      by unfold WContract Fits exShort; decide, trivial⟩, rfl⟩
    (by unfold World.Reads; decide +kernel) (by decide +kernel) (by decide) (fun _ => by rw [exShort_malloc]; decide +kernel)

end Verif.Vector
