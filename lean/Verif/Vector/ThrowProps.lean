import Verif.Vector.ThrowLemmas
import Verif.Vector.Violations

/-!
The properties of vectors whose elements have constructors that throw (C104, C105).  A program is in an arbitrary state some legal
program reaches; then one member function is called, and the construction of an element throws.
-/

namespace Verif.Vector

open V

variable {α β : Type} {cfg : Cfg α} {th : Throws α} {w : World α} {i : Nat} {xs : List α}

/-! ### The functions with throwing constructors are those of the model when nothing throws -/

/-- With constructors that never throw, the functions of `Throw` are the functions of `Model`. -/
theorem throws_never (cfg : Cfg α) :
    (∀ u, coreCopyT cfg never u = coreCopy cfg u) ∧ (∀ u, coreCopyAssignT cfg never u = coreCopyAssign cfg u) ∧
    (∀ s e a, pushBackT cfg never s e a = pushBack cfg s e a) ∧ (∀ c n a, resizeT cfg never c n a = resize cfg c n a) ∧
    (∀ s e p a, insertOneT cfg never s e p a = insertOne cfg s e p a) ∧
    (∀ s p n a, insertNT cfg never s p n a = insertN cfg s p n a) ∧
    (∀ s p src, insertRangeT cfg never s p src = insertRange cfg s p src) ∧
    (∀ n a, assignNT cfg never n a = assignN cfg n a) ∧ (∀ src, assignRangeT cfg never src = assignRange cfg src) ∧
    (∀ n, reserveT cfg never n = reserve cfg n) ∧ (∀ p, eraseT cfg never p = erase cfg p) := by
  have hc : Calm cfg never := .inl rfl
  refine ⟨fun u => ?_, fun u => ?_, fun s e a => ?_, fun c n a => ?_, fun s e p a => ?_, fun s p n a => ?_, fun s p src => ?_,
    fun n a => ?_, fun src => ?_, reserveT_calm hc, eraseT_calm hc⟩
  · simp only [coreCopyT, coreCopy, copyRangeT_never]
  · simp only [coreCopyAssignT, coreCopyAssign, copyRangeT_never]
  · simp only [pushBackT, pushBack, reallocAndEmplaceBackT, reallocAndEmplaceBack, constructAtT_never, putAtT_never,
      moveRangeNoOverlapT_calm hc]
  · simp only [resizeT, resize, reallocWithOldDataT_calm hc, constructRangeT_never]
  · simp only [insertOneT, insertOne, reserveT_calm hc, putAtT_never, moveBackwardT_calm hc, moveForwardT_calm hc]
  · simp only [insertNT, insertN, makeRoomT_calm hc, constructRangeT_never]
  · simp only [insertRangeT, insertRange, makeRoomT_calm hc, copyFromIteratorT_never]
  · simp only [assignNT, assignN, constructRangeT_never]
  · simp only [assignRangeT, assignRange, copyFromIteratorT_never]

/-! ### C104: what is safe -/

/-- C104, partial: elements with a move constructor are never copied by `reserve`, so it keeps its promise whatever the copy
constructor does.  Missing: all functions that construct elements, see the theorems below. -/
theorem reserve_does_not_copy_partial [DecidableEq α] {n : Nat} (hg : Good cfg) (hk : cfg.kind ≠ .cpy) (hr : Reachable cfg w)
    (hl : Lucky cfg w.mem) (hx : w.Reads i xs) (hn : Fits cfg n) :
    ∃ w', w.member i (noRet (reserveT cfg th n)) = (.ok .unit, w') ∧ Becomes cfg w w' i xs := by
  obtain ⟨v, hv, _, _⟩ := hr.vec hg hx
  obtain ⟨r, w', e, hb, hret⟩ := call_ok (op := .reserve n) hg hr hl hx ⟨trivial, hn⟩
  rcases hret with rfl | ⟨_, _, h, _⟩
  · rw [reserveT_calm (.inr hk)]
    exact ⟨w', e, hb⟩
  · cases h

/-- C104, partial: the same for `erase`. -/
theorem erase_does_not_copy_partial [DecidableEq α] {p : Nat} (hg : Good cfg) (hk : cfg.kind ≠ .cpy) (hr : Reachable cfg w)
    (hl : Lucky cfg w.mem) (hx : w.Reads i xs) (hp : p < xs.length) :
    ∃ w', w.member i (numRet (eraseT cfg th p)) = (.ok (.num p), w') ∧ Becomes cfg w w' i (xs.take p ++ xs.drop (p + 1)) := by
  obtain ⟨r, w', e, hb, hret⟩ := call_ok (op := .erase p) hg hr hl hx ⟨trivial, hp⟩
  rcases hret with rfl | ⟨_, _, h, _⟩
  · rw [eraseT_calm (.inr hk)]
    exact ⟨w', e, hb⟩
  · cases h

example : ∃ w', (exWorld .mov).member 0 (noRet (reserveT (exCfg .mov) (fun _ _ => true) 50)) = (.ok .unit, w') ∧
    Becomes (exCfg .mov) (exWorld .mov) w' 0 [3, 1, 9, 2, 3] :=
  reserve_does_not_copy_partial exGood (by decide) exReach exLucky exReads.1 (by unfold Fits exCfg; decide)

example : ∃ w', (exWorld .mov).member 0 (numRet (eraseT (exCfg .mov) (fun _ _ => true) 1)) = (.ok (.num 1), w') ∧
    Becomes (exCfg .mov) (exWorld .mov) w' 0 [3, 9, 2, 3] :=
  erase_does_not_copy_partial exGood (by decide) exReach exLucky exReads.1 (by decide)

/-! ### C104: `push_back` -/

theorem noRet_err {x : V α Unit} {s s' : S α} {e : Fault} (h : x s = (.error e, s')) : noRet x s = (.error e, s') :=
  bind_err h

theorem member_throw {v v' : Vec} {x : V α Unit} {e : Fault} {m : Mem α} (hv : w.vecs[i]? = some (some v))
    (h : x ⟨w.mem, v⟩ = (.error e, ⟨m, v'⟩)) :
    w.member i (noRet x) = (.error e, ⟨m, w.vecs.set i (some v')⟩) := by
  simp only [World.member, hv, noRet_err h]

/-- Reading a vector only looks at the memory and that vector. -/
theorem read_ne {m : Mem α} {v' : Vec} {j : Nat} (hj : j ≠ i) (hm : m = w.mem) :
    (⟨m, w.vecs.set i (some v')⟩ : World α).read j = w.read j := by
  subst hm
  simp only [World.read, World.look]
  rw [List.getElem?_set_ne (Ne.symm hj)]

theorem putAtT_throw {s : S α} {e : Bool} {p : Ptr} {x : α} (hk : cfg.kind.relocatable = false) (hp : p.blk.isSome = true)
    (h : th s.mem.ctors x = true) : putAtT cfg th e p (.ext x) s = (.error (.throw "element"), s) := by
  unfold putAtT
  cases e with
  | true =>
    simp only [if_true, deref]
    rw [bind_ok (pure_apply _ _)]
    exact constructAtT_throw h _
  | false =>
    simp only [Bool.false_eq_true, if_false, copyCrefT, deref]
    rw [bind_ok (assert_true hp _), bind_ok (pure_apply _ _), hk]
    exact constructAtT_throw h _

/-- The state left by a `push_back` whose element throws, when there is room: one element more, and nothing else. -/
theorem pushBackT_room {s : S α} {safe e : Bool} {x : α} (hk : cfg.kind.loops) (hx : VecOK cfg s.mem s.this xs)
    (hroom : xs.length < s.this.edge) (h : th s.mem.ctors x = true) :
    pushBackT cfg th safe e (.ext x) s = (.error (.throw "element"), ⟨s.mem, { s.this with fin := xs.length + 1 }⟩) := by
  have hfin := hx.fin_eq
  have hst : s.this.start.isSome = true := by
    rcases hx with ⟨hv, rfl⟩ | ⟨b, B, hv, _, _⟩
    · rw [hv] at hroom; simp [nullVec] at hroom
    · rw [hv]; rfl
  unfold pushBackT
  rw [bind_ok (full_ok hx), bind_ok (this_apply _)]
  have hdec : decide (s.this.edge = xs.length) = false := decide_eq_false (by omega)
  simp only [hdec]
  have hput : ∀ t : S α, t.mem = s.mem → putAtT cfg th e s.this.finPtr (.ext x) t = (.error (.throw "element"), t) :=
    fun t ht => putAtT_throw (loops_relocatable hk) hst (by rw [ht]; exact h)
  cases safe with
  | true =>
    simp only [if_true, Bool.false_eq_true, if_false]
    rw [bind_ok (setThis_apply _ _), ← hfin]
    exact hput _ rfl
  | false =>
    simp only [Bool.false_eq_true, if_false]
    rw [bind_ok (assert_true (by rfl) _), bind_ok (setThis_apply _ _), ← hfin]
    exact hput _ rfl

/-- C104 is violated by `push_back(const T&)` and `emplace_back` in every state: when the element's constructor throws and there is
room, `size()` has grown by one all the same, and `back()` is an element that was never constructed.  What is left of the promise: the
elements from before and the other vectors are untouched. -/
theorem push_back_throws_violated [DecidableEq α] {safe e : Bool} {x : α} (hg : Good cfg) (hk : cfg.kind.loops) (hr : Reachable cfg w)
    (hx : w.Reads i xs) (hroom : xs.length < w.capacity i) (h : th w.mem.ctors x = true) :
    ∃ w', w.member i (noRet (pushBackT cfg th safe e (.ext x))) = (.error (.throw "element"), w') ∧
      w'.size i = xs.length + 1 ∧ (∃ m, w'.look i (back cfg) = some (.error (.ub m))) ∧
      (∀ k y, xs[k]? = some y → w'.look i (at' cfg k) = some (.ok y)) ∧ ∀ j, j ≠ i → w'.read j = w.read j := by
  obtain ⟨v, hv, hok, _⟩ := hr.vec hg hx
  rw [capacity_eq hv] at hroom
  have e1 := pushBackT_room (s := ⟨w.mem, v⟩) (safe := safe) (e := e) hk hok hroom h
  refine ⟨_, member_throw hv e1, ?_, ?_, fun k y hy => ?_, fun j hj => read_ne hj rfl⟩
  · rw [size_eq (set_vec hv)]
  · rw [look_eq (set_vec hv)]
    rcases hok with ⟨hn, rfl⟩ | ⟨b, B, rfl, hB, hb⟩
    · rw [hn] at hroom; simp [nullVec] at hroom
    · simp only at hroom
      have ht := hb.tail xs.length (Nat.le_refl _) hroom
      have hd : ∀ y, B.cell xs.length ≠ .live y := by
        rcases hk with hk | hk
        · rw [hk] at ht; exact ht
        · rw [hk] at ht
          have ht : B.cell xs.length = .raw := ht
          intro y; rw [ht]; simp
      obtain ⟨m, hm⟩ := load_raw (s := ⟨w.mem, ⟨some b, xs.length + 1, B.len⟩⟩) hB hroom hd
      refine ⟨m, ?_⟩
      unfold back
      rw [bind_ok (this_apply _), bind_ok (assert_true (by simp) _)]
      simp only [Nat.add_one_ne_zero, if_false, Nat.add_sub_cancel, Vec.ptr]
      rw [hm]
  · rw [look_eq (set_vec hv)]
    have hlt := lt_of_getElem? hy
    rcases hok with ⟨hn, rfl⟩ | ⟨b, B, rfl, hB, hb⟩
    · simp at hlt
    · have hc : B.cell k = .live y := by
        rw [hb.live k hlt, cellOf_lt hlt]
        rw [List.getElem?_eq_getElem hlt] at hy
        simpa using hy
      have hle := hb.le
      unfold at'
      rw [bind_ok (this_apply _), bind_ok (assert_true (by simp; omega) _)]
      simp only [Vec.ptr]
      rw [load_ok hB (by omega) hc]

/-- C104, partial: when `push_back` or `emplace_back` throw and there was room, the elements from before can still be read, and so can
all other vectors.  Missing: the size and the last element are wrong (`push_back_throws_violated`), a full vector loses its elements
(`push_back_full_throws_violated`). -/
theorem push_back_throws_partial [DecidableEq α] {safe e : Bool} {x : α} (hg : Good cfg) (hk : cfg.kind.loops) (hr : Reachable cfg w)
    (hx : w.Reads i xs) (hroom : xs.length < w.capacity i) (h : th w.mem.ctors x = true) :
    ∃ w', w.member i (noRet (pushBackT cfg th safe e (.ext x))) = (.error (.throw "element"), w') ∧
      (∀ k y, xs[k]? = some y → w'.look i (at' cfg k) = some (.ok y)) ∧ ∀ j, j ≠ i → w'.read j = w.read j := by
  obtain ⟨w', h1, _, _, h2, h3⟩ := push_back_throws_violated (safe := safe) (e := e) hg hk hr hx hroom h
  exact ⟨w', h1, h2, h3⟩

/-- The element of the examples that cannot be constructed. -/
def bad : Throws Nat := fun _ v => v == 13

example : ∃ w', (exWorld .mov).member 0 (noRet (pushBackT (exCfg .mov) bad true false (.ext 13))) = (.error (.throw "element"), w') ∧
      w'.size 0 = 6 ∧ (∃ m, w'.look 0 (back (exCfg .mov)) = some (.error (.ub m))) ∧
      (∀ k y, [3, 1, 9, 2, 3][k]? = some y → w'.look 0 (at' (exCfg .mov) k) = some (.ok y)) ∧
      ∀ j, j ≠ 0 → w'.read j = (exWorld .mov).read j :=
  push_back_throws_violated exGood (.inl rfl) exReach exReads.1 (by rw [exSizes.1]; decide) rfl

/-- The state left by a `push_back` whose element throws, when the vector is full. -/
theorem pushBackT_full {s : S α} {e : Bool} {x : α} (hg : Good cfg) (hl : Lucky cfg s.mem)
    (hx : VecOK cfg s.mem s.this xs) (hfull : s.this.edge = xs.length) (hfit : Fits cfg (xs.length + 1)) (h : th s.mem.ctors x = true) :
    pushBackT cfg th true e (.ext x) s = (.error (.throw "element"),
      ⟨(s.grown (nextCapacity cfg s.this.edge)).mem, ⟨some s.mem.next, xs.length + 1, nextCapacity cfg s.this.edge⟩⟩) := by
  have hfin := hx.fin_eq
  have hn := nextCapacity_ok hg (hfit.mono (m := s.this.edge) (by omega))
  unfold pushBackT
  rw [bind_ok (full_ok hx), bind_ok (this_apply _)]
  have hdec : decide (s.this.edge = xs.length) = true := decide_eq_true hfull
  simp only [hdec, if_true]
  unfold reallocAndEmplaceBackT
  rw [bind_ok (this_apply _), bind_ok (assert_true (by simp; omega) _), bind_ok (allocate_ok hg hl hn.2 (by omega)),
    bind_ok (this_apply _), bind_ok (setThis_apply _ _)]
  simp only [deref]
  rw [bind_ok (pure_apply _ _), ← hfin]
  exact bind_err (constructAtT_throw (by exact h) _)

/-- C104 is violated by `push_back(const T&)` and `emplace_back` on a full vector, in every state: when the element's constructor
throws, all elements are out of reach.  The vector has new storage in which nothing was constructed, and a size of one more than before;
reading any of its elements is undefined, and so is its destructor.  The old storage with the elements in it belongs to no vector
any more. -/
theorem push_back_full_throws_violated [DecidableEq α] {e : Bool} {x : α} (hg : Good cfg) (hk : cfg.kind ≠ .triv) (hr : Reachable cfg w)
    (hl : Lucky cfg w.mem) (hx : w.Reads i xs) (hfull : w.capacity i = xs.length) (hfit : Fits cfg (xs.length + 1))
    (h : th w.mem.ctors x = true) :
    ∃ w', w.member i (noRet (pushBackT cfg th true e (.ext x))) = (.error (.throw "element"), w') ∧
      w'.size i = xs.length + 1 ∧ (∀ k, k ≤ xs.length → ∃ m, w'.look i (at' cfg k) = some (.error (.ub m))) ∧
      (∃ m, (wstep cfg w' (.destroy i)).1 = .error (.ub m)) ∧
      ∀ b, w.data i = some b → w'.mem.heap b = w.mem.heap b ∧ w'.mem.heap b ≠ none ∧ ∀ j, w'.data j ≠ some b := by
  obtain ⟨v, hv, hok, hf⟩ := hr.vec hg hx
  rw [capacity_eq hv] at hfull
  have e1 := pushBackT_full (s := ⟨w.mem, v⟩) (e := e) hg hl hok hfull hfit h
  have hn := nextCapacity_ok hg (hfit.mono (m := v.edge) (by omega))
  have hD : ((⟨w.mem, v⟩ : S α).grown (nextCapacity cfg v.edge)).mem.heap w.mem.next
      = some ⟨nextCapacity cfg v.edge, fun _ => .raw⟩ := by simp [S.grown, upd]
  refine ⟨_, member_throw hv e1, ?_, fun k hkl => ?_, ?_, fun b hb => ?_⟩
  · rw [size_eq (set_vec hv)]
  · rw [look_eq (set_vec hv)]
    unfold at'
    rw [bind_ok (this_apply _), bind_ok (assert_true (by simp; omega) _)]
    simp only [Vec.ptr]
    obtain ⟨m, hm⟩ := load_raw (s := ⟨((⟨w.mem, v⟩ : S α).grown (nextCapacity cfg v.edge)).mem,
      ⟨some w.mem.next, xs.length + 1, nextCapacity cfg v.edge⟩⟩) (i := k) hD (by simp only; omega) (by simp)
    exact ⟨m, by rw [hm]⟩
  · obtain ⟨s', hs'⟩ := destroyRange_raw (cfg := cfg) (s := ⟨((⟨w.mem, v⟩ : S α).grown (nextCapacity cfg v.edge)).mem,
      ⟨some w.mem.next, xs.length + 1, nextCapacity cfg v.edge⟩⟩) (i := 0) (n := xs.length + 1) (j := 0) hk hD
      (by simp only; omega) (by omega) rfl
    refine ⟨"destructor of an element that does not live", ?_⟩
    have : coreDestroy cfg ⟨((⟨w.mem, v⟩ : S α).grown (nextCapacity cfg v.edge)).mem,
        ⟨some w.mem.next, xs.length + 1, nextCapacity cfg v.edge⟩⟩
        = (.error (.ub "destructor of an element that does not live"), s') := by
      unfold coreDestroy
      rw [bind_ok (this_apply _)]
      exact bind_err hs'
    simp only [wstep]
    rw [member_throw (set_vec hv) this]
  · rw [data_eq hv] at hb
    have hlt : b < w.mem.next := VecOK.start_lt (m := w.mem) hok hf hb
    have hheap : ((⟨w.mem, v⟩ : S α).grown (nextCapacity cfg v.edge)).mem.heap b = w.mem.heap b := by
      simp only [S.grown, upd]; rw [if_neg (by omega)]
    refine ⟨hheap, ?_, fun j hj => ?_⟩
    · rw [hheap]
      rcases hok with ⟨hn, _⟩ | ⟨b', B, rfl, hB, _⟩
      · rw [hn] at hb; simp [nullVec] at hb
      · simp only [Option.some.injEq] at hb; subst hb; rw [hB]; simp
    · by_cases hji : j = i
      · subst hji
        rw [data_eq (set_vec hv)] at hj
        simp only [Option.some.injEq] at hj
        omega
      · have : w.data j = some b := by
          simp only [World.data] at hj ⊢
          rwa [List.getElem?_set_ne (Ne.symm hji)] at hj
        exact hji (storage_is_own hg hr this (by rw [data_eq hv]; exact hb))

example : ∃ w', (exWorld .mov).member 2 (noRet (pushBackT (exCfg .mov) bad true true (.ext 13))) = (.error (.throw "element"), w') ∧
      w'.size 2 = 3 ∧ (∀ k, k ≤ 2 → ∃ m, w'.look 2 (at' (exCfg .mov) k) = some (.error (.ub m))) ∧
      (∃ m, (wstep (exCfg .mov) w' (.destroy 2)).1 = .error (.ub m)) ∧
      ∀ b, (exWorld .mov).data 2 = some b → w'.mem.heap b = (exWorld .mov).mem.heap b ∧ w'.mem.heap b ≠ none ∧ ∀ j, w'.data j ≠ some b :=
  push_back_full_throws_violated exGood (by decide) exReach exLucky exReads.2.2 exSizes.2.2.1 (by unfold Fits exCfg; decide) rfl

/-! ### C104: `resize` -/

/-- C104 is violated by `resize` in every state with room: when the construction of the `k`-th new element throws, the vector has its
new size all the same, the elements from the `k`-th new one on were never constructed, and the destructor of the vector is undefined
for elements without a move constructor. -/
theorem resize_throws_violated [DecidableEq α] {n k : Nat} {x : α} (hg : Good cfg) (hk : cfg.kind.loops) (hr : Reachable cfg w)
    (hx : w.Reads i xs) (hn : xs.length < n) (hcap : n ≤ w.capacity i)
    (h : ThrowsAt th w.mem.ctors (List.replicate (n - xs.length) x) k) :
    ∃ w', w.member i (noRet (resizeT cfg th true n (.ext x))) = (.error (.throw "element"), w') ∧ w'.size i = n ∧
      (∃ m, w'.look i (at' cfg (xs.length + k)) = some (.error (.ub m))) ∧
      (cfg.kind = .cpy → ∃ m, (wstep cfg w' (.destroy i)).1 = .error (.ub m)) := by
  obtain ⟨v, hv, hok, _⟩ := hr.vec hg hx
  rw [capacity_eq hv] at hcap
  have hkl : k < n - xs.length := by simpa using h.lt
  rcases hok with ⟨hn', rfl⟩ | ⟨b, B, rfl, hB, hb⟩
  · rw [hn'] at hcap; simp [nullVec] at hcap; omega
  simp only at hcap
  have e1 : resizeT cfg th true n (.ext x) ⟨w.mem, ⟨some b, xs.length, B.len⟩⟩ = (.error (.throw "element"),
      (⟨w.mem, ⟨some b, n, B.len⟩⟩ : S α).put b (over B xs.length k (cellOf (List.replicate (n - xs.length) x))) k 0 0) := by
    unfold resizeT
    rw [bind_ok (this_apply _), if_pos hn, doIf_neg (by simpa using hcap), bind_ok (pure_apply _ _), bind_ok (this_apply _),
      bind_ok (setThis_apply _ _), doIf_pos rfl]
    unfold constructRangeT
    rw [bind_ok (assert_true (by rfl) _), bind_ok (assert_true (by simp; omega) _), constructLoopT_list]
    exact constructListT_throw hB (by simp; omega) h
  have ht := hb.tail (xs.length + k) (by omega) (by omega)
  have hd : ∀ y, B.cell (xs.length + k) ≠ .live y := by
    rcases hk with hk | hk
    · rw [hk] at ht; exact ht
    · rw [hk] at ht
      have ht : B.cell (xs.length + k) = .raw := ht
      intro y; rw [ht]; simp
  have hcell : (over B xs.length k (cellOf (List.replicate (n - xs.length) x))).cell (xs.length + k) = B.cell (xs.length + k) := by
    simp only [over]; rw [if_neg (by omega)]
  refine ⟨_, member_throw hv e1, ?_, ?_, fun hc => ?_⟩
  · rw [size_eq (set_vec hv)]
  · rw [look_eq (set_vec hv)]
    obtain ⟨m, hm⟩ := load_raw (s := (⟨w.mem, ⟨some b, n, B.len⟩⟩ : S α).put b
      (over B xs.length k (cellOf (List.replicate (n - xs.length) x))) k 0 0) (i := xs.length + k) (put_same _ _ _ _ _)
      (by simp; omega) (by rw [hcell]; exact hd)
    refine ⟨m, ?_⟩
    unfold at'
    rw [bind_ok (this_apply _), bind_ok (assert_true (by simp; omega) _)]
    simp only [Vec.ptr]
    exact congrArg (fun r => some r.1) hm
  · rw [hc] at ht
    obtain ⟨s', hs'⟩ := destroyRange_raw (cfg := cfg) (s := (⟨w.mem, ⟨some b, n, B.len⟩⟩ : S α).put b
      (over B xs.length k (cellOf (List.replicate (n - xs.length) x))) k 0 0) (i := 0) (n := n) (j := xs.length + k)
      (by rw [hc]; simp) (put_same _ _ _ _ _) (by simp; omega) (by omega) (by rw [Nat.zero_add, hcell]; exact ht)
    refine ⟨"destructor of an element that does not live", ?_⟩
    have : coreDestroy cfg ((⟨w.mem, ⟨some b, n, B.len⟩⟩ : S α).put b
        (over B xs.length k (cellOf (List.replicate (n - xs.length) x))) k 0 0)
        = (.error (.ub "destructor of an element that does not live"), s') := by
      unfold coreDestroy
      rw [bind_ok (this_apply _)]
      exact bind_err hs'
    simp only [wstep]
    rw [member_throw (set_vec hv) this]

example : ∃ w', (exWorld .mov).member 0 (noRet (resizeT (exCfg .mov) bad true 6 (.ext 13))) = (.error (.throw "element"), w') ∧
      w'.size 0 = 6 ∧ (∃ m, w'.look 0 (at' (exCfg .mov) (5 + 0)) = some (.error (.ub m))) ∧
      ((exCfg .mov).kind = .cpy → ∃ m, (wstep (exCfg .mov) w' (.destroy 0)).1 = .error (.ub m)) :=
  resize_throws_violated exGood (.inl rfl) exReach exReads.1 (by decide) (by rw [exSizes.1]; decide)
    ⟨fun j hj => absurd hj (Nat.not_lt_zero j), 13, rfl, rfl⟩

/-! ### C105: constructors -/

/-- C105 is violated by the copy constructor in every state: when the copy of an element throws there is no new vector, but the
elements copied so far are never destroyed and their storage is never freed.  What is left of the promise: all vectors keep their
contents. -/
theorem copy_ctor_throws_violated [DecidableEq α] {j k : Nat} {u : Vec} (hg : Good cfg) (hk : cfg.kind.loops) (hr : Reachable cfg w)
    (hl : Lucky cfg w.mem) (hu : w.vecs[j]? = some (some u)) (hx : w.Reads j xs) (h : ThrowsAt th w.mem.ctors xs k) :
    ∃ w', w.construct (coreCopyT cfg th u) = (.error (.throw "element"), w') ∧ w'.vecs = w.vecs ∧
      (∃ b, w.mem.heap b = none ∧ w'.mem.heap b ≠ none ∧ ∀ i, w'.data i ≠ some b) ∧
      w'.mem.ctors = w.mem.ctors + k ∧ w'.mem.dtors = w.mem.dtors ∧ ∀ i zs, w.Reads i zs → w'.Reads i zs := by
  obtain ⟨v, hv, hok, hf⟩ := hr.vec hg hx
  rw [hu] at hv
  obtain rfl : u = v := by simpa using hv
  have hlt := h.lt
  have hvb := hok.bound
  rcases hok with ⟨_, rfl⟩ | ⟨b, B, rfl, hB, hb⟩
  · simp at hlt
  simp only at hvb
  have hfit : xs.length * cfg.size < 2 ^ 63 := Nat.lt_of_le_of_lt (Nat.mul_le_mul_right _ hb.le) hvb
  have hbn : b < w.mem.next := VecOK.start_lt (m := w.mem) (v := ⟨some b, xs.length, B.len⟩) (.inr ⟨b, B, rfl, hB, hb⟩) hf rfl
  let s1 : S α := ⟨((⟨w.mem, nullVec⟩ : S α).grown xs.length).mem, ⟨some w.mem.next, 0, xs.length⟩⟩
  have hD : s1.mem.heap w.mem.next = some ⟨xs.length, fun _ => .raw⟩ := by simp [s1, S.grown, upd]
  have hB1 : s1.mem.heap b = some B := by
    simp only [s1, S.grown, upd]; rw [if_neg (by omega), hB]
  have hne : w.mem.next ≠ b := by omega
  have e1 : coreCopyT cfg th ⟨some b, xs.length, B.len⟩ ⟨w.mem, nullVec⟩ = (.error (.throw "element"),
      s1.put w.mem.next (over ⟨xs.length, fun _ => .raw⟩ 0 k (cellOf xs)) k 0 0) := by
    unfold coreCopyT
    rw [if_pos (Nat.zero_lt_of_lt hlt), bind_ok (allocate_ok hg hl hfit (Nat.zero_lt_of_lt hlt)), bind_ok (this_apply _)]
    refine bind_err ?_
    unfold copyRangeT
    rw [bind_ok (assert_true (by rfl) _), bind_ok (assert_true (by simp [Vec.startPtr]; exact hne) _),
      bind_ok (assert_true (by simp; omega) _), loops_relocatable hk]
    exact copyLoopT_throw (s := s1) hne hD hB1 (by simp) (by have := hb.le; omega)
      (fun t ht => by rw [Nat.zero_add]; exact hb.live t ht) h
  refine ⟨⟨(s1.put w.mem.next (over ⟨xs.length, fun _ => .raw⟩ 0 k (cellOf xs)) k 0 0).mem, w.vecs⟩,
    by simp only [World.construct, e1], rfl,
    ⟨w.mem.next, hf _ (Nat.le_refl _), by simp only; rw [put_same]; simp, fun i hi => ?_⟩, ?_, ?_, fun i zs hz => ?_⟩
  · have hi : w.data i = some w.mem.next := hi
    simp only [World.data] at hi
    cases hc : w.vecs[i]? with
    | none => rw [hc] at hi; simp at hi
    | some o =>
      cases o with
      | none => rw [hc] at hi; simp at hi
      | some v =>
        rw [hc] at hi
        obtain ⟨ys, hr'⟩ := hr.reach
        have hw := hr'.winv hg
        have hrel := hw.rel i
        rw [hc] at hrel
        obtain ⟨zs, hzs, hvok⟩ : ∃ zs, ys[i]? = some (some zs) ∧ VecOK cfg w.mem v zs := hw.contents hc
        have := hvok.start_lt hf hi
        omega
  · rfl
  · rfl
  · obtain ⟨v, hv, hvok, _⟩ := hr.vec hg hz
    have hok' : VecOK cfg (s1.put w.mem.next (over ⟨xs.length, fun _ => .raw⟩ 0 k (cellOf xs)) k 0 0).mem v zs := by
      refine hvok.congr (fun c hc => ?_)
      have := hvok.start_lt hf hc
      rw [put_other (by omega)]
      simp only [s1, S.grown, upd]
      rw [if_neg (by omega)]
    unfold World.Reads World.read
    simp only [World.look, hv]
    rw [hok'.toList_ok]

example : ∃ w', (exWorld .mov).construct (coreCopyT (exCfg .mov) (fun _ v => v == 9) ⟨(exWorld .mov).data 0, 5, 6⟩)
      = (.error (.throw "element"), w') ∧ w'.vecs = (exWorld .mov).vecs ∧
      (∃ b, (exWorld .mov).mem.heap b = none ∧ w'.mem.heap b ≠ none ∧ ∀ i, w'.data i ≠ some b) ∧
      w'.mem.ctors = (exWorld .mov).mem.ctors + 2 ∧ w'.mem.dtors = (exWorld .mov).mem.dtors ∧
      ∀ i zs, (exWorld .mov).Reads i zs → w'.Reads i zs :=
  copy_ctor_throws_violated exGood (.inl rfl) exReach exLucky (by decide +kernel) exReads.1
    ⟨by decide +kernel, 9, rfl, rfl⟩

/-- C105, partial: when the copy constructor throws there is no new vector and all others keep their contents.  Missing: the storage and
the elements copied so far are lost (`copy_ctor_throws_violated`), and the other constructors (the theorems below). -/
theorem copy_ctor_throws_partial [DecidableEq α] {j k : Nat} {u : Vec} (hg : Good cfg) (hk : cfg.kind.loops) (hr : Reachable cfg w)
    (hl : Lucky cfg w.mem) (hu : w.vecs[j]? = some (some u)) (hx : w.Reads j xs) (h : ThrowsAt th w.mem.ctors xs k) :
    ∃ w', w.construct (coreCopyT cfg th u) = (.error (.throw "element"), w') ∧ w'.vecs.length = w.vecs.length ∧
      ∀ i zs, w.Reads i zs → w'.Reads i zs := by
  obtain ⟨w', h1, h2, _, _, _, h3⟩ := copy_ctor_throws_violated hg hk hr hl hu hx h
  exact ⟨w', h1, by rw [h2], h3⟩

/-- C105 is violated by `stdb_vector(n)` and `stdb_vector(n, value)` in every state: when the construction of an element throws, the
behaviour is undefined, because the base class destroys all `n` elements. -/
theorem ctor_sized_throws_violated {n k : Nat} {x : α} (hg : Good cfg) (hk : cfg.kind ≠ .triv) (hl : Lucky cfg w.mem)
    (hfit : Fits cfg n) (h : ThrowsAt th w.mem.ctors (List.replicate n x) k) :
    ∃ m, (w.construct (ctorSizedT cfg th n (.ext x))).1 = .error (.ub m) := by
  have hkn : k < n := by simpa using h.lt
  let s1 : S α := ⟨((⟨w.mem, nullVec⟩ : S α).grown n).mem, ⟨some w.mem.next, n, n⟩⟩
  have hD : s1.mem.heap w.mem.next = some ⟨n, fun _ => .raw⟩ := by simp [s1, S.grown, upd]
  have e0 : coreSized cfg n n ⟨w.mem, nullVec⟩ = (.ok (), s1) := by
    unfold coreSized
    rw [bind_ok (assert_true (by simp) _), if_pos (by omega), bind_ok (allocate_ok hg hl hfit.lt (by omega)), bind_ok (this_apply _)]
    rfl
  have e1 : constructRangeT cfg th ⟨some w.mem.next, 0⟩ n (.ext x) s1 = (.error (.throw "element"),
      s1.put w.mem.next (over ⟨n, fun _ => .raw⟩ 0 k (cellOf (List.replicate n x))) k 0 0) := by
    unfold constructRangeT
    rw [bind_ok (assert_true (by rfl) _), bind_ok (assert_true (by simp; omega) _), constructLoopT_list]
    exact constructListT_throw hD (by simp) h
  obtain ⟨s2, e2⟩ : ∃ s2, coreDestroy cfg (s1.put w.mem.next (over ⟨n, fun _ => .raw⟩ 0 k (cellOf (List.replicate n x))) k 0 0)
      = (.error (.ub "destructor of an element that does not live"), s2) := by
    obtain ⟨s', hs'⟩ := destroyRange_raw (cfg := cfg)
      (s := s1.put w.mem.next (over ⟨n, fun _ => .raw⟩ 0 k (cellOf (List.replicate n x))) k 0 0)
      (i := 0) (n := n) (j := k) hk (put_same _ _ _ _ _) (by simp) hkn (by simp [over])
    refine ⟨s', ?_⟩
    unfold coreDestroy
    rw [bind_ok (this_apply _)]
    exact bind_err hs'
  refine ⟨"destructor of an element that does not live", ?_⟩
  have : ctorSizedT cfg th n (.ext x) ⟨w.mem, nullVec⟩ = (.error (.ub "destructor of an element that does not live"), s2) := by
    unfold ctorSizedT
    rw [bind_ok e0, bind_ok (this_apply _), doIf_pos (by simp; omega)]
    have e1' : constructRangeT cfg th s1.this.startPtr n (.ext x) s1 = _ := e1
    simp only [withBase, e1', e2]
  simp only [World.construct, this]

example : ∃ m, ((exWorld .mov).construct (ctorSizedT (exCfg .mov) (fun c _ => c == (exWorld .mov).mem.ctors + 2) 4 (.ext 7))).1
    = .error (.ub m) :=
  ctor_sized_throws_violated (k := 2) exGood (by decide) exLucky (by unfold Fits exCfg; decide)
    ⟨by decide +kernel, 7, rfl, by simp⟩

/-- C105 is violated by `stdb_vector(first, last)` and the initializer list in every state: when the copy of an element throws, the
behaviour is undefined, because the base class destroys from the first element on without knowing the end. -/
theorem ctor_range_throws_violated {k : Nat} {src : Source α} (hg : Good cfg) (hk : cfg.kind.loops) (hl : Lucky cfg w.mem)
    (hfit : Fits cfg src.list.length) (h : ThrowsAt th w.mem.ctors src.list k) :
    ∃ m, (w.construct (ctorRangeT cfg th src)).1 = .error (.ub m) := by
  have hkn := h.lt
  let n := src.list.length
  let s1 : S α := ⟨((⟨w.mem, nullVec⟩ : S α).grown n).mem, ⟨some w.mem.next, 0, n⟩⟩
  have hD : s1.mem.heap w.mem.next = some ⟨n, fun _ => .raw⟩ := by simp [s1, S.grown, upd]
  have hne : src.list ≠ [] := by rintro e; rw [e] at hkn; simp at hkn
  have e1 : copyFromIteratorT cfg th ⟨some w.mem.next, 0⟩ src s1 = (.error (.throw "element"),
      s1.put w.mem.next (over ⟨n, fun _ => .raw⟩ 0 k (cellOf src.list)) k 0 0) := by
    unfold copyFromIteratorT
    rw [bind_ok (assert_true (by rfl) _), bind_ok (assert_true (by simpa using hne) _), loops_relocatable hk]
    exact constructListT_throw hD (by simp [n]) h
  obtain ⟨m, s2, e2⟩ := destroyForeign_ub (cfg := cfg)
    (s := s1.put w.mem.next (over ⟨n, fun _ => .raw⟩ 0 k (cellOf src.list)) k 0 0) (loops_not_triv hk)
  have hmax : src.list.length ≤ maxSize cfg := by
    unfold maxSize
    rw [Nat.le_div_iff_mul_le hg.1]
    have := hfit.lt
    omega
  refine ⟨m, ?_⟩
  have : ctorRangeT cfg th src ⟨w.mem, nullVec⟩ = (.error (.ub m), s2) := by
    unfold ctorRangeT
    rw [bind_ok (setThis_apply _ _), bind_ok (assert_true (by simpa using hmax) _), if_pos (by omega),
      bind_ok (allocate_ok (s := ⟨w.mem, nullVec⟩) hg hl hfit.lt (by omega)), bind_ok (this_apply _)]
    refine bind_err ?_
    have e1' : copyFromIteratorT cfg th s1.this.startPtr src s1 = _ := e1
    have : withBase (copyFromIteratorT cfg th s1.this.startPtr src) (destroyForeign cfg) s1 = (.error (.ub m), s2) := by
      simp only [withBase, e1', e2]
    exact this
  simp only [World.construct, this]

example : ∃ m, ((exWorld .mov).construct (ctorRangeT (exCfg .mov) bad (.contiguous [4, 13, 5]))).1 = .error (.ub m) :=
  ctor_range_throws_violated (k := 1) exGood (.inl rfl) exLucky (by unfold Fits exCfg; decide) ⟨by decide +kernel, 13, rfl, rfl⟩

/-! ### C104: `insert`, `assign`, `operator=`, and elements without a move constructor -/

/-- A program with a vector of the given elements and room for eight, and another vector `[4, 13, 6]`. -/
def tWorld (k : Kind) (l : List Nat) : World Nat :=
  vEnd k [.ctorRange (.contiguous l), .call 0 (.reserve 8), .ctorRange (.contiguous [4, 13, 6])]

/-- Call a member function of vector 0; the construction of 13 throws. -/
def tCall (k : Kind) (l : List Nat) (x : Cfg Nat → Throws Nat → V Nat Ret) : Except Fault Ret × World Nat :=
  (tWorld k l).member 0 (x (vCfg k true) bad)

/-- The destructor of vector 0 afterwards. -/
def tDestroy (k : Kind) (l : List Nat) (x : Cfg Nat → Throws Nat → V Nat Ret) : Except Fault Ret :=
  (wstep (vCfg k true) (tCall k l x).2 (.destroy 0)).1

/-- The values in the storage of vector 0 afterwards, the first `n`. -/
def tCells (k : Kind) (l : List Nat) (x : Cfg Nat → Throws Nat → V Nat Ret) (n : Nat) : Option (List (Cell Nat)) :=
  ((tCall k l x).2.data 0).bind (fun b => ((tCall k l x).2.mem.heap b).map (fun B => (List.range n).map B.cell))

/-- C104 is violated by `insert(pos, const T&)` in the middle: elements with a move constructor have been moved when the exception
comes.  The vector `[1, 2, 3]` still has three elements, of which the second has been moved from, and 3 is behind its end. -/
theorem insert_throws_violated :
    let x := fun cfg th => numRet (insertOneT cfg th true false 1 (.ext 13))
    (tCall .mov [1, 2, 3] x).1 = .error (.throw "element") ∧ (tCall .mov [1, 2, 3] x).2.size 0 = 3 ∧
      tCells .mov [1, 2, 3] x 4 = some [.live 1, .moved, .live 2, .live 3] ∧ tDestroy .mov [1, 2, 3] x = .ok .unit := by
  decide +kernel

/-- C104 is violated by all forms of `insert` in the middle for elements without a move constructor: they leave a hole, and the
destructor of the vector is undefined. -/
theorem insert_hole_throws_violated :
    (let x := fun cfg th => numRet (insertOneT cfg th true false 1 (.ext 13))
     (tCall .cpy [1, 2, 3] x).1 = .error (.throw "element") ∧
       tDestroy .cpy [1, 2, 3] x = .error (.ub "destructor of an element that does not live")) ∧
    (let x := fun cfg th => numRet (insertNT cfg th true 1 2 (.ext 13))
     (tCall .cpy [1, 2, 3] x).1 = .error (.throw "element") ∧
       tDestroy .cpy [1, 2, 3] x = .error (.ub "destructor of an element that does not live")) ∧
    (let x := fun cfg th => numRet (insertRangeT cfg th true 1 (.contiguous [4, 13]))
     (tCall .cpy [1, 2, 3] x).1 = .error (.throw "element") ∧
       tDestroy .cpy [1, 2, 3] x = .error (.ub "destructor of an element that does not live")) := by
  decide +kernel

/-- C104 is violated by both forms of `assign`: the old elements are destroyed first, and the destructor of the vector destroys
elements that were not constructed. -/
theorem assign_throws_violated (k : Kind) (hk : k.loops) :
    (let x := fun cfg th => noRet (assignNT cfg th 2 (.ext 13))
     (tCall k [1, 2, 3] x).1 = .error (.throw "element") ∧
       tDestroy k [1, 2, 3] x = .error (.ub "destructor of an element that does not live")) ∧
    (let x := fun cfg th => noRet (assignRangeT cfg th (.contiguous [4, 13]))
     (tCall k [1, 2, 3] x).1 = .error (.throw "element") ∧ (tCall k [1, 2, 3] x).2.size 0 = 3 ∧
       tDestroy k [1, 2, 3] x = .error (.ub "destructor of an element that does not live")) := by
  rcases hk with rfl | rfl <;> decide +kernel

/-- C104 is violated by copy assignment in the same way: here from the vector `[4, 13, 6]`. -/
theorem copy_assign_throws_violated (k : Kind) (hk : k.loops) :
    let x := fun cfg th => noRet (coreCopyAssignT cfg th ⟨(tWorld k [1, 2, 3]).data 1, 3, 3⟩)
    (tCall k [1, 2, 3] x).1 = .error (.throw "element") ∧ (tCall k [1, 2, 3] x).2.size 0 = 3 ∧
      (tCall k [1, 2, 3] x).2.read 1 = some (.ok [4, 13, 6]) ∧
      tDestroy k [1, 2, 3] x = .error (.ub "destructor of an element that does not live") := by
  rcases hk with rfl | rfl <;> decide +kernel

/-- C104 is violated for elements without a move constructor by functions that construct no new element: an exception in `reserve`
ends the program, and after one in `erase` the destructor of the vector is undefined. -/
theorem copying_throws_violated :
    (tCall .cpy [1, 13] (fun _ _ => pure .unit)).1 = .ok .unit ∧
    (tCall .cpy [1, 13] (fun cfg th => noRet (reserveT cfg th 20))).1 = .error (.throw "terminate") ∧
    (let x := fun cfg th => numRet (eraseT cfg th 0)
     (tCall .cpy [1, 2, 13] x).1 = .error (.throw "element") ∧
       tDestroy .cpy [1, 2, 13] x = .error (.ub "destructor of an element that does not live")) := by
  decide +kernel

end Verif.Vector
