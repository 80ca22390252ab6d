import Verif.Vector.Props2

/-!
The properties of vectors: failed allocations (C75, C80).
-/

namespace Verif.Vector

open V

variable {α β : Type} [DecidableEq α] {cfg : Cfg α} {w : World α} {i : Nat} {xs : List α}

/-! ### C75 -/

/-- The next allocation fails. -/
def Refused (cfg : Cfg α) (m : Mem α) : Prop := ∀ n, cfg.malloc m.next n = false

/-- Nothing has happened but one more call of `malloc`. -/
def World.asked (w : World α) : World α := { w with mem := { w.mem with next := w.mem.next + 1 } }

omit [DecidableEq α] in
theorem malloc_refused {s : S α} {n : Nat} (h : cfg.malloc s.mem.next (mul64 n cfg.size) = false) :
    malloc cfg n s = (.ok none, { s with mem := { s.mem with next := s.mem.next + 1 } }) := by
  unfold malloc
  rw [if_neg (by rw [h]; simp)]

omit [DecidableEq α] in
theorem realloc_refused {s : S α} {n : Nat} (h : cfg.malloc s.mem.next (mul64 n cfg.size) = false) (hx : VecOK cfg s.mem s.this xs)
    (hs : s.this.start ≠ none) (hn : xs.length ≤ n) (h0 : 0 < n) :
    reallocWithOldData cfg n s = (.error (.throw "bad_alloc"), { s with mem := { s.mem with next := s.mem.next + 1 } }) := by
  have hfin := hx.fin_eq
  unfold reallocWithOldData
  rw [bind_ok (this_apply _), bind_ok (assert_true (by rw [hfin]; simpa using hn) _)]
  cases hst : s.this.start with
  | none => exact absurd hst hs
  | some b =>
    simp only
    rw [bind_ok (assert_true (by simpa using h0) _), bind_ok (malloc_refused h)]
    rfl

omit [DecidableEq α] in
theorem allocate_refused {s : S α} {n : Nat} (h : Refused cfg s.mem) (h0 : 0 < n) :
    ∃ s', allocate cfg n s = (.error (.throw "bad_alloc"), s') ∧ s'.mem = { s.mem with next := s.mem.next + 1 } := by
  unfold allocate
  rw [bind_ok (assert_true (by simpa using h0) _), bind_ok (malloc_refused (h _)), bind_ok (this_apply _)]
  exact ⟨_, rfl, rfl⟩

/-- Operations that need more room than there is, and get it by moving the elements to new storage. -/
def Op.needsRoom (cap n : Nat) : Op α → Bool
  | .reserve m => decide (cap < m)
  | .resize m => decide (cap < m)
  | .resizeValue m _ => decide (cap < m)
  | .resizeRaw l => decide (cap < n + l.length)
  | .insert safe _ _ _ => safe && decide (n = cap)
  | .insertN safe _ m _ => safe && decide (cap < n + m)
  | .insertRange safe _ src => safe && decide (cap < n + src.list.length)
  | .fill safe m _ => safe && decide (cap < n + m)
  | .shrinkToFit => decide (0 < n) && decide (n < cap)
  | _ => false

omit [DecidableEq α] in
theorem member_err {v : Vec} {x : V α Ret} {e : Fault} (hv : w.vecs[i]? = some (some v))
    (h : x ⟨w.mem, v⟩ = (.error e, ⟨{ w.mem with next := w.mem.next + 1 }, v⟩)) :
    w.member i x = (.error e, w.asked) := by
  simp only [World.member, hv, h, World.asked, set_self hv]

omit [DecidableEq α] in
theorem WInv.asked {ys : Contents α} (h : WInv cfg w ys) : WInv cfg w.asked ys :=
  ⟨h.rel, h.sep, h.owned, fun b hb => h.fresh b (Nat.le_of_succ_le hb), h.bal, h.cpy⟩

omit [DecidableEq α] in
theorem reserve_refused {s : S α} {n : Nat} (h : Refused cfg s.mem) (hx : VecOK cfg s.mem s.this xs)
    (hs : s.this.start ≠ none) (hn : s.this.edge < n) :
    reserve cfg n s = (.error (.throw "bad_alloc"), { s with mem := { s.mem with next := s.mem.next + 1 } }) := by
  have hle := hx.fin_le
  unfold reserve
  rw [bind_ok (this_apply _), doIf_pos (by simpa using hn)]
  exact realloc_refused (h _) hx hs (by omega) (by omega)

omit [DecidableEq α] in
theorem makeRoom_refused {s : S α} {pos n : Nat} (hg : Good cfg) (h : Refused cfg s.mem) (hx : VecOK cfg s.mem s.this xs)
    (hs : s.this.start ≠ none) (hn : s.this.edge < xs.length + n) (hc : Fits cfg (xs.length + n)) :
    makeRoom cfg true pos n s
      = (.error (.throw "bad_alloc"), { s with mem := { s.mem with next := s.mem.next + 1 } }) := by
  have hfin := hx.fin_eq
  have h64 : xs.length + n < M64 := by have := Fits.lt_num hg hc; omega
  unfold makeRoom
  rw [bind_ok (this_apply _)]
  refine bind_err ?_
  rw [hfin, add64_of_lt h64, doIf_pos (by simpa using hn), bind_ok (computeNewCapacity_ok hn)]
  exact reserve_refused h hx hs (by omega)

theorem step_refused {s : S α} {op : Op α} (hg : Good cfg) (h : Refused cfg s.mem) (hx : VecOK cfg s.mem s.this xs)
    (hs : s.this.start ≠ none) (hc : Requires cfg s.this.edge xs op)
    (hn : op.needsRoom s.this.edge xs.length = true) :
    step cfg op s = (.error (.throw "bad_alloc"), { s with mem := { s.mem with next := s.mem.next + 1 } }) := by
  have hfin := hx.fin_eq
  have hle := hx.fin_le
  unfold step
  rw [bind_ok (this_apply _)]
  cases op with
  | reserve m =>
    simp only [Op.needsRoom, decide_eq_true_eq] at hn
    exact bind_err (reserve_refused h hx hs hn)
  | resize m =>
    simp only [Op.needsRoom, decide_eq_true_eq] at hn
    refine bind_err ?_
    unfold resize
    rw [bind_ok (this_apply _), if_pos (by omega)]
    refine bind_err ?_
    rw [doIf_pos (by simpa using hn)]
    exact realloc_refused (h _) hx hs (by omega) (by omega)
  | resizeValue m a =>
    simp only [Op.needsRoom, decide_eq_true_eq] at hn
    refine bind_err ?_
    unfold resize
    rw [bind_ok (this_apply _), if_pos (by omega)]
    refine bind_err ?_
    rw [doIf_pos (by simpa using hn)]
    exact realloc_refused (h _) hx hs (by omega) (by omega)
  | resizeRaw l =>
    simp only [Op.needsRoom, decide_eq_true_eq] at hn
    refine bind_err (bind_err ?_)
    unfold resize
    rw [bind_ok (this_apply _), if_pos (by omega)]
    refine bind_err ?_
    rw [doIf_pos (by rw [hfin]; simpa using hn)]
    exact realloc_refused (h _) hx hs (by omega) (by omega)
  | insert safe e pos a =>
    simp only [Op.needsRoom, Bool.and_eq_true, decide_eq_true_eq] at hn
    obtain ⟨rfl, hn⟩ := hn
    obtain ⟨hp, _, hc⟩ := hc
    simp only [if_true] at hc
    refine bind_err ?_
    unfold insertOne
    rw [bind_ok (this_apply _), bind_ok (assert_true (by rw [hfin]; simp [hp]) _)]
    refine bind_err ?_
    rw [doIf_pos rfl, bind_ok (full_ok hx), doIf_pos (by simpa using hn.symm)]
    have := nextCapacity_ok hg (hc.mono (m := s.this.edge) (by omega))
    exact reserve_refused h hx hs this.1
  | insertN safe pos n a =>
    simp only [Op.needsRoom, Bool.and_eq_true, decide_eq_true_eq] at hn
    obtain ⟨rfl, hn⟩ := hn
    obtain ⟨hp, h0, _, hc⟩ := hc
    simp only [if_true] at hc
    refine bind_err ?_
    unfold insertN
    rw [bind_ok (assert_true (by simpa using h0) _), bind_ok (this_apply _),
      bind_ok (assert_true (by rw [hfin]; simp [hp]) _)]
    exact bind_err (makeRoom_refused hg h hx hs hn hc)
  | insertRange safe pos src =>
    simp only [Op.needsRoom, Bool.and_eq_true, decide_eq_true_eq] at hn
    obtain ⟨rfl, hn⟩ := hn
    obtain ⟨hp, _, hc⟩ := hc
    simp only [if_true] at hc
    refine bind_err ?_
    unfold insertRange
    simp only
    rw [if_neg (by omega)]
    exact bind_err (makeRoom_refused hg h hx hs hn hc)
  | fill safe m l =>
    simp only [Op.needsRoom, Bool.and_eq_true, decide_eq_true_eq] at hn
    obtain ⟨rfl, hn⟩ := hn
    obtain ⟨_, hc⟩ := hc
    simp only [if_true] at hc
    have h64 : m + xs.length < M64 := by have := Fits.lt_num hg hc; omega
    refine bind_err ?_
    unfold fill
    rw [bind_ok (this_apply _)]
    refine bind_err ?_
    rw [hfin, add64_of_lt h64, doIf_pos (by simp; omega),
      bind_ok (computeNewCapacity_ok (by omega))]
    exact realloc_refused (h _) hx hs (by omega) (by omega)
  | shrinkToFit =>
    simp only [Op.needsRoom, Bool.and_eq_true, decide_eq_true_eq] at hn
    refine bind_err ?_
    unfold shrinkToFit
    rw [bind_ok (this_apply _), if_neg (by omega), if_neg (by omega)]
    exact realloc_refused (h _) hx hs (by omega) (by omega)
  | _ => simp [Op.needsRoom] at hn

/-- C75 (partial): an operation other than `push_back`, `emplace_back`, `assign`, copy assignment and
`get_writebuffer` that needs more room than a vector with storage has throws `bad_alloc` when there is no
memory, and nothing has changed: no vector, no element, no block.  Missing are the other operations, for which it
is false (`push_back_bad_alloc_violated`, `assign_bad_alloc_violated`, `copy_assign_bad_alloc_violated`), and
vectors without storage, for which it is false as well (`reserve_bad_alloc_violated`). -/
theorem bad_alloc_partial {op : Op α} (hg : Good cfg) (hr : Reachable cfg w) (hx : w.Reads i xs)
    (hd : w.data i ≠ none) (hc : Requires cfg (w.capacity i) xs op)
    (hn : op.needsRoom (w.capacity i) xs.length = true) (hf : Refused cfg w.mem) :
    wstep cfg w (.call i op) = (.error (.throw "bad_alloc"), w.asked) := by
  obtain ⟨v, hv, hok, _⟩ := hr.vec hg hx
  rw [capacity_eq hv] at hc hn
  rw [data_eq hv] at hd
  exact member_err hv (step_refused (s := ⟨w.mem, v⟩) hg hf hok hd hc hn)

/-- C75: after such a failure the program can go on: every vector reads as before, and every operation called
within its contract does what it is specified to do. -/
theorem bad_alloc_goes_on {op : Op α} (hg : Good cfg) (hr : Reachable cfg w) (hx : w.Reads i xs) :
    (∀ j, w.asked.read j = w.read j) ∧
    (Lucky cfg w.asked.mem → InContract cfg (w.capacity i) xs op →
      ∃ r w', wstep cfg w.asked (.call i op) = (.ok r, w') ∧ w'.Reads i (specStep cfg.dflt xs op) ∧
        ∀ j, j ≠ i → w'.read j = w.read j) := by
  obtain ⟨ys, hr'⟩ := hr.reach
  have hw := hr'.winv hg
  have ha := hw.asked
  refine ⟨fun j => by rw [ha.read, hw.read], fun hl hc => ?_⟩
  have hy := hw.reads_iff.1 hx
  obtain ⟨r, w', e, h1, _⟩ := wstep_ok (op := .call i op) hg hl ha ⟨xs, hy, hc⟩
  refine ⟨r, w', e, ?_, fun j hj => ?_⟩
  · rw [h1.reads_iff]
    simp only [specWorld, hy, List.getElem?_set_self (lt_of_getElem? hy)]
    rfl
  · rw [h1.read, hw.read]
    simp only [specWorld]
    rw [List.getElem?_set_ne (Ne.symm hj)]

/-- C75: a constructor that gets no memory throws `bad_alloc`, there is no new vector, and nothing else has
changed. -/
theorem ctor_bad_alloc {op : WOp α} (hg : Good cfg) (hr : Reachable cfg w) (hf : Refused cfg w.mem)
    (ho : (∃ n, op = .ctorSized n ∧ 0 < n) ∨ (∃ n x, op = .ctorValue n x ∧ 0 < n) ∨
      (∃ src, op = .ctorRange src ∧ src.list ≠ [] ∧ Fits cfg src.list.length) ∨
      (∃ j xs, op = .copyCtor j ∧ w.Reads j xs ∧ xs ≠ [])) :
    wstep cfg w op = (.error (.throw "bad_alloc"), w.asked) := by
  have key : ∀ {x : V α Unit}, (∃ s', x ⟨w.mem, nullVec⟩ = (.error (.throw "bad_alloc"), s') ∧
      s'.mem = { w.mem with next := w.mem.next + 1 }) →
      w.construct x = (.error (.throw "bad_alloc"), w.asked) := by
    rintro x ⟨s', e, hm⟩
    simp only [World.construct, e, hm, World.asked]
  have sized : ∀ n (y : Ref α), 0 < n → ∃ s', ctorSized cfg n y ⟨w.mem, nullVec⟩ = (.error (.throw "bad_alloc"), s') ∧
      s'.mem = { w.mem with next := w.mem.next + 1 } := by
    intro n y h0
    obtain ⟨s', e, hm⟩ := allocate_refused (cfg := cfg) (s := ⟨w.mem, nullVec⟩) hf h0
    refine ⟨s', ?_, hm⟩
    unfold ctorSized
    refine bind_err ?_
    unfold coreSized
    rw [bind_ok (assert_true (by simp) _), if_pos h0]
    exact bind_err e
  rcases ho with ⟨n, rfl, h0⟩ | ⟨n, x, rfl, h0⟩ | ⟨src, rfl, h0, hF⟩ | ⟨j, xs, rfl, hx, h0⟩
  · exact key (sized n _ h0)
  · exact key (sized n _ h0)
  · refine key ?_
    have h0 : 0 < src.list.length := List.length_pos_iff.2 h0
    obtain ⟨s', e, hm⟩ := allocate_refused (cfg := cfg) (s := ⟨w.mem, nullVec⟩) hf h0
    refine ⟨s', ?_, hm⟩
    unfold ctorRange
    rw [bind_ok (setThis_apply _ _)]
    have hmax : src.list.length ≤ maxSize cfg := by
      unfold maxSize
      rw [Nat.le_div_iff_mul_le hg.1]
      have := hF.lt
      omega
    rw [bind_ok (assert_true (by simpa using hmax) _), if_pos h0]
    exact bind_err e
  · obtain ⟨v, hv, hok, _⟩ := hr.vec hg hx
    have hfin := hok.fin_eq
    have h0 : 0 < v.fin := by rw [hfin]; exact List.length_pos_iff.2 h0
    simp only [wstep, hv]
    refine key ?_
    obtain ⟨s', e, hm⟩ := allocate_refused (cfg := cfg) (s := ⟨w.mem, nullVec⟩) hf h0
    refine ⟨s', ?_, hm⟩
    unfold coreCopy
    rw [if_pos h0]
    exact bind_err e

/-- C80 (partial): `reserve(n)` on a vector with storage throws `bad_alloc` and changes nothing when the elements would
take half of the address space or more, provided the number of bytes fits in 64 bits. Missing are larger `n`, for which it
is false (`reserve_huge_violated`). That `malloc` refuses such requests is assumed. -/
theorem reserve_too_big_partial {n : Nat} (hg : Good cfg) (hr : Reachable cfg w) (hx : w.Reads i xs) (hd : w.data i ≠ none)
    (hm : ∀ b, 2 ^ 63 ≤ b → cfg.malloc w.mem.next b = false) (h1 : 2 ^ 63 ≤ n * cfg.size) (h2 : n * cfg.size < 2 ^ 64) :
    wstep cfg w (.call i (.reserve n)) = (.error (.throw "bad_alloc"), w.asked) := by
  obtain ⟨v, hv, hok, _⟩ := hr.vec hg hx
  rw [data_eq hv] at hd
  have hb := hok.bound
  have hle := hok.fin_le
  have hn : v.edge < n := by
    refine Nat.lt_of_not_le fun h => ?_
    have := Nat.mul_le_mul_right cfg.size h
    omega
  show w.member i (step cfg (.reserve n)) = _
  refine member_err hv ?_
  unfold step
  rw [bind_ok (this_apply _)]
  refine bind_err ?_
  unfold reserve
  rw [bind_ok (this_apply _), doIf_pos (by simpa using hn)]
  refine realloc_refused (hm _ ?_) hok hd (by have := hok.fin_eq; omega) (by omega)
  rw [mul64_of_lt h2]
  exact h1

/-! Examples: memory runs out after the first allocations of the example program. -/

/-- Only the first `n` calls of `malloc` succeed. -/
def exShort (k : Kind) (n : Nat) : Cfg Nat := ⟨k, 16, true, fun i _ => decide (i < n), 0, false⟩

theorem exShort_malloc {k : Kind} {n i b : Nat} : (exShort k n).malloc i b = decide (i < n) := rfl

/-- A vector with two elements and no room for a third, and a vector with three. -/
def exShortProg : List (WOp Nat) := [.ctorValue 2 7, .ctorValue 3 1]

/-- Its final state. -/
def exShortWorld (k : Kind) : World Nat := (run (exShort k 2) World.empty exShortProg).2

theorem exShortGood : Good (exShort .mov 2) := by unfold Good exShort; decide

theorem exShortReach : Reachable (exShort .mov 2) (exShortWorld .mov) :=
  ⟨exShortProg, ⟨fun _ _ => by rw [exShort_malloc]; decide +kernel, by unfold WContract Fits exShort; decide,
    fun _ _ => by rw [exShort_malloc]; decide +kernel, by unfold WContract Fits exShort; decide, trivial⟩, rfl⟩

theorem exShortRefused : Refused (exShort .mov 2) (exShortWorld .mov).mem := fun _ => by
  rw [exShort_malloc]; decide +kernel

theorem exShortReads : (exShortWorld .mov).Reads 0 [7, 7] ∧ (exShortWorld .mov).Reads 1 [1, 1, 1] := by
  unfold World.Reads; decide +kernel

example : wstep (exShort .mov 2) (exShortWorld .mov) (.call 0 (.insert true false 1 (.ext 5)))
    = (.error (.throw "bad_alloc"), (exShortWorld .mov).asked) :=
  bad_alloc_partial exShortGood exShortReach exShortReads.1 (by decide +kernel)
    ⟨by decide, by decide, by unfold Fits exShort; decide⟩ (by decide +kernel) exShortRefused

example : wstep (exShort .mov 2) (exShortWorld .mov) (.copyCtor 1)
    = (.error (.throw "bad_alloc"), (exShortWorld .mov).asked) :=
  ctor_bad_alloc exShortGood exShortReach exShortRefused
    (.inr (.inr (.inr ⟨1, [1, 1, 1], rfl, exShortReads.2, by decide⟩)))

example : (∀ j, (exShortWorld .mov).asked.read j = (exShortWorld .mov).read j) :=
  (bad_alloc_goes_on (op := .clear) exShortGood exShortReach exShortReads.1).1

/-- `malloc` refuses half of the address space. -/
def exBig : Cfg Nat := ⟨.mov, 16, true, fun _ b => decide (b < 2 ^ 63), 0, false⟩

theorem exBig_malloc {i b : Nat} : exBig.malloc i b = decide (b < 2 ^ 63) := rfl

theorem exBigReach : Reachable exBig (run exBig World.empty [.ctorValue 2 7]).2 :=
  ⟨[.ctorValue 2 7], ⟨fun b hb => by rw [exBig_malloc]; exact decide_eq_true hb, by unfold WContract Fits exBig; decide, trivial⟩, rfl⟩

example : wstep exBig (run exBig World.empty [.ctorValue 2 7]).2 (.call 0 (.reserve (2 ^ 59)))
    = (.error (.throw "bad_alloc"), (run exBig World.empty [.ctorValue 2 7]).2.asked) :=
  reserve_too_big_partial (xs := [7, 7]) (by unfold Good exBig; decide) exBigReach (by unfold World.Reads; decide +kernel)
    (by decide +kernel) (fun b hb => by rw [exBig_malloc]; exact decide_eq_false (by omega)) (by unfold exBig; decide)
    (by unfold exBig; decide)

/-! ### C75, the violations -/

/-- The state after an operation of the example. -/
def exAfter (op : WOp Nat) : World Nat := (wstep (exShort .mov 2) (exShortWorld .mov) op).2

/-- C75 is violated: when `push_back` gets no memory, the vector claims to have its elements still, but reading
them dereferences a null pointer, and so does destroying the vector; their storage is lost, no vector has it. -/
theorem push_back_bad_alloc_violated :
    ∃ op, op = .call 0 (.pushBack true false (.ext 8)) ∧
      (wstep (exShort .mov 2) (exShortWorld .mov) op).1 = .error (.throw "bad_alloc") ∧
      (exAfter op).size 0 = 2 ∧ (exAfter op).read 0 = some (.error (.ub "null pointer dereferenced")) ∧
      ((exAfter op).mem.heap 0).isSome = true ∧ (∀ i, (exAfter op).data i ≠ some 0) ∧
      (wstep (exShort .mov 2) (exAfter op) (.destroy 0)).1 = .error (.ub "null pointer dereferenced") := by
  refine ⟨_, rfl, by decide +kernel, by decide +kernel, by decide +kernel, by decide +kernel, fun i => ?_, by decide +kernel⟩
  have h : (exAfter (.call 0 (.pushBack true false (.ext 8)))).vecs = [some ⟨none, 2, 2⟩, some ⟨some 1, 3, 3⟩] := by
    decide +kernel
  generalize exAfter (.call 0 (.pushBack true false (.ext 8))) = w at h
  match i with
  | 0 => simp [World.data, h]
  | 1 => simp [World.data, h]
  | i + 2 => simp [World.data, h]

/-- C75 is violated: the same for `assign`; here the elements have been destroyed as well. -/
theorem assign_bad_alloc_violated :
    ∃ op, op = .call 0 (.assignN 3 (.ext 8)) ∧
      (wstep (exShort .mov 2) (exShortWorld .mov) op).1 = .error (.throw "bad_alloc") ∧
      (exAfter op).size 0 = 2 ∧ (exAfter op).read 0 = some (.error (.ub "null pointer dereferenced")) ∧
      (wstep (exShort .mov 2) (exAfter op) (.destroy 0)).1 = .error (.ub "null pointer dereferenced") :=
  ⟨_, rfl, by decide +kernel, by decide +kernel, by decide +kernel, by decide +kernel⟩

/-- C75 is violated: the same for copy assignment. -/
theorem copy_assign_bad_alloc_violated :
    ∃ op, op = .copyAssign 0 1 ∧
      (wstep (exShort .mov 2) (exShortWorld .mov) op).1 = .error (.throw "bad_alloc") ∧
      (exAfter op).size 0 = 2 ∧ (exAfter op).read 0 = some (.error (.ub "null pointer dereferenced")) ∧
      (wstep (exShort .mov 2) (exAfter op) (.destroy 0)).1 = .error (.ub "null pointer dereferenced") :=
  ⟨_, rfl, by decide +kernel, by decide +kernel, by decide +kernel, by decide +kernel⟩

/-- Elements that may be moved, a release build, and no memory. -/
def exNone : Cfg Nat := ⟨.mov, 16, false, fun _ _ => false, 0, false⟩

/-- C75 is violated: `reserve` on a vector without storage does not report that there is no memory. The vector
claims to have the capacity, and the next `push_back` dereferences a null pointer. -/
theorem reserve_bad_alloc_violated :
    ∃ prog, prog = [.ctor, .call 0 (.reserve 4)] ∧ (run exNone World.empty prog).1 = .ok [.unit, .unit] ∧
      (run exNone World.empty prog).2.capacity 0 = 4 ∧ (run exNone World.empty prog).2.data 0 = none ∧
      (wstep exNone (run exNone World.empty prog).2 (.call 0 (.pushBack true false (.ext 8)))).1
        = .error (.ub "null pointer dereferenced") :=
  ⟨_, rfl, by decide +kernel, by decide +kernel, by decide +kernel, by decide +kernel⟩

end Verif.Vector
