import Verif.Vector.ThrowProps

/-!
C104 in every state: `assign`, copy assignment and `insert` when the construction of an element throws.
-/

namespace Verif.Vector

open V

variable {α β : Type} {cfg : Cfg α} {th : Throws α} {w : World α} {i : Nat} {xs : List α}

/-! ### Lemmas -/

/-- A vector that counts a dead element: it cannot be read, and if nothing is left of it, the vector cannot be destroyed. -/
theorem dead_element [DecidableEq α] {v : Vec} {s' : S α} {b f e j : Nat} {D : Block α} (hv : w.vecs[i]? = some (some v))
    (ht : s'.this = ⟨some b, f, e⟩) (hD : s'.mem.heap b = some D) (hf : f ≤ D.len) (hj : j < f) :
    ((∀ y, D.cell j ≠ .live y) → ∃ m, (⟨s'.mem, w.vecs.set i (some s'.this)⟩ : World α).look i (at' cfg j) = some (.error (.ub m))) ∧
    (cfg.kind ≠ .triv → D.cell j = .raw →
      ∃ m, (wstep cfg ⟨s'.mem, w.vecs.set i (some s'.this)⟩ (.destroy i)).1 = .error (.ub m)) := by
  obtain ⟨m', v'⟩ := s'
  simp only at ht hD ⊢
  subst ht
  refine ⟨fun hc => ?_, fun hk hc => ?_⟩
  · rw [look_eq (set_vec hv)]
    obtain ⟨m, hm⟩ := load_raw (s := ⟨m', ⟨some b, f, e⟩⟩) hD (by omega) hc
    refine ⟨m, ?_⟩
    unfold at'
    rw [bind_ok (this_apply _), bind_ok (assert_true (by simpa using hj) _)]
    exact congrArg (fun r => some r.1) hm
  · obtain ⟨s', hs'⟩ := destroyRange_raw (cfg := cfg) (s := ⟨m', ⟨some b, f, e⟩⟩) (i := 0) (n := f) (j := j) hk hD (by omega) hj
      (by rw [Nat.zero_add]; exact hc)
    refine ⟨"destructor of an element that does not live", ?_⟩
    have : coreDestroy cfg ⟨m', ⟨some b, f, e⟩⟩ = (.error (.ub "destructor of an element that does not live"), s') := by
      unfold coreDestroy
      rw [bind_ok (this_apply _)]
      exact bind_err hs'
    simp only [wstep]
    rw [member_throw (set_vec hv) this]

theorem copyFromIteratorT_throw {s : S α} {src : Source α} {b k : Nat} {B : Block α} (hk : cfg.kind.loops)
    (hB : s.mem.heap b = some B) (hl : src.list.length ≤ B.len) (h : ThrowsAt th s.mem.ctors src.list k) :
    copyFromIteratorT cfg th ⟨some b, 0⟩ src s = (.error (.throw "element"), s.put b (over B 0 k (cellOf src.list)) k 0 0) := by
  have hkn := h.lt
  unfold copyFromIteratorT
  rw [bind_ok (assert_true (by rfl) _), bind_ok (assert_true (by simp; intro e; rw [e] at hkn; simp at hkn) _), loops_relocatable hk]
  exact constructListT_throw hB (by omega) h

/-- The cells behind the elements constructed. -/
theorem over_behind {B : Block α} {k n : Nat} {f : Nat → Cell α} (h : k ≤ n) : (over B 0 k f).cell n = B.cell n := by
  simp only [over]; rw [if_neg (by omega)]

theorem gone_dead {B : Block α} {k n : Nat} (hk : cfg.kind.loops) (h : k < n) : (gone cfg.kind B 0 n).cell k = .raw := by
  rcases hk with hk | hk <;> rw [hk] <;> simp only [gone, over] <;> rw [if_pos (by omega)]

theorem tail_dead {c : Cell α} (hk : cfg.kind.loops) (h : TailOK cfg.kind c) : ∀ y, c ≠ .live y := by
  rcases hk with hk | hk
  · rw [hk] at h; exact h
  · rw [hk] at h; intro y hy; rw [hy] at h; cases h

/-! ### C104: `assign` -/

/-- C104 is violated by `assign(n, value)` in every state: when the construction of the `k`-th element throws, the old elements are
gone, the vector has its new size all the same, and the elements from the `k`-th on were never constructed; the destructor of the vector
is undefined if they replace old ones, lie in new storage, or are of a type without a move constructor. -/
theorem assign_count_throws_violated [DecidableEq α] {n k : Nat} {x : α} (hg : Good cfg) (hk : cfg.kind.loops) (hr : Reachable cfg w)
    (hl : Lucky cfg w.mem) (hx : w.Reads i xs) (hfit : Fits cfg n) (h : ThrowsAt th w.mem.ctors (List.replicate n x) k) :
    ∃ w', w.member i (noRet (assignNT cfg th n (.ext x))) = (.error (.throw "element"), w') ∧ w'.size i = n ∧
      (∃ m, w'.look i (at' cfg k) = some (.error (.ub m))) ∧
      (cfg.kind = .cpy ∨ k < xs.length ∨ w.capacity i < n → ∃ m, (wstep cfg w' (.destroy i)).1 = .error (.ub m)) := by
  obtain ⟨v, hv, hok, hfr⟩ := hr.vec hg hx
  have hkn : k < n := by simpa using h.lt
  rw [capacity_eq hv]
  by_cases hd : n > v.edge
  · obtain ⟨s1, hF, e1⟩ := reallocDropOldData_ok (s := ⟨w.mem, v⟩) hg hl hok hfit.lt (by omega)
    let s2 : S α := { s1.grown n with this := ⟨some s1.mem.next, n, n⟩ }
    have hD : s2.mem.heap s1.mem.next = some ⟨n, fun _ => .raw⟩ := grown_heap s1 n
    have e : assignNT cfg th n (.ext x) ⟨w.mem, v⟩ = (.error (.throw "element"),
        s2.put s1.mem.next (over ⟨n, fun _ => .raw⟩ 0 k (cellOf (List.replicate n x))) k 0 0) := by
      unfold assignNT
      rw [bind_ok (this_apply _), if_pos hd, bind_ok e1, bind_ok (this_apply _), bind_ok (setThis_apply _ _)]
      unfold constructRangeT
      rw [bind_ok (assert_true (by rfl) _), bind_ok (assert_true (by simp; omega) _), constructLoopT_list]
      refine constructListT_throw (s := s2) hD (by simp) ?_
      have hc : s2.mem.ctors = w.mem.ctors := hF.ctors
      rw [hc]; exact h
    obtain ⟨d1, d2⟩ := dead_element (cfg := cfg) (j := k) hv
      (s' := s2.put s1.mem.next (over ⟨n, fun _ => .raw⟩ 0 k (cellOf (List.replicate n x))) k 0 0) (by rfl) (put_same _ _ _ _ _)
      (by simp) hkn
    refine ⟨_, member_throw hv e, by rw [size_eq (set_vec hv)], d1 (fun y => ?_), fun _ => d2 (loops_not_triv hk) ?_⟩
    · rw [over_behind (Nat.le_refl _)]; simp
    · exact over_behind (Nat.le_refl _)
  · rcases hok with ⟨rfl, _⟩ | ⟨b, B, rfl, hB, hb⟩
    · simp [nullVec] at hd; omega
    simp only at hd ⊢
    let s1 : S α := (⟨w.mem, ⟨some b, n, B.len⟩⟩ : S α).put b (gone cfg.kind B 0 xs.length) 0 (dtorsOf cfg.kind xs.length) 0
    have e : assignNT cfg th n (.ext x) ⟨w.mem, ⟨some b, xs.length, B.len⟩⟩ = (.error (.throw "element"),
        s1.put b (over (gone cfg.kind B 0 xs.length) 0 k (cellOf (List.replicate n x))) k 0 0) := by
      unfold assignNT
      rw [bind_ok (this_apply _), if_neg hd]
      have ed : destroyAll cfg ⟨w.mem, ⟨some b, xs.length, B.len⟩⟩ = (.ok (),
          (⟨w.mem, ⟨some b, xs.length, B.len⟩⟩ : S α).put b (gone cfg.kind B 0 xs.length) 0 (dtorsOf cfg.kind xs.length) 0) := by
        unfold destroyAll
        rw [bind_ok (this_apply _), bind_ok (assert_true (by simpa using hb.le) _)]
        exact destroyRange_ok (s := ⟨w.mem, ⟨some b, xs.length, B.len⟩⟩) (n := xs.length) hB (by have := hb.le; omega) (hb.liveOn (by omega))
      rw [bind_ok ed, bind_ok (this_apply _), bind_ok (setThis_apply _ _)]
      unfold constructRangeT
      rw [bind_ok (assert_true (by rfl) _), bind_ok (assert_true (by simp; omega) _), constructLoopT_list]
      exact constructListT_throw (s := s1) (put_same _ _ _ _ _) (by simp; omega) h
    have htail : xs.length ≤ k → TailOK cfg.kind ((gone cfg.kind B 0 xs.length).cell k) := fun hle => by
      have : (gone cfg.kind B 0 xs.length).cell k = B.cell k := by
        rcases hk with hk | hk <;> rw [hk] <;> simp only [gone] <;> exact over_behind hle
      rw [this]; exact hb.tail k hle (by omega)
    obtain ⟨d1, d2⟩ := dead_element (cfg := cfg) (j := k) hv
      (s' := s1.put b (over (gone cfg.kind B 0 xs.length) 0 k (cellOf (List.replicate n x))) k 0 0) (by rfl) (put_same _ _ _ _ _)
      (by simp; omega) hkn
    rw [over_behind (Nat.le_refl _)] at d1 d2
    refine ⟨_, member_throw hv e, by rw [size_eq (set_vec hv)]; rfl, d1 (fun y => ?_), fun hc => d2 (loops_not_triv hk) ?_⟩
    · by_cases hkx : k < xs.length
      · rw [gone_dead hk hkx]; simp
      · exact tail_dead hk (htail (by omega)) y
    · by_cases hkx : k < xs.length
      · exact gone_dead hk hkx
      · rcases hc with hc | hc | hc
        · have := htail (by omega)
          rw [hc] at this ⊢; exact this
        · exact absurd hc hkx
        · omega

-- four copies of 7, the third throws
example : ∃ w', (exWorld .mov).member 0 (noRet (assignNT (exCfg .mov) (fun c _ => c == (exWorld .mov).mem.ctors + 2) 4 (.ext 7)))
      = (.error (.throw "element"), w') ∧ w'.size 0 = 4 ∧ (∃ m, w'.look 0 (at' (exCfg .mov) 2) = some (.error (.ub m))) ∧
      ((exCfg .mov).kind = .cpy ∨ 2 < 5 ∨ (exWorld .mov).capacity 0 < 4 →
        ∃ m, (wstep (exCfg .mov) w' (.destroy 0)).1 = .error (.ub m)) :=
  assign_count_throws_violated exGood (.inl rfl) exReach exLucky exReads.1 (by unfold Fits exCfg; decide) ⟨by decide +kernel, 7, rfl, by simp⟩

/-- C104 is violated by `assign(first, last)` in every state: when there is room and the copy of the `k`-th element throws, the old
elements are gone but still counted, and the vector can neither be read nor destroyed. -/
theorem assign_range_throws_violated [DecidableEq α] {k : Nat} {src : Source α} (hg : Good cfg) (hk : cfg.kind.loops)
    (hr : Reachable cfg w) (hx : w.Reads i xs) (hroom : src.list.length ≤ w.capacity i) (h : ThrowsAt th w.mem.ctors src.list k)
    (hkx : k < xs.length) :
    ∃ w', w.member i (noRet (assignRangeT cfg th src)) = (.error (.throw "element"), w') ∧ w'.size i = xs.length ∧
      (∃ m, w'.look i (at' cfg k) = some (.error (.ub m))) ∧ ∃ m, (wstep cfg w' (.destroy i)).1 = .error (.ub m) := by
  obtain ⟨v, hv, hok, hfr⟩ := hr.vec hg hx
  have hkn := h.lt
  rw [capacity_eq hv] at hroom
  rcases hok with ⟨_, rfl⟩ | ⟨b, B, rfl, hB, hb⟩
  · simp at hkx
  simp only at hroom
  let s1 : S α := (⟨w.mem, ⟨some b, xs.length, B.len⟩⟩ : S α).put b (gone cfg.kind B 0 xs.length) 0 (dtorsOf cfg.kind xs.length) 0
  have e : assignRangeT cfg th src ⟨w.mem, ⟨some b, xs.length, B.len⟩⟩ = (.error (.throw "element"),
      s1.put b (over (gone cfg.kind B 0 xs.length) 0 k (cellOf src.list)) k 0 0) := by
    unfold assignRangeT
    rw [bind_ok (this_apply _)]
    simp only
    rw [if_neg (by omega)]
    have ed : destroyAll cfg ⟨w.mem, ⟨some b, xs.length, B.len⟩⟩ = (.ok (), s1) := by
      unfold destroyAll
      rw [bind_ok (this_apply _), bind_ok (assert_true (by simpa using hb.le) _)]
      exact destroyRange_ok (s := ⟨w.mem, ⟨some b, xs.length, B.len⟩⟩) (n := xs.length) hB (by have := hb.le; omega) (hb.liveOn (by omega))
    rw [bind_ok ed, if_pos (by omega)]
    refine bind_err ?_
    exact copyFromIteratorT_throw (s := s1) hk (put_same _ _ _ _ _) (by simpa using hroom) h
  obtain ⟨d1, d2⟩ := dead_element (cfg := cfg) (j := k) hv
    (s' := s1.put b (over (gone cfg.kind B 0 xs.length) 0 k (cellOf src.list)) k 0 0) (by rfl) (put_same _ _ _ _ _)
    (by simpa using hb.le) hkx
  rw [over_behind (Nat.le_refl _), gone_dead hk hkx] at d1 d2
  exact ⟨_, member_throw hv e, by rw [size_eq (set_vec hv)]; rfl, d1 (fun y => by simp), d2 (loops_not_triv hk) rfl⟩

example : ∃ w', (exWorld .mov).member 0 (noRet (assignRangeT (exCfg .mov) bad (.forward [4, 13, 5]))) = (.error (.throw "element"), w') ∧
      w'.size 0 = 5 ∧ (∃ m, w'.look 0 (at' (exCfg .mov) 1) = some (.error (.ub m))) ∧
      ∃ m, (wstep (exCfg .mov) w' (.destroy 0)).1 = .error (.ub m) :=
  assign_range_throws_violated exGood (.inl rfl) exReach exReads.1 (by rw [exSizes.1]; decide) ⟨by decide +kernel, 13, rfl, rfl⟩ (by decide)

/-- C104 is violated by copy assignment in every state in the same way; the source keeps its elements. -/
theorem copy_assign_in_place_throws_violated [DecidableEq α] {j k : Nat} {u : Vec} {zs : List α} (hg : Good cfg) (hk : cfg.kind.loops)
    (hr : Reachable cfg w) (hx : w.Reads i xs) (hu : w.vecs[j]? = some (some u)) (hz : w.Reads j zs) (hij : j ≠ i)
    (hroom : zs.length ≤ w.capacity i) (h : ThrowsAt th w.mem.ctors zs k) (hkx : k < xs.length) :
    ∃ w', w.member i (noRet (coreCopyAssignT cfg th u)) = (.error (.throw "element"), w') ∧ w'.size i = xs.length ∧
      w'.Reads j zs ∧ (∃ m, w'.look i (at' cfg k) = some (.error (.ub m))) ∧ ∃ m, (wstep cfg w' (.destroy i)).1 = .error (.ub m) := by
  obtain ⟨v, hv, hok, hfr⟩ := hr.vec hg hx
  obtain ⟨u', hu', hoku, _⟩ := hr.vec hg hz
  rw [hu] at hu'
  obtain rfl : u = u' := by simpa using hu'
  have hkn := h.lt
  rw [capacity_eq hv] at hroom
  have hoku' := hoku
  rcases hok with ⟨_, rfl⟩ | ⟨b, B, rfl, hB, hb⟩
  · simp at hkx
  rcases hoku with ⟨_, rfl⟩ | ⟨c, C, rfl, hC, hc⟩
  · simp at hkn
  have hne : b ≠ c := by
    rintro rfl
    obtain ⟨ys, hr'⟩ := hr.reach
    exact hij ((hr'.winv hg).sep j i _ _ b hu hv rfl rfl)
  simp only at hroom
  let s1 : S α := (⟨w.mem, ⟨some b, xs.length, B.len⟩⟩ : S α).put b (gone cfg.kind B 0 xs.length) 0 (dtorsOf cfg.kind xs.length) 0
  have hC1 : s1.mem.heap c = some C := by
    rw [show s1.mem.heap c = w.mem.heap c from put_other (Ne.symm hne) _ _ _ _]; exact hC
  have e : coreCopyAssignT cfg th ⟨some c, zs.length, C.len⟩ ⟨w.mem, ⟨some b, xs.length, B.len⟩⟩ = (.error (.throw "element"),
      s1.put b (over (gone cfg.kind B 0 xs.length) 0 k (cellOf zs)) k 0 0) := by
    unfold coreCopyAssignT
    simp only
    rw [bind_ok (this_apply _)]
    simp only
    rw [if_neg (by omega)]
    have ed : destroyRange cfg (Vec.startPtr ⟨some b, xs.length, B.len⟩) xs.length ⟨w.mem, ⟨some b, xs.length, B.len⟩⟩ = (.ok (), s1) :=
      destroyRange_ok (s := ⟨w.mem, ⟨some b, xs.length, B.len⟩⟩) (n := xs.length) hB (by have := hb.le; omega) (hb.liveOn (by omega))
    rw [bind_ok ed, if_pos (by omega)]
    refine bind_err ?_
    unfold copyRangeT
    rw [bind_ok (assert_true (by rfl) _), bind_ok (assert_true (by simp [Vec.startPtr]; exact hne) _),
      bind_ok (assert_true (by simp; omega) _), loops_relocatable hk]
    exact copyLoopT_throw (s := s1) hne (put_same _ _ _ _ _) hC1 (by simpa using hroom) (by have := hc.le; omega)
      (fun t ht => by rw [Nat.zero_add]; exact hc.live t ht) h
  obtain ⟨d1, d2⟩ := dead_element (cfg := cfg) (j := k) hv
    (s' := s1.put b (over (gone cfg.kind B 0 xs.length) 0 k (cellOf zs)) k 0 0) (by rfl) (put_same _ _ _ _ _)
    (by simpa using hb.le) hkx
  rw [over_behind (Nat.le_refl _), gone_dead hk hkx] at d1 d2
  refine ⟨_, member_throw hv e, by rw [size_eq (set_vec hv)]; rfl, ?_, d1 (fun y => by simp), d2 (loops_not_triv hk) rfl⟩
  have hok' : VecOK cfg (s1.put b (over (gone cfg.kind B 0 xs.length) 0 k (cellOf zs)) k 0 0).mem ⟨some c, zs.length, C.len⟩ zs := by
    refine hoku'.congr (fun d hd => ?_)
    cases hd
    rw [put_other (Ne.symm hne), hC1, hC]
  unfold World.Reads World.read
  simp only [World.look]
  rw [List.getElem?_set_ne (Ne.symm hij), hu]
  exact congrArg (fun r => some r.1) hok'.toList_ok

-- the vector `[0, 0]` is assigned, the second copy throws
example : ∃ w', (exWorld .mov).member 0 (noRet (coreCopyAssignT (exCfg .mov) (fun c _ => c == (exWorld .mov).mem.ctors + 1)
        ⟨(exWorld .mov).data 2, 2, 2⟩)) = (.error (.throw "element"), w') ∧ w'.size 0 = 5 ∧ w'.Reads 2 [0, 0] ∧
      (∃ m, w'.look 0 (at' (exCfg .mov) 1) = some (.error (.ub m))) ∧ ∃ m, (wstep (exCfg .mov) w' (.destroy 0)).1 = .error (.ub m) :=
  copy_assign_in_place_throws_violated exGood (.inl rfl) exReach exReads.1 (by decide +kernel) exReads.2.2 (by decide)
    (by rw [exSizes.1]; decide) ⟨by decide +kernel, 0, rfl, by simp⟩ (by decide)

/-! ### C104: `insert` -/

/-- While no constructor throws, moving elements does not. -/
theorem moveOneT_quiet {s : S α} {d p : Ptr} (h : ∀ v, th s.mem.ctors v = false) : moveOneT cfg th d p s = moveOne cfg d p s := by
  unfold moveOneT moveOne
  rcases hl : load p s with ⟨r, s1⟩
  cases r with
  | error e => rw [bind_err hl, bind_err hl]
  | ok v =>
    have : s1 = s := by
      unfold load at hl
      rcases hc : readCell p s with ⟨r, s2⟩
      have h2 : s2 = s := by
        unfold readCell at hc
        repeat' split at hc
        all_goals (cases hc; rfl)
      subst h2
      cases r with
      | error e => rw [bind_err hc] at hl; cases hl
      | ok c =>
        rw [bind_ok hc] at hl
        cases c <;> cases hl
        rfl
    subst this
    rw [bind_ok hl, bind_ok hl]
    cases cfg.kind <;> simp only
    have hq := constructAtT_ok (h v) d
    rcases hc : constructAt d v s1 with ⟨r, s2⟩
    rw [hc] at hq
    cases r with
    | error e => rw [bind_err hc, bind_err hq]
    | ok u => rw [bind_ok hc, bind_ok hq]

theorem moveLoopBwdT_quiet {b dst src n : Nat} {B : Block α} {s : S α} (hk : cfg.kind.loops) (hb : s.mem.heap b = some B)
    (hd : dst + n ≤ B.len) (hs : src + n ≤ B.len) (hl : LiveOn B src n) (hne : src < dst)
    (h : ∀ j v, j < n → th (s.mem.ctors + j) v = false) :
    moveLoopBwdT cfg th ⟨some b, dst⟩ ⟨some b, src⟩ n s = moveLoopBwd cfg ⟨some b, dst⟩ ⟨some b, src⟩ n s := by
  induction n generalizing B s with
  | zero => rfl
  | succ n ih =>
    obtain ⟨v, hv⟩ := hl (src + n) (by omega) (by omega)
    have hone := moveOne_ok (cfg := cfg) (s := s) hk hb (dst := dst + n) (src := src + n) (by omega) (by omega) hv (by omega)
    have e1 : moveBackT cfg th (Ptr.add ⟨some b, dst⟩ n) (Ptr.add ⟨some b, src⟩ n) s = (.ok (), s.put b
        ((B.set (dst + n) (.live v)).set (src + n) (hole cfg.kind (.live v))) (movC cfg.kind 1) (movD cfg.kind 1) (movM cfg.kind 1)) := by
      unfold moveBackT
      rw [loops_relocatable hk]
      simp only [Bool.false_eq_true, if_false]
      exact (moveOneT_quiet (fun v => by simpa using h 0 v (by omega))).trans hone
    have e2 : moveBack cfg (Ptr.add ⟨some b, dst⟩ n) (Ptr.add ⟨some b, src⟩ n) s = (.ok (), s.put b
        ((B.set (dst + n) (.live v)).set (src + n) (hole cfg.kind (.live v))) (movC cfg.kind 1) (movD cfg.kind 1) (movM cfg.kind 1)) := by
      unfold moveBack
      rw [loops_relocatable hk]
      simp only [Bool.false_eq_true, if_false]
      exact hone
    simp only [moveLoopBwdT, moveLoopBwd]
    rw [bind_ok e1, bind_ok e2]
    refine ih (put_same _ _ _ _ _) (by simp; omega) (by simp; omega) (fun j h1 h2 => ?_) (fun j u hj => ?_)
    · obtain ⟨y, hy⟩ := hl j h1 (by omega)
      refine ⟨y, ?_⟩
      rw [set_cell, if_neg (by omega), set_cell, if_neg (by omega)]
      exact hy
    · have hc : movC cfg.kind 1 = 1 := by rcases hk with hk | hk <;> rw [hk] <;> rfl
      have := h (j + 1) u (by omega)
      simp only [S.put, hc]
      rwa [show s.mem.ctors + 1 + j = s.mem.ctors + (j + 1) by omega]

/-- C104 is violated by `insert(pos, value)` and `emplace` in the middle in every state with room: when the construction of the new element
throws, the elements from `pos` on have been moved back by one; the vector still counts as many elements as before, the one at `pos` must
not be read (nor, without a move constructor, destroyed), and the last one is lost. -/
theorem insert_in_place_throws_violated [DecidableEq α] {safe e : Bool} {pos : Nat} {x : α} (hg : Good cfg) (hk : cfg.kind.loops)
    (hr : Reachable cfg w) (hx : w.Reads i xs) (hpos : pos < xs.length) (hroom : xs.length < w.capacity i)
    (hq : ∀ j v, j < xs.length - pos → th (w.mem.ctors + j) v = false) (ht : th (w.mem.ctors + (xs.length - pos)) x = true) :
    ∃ w', w.member i (numRet (insertOneT cfg th safe e pos (.ext x))) = (.error (.throw "element"), w') ∧ w'.size i = xs.length ∧
      (∃ m, w'.look i (at' cfg pos) = some (.error (.ub m))) ∧
      (∀ t y, pos ≤ t → t + 1 < xs.length → xs[t]? = some y → w'.look i (at' cfg (t + 1)) = some (.ok y)) ∧
      (cfg.kind = .cpy → ∃ m, (wstep cfg w' (.destroy i)).1 = .error (.ub m)) := by
  obtain ⟨v, hv, hok, hfr⟩ := hr.vec hg hx
  rw [capacity_eq hv] at hroom
  have hvb := hok.bound
  rcases hok with ⟨_, rfl⟩ | ⟨b, B, rfl, hB, hb⟩
  · simp at hpos
  simp only at hroom hvb
  have h63 : B.len < 2 ^ 63 := Nat.lt_of_le_of_lt (Nat.le_mul_of_pos_right _ hg.1) hvb
  let n := xs.length - pos
  let s1 : S α := (⟨w.mem, ⟨some b, xs.length, B.len⟩⟩ : S α).put b (shift cfg.kind B (pos + 1) pos n) (movC cfg.kind n) (movD cfg.kind n)
    (movM cfg.kind n)
  have hlive : LiveOn B pos n := hb.liveOn (by omega)
  have hshift : (if pos + 1 < xs.length then moveBackwardT cfg th (pos + 1) pos else moveForwardT cfg th (pos + 1) pos)
      (⟨w.mem, ⟨some b, xs.length, B.len⟩⟩ : S α) = (.ok (), s1) := by
    by_cases hp : pos + 1 < xs.length
    · rw [if_pos hp]
      rw [← moveBackward_ok (s := ⟨w.mem, ⟨some b, xs.length, B.len⟩⟩) (dst := pos + 1) (by rcases hk with hk | hk <;> rw [hk] <;> simp) hB rfl hlive hp (by omega) (by omega)]
      unfold moveBackwardT moveBackward
      rw [bind_ok (this_apply _), bind_ok (this_apply _), bind_ok (assert_true (by rfl) _), bind_ok (assert_true (by simpa using hp) _),
        bind_ok (assert_true (by simp) _), bind_ok (assert_true (by rfl) _), bind_ok (assert_true (by simpa using hp) _),
        bind_ok (assert_true (by simp) _)]
      exact moveLoopBwdT_quiet (n := xs.length - pos) hk hB (by omega) (by omega) hlive (by omega) hq
    · rw [if_neg hp]
      rw [← moveForward_ok (s := ⟨w.mem, ⟨some b, xs.length, B.len⟩⟩) (dst := pos + 1) hg hB rfl h63 hb.le hlive (by omega) (by omega)
        (.inr (by omega)) (by omega)]
      unfold moveForwardT moveForward
      rw [bind_ok (assert_true (by simp) _), bind_ok (assert_true (by simp) _), bind_ok (this_apply _), bind_ok (this_apply _)]
      unfold moveRangeForwardT moveRangeForward
      simp only
      rw [bind_ok (assert_true (by rfl) _), bind_ok (assert_true (by simp; omega) _), bind_ok (assert_true (by simp; omega) _),
        bind_ok (assert_true (by rfl) _), bind_ok (assert_true (by simp; omega) _), bind_ok (assert_true (by simp; omega) _),
        loops_relocatable hk]
      simp only [Bool.false_eq_true, if_false]
      have h1 : sub64 xs.length pos = 1 := by rw [sub64_of_le (by omega) (by omega)]; omega
      rw [h1]
      simp only [moveLoopFwdT, moveLoopFwd]
      have hm := moveOneT_quiet (cfg := cfg) (s := ⟨w.mem, ⟨some b, xs.length, B.len⟩⟩) (d := ⟨some b, pos + 1⟩) (p := ⟨some b, pos⟩)
        (fun v => by simpa using hq 0 v (by omega))
      rcases ho : moveOne cfg ⟨some b, pos + 1⟩ ⟨some b, pos⟩ (⟨w.mem, ⟨some b, xs.length, B.len⟩⟩ : S α) with ⟨r, s2⟩
      rw [ho] at hm
      cases r with
      | error e => rw [bind_err hm, bind_err ho]
      | ok u => rw [bind_ok hm, bind_ok ho]
  have hfull : full cfg ⟨w.mem, ⟨some b, xs.length, B.len⟩⟩ = (.ok false, (⟨w.mem, ⟨some b, xs.length, B.len⟩⟩ : S α)) := by
    have := full_ok (cfg := cfg) (s := ⟨w.mem, ⟨some b, xs.length, B.len⟩⟩) (xs := xs) (.inr ⟨b, B, rfl, hB, hb⟩)
    rwa [show decide (B.len = xs.length) = false by simp; omega] at this
  have he : insertOneT cfg th safe e pos (.ext x) ⟨w.mem, ⟨some b, xs.length, B.len⟩⟩ = (.error (.throw "element"), s1) := by
    unfold insertOneT
    rw [bind_ok (this_apply _), bind_ok (assert_true (by simp; omega) _)]
    have hs : doIf safe (do
        let f ← full cfg
        doIf f (reserveT cfg th (nextCapacity cfg (⟨some b, xs.length, B.len⟩ : Vec).edge))) ⟨w.mem, ⟨some b, xs.length, B.len⟩⟩
        = (.ok (), (⟨w.mem, ⟨some b, xs.length, B.len⟩⟩ : S α)) := by
      cases safe
      · rfl
      · rw [doIf_pos rfl, bind_ok hfull]; rfl
    rw [bind_ok hs, bind_ok hfull, bind_ok (assert_true (by rfl) _), bind_ok (this_apply _), if_neg (by simp only; omega), bind_ok hshift]
    refine bind_err ?_
    refine putAtT_throw (loops_relocatable hk) (by rfl) ?_
    have hc : movC cfg.kind n = n := by rcases hk with hk | hk <;> rw [hk] <;> rfl
    simp only [s1, S.put, hc]
    exact ht
  have hhole : s1.mem.heap b = some (shift cfg.kind B (pos + 1) pos n) := put_same _ _ _ _ _
  have hcell : (shift cfg.kind B (pos + 1) pos n).cell pos = hole cfg.kind (B.cell pos) := by
    simp only [shift]; rw [if_neg (by omega), if_pos (by omega)]
  obtain ⟨d1, d2⟩ := dead_element (cfg := cfg) (j := pos) (s' := s1) hv (by rfl) hhole (by simpa using hb.le) hpos
  rw [hcell] at d1 d2
  have en : numRet (insertOneT cfg th safe e pos (.ext x)) ⟨w.mem, ⟨some b, xs.length, B.len⟩⟩ = (.error (.throw "element"), s1) := bind_err he
  refine ⟨⟨s1.mem, w.vecs.set i (some s1.this)⟩, ?_, by rw [size_eq (set_vec hv)]; rfl, d1 (tail_dead hk (hole_tail _)), fun t y h1 h2 hy => ?_,
    fun hc => d2 (loops_not_triv hk) (by rw [hc]; rfl)⟩
  · simp only [World.member, hv, en]
  · rw [look_eq (set_vec hv)]
    unfold at'
    rw [bind_ok (this_apply _), bind_ok (assert_true (by exact decide_eq_true h2) _)]
    have hc : (shift cfg.kind B (pos + 1) pos n).cell (t + 1) = .live y := by
      simp only [shift]
      rw [if_pos (by omega), show t + 1 - (pos + 1) + pos = t by omega, hb.live t (by omega)]
      simp [cellOf, hy]
    have := load_ok (s := ⟨s1.mem, s1.this⟩) hhole (by simp; have := hb.le; omega) hc
    exact congrArg (fun r => some r.1) this

-- 13 before the second of five elements
example : ∃ w', (exWorld .mov).member 0 (numRet (insertOneT (exCfg .mov) (fun c _ => c == (exWorld .mov).mem.ctors + 4) true false 1 (.ext 13)))
      = (.error (.throw "element"), w') ∧ w'.size 0 = 5 ∧ (∃ m, w'.look 0 (at' (exCfg .mov) 1) = some (.error (.ub m))) ∧
      (∀ t y, 1 ≤ t → t + 1 < 5 → [3, 1, 9, 2, 3][t]? = some y → w'.look 0 (at' (exCfg .mov) (t + 1)) = some (.ok y)) ∧
      ((exCfg .mov).kind = .cpy → ∃ m, (wstep (exCfg .mov) w' (.destroy 0)).1 = .error (.ub m)) :=
  insert_in_place_throws_violated exGood (.inl rfl) exReach exReads.1 (by decide) (by rw [exSizes.1]; decide)
    (fun j v hj => by simp at hj ⊢; omega) (by simp)

/-! ### C104: `insert` of several elements -/

theorem moveLoopFwdT_quiet {b dst src n : Nat} {B : Block α} {s : S α} (hk : cfg.kind.loops) (hb : s.mem.heap b = some B)
    (hd : dst + n ≤ B.len) (hs : src + n ≤ B.len) (hl : LiveOn B src n) (hne : src + n ≤ dst)
    (h : ∀ j v, j < n → th (s.mem.ctors + j) v = false) :
    moveLoopFwdT cfg th ⟨some b, dst⟩ ⟨some b, src⟩ n s = moveLoopFwd cfg ⟨some b, dst⟩ ⟨some b, src⟩ n s := by
  induction n generalizing dst src B s with
  | zero => rfl
  | succ n ih =>
    obtain ⟨v, hv⟩ := hl src (by omega) (by omega)
    have hone := moveOne_ok (cfg := cfg) (s := s) hk hb (dst := dst) (src := src) (by omega) (by omega) hv (by omega)
    have e1 := (moveOneT_quiet (cfg := cfg) (d := ⟨some b, dst⟩) (p := ⟨some b, src⟩) (fun v => by simpa using h 0 v (by omega))).trans hone
    simp only [moveLoopFwdT, moveLoopFwd]
    rw [bind_ok e1, bind_ok hone]
    simp only [Ptr.add]
    refine ih (put_same _ _ _ _ _) (by simp; omega) (by simp; omega) (fun j h1 h2 => ?_) (by omega) (fun j u hj => ?_)
    · obtain ⟨y, hy⟩ := hl j (by omega) (by omega)
      refine ⟨y, ?_⟩
      rw [set_cell, if_neg (by omega), set_cell, if_neg (by omega)]
      exact hy
    · have hc : movC cfg.kind 1 = 1 := by rcases hk with hk | hk <;> rw [hk] <;> rfl
      have := h (j + 1) u (by omega)
      simp only [S.put, hc]
      rwa [show s.mem.ctors + 1 + j = s.mem.ctors + (j + 1) by omega]

/-- With room, and while no constructor throws, `insert` moves the elements behind `pos` back. -/
theorem makeRoomT_quiet {safe : Bool} {pos n b : Nat} {B : Block α} {m : Mem α} (hg : Good cfg) (hk : cfg.kind.loops)
    (hB : m.heap b = some B) (hb : BlockOK cfg B xs) (hpos : pos < xs.length) (h0 : 0 < n) (hroom : xs.length + n ≤ B.len)
    (hq : ∀ j v, j < xs.length - pos → th (m.ctors + j) v = false) :
    makeRoomT cfg th safe pos n ⟨m, ⟨some b, xs.length, B.len⟩⟩ = (.ok (), (⟨m, ⟨some b, xs.length, B.len⟩⟩ : S α).put b
      (shift cfg.kind B (pos + n) pos (xs.length - pos)) (movC cfg.kind (xs.length - pos)) (movD cfg.kind (xs.length - pos))
      (movM cfg.kind (xs.length - pos))) := by
  have h63 : B.len < 2 ^ 63 := Nat.lt_of_le_of_lt (Nat.le_mul_of_pos_right _ hg.1) hb.bound
  have hlive : LiveOn B pos (xs.length - pos) := hb.liveOn (by omega)
  have ha : add64 xs.length n = xs.length + n := add64_of_lt (by omega)
  unfold makeRoomT
  rw [bind_ok (this_apply _)]
  simp only [ha]
  rw [doIf_neg (by simp; omega), bind_ok (pure_apply _ _), bind_ok (this_apply _), bind_ok (assert_true (by simpa using hroom) _)]
  simp only
  by_cases hp : xs.length ≤ pos + n
  · rw [if_pos hp]
    rw [← moveForward_ok (s := ⟨m, ⟨some b, xs.length, B.len⟩⟩) (dst := pos + n) hg hB rfl h63 hb.le hlive (by omega) (by omega)
      (.inr hp) (by omega)]
    unfold moveForwardT moveForward
    rw [bind_ok (assert_true (by simp; omega) _), bind_ok (assert_true (by simp; omega) _), bind_ok (this_apply _), bind_ok (this_apply _)]
    unfold moveRangeForwardT moveRangeForward
    simp only
    rw [bind_ok (assert_true (by rfl) _), bind_ok (assert_true (by simp; omega) _), bind_ok (assert_true (by simp; omega) _),
      bind_ok (assert_true (by rfl) _), bind_ok (assert_true (by simp; omega) _), bind_ok (assert_true (by simp; omega) _),
      loops_relocatable hk]
    simp only [Bool.false_eq_true, if_false]
    have h1 : sub64 xs.length pos = xs.length - pos := sub64_of_le (by omega) (by omega)
    rw [h1]
    exact moveLoopFwdT_quiet hk hB (by omega) (by omega) hlive (by omega) hq
  · rw [if_neg hp]
    rw [← moveBackward_ok (s := ⟨m, ⟨some b, xs.length, B.len⟩⟩) (dst := pos + n) (by rcases hk with hk | hk <;> rw [hk] <;> simp) hB rfl
      hlive (by omega) (by omega) (by omega)]
    unfold moveBackwardT moveBackward
    rw [bind_ok (this_apply _), bind_ok (this_apply _), bind_ok (assert_true (by rfl) _), bind_ok (assert_true (by simp; omega) _),
      bind_ok (assert_true (by simp; omega) _), bind_ok (assert_true (by rfl) _), bind_ok (assert_true (by simp; omega) _),
      bind_ok (assert_true (by simp; omega) _)]
    exact moveLoopBwdT_quiet (n := xs.length - pos) hk hB (by omega) (by omega) hlive (by omega) hq

/-- Where the elements were that have been moved back. -/
theorem shifted_hole {B : Block α} {pos n k m : Nat} {f : Nat → Cell α} (hk : k < n) (hm : k < m) :
    (over (shift cfg.kind B (pos + n) pos m) pos k f).cell (pos + k) = hole cfg.kind (B.cell (pos + k)) := by
  simp only [over, shift]
  rw [if_neg (by omega), if_neg (by omega), if_pos (by omega)]

/-- Two elements that cannot be moved, with room for eight. -/
def wideProg : List (WOp Nat) := [.ctorRange (.forward [3, 1]), .call 0 (.reserve 8)]

theorem wideLegal : Legal (exCfg .cpy) World.empty [] wideProg := by
  simp only [wideProg, Legal]
  exact ⟨fun _ _ => rfl, ⟨by simp [Source.Copied], by unfold Fits exCfg; decide⟩, fun _ _ => rfl,
    ⟨[3, 1], rfl, trivial, by unfold Requires Fits exCfg; decide⟩, trivial⟩

/-- C104 is violated by `insert(pos, n, value)` and `insert(pos, first, last)` in the middle in every state with room: when the
construction of the `k`-th new element throws and this is where an element was, then the vector still counts as many elements as before,
and the one at `pos + k` must not be read, nor, without a move constructor, destroyed. -/
theorem insert_many_throws_violated [DecidableEq α] {safe : Bool} {pos k : Nat} {l : List α} (hg : Good cfg) (hk : cfg.kind.loops)
    (hr : Reachable cfg w) (hx : w.Reads i xs) (hpk : pos + k < xs.length) (hroom : xs.length + l.length ≤ w.capacity i)
    (hq : ∀ j v, j < xs.length - pos → th (w.mem.ctors + j) v = false) (ht : ThrowsAt th (w.mem.ctors + (xs.length - pos)) l k)
    {x : V α Nat} (hcall : (∃ y, l = List.replicate l.length y ∧ x = insertNT cfg th safe pos l.length (.ext y)) ∨
      (∃ src : Source α, src.list = l ∧ x = insertRangeT cfg th safe pos src)) :
    ∃ w', w.member i (numRet x) = (.error (.throw "element"), w') ∧ w'.size i = xs.length ∧
      (∃ m, w'.look i (at' cfg (pos + k)) = some (.error (.ub m))) ∧
      (cfg.kind = .cpy → ∃ m, (wstep cfg w' (.destroy i)).1 = .error (.ub m)) := by
  obtain ⟨v, hv, hok, hfr⟩ := hr.vec hg hx
  have hkn := ht.lt
  rw [capacity_eq hv] at hroom
  rcases hok with ⟨_, rfl⟩ | ⟨b, B, rfl, hB, hb⟩
  · simp at hpk
  simp only at hroom
  let n := xs.length - pos
  let D := shift cfg.kind B (pos + l.length) pos n
  let s1 : S α := (⟨w.mem, ⟨some b, xs.length, B.len⟩⟩ : S α).put b D (movC cfg.kind n) (movD cfg.kind n) (movM cfg.kind n)
  have hmake : makeRoomT cfg th safe pos l.length ⟨w.mem, ⟨some b, xs.length, B.len⟩⟩ = (.ok (), s1) :=
    makeRoomT_quiet hg hk hB hb (by omega) (by omega) hroom hq
  have hD : s1.mem.heap b = some D := put_same _ _ _ _ _
  have hc : movC cfg.kind n = n := by rcases hk with hk | hk <;> rw [hk] <;> rfl
  have ht1 : ThrowsAt th s1.mem.ctors l k := by
    have : s1.mem.ctors = w.mem.ctors + (xs.length - pos) := by simp only [s1, S.put, hc]; rfl
    rw [this]; exact ht
  let s2 := s1.put b (over D pos k (cellOf l)) k 0 0
  have hmk : constructListT th ⟨some b, pos⟩ l s1 = (.error (.throw "element"), s2) :=
    constructListT_throw hD (by simp only [D, shift_len]; omega) ht1
  have he : x ⟨w.mem, ⟨some b, xs.length, B.len⟩⟩ = (.error (.throw "element"), s2) := by
    rcases hcall with ⟨y, hl, rfl⟩ | ⟨src, rfl, rfl⟩
    · unfold insertNT
      rw [bind_ok (assert_true (by simp; omega) _), bind_ok (this_apply _), bind_ok (assert_true (by simp; omega) _), bind_ok hmake,
        bind_ok (this_apply _)]
      refine bind_err ?_
      unfold constructRangeT
      rw [bind_ok (assert_true (by rfl) _), bind_ok (assert_true (by simp; omega) _), constructLoopT_list, ← hl]
      exact hmk
    · unfold insertRangeT
      rw [if_neg (by omega), bind_ok hmake, bind_ok (this_apply _)]
      refine bind_err ?_
      unfold copyFromIteratorT
      rw [bind_ok (assert_true (by rfl) _), bind_ok (assert_true (by simp; intro e; rw [e] at hkn; simp at hkn) _), loops_relocatable hk]
      exact hmk
  have en : numRet x ⟨w.mem, ⟨some b, xs.length, B.len⟩⟩ = (.error (.throw "element"), s2) := bind_err he
  obtain ⟨d1, d2⟩ := dead_element (cfg := cfg) (j := pos + k) (s' := s2) hv (by rfl) (put_same _ _ _ _ _)
    (by simp only [D, over_len, shift_len]; exact hb.le) hpk
  have hcell : (over D pos k (cellOf l)).cell (pos + k) = hole cfg.kind (B.cell (pos + k)) := shifted_hole hkn (by omega)
  rw [hcell] at d1 d2
  refine ⟨⟨s2.mem, w.vecs.set i (some s2.this)⟩, by simp only [World.member, hv, en], by rw [size_eq (set_vec hv)]; rfl,
    d1 (tail_dead hk (hole_tail _)), fun hc => d2 (loops_not_triv hk) (by rw [hc]; rfl)⟩

-- three elements before two others: the second throws
example : ∃ w', (run (exCfg .cpy) World.empty wideProg).2.member 0 (numRet (insertRangeT (exCfg .cpy)
        (fun c _ => c == (run (exCfg .cpy) World.empty wideProg).2.mem.ctors + 3) true 0 (.forward [8, 13, 8])))
      = (.error (.throw "element"), w') ∧ w'.size 0 = 2 ∧ (∃ m, w'.look 0 (at' (exCfg .cpy) (0 + 1)) = some (.error (.ub m))) ∧
      ((exCfg .cpy).kind = .cpy → ∃ m, (wstep (exCfg .cpy) w' (.destroy 0)).1 = .error (.ub m)) :=
  insert_many_throws_violated (w := (run (exCfg .cpy) World.empty wideProg).2) (xs := [3, 1]) (l := [8, 13, 8]) (k := 1)
    (by unfold Good exCfg; decide) (.inr rfl) ⟨wideProg, wideLegal, rfl⟩ (by unfold World.Reads; decide +kernel) (by decide)
    (by decide +kernel) (fun j v hj => by simp at hj ⊢; omega) ⟨by decide +kernel, 13, rfl, by simp⟩ (.inr ⟨.forward [8, 13, 8], rfl, rfl⟩)

/-! ### C104: elements without a move constructor -/

/-- Moving an element that has no move constructor, when the copy does not throw. -/
theorem moveOneT_copied {d b i j : Nat} {D B : Block α} {s : S α} {x : α} (hk : cfg.kind = .cpy) (hd : s.mem.heap d = some D)
    (hb : s.mem.heap b = some B) (hi : i < D.len) (hj : j < B.len) (hx : B.cell j = .live x) (hne : d = b → i ≠ j)
    (h : th s.mem.ctors x = false) :
    ∃ s', moveOneT cfg th ⟨some d, i⟩ ⟨some b, j⟩ s = (.ok (), s') ∧ s'.this = s.this ∧ s'.mem.ctors = s.mem.ctors + 1 ∧
      (d ≠ b → s'.mem.heap d = some (D.set i (.live x)) ∧ s'.mem.heap b = some (B.set j .raw)) ∧
      (d = b → s'.mem.heap b = some ((B.set i (.live x)).set j .raw)) := by
  unfold moveOneT
  rw [bind_ok (load_ok hb hj hx), hk]
  simp only
  rw [bind_ok ((constructAtT_ok h _).trans (constructAt_ok hd hi x))]
  by_cases e : d = b
  · subst e
    rw [hd] at hb
    cases hb
    have hr : ((D.set i (.live x)).cell j).empty cfg.strict = false := by
      rw [set_cell, if_neg (fun h => hne rfl h.symm), hx]; rfl
    rw [destroyPtr_ok (by rw [hk]; simp) (put_same _ _ _ _ _) (by simpa using hj) hr]
    exact ⟨_, rfl, rfl, rfl, fun h => absurd rfl h, fun _ => put_same _ _ _ _ _⟩
  · have hb' : (s.put d (D.set i (.live x)) 1 0 0).mem.heap b = some B := by rw [put_other (Ne.symm e), hb]
    rw [destroyPtr_ok (by rw [hk]; simp) hb' hj (by rw [hx]; rfl)]
    exact ⟨_, rfl, rfl, rfl, fun _ => ⟨by rw [put_other e, put_same], put_same _ _ _ _ _⟩, fun h => absurd h e⟩

/-- Moving elements into another block, when the copy of the `k`-th throws. -/
theorem moveLoopFwdT_away {d b i j k : Nat} {D B : Block α} {s : S α} {l : List α} (hk : cfg.kind = .cpy) (hne : d ≠ b)
    (hd : s.mem.heap d = some D) (hb : s.mem.heap b = some B) (hi : i + l.length ≤ D.len) (hj : j + l.length ≤ B.len)
    (hl : ∀ t, t < l.length → B.cell (j + t) = cellOf l t) (h : ThrowsAt th s.mem.ctors l k) :
    ∃ s', moveLoopFwdT cfg th ⟨some d, i⟩ ⟨some b, j⟩ l.length s = (.error (.throw "element"), s') := by
  induction l generalizing i j k D B s with
  | nil => exact absurd h.lt (by simp)
  | cons x l ih =>
    simp only [List.length_cons] at hi hj hl ⊢
    simp only [moveLoopFwdT]
    have h0 := hl 0 (by omega)
    rw [Nat.add_zero, cellOf_cons_zero] at h0
    cases k with
    | zero =>
      obtain ⟨_, y, hy, ht⟩ := h
      simp only [List.getElem?_cons_zero, Option.some.injEq] at hy
      subst hy
      refine ⟨s, bind_err ?_⟩
      unfold moveOneT
      rw [bind_ok (load_ok hb (by omega) h0), hk]
      exact bind_err (constructAtT_throw (by simpa using ht) _)
    | succ k =>
      obtain ⟨h1, h2⟩ := h.tail
      obtain ⟨s', e, _, hc, hh, _⟩ := moveOneT_copied (th := th) hk hd hb (i := i) (by omega) (by omega) h0 (fun e => absurd e hne) h1
      obtain ⟨hd', hb'⟩ := hh hne
      rw [bind_ok e]
      simp only [Ptr.add]
      refine ih hd' hb' (by simp; omega) (by simp; omega) (fun t ht => ?_) (by rw [hc]; exact h2)
      have := hl (t + 1) (by omega)
      rw [cellOf_cons_succ] at this
      rw [set_cell, if_neg (by omega), ← this]
      congr 1; omega

/-- Closing a gap of one element, when the copy of the `k`-th throws: the gap is now `k` elements further. -/
theorem moveLoopFwdT_gap {b i k : Nat} {B : Block α} {s : S α} {l : List α} (hk : cfg.kind = .cpy) (hb : s.mem.heap b = some B)
    (hi : i + 1 + l.length ≤ B.len) (hl : ∀ t, t < l.length → B.cell (i + 1 + t) = cellOf l t) (hgap : B.cell i = .raw)
    (h : ThrowsAt th s.mem.ctors l k) :
    ∃ s' D, moveLoopFwdT cfg th ⟨some b, i⟩ ⟨some b, i + 1⟩ l.length s = (.error (.throw "element"), s') ∧ s'.this = s.this ∧
      s'.mem.heap b = some D ∧ D.len = B.len ∧ D.cell (i + k) = .raw := by
  induction l generalizing i k B s with
  | nil => exact absurd h.lt (by simp)
  | cons x l ih =>
    simp only [List.length_cons] at hi hl ⊢
    simp only [moveLoopFwdT]
    have h0 := hl 0 (by omega)
    rw [Nat.add_zero, cellOf_cons_zero] at h0
    cases k with
    | zero =>
      obtain ⟨_, y, hy, ht⟩ := h
      simp only [List.getElem?_cons_zero, Option.some.injEq] at hy
      subst hy
      refine ⟨s, B, bind_err ?_, rfl, hb, rfl, hgap⟩
      unfold moveOneT
      rw [bind_ok (load_ok hb (by omega) h0), hk]
      exact bind_err (constructAtT_throw (by simpa using ht) _)
    | succ k =>
      obtain ⟨h1, h2⟩ := h.tail
      obtain ⟨s1, e, ht, hc, _, hh⟩ := moveOneT_copied (th := th) hk hb hb (i := i) (by omega) (by omega) h0 (fun _ => by omega) h1
      have hb' := hh rfl
      rw [bind_ok e]
      simp only [Ptr.add]
      obtain ⟨s', D, e', ht', hD, hlen, hcell⟩ := ih (i := i + 1) (k := k) hb' (by simp; omega) (fun t ht => by
        have := hl (t + 1) (by omega)
        rw [cellOf_cons_succ] at this
        rw [set_cell, if_neg (by omega), set_cell, if_neg (by omega), ← this]
        congr 1; omega) (by rw [set_cell, if_pos rfl]) (by rw [hc]; exact h2)
      refine ⟨s', D, e', ht'.trans ht, hD, by simpa using hlen, ?_⟩
      rw [← hcell]; congr 1; omega

/-- C104 is violated by `reserve` in every state of vectors whose elements have no move constructor: when the copy of an element throws,
the program ends. -/
theorem reserve_throws_violated [DecidableEq α] {n k : Nat} (hg : Good cfg) (hk : cfg.kind = .cpy) (hr : Reachable cfg w)
    (hl : Lucky cfg w.mem) (hx : w.Reads i xs) (hn : w.capacity i < n) (hfit : Fits cfg n) (h : ThrowsAt th w.mem.ctors xs k) :
    (w.member i (noRet (reserveT cfg th n))).1 = .error (.throw "terminate") := by
  obtain ⟨v, hv, hok, hfr⟩ := hr.vec hg hx
  have hlt := h.lt
  rw [capacity_eq hv] at hn
  have hbn := fun b (hb : v.start = some b) => hok.start_lt hfr hb
  rcases hok with ⟨_, rfl⟩ | ⟨b, B, rfl, hB, hb⟩
  · simp at hlt
  have hbn := hbn b rfl
  simp only at hn
  have hle := hb.le
  let s : S α := ⟨w.mem, ⟨some b, xs.length, B.len⟩⟩
  have hD : (s.grown n).mem.heap w.mem.next = some ⟨n, fun _ => .raw⟩ := by simp [s, S.grown, upd]
  have hB' : (s.grown n).mem.heap b = some B := by
    simp only [s, S.grown, upd]; rw [if_neg (by omega), hB]
  have hne : w.mem.next ≠ b := by omega
  have : ∃ s', reserveT cfg th n s = (.error (.throw "terminate"), s') := by
    unfold reserveT
    rw [bind_ok (this_apply _), doIf_pos (by simpa [s] using hn)]
    unfold reallocWithOldDataT
    rw [bind_ok (this_apply _), bind_ok (assert_true (by simp [s]; omega) _)]
    simp only [s]
    rw [bind_ok (assert_true (by simp; omega) _), bind_ok (malloc_lucky hg hl hfit.lt)]
    simp only
    rw [Nat.min_eq_left (by omega)]
    let s1 : S α := { s.grown n with mem := { (s.grown n).mem with relocs := (s.grown n).mem.relocs + xs.length } }
    obtain ⟨s', e⟩ := moveLoopFwdT_away (cfg := cfg) (th := th) (s := s1) (i := 0) (j := 0) (l := xs) (k := k) hk hne hD hB'
      (by simp; omega) (by omega) (fun t ht => by rw [Nat.zero_add]; exact hb.live t ht) h
    have hm : moveRangeNoOverlapT cfg th ⟨some w.mem.next, 0⟩ ⟨some b, 0⟩ xs.length (s.grown n) = (.error (.throw "terminate"), s') := by
      unfold moveRangeNoOverlapT noexcept
      have : (do
          assert cfg ((⟨some w.mem.next, 0⟩ : Ptr).blk.isSome && (⟨some b, 0⟩ : Ptr).blk.isSome) "dst and src can not be nullptr"
          assert cfg (decide ((⟨some w.mem.next, 0⟩ : Ptr) ≠ ⟨some b, 0⟩)) "move_range_without_overlap should make sure dst != src"
          count 0 0 0 xs.length
          if cfg.kind.relocatable then copyBytes false ⟨some w.mem.next, 0⟩ ⟨some b, 0⟩ xs.length
          else moveLoopFwdT cfg th ⟨some w.mem.next, 0⟩ ⟨some b, 0⟩ xs.length : V α Unit) (s.grown n) = (.error (.throw "element"), s') := by
        rw [bind_ok (assert_true (by rfl) _), bind_ok (assert_true (by simp [hne]) _), bind_ok (count_apply _ _ _ _ _),
          loops_relocatable (.inr hk)]
        exact e
      rw [this]
    exact ⟨s', bind_err hm⟩
  obtain ⟨s', e⟩ := this
  have e' : reserveT cfg th n ⟨w.mem, ⟨some b, xs.length, B.len⟩⟩ = (.error (.throw "terminate"), ⟨s'.mem, s'.this⟩) := e
  rw [member_throw hv e']

/-- C104 is violated by `erase` in every state of vectors whose elements have no move constructor: when the copy of the `k`-th element
behind the one erased throws, the vector still counts all elements, one of which must be neither read nor destroyed. -/
theorem erase_throws_violated [DecidableEq α] {pos k : Nat} (hg : Good cfg) (hk : cfg.kind = .cpy) (hr : Reachable cfg w)
    (hx : w.Reads i xs) (hpos : pos < xs.length) (h : ThrowsAt th w.mem.ctors (xs.drop (pos + 1)) k) :
    ∃ w', w.member i (numRet (eraseT cfg th pos)) = (.error (.throw "element"), w') ∧ w'.size i = xs.length ∧
      (∃ m, w'.look i (at' cfg (pos + k)) = some (.error (.ub m))) ∧ ∃ m, (wstep cfg w' (.destroy i)).1 = .error (.ub m) := by
  obtain ⟨v, hv, hok, hfr⟩ := hr.vec hg hx
  have hlt := h.lt
  rcases hok with ⟨_, rfl⟩ | ⟨b, B, rfl, hB, hb⟩
  · simp at hpos
  simp only [List.length_drop] at hlt
  have h63 : B.len < 2 ^ 63 := Nat.lt_of_le_of_lt (Nat.le_mul_of_pos_right _ hg.1) hb.bound
  have hle := hb.le
  obtain ⟨x, hcx⟩ := hb.liveOn (i := pos) (n := 1) (by omega) pos (by omega) (by omega)
  let s1 : S α := (⟨w.mem, ⟨some b, xs.length, B.len⟩⟩ : S α).put b (B.set pos .raw) 0 1 0
  obtain ⟨s', D, e, hthis, hD, hlen, hcell⟩ := moveLoopFwdT_gap (cfg := cfg) (th := th) (s := s1) (i := pos) (l := xs.drop (pos + 1)) (k := k)
    hk (put_same _ _ _ _ _) (by simp; omega) (fun t ht => by
      simp only [List.length_drop] at ht
      rw [set_cell, if_neg (by omega), hb.live _ (by omega)]
      simp [cellOf, List.getElem?_drop]) (by rw [set_cell, if_pos rfl]) h
  have he : numRet (eraseT cfg th pos) ⟨w.mem, ⟨some b, xs.length, B.len⟩⟩ = (.error (.throw "element"), s') := by
    refine bind_err ?_
    unfold eraseT
    rw [bind_ok (this_apply _), bind_ok (assert_true (by simpa using hpos) _)]
    have hdes : destroyPtr cfg (Vec.ptr ⟨some b, xs.length, B.len⟩ pos) ⟨w.mem, ⟨some b, xs.length, B.len⟩⟩ = (.ok (), s1) :=
      destroyPtr_ok (s := ⟨w.mem, ⟨some b, xs.length, B.len⟩⟩) (by rw [hk]; simp) hB (by omega) (by rw [hcx]; rfl)
    rw [bind_ok hdes]
    refine bind_err ?_
    unfold moveForwardT
    rw [bind_ok (assert_true (by simp) _), bind_ok (this_apply _)]
    unfold moveRangeForwardT
    have hs1 : s1.this = ⟨some b, xs.length, B.len⟩ := rfl
    simp only [hs1]
    rw [bind_ok (assert_true (by rfl) _), bind_ok (assert_true (by simp; omega) _), bind_ok (assert_true (by simp) _),
      loops_relocatable (.inr hk)]
    simp only [Bool.false_eq_true, if_false]
    rw [sub64_of_le (by omega) (by omega)]
    rw [List.length_drop] at e
    exact e
  obtain ⟨d1, d2⟩ := dead_element (cfg := cfg) (j := pos + k) (s' := s') hv (hthis.trans rfl) hD
    (by rw [hlen]; simpa using hle) (by omega)
  rw [hcell] at d1 d2
  refine ⟨⟨s'.mem, w.vecs.set i (some s'.this)⟩, by simp only [World.member, hv, he], ?_, d1 (fun y => by simp),
    d2 (by rw [hk]; simp) rfl⟩
  rw [size_eq (set_vec hv), hthis]
  rfl

-- the second of two elements throws when it is copied
example : ((run (exCfg .cpy) World.empty wideProg).2.member 0 (noRet (reserveT (exCfg .cpy) (fun _ v => v == 1) 20))).1
    = .error (.throw "terminate") :=
  reserve_throws_violated (xs := [3, 1]) (k := 1) (by unfold Good exCfg; decide) rfl ⟨wideProg, wideLegal, rfl⟩ (fun _ _ => rfl)
    (by unfold World.Reads; decide +kernel) (by decide +kernel) (by unfold Fits exCfg; decide) ⟨by decide +kernel, 1, rfl, rfl⟩

example : ∃ w', (run (exCfg .cpy) World.empty wideProg).2.member 0 (numRet (eraseT (exCfg .cpy) (fun _ v => v == 1) 0))
      = (.error (.throw "element"), w') ∧ w'.size 0 = 2 ∧ (∃ m, w'.look 0 (at' (exCfg .cpy) (0 + 0)) = some (.error (.ub m))) ∧
      ∃ m, (wstep (exCfg .cpy) w' (.destroy 0)).1 = .error (.ub m) :=
  erase_throws_violated (xs := [3, 1]) (by unfold Good exCfg; decide) rfl ⟨wideProg, wideLegal, rfl⟩
    (by unfold World.Reads; decide +kernel) (by decide) ⟨by decide +kernel, 1, rfl, rfl⟩

end Verif.Vector
