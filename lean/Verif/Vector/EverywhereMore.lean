import Verif.Vector.EverywhereAlloc
import Verif.Vector.CapProps

/-!
C35, C38, C46, C77 and C80 in every state: `insert` and `assign` of no elements in release builds, the buffer of `get_writebuffer`, reverse iterators over
elements moved with `memcpy`, and `reserve` of more than 2^64 bytes.
-/

namespace Verif.Vector

open V

variable {α β : Type} [DecidableEq α] {cfg : Cfg α} {w : World α} {i : Nat} {xs : List α}

/-! ### C46 -/

omit [DecidableEq α] in
/-- Elements written up to behind the end of a block. -/
theorem constructList_out {s : S α} {b k : Nat} {l : List α} {B : Block α} (hb : s.mem.heap b = some B) (hk : k ≤ B.len)
    (hi : B.len < k + l.length) : ∃ s', constructList ⟨some b, k⟩ l s = (.error (.ub "access outside the block"), s') := by
  induction l generalizing k B s with
  | nil => simp at hi; omega
  | cons v l ih =>
    rw [List.length_cons] at hi
    simp only [constructList]
    by_cases h : k < B.len
    · rw [bind_ok (constructAt_ok hb h v)]
      simp only [Ptr.add]
      exact ih (put_same _ _ _ _ _) (by simp; omega) (by simp; omega)
    · refine ⟨s, bind_err (bind_err ?_)⟩
      simp [writeCell, hb, h]

/-- C46 is violated in every state: on a vector that is not empty, filling a buffer of `get_writebuffer` that is large in comparison
with the storage writes behind the new storage. -/
theorem writebuffer_everywhere_violated {l : List α} (hg : Good cfg) (hr : Reachable cfg w) (hl : Lucky cfg w.mem) (hx : w.Reads i xs)
    (hne : xs ≠ []) (hfit : Fits cfg (xs.length + l.length)) (h64 : 64 ≤ l.length) (hcap : 2 * w.capacity i ≤ l.length) :
    ∃ m w', wstep cfg w (.call i (.writeBuffer true l)) = (.error (.ub m), w') := by
  obtain ⟨v, hv, hok, hfr⟩ := hr.vec hg hx
  have hpos : 0 < xs.length := List.length_pos_iff.2 hne
  have hfin : v.fin = xs.length := hok.fin_eq
  have hle : xs.length ≤ v.edge := hok.fin_le
  rw [capacity_eq hv] at hcap
  have hnc : nextCapacity cfg v.edge ≤ l.length := by
    have h1 := nextCapacity_le (cfg := cfg) v.edge
    have h2 := initCapacity_le hg
    have h3 : initCapacity cfg ≤ 64 := by
      unfold initCapacity
      split
      · omega
      · exact Nat.div_le_self _ _
    omega
  have hlt : l.length * cfg.size < 2 ^ 63 := (hfit.mono (m := l.length) (by omega)).lt
  have h64' : l.length + v.fin < M64 := by have := Fits.lt_num hg hfit; omega
  obtain ⟨_, s1, e1, hpost, hedge, -⟩ := reallocWithOldData_ok (s := ⟨w.mem, v⟩) (n := l.length) hg hfr hl hok hlt (by omega) (by omega)
  have hok1 := hpost.ok
  have hfin1 := hok1.fin_eq
  have eg : getWritebuffer cfg true l.length ⟨w.mem, v⟩ = (.ok xs.length, ⟨s1.mem, { s1.this with fin := s1.this.fin + l.length }⟩) := by
    unfold getWritebuffer
    rw [bind_ok (this_apply _), add64_of_lt h64', doIf_pos (by simp; omega)]
    have : (computeNewCapacity cfg l.length >>= fun c => reallocWithOldData cfg c) ⟨w.mem, v⟩ = (.ok (), s1) := by
      rw [bind_ok (computeNewCapacity_ok (s := ⟨w.mem, v⟩) (by simp only; omega)), Nat.max_eq_right hnc]
      exact e1
    rw [bind_ok this, bind_ok (this_apply _), bind_ok (setThis_apply _ _), hfin1]
    rfl
  rcases hok1 with ⟨_, rfl⟩ | ⟨b, B, hv1, hB, hb⟩
  · simp at hpos
  have hBl : B.len = l.length := by rw [hv1] at hedge; exact hedge
  obtain ⟨s2, e2⟩ := constructList_out (s := ⟨s1.mem, { s1.this with fin := s1.this.fin + l.length }⟩) (k := xs.length) (l := l) hB hb.le
    (by omega)
  have es : step cfg (.writeBuffer true l) ⟨w.mem, v⟩ = (.error (.ub "access outside the block"), s2) := by
    refine (bind_ok (this_apply _)).trans ?_
    refine bind_err ?_
    refine (bind_ok eg).trans ((bind_ok (this_apply _)).trans ?_)
    rw [hv1] at e2 ⊢
    exact e2
  exact ⟨_, _, by simp only [wstep, World.member, hv, es]; rfl⟩

/-- C46 is violated in every state of a debug build: a buffer that does not fit behind the elements but is not larger than the
capacity fails an assertion. -/
theorem writebuffer_assert_violated {l : List α} (hg : Good cfg) (hd : cfg.dbg = true) (hr : Reachable cfg w) (hx : w.Reads i xs)
    (hfit : Fits cfg (xs.length + l.length)) (hroom : w.capacity i < xs.length + l.length) (hcap : l.length ≤ w.capacity i) :
    ∃ m w', wstep cfg w (.call i (.writeBuffer true l)) = (.error (.assertFail m), w') := by
  obtain ⟨v, hv, hok, hfr⟩ := hr.vec hg hx
  have hfin : v.fin = xs.length := hok.fin_eq
  rw [capacity_eq hv] at hcap hroom
  have h64' : l.length + v.fin < M64 := by have := Fits.lt_num hg hfit; omega
  have eg : ∃ m, getWritebuffer cfg true l.length ⟨w.mem, v⟩ = (.error (.assertFail m), ⟨w.mem, v⟩) := by
    unfold getWritebuffer
    rw [bind_ok (this_apply _), add64_of_lt h64', doIf_pos (by simp; omega)]
    have ec : computeNewCapacity cfg l.length ⟨w.mem, v⟩
        = (.error (.assertFail "new_size should larger than old cap, or no need to compute new cap"), ⟨w.mem, v⟩) := by
      unfold computeNewCapacity
      rw [bind_ok (this_apply _)]
      exact bind_err (assert_false hd (by simp; omega) _)
    exact ⟨_, bind_err (bind_err ec)⟩
  obtain ⟨m, eg⟩ := eg
  have es : step cfg (.writeBuffer true l) ⟨w.mem, v⟩ = (.error (.assertFail m), ⟨w.mem, v⟩) :=
    (bind_ok (this_apply _)).trans (bind_err (bind_err eg))
  exact ⟨_, _, by simp only [wstep, World.member, hv, es]; rfl⟩

-- five elements in storage for six
example : ∃ m w', wstep (exCfg .mov) (exWorld .mov) (.call 0 (.writeBuffer true [1, 2])) = (.error (.assertFail m), w') :=
  writebuffer_assert_violated exGood rfl exReach exReads.1 (by unfold Fits exCfg; decide) (by decide +kernel) (by decide +kernel)

set_option maxRecDepth 4000 in
example : ∃ m w', wstep (exCfg .mov) (exWorld .mov) (.call 0 (.writeBuffer true (List.replicate 80 1))) = (.error (.ub m), w') :=
  writebuffer_everywhere_violated exGood exReach exLucky exReads.1 (by decide) (by unfold Fits exCfg; decide) (by decide) (by decide +kernel)

/-! ### C77 -/

/-- C77 is violated for every range: a vector of elements moved with `memcpy` that is constructed from reverse iterators has the right
size, but none of its elements has a value. -/
theorem reverse_ctor_everywhere_violated {l : List α} (hg : Good cfg) (hk : cfg.kind.relocatable = true) (hl : Lucky cfg w.mem)
    (hne : l ≠ []) (hfit : Fits cfg l.length) :
    ∃ w', wstep cfg w (.ctorRange (.reversed l)) = (.ok .unit, w') ∧ w'.size w.vecs.length = l.length ∧
      ∀ k, k < l.length → ∃ m, w'.look w.vecs.length (at' cfg k) = some (.error (.ub m)) := by
  have hpos : 0 < l.length := List.length_pos_iff.2 hne
  let s1 : S α := { (⟨w.mem, nullVec⟩ : S α).grown l.length with this := ⟨some w.mem.next, 0, l.length⟩ }
  have hmax : l.length ≤ maxSize cfg := by
    unfold maxSize
    have := hfit.lt
    have h0 := hg.1
    exact (Nat.le_div_iff_mul_le h0).2 (by omega)
  have e : ctorRange cfg (.reversed l) ⟨w.mem, nullVec⟩ = (.ok (), { s1 with this := ⟨some w.mem.next, l.length, l.length⟩ }) := by
    unfold ctorRange
    rw [bind_ok (setThis_apply _ _), bind_ok (assert_true (decide_eq_true (p := (Source.reversed l).list.length ≤ maxSize cfg) hmax) _),
      if_pos (show 0 < (Source.reversed l).list.length from hpos)]
    refine (bind_ok (allocate_ok (s := ⟨w.mem, nullVec⟩) hg hl hfit.lt hpos)).trans ((bind_ok (this_apply _)).trans ?_)
    have ec : copyFromIterator cfg ⟨some w.mem.next, 0⟩ (.reversed l) s1 = (.ok (), s1) := by
      unfold copyFromIterator
      rw [bind_ok (assert_true (by rfl) _), bind_ok (assert_true (decide_eq_true (p := (Source.reversed l).list ≠ []) hne) _), hk]
      rfl
    exact (bind_ok ec).trans rfl
  refine ⟨⟨s1.mem, w.vecs ++ [some ⟨some w.mem.next, l.length, l.length⟩]⟩, by simp only [wstep, World.construct, e], ?_, fun k hk' => ?_⟩
  · rw [size_eq (v := ⟨some w.mem.next, l.length, l.length⟩) (by simp)]
  · rw [look_eq (v := ⟨some w.mem.next, l.length, l.length⟩) (by simp)]
    obtain ⟨m, hm⟩ := load_raw (s := ⟨s1.mem, ⟨some w.mem.next, l.length, l.length⟩⟩) (b := w.mem.next) (i := k)
      (B := ⟨l.length, fun _ => .raw⟩) (grown_heap ⟨w.mem, nullVec⟩ l.length) hk' (by simp)
    refine ⟨m, ?_⟩
    unfold at'
    rw [bind_ok (this_apply _), bind_ok (assert_true (by simpa using hk') _)]
    exact congrArg (fun r => some r.1) hm

example : ∃ w', wstep (exCfg .reloc) World.empty (.ctorRange (.reversed [1, 2, 3])) = (.ok .unit, w') ∧
    w'.size (World.empty (α := Nat)).vecs.length = 3 ∧
    ∀ k, k < 3 → ∃ m, w'.look (World.empty (α := Nat)).vecs.length (at' (exCfg .reloc) k) = some (.error (.ub m)) :=
  reverse_ctor_everywhere_violated (by unfold Good exCfg; decide) rfl (fun _ _ => rfl) (by decide) (by unfold Fits exCfg; decide)

/-- C77 is violated in every state: `assign` from reverse iterators to a vector of trivial elements keeps the old elements, as many as
are assigned. -/
theorem reverse_assign_everywhere_violated {l : List α} (hg : Good cfg) (hk : cfg.kind = .triv) (hr : Reachable cfg w) (hx : w.Reads i xs)
    (hne : l ≠ []) (hle : l.length ≤ xs.length) :
    ∃ w', wstep cfg w (.call i (.assignRange (.reversed l))) = (.ok .unit, w') ∧ w'.Reads i (xs.take l.length) := by
  obtain ⟨v, hv, hok, -⟩ := hr.vec hg hx
  have hpos : 0 < l.length := List.length_pos_iff.2 hne
  rcases hok with ⟨_, rfl⟩ | ⟨b, B, rfl, hB, hb⟩
  · simp at hle; exact absurd hle hne
  have hl := hb.le
  have e : assignRange cfg (.reversed l) ⟨w.mem, ⟨some b, xs.length, B.len⟩⟩ = (.ok (), ⟨w.mem, ⟨some b, l.length, B.len⟩⟩) := by
    unfold assignRange
    rw [bind_ok (this_apply _)]
    have ed : destroyAll cfg ⟨w.mem, ⟨some b, xs.length, B.len⟩⟩ = (.ok (), ⟨w.mem, ⟨some b, xs.length, B.len⟩⟩) := by
      unfold destroyAll
      rw [bind_ok (this_apply _), bind_ok (assert_true (by simpa using hb.le) _)]
      exact destroyRange_triv hk _ _ _
    have ec : copyFromIterator cfg ⟨some b, 0⟩ (.reversed l) (⟨w.mem, ⟨some b, xs.length, B.len⟩⟩ : S α)
        = (.ok (), ⟨w.mem, ⟨some b, xs.length, B.len⟩⟩) := by
      unfold copyFromIterator
      rw [bind_ok (assert_true (by rfl) _), bind_ok (assert_true (decide_eq_true (p := (Source.reversed l).list ≠ []) hne) _), hk]
      rfl
    refine (congrFun (if_neg (show ¬ (Source.reversed l).list.length > B.len from Nat.not_lt.2 (Nat.le_trans hle hl))) _).trans ?_
    refine (bind_ok ed).trans ((congrFun (if_pos (show 0 < (Source.reversed l).list.length from hpos)) _).trans ?_)
    exact (bind_ok ec).trans rfl
  refine ⟨_, member_ok hv e, ?_⟩
  have hlen : (xs.take l.length).length = l.length := by rw [List.length_take]; omega
  have hok' : VecOK cfg w.mem ⟨some b, l.length, B.len⟩ (xs.take l.length) := by
    refine .inr ⟨b, B, by rw [hlen], hB, ⟨hb.pos, by omega, hb.bound, fun j hj => ?_, fun j _ _ => ?_⟩⟩
    · rw [hb.live j (by omega)]
      simp only [cellOf]
      rw [List.getElem?_take_of_lt (by omega)]
    · rw [hk]; trivial
  unfold World.Reads World.read
  rw [look_eq (set_vec hv), hok'.toList_ok]

example : ∃ w', wstep (exCfg .triv) (run (exCfg .triv) World.empty [.ctorRange (.contiguous [7, 8, 9])]).2
    (.call 0 (.assignRange (.reversed [1, 2]))) = (.ok .unit, w') ∧ w'.Reads 0 [7, 8] :=
  reverse_assign_everywhere_violated (xs := [7, 8, 9]) (by unfold Good exCfg; decide) rfl
    ⟨[.ctorRange (.contiguous [7, 8, 9])], ⟨fun _ _ => rfl, ⟨by simp [Source.Copied, exCfg], by unfold Fits exCfg; decide⟩, trivial⟩, rfl⟩
    (by unfold World.Reads; decide +kernel) (by decide) (by decide)

/-! ### C80 -/

/-- C80 is violated in every state: when `n` elements have more than 2^64 bytes, `reserve(n)` on a vector without storage asks for the
number of bytes modulo 2^64 and, if it gets them, claims to have room for `n` elements.  Writing more elements than fit into those
bytes is undefined. -/
theorem reserve_huge_everywhere_violated {n : Nat} (hg : Good cfg) (hr : Reachable cfg w) (hx : w.Reads i []) (hnone : w.data i = none)
    (hn : 0 < n) (hbig : 2 ^ 64 ≤ n * cfg.size) (hm : cfg.malloc w.mem.next (n * cfg.size % 2 ^ 64) = true) :
    ∃ w', wstep cfg w (.call i (.reserve n)) = (.ok .unit, w') ∧ w'.capacity i = n ∧ n * cfg.size % 2 ^ 64 / cfg.size < n ∧
      ∀ l, n * cfg.size % 2 ^ 64 / cfg.size < l.length → l.length ≤ n → l.length < 2 ^ 64 →
        ∃ m, (wstep cfg w' (.call i (.fill true l.length l))).1 = .error (.ub m) := by
  obtain ⟨v, hv, hok, -⟩ := hr.vec hg hx
  rw [data_eq hv] at hnone
  rcases hok with ⟨rfl, -⟩ | ⟨b, B, rfl, hB, hb⟩
  case inr => cases hnone
  let bytes := n * cfg.size % 2 ^ 64
  let m1 : Mem α := { w.mem with heap := upd w.mem.heap w.mem.next (some ⟨bytes / cfg.size, fun _ => .raw⟩), next := w.mem.next + 1 }
  have em : malloc cfg n (⟨w.mem, nullVec⟩ : S α) = (.ok (some w.mem.next), ⟨m1, nullVec⟩) := by
    unfold malloc
    simp only
    exact if_pos hm
  have er : reserve cfg n ⟨w.mem, nullVec⟩ = (.ok (), ⟨m1, ⟨some w.mem.next, 0, n⟩⟩) := by
    unfold reserve
    rw [bind_ok (this_apply _), doIf_pos (by simpa [nullVec] using hn)]
    unfold reallocWithOldData
    rw [bind_ok (this_apply _), bind_ok (assert_true (by simp [nullVec]) _)]
    refine (bind_ok (assert_true (by rfl) _)).trans ((bind_ok em).trans rfl)
  have hlt : bytes / cfg.size < n := by
    have h1 : bytes < 2 ^ 64 := Nat.mod_lt _ (by decide)
    exact (Nat.div_lt_iff_lt_mul hg.1).2 (by omega)
  refine ⟨_, member_ok hv er, by rw [capacity_eq (set_vec hv)], hlt, fun l h1 h2 h3 => ?_⟩
  obtain ⟨s2, e2⟩ := constructList_out (s := ⟨m1, ⟨some w.mem.next, 0, n⟩⟩) (b := w.mem.next) (k := 0) (l := l)
    (B := ⟨bytes / cfg.size, fun _ => .raw⟩) (by simp [m1, upd]) (Nat.zero_le _) (by simpa using h1)
  have ef : fill cfg true l.length l ⟨m1, ⟨some w.mem.next, 0, n⟩⟩ = (.error (.ub "access outside the block"), s2) := by
    unfold fill
    rw [bind_ok (this_apply _)]
    simp only
    rw [add64_of_lt (by exact h3), doIf_neg (by simp; omega), bind_ok (pure_apply _ _), bind_ok (this_apply _)]
    exact bind_err e2
  refine ⟨"access outside the block", ?_⟩
  have := member_throw (x := fill cfg true l.length l) (w := ⟨m1, w.vecs.set i (some ⟨some w.mem.next, 0, n⟩)⟩) (set_vec hv) ef
  exact congrArg Prod.fst this

example : ∃ w', wstep (exCfg .mov) (exWorld .mov) (.call 1 (.reserve (2 ^ 60 + 3))) = (.ok .unit, w') ∧ w'.capacity 1 = 2 ^ 60 + 3 ∧
    (2 ^ 60 + 3) * 16 % 2 ^ 64 / 16 < 2 ^ 60 + 3 ∧
    ∀ l : List Nat, (2 ^ 60 + 3) * 16 % 2 ^ 64 / 16 < l.length → l.length ≤ 2 ^ 60 + 3 → l.length < 2 ^ 64 →
      ∃ m, (wstep (exCfg .mov) w' (.call 1 (.fill true l.length l))).1 = .error (.ub m) :=
  reserve_huge_everywhere_violated exGood exReach exReads.2.1 (by decide +kernel) (by decide) (by unfold exCfg; decide) rfl

/-! ### C35 in release builds -/

omit [DecidableEq α] in
/-- An element moved to the place it is in. -/
theorem moveOne_self {s : S α} {b k : Nat} {B : Block α} {v : α} (hk : cfg.kind.loops) (hb : s.mem.heap b = some B) (hd : k < B.len)
    (hc : B.cell k = .live v) :
    ∃ s' c, moveOne cfg ⟨some b, k⟩ ⟨some b, k⟩ s = (.ok (), s') ∧ s'.mem.heap b = some (B.set k c) ∧ s'.this = s.this ∧ ∀ y, c ≠ .live y := by
  have hset : ∀ c d : Cell α, (B.set k c).set k d = B.set k d := by
    intro c d
    simp only [Block.set]
    congr 1
    funext j
    split <;> rfl
  unfold moveOne
  rw [bind_ok (load_ok hb hd hc)]
  rcases hk with hk | hk
  · simp only [hk]
    rw [bind_ok (constructAt_ok hb hd v), bind_ok (writeCell_ok (put_same _ _ _ _ _) (by exact hd) _), count_apply]
    exact ⟨_, .moved, rfl, (put_same _ _ _ _ _).trans (by rw [hset]), rfl, by simp⟩
  · simp only [hk]
    rw [bind_ok (constructAt_ok hb hd v)]
    have hne : cfg.kind ≠ .triv := by rw [hk]; simp
    rw [destroyPtr_ok hne (put_same _ _ _ _ _) (by exact hd) (by simp [Block.set, Cell.empty])]
    exact ⟨_, .raw, rfl, (put_same _ _ _ _ _).trans (by rw [hset]), rfl, by simp⟩

omit [DecidableEq α] in
theorem moveLoopBwd_self {b k n : Nat} {B : Block α} {s : S α} (hk : cfg.kind.loops) (hb : s.mem.heap b = some B) (hd : k + n ≤ B.len)
    (hl : LiveOn B k n) :
    ∃ s' B', moveLoopBwd cfg ⟨some b, k⟩ ⟨some b, k⟩ n s = (.ok (), s') ∧ s'.mem.heap b = some B' ∧ s'.this = s.this ∧ B'.len = B.len ∧
      (∀ j, k ≤ j → j < k + n → ∀ y, B'.cell j ≠ .live y) ∧
      (∀ j, j < k → B'.cell j = B.cell j) ∧ ∀ j, k + n ≤ j → B'.cell j = B.cell j := by
  induction n generalizing s B with
  | zero => exact ⟨s, B, rfl, hb, rfl, rfl, fun j h1 h2 => by omega, fun _ _ => rfl, fun _ _ => rfl⟩
  | succ n ih =>
    obtain ⟨v, hv⟩ := hl (k + n) (by omega) (by omega)
    obtain ⟨s1, c, e1, h1, ht1, hc⟩ := moveOne_self hk hb (by omega) hv
    obtain ⟨s2, B', e2, h2, ht2, hlen, hdead, hsame, hrest⟩ := ih (s := s1) (B := B.set (k + n) c) h1 (by simp only [Block.set]; omega)
      (fun j h3 h4 => by
        obtain ⟨y, hy⟩ := hl j h3 (by omega)
        exact ⟨y, by simp only [Block.set]; rw [if_neg (by omega)]; exact hy⟩)
    refine ⟨s2, B', ?_, h2, ht2.trans ht1, hlen, fun j h3 h4 y => ?_, fun j h3 => ?_, fun j h3 => ?_⟩
    · unfold moveLoopBwd
      have : moveBack cfg ((⟨some b, k⟩ : Ptr).add n) ((⟨some b, k⟩ : Ptr).add n) s = (.ok (), s1) := by
        unfold moveBack
        rw [loops_relocatable hk]
        exact e1
      rw [bind_ok this]
      exact e2
    · by_cases hj : j < k + n
      · exact hdead j h3 hj y
      · obtain rfl : j = k + n := by omega
        rw [hrest (k + n) (Nat.le_refl _)]
        simp only [Block.set, if_true]
        exact hc y
    · rw [hsame j h3]
      simp only [Block.set]
      rw [if_neg (by omega)]
    · rw [hrest j (by omega)]
      simp only [Block.set]
      rw [if_neg (by omega)]

/-- C35 is violated in every state of a release build: inserting no copies of a value before the end of a vector whose elements are
moved one by one succeeds, and the elements from the position on cannot be read any more. -/
theorem insert_none_release_violated {pos : Nat} {x : α} {safe : Bool} (hd : cfg.dbg = false) (hk : cfg.kind.loops) (hg : Good cfg)
    (hr : Reachable cfg w) (hx : w.Reads i xs) (hpos : pos < xs.length) :
    ∃ w', wstep cfg w (.call i (.insertN safe pos 0 (.ext x))) = (.ok (.num pos), w') ∧ w'.size i = xs.length ∧
      ∀ k, pos ≤ k → k < xs.length → ∃ m, w'.look i (at' cfg k) = some (.error (.ub m)) := by
  obtain ⟨v, hv, hok, -⟩ := hr.vec hg hx
  have hn : xs.length < M64 := by
    have h1 := hok.bound
    have h2 := hok.fin_le
    have h3 := Nat.le_mul_of_pos_right v.edge hg.1
    omega
  rcases hok with ⟨_, rfl⟩ | ⟨b, B, rfl, hB, hb⟩
  · simp at hpos
  have hle := hb.le
  have ha : ∀ (c : Bool) (m : String) (s : S α), assert cfg c m s = (.ok (), s) := fun c m s => by
    simp only [assert, hd]; rfl
  obtain ⟨⟨m', v'⟩, B', e, hB', ht, hlen, hdead, -⟩ := moveLoopBwd_self (cfg := cfg) (s := ⟨w.mem, ⟨some b, xs.length, B.len⟩⟩) (k := pos)
    (n := xs.length - pos) hk hB (by omega) (hb.liveOn (by omega))
  simp only at ht hB'
  subst ht
  have er : makeRoom cfg safe pos 0 ⟨w.mem, ⟨some b, xs.length, B.len⟩⟩ = (.ok (), ⟨m', ⟨some b, xs.length, B.len⟩⟩) := by
    unfold makeRoom
    rw [bind_ok (this_apply _)]
    simp only
    rw [add64_of_lt (by omega), doIf_neg (by simp; omega), bind_ok (pure_apply _ _), bind_ok (this_apply _), bind_ok (ha _ _ _)]
    rw [if_neg (by simp only; omega)]
    unfold moveBackward
    rw [bind_ok (this_apply _), bind_ok (ha _ _ _), bind_ok (ha _ _ _), bind_ok (ha _ _ _)]
    exact e
  have ei : insertN cfg safe pos 0 (.ext x) ⟨w.mem, ⟨some b, xs.length, B.len⟩⟩ = (.ok pos, ⟨m', ⟨some b, xs.length, B.len⟩⟩) := by
    unfold insertN
    rw [bind_ok (ha _ _ _), bind_ok (this_apply _), bind_ok (ha _ _ _), bind_ok er, bind_ok (this_apply _)]
    have ec : constructRange cfg (Vec.ptr ⟨some b, xs.length, B.len⟩ pos) 0 (.ext x) ⟨m', ⟨some b, xs.length, B.len⟩⟩
        = (.ok (), ⟨m', ⟨some b, xs.length, B.len⟩⟩) := by
      unfold constructRange
      rw [bind_ok (ha _ _ _), bind_ok (ha _ _ _)]
      rfl
    exact (bind_ok ec).trans rfl
  have es : step cfg (.insertN safe pos 0 (.ext x)) ⟨w.mem, ⟨some b, xs.length, B.len⟩⟩
      = (.ok (.num pos), ⟨m', ⟨some b, xs.length, B.len⟩⟩) := (bind_ok (this_apply _)).trans (bind_ok ei)
  refine ⟨⟨m', w.vecs.set i (some ⟨some b, xs.length, B.len⟩)⟩, by simp only [wstep, World.member, hv, es], by rw [size_eq (set_vec hv)],
    fun k h1 h2 => ?_⟩
  exact (dead_element (cfg := cfg) (j := k) hv (s' := ⟨m', ⟨some b, xs.length, B.len⟩⟩) (by rfl) hB' (by omega) h2).1
    (hdead k h1 (by omega))

example : let cfg : Cfg Nat := vCfg .mov false
    ∃ w', wstep cfg (run cfg World.empty [.ctorRange (.contiguous [1, 2, 3])]).2 (.call 0 (.insertN true 1 0 (.ext 9))) = (.ok (.num 1), w') ∧
      w'.size 0 = 3 ∧ ∀ k, 1 ≤ k → k < 3 → ∃ m, w'.look 0 (at' cfg k) = some (.error (.ub m)) :=
  insert_none_release_violated (xs := [1, 2, 3]) rfl (.inl rfl) (by unfold Good vCfg; decide)
    ⟨[.ctorRange (.contiguous [1, 2, 3])], ⟨fun _ _ => rfl, ⟨by simp [Source.Copied, vCfg], by unfold Fits vCfg; decide⟩, trivial⟩, rfl⟩
    (by unfold World.Reads; decide +kernel) (by decide)

/-! ### C38 in release builds -/

/-- C38: in a release build `assign(0, value)` empties the vector. -/
theorem assign_zero_release {x : α} (hd : cfg.dbg = false) (hg : Good cfg) (hr : Reachable cfg w) (hl : Lucky cfg w.mem)
    (hx : w.Reads i xs) : ∃ w', wstep cfg w (.call i (.assignN 0 (.ext x))) = (.ok .unit, w') ∧ Becomes cfg w w' i [] := by
  obtain ⟨w', e, hb⟩ := clear_empties hg hr hl hx
  obtain ⟨v, hv, -, -⟩ := hr.vec hg hx
  refine ⟨w', ?_, hb⟩
  rw [← e]
  have ha : ∀ (c : Bool) (m : String) (s : S α), assert cfg c m s = (.ok (), s) := fun c m s => by
    simp only [assert, hd]; rfl
  have : assignN cfg 0 (.ext x) ⟨w.mem, v⟩ = clear cfg ⟨w.mem, v⟩ := by
    unfold assignN clear
    rw [bind_ok (this_apply _), if_neg (by omega)]
    rcases ed : destroyAll cfg ⟨w.mem, v⟩ with ⟨r, s1⟩
    cases r with
    | error e => rw [bind_err ed, bind_err ed]
    | ok u =>
      rw [bind_ok ed, bind_ok ed, bind_ok (this_apply _), bind_ok (this_apply _), bind_ok (setThis_apply _ _)]
      unfold constructRange
      rw [bind_ok (ha _ _ _), bind_ok (ha _ _ _)]
      rfl
  have es : step cfg (.assignN 0 (.ext x)) ⟨w.mem, v⟩ = step cfg .clear ⟨w.mem, v⟩ := by
    show noRet (assignN cfg 0 (.ext x)) ⟨w.mem, v⟩ = noRet (clear cfg) ⟨w.mem, v⟩
    unfold noRet
    rcases ec : clear cfg ⟨w.mem, v⟩ with ⟨r, s1⟩
    rw [ec] at this
    cases r with
    | error e => rw [bind_err ec, bind_err this]
    | ok u => rw [bind_ok ec, bind_ok this]
  simp only [wstep, World.member, hv, es]

example : let cfg : Cfg Nat := vCfg .mov false
    let w := (run cfg World.empty [.ctorRange (.contiguous [1, 2, 3])]).2
    ∃ w', wstep cfg w (.call 0 (.assignN 0 (.ext 9))) = (.ok .unit, w') ∧ Becomes cfg w w' 0 [] :=
  assign_zero_release (xs := [1, 2, 3]) rfl (by unfold Good vCfg; decide)
    ⟨[.ctorRange (.contiguous [1, 2, 3])], ⟨fun _ _ => rfl, ⟨by simp [Source.Copied, vCfg], by unfold Fits vCfg; decide⟩, trivial⟩, rfl⟩
    (fun _ _ => rfl) (by unfold World.Reads; decide +kernel)

end Verif.Vector
