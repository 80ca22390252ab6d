import Verif.Vector.Inv

/-!
Every member function meets its specification.
-/

namespace Verif.Vector

open V

variable {α β : Type} {cfg : Cfg α} {s s' s'' : S α} {xs ys zs : List α}

/-! ### Storage -/

theorem mul_size {n : Nat} (hg : Good cfg) (hn : n * cfg.size < 2 ^ 63) :
    mul64 n cfg.size = n * cfg.size ∧ mul64 n cfg.size / cfg.size = n := by
  have h : mul64 n cfg.size = n * cfg.size := mul64_of_lt (by omega)
  exact ⟨h, by rw [h, Nat.mul_div_cancel _ hg.1]⟩

/-- The state after a successful `malloc`. -/
def S.grown (s : S α) (n : Nat) : S α :=
  { s with mem := { s.mem with heap := upd s.mem.heap s.mem.next (some ⟨n, fun _ => .raw⟩), next := s.mem.next + 1 } }

theorem malloc_lucky {n : Nat} (hg : Good cfg) (hl : Lucky cfg s.mem) (hn : n * cfg.size < 2 ^ 63) :
    malloc cfg n s = (.ok (some s.mem.next), s.grown n) := by
  have h := mul_size hg hn
  rw [malloc_ok (by rw [h.1]; exact hl _ hn), h.2]
  rfl

theorem allocate_ok {n : Nat} (hg : Good cfg) (hl : Lucky cfg s.mem) (hn : n * cfg.size < 2 ^ 63) (h0 : 0 < n) :
    allocate cfg n s = (.ok (), { s.grown n with this := ⟨some s.mem.next, s.this.fin, n⟩ }) := by
  unfold allocate
  rw [bind_ok (assert_true (by simpa using h0) _), bind_ok (malloc_lucky hg hl hn), bind_ok (this_apply _)]
  rfl

theorem tailOK_raw (k : Kind) : TailOK k (.raw : Cell α) := by cases k <;> simp [TailOK]

theorem BlockOK.liveOn {B : Block α} (h : BlockOK cfg B xs) {i n : Nat} (hn : i + n ≤ xs.length) : LiveOn B i n := by
  intro j h1 h2
  rw [h.live j (by omega)]
  exact cellOf_live (by omega)

/-- The counters of `moveRangeNoOverlap` and the move loops balance. -/
theorem mov_bal (n : Nat) :
    movC cfg.kind n = movD cfg.kind n + movM cfg.kind n := by
  cases h : cfg.kind <;> simp [movC, movD, movM]

theorem movM_cpy (hk : cfg.kind ≠ .mov) (n : Nat) : movM cfg.kind n = 0 := by
  cases h : cfg.kind <;> first | rfl | exact absurd h hk

theorem reallocWithOldData_ok {n : Nat} (hg : Good cfg) (hf : Fresh s.mem) (hl : Lucky cfg s.mem)
    (hx : VecOK cfg s.mem s.this xs) (hn : n * cfg.size < 2 ^ 63) (h0 : 0 < n) (hle : xs.length ≤ n) :
    Ok (reallocWithOldData cfg n) s (fun _ s' => Post cfg s s' xs xs ∧ s'.this.edge = n ∧
      s'.mem.relocs = s.mem.relocs + xs.length) := by
  unfold reallocWithOldData
  refine Ok.step (this_apply _) ?_
  refine Ok.step (assert_true (by rw [hx.fin_eq]; simpa using hle) _) ?_
  rcases hx with ⟨hv, rfl⟩ | ⟨b, B, hv, hB, hok⟩
  · simp only [hv, nullVec]
    refine Ok.step (assert_true (by rfl) _) ?_
    refine Ok.step (malloc_lucky hg hl hn) ?_
    refine Ok.intro (setThis_apply _ _) ⟨⟨?_, fun b' _ h2 => ?_, .inr ⟨by simp [hv, nullVec], fun b' h => ?_⟩, ?_, ?_, ?_⟩, rfl, rfl⟩
    · refine .inr ⟨s.mem.next, ⟨n, fun _ => .raw⟩, rfl, ?_, ⟨h0, by simp, hn, by simp, fun j _ _ => tailOK_raw _⟩⟩
      simp [S.grown, upd]
    · simp only [S.grown, upd]
      rw [if_neg (fun e => h2 (by rw [e]))]
    · simp only [Option.some.injEq] at h
      subst h
      exact ⟨Nat.le_refl _, Nat.lt_succ_self _⟩
    · exact Nat.le_succ _
    · intro _; rfl
    · intro _; rfl
  · simp only [hv]
    refine Ok.step (assert_true (by simpa using h0) _) ?_
    refine Ok.step (malloc_lucky hg hl hn) ?_
    have hbn : b < s.mem.next := (VecOK.start_lt (.inr ⟨b, B, hv, hB, hok⟩) hf (by rw [hv]))
    have hne : s.mem.next ≠ b := by omega
    have hmin : min xs.length n = xs.length := by omega
    simp only [hmin]
    have hD : (s.grown n).mem.heap s.mem.next = some ⟨n, fun _ => .raw⟩ := by simp [S.grown, upd]
    have hB' : (s.grown n).mem.heap b = some B := by
      simp only [S.grown, upd]; rw [if_neg (by omega), hB]
    refine Ok.step (moveRangeNoOverlap_ok hne hD hB' hle hok.le (hok.liveOn (by omega))) ?_
    refine Ok.step (free_ok (B := holes cfg.kind B 0 xs.length) (by simp)) ?_
    refine Ok.intro (setThis_apply _ _) ⟨⟨?_, fun b' h1 h2 => ?_, .inr ⟨fun b' h => ?_, fun b' h => ?_⟩, ?_, ?_, ?_⟩, rfl, ?_⟩
    · refine .inr ⟨s.mem.next, over ⟨n, fun _ => .raw⟩ 0 xs.length B.cell, rfl, ?_, ⟨h0, hle, hn, fun j hj => ?_, fun j h1 h2 => ?_⟩⟩
      · simp [S.put, upd, hne]
      · simp only [over]
        rw [if_pos (by omega), Nat.sub_zero, hok.live j hj]
      · simp only [over]
        rw [if_neg (by omega)]
        exact tailOK_raw _
    · have e1 : b' ≠ b := fun e => h1 (by rw [hv, e])
      have e2 : b' ≠ s.mem.next := fun e => h2 (by rw [e])
      simp [S.put, upd, S.grown, e1, e2]
    · rw [hv] at h
      simp only [Option.some.injEq] at h
      subst h
      simp [upd]
    · simp only [Option.some.injEq] at h
      subst h
      exact ⟨Nat.le_refl _, Nat.lt_succ_self _⟩
    · exact Nat.le_succ _
    · intro hk
      have := mov_bal (cfg := cfg) xs.length
      simp [S.put, S.grown]
      omega
    · intro hk
      simp [S.put, S.grown, movM_cpy hk]
    · simp [S.put, S.grown]

/-! ### Capacities -/

theorem initCapacity_pos (hg : Good cfg) : 0 < initCapacity cfg := by
  unfold initCapacity
  split
  · omega
  · exact Nat.div_pos (by omega) hg.1

theorem initCapacity_le (hg : Good cfg) : initCapacity cfg * cfg.size ≤ 131072 := by
  unfold initCapacity
  split
  · rw [Nat.one_mul]; exact hg.2
  · have := Nat.div_mul_le_self 64 cfg.size
    omega

theorem Fits.mono {m n : Nat} (h : Fits cfg n) (hle : m ≤ n) : Fits cfg m := by
  unfold Fits at *
  have := Nat.mul_le_mul_right cfg.size hle
  omega

theorem Fits.lt {n : Nat} (h : Fits cfg n) : n * cfg.size < 2 ^ 63 := by
  unfold Fits at h
  omega

theorem Fits.lt_num {n : Nat} (hg : Good cfg) (h : Fits cfg n) : 2 * n < 2 ^ 63 := by
  unfold Fits at h
  have := Nat.le_mul_of_pos_right n hg.1
  omega

/-- The next capacity is larger, its storage is small enough. -/
theorem nextCapacity_ok {c : Nat} (hg : Good cfg) (hf : Fits cfg c) :
    c < nextCapacity cfg c ∧ nextCapacity cfg c * cfg.size < 2 ^ 63 := by
  have hi := initCapacity_pos hg
  have hi' := initCapacity_le hg
  have hc := hf.lt_num hg
  have hq : 0 < 131072 / cfg.size := Nat.div_pos hg.2 hg.1
  unfold Fits at hf
  unfold nextCapacity
  split
  · rename_i h
    have e : add64 (mul64 c 3) 1 = c * 3 + 1 := by
      rw [mul64_of_lt (by omega), add64_of_lt (by omega)]
    rw [e]
    refine ⟨by omega, ?_⟩
    have : (c * 3 + 1) / 2 ≤ 2 * c := by omega
    have := Nat.mul_le_mul_right cfg.size this
    rw [Nat.mul_assoc] at this
    omega
  · rename_i h
    split
    · rename_i h'
      have e : mul64 c 2 = c * 2 := mul64_of_lt (by omega)
      rw [e]
      refine ⟨by omega, ?_⟩
      rw [Nat.mul_comm c 2, Nat.mul_assoc]
      omega
    · omega

theorem computeNewCapacity_ok {n : Nat} (h : s.this.edge < n) :
    computeNewCapacity cfg n s = (.ok (max (nextCapacity cfg s.this.edge) n), s) := by
  unfold computeNewCapacity
  rw [bind_ok (this_apply _), bind_ok (assert_true (by simpa using h) _)]
  simp only [pure_apply]
  congr 2
  split <;> omega

theorem reserve_ok {n : Nat} (hg : Good cfg) (hf : Fresh s.mem) (hl : Lucky cfg s.mem)
    (hx : VecOK cfg s.mem s.this xs) (hn : n * cfg.size < 2 ^ 63) :
    Ok (reserve cfg n) s (fun _ s' => Post cfg s s' xs xs ∧ s'.this.edge = max n s.this.edge ∧
      (n ≤ s.this.edge → s' = s)) := by
  unfold reserve
  refine Ok.step (this_apply _) ?_
  by_cases h : n > s.this.edge
  · rw [doIf_pos (decide_eq_true h)]
    refine Ok.mono (reallocWithOldData_ok hg hf hl hx hn (by omega) (by have := hx.fin_le; omega)) ?_
    rintro _ s' ⟨h1, h2, h3⟩
    exact ⟨h1, by rw [h2]; omega, fun h' => by omega⟩
  · rw [doIf_neg (decide_eq_false h)]
    exact Ok.ret ⟨Post.refl hx, by omega, fun _ => rfl⟩

/-! ### `push_back` and `emplace_back` -/

theorem deref_ok {a : Arg α} {x : α} {v : Vec} {m : Mem α} (hx : VecOK cfg m v xs) (ha : a.val xs = some x)
    (he : ∀ b, v.start = some b → s.mem.heap b = m.heap b) : deref (a.ref v) s = (.ok x, s) := by
  cases a with
  | ext y =>
    simp only [Arg.val, Option.some.injEq] at ha
    subst ha
    rfl
  | own i =>
    simp only [Arg.val] at ha
    have hi : i < xs.length := by
      refine Nat.lt_of_not_le (fun h => ?_)
      rw [List.getElem?_eq_none h] at ha
      simp at ha
    rcases hx with ⟨rfl, rfl⟩ | ⟨b, B, rfl, hB, hok⟩
    · simp at hi
    · refine load_ok (B := B) (by rw [he b rfl, hB]) (Nat.lt_of_lt_of_le hi hok.le) ?_
      rw [hok.live i hi]
      simp [cellOf, ha]

theorem outside_val {a : Arg α} (h : a.outside) : ∃ x, a = .ext x := by
  cases a with
  | ext x => exact ⟨x, rfl⟩
  | own i => simp [Arg.outside] at h

theorem putAt_ok {e : Bool} {b i : Nat} {B : Block α} {arg : Ref α} {x : α} (hr : cfg.kind = .reloc → e = true)
    (hb : s.mem.heap b = some B) (hi : i < B.len) (hd : deref arg s = (.ok x, s)) :
    ∃ c, (cfg.kind ≠ .triv → c = 1) ∧
      putAt cfg e ⟨some b, i⟩ arg s = (.ok (), s.put b (B.set i (.live x)) c 0 0) := by
  cases e with
  | true =>
    refine ⟨1, fun _ => rfl, ?_⟩
    simp only [putAt, if_true]
    rw [bind_ok hd, constructAt_ok hb hi]
  | false =>
    simp only [putAt]
    unfold copyCref
    rcases not_reloc_cases (k := cfg.kind) (fun h => by cases hr h) with h | h
    · refine ⟨0, fun h' => absurd h h', ?_⟩
      rw [if_neg (by simp), bind_ok (assert_true (by rfl) _), bind_ok hd, if_pos (by rw [h]; rfl), assignTo_triv h hb hi]
    · refine ⟨1, fun _ => rfl, ?_⟩
      rw [if_neg (by simp), bind_ok (assert_true (by rfl) _), bind_ok hd,
        if_neg (by rw [loops_relocatable h]; simp), constructAt_ok hb hi]

theorem BlockOK.push {B : Block α} (h : BlockOK cfg B xs) (hlt : xs.length < B.len) (x : α) :
    BlockOK cfg (B.set xs.length (.live x)) (xs ++ [x]) := by
  refine ⟨h.pos, by simp; omega, h.bound, fun j hj => ?_, fun j h1 h2 => ?_⟩
  · rw [set_cell, cellOf_append]
    simp only [List.length_append, List.length_singleton] at hj
    by_cases e : j = xs.length
    · subst e; simp [cellOf]
    · rw [if_neg e, if_pos (by omega), h.live j (by omega)]
  · simp only [List.length_append, List.length_singleton] at h1
    rw [set_cell, if_neg (by omega)]
    exact h.tail j (by omega) h2

theorem reallocAndEmplaceBack_ok {n : Nat} {a : Arg α} {x : α} (hg : Good cfg) (hf : Fresh s.mem) (hl : Lucky cfg s.mem)
    (hx : VecOK cfg s.mem s.this xs) (hn : n * cfg.size < 2 ^ 63) (hle : xs.length < n) (ha : a.val xs = some x) :
    Ok (reallocAndEmplaceBack cfg n (a.ref s.this)) s (fun _ s' => Post cfg s s' xs (xs ++ [x]) ∧ s'.this.edge = n ∧
      s'.mem.relocs = s.mem.relocs + xs.length ∧ s'.this.start = some s.mem.next) := by
  have hfin := hx.fin_eq
  unfold reallocAndEmplaceBack
  refine Ok.step (this_apply _) ?_
  refine Ok.step (assert_true (by rw [hfin]; simpa using hle) _) ?_
  refine Ok.step (allocate_ok hg hl hn (by omega)) ?_
  refine Ok.step (this_apply _) ?_
  refine Ok.step (setThis_apply _ _) ?_
  refine Ok.step (deref_ok hx ha (fun b hb => ?_)) ?_
  · have := hx.start_lt hf hb
    simp only [S.grown, upd]
    rw [if_neg (by omega)]
  simp only [Vec.ptr, Vec.startPtr, hfin]
  have hD : ∀ v, ({ s.grown n with this := v } : S α).mem.heap s.mem.next = some ⟨n, fun _ => .raw⟩ := by
    simp [S.grown, upd]
  refine Ok.step (constructAt_ok (hD _) hle x) ?_
  rcases hx with ⟨hv, rfl⟩ | ⟨b, B, hv, hB, hok⟩
  · rw [doIf_neg (by rfl)]
    refine Ok.step (pure_apply _ _) ?_
    rw [hv]
    refine Ok.intro rfl ⟨⟨?_, fun b' _ h2 => ?_, .inr ⟨by simp [hv, nullVec], fun b' h => ?_⟩, ?_, ?_, ?_⟩, rfl, rfl, rfl⟩
    · refine .inr ⟨s.mem.next, Block.set ⟨n, fun _ => .raw⟩ 0 (.live x), rfl, put_same _ _ _ _ _, ?_⟩
      refine BlockOK.push (xs := []) ⟨?_, by simp, hn, by simp, fun j _ _ => tailOK_raw _⟩ ?_ x
      · exact hle
      · exact hle
    · have e2 : b' ≠ s.mem.next := fun e => h2 (by rw [e]; rfl)
      simp [S.put, upd, S.grown, e2]
    · simp only [put_this, Option.some.injEq] at h
      subst h
      exact ⟨Nat.le_refl _, Nat.lt_succ_self _⟩
    · exact Nat.le_succ _
    · intro _; simp [S.grown]; omega
    · intro _; rfl
  · have hbn : b < s.mem.next := (VecOK.start_lt (.inr ⟨b, B, hv, hB, hok⟩) hf (by rw [hv]))
    have hne : s.mem.next ≠ b := by omega
    have hB' : ∀ v, ({ s.grown n with this := v } : S α).mem.heap b = some B := by
      intro v; simp only [S.grown, upd]; rw [if_neg (by omega), hB]
    simp only [hv]
    have key : ∀ t : S α, t.mem.heap s.mem.next = some (Block.set ⟨n, fun _ => .raw⟩ xs.length (.live x)) →
        t.mem.heap b = some B →
        ∃ t', (doIf (0 < xs.length) (moveRangeNoOverlap cfg ⟨some s.mem.next, 0⟩ ⟨some b, 0⟩ xs.length) t
          = (.ok (), t')) ∧ t'.mem.heap b = some (holes cfg.kind B 0 xs.length) ∧
          t'.mem.heap s.mem.next = some (over (Block.set ⟨n, fun _ => .raw⟩ xs.length (.live x)) 0 xs.length B.cell) ∧
          (∀ b', b' ≠ b → b' ≠ s.mem.next → t'.mem.heap b' = t.mem.heap b') ∧ t'.this = t.this ∧
          t'.mem.next = t.mem.next ∧ t'.mem.ctors = t.mem.ctors + movC cfg.kind xs.length ∧
          t'.mem.dtors = t.mem.dtors + movD cfg.kind xs.length ∧ t'.mem.moves = t.mem.moves + movM cfg.kind xs.length ∧
          t'.mem.relocs = t.mem.relocs + xs.length := by
      intro t h1 h2
      by_cases h0 : 0 < xs.length
      · rw [doIf_pos (decide_eq_true h0)]
        refine ⟨_, moveRangeNoOverlap_ok hne h1 h2 (by simp; omega) hok.le (hok.liveOn (by omega)), ?_⟩
        simp only [put_same, put_other hne, put_this, put_next, put_ctors, put_dtors, put_moves, put_relocs]
        refine ⟨trivial, trivial, fun b' h3 h4 => ?_, trivial, trivial, by omega, by omega, by omega, trivial⟩
        rw [put_other h3, put_other h4]
      · rw [doIf_neg (decide_eq_false h0)]
        have e : xs.length = 0 := by omega
        have : movC cfg.kind 0 = 0 ∧ movD cfg.kind 0 = 0 ∧ movM cfg.kind 0 = 0 := by
          cases cfg.kind <;> simp [movC, movD, movM]
        rw [e] at h1
        rw [e, over_zero, holes_zero, this.1, this.2.1, this.2.2]
        exact ⟨t, rfl, h2, h1, fun _ _ _ => rfl, rfl, rfl, rfl, rfl, rfl, rfl⟩
    obtain ⟨t, ht, h1, h2, h3, h4, h5, h6, h7, h8, h9⟩ := key (S.put { s.grown n with
      this := ⟨some s.mem.next, xs.length + 1, n⟩ } s.mem.next (Block.set ⟨n, fun _ => .raw⟩ xs.length (.live x)) 1 0 0)
      (put_same _ _ _ _ _) (by rw [put_other (Ne.symm hne)]; exact hB' _)
    refine Ok.step ht ?_
    refine Ok.intro (free_ok h1) ⟨⟨?_, fun b' g1 g2 => ?_, .inr ⟨fun b' h => ?_, fun b' h => ?_⟩, ?_, ?_, ?_⟩, ?_, ?_, ?_⟩
    · refine .inr ⟨s.mem.next, _, ?_, by simp only [upd]; rw [if_neg hne, h2], ?_⟩
      · simp only [h4, put_this, over_len, set_len, List.length_append, List.length_singleton]
      · refine ⟨by simp; omega, by simp; omega, hn, fun j hj => ?_, fun j g1 g2 => ?_⟩
        · simp only [List.length_append, List.length_singleton] at hj
          simp only [over, set_cell, cellOf_append]
          by_cases e : j = xs.length
          · subst e; simp [cellOf]
          · rw [if_pos (by omega), if_pos (by omega), Nat.sub_zero, hok.live j (by omega)]
        · simp only [List.length_append, List.length_singleton] at g1
          simp only [over, set_cell]
          rw [if_neg (by omega), if_neg (by omega)]
          exact tailOK_raw _
    · have e1 : b' ≠ b := fun e => g1 (by rw [hv, e])
      have e2 : b' ≠ s.mem.next := fun e => g2 (by rw [h4, e]; rfl)
      simp only [upd]
      rw [if_neg e1, h3 b' e1 e2, put_other e2]
      simp only [S.grown, upd]
      rw [if_neg e2]
    · rw [hv] at h
      simp only [Option.some.injEq] at h
      subst h
      simp [upd]
    · rw [h4] at h
      simp only [put_this, Option.some.injEq] at h
      subst h
      rw [h5]
      exact ⟨Nat.le_refl _, Nat.lt_succ_self _⟩
    · rw [h5]; exact Nat.le_succ _
    · intro hk
      have := mov_bal (cfg := cfg) xs.length
      simp only [h6, h7, h8, put_ctors, put_dtors, put_moves, S.grown, List.length_append, List.length_singleton]
      omega
    · intro hk
      simp [h8, S.grown, movM_cpy hk]
    · simp only [h4, put_this]
    · simp only [h9, put_relocs, S.grown]
    · simp only [h4, put_this]

theorem full_ok (hx : VecOK cfg s.mem s.this xs) : full cfg s = (.ok (decide (s.this.edge = xs.length)), s) := by
  have h := hx.fin_le
  have h' := hx.fin_eq
  unfold full
  rw [bind_ok (this_apply _), bind_ok (assert_true (by rw [h']; simpa using h) _), h']
  rfl

theorem pushInPlace_ok {e : Bool} {a : Arg α} {x : α} (hr : cfg.kind = .reloc → e = true)
    (hx : VecOK cfg s.mem s.this xs) (hlt : xs.length < s.this.edge) (ha : a.val xs = some x) :
    Ok (do setThis { s.this with fin := s.this.fin + 1 }; putAt cfg e s.this.finPtr (a.ref s.this)) s
      (fun _ s' => Post cfg s s' xs (xs ++ [x]) ∧ s'.this.start = s.this.start ∧ s'.this.edge = s.this.edge ∧
        s'.mem.relocs = s.mem.relocs) := by
  have hx' := hx
  rcases hx with ⟨hv, rfl⟩ | ⟨b, B, hv, hB, hok⟩
  · rw [hv] at hlt; simp [nullVec] at hlt
  · rw [hv] at hlt
    refine Ok.step (setThis_apply _ _) ?_
    obtain ⟨c, hc, hp⟩ := putAt_ok (s := { s with this := ({ s.this with fin := s.this.fin + 1 } : Vec) })
      (arg := a.ref s.this) (e := e) (i := xs.length) hr hB hlt (deref_ok hx' ha (fun _ _ => rfl))
    have : s.this.finPtr = ⟨some b, xs.length⟩ := by rw [hv]; rfl
    rw [this]
    refine Ok.intro hp ?_
    have hp := Post.inplace (cfg := cfg) (s := s) (xs := xs) (ys := xs ++ [x]) (c := c) (d := 0) (m := 0)
      (by rw [hv]) (hok.push hlt x) (fun hk => by rw [hc hk]; simp; omega) (fun _ => rfl)
    have e : ({ s with this := ({ s.this with fin := s.this.fin + 1 } : Vec) } : S α).put b
        (B.set xs.length (.live x)) c 0 0 = { s.put b (B.set xs.length (.live x)) c 0 0 with
          this := ⟨some b, (xs ++ [x]).length, (B.set xs.length (Cell.live x)).len⟩ } := by
      simp [S.put, hv]
    rw [e]
    exact ⟨hp, by rw [hv], by rw [hv]; rfl, rfl⟩

theorem pushBack_ok {safe e : Bool} {a : Arg α} {x : α} (hg : Good cfg) (hr : cfg.kind = .reloc → e = true) (hf : Fresh s.mem) (hl : Lucky cfg s.mem)
    (hx : VecOK cfg s.mem s.this xs) (ha : a.val xs = some x)
    (hc : if safe then Fits cfg (xs.length + 1) else xs.length < s.this.edge) :
    Ok (pushBack cfg safe e (a.ref s.this)) s (fun _ s' => Post cfg s s' xs (xs ++ [x]) ∧
      (if xs.length < s.this.edge then s'.this.start = s.this.start ∧ s'.this.edge = s.this.edge ∧
          s'.mem.relocs = s.mem.relocs
        else s'.this.edge = nextCapacity cfg s.this.edge ∧ s'.mem.relocs = s.mem.relocs + xs.length ∧
          s'.this.start = some s.mem.next)) := by
  have hle := hx.fin_le
  unfold pushBack
  refine Ok.step (full_ok hx) ?_
  refine Ok.step (this_apply _) ?_
  by_cases hlt : xs.length < s.this.edge
  · have hdec : decide (s.this.edge = xs.length) = false := decide_eq_false (by omega)
    simp only [hdec, if_pos hlt]
    cases safe with
    | true => exact pushInPlace_ok hr hx hlt ha
    | false =>
      refine Ok.step (assert_true (by rfl) _) ?_
      exact pushInPlace_ok hr hx hlt ha
  · have he : s.this.edge = xs.length := by omega
    have hdec : decide (s.this.edge = xs.length) = true := decide_eq_true he
    simp only [hdec, if_neg hlt]
    cases safe with
    | false => simp at hc; omega
    | true =>
      simp only [if_true] at hc ⊢
      have hn := nextCapacity_ok hg (hc.mono (m := s.this.edge) (by omega))
      exact reallocAndEmplaceBack_ok hg hf hl hx hn.2 (by omega) ha

end Verif.Vector
