import Verif.Vector.Everywhere

/-!
C42 for every element type of more than 128 KiB, in every state.
-/

namespace Verif.Vector

variable {α : Type} {cfg : Cfg α} {w : World α} {i : Nat}

/-! ### Lemmas -/

theorem nextCapacity_big (h : 131072 < cfg.size) : nextCapacity cfg 0 = 0 := by
  have h0 : 131072 / cfg.size = 0 := Nat.div_eq_of_lt h
  unfold nextCapacity
  rw [h0, if_neg (by omega), if_pos (Nat.le_refl 0)]
  rfl

/-- Growing a vector without capacity to the capacity 0. -/
theorem grow_to_nothing (x : α) {s : S α} :
    (cfg.dbg = true → ∃ m s', reallocAndEmplaceBack cfg 0 (.ext x) s = (.error (.assertFail m), s')) ∧
    (cfg.dbg = false → (∃ s', reallocAndEmplaceBack cfg 0 (.ext x) s = (.error (.throw "bad_alloc"), s')) ∨
      ∃ m s', reallocAndEmplaceBack cfg 0 (.ext x) s = (.error (.ub m), s')) ∧
    (cfg.dbg = false → cfg.malloc s.mem.next 0 = true → ∃ m s', reallocAndEmplaceBack cfg 0 (.ext x) s = (.error (.ub m), s')) := by
  have hz : mul64 0 cfg.size = 0 := by simp [mul64]
  have rel : cfg.dbg = false → reallocAndEmplaceBack cfg 0 (.ext x) s = (do
      allocate cfg 0
      let v ← this
      setThis { v with fin := s.this.fin + 1 }
      let x ← deref (.ext x)
      constructAt (v.ptr s.this.fin) x
      doIf (0 < s.this.fin) (moveRangeNoOverlap cfg v.startPtr s.this.startPtr s.this.fin)
      free s.this.start : V α Unit) s := fun hd => by
    unfold reallocAndEmplaceBack
    rw [bind_ok (this_apply _)]
    exact bind_ok (by simp only [assert, hd]; rfl)
  have bad : cfg.dbg = false → cfg.malloc s.mem.next 0 = true → ∃ m s', reallocAndEmplaceBack cfg 0 (.ext x) s = (.error (.ub m), s') := by
    intro hd hm
    have ha : allocate cfg 0 s = (.ok (), ⟨{ s.mem with
        heap := upd s.mem.heap s.mem.next (some ⟨0, fun _ => .raw⟩), next := s.mem.next + 1 }, ⟨some s.mem.next, s.this.fin, 0⟩⟩) := by
      unfold allocate
      rw [bind_ok (show assert cfg _ _ s = (.ok (), s) by simp only [assert, hd]; rfl)]
      rw [bind_ok (show malloc cfg 0 s = (.ok (some s.mem.next), { s with mem := { s.mem with
        heap := upd s.mem.heap s.mem.next (some ⟨0, fun _ => .raw⟩), next := s.mem.next + 1 } }) by
          simp only [malloc, hz, hm, if_true, Nat.zero_div])]
      rfl
    have hc : ∀ t : S α, t.mem.heap s.mem.next = some ⟨0, fun _ => .raw⟩ →
        constructAt (Vec.ptr ⟨some s.mem.next, s.this.fin, 0⟩ s.this.fin) x t = (.error (.ub "access outside the block"), t) := by
      intro t ht
      unfold constructAt
      refine bind_err ?_
      unfold writeCell
      simp only [Vec.ptr, ht]
      exact if_neg (Nat.not_lt_zero _)
    refine ⟨"access outside the block", ⟨{ s.mem with
        heap := upd s.mem.heap s.mem.next (some ⟨0, fun _ => .raw⟩), next := s.mem.next + 1 }, ⟨some s.mem.next, s.this.fin + 1, 0⟩⟩, ?_⟩
    rw [rel hd, bind_ok ha, bind_ok (this_apply _), bind_ok (setThis_apply _ _)]
    refine (bind_ok (x := deref (.ext x)) rfl).trans (bind_err (hc _ ?_))
    simp [upd]
  refine ⟨fun hd => ⟨"new_cap should be larger than old_size, or it will cause data loss", s, ?_⟩, fun hd => ?_, bad⟩
  · unfold reallocAndEmplaceBack
    rw [bind_ok (this_apply _), bind_err (assert_false hd (by simp) _)]
  · by_cases hm : cfg.malloc s.mem.next 0 = true
    · exact .inr (bad hd hm)
    · left
      have ha : allocate cfg 0 s = (.error (.throw "bad_alloc"), ⟨{ s.mem with next := s.mem.next + 1 }, { s.this with start := none }⟩) := by
        unfold allocate
        rw [bind_ok (show assert cfg _ _ s = (.ok (), s) by simp only [assert, hd]; rfl)]
        rw [bind_ok (show malloc cfg 0 s = (.ok none, { s with mem := { s.mem with next := s.mem.next + 1 } }) by
            simp only [malloc, hz, hm]; rfl)]
        rfl
      exact ⟨_, by rw [rel hd, bind_err ha]⟩

/-! ### C42 -/

/-- C42 is violated for every element type of more than 128 KiB, in every state: `push_back` on a vector without capacity never
succeeds.  A debug build stops with an assertion; a release build writes where there is no memory, or `malloc(0)` gives null and it
throws. -/
theorem first_push_big_violated [DecidableEq α] {x : α} {e : Bool} (hbig : 131072 < cfg.size) (hi : w.read i ≠ none) (hs : w.size i = 0)
    (hc : w.capacity i = 0) :
    (cfg.dbg = true → ∃ m w', wstep cfg w (.call i (.pushBack true e (.ext x))) = (.error (.assertFail m), w')) ∧
    (cfg.dbg = false → (∃ w', wstep cfg w (.call i (.pushBack true e (.ext x))) = (.error (.throw "bad_alloc"), w')) ∨
      ∃ m w', wstep cfg w (.call i (.pushBack true e (.ext x))) = (.error (.ub m), w')) ∧
    (cfg.dbg = false → cfg.malloc w.mem.next 0 = true →
      ∃ m w', wstep cfg w (.call i (.pushBack true e (.ext x))) = (.error (.ub m), w')) := by
  obtain ⟨v, hv⟩ : ∃ v, w.vecs[i]? = some (some v) := by
    unfold World.read World.look at hi
    split at hi
    · next v hv => exact ⟨v, hv⟩
    · exact absurd rfl hi
  rw [size_eq hv] at hs
  rw [capacity_eq hv] at hc
  have hle : v.fin ≤ v.edge := by omega
  have hp : pushBack cfg true e (.ext x) ⟨w.mem, v⟩ = reallocAndEmplaceBack cfg 0 (.ext x) ⟨w.mem, v⟩ := by
    unfold pushBack full
    have hfull : ((do
        let v ← this
        assert cfg (decide (v.fin ≤ v.edge)) "finish should always before edge"
        return decide (v.edge = v.fin)) : V α Bool) ⟨w.mem, v⟩ = (.ok true, ⟨w.mem, v⟩) := by
      rw [bind_ok (this_apply _), bind_ok (assert_true (decide_eq_true hle) _)]
      simp [hs, hc]
    rw [bind_ok hfull, bind_ok (this_apply _)]
    simp only [if_true]
    rw [hc, nextCapacity_big hbig]
  have key : ∀ f s', reallocAndEmplaceBack cfg 0 (.ext x) ⟨w.mem, v⟩ = (.error f, s') →
      ∃ w', wstep cfg w (.call i (.pushBack true e (.ext x))) = (.error f, w') := by
    intro f s' h
    have e1 : step cfg (.pushBack true e (.ext x)) ⟨w.mem, v⟩ = (.error f, s') := by
      unfold step
      rw [bind_ok (this_apply _)]
      exact bind_err (hp.trans h)
    exact ⟨_, by simp only [wstep, World.member, hv, e1]; rfl⟩
  obtain ⟨h1, h2, h3⟩ := grow_to_nothing (cfg := cfg) x (s := ⟨w.mem, v⟩)
  refine ⟨fun hd => ?_, fun hd => ?_, fun hd hm => ?_⟩
  · obtain ⟨m, s', h⟩ := h1 hd
    exact ⟨m, key _ _ h⟩
  · rcases h2 hd with ⟨s', h⟩ | ⟨m, s', h⟩
    · exact .inl (key _ _ h)
    · exact .inr ⟨m, key _ _ h⟩
  · obtain ⟨m, s', h⟩ := h3 hd hm
    exact ⟨m, key _ _ h⟩

/-- The hypotheses are met by a vector just constructed, here of elements of 200000 bytes, in debug and release builds. -/
example (dbg : Bool) : ∃ f w', wstep (⟨.mov, 200000, dbg, fun _ _ => true, 0, false⟩ : Cfg Nat)
    (run (⟨.mov, 200000, dbg, fun _ _ => true, 0, false⟩ : Cfg Nat) World.empty [.ctor]).2 (.call 0 (.pushBack true false (.ext 5)))
      = (.error f, w') := by
  obtain ⟨h1, -, h3⟩ := first_push_big_violated (cfg := (⟨.mov, 200000, dbg, fun _ _ => true, 0, false⟩ : Cfg Nat))
    (w := (run (⟨.mov, 200000, dbg, fun _ _ => true, 0, false⟩ : Cfg Nat) World.empty [.ctor]).2) (i := 0) (x := 5) (e := false)
    (show 131072 < 200000 by decide) (by cases dbg <;> decide) (by cases dbg <;> rfl) (by cases dbg <;> rfl)
  cases dbg
  · obtain ⟨m, w', h⟩ := h3 rfl rfl
    exact ⟨_, w', h⟩
  · obtain ⟨m, w', h⟩ := h1 rfl
    exact ⟨_, w', h⟩

end Verif.Vector
