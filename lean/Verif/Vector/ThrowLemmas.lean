import Verif.Vector.Throw
import Verif.Vector.Inv

/-!
Lemmas about constructors that throw.
-/

namespace Verif.Vector

open V

variable {α β γ : Type} {cfg : Cfg α} {th : Throws α} {s : S α}

/-! ### Nothing throws -/

/-- An action that never throws. -/
def NoThrow (x : V α β) : Prop := ∀ s w s', x s ≠ (.error (.throw w), s')

theorem NoThrow.ret (b : β) : NoThrow (pure b : V α β) := by
  intro s w s' h; rw [pure_apply] at h; cases h

theorem NoThrow.bind {x : V α β} {f : β → V α γ} (hx : NoThrow x) (hf : ∀ b, NoThrow (f b)) : NoThrow (x >>= f) := by
  intro s w s' h
  rw [bind_apply] at h
  rcases hxs : x s with ⟨r, s1⟩
  rw [hxs] at h
  cases r with
  | ok b => exact hf b s1 w s' h
  | error e =>
    simp only [Prod.mk.injEq, Except.error.injEq] at h
    exact hx s w s1 (by rw [hxs, h.1])

theorem NoThrow.fault {w : String} : NoThrow (ub w : V α β) := by
  intro s w' s' h; unfold ub fail at h; cases h

theorem NoThrow.assert (c : Bool) (m : String) : NoThrow (assert cfg c m) := by
  intro s w s' h
  unfold Vector.assert at h
  split at h
  · unfold fail at h; cases h
  · rw [pure_apply] at h; cases h

theorem NoThrow.readCell (p : Ptr) : NoThrow (readCell p : V α (Cell α)) := by
  intro s w s' h
  unfold Vector.readCell at h
  split at h
  · cases h
  · split at h
    · cases h
    · split at h <;> cases h

theorem NoThrow.writeCell (p : Ptr) (c : Cell α) : NoThrow (writeCell p c) := by
  intro s w s' h
  unfold Vector.writeCell at h
  split at h
  · cases h
  · split at h
    · cases h
    · split at h <;> cases h

theorem NoThrow.count (a b c d : Nat) : NoThrow (count a b c d : V α Unit) := by
  intro s w s' h; unfold Vector.count at h; cases h

theorem NoThrow.load (p : Ptr) : NoThrow (load p : V α α) := by
  unfold Vector.load
  refine .bind (.readCell p) (fun c => ?_)
  cases c
  · exact .fault
  · exact .ret _
  · exact .fault

theorem NoThrow.constructAt (p : Ptr) (v : α) : NoThrow (constructAt p v) :=
  .bind (.writeCell _ _) (fun _ => .count _ _ _ _)

theorem NoThrow.destroyPtr (p : Ptr) : NoThrow (destroyPtr cfg p) := by
  unfold Vector.destroyPtr
  split
  · exact .ret _
  · refine .bind (.readCell p) (fun c => ?_)
    split
    · exact .fault
    · exact .bind (.writeCell _ _) (fun _ => .count _ _ _ _)

theorem NoThrow.copyBytes (o : Bool) (d p : Ptr) (n : Nat) : NoThrow (copyBytes o d p n : V α Unit) := by
  intro s w s' h
  unfold Vector.copyBytes at h
  split at h
  · cases h
  · split at h
    · split at h
      · split at h
        · split at h <;> cases h
        · cases h
      · cases h
    · cases h

theorem NoThrow.moveOne (d p : Ptr) : NoThrow (moveOne cfg d p) := by
  unfold Vector.moveOne
  refine .bind (.load _) (fun v => ?_)
  split
  · exact .bind (.constructAt _ _) (fun _ => .destroyPtr _)
  · exact .bind (.constructAt _ _) (fun _ => .bind (.writeCell _ _) (fun _ => .count _ _ _ _))

theorem NoThrow.moveLoopFwd (d p : Ptr) (n : Nat) : NoThrow (moveLoopFwd cfg d p n) := by
  induction n generalizing d p with
  | zero => exact .ret _
  | succ n ih => exact .bind (.moveOne _ _) (fun _ => ih _ _)

theorem NoThrow.moveRangeNoOverlap (d p : Ptr) (n : Nat) : NoThrow (moveRangeNoOverlap cfg d p n) := by
  unfold Vector.moveRangeNoOverlap
  refine .bind (.assert _ _) (fun _ => .bind (.assert _ _) (fun _ => .bind (.count _ _ _ _) (fun _ => ?_)))
  split
  · exact .copyBytes _ _ _ _
  · exact .moveLoopFwd _ _ _

theorem noexcept_eq {x : V α β} (h : NoThrow x) : noexcept x = x := by
  funext s
  unfold noexcept
  rcases hx : x s with ⟨r, s'⟩
  cases r with
  | ok b => rfl
  | error e =>
    cases e with
    | throw w => exact absurd hx (h s w s')
    | _ => rfl

theorem constructAtT_never (p : Ptr) (v : α) : constructAtT never p v = constructAt p v := by
  funext s; simp [constructAtT, never]

theorem constructLoopT_never (p : Ptr) (r : Ref α) (n : Nat) : constructLoopT never p r n = constructLoop p r n := by
  induction n generalizing p with
  | zero => rfl
  | succ n ih => simp only [constructLoopT, constructLoop, constructAtT_never, ih]

theorem constructRangeT_never (p : Ptr) (n : Nat) (r : Ref α) :
    constructRangeT cfg never p n r = constructRange cfg p n r := by
  simp only [constructRangeT, constructRange, constructLoopT_never]

theorem copyLoopT_never (d p : Ptr) (n : Nat) : copyLoopT (α := α) never d p n = copyLoop d p n := by
  induction n generalizing d p with
  | zero => rfl
  | succ n ih => simp only [copyLoopT, copyLoop, constructAtT_never, ih]

theorem copyRangeT_never (d p : Ptr) (n : Nat) : copyRangeT cfg never d p n = copyRange cfg d p n := by
  simp only [copyRangeT, copyRange, copyLoopT_never]

theorem copyCrefT_never (d : Ptr) (r : Ref α) : copyCrefT cfg never d r = copyCref cfg d r := by
  simp only [copyCrefT, copyCref, constructAtT_never]

theorem constructListT_never (p : Ptr) (l : List α) : constructListT never p l = constructList p l := by
  induction l generalizing p with
  | nil => rfl
  | cons v l ih => simp only [constructListT, constructList, constructAtT_never, ih]

theorem copyFromIteratorT_never (d : Ptr) (src : Source α) :
    copyFromIteratorT cfg never d src = copyFromIterator cfg d src := by
  unfold copyFromIteratorT copyFromIterator
  simp only [constructListT_never]
  cases cfg.kind.relocatable <;> cases src <;> rfl

theorem putAtT_never (e : Bool) (p : Ptr) (r : Ref α) : putAtT cfg never e p r = putAt cfg e p r := by
  simp only [putAtT, putAt, constructAtT_never, copyCrefT_never]

/-- Elements are moved without calling a constructor that may throw. -/
def Calm (cfg : Cfg α) (th : Throws α) : Prop := th = never ∨ cfg.kind ≠ .cpy

theorem moveOneT_calm (h : Calm cfg th) (d p : Ptr) : moveOneT cfg th d p = moveOne cfg d p := by
  unfold moveOneT moveOne
  rcases h with rfl | h
  · simp only [constructAtT_never]
    cases cfg.kind <;> rfl
  · cases hk : cfg.kind with
    | cpy => exact absurd hk h
    | _ => rfl

theorem moveLoopFwdT_calm (h : Calm cfg th) (d p : Ptr) (n : Nat) : moveLoopFwdT cfg th d p n = moveLoopFwd cfg d p n := by
  induction n generalizing d p with
  | zero => rfl
  | succ n ih => simp only [moveLoopFwdT, moveLoopFwd, moveOneT_calm h, ih]

theorem moveRangeNoOverlapT_calm (h : Calm cfg th) (d p : Ptr) (n : Nat) :
    moveRangeNoOverlapT cfg th d p n = moveRangeNoOverlap cfg d p n := by
  unfold moveRangeNoOverlapT
  simp only [moveLoopFwdT_calm h]
  exact noexcept_eq (.moveRangeNoOverlap d p n)

theorem moveForwardT_calm (h : Calm cfg th) (d p : Nat) : moveForwardT cfg th d p = moveForward cfg d p := by
  simp only [moveForwardT, moveForward, moveRangeForwardT, moveRangeForward, moveLoopFwdT_calm h]

theorem moveLoopBwdT_calm (h : Calm cfg th) (d p : Ptr) (n : Nat) : moveLoopBwdT cfg th d p n = moveLoopBwd cfg d p n := by
  induction n with
  | zero => rfl
  | succ n ih => simp only [moveLoopBwdT, moveLoopBwd, moveBackT, moveBack, moveOneT_calm h, ih]

theorem moveBackwardT_calm (h : Calm cfg th) (d p : Nat) : moveBackwardT cfg th d p = moveBackward cfg d p := by
  simp only [moveBackwardT, moveBackward, moveLoopBwdT_calm h]

theorem reallocWithOldDataT_calm (h : Calm cfg th) (n : Nat) : reallocWithOldDataT cfg th n = reallocWithOldData cfg n := by
  unfold reallocWithOldDataT reallocWithOldData
  simp only [moveRangeNoOverlapT_calm h]
  rfl

theorem reserveT_calm (h : Calm cfg th) (n : Nat) : reserveT cfg th n = reserve cfg n := by
  simp only [reserveT, reserve, reallocWithOldDataT_calm h]

theorem eraseT_calm (h : Calm cfg th) (n : Nat) : eraseT cfg th n = erase cfg n := by
  simp only [eraseT, erase, moveForwardT_calm h]

theorem makeRoomT_calm (h : Calm cfg th) (safe : Bool) (pos n : Nat) : makeRoomT cfg th safe pos n = makeRoom cfg safe pos n := by
  simp only [makeRoomT, makeRoom, reserveT_calm h, moveForwardT_calm h, moveBackwardT_calm h]

/-! ### Constructors that throw -/

theorem constructAtT_throw {v : α} (h : th s.mem.ctors v = true) (p : Ptr) :
    constructAtT th p v s = (.error (.throw "element"), s) := by
  unfold constructAtT; rw [if_pos h]

theorem constructAtT_ok {v : α} (h : th s.mem.ctors v = false) (p : Ptr) : constructAtT th p v s = constructAt p v s := by
  unfold constructAtT; rw [if_neg (by simp [h])]

/-- The elements of a list are constructed up to the first that throws: the first `k` do not throw, the next one does. -/
def ThrowsAt (th : Throws α) (c : Nat) (l : List α) (k : Nat) : Prop :=
  (∀ j, j < k → ∀ v, l[j]? = some v → th (c + j) v = false) ∧ ∃ v, l[k]? = some v ∧ th (c + k) v = true

theorem ThrowsAt.lt {c k : Nat} {l : List α} (h : ThrowsAt th c l k) : k < l.length := by
  obtain ⟨_, v, hv, _⟩ := h
  exact (List.getElem?_eq_some_iff.mp hv).1

theorem ThrowsAt.tail {c k : Nat} {v : α} {l : List α} (h : ThrowsAt th c (v :: l) (k + 1)) :
    th c v = false ∧ ThrowsAt th (c + 1) l k := by
  obtain ⟨h1, x, hx, ht⟩ := h
  refine ⟨h1 0 (by omega) v rfl, fun j hj y hy => ?_, x, by simpa using hx, ?_⟩
  · have := h1 (j + 1) (by omega) y (by simpa using hy)
    rwa [show c + 1 + j = c + (j + 1) by omega]
  · rwa [show c + 1 + k = c + (k + 1) by omega]

/-- Construction of a list that throws at `k` leaves the first `k` elements. -/
theorem constructListT_throw {b i k : Nat} {l : List α} {B : Block α} (hb : s.mem.heap b = some B)
    (hi : i + l.length ≤ B.len) (h : ThrowsAt th s.mem.ctors l k) :
    constructListT th ⟨some b, i⟩ l s = (.error (.throw "element"), s.put b (over B i k (cellOf l)) k 0 0) := by
  induction l generalizing i k B s with
  | nil => exact absurd h.lt (by simp)
  | cons v l ih =>
    simp only [List.length_cons] at hi
    simp only [constructListT]
    cases k with
    | zero =>
      obtain ⟨_, x, hx, ht⟩ := h
      simp only [List.getElem?_cons_zero, Option.some.injEq] at hx
      subst hx
      rw [bind_err (constructAtT_throw (by simpa using ht) _), over_zero, put_self hb]
    | succ k =>
      obtain ⟨h1, h2⟩ := h.tail
      rw [bind_ok ((constructAtT_ok h1 _).trans (constructAt_ok hb (by omega) v))]
      simp only [Ptr.add]
      rw [ih (put_same _ _ _ _ _) (by simp; omega) (by simpa using h2), put_put]
      congr 2
      · refine Block.ext' rfl (fun j => ?_)
        simp only [over, set_cell]
        by_cases hj : i ≤ j ∧ j < i + (k + 1)
        · rw [if_pos hj]
          by_cases hji : j = i
          · subst hji
            rw [if_neg (by omega), if_pos rfl, Nat.sub_self, cellOf_cons_zero]
          · rw [if_pos (by omega), show j - i = (j - (i + 1)) + 1 by omega, cellOf_cons_succ]
        · rw [if_neg hj, if_neg (by omega), if_neg (by omega)]
      · omega

/-- Constructing the same value again and again is constructing a list. -/
theorem constructLoopT_list (p : Ptr) (v : α) (n : Nat) :
    constructLoopT th p (.ext v) n = constructListT th p (List.replicate n v) := by
  induction n generalizing p with
  | zero => rfl
  | succ n ih =>
    funext s
    simp only [constructLoopT, List.replicate_succ, constructListT, deref, ih]
    rw [bind_ok (pure_apply v s)]

/-- Copying elements of another block is constructing a list. -/
theorem copyLoopT_throw {d b i j k : Nat} {l : List α} {D B : Block α} (hne : d ≠ b) (hd : s.mem.heap d = some D)
    (hb : s.mem.heap b = some B) (hi : i + l.length ≤ D.len) (hj : j + l.length ≤ B.len)
    (hl : ∀ t, t < l.length → B.cell (j + t) = cellOf l t) (h : ThrowsAt th s.mem.ctors l k) :
    copyLoopT th ⟨some d, i⟩ ⟨some b, j⟩ l.length s
      = (.error (.throw "element"), s.put d (over D i k (cellOf l)) k 0 0) := by
  rw [← constructListT_throw hd hi h]
  clear h
  induction l generalizing i j D s with
  | nil => rfl
  | cons v l ih =>
    simp only [List.length_cons] at hi hj hl
    simp only [constructListT, List.length_cons, copyLoopT]
    have h0 := hl 0 (by omega)
    rw [Nat.add_zero, cellOf_cons_zero] at h0
    rw [bind_ok (load_ok hb (by omega) h0)]
    by_cases ht : th s.mem.ctors v = true
    · rw [bind_err (constructAtT_throw ht _), bind_err (constructAtT_throw ht _)]
    · have hok := (constructAtT_ok (by simpa using ht) _).trans (constructAt_ok hd (i := i) (by omega) v)
      rw [bind_ok hok, bind_ok hok]
      simp only [Ptr.add]
      refine ih (put_same _ _ _ _ _) ?_ (by simp; omega) (by omega) (fun t htl => ?_)
      · rw [put_other (fun e => hne e.symm), hb]
      · have := hl (t + 1) (by omega)
        rw [cellOf_cons_succ] at this
        rw [← this]; congr 1; omega

/-- Where nothing lives, reading and destroying are undefined. -/
theorem load_raw {b i : Nat} {B : Block α} (hb : s.mem.heap b = some B) (hi : i < B.len) (hc : ∀ v, B.cell i ≠ .live v) :
    ∃ w, load ⟨some b, i⟩ s = (.error (.ub w), s) := by
  unfold load
  rw [bind_ok (readCell_ok hb hi)]
  cases h : B.cell i with
  | live v => exact absurd h (hc v)
  | raw => exact ⟨_, rfl⟩
  | moved => exact ⟨_, rfl⟩

theorem destroyPtr_raw {b i : Nat} {B : Block α} (hk : cfg.kind ≠ .triv) (hb : s.mem.heap b = some B) (hi : i < B.len)
    (hc : (B.cell i).empty cfg.strict = true) :
    destroyPtr cfg ⟨some b, i⟩ s = (.error (.ub "destructor of an element that does not live"), s) := by
  unfold destroyPtr
  cases hk' : cfg.kind with
  | triv => exact absurd hk' hk
  | _ =>
    simp only
    rw [bind_ok (readCell_ok hb hi), hc]
    rfl

/-- Destroying a range with a dead element among the living is undefined. -/
theorem destroyRange_raw {b i n j : Nat} {B : Block α} (hk : cfg.kind ≠ .triv) (hb : s.mem.heap b = some B)
    (hi : i + n ≤ B.len) (hj : j < n) (hc : B.cell (i + j) = .raw) :
    ∃ s', destroyRange cfg ⟨some b, i⟩ n s = (.error (.ub "destructor of an element that does not live"), s') := by
  induction n generalizing i j B s with
  | zero => omega
  | succ n ih =>
    simp only [destroyRange]
    by_cases h0 : (B.cell i).empty cfg.strict = true
    · rw [bind_err (destroyPtr_raw hk hb (by omega) h0)]
      exact ⟨_, rfl⟩
    · have hj0 : j ≠ 0 := by rintro rfl; exact h0 (by rw [show B.cell i = .raw from hc]; rfl)
      rw [bind_ok (destroyPtr_ok hk hb (by omega) (by simpa using h0))]
      simp only [Ptr.add]
      refine ih (j := j - 1) (put_same _ _ _ _ _) (by simp; omega) (by omega) ?_
      rw [set_cell, if_neg (by omega), ← hc]
      congr 1; omega

/-- `~core` over storage it does not know the end of. -/
theorem destroyForeign_ub (hk : cfg.kind ≠ .triv) : ∃ w s', destroyForeign cfg s = (.error (.ub w), s') := by
  have hr : ∀ n (p : Ptr) (s : S α), (∃ s', destroyRange cfg p n s = (.ok (), s')) ∨
      ∃ w s', destroyRange cfg p n s = (.error (.ub w), s') := by
    intro n
    induction n with
    | zero => exact fun p s => .inl ⟨s, rfl⟩
    | succ n ih =>
      intro p s
      simp only [destroyRange]
      have hp : (∃ s', destroyPtr cfg p s = (.ok (), s')) ∨ ∃ w s', destroyPtr cfg p s = (.error (.ub w), s') := by
        obtain ⟨blk, i⟩ := p
        have hnone : ∀ w, readCell ⟨blk, i⟩ s = (.error (.ub w), s) →
            ∃ w s', destroyPtr cfg ⟨blk, i⟩ s = (.error (.ub w), s') := by
          intro w hw
          unfold destroyPtr
          cases hk' : cfg.kind with
          | triv => exact absurd hk' hk
          | _ => exact ⟨w, s, by simp only; rw [bind_err hw]⟩
        cases blk with
        | none => exact .inr (hnone _ rfl)
        | some b =>
          cases hB : s.mem.heap b with
          | none => exact .inr (hnone "dangling pointer dereferenced" (by simp [readCell, hB]))
          | some B =>
            by_cases hi : i < B.len
            · by_cases hc : (B.cell i).empty cfg.strict = true
              · exact .inr ⟨_, _, destroyPtr_raw hk hB hi hc⟩
              · exact .inl ⟨_, destroyPtr_ok hk hB hi (by simpa using hc)⟩
            · exact .inr (hnone "access outside the block" (by simp [readCell, hB, hi]))
      rcases hp with ⟨s1, h1⟩ | ⟨w, s1, h1⟩
      · rw [bind_ok h1]; exact ih _ _
      · rw [bind_err h1]; exact .inr ⟨w, s1, rfl⟩
  have h : destroyForeign cfg = (do
      let v ← this
      destroyRange cfg v.startPtr v.edge
      ub "destroy_range runs past the storage") := by
    unfold destroyForeign
    cases hk' : cfg.kind <;> first | exact absurd hk' hk | rfl
  rw [h, bind_ok (this_apply _)]
  rcases hr s.this.edge s.this.startPtr s with ⟨s1, h1⟩ | ⟨w, s1, h1⟩
  · rw [bind_ok h1]; exact ⟨_, _, rfl⟩
  · rw [bind_err h1]; exact ⟨w, s1, rfl⟩

end Verif.Vector
