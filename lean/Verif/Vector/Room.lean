import Verif.Vector.Refs

/-!
C119: operations whose result fits into the capacity leave the storage as it is.
-/

namespace Verif.Vector

open V

variable {α β γ : Type} {cfg : Cfg α} {s s0 s' : S α}

/-! ### Specification -/

/-- The number of elements an operation needs room for, in a vector of `n` elements: the number after it; what is asked
for, for `reserve`; what is promised, for `fill`. `none`: `shrink_to_fit` gives room back. -/
def Op.needs (n : Nat) : Op α → Option Nat
  | .pushBack _ _ _ | .insert _ _ _ _ => some (n + 1)
  | .insertN _ _ k _ => some (n + k)
  | .insertRange _ _ src => some (n + src.list.length)
  | .erase _ | .eraseRange _ _ | .eraseValue _ | .eraseIf _ | .popBack | .clear | .set _ _ => some n
  | .resize k | .resizeValue k _ | .assignN k _ | .reserve k => some k
  | .resizeRaw l => some (n + l.length)
  | .assignRange src => some src.list.length
  | .shrinkToFit => none
  | .fill _ k _ => some (n + k)
  | .writeBuffer _ l => some (n + l.length)

/-- The same storage, no call of `malloc`, no block freed. -/
structure Still (s s' : S α) : Prop where
  start : s'.this.start = s.this.start
  edge : s'.this.edge = s.this.edge
  next : s'.mem.next = s.mem.next
  heap : ∀ b, (s'.mem.heap b).map Block.len = (s.mem.heap b).map Block.len

/-! ### Lemmas -/

theorem Still.refl : Still s s := ⟨rfl, rfl, rfl, fun _ => rfl⟩

theorem Still.trans {a b c : S α} (h1 : Still a b) (h2 : Still b c) : Still a c :=
  ⟨h2.start.trans h1.start, h2.edge.trans h1.edge, h2.next.trans h1.next, fun x => (h2.heap x).trans (h1.heap x)⟩

/-- Actions on elements: the pointers of the vector stay. -/
def Elem (x : V α β) : Prop := ∀ s : S α, Still s (x s).2 ∧ (x s).2.this = s.this

theorem Elem.pure (b : β) : Elem (Pure.pure b : V α β) := fun _ => ⟨.refl, rfl⟩
theorem Elem.fail (e : Fault) : Elem (V.fail e : V α β) := fun _ => ⟨.refl, rfl⟩
theorem Elem.ub (m : String) : Elem (V.ub m : V α β) := fun _ => ⟨.refl, rfl⟩

theorem Elem.bind {x : V α β} {f : β → V α γ} (hx : Elem x) (hf : ∀ b, Elem (f b)) : Elem (x >>= f) := by
  intro s
  have h1 := hx s
  show Still s (V.bind x f s).2 ∧ (V.bind x f s).2.this = s.this
  unfold V.bind
  rcases h : x s with ⟨r, s'⟩
  rw [h] at h1
  cases r with
  | error e => exact h1
  | ok b => exact ⟨h1.1.trans (hf b s').1, (hf b s').2.trans h1.2⟩

theorem Elem.ite {c : Prop} [Decidable c] {x y : V α β} (hx : Elem x) (hy : Elem y) : Elem (if c then x else y) := by
  split
  · exact hx
  · exact hy

theorem elem_this : Elem (this : V α Vec) := fun _ => ⟨.refl, rfl⟩

theorem elem_assert (c : Bool) (m : String) : Elem (assert cfg c m) := .ite (.fail _) (.pure _)

theorem elem_readCell (p : Ptr) : Elem (readCell p : V α (Cell α)) := by
  intro s
  unfold readCell
  split
  · exact ⟨.refl, rfl⟩
  · split
    · exact ⟨.refl, rfl⟩
    · split <;> exact ⟨.refl, rfl⟩

theorem still_upd {b : Nat} {B B' : Block α} (hB : s.mem.heap b = some B) (hl : B'.len = B.len) :
    Still s { s with mem := { s.mem with heap := upd s.mem.heap b (some B') } } := by
  refine ⟨rfl, rfl, rfl, fun x => ?_⟩
  show (upd s.mem.heap b (some B') x).map Block.len = _
  unfold upd
  split
  · next h => rw [h, hB, Option.map_some, Option.map_some, hl]
  · rfl

theorem elem_writeCell (p : Ptr) (c : Cell α) : Elem (writeCell p c) := by
  intro s
  unfold writeCell
  split
  · exact ⟨.refl, rfl⟩
  · split
    · exact ⟨.refl, rfl⟩
    · next h =>
      split
      · exact ⟨still_upd h rfl, rfl⟩
      · exact ⟨.refl, rfl⟩

theorem elem_count (a b c d : Nat) : Elem (count a b c d : V α Unit) := fun _ => ⟨⟨rfl, rfl, rfl, fun _ => rfl⟩, rfl⟩

theorem elem_copyBytes (o : Bool) (d p : Ptr) (n : Nat) : Elem (copyBytes o d p n : V α Unit) := by
  intro s
  unfold copyBytes
  split
  · exact ⟨.refl, rfl⟩
  · split
    · split
      · next h _ =>
        split
        · split
          · exact ⟨.refl, rfl⟩
          · exact ⟨still_upd h rfl, rfl⟩
        · exact ⟨.refl, rfl⟩
      · exact ⟨.refl, rfl⟩
    · exact ⟨.refl, rfl⟩

/-- One step through an action on elements. -/
macro "elem1" : tactic => `(tactic| first
  | exact Elem.pure _ | exact Elem.fail _ | exact Elem.ub _ | exact elem_this | exact elem_assert _ _
  | exact elem_readCell _ | exact elem_writeCell _ _ | exact elem_count _ _ _ _ | exact elem_copyBytes _ _ _ _
  | assumption | refine Elem.bind ?_ (fun _ => ?_) | refine Elem.ite ?_ ?_ | split)

theorem elem_load (p : Ptr) : Elem (load p : V α α) := by unfold load; repeat' elem1
theorem elem_constructAt (p : Ptr) (x : α) : Elem (constructAt p x) := by unfold constructAt; repeat' elem1
theorem elem_destroyPtr (p : Ptr) : Elem (destroyPtr cfg p) := by unfold destroyPtr; repeat' elem1
theorem elem_assignTo (p : Ptr) (x : α) : Elem (assignTo cfg p x) := by unfold assignTo; repeat' elem1
theorem elem_deref (r : Ref α) : Elem (deref r) := by
  cases r
  · exact .pure _
  · exact elem_load _

theorem elem_destroyRange (p : Ptr) (n : Nat) : Elem (destroyRange cfg p n) := by
  induction n generalizing p with
  | zero => exact .pure _
  | succ n ih => exact .bind (elem_destroyPtr p) fun _ => ih _

theorem elem_constructLoop (p : Ptr) (r : Ref α) (n : Nat) : Elem (constructLoop p r n) := by
  induction n generalizing p with
  | zero => exact .pure _
  | succ n ih => exact .bind (elem_deref r) fun _ => .bind (elem_constructAt _ _) fun _ => ih _

theorem elem_constructRange (p : Ptr) (n : Nat) (r : Ref α) : Elem (constructRange cfg p n r) := by
  have := elem_constructLoop p r n
  unfold constructRange; repeat' elem1

theorem elem_copyCref (p : Ptr) (r : Ref α) : Elem (copyCref cfg p r) := by
  have h1 := elem_deref r
  have h2 := fun x => elem_assignTo (cfg := cfg) p x
  have h3 := fun x : α => elem_constructAt p x
  unfold copyCref
  exact .bind (elem_assert _ _) fun _ => .bind h1 fun x => .ite (h2 x) (h3 x)

theorem elem_constructList (p : Ptr) (l : List α) : Elem (constructList p l) := by
  induction l generalizing p with
  | nil => exact .pure _
  | cons x l ih => exact .bind (elem_constructAt _ _) fun _ => ih _

theorem elem_writeList (p : Ptr) (l : List α) : Elem (writeList p l) := by
  induction l generalizing p with
  | nil => exact .pure _
  | cons x l ih => exact .bind (elem_writeCell _ _) fun _ => ih _

theorem elem_copyFromIterator (p : Ptr) (src : Source α) : Elem (copyFromIterator cfg p src) := by
  unfold copyFromIterator
  refine .bind (elem_assert _ _) fun _ => .bind (elem_assert _ _) fun _ => ?_
  split
  · exact elem_writeList _ _
  · exact .pure _
  · exact elem_constructList _ _

theorem elem_moveOne (d p : Ptr) : Elem (moveOne cfg d p) := by
  unfold moveOne
  refine .bind (elem_load _) fun x => ?_
  split
  · exact .bind (elem_constructAt _ _) fun _ => elem_destroyPtr _
  · exact .bind (elem_constructAt _ _) fun _ => .bind (elem_writeCell _ _) fun _ => elem_count _ _ _ _

theorem elem_moveLoopFwd (d p : Ptr) (n : Nat) : Elem (moveLoopFwd cfg d p n) := by
  induction n generalizing d p with
  | zero => exact .pure _
  | succ n ih => exact .bind (elem_moveOne _ _) fun _ => ih _ _

theorem elem_moveForward (d p : Nat) : Elem (moveForward cfg d p) := by
  unfold moveForward moveRangeForward
  exact .bind (elem_assert _ _) fun _ => .bind elem_this fun v => .bind (elem_assert _ _) fun _ =>
    .bind (elem_assert _ _) fun _ => .bind (elem_assert _ _) fun _ => .ite (elem_copyBytes _ _ _ _) (elem_moveLoopFwd _ _ _)

theorem elem_moveBack (d p : Ptr) : Elem (moveBack cfg d p) :=
  .ite (.bind (elem_load _) fun _ => elem_assignTo _ _) (elem_moveOne _ _)

theorem elem_moveLoopBwd (d p : Ptr) (n : Nat) : Elem (moveLoopBwd cfg d p n) := by
  induction n with
  | zero => exact .pure _
  | succ n ih => exact .bind (elem_moveBack _ _) fun _ => ih

theorem elem_moveBackward (d p : Nat) : Elem (moveBackward cfg d p) := by
  unfold moveBackward
  exact .bind elem_this fun _ => .bind (elem_assert _ _) fun _ => .bind (elem_assert _ _) fun _ =>
    .bind (elem_assert _ _) fun _ => elem_moveLoopBwd _ _ _

theorem elem_eraseLoop {test : α → V α Bool} (ht : ∀ x, Elem (test x)) (d p : Ptr) (n : Nat) : Elem (eraseLoop cfg test d p n) := by
  induction n generalizing d p with
  | zero => exact .pure _
  | succ n ih =>
    refine .bind (elem_load _) fun x => .bind (ht x) fun t => .ite ?_ ?_
    · exact .bind (.ite (.pure _) (elem_destroyPtr _)) fun _ => .bind (ih _ _) fun _ => .pure _
    · exact .bind (.ite (.pure _) (elem_moveBack _ _)) fun _ => ih _ _

theorem elem_putAt (e : Bool) (p : Ptr) (r : Ref α) : Elem (putAt cfg e p r) :=
  .ite (.bind (elem_deref _) fun _ => elem_constructAt _ _) (elem_copyCref _ _)

theorem elem_destroyAll : Elem (destroyAll cfg) := by
  unfold destroyAll
  refine .bind elem_this fun _ => ?_
  repeat' (first | exact elem_destroyRange _ _ | elem1)

theorem elem_full : Elem (full cfg) := by
  unfold full
  exact .bind elem_this fun _ => .bind (elem_assert _ _) fun _ => .pure _

theorem elem_setAt (i : Nat) (x : α) : Elem (setAt cfg i x) := by
  unfold setAt
  refine .bind elem_this fun v => .bind (elem_assert _ _) fun _ => ?_
  repeat' elem1

/-! ### Other answers of `malloc` -/

/-- The same element type and build mode, other answers of `malloc`. -/
def Cfg.answers (cfg : Cfg α) (g : Nat → Nat → Bool) : Cfg α := { cfg with malloc := g }

variable {g : Nat → Nat → Bool}

theorem destroyRange_answers (p : Ptr) (n : Nat) : destroyRange (cfg.answers g) p n = destroyRange cfg p n := by
  induction n generalizing p with
  | zero => rfl
  | succ n ih =>
    show (destroyPtr cfg p >>= fun _ => destroyRange (cfg.answers g) (p.add 1) n) = _
    rw [ih]
    rfl

theorem destroyAll_answers : destroyAll (cfg.answers g) = destroyAll cfg := by
  unfold destroyAll
  simp only [destroyRange_answers]
  rfl

theorem moveLoopFwd_answers (d p : Ptr) (n : Nat) : moveLoopFwd (cfg.answers g) d p n = moveLoopFwd cfg d p n := by
  induction n generalizing d p with
  | zero => rfl
  | succ n ih =>
    show (moveOne cfg d p >>= fun _ => moveLoopFwd (cfg.answers g) (d.add 1) (p.add 1) n) = _
    rw [ih]
    rfl

theorem moveForward_answers (d p : Nat) : moveForward (cfg.answers g) d p = moveForward cfg d p := by
  unfold moveForward moveRangeForward
  simp only [moveLoopFwd_answers]
  rfl

theorem moveLoopBwd_answers (d p : Ptr) (n : Nat) : moveLoopBwd (cfg.answers g) d p n = moveLoopBwd cfg d p n := by
  induction n with
  | zero => rfl
  | succ n ih =>
    show (moveBack cfg (d.add n) (p.add n) >>= fun _ => moveLoopBwd (cfg.answers g) d p n) = _
    rw [ih]
    rfl

theorem moveBackward_answers (d p : Nat) : moveBackward (cfg.answers g) d p = moveBackward cfg d p := by
  unfold moveBackward
  simp only [moveLoopBwd_answers]
  rfl

theorem eraseLoop_answers (test : α → V α Bool) (d p : Ptr) (n : Nat) :
    eraseLoop (cfg.answers g) test d p n = eraseLoop cfg test d p n := by
  induction n generalizing d p with
  | zero => rfl
  | succ n ih =>
    unfold eraseLoop
    simp only [ih]
    rfl

/-- What an action does is still, and the same with other answers of `malloc`. -/
def Quiet (s0 : S α) (x y : V α β) (s : S α) : Prop := y s = x s ∧ Still s0 (x s).2

theorem quiet_elem {x y : V α β} (hx : Elem x) (hy : y = x) (h : Still s0 s) : Quiet s0 x y s :=
  ⟨congrFun hy s, h.trans (hx s).1⟩

theorem quiet_bind_elem {x y : V α β} {f k : β → V α γ} (hx : Elem x) (hy : y = x) (h : Still s0 s)
    (hf : ∀ b s', x s = (.ok b, s') → s'.this = s.this → Still s0 s' → Quiet s0 (f b) (k b) s') :
    Quiet s0 (x >>= f) (y >>= k) s := by
  subst hy
  have h1 := hx s
  show V.bind y k s = V.bind y f s ∧ Still s0 (V.bind y f s).2
  unfold V.bind
  rcases hr : y s with ⟨r, s'⟩
  rw [hr] at h1
  cases r with
  | error e => exact ⟨rfl, h.trans h1.1⟩
  | ok b => exact hf b s' hr h1.2 (h.trans h1.1)

theorem quiet_this {f k : Vec → V α γ} (hf : Quiet s0 (f s.this) (k s.this) s) : Quiet s0 (this >>= f) (this >>= k) s := hf

theorem quiet_set {v : Vec} (h : Still s0 s) (h1 : v.start = s0.this.start) (h2 : v.edge = s0.this.edge) :
    Quiet s0 (setThis v) (setThis v) s := ⟨rfl, h1, h2, h.next, h.heap⟩

theorem quiet_bind_set {v : Vec} {f k : Unit → V α γ} (h : Still s0 s) (h1 : v.start = s0.this.start) (h2 : v.edge = s0.this.edge)
    (hf : ∀ s', s'.this = v → Still s0 s' → Quiet s0 (f ()) (k ()) s') : Quiet s0 (setThis v >>= f) (setThis v >>= k) s :=
  hf { s with this := v } rfl ⟨h1, h2, h.next, h.heap⟩

theorem quiet_doIf_false {c : Bool} {x y : V α Unit} {f k : Unit → V α γ} (hc : c = false) (hf : Quiet s0 (f ()) (k ()) s) :
    Quiet s0 (doIf c x >>= f) (doIf c y >>= k) s := by
  rw [hc]; exact hf

theorem quiet_pure (b : β) (h : Still s0 s) : Quiet s0 (Pure.pure b) (Pure.pure b) s := ⟨rfl, h⟩

theorem quiet_bind {x y : V α β} {f k : β → V α γ} (hx : Quiet s0 x y s)
    (hf : ∀ b s', x s = (.ok b, s') → Still s0 s' → Quiet s0 (f b) (k b) s') :
    Quiet s0 (x >>= f) (y >>= k) s := by
  obtain ⟨h1, h2⟩ := hx
  show V.bind y k s = V.bind x f s ∧ Still s0 (V.bind x f s).2
  unfold V.bind
  rw [h1]
  rcases hr : x s with ⟨r, s'⟩
  rw [hr] at h2
  cases r with
  | error e => exact ⟨rfl, h2⟩
  | ok b => exact hf b s' hr h2

theorem quiet_noRet {x y : V α Unit} (h : Quiet s0 x y s) : Quiet s0 (noRet x) (noRet y) s :=
  quiet_bind h fun _ _ _ h => quiet_pure _ h

theorem quiet_numRet {x y : V α Nat} (h : Quiet s0 x y s) : Quiet s0 (numRet x) (numRet y) s :=
  quiet_bind h fun _ _ _ h => quiet_pure _ h

theorem full_eq {f : Bool} (h : full cfg s = (.ok f, s')) : f = decide (s.this.edge = s.this.fin) := by
  unfold full assert at h
  change (V.bind _ _ _) = _ at h
  unfold V.bind at h
  simp only [this] at h
  split at h
  · cases h
  · cases h; rfl

/-! ### Operations -/

theorem quiet_reserve {n : Nat} (h : n ≤ s.this.edge) : Quiet s (reserve cfg n) (reserve (cfg.answers g) n) s := by
  unfold reserve
  refine quiet_this ?_
  have e : decide (n > s.this.edge) = false := decide_eq_false (by omega)
  unfold doIf
  rw [e]
  exact quiet_pure () .refl

theorem quiet_resize {c : Bool} {n : Nat} {a : Ref α} (h : n ≤ s.this.edge) :
    Quiet s (resize cfg c n a) (resize (cfg.answers g) c n a) s := by
  unfold resize
  refine quiet_this ?_
  by_cases hn : n > s.this.fin
  · rw [if_pos hn, if_pos hn]
    refine quiet_doIf_false (decide_eq_false (by omega)) (quiet_this (quiet_bind_set .refl rfl rfl fun s' _ h' => ?_))
    cases c
    · exact quiet_pure () h'
    · exact quiet_elem (elem_constructRange _ _ _) rfl h'
  · rw [if_neg hn, if_neg hn]
    exact quiet_bind_set .refl rfl rfl fun s' _ h' => quiet_elem (elem_destroyRange _ _) (destroyRange_answers _ _) h'

theorem quiet_pushBack {safe e : Bool} {a : Ref α} (h : s.this.fin + 1 ≤ s.this.edge) :
    Quiet s (pushBack cfg safe e a) (pushBack (cfg.answers g) safe e a) s := by
  unfold pushBack
  refine quiet_bind_elem elem_full rfl .refl fun f s1 hf ht h1 => quiet_this ?_
  have hf := full_eq hf
  have hf : f = false := by rw [hf]; exact decide_eq_false (by omega)
  subst hf
  have put : ∀ {s2 : S α}, Still s s2 → s2.this = s.this →
      Quiet s (setThis { s2.this with fin := s2.this.fin + 1 } >>= fun _ => putAt cfg e s2.this.finPtr a)
        (setThis { s2.this with fin := s2.this.fin + 1 } >>= fun _ => putAt (cfg.answers g) e s2.this.finPtr a) s2 := by
    intro s2 h2 ht2
    refine quiet_bind_set h2 (by rw [ht2]) (by rw [ht2]) fun s' _ h' => quiet_elem (elem_putAt _ _ _) rfl h'
  cases safe
  · simp only [Bool.false_eq_true, if_false]
    exact quiet_bind_elem (elem_assert _ _) rfl h1 fun _ s2 _ ht2 h2 => by
      rw [← ht2]; exact put h2 (ht2.trans ht)
  · simp only [Bool.false_eq_true, if_false, if_true]
    exact put h1 ht

theorem quiet_insertOne {safe e : Bool} {pos : Nat} {a : Ref α} (h : s.this.fin + 1 ≤ s.this.edge) :
    Quiet s (insertOne cfg safe e pos a) (insertOne (cfg.answers g) safe e pos a) s := by
  unfold insertOne
  refine quiet_this (quiet_bind_elem (elem_assert _ _) rfl .refl fun _ s1 _ ht1 h1 => ?_)
  have grow : Quiet s (doIf safe (do
      let f ← full cfg
      doIf f (reserve cfg (nextCapacity cfg s.this.edge)))) (doIf safe (do
      let f ← full (cfg.answers g)
      doIf f (reserve (cfg.answers g) (nextCapacity (cfg.answers g) s.this.edge)))) s1 := by
    cases safe
    · exact quiet_pure () h1
    · refine quiet_bind_elem elem_full rfl h1 fun f s2 hf _ h2 => ?_
      have hf := full_eq hf
      have hf : f = false := by rw [hf, ht1]; exact decide_eq_false (by omega)
      subst hf
      exact quiet_pure () h2
  refine quiet_bind grow fun _ s2 _ h2 => quiet_bind_elem elem_full rfl h2 fun f s3 _ _ h3 =>
    quiet_bind_elem (elem_assert _ _) rfl h3 fun _ s4 _ _ h4 => quiet_this ?_
  split
  · exact quiet_bind_set h4 h4.start h4.edge fun s5 _ h5 => quiet_bind_elem (elem_putAt _ _ _) rfl h5 fun _ s6 _ _ h6 => quiet_pure _ h6
  · refine quiet_bind_elem (.ite (elem_moveBackward _ _) (elem_moveForward _ _)) (by rw [moveBackward_answers, moveForward_answers]) h4
      fun _ s5 _ _ h5 => quiet_bind_elem (elem_putAt _ _ _) rfl h5 fun _ s6 _ _ h6 => quiet_bind_set h6 h4.start h4.edge fun s7 _ h7 => quiet_pure _ h7

theorem quiet_makeRoom {safe : Bool} {pos n : Nat} (h1 : Still s0 s) (h : s.this.fin + n ≤ s.this.edge) :
    Quiet s0 (makeRoom cfg safe pos n) (makeRoom (cfg.answers g) safe pos n) s := by
  unfold makeRoom
  have hle : add64 s.this.fin n ≤ s.this.edge := Nat.le_trans (Nat.mod_le _ _) h
  refine quiet_this (quiet_doIf_false ?_ (quiet_this (quiet_bind_elem (elem_assert _ _) rfl h1 fun _ s2 _ ht2 h2 => ?_)))
  · rw [decide_eq_false (by omega), Bool.and_false]
  · exact quiet_elem (.ite (elem_moveForward _ _) (elem_moveBackward _ _)) (by rw [moveBackward_answers, moveForward_answers]) h2

theorem quiet_insertN {safe : Bool} {pos n : Nat} {a : Ref α} (h : s.this.fin + n ≤ s.this.edge) :
    Quiet s (insertN cfg safe pos n a) (insertN (cfg.answers g) safe pos n a) s := by
  unfold insertN
  refine quiet_bind_elem (elem_assert _ _) rfl .refl fun _ s1 _ ht1 h1 => quiet_this (quiet_bind_elem (elem_assert _ _) rfl h1
    fun _ s2 _ ht2 h2 => quiet_bind (quiet_makeRoom h2 (by rw [ht2, ht1]; exact h)) fun _ s3 _ h3 => quiet_this ?_)
  exact quiet_bind_elem (elem_constructRange _ _ _) rfl h3 fun _ s4 _ _ h4 =>
    quiet_bind_set h4 h3.start h3.edge fun s5 _ h5 => quiet_pure _ h5

theorem quiet_insertRange {safe : Bool} {pos : Nat} {src : Source α} (h : s.this.fin + src.list.length ≤ s.this.edge) :
    Quiet s (insertRange cfg safe pos src) (insertRange (cfg.answers g) safe pos src) s := by
  unfold insertRange
  simp only
  split
  · exact quiet_pure _ .refl
  · exact quiet_bind (quiet_makeRoom .refl h) fun _ s3 _ h3 => quiet_this (quiet_bind_elem (elem_copyFromIterator _ _) rfl h3
      fun _ s4 _ _ h4 => quiet_bind_set h4 h3.start h3.edge fun s5 _ h5 => quiet_pure _ h5)

theorem quiet_assignN {n : Nat} {a : Ref α} (h : n ≤ s.this.edge) :
    Quiet s (assignN cfg n a) (assignN (cfg.answers g) n a) s := by
  unfold assignN
  refine quiet_this ?_
  rw [if_neg (Nat.not_lt.2 h), if_neg (Nat.not_lt.2 h)]
  exact quiet_bind_elem elem_destroyAll destroyAll_answers .refl fun _ s1 _ _ h1 => quiet_this (quiet_bind_set h1 h1.start h1.edge
    fun s2 _ h2 => quiet_elem (elem_constructRange _ _ _) rfl h2)

theorem quiet_assignRange {src : Source α} (h : src.list.length ≤ s.this.edge) :
    Quiet s (assignRange cfg src) (assignRange (cfg.answers g) src) s := by
  unfold assignRange
  refine quiet_this ?_
  simp only
  rw [if_neg (Nat.not_lt.2 h), if_neg (Nat.not_lt.2 h)]
  refine quiet_bind_elem elem_destroyAll destroyAll_answers .refl fun _ s1 _ _ h1 => ?_
  split
  · exact quiet_bind_elem (elem_copyFromIterator _ _) rfl h1 fun _ s2 _ _ h2 => quiet_set h2 rfl rfl
  · exact quiet_pure _ h1

theorem quiet_fill {safe : Bool} {n : Nat} {l : List α} (h : s.this.fin + n ≤ s.this.edge) :
    Quiet s (fill cfg safe n l) (fill (cfg.answers g) safe n l) s := by
  unfold fill
  have hle : add64 n s.this.fin ≤ s.this.edge := Nat.le_trans (Nat.mod_le _ _) (by omega)
  refine quiet_this (quiet_doIf_false ?_ (quiet_this (quiet_bind_elem (elem_constructList _ _) rfl .refl fun _ s2 _ _ h2 => ?_)))
  · rw [decide_eq_false (by omega), Bool.and_false]
  · exact quiet_set h2 rfl rfl

theorem quiet_getWritebuffer {safe : Bool} {n : Nat} (h : s.this.fin + n ≤ s.this.edge) :
    Quiet s (getWritebuffer cfg safe n) (getWritebuffer (cfg.answers g) safe n) s := by
  unfold getWritebuffer
  have hle : add64 n s.this.fin ≤ s.this.edge := Nat.le_trans (Nat.mod_le _ _) (by omega)
  refine quiet_this (quiet_doIf_false ?_ (quiet_this (quiet_bind_set .refl rfl rfl fun s2 _ h2 => quiet_pure _ h2)))
  rw [decide_eq_false (by omega), Bool.and_false]

theorem quiet_erase {pos : Nat} : Quiet s (erase cfg pos) (erase (cfg.answers g) pos) s := by
  unfold erase
  exact quiet_this (quiet_bind_elem (elem_assert _ _) rfl .refl fun _ s1 _ _ h1 => quiet_bind_elem (elem_destroyPtr _) rfl h1
    fun _ s2 _ _ h2 => quiet_bind_elem (elem_moveForward _ _) (moveForward_answers _ _) h2 fun _ s3 _ _ h3 =>
      quiet_bind_set h3 rfl rfl fun s4 _ h4 => quiet_pure _ h4)

theorem quiet_eraseRange {a b : Nat} : Quiet s (eraseRange cfg a b) (eraseRange (cfg.answers g) a b) s := by
  unfold eraseRange
  refine quiet_this (quiet_bind_elem (elem_assert _ _) rfl .refl fun _ s1 _ _ h1 => quiet_bind_elem (elem_assert _ _) rfl h1
    fun _ s2 _ _ h2 => quiet_bind ?_ fun _ s3 _ h3 => quiet_pure _ h3)
  by_cases hc : decide (a ≠ b) = true
  · unfold doIf
    rw [if_pos hc, if_pos hc]
    exact quiet_bind_elem (elem_destroyRange _ _) (destroyRange_answers _ _) h2 fun _ s3 _ _ h3 =>
      quiet_bind_elem (elem_moveForward _ _) (moveForward_answers _ _) h3 fun _ s4 _ _ h4 => quiet_set h4 rfl rfl
  · unfold doIf
    rw [if_neg hc, if_neg hc]
    exact quiet_pure () h2

theorem quiet_eraseValue [DecidableEq α] {a : Ref α} : Quiet s (eraseValue cfg a) (eraseValue (cfg.answers g) a) s := by
  unfold eraseValue
  exact quiet_this (quiet_bind_elem (elem_eraseLoop (fun _ => .bind (elem_deref _) fun _ => .pure _) _ _ _) (eraseLoop_answers _ _ _ _) .refl
    fun _ s1 _ _ h1 => quiet_bind_set h1 rfl rfl fun s2 _ h2 => quiet_pure _ h2)

theorem quiet_eraseIf {p : α → Bool} : Quiet s (eraseIf cfg p) (eraseIf (cfg.answers g) p) s := by
  unfold eraseIf
  exact quiet_this (quiet_bind_elem (elem_eraseLoop (fun _ => .pure _) _ _ _) (eraseLoop_answers _ _ _ _) .refl
    fun _ s1 _ _ h1 => quiet_bind_set h1 rfl rfl fun s2 _ h2 => quiet_pure _ h2)

theorem quiet_popBack : Quiet s (popBack cfg) (popBack (cfg.answers g)) s := by
  unfold popBack
  refine quiet_this ?_
  split
  · exact ⟨rfl, .refl⟩
  · exact quiet_bind_set .refl rfl rfl fun s1 _ h1 => quiet_elem (elem_destroyPtr _) rfl h1

theorem quiet_clear : Quiet s (clear cfg) (clear (cfg.answers g)) s := by
  unfold clear
  exact quiet_bind_elem elem_destroyAll destroyAll_answers .refl fun _ s1 _ _ h1 => quiet_this (quiet_set h1 h1.start h1.edge)

/-- A call whose result fits. -/
theorem quiet_step [DecidableEq α] {op : Op α} {n : Nat} (hn : op.needs s.this.fin = some n) (h : n ≤ s.this.edge) :
    Quiet s (step cfg op) (step (cfg.answers g) op) s := by
  unfold step
  refine quiet_this ?_
  cases op with
  | pushBack sf e a => cases hn; exact quiet_noRet (quiet_pushBack h)
  | insert sf e pos a => cases hn; exact quiet_numRet (quiet_insertOne h)
  | insertN sf pos k a => cases hn; exact quiet_numRet (quiet_insertN h)
  | insertRange sf pos src => cases hn; exact quiet_numRet (quiet_insertRange h)
  | erase pos => exact quiet_numRet quiet_erase
  | eraseRange a b => exact quiet_numRet quiet_eraseRange
  | eraseValue a => exact quiet_numRet quiet_eraseValue
  | eraseIf p => exact quiet_numRet quiet_eraseIf
  | popBack => exact quiet_noRet quiet_popBack
  | resize k => cases hn; exact quiet_noRet (quiet_resize h)
  | resizeValue k a => cases hn; exact quiet_noRet (quiet_resize h)
  | resizeRaw l =>
    cases hn
    exact quiet_noRet (quiet_bind (quiet_resize h) fun _ s1 _ h1 => quiet_this (quiet_elem (elem_constructList _ _) rfl h1))
  | assignN k a => cases hn; exact quiet_noRet (quiet_assignN h)
  | assignRange src => cases hn; exact quiet_noRet (quiet_assignRange h)
  | clear => exact quiet_noRet quiet_clear
  | reserve k => cases hn; exact quiet_noRet (quiet_reserve h)
  | shrinkToFit => cases hn
  | fill sf k l => cases hn; exact quiet_noRet (quiet_fill h)
  | writeBuffer sf l =>
    cases hn
    exact quiet_noRet (quiet_bind (quiet_getWritebuffer h) fun _ s1 _ h1 => quiet_this (quiet_elem (elem_constructList _ _) rfl h1))
  | set i x => exact quiet_noRet (quiet_elem (elem_setAt _ _) rfl .refl)

/-! ### Within the contract, whatever `malloc` answers -/

variable {xs ys : List α}

theorem blockOK_answers {B : Block α} (h : BlockOK cfg B xs) : BlockOK (cfg.answers g) B xs := ⟨h.pos, h.le, h.bound, h.live, h.tail⟩

theorem blockOK_of_answers {B : Block α} (h : BlockOK (cfg.answers g) B xs) : BlockOK cfg B xs := ⟨h.pos, h.le, h.bound, h.live, h.tail⟩

theorem vecOK_answers {m : Mem α} {v : Vec} (h : VecOK cfg m v xs) : VecOK (cfg.answers g) m v xs := by
  rcases h with h | ⟨b, B, h1, h2, h3⟩
  · exact .inl h
  · exact .inr ⟨b, B, h1, h2, blockOK_answers h3⟩

theorem post_of_answers (h : Post (cfg.answers g) s s' xs ys) : Post cfg s s' xs ys := by
  refine ⟨?_, h.frame, h.start, h.next, h.bal, h.cpy⟩
  rcases h.ok with h | ⟨b, B, h1, h2, h3⟩
  · exact .inl h
  · exact .inr ⟨b, B, h1, h2, blockOK_of_answers h3⟩

theorem copied_answers {src : Source α} (h : src.Copied cfg) : src.Copied (cfg.answers g) := by
  cases src <;> exact h

theorem inContract_answers {cap : Nat} {op : Op α} (h : InContract cfg cap xs op) : InContract (cfg.answers g) cap xs op := by
  obtain ⟨h1, h2⟩ := h
  refine ⟨?_, ?_⟩
  · cases op <;> exact h1
  · cases op with
    | insertRange => exact ⟨h2.1, copied_answers h2.2.1, h2.2.2⟩
    | assignRange => exact ⟨h2.1, copied_answers h2.2.1, h2.2.2⟩
    | _ => exact h2

/-- A call within its contract whose result fits succeeds without memory. -/
theorem step_room [DecidableEq α] {op : Op α} {n : Nat} (hg : Good cfg) (hf : Fresh s.mem) (hx : VecOK cfg s.mem s.this xs)
    (hc : InContract cfg s.this.edge xs op) (hn : op.needs xs.length = some n) (h : n ≤ s.this.edge) :
    Ok (step cfg op) s (fun r s' => StepOK cfg s xs op r s' ∧ Still s s') := by
  obtain ⟨r, s', e, hq⟩ := step_ok (cfg := cfg.answers fun _ _ => true) hg hf (fun _ _ => rfl) (vecOK_answers hx) (inContract_answers hc)
  obtain ⟨h1, h2⟩ := quiet_step (cfg := cfg) (g := fun _ _ => true) (s := s) (op := op) (by rw [hx.fin_eq]; exact hn) h
  rw [h1] at e
  rw [e] at h2
  exact ⟨r, s', e, ⟨hq.ret, post_of_answers hq.post⟩, h2⟩

end Verif.Vector
