import Verif.Str.ThreadProps

/-!
Strings that share their characters have one reference count, which is not atomic: string.hpp:557-584, arena_string.hpp:327-369.
Here another thread acts between the read and the write of the count, as `refCount_++` and `refCount_--` allow.

C++ says even less: two threads that access the count at once, one writing, is undefined behaviour.  The theorems below
show what goes wrong in the mildest reading, where each read and each write is one step.
-/

namespace Verif.Str

open M

variable {β : Type} {cfg : Cfg}

/-! ### The functions that change a count, with another thread acting in between -/

/-- `RefCounted::incrementRefs`, string.hpp:574: `other` happens between the read and the write. -/
def incrementRefsDuring (b : Nat) (other : M Unit) : M Unit := do
  let n ← refs b
  other
  setRefs b (n + 1)

/-- `RefCounted::decrementRefs`, string.hpp:576-584. -/
def decrementRefsDuring (cfg : Cfg) (al : Nat) (b : Nat) (other : M Unit) : M Unit := do
  let n ← refs b
  assert cfg (decide (0 < n)) "decrementRefs"
  if n = 0 then ub "reference count wraps" else do
    other
    setRefs b (n - 1)
    doIf (n == 1) (dealloc cfg al b)

/-- `copySmall`, `copyMedium`, `copyLarge`, string.hpp:730-768. -/
def copyCoreDuring (cfg : Cfg) (v : Obj) (r : Ob) (other : M Unit) : M Unit :=
  match r.core with
  | .small cells => do setCore v (.small cells); other
  | .ml d n _ false => do copyMedium cfg v r.al d n; other
  | .ml d n cap true => do
    setCore v (.ml d n cap true)
    incrementRefsDuring d other

/-- The copy constructor, string.hpp:333-363. -/
def ctorCopyDuring (cfg : Cfg) (v u : Obj) (other : M Unit) : M Unit :=
  noexceptIf (!cfg.arena) do
    let r ← getOb u
    construct cfg v r.al do
      copyCoreDuring cfg v r other
      copyCheck cfg v u

/-- The destructor, string.hpp:393-404, 715-728. -/
def releaseDuring (cfg : Cfg) (v : Obj) (other : M Unit) : M Unit := do
  let o ← getOb v
  match o.core with
  | .small _ => other
  | .ml d _ _ large =>
    if cfg.arena && o.al != 0 then other else
    if large then decrementRefsDuring cfg o.al d other else do dealloc cfg o.al d; other

/-- The end of the life of `v`. -/
def destroyDuring (cfg : Cfg) (v : Obj) (other : M Unit) : M Unit := do
  releaseDuring cfg v other
  dropOb v

/-- `clone()`, string.hpp:1188-1215: `other` happens while the count is incremented. -/
def cloneDuring (cfg : Cfg) (v u : Obj) (other : M Unit) : M Unit := do
  let o ← getOb u
  match o.core with
  | .ml _ _ _ true => do
    ctorCopyDuring cfg v u other
    building cfg v (unshare cfg v 0)
  | _ => ctorCopyDuring cfg v u other

/-! ### Without another thread they are the functions of the model -/

theorem pure_unit_bind (f : M β) : ((pure () : M Unit) >>= fun _ => f) = f := by
  funext s
  rw [bind_apply]
  rfl

theorem bind_pure_unit (x : M Unit) : (x >>= fun _ => (pure () : M Unit)) = x := by
  funext s
  rw [bind_apply]
  rcases x s with ⟨r, s1⟩
  cases r <;> rfl

theorem incrementRefsDuring_alone (b : Nat) : incrementRefsDuring b (pure ()) = incrementRefs b := by
  unfold incrementRefsDuring incrementRefs
  simp only [pure_unit_bind]

theorem decrementRefsDuring_alone (al b : Nat) : decrementRefsDuring cfg al b (pure ()) = decrementRefs cfg al b := by
  unfold decrementRefsDuring decrementRefs
  simp only [pure_unit_bind]

theorem copyCoreDuring_alone (v : Obj) (r : Ob) : copyCoreDuring cfg v r (pure ()) = copyCore cfg v r := by
  obtain ⟨c, al⟩ := r
  unfold copyCoreDuring copyCore
  cases c with
  | small c => exact bind_pure_unit _
  | ml d n cap large =>
    cases large with
    | false => exact bind_pure_unit _
    | true => simp only [incrementRefsDuring_alone]

/-- A copy with no other thread is the copy. -/
theorem ctorCopyDuring_alone (v u : Obj) : ctorCopyDuring cfg v u (pure ()) = ctorCopy cfg v u := by
  unfold ctorCopyDuring ctorCopy
  simp only [copyCoreDuring_alone]

/-- The destructor with no other thread is the destructor. -/
theorem destroyDuring_alone (v : Obj) : destroyDuring cfg v (pure ()) = destroy cfg v := by
  have h : releaseDuring cfg v (pure ()) = release cfg v := by
    unfold releaseDuring release
    congr 1
    funext o
    obtain ⟨c, al⟩ := o
    cases c with
    | small c => rfl
    | ml d n cap large => cases large <;> simp only [decrementRefsDuring_alone, bind_pure_unit]
  unfold destroyDuring destroy
  rw [h]

/-- `clone` with no other thread is `clone`. -/
theorem cloneDuring_alone (v u : Obj) : cloneDuring cfg v u (pure ()) = clone cfg v u := by
  unfold cloneDuring clone
  congr 1
  funext o
  obtain ⟨c, al⟩ := o
  cases c with
  | small c => exact ctorCopyDuring_alone _ _
  | ml d n cap large =>
    cases large with
    | false => exact ctorCopyDuring_alone _ _
    | true => simp only [ctorCopyDuring_alone]

/-! ### What goes wrong -/

/-- Two threads copy the same string of 300 characters at once, each into a string of its own.  After that the string and
one of the copies are destroyed, and to read the other copy is undefined behaviour: the buffer is gone. -/
theorem copies_race_violated : ∀ dbg ∈ [false, true],
    ((do Op.run (heapCfg dbg) (.makeFill 0 0 300 97)
         ctorCopyDuring (heapCfg dbg) (.user 1) (.user 0) ((Op.copy 2 0).run (heapCfg dbg))
         contents (heapCfg dbg) 2) St.init).1 = .ok (List.replicate 300 97) ∧
    ((do Op.run (heapCfg dbg) (.makeFill 0 0 300 97)
         ctorCopyDuring (heapCfg dbg) (.user 1) (.user 0) ((Op.copy 2 0).run (heapCfg dbg))
         (Op.destroy 0).run (heapCfg dbg)
         (Op.destroy 1).run (heapCfg dbg)) St.init).1 = .ok () ∧
    ∃ w, ((do Op.run (heapCfg dbg) (.makeFill 0 0 300 97)
              ctorCopyDuring (heapCfg dbg) (.user 1) (.user 0) ((Op.copy 2 0).run (heapCfg dbg))
              (Op.destroy 0).run (heapCfg dbg)
              (Op.destroy 1).run (heapCfg dbg)
              contents (heapCfg dbg) 2) St.init).1 = .error (.ub w) := by
  intro dbg h
  refine ⟨?_, ?_, "read of a freed block", ?_⟩ <;> (revert dbg; decide +kernel)

/-- A thread clones a string of 300 characters while another one copies it.  The clone is a string of its own, but the string
and the copy now share a buffer whose count is one: a character written to the string is changed in the copy. -/
theorem clone_race_corrupts : ∀ dbg ∈ [false, true],
    ((do Op.run (heapCfg dbg) (.makeFill 0 0 300 97)
         cloneDuring (heapCfg dbg) (.user 1) (.user 0) ((Op.copy 2 0).run (heapCfg dbg))
         (Op.setAt 0 7 98).run (heapCfg dbg)
         getAt (.user 2) 7) St.init).1 = .ok 98 := by
  decide +kernel

/-- Two threads destroy two strings that share their characters.  No string is left and the buffer is never freed. -/
theorem destroy_race_violated : ∀ dbg ∈ [false, true],
    ((do Op.run (heapCfg dbg) (.makeFill 0 0 300 97)
         (Op.copy 1 0).run (heapCfg dbg)
         destroyDuring (heapCfg dbg) (.user 0) ((Op.destroy 1).run (heapCfg dbg))) St.init).1 = .ok () ∧
    (((do Op.run (heapCfg dbg) (.makeFill 0 0 300 97)
          (Op.copy 1 0).run (heapCfg dbg)
          destroyDuring (heapCfg dbg) (.user 0) ((Op.destroy 1).run (heapCfg dbg))) St.init).2.heap 0).isSome = true := by
  decide +kernel

/-- A thread destroys its string while another one copies the string it shares the characters with: the count comes out one too small, and
the copy outlives its buffer. -/
theorem copy_during_destroy_violated : ∀ dbg ∈ [false, true], ∃ w,
    ((do Op.run (heapCfg dbg) (.makeFill 0 0 300 97)
         (Op.copy 1 0).run (heapCfg dbg)
         destroyDuring (heapCfg dbg) (.user 1) ((Op.copy 2 0).run (heapCfg dbg))
         (Op.destroy 0).run (heapCfg dbg)
         contents (heapCfg dbg) 2) St.init).1 = .error (.ub w) := by
  intro dbg h
  refine ⟨"read of a freed block", ?_⟩
  revert dbg
  decide +kernel

end Verif.Str
