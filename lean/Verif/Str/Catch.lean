import Verif.Str.Prog
import Verif.Str.Heap

/-!
Actions that never end the program by an exception leaving a `noexcept` function.
-/

namespace Verif.Str

open M

variable {β γ : Type} {cfg : Cfg} {F : String → Prop}

/-- What `std::terminate` is in the model. -/
def T (w : String) : Prop := w = "terminate"

/-- The action never ends with an exception of `F`, in whatever state it starts. -/
structure Safe (F : String → Prop) (x : M β) : Prop where
  safe : ∀ s w s', x s = (.error (.throw w), s') → ¬ F w

theorem Safe.pure (b : β) : Safe F (pure b : M β) := ⟨fun _ _ _ h => by cases h⟩

theorem Safe.raise {w : String} (h : ¬ F w) : Safe F (M.raise w : M β) := ⟨fun _ _ _ e => by cases e; exact h⟩

theorem Safe.ub (w : String) : Safe F (M.ub w : M β) := ⟨fun _ _ _ h => by cases h⟩

theorem Safe.assertFail (w : String) : Safe F (M.fail (.assertFail w) : M β) := ⟨fun _ _ _ h => by cases h⟩

theorem Safe.bind {x : M β} {f : β → M γ} (hx : Safe F x) (hf : ∀ b, Safe F (f b)) : Safe F (x >>= f) := by
  constructor
  intro s w s' h
  have h : M.bind x f s = _ := h
  unfold M.bind at h
  rcases hxs : x s with ⟨r, s1⟩
  rw [hxs] at h
  cases r with
  | error e =>
    simp only [Prod.mk.injEq, Except.error.injEq] at h
    exact hx.safe s w s1 (by rw [hxs, h.1])
  | ok b => exact (hf b).safe s1 w s' h

theorem Safe.ite {c : Prop} [Decidable c] {x y : M β} (hx : Safe F x) (hy : Safe F y) : Safe F (if c then x else y) := by
  split
  · exact hx
  · exact hy

/-- A `noexcept` function whose body never throws. -/
theorem Safe.noexcept {x : M β} (hx : Safe (fun _ => True) x) : Safe F (noexcept x) := by
  constructor
  intro s w s' h
  unfold Str.noexcept at h
  rcases hxs : x s with ⟨r, s1⟩
  rw [hxs] at h
  cases r with
  | ok b => cases h
  | error e =>
    cases e with
    | throw w' => exact absurd trivial (hx.safe s w' s1 hxs)
    | ub _ => cases h
    | assertFail _ => cases h

/-- Step of the proofs below; extended by each lemma. -/
syntax "safe_step" : tactic
macro_rules | `(tactic| safe_step) => `(tactic| with_reducible exact Safe.pure _)
macro_rules | `(tactic| safe_step) => `(tactic| with_reducible exact Safe.ub _)
macro_rules | `(tactic| safe_step) => `(tactic| with_reducible exact Safe.assertFail _)
macro_rules | `(tactic| safe_step) => `(tactic| (with_reducible refine Safe.raise ?_; unfold T; decide))
macro_rules | `(tactic| safe_step) => `(tactic| intro _)
macro_rules | `(tactic| safe_step) => `(tactic| extract_lets)
macro_rules | `(tactic| safe_step) => `(tactic| split)
macro_rules | `(tactic| safe_step) => `(tactic| with_reducible apply Safe.ite)
macro_rules | `(tactic| safe_step) => `(tactic| with_reducible apply Safe.bind)

/-- Split an action into its parts. -/
macro "safe" : tactic => `(tactic| repeat' safe_step)

/-- An action given by cases on the memory. -/
macro "safe_cases" : tactic => `(tactic| (constructor; intro s w s' h; revert h; (try dsimp only); repeat' split) <;> (intro h; first | (cases h; done) | (cases h; unfold T; decide)))

/-- An action and what follows its result or fault. -/
theorem Safe.handle {x : M β} {y : M γ} (hx : Safe F x) (h : Except Fault β → M γ) (e : ∀ s, y s = h (x s).1 (x s).2)
    (hh : ∀ r, (∀ w, r = .error (.throw w) → ¬ F w) → Safe F (h r)) : Safe F y := by
  constructor
  intro s w s' hy
  rw [e] at hy
  exact (hh _ fun w' hw => hx.safe s w' (x s).2 (Prod.ext hw rfl)).safe _ _ _ hy

theorem Safe.fail {e : Fault} (h : ∀ w, e = .throw w → ¬ F w) : Safe F (M.fail e : M β) :=
  ⟨fun _ w _ he => by cases he; exact h w rfl⟩

theorem assert_safe (c : Bool) (msg : String) : Safe F (assert cfg c msg) := by
  unfold assert
  safe

macro_rules | `(tactic| safe_step) => `(tactic| with_reducible exact assert_safe _ _)

theorem doIf_safe (c : Bool) (x : M Unit) (h : Safe F x) : Safe F (doIf c x) := by
  unfold doIf
  safe
  all_goals exact h

macro_rules | `(tactic| safe_step) => `(tactic| with_reducible apply doIf_safe)

theorem readCells_safe (p : Ptr) (n : Nat) : Safe F (readCells p n) := by
  unfold readCells
  safe_cases

macro_rules | `(tactic| safe_step) => `(tactic| with_reducible exact readCells_safe _ _)

theorem writeCells_safe (p : Ptr) (cs : List Cell) : Safe F (writeCells p cs) := by
  unfold writeCells
  safe_cases

macro_rules | `(tactic| safe_step) => `(tactic| with_reducible exact writeCells_safe _ _)

theorem room_safe (p : Ptr) : Safe F (room p) := by
  unfold room
  safe_cases

macro_rules | `(tactic| safe_step) => `(tactic| with_reducible exact room_safe _)

theorem podFill_safe (p : Ptr) (n : Nat) (c : Ch) : Safe F (podFill p n c) := by
  unfold podFill
  safe

macro_rules | `(tactic| safe_step) => `(tactic| with_reducible exact podFill_safe _ _ _)

theorem podCopy_safe (p : Ptr) (n : Nat) (q : Ptr) : Safe F (podCopy cfg p n q) := by
  unfold podCopy
  safe

macro_rules | `(tactic| safe_step) => `(tactic| with_reducible exact podCopy_safe _ _ _)

theorem podMove_safe (p : Ptr) (n : Nat) (q : Ptr) : Safe F (podMove p n q) := by
  unfold podMove
  safe

macro_rules | `(tactic| safe_step) => `(tactic| with_reducible exact podMove_safe _ _ _)

theorem alloc_safe (al : Nat) (hdr : Bool) (bytes : Nat) : Safe T (alloc cfg al hdr bytes) := by
  unfold alloc
  safe_cases

macro_rules | `(tactic| safe_step) => `(tactic| with_reducible exact alloc_safe _ _ _)

theorem dealloc_safe (al : Nat) (b : Nat) : Safe F (dealloc cfg al b) := by
  unfold dealloc
  safe_cases

macro_rules | `(tactic| safe_step) => `(tactic| with_reducible exact dealloc_safe _ _)

theorem refs_safe (b : Nat) : Safe F (refs b) := by
  unfold refs
  safe_cases

macro_rules | `(tactic| safe_step) => `(tactic| with_reducible exact refs_safe _)

theorem setRefs_safe (b n : Nat) : Safe F (setRefs b n) := by
  unfold setRefs
  safe_cases

macro_rules | `(tactic| safe_step) => `(tactic| with_reducible exact setRefs_safe _ _)

theorem incrementRefs_safe (b : Nat) : Safe F (incrementRefs b) := by
  unfold incrementRefs
  safe

macro_rules | `(tactic| safe_step) => `(tactic| with_reducible exact incrementRefs_safe _)

theorem decrementRefs_safe (al : Nat) (b : Nat) : Safe F (decrementRefs cfg al b) := by
  unfold decrementRefs
  safe

macro_rules | `(tactic| safe_step) => `(tactic| with_reducible exact decrementRefs_safe _ _)

theorem lengthError_safe  : Safe T (lengthError : M β) := by
  unfold lengthError
  safe_cases

macro_rules | `(tactic| safe_step) => `(tactic| with_reducible exact lengthError_safe)

theorem largeBytes_safe (size : Nat) : Safe T (largeBytes cfg size) := by
  unfold largeBytes
  safe

macro_rules | `(tactic| safe_step) => `(tactic| with_reducible exact largeBytes_safe _)

theorem create_safe (al : Nat) (size : Nat) : Safe T (create cfg al size) := by
  unfold create
  safe

macro_rules | `(tactic| safe_step) => `(tactic| with_reducible exact create_safe _ _)

theorem copyBlk_safe (a b k : Nat) : Safe F (copyBlk a b k) := by
  unfold copyBlk
  safe

macro_rules | `(tactic| safe_step) => `(tactic| with_reducible exact copyBlk_safe _ _ _)

theorem checkedRealloc_safe (a : Nat) (hdr : Bool) (bytes : Nat) : Safe T (checkedRealloc cfg a hdr bytes) := by
  unfold checkedRealloc
  safe_cases

macro_rules | `(tactic| safe_step) => `(tactic| with_reducible exact checkedRealloc_safe _ _ _)

theorem smartRealloc_safe (al : Nat) (a : Nat) (hdr : Bool) (cur cap new : Nat) : Safe T (smartRealloc cfg al a hdr cur cap new) := by
  unfold smartRealloc
  safe

macro_rules | `(tactic| safe_step) => `(tactic| with_reducible exact smartRealloc_safe _ _ _ _ _ _)

theorem getOb_safe (v : Obj) : Safe F (getOb v) := by
  unfold getOb
  safe_cases

macro_rules | `(tactic| safe_step) => `(tactic| with_reducible exact getOb_safe _)

theorem setCore_safe (v : Obj) (c : Core) : Safe F (setCore v c) := by
  unfold setCore
  safe_cases

macro_rules | `(tactic| safe_step) => `(tactic| with_reducible exact setCore_safe _ _)

theorem newOb_safe (v : Obj) (al : Nat) : Safe T (newOb cfg v al) := by
  unfold newOb
  safe_cases

macro_rules | `(tactic| safe_step) => `(tactic| with_reducible exact newOb_safe _ _)

theorem dropOb_safe (v : Obj) : Safe F (dropOb v) := by
  unfold dropOb
  safe_cases

macro_rules | `(tactic| safe_step) => `(tactic| with_reducible exact dropOb_safe _)

theorem constructing_safe (v : Obj) (body : M Unit) (h : Safe F body) : Safe F (constructing v body) := by
  constructor
  intro s w s' hs
  have h1 := h.safe s
  unfold constructing at hs
  rcases hb : body s with ⟨r, s1⟩
  rw [hb] at hs h1
  cases r with
  | ok _ => cases hs
  | error e =>
    cases e with
    | throw w' => cases hs; exact h1 _ _ rfl
    | ub _ => cases hs
    | assertFail _ => cases hs

macro_rules | `(tactic| safe_step) => `(tactic| with_reducible apply constructing_safe)

theorem construct_safe (v : Obj) (al : Nat) (body : M Unit) (h : Safe T body) : Safe T (construct cfg v al body) := by
  unfold construct
  safe
  all_goals exact h

macro_rules | `(tactic| safe_step) => `(tactic| with_reducible apply construct_safe)

theorem size_safe (v : Obj) : Safe F (size cfg v) := by
  unfold size
  safe

macro_rules | `(tactic| safe_step) => `(tactic| with_reducible exact size_safe _)

theorem capacity_safe (v : Obj) : Safe F (capacity cfg v) := by
  unfold capacity
  safe

macro_rules | `(tactic| safe_step) => `(tactic| with_reducible exact capacity_safe _)

theorem dataPtr_safe (v : Obj) : Safe F (dataPtr v) := by
  unfold dataPtr
  safe

macro_rules | `(tactic| safe_step) => `(tactic| with_reducible exact dataPtr_safe _)

theorem isShared_safe (v : Obj) : Safe F (isShared v) := by
  unfold isShared
  safe

macro_rules | `(tactic| safe_step) => `(tactic| with_reducible exact isShared_safe _)

theorem setSmallSize_safe (v : Obj) (n : Nat) : Safe F (setSmallSize cfg v n) := by
  unfold setSmallSize
  safe

macro_rules | `(tactic| safe_step) => `(tactic| with_reducible exact setSmallSize_safe _ _)

theorem release_safe (v : Obj) : Safe F (release cfg v) := by
  unfold release
  safe

macro_rules | `(tactic| safe_step) => `(tactic| with_reducible exact release_safe _)

theorem destroy_safe (v : Obj) : Safe F (destroy cfg v) := by
  unfold destroy
  safe

macro_rules | `(tactic| safe_step) => `(tactic| with_reducible exact destroy_safe _)

theorem withTemp_safe (t : Obj) (body : M β) (h : Safe T body) : Safe T (withTemp cfg t body) := by
  refine h.handle (fun r => match r with
      | .ok b => destroy cfg t >>= fun _ => pure b
      | .error (.throw w) => destroy cfg t >>= fun _ => M.raise w
      | .error e => M.fail e)
    (fun s => ?_) fun r hr => ?_
  · unfold withTemp
    rcases body s with ⟨r, s1⟩
    cases r with
    | ok b =>
      simp only [bind_apply]; rcases destroy cfg t s1 with ⟨r2, s2⟩; cases r2 <;> rfl
    | error e =>
      cases e with
      | throw w => simp only [bind_apply]; rcases destroy cfg t s1 with ⟨r2, s2⟩; cases r2 <;> rfl
      | ub _ => rfl
      | assertFail _ => rfl
  rcases r with e | b
  · cases e with
    | throw w => exact Safe.bind (destroy_safe _) fun _ => Safe.raise (hr w rfl)
    | ub _ => exact Safe.fail (by simp)
    | assertFail _ => exact Safe.fail (by simp)
  · exact Safe.bind (destroy_safe _) fun _ => Safe.pure b

macro_rules | `(tactic| safe_step) => `(tactic| with_reducible apply withTemp_safe)

theorem swap_safe (u v : Obj) : Safe F (swap u v) := by
  unfold swap
  safe

macro_rules | `(tactic| safe_step) => `(tactic| with_reducible exact swap_safe _ _)

theorem initEmpty_safe (v : Obj) : Safe F (initEmpty cfg v) := by
  unfold initEmpty
  safe

macro_rules | `(tactic| safe_step) => `(tactic| with_reducible exact initEmpty_safe _)

theorem initSmall_safe (v : Obj) (p : Ptr) (n : Nat) : Safe T (initSmall cfg v p n) := by
  unfold initSmall
  safe

macro_rules | `(tactic| safe_step) => `(tactic| with_reducible exact initSmall_safe _ _ _)

theorem initMedium_safe (v : Obj) (al : Nat) (p : Ptr) (n : Nat) : Safe T (initMedium cfg v al p n) := by
  unfold initMedium
  safe

macro_rules | `(tactic| safe_step) => `(tactic| with_reducible exact initMedium_safe _ _ _ _)

theorem initLarge_safe (v : Obj) (al : Nat) (p : Ptr) (n : Nat) : Safe T (initLarge cfg v al p n) := by
  unfold initLarge
  safe

macro_rules | `(tactic| safe_step) => `(tactic| with_reducible exact initLarge_safe _ _ _ _)

theorem initData_safe (v : Obj) (al : Nat) (p : Ptr) (n : Nat) : Safe T (initData cfg v al p n) := by
  unfold initData
  safe

macro_rules | `(tactic| safe_step) => `(tactic| with_reducible exact initData_safe _ _ _ _)

theorem initCheck_safe (v : Obj) (p : Ptr) (n : Nat) : Safe T (initCheck cfg v p n) := by
  unfold initCheck
  safe

macro_rules | `(tactic| safe_step) => `(tactic| with_reducible exact initCheck_safe _ _ _)

theorem ctorData_safe (v : Obj) (al : Nat) (p : Ptr) (n : Nat) : Safe T (ctorData cfg v al p n) := by
  unfold ctorData
  safe

macro_rules | `(tactic| safe_step) => `(tactic| with_reducible exact ctorData_safe _ _ _ _)

theorem ctorEmpty_safe (v : Obj) (al : Nat) : Safe T (ctorEmpty cfg v al) := by
  unfold ctorEmpty
  safe

macro_rules | `(tactic| safe_step) => `(tactic| with_reducible exact ctorEmpty_safe _ _)

theorem copyMedium_safe (v : Obj) (al d n : Nat) : Safe T (copyMedium cfg v al d n) := by
  unfold copyMedium
  safe

macro_rules | `(tactic| safe_step) => `(tactic| with_reducible exact copyMedium_safe _ _ _ _)

theorem copyCore_safe (v : Obj) (r : Ob) : Safe T (copyCore cfg v r) := by
  unfold copyCore
  safe

macro_rules | `(tactic| safe_step) => `(tactic| with_reducible exact copyCore_safe _ _)

theorem copyCheck_safe (v u : Obj) : Safe T (copyCheck cfg v u) := by
  unfold copyCheck
  safe

macro_rules | `(tactic| safe_step) => `(tactic| with_reducible exact copyCheck_safe _ _)

theorem ctorMove_safe (v u : Obj) : Safe T (ctorMove cfg v u) := by
  unfold ctorMove
  safe

macro_rules | `(tactic| safe_step) => `(tactic| with_reducible exact ctorMove_safe _ _)

theorem blockOf_safe (v : Obj) : Safe T (blockOf v) := by
  unfold blockOf
  safe

macro_rules | `(tactic| safe_step) => `(tactic| with_reducible exact blockOf_safe _)

theorem reserveSmall_safe (v : Obj) (n : Nat) : Safe T (reserveSmall cfg v n) := by
  unfold reserveSmall
  safe

macro_rules | `(tactic| safe_step) => `(tactic| with_reducible exact reserveSmall_safe _ _)

theorem unshare_safe (v : Obj) (n : Nat) : Safe T (unshare cfg v n) := by
  unfold unshare
  safe

macro_rules | `(tactic| safe_step) => `(tactic| with_reducible exact unshare_safe _ _)

theorem reallocate_safe (al d size cap n : Nat) : Safe T (reallocate cfg al d size cap n) := by
  unfold reallocate
  safe

macro_rules | `(tactic| safe_step) => `(tactic| with_reducible exact reallocate_safe _ _ _ _ _)

theorem reserveLarge_safe (v : Obj) (n : Nat) : Safe T (reserveLarge cfg v n) := by
  unfold reserveLarge
  safe

macro_rules | `(tactic| safe_step) => `(tactic| with_reducible exact reserveLarge_safe _ _)

theorem growNascent_safe (t v : Obj) (d k n : Nat) : Safe T (growNascent cfg t v d k n) := by
  unfold growNascent
  safe

macro_rules | `(tactic| safe_step) => `(tactic| with_reducible exact growNascent_safe _ _ _ _ _)

theorem reserveMedium_safe (v : Obj) (n : Nat) : Safe T (reserveMedium cfg v n) := by
  unfold reserveMedium
  safe

macro_rules | `(tactic| safe_step) => `(tactic| with_reducible exact reserveMedium_safe _ _)

theorem reserveBy_safe (v : Obj) (n : Nat) : Safe T (reserveBy cfg v n) := by
  unfold reserveBy
  safe

macro_rules | `(tactic| safe_step) => `(tactic| with_reducible exact reserveBy_safe _ _)

theorem reserveCore_safe (v : Obj) (n : Nat) : Safe T (reserveCore cfg v n) := by
  unfold reserveCore
  safe

macro_rules | `(tactic| safe_step) => `(tactic| with_reducible exact reserveCore_safe _ _)

theorem expandTail_safe (v : Obj) (old new : Nat) : Safe T (expandTail cfg v old new) := by
  unfold expandTail
  safe

macro_rules | `(tactic| safe_step) => `(tactic| with_reducible exact expandTail_safe _ _ _)

theorem expandNoinit_safe (v : Obj) (delta : Nat) (exp : Bool) : Safe T (expandNoinit cfg v delta exp) := by
  unfold expandNoinit
  safe

macro_rules | `(tactic| safe_step) => `(tactic| with_reducible exact expandNoinit_safe _ _ _)

theorem shrinkSmall_safe (v : Obj) (delta : Nat) : Safe F (shrinkSmall cfg v delta) := by
  unfold shrinkSmall
  safe

macro_rules | `(tactic| safe_step) => `(tactic| with_reducible exact shrinkSmall_safe _ _)

theorem shrinkMedium_safe (v : Obj) (d k cap : Nat) (large : Bool) (delta : Nat) : Safe F (shrinkMedium cfg v d k cap large delta) := by
  unfold shrinkMedium
  safe

macro_rules | `(tactic| safe_step) => `(tactic| with_reducible exact shrinkMedium_safe _ _ _ _ _ _)

theorem shrinkLarge_safe (v : Obj) (al d k delta : Nat) : Safe T (shrinkLarge cfg v al d k delta) := by
  unfold shrinkLarge
  safe

macro_rules | `(tactic| safe_step) => `(tactic| with_reducible exact shrinkLarge_safe _ _ _ _ _)

theorem shrink_safe (v : Obj) (delta : Nat) : Safe T (shrink cfg v delta) := by
  unfold shrink
  safe

macro_rules | `(tactic| safe_step) => `(tactic| with_reducible exact shrink_safe _ _)

theorem pushBack_safe (v : Obj) (c : Ch) : Safe T (pushBack cfg v c) := by
  unfold pushBack
  safe

macro_rules | `(tactic| safe_step) => `(tactic| with_reducible exact pushBack_safe _ _)

theorem sane_safe (v : Obj) : Safe T (sane cfg v) := by
  unfold sane
  safe

macro_rules | `(tactic| safe_step) => `(tactic| with_reducible exact sane_safe _)

theorem checking_safe (v : Obj) (body : M β) (h : Safe T body) : Safe T (checking cfg v body) := by
  refine h.handle (fun r => match r with
      | .ok b => sane cfg v >>= fun _ => pure b
      | .error (.throw w) => sane cfg v >>= fun _ => M.raise w
      | .error e => M.fail e)
    (fun s => ?_) fun r hr => ?_
  · unfold checking
    rcases body s with ⟨r, s1⟩
    cases r with
    | ok b =>
      simp only [bind_apply]; rcases sane cfg v s1 with ⟨r2, s2⟩; cases r2 <;> rfl
    | error e =>
      cases e with
      | throw w => simp only [bind_apply]; rcases sane cfg v s1 with ⟨r2, s2⟩; cases r2 <;> rfl
      | ub _ => rfl
      | assertFail _ => rfl
  rcases r with e | b
  · cases e with
    | throw w => exact Safe.bind (sane_safe _) fun _ => Safe.raise (hr w rfl)
    | ub _ => exact Safe.fail (by simp)
    | assertFail _ => exact Safe.fail (by simp)
  · exact Safe.bind (sane_safe _) fun _ => Safe.pure b

macro_rules | `(tactic| safe_step) => `(tactic| with_reducible apply checking_safe)

theorem checker_safe (v : Obj) (body : M β) (h : Safe T body) : Safe T (checker cfg v body) := by
  unfold checker
  safe
  all_goals exact h

macro_rules | `(tactic| safe_step) => `(tactic| with_reducible apply checker_safe)

theorem enforce_safe (c : Bool) : Safe T (enforce c) := by
  unfold enforce
  safe

macro_rules | `(tactic| safe_step) => `(tactic| with_reducible exact enforce_safe _)

theorem ctorFill_safe (v : Obj) (al n : Nat) (c : Ch) : Safe T (ctorFill cfg v al n c) := by
  unfold ctorFill
  safe

macro_rules | `(tactic| safe_step) => `(tactic| with_reducible exact ctorFill_safe _ _ _ _)

theorem resize_safe (v : Obj) (n : Nat) (c : Ch) : Safe T (resize cfg v n c) := by
  unfold resize
  safe

macro_rules | `(tactic| safe_step) => `(tactic| with_reducible exact resize_safe _ _ _)

theorem appendCopy_safe (v : Obj) (p : Ptr) (n : Nat) (q : Ptr) (old : Nat) (r : Ptr) : Safe T (appendCopy cfg v p n q old r) := by
  unfold appendCopy
  safe

macro_rules | `(tactic| safe_step) => `(tactic| with_reducible exact appendCopy_safe _ _ _ _ _ _)

theorem append_safe (v : Obj) (p : Ptr) (n : Nat) : Safe T (append cfg v p n) := by
  unfold append
  safe

macro_rules | `(tactic| safe_step) => `(tactic| with_reducible exact append_safe _ _ _)

theorem appendFill_safe (v : Obj) (n : Nat) (c : Ch) : Safe T (appendFill cfg v n c) := by
  unfold appendFill
  safe

macro_rules | `(tactic| safe_step) => `(tactic| with_reducible exact appendFill_safe _ _ _)

theorem appendStr_safe (v u : Obj) : Safe T (appendStr cfg v u) := by
  unfold appendStr
  safe

macro_rules | `(tactic| safe_step) => `(tactic| with_reducible exact appendStr_safe _ _)

theorem reserve_safe (v : Obj) (n : Nat) : Safe T (reserve cfg v n) := by
  unfold reserve
  safe

macro_rules | `(tactic| safe_step) => `(tactic| with_reducible exact reserve_safe _ _)

theorem shrinkToFit_safe (v : Obj) : Safe T (shrinkToFit cfg v) := by
  unfold shrinkToFit
  safe

macro_rules | `(tactic| safe_step) => `(tactic| with_reducible exact shrinkToFit_safe _)

theorem clear_safe (v : Obj) : Safe T (clear cfg v) := by
  unfold clear
  safe

macro_rules | `(tactic| safe_step) => `(tactic| with_reducible exact clear_safe _)

theorem readChar_safe (p : Ptr) : Safe T (readChar p) := by
  unfold readChar
  safe

macro_rules | `(tactic| safe_step) => `(tactic| with_reducible exact readChar_safe _)

theorem getAt_safe (v : Obj) (i : Nat) : Safe T (getAt v i) := by
  unfold getAt
  safe

macro_rules | `(tactic| safe_step) => `(tactic| with_reducible exact getAt_safe _ _)

theorem atConst_safe (v : Obj) (i : Nat) : Safe T (atConst cfg v i) := by
  unfold atConst
  safe

macro_rules | `(tactic| safe_step) => `(tactic| with_reducible exact atConst_safe _ _)

theorem copyOut_safe (v : Obj) (n pos : Nat) : Safe T (copyOut cfg v n pos) := by
  unfold copyOut
  safe

macro_rules | `(tactic| safe_step) => `(tactic| with_reducible exact copyOut_safe _ _ _)

theorem posOf_safe (v : Obj) (i : Ptr) : Safe T (posOf cfg v i) := by
  unfold posOf
  safe

macro_rules | `(tactic| safe_step) => `(tactic| with_reducible exact posOf_safe _ _)

theorem building_safe (v : Obj) (body : M Unit) (h : Safe T body) : Safe T (building cfg v body) := by
  refine h.handle (fun r => match r with
      | .ok b => pure b
      | .error (.throw w) => destroy cfg v >>= fun _ => M.raise w
      | .error e => M.fail e)
    (fun s => ?_) fun r hr => ?_
  · unfold building
    rcases body s with ⟨r, s1⟩
    cases r with
    | ok b =>
      rfl
    | error e =>
      cases e with
      | throw w => simp only [bind_apply]; rcases destroy cfg v s1 with ⟨r2, s2⟩; cases r2 <;> rfl
      | ub _ => rfl
      | assertFail _ => rfl
  rcases r with e | b
  · cases e with
    | throw w => exact Safe.bind (destroy_safe _) fun _ => Safe.raise (hr w rfl)
    | ub _ => exact Safe.fail (by simp)
    | assertFail _ => exact Safe.fail (by simp)
  · exact Safe.pure b

macro_rules | `(tactic| safe_step) => `(tactic| with_reducible apply building_safe)

theorem substr_safe (v u : Obj) (pos n : Nat) : Safe T (substr cfg v u pos n) := by
  unfold substr
  safe

macro_rules | `(tactic| safe_step) => `(tactic| with_reducible exact substr_safe _ _ _ _)

theorem concat_safe (v u1 u2 : Obj) : Safe T (concat cfg v u1 u2) := by
  unfold concat
  safe

macro_rules | `(tactic| safe_step) => `(tactic| with_reducible exact concat_safe _ _ _)

theorem addPart_safe (v u : Obj) (q : Part) : Safe T (addPart cfg v u q) := by
  unfold addPart
  safe

macro_rules | `(tactic| safe_step) => `(tactic| with_reducible exact addPart_safe _ _ _)

theorem addParts_safe (v u : Obj) (q1 q2 : Part) : Safe T (addParts cfg v u q1 q2) := by
  unfold addParts
  safe

macro_rules | `(tactic| safe_step) => `(tactic| with_reducible exact addParts_safe _ _ _ _)

theorem partSize_safe (u : Obj) (q : Part) : Safe T (partSize cfg u q) := by
  unfold partSize
  safe

macro_rules | `(tactic| safe_step) => `(tactic| with_reducible exact partSize_safe _ _)

theorem plusNew_safe (v u : Obj) (q1 q2 : Part) : Safe T (plusNew cfg v u q1 q2) := by
  unfold plusNew
  safe

macro_rules | `(tactic| safe_step) => `(tactic| with_reducible exact plusNew_safe _ _ _ _)

theorem Src.resolve_safe (src : Src) : Safe T src.resolve := by
  unfold Src.resolve
  safe

macro_rules | `(tactic| safe_step) => `(tactic| with_reducible exact Src.resolve_safe _)

theorem IStream.setstate_safe (is : IStream) (e f : Bool) : Safe T (is.setstate e f) := by
  unfold IStream.setstate
  safe

macro_rules | `(tactic| safe_step) => `(tactic| with_reducible exact IStream.setstate_safe _ _ _)

theorem lineEnd_safe (is : IStream) (delim : Ch) (k : Nat) (rest : List Ch) : Safe T (lineEnd is delim k rest) := by
  unfold lineEnd
  safe

macro_rules | `(tactic| safe_step) => `(tactic| with_reducible exact lineEnd_safe _ _ _ _)

theorem streamGetline_safe (is : IStream) (p : Ptr) (n : Nat) (delim : Ch) : Safe T (streamGetline is p n delim) := by
  unfold streamGetline
  safe

macro_rules | `(tactic| safe_step) => `(tactic| with_reducible exact streamGetline_safe _ _ _ _)

theorem getlineLoop_safe (v : Obj) (delim : Ch) : ∀ (fuel : Nat) (is : IStream) (n : Nat), Safe T (getlineLoop cfg v delim fuel is n)
  | 0, _, _ => Safe.ub _
  | fuel + 1, is, n => by
    have ih := getlineLoop_safe v delim fuel
    unfold getlineLoop
    safe <;> exact ih _ _

macro_rules | `(tactic| safe_step) => `(tactic| with_reducible exact getlineLoop_safe _ _ _ _ _)

theorem getline_safe (v : Obj) (is : IStream) (delim : Ch) : Safe T (getline cfg v is delim) := by
  unfold getline
  safe

macro_rules | `(tactic| safe_step) => `(tactic| with_reducible exact getline_safe _ _ _)

theorem ctypeSpace_safe (c : Ch) : Safe T (ctypeSpace c) := by
  unfold ctypeSpace
  safe

macro_rules | `(tactic| safe_step) => `(tactic| with_reducible exact ctypeSpace_safe _)

theorem sentry_safe (is : IStream) : Safe T (sentry is) := by
  unfold sentry
  safe

macro_rules | `(tactic| safe_step) => `(tactic| with_reducible exact sentry_safe _)

theorem extractLoop_safe (v : Obj) (is : IStream) : ∀ (inp : List Ch) (room k : Nat), Safe T (extractLoop cfg v is room inp k)
  | [], room, k => by
    unfold extractLoop
    safe
    contradiction
  | c :: t, room, k => by
    have ih := extractLoop_safe v is t
    unfold extractLoop
    safe <;> exact ih _ _

macro_rules | `(tactic| safe_step) => `(tactic| with_reducible exact extractLoop_safe _ _ _ _ _)

theorem extractEnd_safe (is : IStream) (k : Nat) (eof : Bool) : Safe T (extractEnd is k eof) := by
  unfold extractEnd
  safe

macro_rules | `(tactic| safe_step) => `(tactic| with_reducible exact extractEnd_safe _ _ _)

theorem ctorCopy_safe (ha : cfg.arena = true) (v u : Obj) : Safe T (ctorCopy cfg v u) := by
  unfold ctorCopy noexceptIf
  simp only [ha, Bool.not_true, Bool.false_eq_true, if_false]
  safe

theorem clone_safe (ha : cfg.arena = true) (v u : Obj) : Safe T (clone cfg v u) := by
  unfold clone
  safe <;> exact ctorCopy_safe ha v u

/-- The calls that contain no `noexcept` function which may throw: making strings from characters, parts of strings and
concatenations, moving into a new string, exchanging, appending, `resize`, `reserve`, `shrink_to_fit`, `clear`,
`getline`, the end of a string's life; with an arena, copying too. -/
def Op.throwsOnly (arena : Bool) : Op → Bool
  | .makeEmpty .. | .make .. | .makeFill .. | .move .. | .substr .. | .concat .. | .concatWith .. | .destroy .. | .swap ..
  | .append .. | .appendStr .. | .appendFill .. | .pushBack .. | .resize .. | .reserve .. | .shrinkToFit .. | .clear .. | .getline .. => true
  | .copy .. | .clone .. => arena
  | _ => false

theorem Op.run_safe (cfg : Cfg) (op : Op) (h : op.throwsOnly cfg.arena = true) : Safe T (op.run cfg) := by
  cases op
  all_goals first
    | (cases h; done)
    | exact ctorCopy_safe h _ _
    | exact clone_safe h _ _
    | (unfold Op.run; safe)

end Verif.Str
