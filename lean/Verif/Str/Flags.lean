import Verif.Str.Prog

/-!
The two flags of the memory tell the truth: an operation that succeeds leaves them as they were, and
one that fails sets `lost` only together with `refused`.
-/

namespace Verif.Str

open M

variable {β γ : Type} {cfg : Cfg}

/-- What becomes of the flags. -/
def Flags (s : St) : Except Fault β × St → Prop
  | (.ok _, s') => s'.refused = s.refused ∧ s'.lost = s.lost
  | (.error _, s') => (s.refused = true → s'.refused = true) ∧ (s'.lost = true → s.lost = true ∨ s'.refused = true)

/-- What an action does to the flags. -/
structure Quiet (x : M β) : Prop where
  flags : ∀ s, Flags s (x s)

theorem Quiet.pure (b : β) : Quiet (pure b : M β) := ⟨fun _ => ⟨rfl, rfl⟩⟩

theorem Quiet.fail (e : Fault) : Quiet (M.fail e : M β) := ⟨fun _ => ⟨id, Or.inl⟩⟩

theorem Quiet.ub (w : String) : Quiet (M.ub w : M β) := Quiet.fail _

theorem Quiet.raise (w : String) : Quiet (M.raise w : M β) := Quiet.fail _

theorem Quiet.bind {x : M β} {f : β → M γ} (hx : Quiet x) (hf : ∀ b, Quiet (f b)) : Quiet (x >>= f) := by
  constructor
  intro s
  have h1 := hx.flags s
  show Flags s (M.bind x f s)
  unfold M.bind
  rcases hxs : x s with ⟨r, s1⟩
  rw [hxs] at h1
  cases r with
  | error e => exact h1
  | ok b =>
    have h2 := (hf b).flags s1
    simp only [Flags] at h1
    unfold Flags at h2 ⊢
    rw [h1.1, h1.2] at h2
    exact h2

theorem Quiet.ite {c : Prop} [Decidable c] {x y : M β} (hx : Quiet x) (hy : Quiet y) : Quiet (if c then x else y) := by
  split
  · exact hx
  · exact hy

theorem Quiet.noexcept {x : M β} (hx : Quiet x) : Quiet (noexcept x) := by
  constructor
  intro s
  have h1 := hx.flags s
  unfold Str.noexcept
  rcases hxs : x s with ⟨r, s1⟩
  rw [hxs] at h1
  cases r with
  | ok b => exact h1
  | error e => cases e <;> exact h1

theorem Quiet.noexceptIf {c : Bool} {x : M β} (hx : Quiet x) : Quiet (noexceptIf c x) := by
  unfold Str.noexceptIf
  split
  · exact hx.noexcept
  · exact hx

theorem Flags.ok {s s1 s2 : St} {b : β} {c : γ} (h1 : Flags s (.ok b, s1)) (h2 : Flags s1 (.ok c, s2)) : Flags s (.ok b, s2) :=
  ⟨h2.1.trans h1.1, h2.2.trans h1.2⟩

theorem Flags.okError {s s1 s2 : St} {b : β} {e : Fault} (h1 : Flags s (.ok b, s1)) (h2 : Flags s1 (.error e, s2) (β := γ)) :
    Flags s (.error e, s2) (β := β) := by
  unfold Flags at h1 h2 ⊢
  rw [← h1.1, ← h1.2]; exact h2

theorem Flags.errorOk {s s1 s2 : St} {e : Fault} {c : γ} (h1 : Flags s (.error e, s1) (β := β)) (h2 : Flags s1 (.ok c, s2)) :
    Flags s (.error e, s2) (β := β) := by
  simp only [Flags] at h1 h2 ⊢
  rw [h2.1, h2.2]; exact h1

theorem Flags.error {s s1 s2 : St} {e e' : Fault} (h1 : Flags s (.error e, s1) (β := β)) (h2 : Flags s1 (.error e', s2) (β := γ)) :
    Flags s (.error e', s2) (β := β) := by
  refine ⟨fun h => h2.1 (h1.1 h), fun h => ?_⟩
  rcases h2.2 h with h | h
  · rcases h1.2 h with h | h
    · exact Or.inl h
    · exact Or.inr (h2.1 h)
  · exact Or.inr h

/-- Step of the proofs below; extended by each lemma. -/
syntax "quiet_step" : tactic
macro_rules | `(tactic| quiet_step) => `(tactic| with_reducible exact Quiet.pure _)
macro_rules | `(tactic| quiet_step) => `(tactic| with_reducible exact Quiet.fail _)
macro_rules | `(tactic| quiet_step) => `(tactic| with_reducible exact Quiet.ub _)
macro_rules | `(tactic| quiet_step) => `(tactic| with_reducible exact Quiet.raise _)
macro_rules | `(tactic| quiet_step) => `(tactic| intro _)
macro_rules | `(tactic| quiet_step) => `(tactic| extract_lets)
macro_rules | `(tactic| quiet_step) => `(tactic| split)
macro_rules | `(tactic| quiet_step) => `(tactic| with_reducible apply Quiet.ite)
macro_rules | `(tactic| quiet_step) => `(tactic| with_reducible apply Quiet.bind)
macro_rules | `(tactic| quiet_step) => `(tactic| with_reducible apply Quiet.noexcept)
macro_rules | `(tactic| quiet_step) => `(tactic| with_reducible apply Quiet.noexceptIf)

/-- Split an action into its parts. -/
macro "quiet" : tactic => `(tactic| repeat' quiet_step)

/-- An action given by cases on the memory, each of which keeps the flags. -/
macro "quiet_cases" : tactic => `(tactic| (constructor; intro s; repeat' split) <;> (first | exact ⟨rfl, rfl⟩ | exact ⟨id, Or.inl⟩ | exact ⟨fun _ => rfl, fun _ => Or.inr rfl⟩))


theorem assert_quiet (c : Bool) (msg : String) : Quiet (assert cfg c msg) := by
  unfold assert
  quiet

macro_rules | `(tactic| quiet_step) => `(tactic| with_reducible exact assert_quiet _ _)

theorem doIf_quiet (c : Bool) (x : M Unit) (h : Quiet x) : Quiet (doIf c x) := by
  unfold doIf
  quiet
  all_goals exact h

macro_rules | `(tactic| quiet_step) => `(tactic| with_reducible apply doIf_quiet)

theorem readCells_quiet (p : Ptr) (n : Nat) : Quiet (readCells p n) := by
  unfold readCells
  quiet_cases

macro_rules | `(tactic| quiet_step) => `(tactic| with_reducible exact readCells_quiet _ _)

theorem writeCells_quiet (p : Ptr) (cs : List Cell) : Quiet (writeCells p cs) := by
  unfold writeCells
  quiet_cases

macro_rules | `(tactic| quiet_step) => `(tactic| with_reducible exact writeCells_quiet _ _)

theorem room_quiet (p : Ptr) : Quiet (room p) := by
  unfold room
  quiet_cases

macro_rules | `(tactic| quiet_step) => `(tactic| with_reducible exact room_quiet _)

theorem podFill_quiet (p : Ptr) (n : Nat) (c : Ch) : Quiet (podFill p n c) := by
  unfold podFill
  quiet

macro_rules | `(tactic| quiet_step) => `(tactic| with_reducible exact podFill_quiet _ _ _)

theorem podCopy_quiet (p : Ptr) (n : Nat) (q : Ptr) : Quiet (podCopy cfg p n q) := by
  unfold podCopy
  quiet

macro_rules | `(tactic| quiet_step) => `(tactic| with_reducible exact podCopy_quiet _ _ _)

theorem podMove_quiet (p : Ptr) (n : Nat) (q : Ptr) : Quiet (podMove p n q) := by
  unfold podMove
  quiet

macro_rules | `(tactic| quiet_step) => `(tactic| with_reducible exact podMove_quiet _ _ _)

theorem alloc_quiet (al : Nat) (hdr : Bool) (bytes : Nat) : Quiet (alloc cfg al hdr bytes) := by
  unfold alloc
  quiet_cases

macro_rules | `(tactic| quiet_step) => `(tactic| with_reducible exact alloc_quiet _ _ _)

theorem dealloc_quiet (al : Nat) (b : Nat) : Quiet (dealloc cfg al b) := by
  unfold dealloc
  quiet_cases

macro_rules | `(tactic| quiet_step) => `(tactic| with_reducible exact dealloc_quiet _ _)

theorem refs_quiet (b : Nat) : Quiet (refs b) := by
  unfold refs
  quiet_cases

macro_rules | `(tactic| quiet_step) => `(tactic| with_reducible exact refs_quiet _)

theorem setRefs_quiet (b n : Nat) : Quiet (setRefs b n) := by
  unfold setRefs
  quiet_cases

macro_rules | `(tactic| quiet_step) => `(tactic| with_reducible exact setRefs_quiet _ _)

theorem incrementRefs_quiet (b : Nat) : Quiet (incrementRefs b) := by
  unfold incrementRefs
  quiet

macro_rules | `(tactic| quiet_step) => `(tactic| with_reducible exact incrementRefs_quiet _)

theorem decrementRefs_quiet (al : Nat) (b : Nat) : Quiet (decrementRefs cfg al b) := by
  unfold decrementRefs
  quiet

macro_rules | `(tactic| quiet_step) => `(tactic| with_reducible exact decrementRefs_quiet _ _)

theorem lengthError_quiet  : Quiet (lengthError : M β) := by
  unfold lengthError
  quiet_cases

macro_rules | `(tactic| quiet_step) => `(tactic| with_reducible exact lengthError_quiet)

theorem largeBytes_quiet (size : Nat) : Quiet (largeBytes cfg size) := by
  unfold largeBytes
  quiet

macro_rules | `(tactic| quiet_step) => `(tactic| with_reducible exact largeBytes_quiet _)

theorem create_quiet (al : Nat) (size : Nat) : Quiet (create cfg al size) := by
  unfold create
  quiet

macro_rules | `(tactic| quiet_step) => `(tactic| with_reducible exact create_quiet _ _)

theorem copyBlk_quiet (a b k : Nat) : Quiet (copyBlk a b k) := by
  unfold copyBlk
  quiet

macro_rules | `(tactic| quiet_step) => `(tactic| with_reducible exact copyBlk_quiet _ _ _)

theorem checkedRealloc_quiet (a : Nat) (hdr : Bool) (bytes : Nat) : Quiet (checkedRealloc cfg a hdr bytes) := by
  unfold checkedRealloc
  quiet_cases

macro_rules | `(tactic| quiet_step) => `(tactic| with_reducible exact checkedRealloc_quiet _ _ _)

theorem smartRealloc_quiet (al : Nat) (a : Nat) (hdr : Bool) (cur cap new : Nat) : Quiet (smartRealloc cfg al a hdr cur cap new) := by
  unfold smartRealloc
  quiet

macro_rules | `(tactic| quiet_step) => `(tactic| with_reducible exact smartRealloc_quiet _ _ _ _ _ _)

theorem getOb_quiet (v : Obj) : Quiet (getOb v) := by
  unfold getOb
  quiet_cases

macro_rules | `(tactic| quiet_step) => `(tactic| with_reducible exact getOb_quiet _)

theorem setCore_quiet (v : Obj) (c : Core) : Quiet (setCore v c) := by
  unfold setCore
  quiet_cases

macro_rules | `(tactic| quiet_step) => `(tactic| with_reducible exact setCore_quiet _ _)

theorem newOb_quiet (v : Obj) (al : Nat) : Quiet (newOb cfg v al) := by
  unfold newOb
  quiet_cases

macro_rules | `(tactic| quiet_step) => `(tactic| with_reducible exact newOb_quiet _ _)

theorem dropOb_quiet (v : Obj) : Quiet (dropOb v) := by
  unfold dropOb
  quiet_cases

macro_rules | `(tactic| quiet_step) => `(tactic| with_reducible exact dropOb_quiet _)

theorem constructing_quiet (v : Obj) (body : M Unit) (h : Quiet body) : Quiet (constructing v body) := by
  unfold constructing
  constructor
  intro s
  have h1 := h.flags s
  revert h1
  rcases body s with ⟨r, s1⟩
  cases r with
  | ok _ => exact id
  | error e => cases e <;> exact id

macro_rules | `(tactic| quiet_step) => `(tactic| with_reducible apply constructing_quiet)

theorem construct_quiet (v : Obj) (al : Nat) (body : M Unit) (h : Quiet body) : Quiet (construct cfg v al body) := by
  unfold construct
  quiet
  all_goals exact h

macro_rules | `(tactic| quiet_step) => `(tactic| with_reducible apply construct_quiet)

theorem size_quiet (v : Obj) : Quiet (size cfg v) := by
  unfold size
  quiet

macro_rules | `(tactic| quiet_step) => `(tactic| with_reducible exact size_quiet _)

theorem capacity_quiet (v : Obj) : Quiet (capacity cfg v) := by
  unfold capacity
  quiet

macro_rules | `(tactic| quiet_step) => `(tactic| with_reducible exact capacity_quiet _)

theorem dataPtr_quiet (v : Obj) : Quiet (dataPtr v) := by
  unfold dataPtr
  quiet

macro_rules | `(tactic| quiet_step) => `(tactic| with_reducible exact dataPtr_quiet _)

theorem isShared_quiet (v : Obj) : Quiet (isShared v) := by
  unfold isShared
  quiet

macro_rules | `(tactic| quiet_step) => `(tactic| with_reducible exact isShared_quiet _)

theorem setSmallSize_quiet (v : Obj) (n : Nat) : Quiet (setSmallSize cfg v n) := by
  unfold setSmallSize
  quiet

macro_rules | `(tactic| quiet_step) => `(tactic| with_reducible exact setSmallSize_quiet _ _)

theorem release_quiet (v : Obj) : Quiet (release cfg v) := by
  unfold release
  quiet

macro_rules | `(tactic| quiet_step) => `(tactic| with_reducible exact release_quiet _)

theorem destroy_quiet (v : Obj) : Quiet (destroy cfg v) := by
  unfold destroy
  quiet

macro_rules | `(tactic| quiet_step) => `(tactic| with_reducible exact destroy_quiet _)

theorem withTemp_quiet (t : Obj) (body : M β) (h : Quiet body) : Quiet (withTemp cfg t body) := by
  constructor
  intro s
  have h1 := h.flags s
  unfold withTemp
  rcases hb : body s with ⟨r, s1⟩
  rw [hb] at h1
  have h2 := (destroy_quiet (cfg := cfg) t).flags s1
  rcases hd : destroy cfg t s1 with ⟨r1, s2⟩
  rw [hd] at h2
  cases r with
  | ok b =>
    cases r1 <;> simp only [hd]
    · exact h1.okError h2
    · exact h1.ok h2
  | error e =>
    cases e with
    | ub _ => exact h1
    | assertFail _ => exact h1
    | throw w =>
      cases r1 <;> simp only [hd]
      · exact h1.error h2
      · exact h1.errorOk h2

macro_rules | `(tactic| quiet_step) => `(tactic| with_reducible apply withTemp_quiet)

theorem swap_quiet (u v : Obj) : Quiet (swap u v) := by
  unfold swap
  quiet

macro_rules | `(tactic| quiet_step) => `(tactic| with_reducible exact swap_quiet _ _)

theorem initEmpty_quiet (v : Obj) : Quiet (initEmpty cfg v) := by
  unfold initEmpty
  quiet

macro_rules | `(tactic| quiet_step) => `(tactic| with_reducible exact initEmpty_quiet _)

theorem initSmall_quiet (v : Obj) (p : Ptr) (n : Nat) : Quiet (initSmall cfg v p n) := by
  unfold initSmall
  quiet

macro_rules | `(tactic| quiet_step) => `(tactic| with_reducible exact initSmall_quiet _ _ _)

theorem initMedium_quiet (v : Obj) (al : Nat) (p : Ptr) (n : Nat) : Quiet (initMedium cfg v al p n) := by
  unfold initMedium
  quiet

macro_rules | `(tactic| quiet_step) => `(tactic| with_reducible exact initMedium_quiet _ _ _ _)

theorem initLarge_quiet (v : Obj) (al : Nat) (p : Ptr) (n : Nat) : Quiet (initLarge cfg v al p n) := by
  unfold initLarge
  quiet

macro_rules | `(tactic| quiet_step) => `(tactic| with_reducible exact initLarge_quiet _ _ _ _)

theorem initData_quiet (v : Obj) (al : Nat) (p : Ptr) (n : Nat) : Quiet (initData cfg v al p n) := by
  unfold initData
  quiet

macro_rules | `(tactic| quiet_step) => `(tactic| with_reducible exact initData_quiet _ _ _ _)

theorem initCheck_quiet (v : Obj) (p : Ptr) (n : Nat) : Quiet (initCheck cfg v p n) := by
  unfold initCheck
  quiet

macro_rules | `(tactic| quiet_step) => `(tactic| with_reducible exact initCheck_quiet _ _ _)

theorem ctorData_quiet (v : Obj) (al : Nat) (p : Ptr) (n : Nat) : Quiet (ctorData cfg v al p n) := by
  unfold ctorData
  quiet

macro_rules | `(tactic| quiet_step) => `(tactic| with_reducible exact ctorData_quiet _ _ _ _)

theorem ctorEmpty_quiet (v : Obj) (al : Nat) : Quiet (ctorEmpty cfg v al) := by
  unfold ctorEmpty
  quiet

macro_rules | `(tactic| quiet_step) => `(tactic| with_reducible exact ctorEmpty_quiet _ _)

theorem copyMedium_quiet (v : Obj) (al d n : Nat) : Quiet (copyMedium cfg v al d n) := by
  unfold copyMedium
  quiet

macro_rules | `(tactic| quiet_step) => `(tactic| with_reducible exact copyMedium_quiet _ _ _ _)

theorem copyCore_quiet (v : Obj) (r : Ob) : Quiet (copyCore cfg v r) := by
  unfold copyCore
  quiet

macro_rules | `(tactic| quiet_step) => `(tactic| with_reducible exact copyCore_quiet _ _)

theorem copyCheck_quiet (v u : Obj) : Quiet (copyCheck cfg v u) := by
  unfold copyCheck
  quiet

macro_rules | `(tactic| quiet_step) => `(tactic| with_reducible exact copyCheck_quiet _ _)

theorem ctorCopy_quiet (v u : Obj) : Quiet (ctorCopy cfg v u) := by
  unfold ctorCopy
  quiet

macro_rules | `(tactic| quiet_step) => `(tactic| with_reducible exact ctorCopy_quiet _ _)

theorem ctorMove_quiet (v u : Obj) : Quiet (ctorMove cfg v u) := by
  unfold ctorMove
  quiet

macro_rules | `(tactic| quiet_step) => `(tactic| with_reducible exact ctorMove_quiet _ _)

theorem blockOf_quiet (v : Obj) : Quiet (blockOf v) := by
  unfold blockOf
  quiet

macro_rules | `(tactic| quiet_step) => `(tactic| with_reducible exact blockOf_quiet _)

theorem reserveSmall_quiet (v : Obj) (n : Nat) : Quiet (reserveSmall cfg v n) := by
  unfold reserveSmall
  quiet

macro_rules | `(tactic| quiet_step) => `(tactic| with_reducible exact reserveSmall_quiet _ _)

theorem unshare_quiet (v : Obj) (n : Nat) : Quiet (unshare cfg v n) := by
  unfold unshare
  quiet

macro_rules | `(tactic| quiet_step) => `(tactic| with_reducible exact unshare_quiet _ _)

theorem reallocate_quiet (al d size cap n : Nat) : Quiet (reallocate cfg al d size cap n) := by
  unfold reallocate
  quiet

macro_rules | `(tactic| quiet_step) => `(tactic| with_reducible exact reallocate_quiet _ _ _ _ _)

theorem reserveLarge_quiet (v : Obj) (n : Nat) : Quiet (reserveLarge cfg v n) := by
  unfold reserveLarge
  quiet

macro_rules | `(tactic| quiet_step) => `(tactic| with_reducible exact reserveLarge_quiet _ _)

theorem growNascent_quiet (t v : Obj) (d k n : Nat) : Quiet (growNascent cfg t v d k n) := by
  unfold growNascent
  quiet

macro_rules | `(tactic| quiet_step) => `(tactic| with_reducible exact growNascent_quiet _ _ _ _ _)

theorem reserveMedium_quiet (v : Obj) (n : Nat) : Quiet (reserveMedium cfg v n) := by
  unfold reserveMedium
  quiet

macro_rules | `(tactic| quiet_step) => `(tactic| with_reducible exact reserveMedium_quiet _ _)

theorem reserveBy_quiet (v : Obj) (n : Nat) : Quiet (reserveBy cfg v n) := by
  unfold reserveBy
  quiet

macro_rules | `(tactic| quiet_step) => `(tactic| with_reducible exact reserveBy_quiet _ _)

theorem reserveCore_quiet (v : Obj) (n : Nat) : Quiet (reserveCore cfg v n) := by
  unfold reserveCore
  quiet

macro_rules | `(tactic| quiet_step) => `(tactic| with_reducible exact reserveCore_quiet _ _)

theorem expandTail_quiet (v : Obj) (old new : Nat) : Quiet (expandTail cfg v old new) := by
  unfold expandTail
  quiet

macro_rules | `(tactic| quiet_step) => `(tactic| with_reducible exact expandTail_quiet _ _ _)

theorem expandNoinit_quiet (v : Obj) (delta : Nat) (exp : Bool) : Quiet (expandNoinit cfg v delta exp) := by
  unfold expandNoinit
  quiet

macro_rules | `(tactic| quiet_step) => `(tactic| with_reducible exact expandNoinit_quiet _ _ _)

theorem shrinkSmall_quiet (v : Obj) (delta : Nat) : Quiet (shrinkSmall cfg v delta) := by
  unfold shrinkSmall
  quiet

macro_rules | `(tactic| quiet_step) => `(tactic| with_reducible exact shrinkSmall_quiet _ _)

theorem shrinkMedium_quiet (v : Obj) (d k cap : Nat) (large : Bool) (delta : Nat) : Quiet (shrinkMedium cfg v d k cap large delta) := by
  unfold shrinkMedium
  quiet

macro_rules | `(tactic| quiet_step) => `(tactic| with_reducible exact shrinkMedium_quiet _ _ _ _ _ _)

theorem shrinkLarge_quiet (v : Obj) (al d k delta : Nat) : Quiet (shrinkLarge cfg v al d k delta) := by
  unfold shrinkLarge
  quiet

macro_rules | `(tactic| quiet_step) => `(tactic| with_reducible exact shrinkLarge_quiet _ _ _ _ _)

theorem shrink_quiet (v : Obj) (delta : Nat) : Quiet (shrink cfg v delta) := by
  unfold shrink
  quiet

macro_rules | `(tactic| quiet_step) => `(tactic| with_reducible exact shrink_quiet _ _)

theorem mutableData_quiet (v : Obj) : Quiet (mutableData cfg v) := by
  unfold mutableData
  quiet

macro_rules | `(tactic| quiet_step) => `(tactic| with_reducible exact mutableData_quiet _)

theorem pushBack_quiet (v : Obj) (c : Ch) : Quiet (pushBack cfg v c) := by
  unfold pushBack
  quiet

macro_rules | `(tactic| quiet_step) => `(tactic| with_reducible exact pushBack_quiet _ _)

theorem sane_quiet (v : Obj) : Quiet (sane cfg v) := by
  unfold sane
  quiet

macro_rules | `(tactic| quiet_step) => `(tactic| with_reducible exact sane_quiet _)

theorem checking_quiet (v : Obj) (body : M β) (h : Quiet body) : Quiet (checking cfg v body) := by
  constructor
  intro s
  have h1 := h.flags s
  unfold checking
  rcases hb : body s with ⟨r, s1⟩
  rw [hb] at h1
  have h2 := (sane_quiet (cfg := cfg) v).flags s1
  rcases hd : sane cfg v s1 with ⟨r1, s2⟩
  rw [hd] at h2
  cases r with
  | ok b =>
    cases r1 <;> simp only [hd]
    · exact h1.okError h2
    · exact h1.ok h2
  | error e =>
    cases e with
    | ub _ => exact h1
    | assertFail _ => exact h1
    | throw w =>
      cases r1 <;> simp only [hd]
      · exact h1.error h2
      · exact h1.errorOk h2

macro_rules | `(tactic| quiet_step) => `(tactic| with_reducible apply checking_quiet)

theorem checker_quiet (v : Obj) (body : M β) (h : Quiet body) : Quiet (checker cfg v body) := by
  unfold checker
  quiet
  all_goals exact h

macro_rules | `(tactic| quiet_step) => `(tactic| with_reducible apply checker_quiet)

theorem enforce_quiet (c : Bool) : Quiet (enforce c) := by
  unfold enforce
  quiet

macro_rules | `(tactic| quiet_step) => `(tactic| with_reducible exact enforce_quiet _)

theorem begin__quiet (v : Obj) : Quiet (begin_ cfg v) := by
  unfold begin_
  quiet

macro_rules | `(tactic| quiet_step) => `(tactic| with_reducible exact begin__quiet _)

theorem ctorFill_quiet (v : Obj) (al n : Nat) (c : Ch) : Quiet (ctorFill cfg v al n c) := by
  unfold ctorFill
  quiet

macro_rules | `(tactic| quiet_step) => `(tactic| with_reducible exact ctorFill_quiet _ _ _ _)

theorem resize_quiet (v : Obj) (n : Nat) (c : Ch) : Quiet (resize cfg v n c) := by
  unfold resize
  quiet

macro_rules | `(tactic| quiet_step) => `(tactic| with_reducible exact resize_quiet _ _ _)

theorem appendCopy_quiet (v : Obj) (p : Ptr) (n : Nat) (q : Ptr) (old : Nat) (r : Ptr) : Quiet (appendCopy cfg v p n q old r) := by
  unfold appendCopy
  quiet

macro_rules | `(tactic| quiet_step) => `(tactic| with_reducible exact appendCopy_quiet _ _ _ _ _ _)

theorem append_quiet (v : Obj) (p : Ptr) (n : Nat) : Quiet (append cfg v p n) := by
  unfold append
  quiet

macro_rules | `(tactic| quiet_step) => `(tactic| with_reducible exact append_quiet _ _ _)

theorem appendFill_quiet (v : Obj) (n : Nat) (c : Ch) : Quiet (appendFill cfg v n c) := by
  unfold appendFill
  quiet

macro_rules | `(tactic| quiet_step) => `(tactic| with_reducible exact appendFill_quiet _ _ _)

theorem appendStr_quiet (v u : Obj) : Quiet (appendStr cfg v u) := by
  unfold appendStr
  quiet

macro_rules | `(tactic| quiet_step) => `(tactic| with_reducible exact appendStr_quiet _ _)

theorem assignBy_quiet (v : Obj) (p : Ptr) (n k : Nat) : Quiet (assignBy cfg v p n k) := by
  unfold assignBy
  quiet

macro_rules | `(tactic| quiet_step) => `(tactic| with_reducible exact assignBy_quiet _ _ _ _)

theorem assign_quiet (v : Obj) (p : Ptr) (n : Nat) : Quiet (assign cfg v p n) := by
  unfold assign
  quiet

macro_rules | `(tactic| quiet_step) => `(tactic| with_reducible exact assign_quiet _ _ _)

theorem assignStr_quiet (v u : Obj) : Quiet (assignStr cfg v u) := by
  unfold assignStr
  quiet

macro_rules | `(tactic| quiet_step) => `(tactic| with_reducible exact assignStr_quiet _ _)

theorem assignMove_quiet (v u : Obj) : Quiet (assignMove cfg v u) := by
  unfold assignMove
  quiet

macro_rules | `(tactic| quiet_step) => `(tactic| with_reducible exact assignMove_quiet _ _)

theorem setFront_quiet (v : Obj) (c : Ch) : Quiet (setFront cfg v c) := by
  unfold setFront
  quiet

macro_rules | `(tactic| quiet_step) => `(tactic| with_reducible exact setFront_quiet _ _)

theorem assignChar_quiet (v : Obj) (c : Ch) : Quiet (assignChar cfg v c) := by
  unfold assignChar
  quiet

macro_rules | `(tactic| quiet_step) => `(tactic| with_reducible exact assignChar_quiet _ _)

theorem reserve_quiet (v : Obj) (n : Nat) : Quiet (reserve cfg v n) := by
  unfold reserve
  quiet

macro_rules | `(tactic| quiet_step) => `(tactic| with_reducible exact reserve_quiet _ _)

theorem shrinkToFit_quiet (v : Obj) : Quiet (shrinkToFit cfg v) := by
  unfold shrinkToFit
  quiet

macro_rules | `(tactic| quiet_step) => `(tactic| with_reducible exact shrinkToFit_quiet _)

theorem clear_quiet (v : Obj) : Quiet (clear cfg v) := by
  unfold clear
  quiet

macro_rules | `(tactic| quiet_step) => `(tactic| with_reducible exact clear_quiet _)

theorem popBack_quiet (v : Obj) : Quiet (popBack cfg v) := by
  unfold popBack
  quiet

macro_rules | `(tactic| quiet_step) => `(tactic| with_reducible exact popBack_quiet _)

theorem setAt_quiet (v : Obj) (i : Nat) (c : Ch) : Quiet (setAt cfg v i c) := by
  unfold setAt
  quiet

macro_rules | `(tactic| quiet_step) => `(tactic| with_reducible exact setAt_quiet _ _ _)

theorem readChar_quiet (p : Ptr) : Quiet (readChar p) := by
  unfold readChar
  quiet

macro_rules | `(tactic| quiet_step) => `(tactic| with_reducible exact readChar_quiet _)

theorem getAt_quiet (v : Obj) (i : Nat) : Quiet (getAt v i) := by
  unfold getAt
  quiet

macro_rules | `(tactic| quiet_step) => `(tactic| with_reducible exact getAt_quiet _ _)

theorem atConst_quiet (v : Obj) (i : Nat) : Quiet (atConst cfg v i) := by
  unfold atConst
  quiet

macro_rules | `(tactic| quiet_step) => `(tactic| with_reducible exact atConst_quiet _ _)

theorem setAtChecked_quiet (v : Obj) (i : Nat) (c : Ch) : Quiet (setAtChecked cfg v i c) := by
  unfold setAtChecked
  quiet

macro_rules | `(tactic| quiet_step) => `(tactic| with_reducible exact setAtChecked_quiet _ _ _)

theorem copyOut_quiet (v : Obj) (n pos : Nat) : Quiet (copyOut cfg v n pos) := by
  unfold copyOut
  quiet

macro_rules | `(tactic| quiet_step) => `(tactic| with_reducible exact copyOut_quiet _ _ _)

theorem posOf_quiet (v : Obj) (i : Ptr) : Quiet (posOf cfg v i) := by
  unfold posOf
  quiet

macro_rules | `(tactic| quiet_step) => `(tactic| with_reducible exact posOf_quiet _ _)

theorem insertFillAt_quiet (v : Obj) (i : Ptr) (n : Nat) (c : Ch) : Quiet (insertFillAt cfg v i n c) := by
  unfold insertFillAt
  quiet

macro_rules | `(tactic| quiet_step) => `(tactic| with_reducible exact insertFillAt_quiet _ _ _ _)

theorem insertRangeAt_quiet (v : Obj) (i : Ptr) (p : Ptr) (n : Nat) : Quiet (insertRangeAt cfg v i p n) := by
  unfold insertRangeAt
  quiet

macro_rules | `(tactic| quiet_step) => `(tactic| with_reducible exact insertRangeAt_quiet _ _ _ _)

theorem insertFill_quiet (v : Obj) (pos n : Nat) (c : Ch) : Quiet (insertFill cfg v pos n c) := by
  unfold insertFill
  quiet

macro_rules | `(tactic| quiet_step) => `(tactic| with_reducible exact insertFill_quiet _ _ _ _)

theorem insert_quiet (v : Obj) (pos : Nat) (p : Ptr) (n : Nat) : Quiet (insert cfg v pos p n) := by
  unfold insert
  quiet

macro_rules | `(tactic| quiet_step) => `(tactic| with_reducible exact insert_quiet _ _ _ _)

theorem appendRange_quiet (v : Obj) (p : Ptr) (n : Nat) : Quiet (appendRange cfg v p n) := by
  unfold appendRange
  quiet

macro_rules | `(tactic| quiet_step) => `(tactic| with_reducible exact appendRange_quiet _ _ _)

theorem erase_quiet (v : Obj) (pos n : Nat) : Quiet (erase cfg v pos n) := by
  unfold erase
  quiet

macro_rules | `(tactic| quiet_step) => `(tactic| with_reducible exact erase_quiet _ _ _)

theorem eraseAt_quiet (v : Obj) (i : Ptr) (n : Nat) : Quiet (eraseAt cfg v i n) := by
  unfold eraseAt
  quiet

macro_rules | `(tactic| quiet_step) => `(tactic| with_reducible exact eraseAt_quiet _ _ _)

theorem replaceCopy_quiet (v t : Obj) (d : Ptr) (k pos n1 : Nat) (p : Ptr) (n2 : Nat) : Quiet (replaceCopy cfg v t d k pos n1 p n2) := by
  unfold replaceCopy
  quiet

macro_rules | `(tactic| quiet_step) => `(tactic| with_reducible exact replaceCopy_quiet _ _ _ _ _ _ _ _)

theorem replaceImpl_quiet (v : Obj) (i1 : Ptr) (pos n1 : Nat) (p : Ptr) (n2 : Nat) : Quiet (replaceImpl cfg v i1 pos n1 p n2) := by
  unfold replaceImpl
  quiet

macro_rules | `(tactic| quiet_step) => `(tactic| with_reducible exact replaceImpl_quiet _ _ _ _ _ _)

theorem replaceCheck_quiet (v : Obj) (i1 : Ptr) (n1 : Nat) : Quiet (replaceCheck cfg v i1 n1) := by
  unfold replaceCheck
  quiet

macro_rules | `(tactic| quiet_step) => `(tactic| with_reducible exact replaceCheck_quiet _ _ _)

theorem replace_quiet (v : Obj) (pos n1 : Nat) (p : Ptr) (n2 : Nat) : Quiet (replace cfg v pos n1 p n2) := by
  unfold replace
  quiet

macro_rules | `(tactic| quiet_step) => `(tactic| with_reducible exact replace_quiet _ _ _ _ _)

theorem replaceFillAt_quiet (v : Obj) (i1 : Ptr) (n1 n2 : Nat) (c : Ch) : Quiet (replaceFillAt cfg v i1 n1 n2 c) := by
  unfold replaceFillAt
  quiet

macro_rules | `(tactic| quiet_step) => `(tactic| with_reducible exact replaceFillAt_quiet _ _ _ _ _)

theorem replaceFill_quiet (v : Obj) (pos n1 n2 : Nat) (c : Ch) : Quiet (replaceFill cfg v pos n1 n2 c) := by
  unfold replaceFill
  quiet

macro_rules | `(tactic| quiet_step) => `(tactic| with_reducible exact replaceFill_quiet _ _ _ _ _)

theorem assignFill_quiet (v : Obj) (n : Nat) (c : Ch) : Quiet (assignFill cfg v n c) := by
  unfold assignFill
  quiet

macro_rules | `(tactic| quiet_step) => `(tactic| with_reducible exact assignFill_quiet _ _ _)

theorem building_quiet (v : Obj) (body : M Unit) (h : Quiet body) : Quiet (building cfg v body) := by
  constructor
  intro s
  have h1 := h.flags s
  unfold building
  rcases hb : body s with ⟨r, s1⟩
  rw [hb] at h1
  have h2 := (destroy_quiet (cfg := cfg) v).flags s1
  rcases hd : destroy cfg v s1 with ⟨r1, s2⟩
  rw [hd] at h2
  cases r with
  | ok b => exact h1
  | error e =>
    cases e with
    | ub _ => exact h1
    | assertFail _ => exact h1
    | throw w =>
      cases r1 <;> simp only [hd]
      · exact h1.error h2
      · exact h1.errorOk h2

macro_rules | `(tactic| quiet_step) => `(tactic| with_reducible apply building_quiet)

theorem clone_quiet (v u : Obj) : Quiet (clone cfg v u) := by
  unfold clone
  quiet

macro_rules | `(tactic| quiet_step) => `(tactic| with_reducible exact clone_quiet _ _)

theorem substr_quiet (v u : Obj) (pos n : Nat) : Quiet (substr cfg v u pos n) := by
  unfold substr
  quiet

macro_rules | `(tactic| quiet_step) => `(tactic| with_reducible exact substr_quiet _ _ _ _)

theorem substrMove_quiet (v u : Obj) (pos n : Nat) : Quiet (substrMove cfg v u pos n) := by
  unfold substrMove
  quiet

macro_rules | `(tactic| quiet_step) => `(tactic| with_reducible exact substrMove_quiet _ _ _ _)

theorem concat_quiet (v u1 u2 : Obj) : Quiet (concat cfg v u1 u2) := by
  unfold concat
  quiet

macro_rules | `(tactic| quiet_step) => `(tactic| with_reducible exact concat_quiet _ _ _)

theorem addPart_quiet (v u : Obj) (q : Part) : Quiet (addPart cfg v u q) := by
  unfold addPart
  quiet

macro_rules | `(tactic| quiet_step) => `(tactic| with_reducible exact addPart_quiet _ _ _)

theorem addParts_quiet (v u : Obj) (q1 q2 : Part) : Quiet (addParts cfg v u q1 q2) := by
  unfold addParts
  quiet

macro_rules | `(tactic| quiet_step) => `(tactic| with_reducible exact addParts_quiet _ _ _ _)

theorem partSize_quiet (u : Obj) (q : Part) : Quiet (partSize cfg u q) := by
  unfold partSize
  quiet

macro_rules | `(tactic| quiet_step) => `(tactic| with_reducible exact partSize_quiet _ _)

theorem plusNew_quiet (v u : Obj) (q1 q2 : Part) : Quiet (plusNew cfg v u q1 q2) := by
  unfold plusNew
  quiet

macro_rules | `(tactic| quiet_step) => `(tactic| with_reducible exact plusNew_quiet _ _ _ _)

theorem Src.resolve_quiet (src : Src) : Quiet src.resolve := by
  unfold Src.resolve
  quiet

macro_rules | `(tactic| quiet_step) => `(tactic| with_reducible exact Src.resolve_quiet _)

theorem IStream.setstate_quiet (is : IStream) (e f : Bool) : Quiet (is.setstate e f) := by
  unfold IStream.setstate
  quiet

macro_rules | `(tactic| quiet_step) => `(tactic| with_reducible exact IStream.setstate_quiet _ _ _)

theorem lineEnd_quiet (is : IStream) (delim : Ch) (k : Nat) (rest : List Ch) : Quiet (lineEnd is delim k rest) := by
  unfold lineEnd
  quiet

macro_rules | `(tactic| quiet_step) => `(tactic| with_reducible exact lineEnd_quiet _ _ _ _)

theorem streamGetline_quiet (is : IStream) (p : Ptr) (n : Nat) (delim : Ch) : Quiet (streamGetline is p n delim) := by
  unfold streamGetline
  quiet

macro_rules | `(tactic| quiet_step) => `(tactic| with_reducible exact streamGetline_quiet _ _ _ _)

theorem getlineLoop_quiet (v : Obj) (delim : Ch) : ∀ (fuel : Nat) (is : IStream) (n : Nat), Quiet (getlineLoop cfg v delim fuel is n)
  | 0, _, _ => Quiet.ub _
  | fuel + 1, is, n => by
    have ih := getlineLoop_quiet v delim fuel
    unfold getlineLoop
    quiet <;> exact ih _ _

macro_rules | `(tactic| quiet_step) => `(tactic| with_reducible exact getlineLoop_quiet _ _ _ _ _)

theorem getline_quiet (v : Obj) (is : IStream) (delim : Ch) : Quiet (getline cfg v is delim) := by
  unfold getline
  quiet

macro_rules | `(tactic| quiet_step) => `(tactic| with_reducible exact getline_quiet _ _ _)

theorem ctypeSpace_quiet (c : Ch) : Quiet (ctypeSpace c) := by
  unfold ctypeSpace
  quiet

macro_rules | `(tactic| quiet_step) => `(tactic| with_reducible exact ctypeSpace_quiet _)

theorem sentry_quiet (is : IStream) : Quiet (sentry is) := by
  unfold sentry
  quiet

macro_rules | `(tactic| quiet_step) => `(tactic| with_reducible exact sentry_quiet _)

theorem extractLoop_quiet (v : Obj) (is : IStream) : ∀ (inp : List Ch) (room k : Nat), Quiet (extractLoop cfg v is room inp k)
  | [], room, k => by
    unfold extractLoop
    quiet
    contradiction
  | c :: t, room, k => by
    have ih := extractLoop_quiet v is t
    unfold extractLoop
    quiet <;> exact ih _ _

macro_rules | `(tactic| quiet_step) => `(tactic| with_reducible exact extractLoop_quiet _ _ _ _ _)

theorem extractEnd_quiet (is : IStream) (k : Nat) (eof : Bool) : Quiet (extractEnd is k eof) := by
  unfold extractEnd
  quiet

macro_rules | `(tactic| quiet_step) => `(tactic| with_reducible exact extractEnd_quiet _ _ _)

theorem extract_quiet (v : Obj) (is : IStream) : Quiet (extract cfg v is) := by
  unfold extract
  quiet

macro_rules | `(tactic| quiet_step) => `(tactic| with_reducible exact extract_quiet _ _)

/-- Every operation of a program. -/
theorem Op.run_quiet (cfg : Cfg) (op : Op) : Quiet (op.run cfg) := by
  cases op <;> (unfold Op.run; quiet)

end Verif.Str
