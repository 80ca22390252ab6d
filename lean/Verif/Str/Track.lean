import Verif.Str.Heap
import Verif.Str.Prog

/-!
Relations between the memory before and after: `Law cfg R` says that the elementary steps of strings keep to `R`, and then all
operations do (`Op.run_track`).
-/

namespace Verif.Str

open M

variable {β γ : Type} {cfg : Cfg} {R : St → St → Prop}

/-- `R` is reflexive and transitive and holds across every elementary step. -/
structure Law (cfg : Cfg) (R : St → St → Prop) : Prop where
  refl : ∀ s, R s s
  trans : ∀ {s1 s2 s3}, R s1 s2 → R s2 s3 → R s1 s3
  vars : ∀ s f, R s { s with vars := f }
  flags : ∀ (s : St) (b c : Bool), R s { s with refused := b, lost := c }
  write : ∀ (s : St) b B i cs, s.heap b = some B → i + cs.length ≤ B.cells.length →
    R s { s with heap := upd s.heap b (some { B with cells := put B.cells i cs }) }
  count : ∀ (s : St) b m src cells n, s.heap b = some ⟨some m, src, cells⟩ →
    R s { s with heap := upd s.heap b (some ⟨some n, src, cells⟩) }
  alloc : ∀ (s : St) al (hdr : Bool) bytes, R s { s with
      heap := upd s.heap s.next (some ⟨if hdr then some 1 else none, al,
        List.replicate ((bytes - hdrBytes hdr) / cfg.w) none⟩)
      next := s.next + 1 }
  refuse : ∀ (s : St), R s { s with next := s.next + 1, refused := true }
  free : ∀ (s : St) b B, s.heap b = some B → (cfg.arena = true → B.src = 0) → R s { s with heap := upd s.heap b none }
  realloc : cfg.arena = false → ∀ (s : St) a A B, s.heap a = some A →
    R s { s with heap := upd (upd s.heap a none) s.next (some B), next := s.next + 1 }

/-- An action keeps to `R` if the elementary steps do. -/
structure Track (cfg : Cfg) (R : St → St → Prop) (x : M β) : Prop where
  keeps : Law cfg R → ∀ s, R s (x s).2

theorem Track.still {x : M β} (h : ∀ s, (x s).2 = s) : Track cfg R x := ⟨fun l s => by rw [h]; exact l.refl s⟩

theorem Track.pure (b : β) : Track cfg R (pure b : M β) := Track.still fun _ => rfl

theorem Track.fail (e : Fault) : Track cfg R (M.fail e : M β) := Track.still fun _ => rfl

theorem Track.ub (w : String) : Track cfg R (M.ub w : M β) := Track.fail _

theorem Track.raise (w : String) : Track cfg R (M.raise w : M β) := Track.fail _

/-- An action and what follows its result or fault. -/
theorem Track.handle {x : M β} {y : M γ} (hx : Track cfg R x) (h : Except Fault β → M γ)
    (e : ∀ s, y s = h (x s).1 (x s).2) (hh : ∀ r, Track cfg R (h r)) : Track cfg R y :=
  ⟨fun l s => by rw [e]; exact l.trans (hx.keeps l s) ((hh _).keeps l _)⟩

theorem Track.bind {x : M β} {f : β → M γ} (hx : Track cfg R x) (hf : ∀ b, Track cfg R (f b)) :
    Track cfg R (x >>= f) := by
  refine hx.handle (fun r => match r with
      | .ok b => f b
      | .error e => M.fail e)
    (fun s => ?_) fun r => ?_
  · rw [bind_apply]
    rcases x s with ⟨r, s1⟩
    cases r <;> rfl
  cases r with
  | ok b => exact hf b
  | error e => exact Track.fail _

theorem Track.ite {c : Prop} [Decidable c] {x y : M β} (hx : Track cfg R x) (hy : Track cfg R y) :
    Track cfg R (if c then x else y) := by
  split
  · exact hx
  · exact hy

theorem Track.noexcept {x : M β} (hx : Track cfg R x) : Track cfg R (noexcept x) := by
  constructor
  intro l s
  have h1 := hx.keeps l s
  unfold Str.noexcept
  rcases hxs : x s with ⟨r, s1⟩
  rw [hxs] at h1
  cases r with
  | ok b => exact h1
  | error e => cases e <;> exact h1

theorem Track.noexceptIf {c : Bool} {x : M β} (hx : Track cfg R x) : Track cfg R (noexceptIf c x) := by
  unfold Str.noexceptIf
  split
  · exact hx.noexcept
  · exact hx

/-- Step of the proofs below; extended by each lemma. -/
syntax "track_step" : tactic
macro_rules | `(tactic| track_step) => `(tactic| with_reducible exact Track.pure _)
macro_rules | `(tactic| track_step) => `(tactic| with_reducible exact Track.fail _)
macro_rules | `(tactic| track_step) => `(tactic| with_reducible exact Track.ub _)
macro_rules | `(tactic| track_step) => `(tactic| with_reducible exact Track.raise _)
macro_rules | `(tactic| track_step) => `(tactic| intro _)
macro_rules | `(tactic| track_step) => `(tactic| extract_lets)
macro_rules | `(tactic| track_step) => `(tactic| split)
macro_rules | `(tactic| track_step) => `(tactic| with_reducible apply Track.ite)
macro_rules | `(tactic| track_step) => `(tactic| with_reducible apply Track.bind)
macro_rules | `(tactic| track_step) => `(tactic| with_reducible apply Track.noexcept)
macro_rules | `(tactic| track_step) => `(tactic| with_reducible apply Track.noexceptIf)

/-- Split an action into its parts. -/
macro "track" : tactic => `(tactic| repeat' track_step)

/-- An action given by cases on the memory. -/
macro "track_cases" : tactic => `(tactic| (constructor; intro l s; repeat' split) <;> (first
  | exact l.refl _
  | exact l.vars _ _
  | exact l.flags _ _ _
  | exact l.write _ _ _ _ _ (by assumption) (by assumption)
  | exact l.count _ _ _ _ _ _ (by assumption)
  ))

theorem assert_track (c : Bool) (msg : String) : Track cfg R (assert cfg c msg) := by
  unfold assert
  track

macro_rules | `(tactic| track_step) => `(tactic| with_reducible exact assert_track _ _)

theorem doIf_track (c : Bool) (x : M Unit) (h : Track cfg R x) : Track cfg R (doIf c x) := by
  unfold doIf
  track
  all_goals exact h

macro_rules | `(tactic| track_step) => `(tactic| with_reducible apply doIf_track)

theorem readCells_track (p : Ptr) (n : Nat) : Track cfg R (readCells p n) := by
  unfold readCells
  track_cases

macro_rules | `(tactic| track_step) => `(tactic| with_reducible exact readCells_track _ _)

theorem writeCells_track (p : Ptr) (cs : List Cell) : Track cfg R (writeCells p cs) := by
  unfold writeCells
  track_cases

macro_rules | `(tactic| track_step) => `(tactic| with_reducible exact writeCells_track _ _)

theorem room_track (p : Ptr) : Track cfg R (room p) := by
  unfold room
  track_cases

macro_rules | `(tactic| track_step) => `(tactic| with_reducible exact room_track _)

theorem podFill_track (p : Ptr) (n : Nat) (c : Ch) : Track cfg R (podFill p n c) := by
  unfold podFill
  track

macro_rules | `(tactic| track_step) => `(tactic| with_reducible exact podFill_track _ _ _)

theorem podCopy_track (p : Ptr) (n : Nat) (q : Ptr) : Track cfg R (podCopy cfg p n q) := by
  unfold podCopy
  track

macro_rules | `(tactic| track_step) => `(tactic| with_reducible exact podCopy_track _ _ _)

theorem podMove_track (p : Ptr) (n : Nat) (q : Ptr) : Track cfg R (podMove p n q) := by
  unfold podMove
  track

macro_rules | `(tactic| track_step) => `(tactic| with_reducible exact podMove_track _ _ _)

theorem alloc_track (al : Nat) (hdr : Bool) (bytes : Nat) : Track cfg R (alloc cfg al hdr bytes) := by
  unfold alloc
  constructor
  intro l s
  by_cases h1 : (cfg.arena && cfg.dbg && al == 0) = true
  · rw [if_pos h1]; exact l.refl _
  · rw [if_neg h1]
    by_cases h2 : cfg.malloc s.next bytes = true
    · rw [if_pos h2]; exact l.alloc _ _ _ _
    · rw [if_neg h2]; exact l.refuse _

macro_rules | `(tactic| track_step) => `(tactic| with_reducible exact alloc_track _ _ _)

theorem dealloc_track (al : Nat) (b : Nat) : Track cfg R (dealloc cfg al b) := by
  unfold dealloc
  constructor
  intro l s
  split
  · exact l.refl _
  · next B hB =>
    by_cases h1 : (cfg.arena && al != 0) = true
    · rw [if_pos h1]; exact l.refl _
    · rw [if_neg h1]
      by_cases h2 : (B.src == al) = true
      · rw [if_pos h2]
        refine l.free _ _ _ hB fun ha => ?_
        have : al = 0 := by simpa [ha] using h1
        rw [eq_of_beq h2, this]
      · rw [if_neg h2]; exact l.refl _

macro_rules | `(tactic| track_step) => `(tactic| with_reducible exact dealloc_track _ _)

theorem refs_track (b : Nat) : Track cfg R (refs b) := by
  unfold refs
  track_cases

macro_rules | `(tactic| track_step) => `(tactic| with_reducible exact refs_track _)

theorem setRefs_track (b n : Nat) : Track cfg R (setRefs b n) := by
  unfold setRefs
  track_cases

macro_rules | `(tactic| track_step) => `(tactic| with_reducible exact setRefs_track _ _)

theorem incrementRefs_track (b : Nat) : Track cfg R (incrementRefs b) := by
  unfold incrementRefs
  track

macro_rules | `(tactic| track_step) => `(tactic| with_reducible exact incrementRefs_track _)

theorem decrementRefs_track (al : Nat) (b : Nat) : Track cfg R (decrementRefs cfg al b) := by
  unfold decrementRefs
  track

macro_rules | `(tactic| track_step) => `(tactic| with_reducible exact decrementRefs_track _ _)

theorem lengthError_track  : Track cfg R (lengthError : M β) := by
  unfold lengthError
  track_cases

macro_rules | `(tactic| track_step) => `(tactic| with_reducible exact lengthError_track)

theorem largeBytes_track (size : Nat) : Track cfg R (largeBytes cfg size) := by
  unfold largeBytes
  track

macro_rules | `(tactic| track_step) => `(tactic| with_reducible exact largeBytes_track _)

theorem create_track (al : Nat) (size : Nat) : Track cfg R (create cfg al size) := by
  unfold create
  track

macro_rules | `(tactic| track_step) => `(tactic| with_reducible exact create_track _ _)

theorem copyBlk_track (a b k : Nat) : Track cfg R (copyBlk a b k) := by
  unfold copyBlk
  track

macro_rules | `(tactic| track_step) => `(tactic| with_reducible exact copyBlk_track _ _ _)

theorem checkedRealloc_track (ha : cfg.arena = false) (a : Nat) (hdr : Bool) (bytes : Nat) :
    Track cfg R (checkedRealloc cfg a hdr bytes) := by
  unfold checkedRealloc
  constructor
  intro l s
  split
  · exact l.refl _
  · next A hA =>
    split
    · exact l.realloc ha _ _ _ _ hA
    · exact l.trans (l.free s a A hA fun h => by rw [ha] at h; cases h) (l.trans (l.refuse _) (l.flags _ true true))

theorem smartRealloc_track (al : Nat) (a : Nat) (hdr : Bool) (cur cap new : Nat) : Track cfg R (smartRealloc cfg al a hdr cur cap new) := by
  unfold smartRealloc
  by_cases ha : cfg.arena = true
  · simp only [ha, if_true]
    track
  · have ha : cfg.arena = false := by simpa using ha
    simp only [ha, Bool.false_eq_true, if_false]
    track
    exact checkedRealloc_track ha _ _ _

macro_rules | `(tactic| track_step) => `(tactic| with_reducible exact smartRealloc_track _ _ _ _ _ _)

theorem getOb_track (v : Obj) : Track cfg R (getOb v) := by
  unfold getOb
  track_cases

macro_rules | `(tactic| track_step) => `(tactic| with_reducible exact getOb_track _)

theorem setCore_track (v : Obj) (c : Core) : Track cfg R (setCore v c) := by
  unfold setCore
  track_cases

macro_rules | `(tactic| track_step) => `(tactic| with_reducible exact setCore_track _ _)

theorem newOb_track (v : Obj) (al : Nat) : Track cfg R (newOb cfg v al) := by
  unfold newOb
  track_cases

macro_rules | `(tactic| track_step) => `(tactic| with_reducible exact newOb_track _ _)

theorem dropOb_track (v : Obj) : Track cfg R (dropOb v) := by
  unfold dropOb
  track_cases

macro_rules | `(tactic| track_step) => `(tactic| with_reducible exact dropOb_track _)

theorem constructing_track (v : Obj) (body : M Unit) (h : Track cfg R body) : Track cfg R (constructing v body) := by
  unfold constructing
  constructor
  intro l s
  have h1 := h.keeps l s
  revert h1
  rcases body s with ⟨r, s1⟩
  cases r with
  | ok _ => exact id
  | error e =>
    cases e with
    | throw w => exact fun h1 => l.trans h1 (l.vars _ _)
    | _ => exact id

macro_rules | `(tactic| track_step) => `(tactic| with_reducible apply constructing_track)

theorem construct_track (v : Obj) (al : Nat) (body : M Unit) (h : Track cfg R body) : Track cfg R (construct cfg v al body) := by
  unfold construct
  track
  all_goals exact h

macro_rules | `(tactic| track_step) => `(tactic| with_reducible apply construct_track)

theorem size_track (v : Obj) : Track cfg R (size cfg v) := by
  unfold size
  track

macro_rules | `(tactic| track_step) => `(tactic| with_reducible exact size_track _)

theorem capacity_track (v : Obj) : Track cfg R (capacity cfg v) := by
  unfold capacity
  track

macro_rules | `(tactic| track_step) => `(tactic| with_reducible exact capacity_track _)

theorem dataPtr_track (v : Obj) : Track cfg R (dataPtr v) := by
  unfold dataPtr
  track

macro_rules | `(tactic| track_step) => `(tactic| with_reducible exact dataPtr_track _)

theorem isShared_track (v : Obj) : Track cfg R (isShared v) := by
  unfold isShared
  track

macro_rules | `(tactic| track_step) => `(tactic| with_reducible exact isShared_track _)

theorem setSmallSize_track (v : Obj) (n : Nat) : Track cfg R (setSmallSize cfg v n) := by
  unfold setSmallSize
  track

macro_rules | `(tactic| track_step) => `(tactic| with_reducible exact setSmallSize_track _ _)

theorem release_track (v : Obj) : Track cfg R (release cfg v) := by
  unfold release
  track

macro_rules | `(tactic| track_step) => `(tactic| with_reducible exact release_track _)

theorem destroy_track (v : Obj) : Track cfg R (destroy cfg v) := by
  unfold destroy
  track

macro_rules | `(tactic| track_step) => `(tactic| with_reducible exact destroy_track _)

theorem withTemp_track (t : Obj) (body : M β) (h : Track cfg R body) : Track cfg R (withTemp cfg t body) := by
  constructor
  intro l s
  have h1 := h.keeps l s
  unfold withTemp
  rcases hb : body s with ⟨r, s1⟩
  rw [hb] at h1
  have h2 := (destroy_track (cfg := cfg) (R := R) t).keeps l s1
  rcases hd : destroy cfg t s1 with ⟨r1, s2⟩
  rw [hd] at h2
  cases r with
  | ok b => cases r1 <;> simp only [hd] <;> exact l.trans h1 h2
  | error e =>
    cases e with
    | ub _ => exact h1
    | assertFail _ => exact h1
    | throw w => cases r1 <;> simp only [hd] <;> exact l.trans h1 h2

macro_rules | `(tactic| track_step) => `(tactic| with_reducible apply withTemp_track)

theorem swap_track (u v : Obj) : Track cfg R (swap u v) := by
  unfold swap
  track

macro_rules | `(tactic| track_step) => `(tactic| with_reducible exact swap_track _ _)

theorem initEmpty_track (v : Obj) : Track cfg R (initEmpty cfg v) := by
  unfold initEmpty
  track

macro_rules | `(tactic| track_step) => `(tactic| with_reducible exact initEmpty_track _)

theorem initSmall_track (v : Obj) (p : Ptr) (n : Nat) : Track cfg R (initSmall cfg v p n) := by
  unfold initSmall
  track

macro_rules | `(tactic| track_step) => `(tactic| with_reducible exact initSmall_track _ _ _)

theorem initMedium_track (v : Obj) (al : Nat) (p : Ptr) (n : Nat) : Track cfg R (initMedium cfg v al p n) := by
  unfold initMedium
  track

macro_rules | `(tactic| track_step) => `(tactic| with_reducible exact initMedium_track _ _ _ _)

theorem initLarge_track (v : Obj) (al : Nat) (p : Ptr) (n : Nat) : Track cfg R (initLarge cfg v al p n) := by
  unfold initLarge
  track

macro_rules | `(tactic| track_step) => `(tactic| with_reducible exact initLarge_track _ _ _ _)

theorem initData_track (v : Obj) (al : Nat) (p : Ptr) (n : Nat) : Track cfg R (initData cfg v al p n) := by
  unfold initData
  track

macro_rules | `(tactic| track_step) => `(tactic| with_reducible exact initData_track _ _ _ _)

theorem initCheck_track (v : Obj) (p : Ptr) (n : Nat) : Track cfg R (initCheck cfg v p n) := by
  unfold initCheck
  track

macro_rules | `(tactic| track_step) => `(tactic| with_reducible exact initCheck_track _ _ _)

theorem ctorData_track (v : Obj) (al : Nat) (p : Ptr) (n : Nat) : Track cfg R (ctorData cfg v al p n) := by
  unfold ctorData
  track

macro_rules | `(tactic| track_step) => `(tactic| with_reducible exact ctorData_track _ _ _ _)

theorem ctorEmpty_track (v : Obj) (al : Nat) : Track cfg R (ctorEmpty cfg v al) := by
  unfold ctorEmpty
  track

macro_rules | `(tactic| track_step) => `(tactic| with_reducible exact ctorEmpty_track _ _)

theorem copyMedium_track (v : Obj) (al d n : Nat) : Track cfg R (copyMedium cfg v al d n) := by
  unfold copyMedium
  track

macro_rules | `(tactic| track_step) => `(tactic| with_reducible exact copyMedium_track _ _ _ _)

theorem copyCore_track (v : Obj) (r : Ob) : Track cfg R (copyCore cfg v r) := by
  unfold copyCore
  track

macro_rules | `(tactic| track_step) => `(tactic| with_reducible exact copyCore_track _ _)

theorem copyCheck_track (v u : Obj) : Track cfg R (copyCheck cfg v u) := by
  unfold copyCheck
  track

macro_rules | `(tactic| track_step) => `(tactic| with_reducible exact copyCheck_track _ _)

theorem ctorCopy_track (v u : Obj) : Track cfg R (ctorCopy cfg v u) := by
  unfold ctorCopy
  track

macro_rules | `(tactic| track_step) => `(tactic| with_reducible exact ctorCopy_track _ _)

theorem ctorMove_track (v u : Obj) : Track cfg R (ctorMove cfg v u) := by
  unfold ctorMove
  track

macro_rules | `(tactic| track_step) => `(tactic| with_reducible exact ctorMove_track _ _)

theorem blockOf_track (v : Obj) : Track cfg R (blockOf v) := by
  unfold blockOf
  track

macro_rules | `(tactic| track_step) => `(tactic| with_reducible exact blockOf_track _)

theorem reserveSmall_track (v : Obj) (n : Nat) : Track cfg R (reserveSmall cfg v n) := by
  unfold reserveSmall
  track

macro_rules | `(tactic| track_step) => `(tactic| with_reducible exact reserveSmall_track _ _)

theorem unshare_track (v : Obj) (n : Nat) : Track cfg R (unshare cfg v n) := by
  unfold unshare
  track

macro_rules | `(tactic| track_step) => `(tactic| with_reducible exact unshare_track _ _)

theorem reallocate_track (al d size cap n : Nat) : Track cfg R (reallocate cfg al d size cap n) := by
  unfold reallocate
  track

macro_rules | `(tactic| track_step) => `(tactic| with_reducible exact reallocate_track _ _ _ _ _)

theorem reserveLarge_track (v : Obj) (n : Nat) : Track cfg R (reserveLarge cfg v n) := by
  unfold reserveLarge
  track

macro_rules | `(tactic| track_step) => `(tactic| with_reducible exact reserveLarge_track _ _)

theorem growNascent_track (t v : Obj) (d k n : Nat) : Track cfg R (growNascent cfg t v d k n) := by
  unfold growNascent
  track

macro_rules | `(tactic| track_step) => `(tactic| with_reducible exact growNascent_track _ _ _ _ _)

theorem reserveMedium_track (v : Obj) (n : Nat) : Track cfg R (reserveMedium cfg v n) := by
  unfold reserveMedium
  track

macro_rules | `(tactic| track_step) => `(tactic| with_reducible exact reserveMedium_track _ _)

theorem reserveBy_track (v : Obj) (n : Nat) : Track cfg R (reserveBy cfg v n) := by
  unfold reserveBy
  track

macro_rules | `(tactic| track_step) => `(tactic| with_reducible exact reserveBy_track _ _)

theorem reserveCore_track (v : Obj) (n : Nat) : Track cfg R (reserveCore cfg v n) := by
  unfold reserveCore
  track

macro_rules | `(tactic| track_step) => `(tactic| with_reducible exact reserveCore_track _ _)

theorem expandTail_track (v : Obj) (old new : Nat) : Track cfg R (expandTail cfg v old new) := by
  unfold expandTail
  track

macro_rules | `(tactic| track_step) => `(tactic| with_reducible exact expandTail_track _ _ _)

theorem expandNoinit_track (v : Obj) (delta : Nat) (exp : Bool) : Track cfg R (expandNoinit cfg v delta exp) := by
  unfold expandNoinit
  track

macro_rules | `(tactic| track_step) => `(tactic| with_reducible exact expandNoinit_track _ _ _)

theorem shrinkSmall_track (v : Obj) (delta : Nat) : Track cfg R (shrinkSmall cfg v delta) := by
  unfold shrinkSmall
  track

macro_rules | `(tactic| track_step) => `(tactic| with_reducible exact shrinkSmall_track _ _)

theorem shrinkMedium_track (v : Obj) (d k cap : Nat) (large : Bool) (delta : Nat) : Track cfg R (shrinkMedium cfg v d k cap large delta) := by
  unfold shrinkMedium
  track

macro_rules | `(tactic| track_step) => `(tactic| with_reducible exact shrinkMedium_track _ _ _ _ _ _)

theorem shrinkLarge_track (v : Obj) (al d k delta : Nat) : Track cfg R (shrinkLarge cfg v al d k delta) := by
  unfold shrinkLarge
  track

macro_rules | `(tactic| track_step) => `(tactic| with_reducible exact shrinkLarge_track _ _ _ _ _)

theorem shrink_track (v : Obj) (delta : Nat) : Track cfg R (shrink cfg v delta) := by
  unfold shrink
  track

macro_rules | `(tactic| track_step) => `(tactic| with_reducible exact shrink_track _ _)

theorem mutableData_track (v : Obj) : Track cfg R (mutableData cfg v) := by
  unfold mutableData
  track

macro_rules | `(tactic| track_step) => `(tactic| with_reducible exact mutableData_track _)

theorem pushBack_track (v : Obj) (c : Ch) : Track cfg R (pushBack cfg v c) := by
  unfold pushBack
  track

macro_rules | `(tactic| track_step) => `(tactic| with_reducible exact pushBack_track _ _)

theorem sane_track (v : Obj) : Track cfg R (sane cfg v) := by
  unfold sane
  track

macro_rules | `(tactic| track_step) => `(tactic| with_reducible exact sane_track _)

theorem checking_track (v : Obj) (body : M β) (h : Track cfg R body) : Track cfg R (checking cfg v body) := by
  constructor
  intro l s
  have h1 := h.keeps l s
  unfold checking
  rcases hb : body s with ⟨r, s1⟩
  rw [hb] at h1
  have h2 := (sane_track (cfg := cfg) (R := R) v).keeps l s1
  rcases hd : sane cfg v s1 with ⟨r1, s2⟩
  rw [hd] at h2
  cases r with
  | ok b => cases r1 <;> simp only [hd] <;> exact l.trans h1 h2
  | error e =>
    cases e with
    | ub _ => exact h1
    | assertFail _ => exact h1
    | throw w => cases r1 <;> simp only [hd] <;> exact l.trans h1 h2

macro_rules | `(tactic| track_step) => `(tactic| with_reducible apply checking_track)

theorem checker_track (v : Obj) (body : M β) (h : Track cfg R body) : Track cfg R (checker cfg v body) := by
  unfold checker
  track
  all_goals exact h

macro_rules | `(tactic| track_step) => `(tactic| with_reducible apply checker_track)

theorem enforce_track (c : Bool) : Track cfg R (enforce c) := by
  unfold enforce
  track

macro_rules | `(tactic| track_step) => `(tactic| with_reducible exact enforce_track _)

theorem begin__track (v : Obj) : Track cfg R (begin_ cfg v) := by
  unfold begin_
  track

macro_rules | `(tactic| track_step) => `(tactic| with_reducible exact begin__track _)

theorem ctorFill_track (v : Obj) (al n : Nat) (c : Ch) : Track cfg R (ctorFill cfg v al n c) := by
  unfold ctorFill
  track

macro_rules | `(tactic| track_step) => `(tactic| with_reducible exact ctorFill_track _ _ _ _)

theorem resize_track (v : Obj) (n : Nat) (c : Ch) : Track cfg R (resize cfg v n c) := by
  unfold resize
  track

macro_rules | `(tactic| track_step) => `(tactic| with_reducible exact resize_track _ _ _)

theorem appendCopy_track (v : Obj) (p : Ptr) (n : Nat) (q : Ptr) (old : Nat) (r : Ptr) : Track cfg R (appendCopy cfg v p n q old r) := by
  unfold appendCopy
  track

macro_rules | `(tactic| track_step) => `(tactic| with_reducible exact appendCopy_track _ _ _ _ _ _)

theorem append_track (v : Obj) (p : Ptr) (n : Nat) : Track cfg R (append cfg v p n) := by
  unfold append
  track

macro_rules | `(tactic| track_step) => `(tactic| with_reducible exact append_track _ _ _)

theorem appendFill_track (v : Obj) (n : Nat) (c : Ch) : Track cfg R (appendFill cfg v n c) := by
  unfold appendFill
  track

macro_rules | `(tactic| track_step) => `(tactic| with_reducible exact appendFill_track _ _ _)

theorem appendStr_track (v u : Obj) : Track cfg R (appendStr cfg v u) := by
  unfold appendStr
  track

macro_rules | `(tactic| track_step) => `(tactic| with_reducible exact appendStr_track _ _)

theorem assignBy_track (v : Obj) (p : Ptr) (n k : Nat) : Track cfg R (assignBy cfg v p n k) := by
  unfold assignBy
  track

macro_rules | `(tactic| track_step) => `(tactic| with_reducible exact assignBy_track _ _ _ _)

theorem assign_track (v : Obj) (p : Ptr) (n : Nat) : Track cfg R (assign cfg v p n) := by
  unfold assign
  track

macro_rules | `(tactic| track_step) => `(tactic| with_reducible exact assign_track _ _ _)

theorem assignStr_track (v u : Obj) : Track cfg R (assignStr cfg v u) := by
  unfold assignStr
  track

macro_rules | `(tactic| track_step) => `(tactic| with_reducible exact assignStr_track _ _)

theorem assignMove_track (v u : Obj) : Track cfg R (assignMove cfg v u) := by
  unfold assignMove
  track

macro_rules | `(tactic| track_step) => `(tactic| with_reducible exact assignMove_track _ _)

theorem setFront_track (v : Obj) (c : Ch) : Track cfg R (setFront cfg v c) := by
  unfold setFront
  track

macro_rules | `(tactic| track_step) => `(tactic| with_reducible exact setFront_track _ _)

theorem assignChar_track (v : Obj) (c : Ch) : Track cfg R (assignChar cfg v c) := by
  unfold assignChar
  track

macro_rules | `(tactic| track_step) => `(tactic| with_reducible exact assignChar_track _ _)

theorem reserve_track (v : Obj) (n : Nat) : Track cfg R (reserve cfg v n) := by
  unfold reserve
  track

macro_rules | `(tactic| track_step) => `(tactic| with_reducible exact reserve_track _ _)

theorem shrinkToFit_track (v : Obj) : Track cfg R (shrinkToFit cfg v) := by
  unfold shrinkToFit
  track

macro_rules | `(tactic| track_step) => `(tactic| with_reducible exact shrinkToFit_track _)

theorem clear_track (v : Obj) : Track cfg R (clear cfg v) := by
  unfold clear
  track

macro_rules | `(tactic| track_step) => `(tactic| with_reducible exact clear_track _)

theorem popBack_track (v : Obj) : Track cfg R (popBack cfg v) := by
  unfold popBack
  track

macro_rules | `(tactic| track_step) => `(tactic| with_reducible exact popBack_track _)

theorem setAt_track (v : Obj) (i : Nat) (c : Ch) : Track cfg R (setAt cfg v i c) := by
  unfold setAt
  track

macro_rules | `(tactic| track_step) => `(tactic| with_reducible exact setAt_track _ _ _)

theorem readChar_track (p : Ptr) : Track cfg R (readChar p) := by
  unfold readChar
  track

macro_rules | `(tactic| track_step) => `(tactic| with_reducible exact readChar_track _)

theorem getAt_track (v : Obj) (i : Nat) : Track cfg R (getAt v i) := by
  unfold getAt
  track

macro_rules | `(tactic| track_step) => `(tactic| with_reducible exact getAt_track _ _)

theorem atConst_track (v : Obj) (i : Nat) : Track cfg R (atConst cfg v i) := by
  unfold atConst
  track

macro_rules | `(tactic| track_step) => `(tactic| with_reducible exact atConst_track _ _)

theorem setAtChecked_track (v : Obj) (i : Nat) (c : Ch) : Track cfg R (setAtChecked cfg v i c) := by
  unfold setAtChecked
  track

macro_rules | `(tactic| track_step) => `(tactic| with_reducible exact setAtChecked_track _ _ _)

theorem copyOut_track (v : Obj) (n pos : Nat) : Track cfg R (copyOut cfg v n pos) := by
  unfold copyOut
  track

macro_rules | `(tactic| track_step) => `(tactic| with_reducible exact copyOut_track _ _ _)

theorem posOf_track (v : Obj) (i : Ptr) : Track cfg R (posOf cfg v i) := by
  unfold posOf
  track

macro_rules | `(tactic| track_step) => `(tactic| with_reducible exact posOf_track _ _)

theorem insertFillAt_track (v : Obj) (i : Ptr) (n : Nat) (c : Ch) : Track cfg R (insertFillAt cfg v i n c) := by
  unfold insertFillAt
  track

macro_rules | `(tactic| track_step) => `(tactic| with_reducible exact insertFillAt_track _ _ _ _)

theorem insertRangeAt_track (v : Obj) (i : Ptr) (p : Ptr) (n : Nat) : Track cfg R (insertRangeAt cfg v i p n) := by
  unfold insertRangeAt
  track

macro_rules | `(tactic| track_step) => `(tactic| with_reducible exact insertRangeAt_track _ _ _ _)

theorem insertFill_track (v : Obj) (pos n : Nat) (c : Ch) : Track cfg R (insertFill cfg v pos n c) := by
  unfold insertFill
  track

macro_rules | `(tactic| track_step) => `(tactic| with_reducible exact insertFill_track _ _ _ _)

theorem insert_track (v : Obj) (pos : Nat) (p : Ptr) (n : Nat) : Track cfg R (insert cfg v pos p n) := by
  unfold insert
  track

macro_rules | `(tactic| track_step) => `(tactic| with_reducible exact insert_track _ _ _ _)

theorem appendRange_track (v : Obj) (p : Ptr) (n : Nat) : Track cfg R (appendRange cfg v p n) := by
  unfold appendRange
  track

macro_rules | `(tactic| track_step) => `(tactic| with_reducible exact appendRange_track _ _ _)

theorem erase_track (v : Obj) (pos n : Nat) : Track cfg R (erase cfg v pos n) := by
  unfold erase
  track

macro_rules | `(tactic| track_step) => `(tactic| with_reducible exact erase_track _ _ _)

theorem eraseAt_track (v : Obj) (i : Ptr) (n : Nat) : Track cfg R (eraseAt cfg v i n) := by
  unfold eraseAt
  track

macro_rules | `(tactic| track_step) => `(tactic| with_reducible exact eraseAt_track _ _ _)

theorem replaceCopy_track (v t : Obj) (d : Ptr) (k pos n1 : Nat) (p : Ptr) (n2 : Nat) : Track cfg R (replaceCopy cfg v t d k pos n1 p n2) := by
  unfold replaceCopy
  track

macro_rules | `(tactic| track_step) => `(tactic| with_reducible exact replaceCopy_track _ _ _ _ _ _ _ _)

theorem replaceImpl_track (v : Obj) (i1 : Ptr) (pos n1 : Nat) (p : Ptr) (n2 : Nat) : Track cfg R (replaceImpl cfg v i1 pos n1 p n2) := by
  unfold replaceImpl
  track

macro_rules | `(tactic| track_step) => `(tactic| with_reducible exact replaceImpl_track _ _ _ _ _ _)

theorem replaceCheck_track (v : Obj) (i1 : Ptr) (n1 : Nat) : Track cfg R (replaceCheck cfg v i1 n1) := by
  unfold replaceCheck
  track

macro_rules | `(tactic| track_step) => `(tactic| with_reducible exact replaceCheck_track _ _ _)

theorem replace_track (v : Obj) (pos n1 : Nat) (p : Ptr) (n2 : Nat) : Track cfg R (replace cfg v pos n1 p n2) := by
  unfold replace
  track

macro_rules | `(tactic| track_step) => `(tactic| with_reducible exact replace_track _ _ _ _ _)

theorem replaceFillAt_track (v : Obj) (i1 : Ptr) (n1 n2 : Nat) (c : Ch) : Track cfg R (replaceFillAt cfg v i1 n1 n2 c) := by
  unfold replaceFillAt
  track

macro_rules | `(tactic| track_step) => `(tactic| with_reducible exact replaceFillAt_track _ _ _ _ _)

theorem replaceFill_track (v : Obj) (pos n1 n2 : Nat) (c : Ch) : Track cfg R (replaceFill cfg v pos n1 n2 c) := by
  unfold replaceFill
  track

macro_rules | `(tactic| track_step) => `(tactic| with_reducible exact replaceFill_track _ _ _ _ _)

theorem assignFill_track (v : Obj) (n : Nat) (c : Ch) : Track cfg R (assignFill cfg v n c) := by
  unfold assignFill
  track

macro_rules | `(tactic| track_step) => `(tactic| with_reducible exact assignFill_track _ _ _)

theorem building_track (v : Obj) (body : M Unit) (h : Track cfg R body) : Track cfg R (building cfg v body) := by
  constructor
  intro l s
  have h1 := h.keeps l s
  unfold building
  rcases hb : body s with ⟨r, s1⟩
  rw [hb] at h1
  have h2 := (destroy_track (cfg := cfg) (R := R) v).keeps l s1
  rcases hd : destroy cfg v s1 with ⟨r1, s2⟩
  rw [hd] at h2
  cases r with
  | ok b => exact h1
  | error e =>
    cases e with
    | ub _ => exact h1
    | assertFail _ => exact h1
    | throw w => cases r1 <;> simp only [hd] <;> exact l.trans h1 h2

macro_rules | `(tactic| track_step) => `(tactic| with_reducible apply building_track)

theorem clone_track (v u : Obj) : Track cfg R (clone cfg v u) := by
  unfold clone
  track

macro_rules | `(tactic| track_step) => `(tactic| with_reducible exact clone_track _ _)

theorem substr_track (v u : Obj) (pos n : Nat) : Track cfg R (substr cfg v u pos n) := by
  unfold substr
  track

macro_rules | `(tactic| track_step) => `(tactic| with_reducible exact substr_track _ _ _ _)

theorem substrMove_track (v u : Obj) (pos n : Nat) : Track cfg R (substrMove cfg v u pos n) := by
  unfold substrMove
  track

macro_rules | `(tactic| track_step) => `(tactic| with_reducible exact substrMove_track _ _ _ _)

theorem concat_track (v u1 u2 : Obj) : Track cfg R (concat cfg v u1 u2) := by
  unfold concat
  track

macro_rules | `(tactic| track_step) => `(tactic| with_reducible exact concat_track _ _ _)

theorem addPart_track (v u : Obj) (q : Part) : Track cfg R (addPart cfg v u q) := by
  unfold addPart
  track

macro_rules | `(tactic| track_step) => `(tactic| with_reducible exact addPart_track _ _ _)

theorem addParts_track (v u : Obj) (q1 q2 : Part) : Track cfg R (addParts cfg v u q1 q2) := by
  unfold addParts
  track

macro_rules | `(tactic| track_step) => `(tactic| with_reducible exact addParts_track _ _ _ _)

theorem partSize_track (u : Obj) (q : Part) : Track cfg R (partSize cfg u q) := by
  unfold partSize
  track

macro_rules | `(tactic| track_step) => `(tactic| with_reducible exact partSize_track _ _)

theorem plusNew_track (v u : Obj) (q1 q2 : Part) : Track cfg R (plusNew cfg v u q1 q2) := by
  unfold plusNew
  track

macro_rules | `(tactic| track_step) => `(tactic| with_reducible exact plusNew_track _ _ _ _)

theorem Src.resolve_track (src : Src) : Track cfg R src.resolve := by
  unfold Src.resolve
  track

macro_rules | `(tactic| track_step) => `(tactic| with_reducible exact Src.resolve_track _)

theorem IStream.setstate_track (is : IStream) (e f : Bool) : Track cfg R (is.setstate e f) := by
  unfold IStream.setstate
  track

macro_rules | `(tactic| track_step) => `(tactic| with_reducible exact IStream.setstate_track _ _ _)

theorem lineEnd_track (is : IStream) (delim : Ch) (k : Nat) (rest : List Ch) : Track cfg R (lineEnd is delim k rest) := by
  unfold lineEnd
  track

macro_rules | `(tactic| track_step) => `(tactic| with_reducible exact lineEnd_track _ _ _ _)

theorem streamGetline_track (is : IStream) (p : Ptr) (n : Nat) (delim : Ch) : Track cfg R (streamGetline is p n delim) := by
  unfold streamGetline
  track

macro_rules | `(tactic| track_step) => `(tactic| with_reducible exact streamGetline_track _ _ _ _)

theorem getlineLoop_track (v : Obj) (delim : Ch) : ∀ (fuel : Nat) (is : IStream) (n : Nat), Track cfg R (getlineLoop cfg v delim fuel is n)
  | 0, _, _ => Track.ub _
  | fuel + 1, is, n => by
    have ih := getlineLoop_track v delim fuel
    unfold getlineLoop
    track <;> exact ih _ _

macro_rules | `(tactic| track_step) => `(tactic| with_reducible exact getlineLoop_track _ _ _ _ _)

theorem getline_track (v : Obj) (is : IStream) (delim : Ch) : Track cfg R (getline cfg v is delim) := by
  unfold getline
  track

macro_rules | `(tactic| track_step) => `(tactic| with_reducible exact getline_track _ _ _)

theorem ctypeSpace_track (c : Ch) : Track cfg R (ctypeSpace c) := by
  unfold ctypeSpace
  track

macro_rules | `(tactic| track_step) => `(tactic| with_reducible exact ctypeSpace_track _)

theorem sentry_track (is : IStream) : Track cfg R (sentry is) := by
  unfold sentry
  track

macro_rules | `(tactic| track_step) => `(tactic| with_reducible exact sentry_track _)

theorem extractLoop_track (v : Obj) (is : IStream) : ∀ (inp : List Ch) (room k : Nat), Track cfg R (extractLoop cfg v is room inp k)
  | [], room, k => by
    unfold extractLoop
    track
    contradiction
  | c :: t, room, k => by
    have ih := extractLoop_track v is t
    unfold extractLoop
    track <;> exact ih _ _

macro_rules | `(tactic| track_step) => `(tactic| with_reducible exact extractLoop_track _ _ _ _ _)

theorem extractEnd_track (is : IStream) (k : Nat) (eof : Bool) : Track cfg R (extractEnd is k eof) := by
  unfold extractEnd
  track

macro_rules | `(tactic| track_step) => `(tactic| with_reducible exact extractEnd_track _ _ _)

theorem extract_track (v : Obj) (is : IStream) : Track cfg R (extract cfg v is) := by
  unfold extract
  track

macro_rules | `(tactic| track_step) => `(tactic| with_reducible exact extract_track _ _)

/-- Every operation of a program. -/
theorem Op.run_track (cfg : Cfg) (op : Op) : Track cfg R (op.run cfg) := by
  cases op <;> (unfold Op.run; track)

end Verif.Str
