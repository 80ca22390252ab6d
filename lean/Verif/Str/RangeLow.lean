import Verif.Str.Ranges

/-!
Which functions make no copies: a string that shares its characters with no other one does not begin to.
-/

namespace Verif.Str.Ranges

open M

variable {β γ : Type} {cfg : Cfg}

/-- The block `d` was handed out and is not shared. -/
def LowAt (d : Nat) (s : St) : Prop := d < s.next ∧ ∀ B r, s.heap d = some B → B.rc = some r → r ≤ 1

/-- An action that shares no block. -/
structure Low (x : M β) : Prop where
  low : ∀ d s, LowAt d s → LowAt d (x s).2

theorem Low.pure (b : β) : Low (pure b : M β) := ⟨fun _ _ h => h⟩

theorem Low.fail (e : Fault) : Low (M.fail e : M β) := ⟨fun _ _ h => h⟩

theorem Low.ub (w : String) : Low (M.ub w : M β) := Low.fail _

theorem Low.raise (w : String) : Low (M.raise w : M β) := Low.fail _

theorem Low.bind {x : M β} {f : β → M γ} (hx : Low x) (hf : ∀ b, Low (f b)) : Low (x >>= f) := by
  constructor
  intro d s hs
  have h1 := hx.low d s hs
  show LowAt d (M.bind x f s).2
  unfold M.bind
  rcases hxs : x s with ⟨r, s1⟩
  rw [hxs] at h1
  cases r with
  | error e => exact h1
  | ok b => exact (hf b).low d s1 h1

theorem Low.ite {c : Prop} [Decidable c] {x y : M β} (hx : Low x) (hy : Low y) : Low (if c then x else y) := by
  split
  · exact hx
  · exact hy

theorem Low.noexcept {x : M β} (hx : Low x) : Low (noexcept x) := by
  constructor
  intro d s hs
  have h1 := hx.low d s hs
  unfold Str.noexcept
  rcases hxs : x s with ⟨r, s1⟩
  rw [hxs] at h1
  cases r with
  | ok b => exact h1
  | error e => cases e <;> exact h1

theorem Low.noexceptIf {c : Bool} {x : M β} (hx : Low x) : Low (noexceptIf c x) := by
  unfold Str.noexceptIf
  split
  · exact hx.noexcept
  · exact hx

/-- Step of the proofs below; extended by each lemma. -/
syntax "low_step" : tactic
macro_rules | `(tactic| low_step) => `(tactic| with_reducible exact Low.pure _)
macro_rules | `(tactic| low_step) => `(tactic| with_reducible exact Low.fail _)
macro_rules | `(tactic| low_step) => `(tactic| with_reducible exact Low.ub _)
macro_rules | `(tactic| low_step) => `(tactic| with_reducible exact Low.raise _)
macro_rules | `(tactic| low_step) => `(tactic| intro _)
macro_rules | `(tactic| low_step) => `(tactic| extract_lets)
macro_rules | `(tactic| low_step) => `(tactic| split)
macro_rules | `(tactic| low_step) => `(tactic| with_reducible apply Low.ite)
macro_rules | `(tactic| low_step) => `(tactic| with_reducible apply Low.bind)
macro_rules | `(tactic| low_step) => `(tactic| with_reducible apply Low.noexcept)
macro_rules | `(tactic| low_step) => `(tactic| with_reducible apply Low.noexceptIf)

/-- Split an action into its parts. -/
macro "low" : tactic => `(tactic| repeat' low_step)

/-- The block is another one, or keeps its count. -/
theorem LowAt.upd {d b : Nat} {s : St} {o : Option Blk} {n : Nat} (h : LowAt d s) (hn : s.next ≤ n)
    (ho : d = b → ∀ B r, o = some B → B.rc = some r → r ≤ 1) {vs : Obj → Option Ob} {f g : Bool} :
    LowAt d ⟨Str.upd s.heap b o, n, vs, f, g⟩ := by
  refine ⟨Nat.lt_of_lt_of_le h.1 hn, fun B r hB hr => ?_⟩
  simp only at hB
  by_cases e : d = b
  · subst e
    rw [upd_same] at hB
    exact ho rfl B r hB hr
  · rw [upd_other _ _ e] at hB
    exact h.2 B r hB hr

/-- An action given by cases on the memory. -/
macro "low_cases" : tactic => `(tactic| (constructor; intro d s hs; repeat' split) <;> (first
  | exact hs
  | exact ⟨hs.1, hs.2⟩
  | exact ⟨Nat.lt_succ_of_lt hs.1, hs.2⟩
  | exact hs.upd (Nat.le_refl _) (fun e B r hB hr => by cases hB)
  | exact hs.upd (Nat.le_succ _) (fun e B r hB hr => absurd hs.1 (by rw [e]; exact Nat.lt_irrefl _))))

theorem assert_low (c : Bool) (msg : String) : Low (assert cfg c msg) := by
  unfold assert
  low

macro_rules | `(tactic| low_step) => `(tactic| with_reducible exact assert_low _ _)

theorem doIf_low (c : Bool) (x : M Unit) (h : Low x) : Low (doIf c x) := by
  unfold doIf
  low
  all_goals exact h

macro_rules | `(tactic| low_step) => `(tactic| with_reducible apply doIf_low)

theorem readCells_low (p : Ptr) (n : Nat) : Low (readCells p n) := by
  unfold readCells
  low_cases

macro_rules | `(tactic| low_step) => `(tactic| with_reducible exact readCells_low _ _)

theorem writeCells_low (p : Ptr) (cs : List Cell) : Low (writeCells p cs) := by
  unfold writeCells
  constructor
  intro d s hs
  split
  · exact hs
  · split
    · next B hB =>
      split
      · refine hs.upd (Nat.le_refl _) (fun e B' r hB' hr => ?_)
        subst e
        cases hB'
        exact hs.2 _ r hB hr
      · exact hs
    · exact hs
  · split
    · split
      · exact ⟨hs.1, hs.2⟩
      · exact hs
    · exact hs

macro_rules | `(tactic| low_step) => `(tactic| with_reducible exact writeCells_low _ _)

theorem room_low (p : Ptr) : Low (room p) := by
  unfold room
  low_cases

macro_rules | `(tactic| low_step) => `(tactic| with_reducible exact room_low _)

theorem podFill_low (p : Ptr) (n : Nat) (c : Ch) : Low (podFill p n c) := by
  unfold podFill
  low

macro_rules | `(tactic| low_step) => `(tactic| with_reducible exact podFill_low _ _ _)

theorem podCopy_low (p : Ptr) (n : Nat) (q : Ptr) : Low (podCopy cfg p n q) := by
  unfold podCopy
  low

macro_rules | `(tactic| low_step) => `(tactic| with_reducible exact podCopy_low _ _ _)

theorem podMove_low (p : Ptr) (n : Nat) (q : Ptr) : Low (podMove p n q) := by
  unfold podMove
  low

macro_rules | `(tactic| low_step) => `(tactic| with_reducible exact podMove_low _ _ _)

theorem alloc_low (al : Nat) (hdr : Bool) (bytes : Nat) : Low (alloc cfg al hdr bytes) := by
  unfold alloc
  low_cases

macro_rules | `(tactic| low_step) => `(tactic| with_reducible exact alloc_low _ _ _)

theorem dealloc_low (al : Nat) (b : Nat) : Low (dealloc cfg al b) := by
  unfold dealloc
  low_cases

macro_rules | `(tactic| low_step) => `(tactic| with_reducible exact dealloc_low _ _)

theorem refs_low (b : Nat) : Low (refs b) := by
  unfold refs
  low_cases

macro_rules | `(tactic| low_step) => `(tactic| with_reducible exact refs_low _)

theorem decrementRefs_low (al : Nat) (b : Nat) : Low (decrementRefs cfg al b) := by
  constructor
  intro d s hs
  unfold decrementRefs
  rw [bind_apply]
  rcases e : refs b s with ⟨r, s1⟩
  have h1 := (refs_low b).low d s hs
  rw [e] at h1
  cases r with
  | error e => exact h1
  | ok n =>
    have key : s1 = s ∧ ∃ src cells, s.heap b = some ⟨some n, src, cells⟩ := by
      unfold refs at e
      split at e
      · next n' src cells hb =>
        cases e
        exact ⟨rfl, _, _, hb⟩
      · cases e
    obtain ⟨rfl, src, cells, hb⟩ := key
    simp only
    have hset : Tri (setRefs b (n - 1)) s1 (fun _ s' => LowAt d s') (fun _ s' => LowAt d s') := by
      refine Tri.of_ok (setRefs_ok hb) (hs.upd (Nat.le_refl _) ?_)
      rintro rfl B r hB hr
      cases hB
      have := hs.2 _ _ hb rfl
      cases hr
      omega
    have hall : Tri (do
        assert cfg (decide (0 < n)) "decrementRefs"
        if n = 0 then M.ub "reference count wraps" else do
          setRefs b (n - 1)
          doIf (n == 1) (dealloc cfg al b) : M Unit) s1 (fun _ s' => LowAt d s') (fun _ s' => LowAt d s') := by
      have ha := (assert_low (cfg := cfg) (decide (0 < n)) "decrementRefs").low d s1 hs
      refine Tri.bind (R := fun _ s' => s' = s1) (E := fun _ s' => LowAt d s') ?_ ?_
      · unfold Str.assert
        split
        · exact hs
        · exact rfl
      · rintro _ s2 rfl
        split
        · exact hs
        · refine Tri.bind hset fun _ s3 h3 => ?_
          have := (doIf_low (n == 1) _ (dealloc_low (cfg := cfg) al b)).low d s3 h3
          unfold Tri
          rcases e2 : doIf (n == 1) (dealloc cfg al b) s3 with ⟨r, s4⟩
          rw [e2] at this
          cases r <;> exact this
    unfold Tri at hall
    split at hall
    · next h => rw [h]; exact hall
    · next h => rw [h]; exact hall

macro_rules | `(tactic| low_step) => `(tactic| with_reducible exact decrementRefs_low _ _)

theorem lengthError_low  : Low (lengthError : M β) := by
  unfold lengthError
  low_cases

macro_rules | `(tactic| low_step) => `(tactic| with_reducible exact lengthError_low)

theorem largeBytes_low (size : Nat) : Low (largeBytes cfg size) := by
  unfold largeBytes
  low

macro_rules | `(tactic| low_step) => `(tactic| with_reducible exact largeBytes_low _)

theorem create_low (al : Nat) (size : Nat) : Low (create cfg al size) := by
  unfold create
  low

macro_rules | `(tactic| low_step) => `(tactic| with_reducible exact create_low _ _)

theorem copyBlk_low (a b k : Nat) : Low (copyBlk a b k) := by
  unfold copyBlk
  low

macro_rules | `(tactic| low_step) => `(tactic| with_reducible exact copyBlk_low _ _ _)

theorem checkedRealloc_low (a : Nat) (hdr : Bool) (bytes : Nat) : Low (checkedRealloc cfg a hdr bytes) := by
  unfold checkedRealloc
  constructor
  intro d s hs
  split
  · exact hs
  · split
    · refine LowAt.upd (s := ⟨upd s.heap a none, s.next, s.vars, s.refused, s.lost⟩) ?_ (Nat.le_succ _)
        (fun e B r hB hr => absurd hs.1 (by rw [e]; exact Nat.lt_irrefl _))
      exact hs.upd (Nat.le_refl _) (fun e B r hB hr => by cases hB)
    · exact hs.upd (Nat.le_succ _) (fun e B r hB hr => by cases hB)

macro_rules | `(tactic| low_step) => `(tactic| with_reducible exact checkedRealloc_low _ _ _)

theorem smartRealloc_low (al : Nat) (a : Nat) (hdr : Bool) (cur cap new : Nat) : Low (smartRealloc cfg al a hdr cur cap new) := by
  unfold smartRealloc
  low

macro_rules | `(tactic| low_step) => `(tactic| with_reducible exact smartRealloc_low _ _ _ _ _ _)

theorem getOb_low (v : Obj) : Low (getOb v) := by
  unfold getOb
  low_cases

macro_rules | `(tactic| low_step) => `(tactic| with_reducible exact getOb_low _)

theorem setCore_low (v : Obj) (c : Core) : Low (setCore v c) := by
  unfold setCore
  low_cases

macro_rules | `(tactic| low_step) => `(tactic| with_reducible exact setCore_low _ _)

theorem newOb_low (v : Obj) (al : Nat) : Low (newOb cfg v al) := by
  unfold newOb
  low_cases

macro_rules | `(tactic| low_step) => `(tactic| with_reducible exact newOb_low _ _)

theorem dropOb_low (v : Obj) : Low (dropOb v) := by
  unfold dropOb
  low_cases

macro_rules | `(tactic| low_step) => `(tactic| with_reducible exact dropOb_low _)

theorem constructing_low (v : Obj) (body : M Unit) (h : Low body) : Low (constructing v body) := by
  unfold constructing
  constructor
  intro d s hs
  have h1 := h.low d s hs
  revert h1
  rcases body s with ⟨r, s1⟩
  cases r with
  | ok _ => exact id
  | error e => cases e <;> exact id

macro_rules | `(tactic| low_step) => `(tactic| with_reducible apply constructing_low)

theorem construct_low (v : Obj) (al : Nat) (body : M Unit) (h : Low body) : Low (construct cfg v al body) := by
  unfold construct
  low
  all_goals exact h

macro_rules | `(tactic| low_step) => `(tactic| with_reducible apply construct_low)

theorem size_low (v : Obj) : Low (size cfg v) := by
  unfold size
  low

macro_rules | `(tactic| low_step) => `(tactic| with_reducible exact size_low _)

theorem capacity_low (v : Obj) : Low (capacity cfg v) := by
  unfold capacity
  low

macro_rules | `(tactic| low_step) => `(tactic| with_reducible exact capacity_low _)

theorem dataPtr_low (v : Obj) : Low (dataPtr v) := by
  unfold dataPtr
  low

macro_rules | `(tactic| low_step) => `(tactic| with_reducible exact dataPtr_low _)

theorem isShared_low (v : Obj) : Low (isShared v) := by
  unfold isShared
  low

macro_rules | `(tactic| low_step) => `(tactic| with_reducible exact isShared_low _)

theorem setSmallSize_low (v : Obj) (n : Nat) : Low (setSmallSize cfg v n) := by
  unfold setSmallSize
  low

macro_rules | `(tactic| low_step) => `(tactic| with_reducible exact setSmallSize_low _ _)

theorem release_low (v : Obj) : Low (release cfg v) := by
  unfold release
  low

macro_rules | `(tactic| low_step) => `(tactic| with_reducible exact release_low _)

theorem destroy_low (v : Obj) : Low (destroy cfg v) := by
  unfold destroy
  low

macro_rules | `(tactic| low_step) => `(tactic| with_reducible exact destroy_low _)

theorem withTemp_low (t : Obj) (body : M β) (h : Low body) : Low (withTemp cfg t body) := by
  constructor
  intro d s hs
  have h1 := h.low d s hs
  unfold withTemp
  rcases hb : body s with ⟨r, s1⟩
  rw [hb] at h1
  have h2 := (destroy_low (cfg := cfg) t).low d s1 h1
  rcases hd : destroy cfg t s1 with ⟨r1, s2⟩
  rw [hd] at h2
  cases r with
  | ok b => cases r1 <;> simp only [hd] <;> exact h2
  | error e =>
    cases e with
    | ub _ => exact h1
    | assertFail _ => exact h1
    | throw w => cases r1 <;> simp only [hd] <;> exact h2

macro_rules | `(tactic| low_step) => `(tactic| with_reducible apply withTemp_low)

theorem swap_low (u v : Obj) : Low (swap u v) := by
  unfold swap
  low

macro_rules | `(tactic| low_step) => `(tactic| with_reducible exact swap_low _ _)

theorem initEmpty_low (v : Obj) : Low (initEmpty cfg v) := by
  unfold initEmpty
  low

macro_rules | `(tactic| low_step) => `(tactic| with_reducible exact initEmpty_low _)

theorem initSmall_low (v : Obj) (p : Ptr) (n : Nat) : Low (initSmall cfg v p n) := by
  unfold initSmall
  low

macro_rules | `(tactic| low_step) => `(tactic| with_reducible exact initSmall_low _ _ _)

theorem initMedium_low (v : Obj) (al : Nat) (p : Ptr) (n : Nat) : Low (initMedium cfg v al p n) := by
  unfold initMedium
  low

macro_rules | `(tactic| low_step) => `(tactic| with_reducible exact initMedium_low _ _ _ _)

theorem initLarge_low (v : Obj) (al : Nat) (p : Ptr) (n : Nat) : Low (initLarge cfg v al p n) := by
  unfold initLarge
  low

macro_rules | `(tactic| low_step) => `(tactic| with_reducible exact initLarge_low _ _ _ _)

theorem initData_low (v : Obj) (al : Nat) (p : Ptr) (n : Nat) : Low (initData cfg v al p n) := by
  unfold initData
  low

macro_rules | `(tactic| low_step) => `(tactic| with_reducible exact initData_low _ _ _ _)

theorem initCheck_low (v : Obj) (p : Ptr) (n : Nat) : Low (initCheck cfg v p n) := by
  unfold initCheck
  low

macro_rules | `(tactic| low_step) => `(tactic| with_reducible exact initCheck_low _ _ _)

theorem ctorData_low (v : Obj) (al : Nat) (p : Ptr) (n : Nat) : Low (ctorData cfg v al p n) := by
  unfold ctorData
  low

macro_rules | `(tactic| low_step) => `(tactic| with_reducible exact ctorData_low _ _ _ _)

theorem ctorEmpty_low (v : Obj) (al : Nat) : Low (ctorEmpty cfg v al) := by
  unfold ctorEmpty
  low

macro_rules | `(tactic| low_step) => `(tactic| with_reducible exact ctorEmpty_low _ _)

theorem blockOf_low (v : Obj) : Low (blockOf v) := by
  unfold blockOf
  low

macro_rules | `(tactic| low_step) => `(tactic| with_reducible exact blockOf_low _)

theorem reserveSmall_low (v : Obj) (n : Nat) : Low (reserveSmall cfg v n) := by
  unfold reserveSmall
  low

macro_rules | `(tactic| low_step) => `(tactic| with_reducible exact reserveSmall_low _ _)

theorem unshare_low (v : Obj) (n : Nat) : Low (unshare cfg v n) := by
  unfold unshare
  low

macro_rules | `(tactic| low_step) => `(tactic| with_reducible exact unshare_low _ _)

theorem reallocate_low (al d size cap n : Nat) : Low (reallocate cfg al d size cap n) := by
  unfold reallocate
  low

macro_rules | `(tactic| low_step) => `(tactic| with_reducible exact reallocate_low _ _ _ _ _)

theorem reserveLarge_low (v : Obj) (n : Nat) : Low (reserveLarge cfg v n) := by
  unfold reserveLarge
  low

macro_rules | `(tactic| low_step) => `(tactic| with_reducible exact reserveLarge_low _ _)

theorem growNascent_low (t v : Obj) (d k n : Nat) : Low (growNascent cfg t v d k n) := by
  unfold growNascent
  low

macro_rules | `(tactic| low_step) => `(tactic| with_reducible exact growNascent_low _ _ _ _ _)

theorem reserveMedium_low (v : Obj) (n : Nat) : Low (reserveMedium cfg v n) := by
  unfold reserveMedium
  low

macro_rules | `(tactic| low_step) => `(tactic| with_reducible exact reserveMedium_low _ _)

theorem reserveBy_low (v : Obj) (n : Nat) : Low (reserveBy cfg v n) := by
  unfold reserveBy
  low

macro_rules | `(tactic| low_step) => `(tactic| with_reducible exact reserveBy_low _ _)

theorem reserveCore_low (v : Obj) (n : Nat) : Low (reserveCore cfg v n) := by
  unfold reserveCore
  low

macro_rules | `(tactic| low_step) => `(tactic| with_reducible exact reserveCore_low _ _)

theorem expandTail_low (v : Obj) (old new : Nat) : Low (expandTail cfg v old new) := by
  unfold expandTail
  low

macro_rules | `(tactic| low_step) => `(tactic| with_reducible exact expandTail_low _ _ _)

theorem expandNoinit_low (v : Obj) (delta : Nat) (exp : Bool) : Low (expandNoinit cfg v delta exp) := by
  unfold expandNoinit
  low

macro_rules | `(tactic| low_step) => `(tactic| with_reducible exact expandNoinit_low _ _ _)

theorem mutableData_low (v : Obj) : Low (mutableData cfg v) := by
  unfold mutableData
  low

macro_rules | `(tactic| low_step) => `(tactic| with_reducible exact mutableData_low _)

theorem pushBack_low (v : Obj) (c : Ch) : Low (pushBack cfg v c) := by
  unfold pushBack
  low

macro_rules | `(tactic| low_step) => `(tactic| with_reducible exact pushBack_low _ _)

theorem sane_low (v : Obj) : Low (sane cfg v) := by
  unfold sane
  low

macro_rules | `(tactic| low_step) => `(tactic| with_reducible exact sane_low _)

theorem checking_low (v : Obj) (body : M β) (h : Low body) : Low (checking cfg v body) := by
  constructor
  intro d s hs
  have h1 := h.low d s hs
  unfold checking
  rcases hb : body s with ⟨r, s1⟩
  rw [hb] at h1
  have h2 := (sane_low (cfg := cfg) v).low d s1 h1
  rcases hd : sane cfg v s1 with ⟨r1, s2⟩
  rw [hd] at h2
  cases r with
  | ok b => cases r1 <;> simp only [hd] <;> exact h2
  | error e =>
    cases e with
    | ub _ => exact h1
    | assertFail _ => exact h1
    | throw w => cases r1 <;> simp only [hd] <;> exact h2

macro_rules | `(tactic| low_step) => `(tactic| with_reducible apply checking_low)

theorem checker_low (v : Obj) (body : M β) (h : Low body) : Low (checker cfg v body) := by
  unfold checker
  low
  all_goals exact h

macro_rules | `(tactic| low_step) => `(tactic| with_reducible apply checker_low)

theorem begin_low (v : Obj) : Low (begin_ cfg v) := by
  unfold begin_
  low

macro_rules | `(tactic| low_step) => `(tactic| with_reducible exact begin_low _)

theorem posOf_low (v : Obj) (i : Ptr) : Low (posOf cfg v i) := by
  unfold posOf
  low

macro_rules | `(tactic| low_step) => `(tactic| with_reducible exact posOf_low _ _)

theorem insertRangeAt_low (v : Obj) (i : Ptr) (p : Ptr) (n : Nat) : Low (insertRangeAt cfg v i p n) := by
  unfold insertRangeAt
  low

macro_rules | `(tactic| low_step) => `(tactic| with_reducible exact insertRangeAt_low _ _ _ _)

theorem appendRange_low (v : Obj) (p : Ptr) (n : Nat) : Low (appendRange cfg v p n) := by
  unfold appendRange
  low

macro_rules | `(tactic| low_step) => `(tactic| with_reducible exact appendRange_low _ _ _)

theorem distance_low (v : Obj) (b i : Ptr) : Low (distance cfg v b i) := by
  unfold distance
  low

macro_rules | `(tactic| low_step) => `(tactic| with_reducible exact distance_low _ _ _)

theorem pushRange_low (t : Obj) : ∀ r : Range, Low (pushRange cfg t r)
  | [] => by unfold pushRange; low
  | none :: _ => by unfold pushRange; low
  | some c :: r => by
    unfold pushRange
    low
    exact pushRange_low t r

macro_rules | `(tactic| low_step) => `(tactic| with_reducible exact pushRange_low _ _)

theorem insertInputBody_low (v t : Obj) (i : Ptr) (pos : Nat) (r : Range) : Low (insertInputBody cfg v t i pos r) := by
  unfold insertInputBody
  low

macro_rules | `(tactic| low_step) => `(tactic| with_reducible exact insertInputBody_low _ _ _ _ _)

theorem insertInputAt_low (v t : Obj) (i : Ptr) (r : Range) : Low (insertInputAt cfg v t i r) := by
  unfold insertInputAt
  low

macro_rules | `(tactic| low_step) => `(tactic| with_reducible exact insertInputAt_low _ _ _ _)

theorem appendInput_low (v t : Obj) (r : Range) : Low (appendInput cfg v t r) := by
  unfold appendInput
  low

macro_rules | `(tactic| low_step) => `(tactic| with_reducible exact appendInput_low _ _ _)

/-- A string left alone by such an action is as unshared as before. -/
theorem Low.excl {x : M β} {b : β} {s s' : St} {v : Obj} {X : Obj → Prop} (hx : Low x) (h : x s = (.ok b, s')) (hw : WInv cfg s)
    (hw' : WInv cfg s') (hf : Frame X s s') (hv : ¬ X v) (he : Excl s v) : Excl s' v := by
  intro d n cap al hvar
  have hvar0 := (hf v hv).1.symm.trans hvar
  obtain ⟨B, hB, hr⟩ := he d n cap al hvar0
  have hlt : d < s.next := by
    rcases Nat.lt_or_ge d s.next with h | h
    · exact h
    · rw [hw.fresh d h] at hB; cases hB
  have hl := hx.low d s ⟨hlt, fun B' r hB' hr' => by rw [hB] at hB'; cases hB'; rw [hr] at hr'; cases hr'; exact Nat.le_refl _⟩
  rw [h] at hl
  obtain ⟨r, src, cells, hB2, h1⟩ := hw'.large hvar
  have h2 := hl.2 _ _ hB2 rfl
  refine ⟨_, hB2, ?_⟩
  have : r = 1 := by omega
  rw [this]

end Verif.Str.Ranges
