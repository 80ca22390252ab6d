import Verif.Str.Refine

/-!
Where the blocks of strings come from, as an invariant of what happens to them: `Lodge π P x` says that during `x` every
string keeps its allocator and has its characters in the object or in a block of that allocator.
-/

namespace Verif.Str

open M

variable {β γ : Type} {cfg : Cfg}

/-- The allocators of the strings and of the blocks during one call, whose new blocks and local strings are all of the
allocator `a`. -/
structure Plan where
  A : Obj → Nat
  F : Nat → Nat
  start : Nat
  a : Nat
  new : ∀ b, start ≤ b → F b = a
  tmp : ∀ i, A (.tmp i) = a

variable {π : Plan}

/-- The block of a core is of the allocator `al`. -/
def Core.lodged (F : Nat → Nat) (al : Nat) : Core → Prop
  | .small _ => True
  | .ml d _ _ _ => F d = al

/-- Strings and blocks are as planned. -/
structure Lodged (π : Plan) (s : St) : Prop where
  vars : ∀ o ob, s.vars o = some ob → ob.al = π.A o ∧ ob.core.lodged π.F (π.A o)
  heap : ∀ b B, s.heap b = some B → B.src = π.F b
  next : π.start ≤ s.next

/-- `x` keeps to this, and its result satisfies `P`. -/
structure Lodge (π : Plan) (P : β → Prop) (x : M β) : Prop where
  keeps : ∀ s, Lodged π s → Lodged π (x s).2
  result : ∀ s, Lodged π s → ∀ b, (x s).1 = .ok b → P b

/-- An action that leaves the memory as it is. -/
theorem Lodge.still {P : β → Prop} {x : M β} (h1 : ∀ s, (x s).2 = s) (h2 : ∀ s, Lodged π s → ∀ b, (x s).1 = .ok b → P b) :
    Lodge π P x :=
  ⟨fun s h => by rw [h1]; exact h, h2⟩

theorem Lodge.pure {P : β → Prop} {b : β} (h : P b) : Lodge π P (pure b : M β) :=
  Lodge.still (fun _ => rfl) (fun _ _ b' h' => by cases h'; exact h)

theorem Lodge.fail {P : β → Prop} (e : Fault) : Lodge π P (M.fail e : M β) :=
  Lodge.still (fun _ => rfl) (fun _ _ _ h' => by cases h')

theorem Lodge.ub {P : β → Prop} (w : String) : Lodge π P (M.ub w : M β) := Lodge.fail _

theorem Lodge.raise {P : β → Prop} (w : String) : Lodge π P (M.raise w : M β) := Lodge.fail _

/-- An action and what follows its result or fault. -/
theorem Lodge.handle {P : β → Prop} {Q : γ → Prop} {x : M β} {y : M γ} (hx : Lodge π P x) (h : Except Fault β → M γ)
    (e : ∀ s, y s = h (x s).1 (x s).2)
    (hh : ∀ r, (∀ b, r = .ok b → P b) → Lodge π Q (h r)) : Lodge π Q y := by
  have e : y = fun s => h (x s).1 (x s).2 := funext e
  subst e
  constructor
  · intro s hs
    exact (hh _ (hx.result s hs)).keeps _ (hx.keeps s hs)
  · intro s hs
    exact (hh _ (hx.result s hs)).result _ (hx.keeps s hs)

theorem Lodge.bind {P : β → Prop} {Q : γ → Prop} {x : M β} {f : β → M γ} (hx : Lodge π P x)
    (hf : ∀ b, P b → Lodge π Q (f b)) : Lodge π Q (x >>= f) := by
  refine hx.handle (fun r => match r with
      | .ok b => f b
      | .error e => M.fail e)
    (fun s => ?_) fun r hr => ?_
  · rw [bind_apply]
    rcases x s with ⟨r, s1⟩
    cases r <;> rfl
  cases r with
  | ok b => exact hf b (hr b rfl)
  | error e => exact Lodge.fail _

theorem Lodge.ite {P : β → Prop} {c : Prop} [Decidable c] {x y : M β} (hx : Lodge π P x) (hy : Lodge π P y) :
    Lodge π P (if c then x else y) := by
  split
  · exact hx
  · exact hy

theorem Lodge.weaken {P : β → Prop} {x : M β} (hx : Lodge π P x) : Lodge π (fun _ => True) x :=
  ⟨hx.keeps, fun _ _ _ _ => trivial⟩

/-- What the lemmas ask of their arguments. -/
macro "lodge_side" : tactic => `(tactic| first
  | with_reducible assumption
  | with_reducible exact trivial
  | with_reducible exact Plan.tmp _ _
  | (simp_all [Core.lodged, Plan.tmp]; done))

open Lean Elab Tactic Meta in
/-- Apply the lemma about the action at hand: for `f` it is `f_lodge`. -/
elab "lodge_lemma" : tactic => withMainContext do
  let g ← getMainGoal
  let t := (← instantiateMVars (← g.getType)).consumeMData
  unless t.isAppOf ``Lodge do throwError "not Lodge"
  let .const c _ := t.appArg!.consumeMData.getAppFn | throwError "no lemma"
  let n : Name := match c with
    | ``Bind.bind => ``Lodge.bind
    | ``ite => ``Lodge.ite
    | ``M.fail => ``Lodge.fail
    | ``M.ub => ``Lodge.ub
    | ``M.raise => ``Lodge.raise
    | _ => c.appendAfter "_lodge"
  unless (← getEnv).contains n do throwError "no lemma"
  let e ← mkConstWithFreshMVarLevels n
  let gs ← try g.apply e catch _ =>
    let [g'] ← g.apply (← mkConstWithFreshMVarLevels ``Lodge.weaken) {newGoals := .nonDependentOnly} | throwError "weaken"
    g'.apply e
  replaceMainGoal gs

/-- Split an action into its parts. -/
macro "lodge" : tactic => `(tactic| repeat' first
  | lodge_lemma
  | with_reducible exact Lodge.pure (P := fun _ => True) trivial
  | with_reducible refine Lodge.pure ?_
  | (intro _ _; with_reducible refine (?_ : Lodge _ _ _))
  | split
  | extract_lets
  | lodge_side)

/-! ### Memory -/

theorem readCells_lodge (p : Ptr) (n : Nat) : Lodge π (fun _ => True) (readCells p n) := by
  refine Lodge.still (fun s => ?_) (fun _ _ _ _ => trivial)
  unfold readCells
  repeat' split
  all_goals simp

theorem room_lodge (p : Ptr) : Lodge π (fun _ => True) (room p) := by
  refine Lodge.still (fun s => ?_) (fun _ _ _ _ => trivial)
  unfold room
  repeat' split
  all_goals simp

theorem Lodged.setHeap {s : St} (h : Lodged π s) {b : Nat} {B : Option Blk} (hB : ∀ C, B = some C → C.src = π.F b) :
    Lodged π { s with heap := upd s.heap b B } := by
  refine ⟨h.vars, fun i C hC => ?_, h.next⟩
  simp only [upd] at hC
  split at hC
  · rename_i e
    exact e ▸ hB C hC
  · exact h.heap i C hC

theorem Lodged.setVar {s : St} (h : Lodged π s) {o : Obj} {ob : Option Ob}
    (hc : ∀ x, ob = some x → x.al = π.A o ∧ x.core.lodged π.F (π.A o)) : Lodged π { s with vars := upd s.vars o ob } := by
  refine ⟨fun i x hx => ?_, h.heap, h.next⟩
  simp only [upd] at hx
  split at hx
  · rename_i e
    exact e ▸ hc x hx
  · exact h.vars i x hx

theorem writeCells_lodge (p : Ptr) (cs : List Cell) : Lodge π (fun _ => True) (writeCells p cs) := by
  refine ⟨fun s h => ?_, fun _ _ _ _ => trivial⟩
  unfold writeCells
  repeat' split
  any_goals exact h
  · rename_i B hB _
    exact h.setHeap fun C hC => by cases hC; exact h.heap _ B hB
  · rename_i hB _
    exact h.setVar fun x hx => by cases hx; exact ⟨(h.vars _ _ hB).1, trivial⟩

theorem alloc_lodge {al : Nat} (ha : al = π.a) (hdr : Bool) (bytes : Nat) : Lodge π (fun b => π.F b = π.a) (alloc cfg al hdr bytes) := by
  refine ⟨fun s h => ?_, fun s h b hb => ?_⟩
  · unfold alloc
    split
    · exact h
    · split
      · have := h.setHeap (b := s.next) (B := some ⟨if hdr then some 1 else none, al, List.replicate ((bytes - hdrBytes hdr) / cfg.w) none⟩)
          fun C hC => by cases hC; exact ha.trans (π.new _ h.next).symm
        exact ⟨this.vars, this.heap, Nat.le_succ_of_le h.next⟩
      · exact ⟨h.vars, h.heap, Nat.le_succ_of_le h.next⟩
  · unfold alloc at hb
    split at hb
    · cases hb
    · split at hb
      · cases hb
        exact π.new _ h.next
      · cases hb

theorem dealloc_lodge (al : Nat) (b : Nat) : Lodge π (fun _ => True) (dealloc cfg al b) := by
  refine ⟨fun s h => ?_, fun _ _ _ _ => trivial⟩
  unfold dealloc
  repeat' split
  any_goals exact h
  exact h.setHeap fun C hC => by cases hC

theorem refs_lodge (b : Nat) : Lodge π (fun _ => True) (refs b) := by
  refine Lodge.still (fun s => ?_) (fun _ _ _ _ => trivial)
  unfold refs
  split <;> rfl

theorem setRefs_lodge (b n : Nat) : Lodge π (fun _ => True) (setRefs b n) := by
  refine ⟨fun s h => ?_, fun _ _ _ _ => trivial⟩
  unfold setRefs
  split
  · rename_i hB
    have hs := h.heap _ _ hB
    exact h.setHeap fun C hC => by cases hC; exact hs
  · exact h

theorem lengthError_lodge {P : β → Prop} : Lodge π P (lengthError : M β) :=
  ⟨fun _ h => ⟨h.vars, h.heap, h.next⟩, fun _ _ _ hb => by cases hb⟩

theorem checkedRealloc_lodge {a : Nat} (ha : π.F a = π.a) (hdr : Bool) (bytes : Nat) :
    Lodge π (fun b => π.F b = π.a) (checkedRealloc cfg a hdr bytes) := by
  refine ⟨fun s h => ?_, fun s h b hb => ?_⟩
  · unfold checkedRealloc
    repeat' split
    · exact h
    · rename_i A hA _
      have h1 := h.setHeap (b := a) (B := none) fun C hC => by cases hC
      have h2 := h1.setHeap (b := s.next) (B := some ⟨A.rc, A.src,
          (A.cells.take ((bytes - hdrBytes hdr) / cfg.w)) ++ List.replicate ((bytes - hdrBytes hdr) / cfg.w - A.cells.length) none⟩)
        fun C hC => by cases hC; exact (h.heap _ A hA).trans (ha.trans (π.new _ h.next).symm)
      exact ⟨h2.vars, h2.heap, Nat.le_succ_of_le h.next⟩
    · have h1 := h.setHeap (b := a) (B := none) fun C hC => by cases hC
      exact ⟨h1.vars, h1.heap, Nat.le_succ_of_le h.next⟩
  · unfold checkedRealloc at hb
    repeat' split at hb
    · cases hb
    · cases hb
      exact π.new _ h.next
    · cases hb

theorem getOb_lodge (v : Obj) : Lodge π (fun o => o.al = π.A v ∧ o.core.lodged π.F (π.A v)) (getOb v) := by
  refine Lodge.still (fun s => ?_) (fun s h o ho => ?_)
  · unfold getOb
    split <;> rfl
  · unfold getOb at ho
    split at ho
    · rename_i hB
      cases ho
      exact h.vars _ _ hB
    · cases ho

theorem setCore_lodge {v : Obj} {c : Core} (hc : c.lodged π.F (π.A v)) : Lodge π (fun _ => True) (setCore v c) := by
  refine ⟨fun s h => ?_, fun _ _ _ _ => trivial⟩
  unfold setCore
  split
  · rename_i hB
    exact h.setVar fun x hx => by cases hx; exact ⟨(h.vars _ _ hB).1, hc⟩
  · exact h

theorem newOb_lodge (v : Obj) {al : Nat} (ha : al = π.A v) : Lodge π (fun _ => True) (newOb cfg v al) := by
  refine ⟨fun s h => ?_, fun _ _ _ _ => trivial⟩
  unfold newOb
  repeat' split
  · exact h
  · exact h
  · exact h.setVar fun x hx => by cases hx; exact ⟨ha, trivial⟩

theorem dropOb_lodge (v : Obj) : Lodge π (fun _ => True) (dropOb v) :=
  ⟨(fun s h => h.setVar fun x hx => by cases hx), fun _ _ _ _ => trivial⟩

theorem noexcept_lodge {P : β → Prop} {x : M β} (h : Lodge π P x) : Lodge π P (noexcept x) := by
  refine h.handle (fun r => match r with
      | .error (.throw _) => M.fail (.throw "terminate")
      | .error e => M.fail e
      | .ok b => Pure.pure b)
    (fun s => ?_) fun r hr => ?_
  · unfold noexcept
    rcases x s with ⟨r, s1⟩
    cases r with
    | ok b => rfl
    | error e => cases e <;> rfl
  rcases r with e | b
  · cases e <;> exact Lodge.fail _
  · exact Lodge.pure (hr b rfl)

theorem noexceptIf_lodge {P : β → Prop} (c : Bool) {x : M β} (h : Lodge π P x) : Lodge π P (noexceptIf c x) := by
  unfold noexceptIf
  cases c
  · exact h
  · exact noexcept_lodge h

theorem assert_lodge (c : Bool) (msg : String) : Lodge π (fun _ => True) (assert cfg c msg) := by
  unfold assert
  lodge

theorem doIf_lodge (c : Bool) {x : M Unit} (h : Lodge π (fun _ => True) x) : Lodge π (fun _ => True) (doIf c x) := by
  unfold doIf
  lodge

theorem decrementRefs_lodge (al : Nat) (b : Nat) : Lodge π (fun _ => True) (decrementRefs cfg al b) := by
  unfold decrementRefs
  lodge

theorem incrementRefs_lodge (b : Nat) : Lodge π (fun _ => True) (incrementRefs b) := by
  unfold incrementRefs
  lodge

theorem podFill_lodge (p : Ptr) (n : Nat) (c : Ch) :
    Lodge π (fun _ => True) (podFill p n c) := by
  unfold podFill
  lodge

theorem podCopy_lodge (p : Ptr) (n : Nat) (q : Ptr) :
    Lodge π (fun _ => True) (podCopy cfg p n q) := by
  unfold podCopy
  lodge

theorem podMove_lodge (p : Ptr) (n : Nat) (q : Ptr) :
    Lodge π (fun _ => True) (podMove p n q) := by
  unfold podMove
  lodge

theorem largeBytes_lodge (size : Nat) :
    Lodge π (fun _ => True) (largeBytes cfg size) := by
  unfold largeBytes
  lodge

theorem create_lodge {al : Nat} (ha : al = π.a) (size : Nat) :
    Lodge π (fun r => π.F r.1 = π.a) (create cfg al size) := by
  unfold create
  lodge

theorem copyBlk_lodge (a : Nat) (b : Nat) (k : Nat) :
    Lodge π (fun _ => True) (copyBlk a b k) := by
  unfold copyBlk
  lodge

theorem smartRealloc_lodge {al : Nat} (ha : al = π.a) {a : Nat} (ha : π.F a = π.a) (hdr : Bool) (cur : Nat) (cap : Nat) (new : Nat) :
    Lodge π (fun b => π.F b = π.a) (smartRealloc cfg al a hdr cur cap new) := by
  unfold smartRealloc
  lodge

theorem constructing_lodge (v : Obj) {body : M Unit} (h : Lodge π (fun _ => True) body) :
    Lodge π (fun _ => True) (constructing v body) := by
  refine h.handle (fun r => match r with
      | .error (.throw w) => (do dropOb v; M.fail (.throw w) : M Unit)
      | .error e => M.fail e
      | .ok b => Pure.pure b)
    (fun s => ?_) fun r _ => ?_
  · unfold constructing
    rcases body s with ⟨r, s1⟩
    cases r with
    | ok b => rfl
    | error e => cases e <;> rfl
  rcases r with e | b
  · cases e with
    | throw w => exact Lodge.bind (dropOb_lodge _) fun _ _ => Lodge.fail _
    | ub _ => exact Lodge.fail _
    | assertFail _ => exact Lodge.fail _
  · exact Lodge.pure trivial

theorem construct_lodge (v : Obj) {al : Nat} (ha : al = π.A v) {body : M Unit} (h : Lodge π (fun _ => True) body) :
    Lodge π (fun _ => True) (construct cfg v al body) := by
  unfold construct
  lodge

theorem size_lodge (v : Obj) :
    Lodge π (fun _ => True) (size cfg v) := by
  unfold size
  lodge

theorem capacity_lodge (v : Obj) :
    Lodge π (fun _ => True) (capacity cfg v) := by
  unfold capacity
  lodge

theorem dataPtr_lodge (v : Obj) :
    Lodge π (fun _ => True) (dataPtr v) := by
  unfold dataPtr
  lodge

theorem isShared_lodge (v : Obj) :
    Lodge π (fun _ => True) (isShared v) := by
  unfold isShared
  lodge

theorem setSmallSize_lodge (v : Obj) (n : Nat) :
    Lodge π (fun _ => True) (setSmallSize cfg v n) := by
  unfold setSmallSize
  lodge

theorem release_lodge (v : Obj) :
    Lodge π (fun _ => True) (release cfg v) := by
  unfold release
  lodge

theorem destroy_lodge (v : Obj) :
    Lodge π (fun _ => True) (destroy cfg v) := by
  unfold destroy
  lodge

theorem withTemp_lodge (t : Obj) {body : M β} {P : β → Prop} (h : Lodge π P body) :
    Lodge π P (withTemp cfg t body) := by
  refine h.handle (fun r => match r with
      | .ok b => (do destroy cfg t; Pure.pure b : M β)
      | .error (.throw w) => (do destroy cfg t; M.fail (.throw w) : M β)
      | .error e => M.fail e)
    (fun s => ?_) fun r hr => ?_
  · unfold withTemp
    rcases body s with ⟨r, s1⟩
    cases r with
    | ok b =>
      simp only [bind_apply]
      rcases destroy cfg t s1 with ⟨r, s2⟩
      cases r <;> rfl
    | error e =>
      cases e with
      | ub _ => rfl
      | assertFail _ => rfl
      | throw w =>
        simp only [bind_apply]
        rcases destroy cfg t s1 with ⟨r, s2⟩
        cases r <;> rfl
  rcases r with e | b
  · cases e with
    | throw w => exact Lodge.bind (destroy_lodge _) fun _ _ => Lodge.fail _
    | ub _ => exact Lodge.fail _
    | assertFail _ => exact Lodge.fail _
  · exact Lodge.bind (destroy_lodge _) fun _ _ => Lodge.pure (hr b rfl)

theorem swap_lodge {u : Obj} (hu : π.A u = π.a) {v : Obj} (hv : π.A v = π.a) :
    Lodge π (fun _ => True) (swap u v) := by
  unfold swap
  lodge

theorem initEmpty_lodge (v : Obj) :
    Lodge π (fun _ => True) (initEmpty cfg v) := by
  unfold initEmpty
  lodge

theorem initSmall_lodge (v : Obj) (p : Ptr) (n : Nat) :
    Lodge π (fun _ => True) (initSmall cfg v p n) := by
  unfold initSmall
  lodge

theorem initMedium_lodge {v : Obj} (hv : π.A v = π.a) {al : Nat} (ha : al = π.a) (p : Ptr) (n : Nat) :
    Lodge π (fun _ => True) (initMedium cfg v al p n) := by
  unfold initMedium
  lodge

theorem initLarge_lodge {v : Obj} (hv : π.A v = π.a) {al : Nat} (ha : al = π.a) (p : Ptr) (n : Nat) :
    Lodge π (fun _ => True) (initLarge cfg v al p n) := by
  unfold initLarge
  lodge

theorem initData_lodge {v : Obj} (hv : π.A v = π.a) {al : Nat} (ha : al = π.a) (p : Ptr) (n : Nat) :
    Lodge π (fun _ => True) (initData cfg v al p n) := by
  unfold initData
  lodge

theorem initCheck_lodge (v : Obj) (p : Ptr) (n : Nat) :
    Lodge π (fun _ => True) (initCheck cfg v p n) := by
  unfold initCheck
  lodge

theorem ctorData_lodge {v : Obj} (hv : π.A v = π.a) {al : Nat} (ha : al = π.a) (p : Ptr) (n : Nat) :
    Lodge π (fun _ => True) (ctorData cfg v al p n) := by
  unfold ctorData
  lodge

theorem ctorEmpty_lodge (v : Obj) {al : Nat} (ha : al = π.A v) :
    Lodge π (fun _ => True) (ctorEmpty cfg v al) := by
  unfold ctorEmpty
  lodge

theorem ctorMove_lodge {v : Obj} (hv : π.A v = π.a) {u : Obj} (hu : π.A u = π.a) :
    Lodge π (fun _ => True) (ctorMove cfg v u) := by
  unfold ctorMove
  lodge

theorem blockOf_lodge {v : Obj} (hv : π.A v = π.a) :
    Lodge π (fun b => π.F b = π.a) (blockOf v) := by
  unfold blockOf
  lodge

theorem reserveSmall_lodge {v : Obj} (hv : π.A v = π.a) (n : Nat) :
    Lodge π (fun _ => True) (reserveSmall cfg v n) := by
  unfold reserveSmall
  lodge

theorem unshare_lodge {v : Obj} (hv : π.A v = π.a) (n : Nat) :
    Lodge π (fun _ => True) (unshare cfg v n) := by
  unfold unshare
  lodge

theorem reallocate_lodge {al : Nat} (ha : al = π.a) {d : Nat} (hd : π.F d = π.a) (size : Nat) (cap : Nat) (n : Nat) :
    Lodge π (fun r => π.F r.1 = π.a) (reallocate cfg al d size cap n) := by
  unfold reallocate
  lodge

theorem reserveLarge_lodge {v : Obj} (hv : π.A v = π.a) (n : Nat) :
    Lodge π (fun _ => True) (reserveLarge cfg v n) := by
  unfold reserveLarge
  lodge

theorem growNascent_lodge {t : Obj} (ht : π.A t = π.a) {v : Obj} (hv : π.A v = π.a) (d : Nat) (k : Nat) (n : Nat) :
    Lodge π (fun _ => True) (growNascent cfg t v d k n) := by
  unfold growNascent
  lodge

theorem reserveMedium_lodge {v : Obj} (hv : π.A v = π.a) (n : Nat) :
    Lodge π (fun _ => True) (reserveMedium cfg v n) := by
  unfold reserveMedium
  lodge

theorem reserveBy_lodge {v : Obj} (hv : π.A v = π.a) (n : Nat) :
    Lodge π (fun _ => True) (reserveBy cfg v n) := by
  unfold reserveBy
  lodge

theorem reserveCore_lodge {v : Obj} (hv : π.A v = π.a) (n : Nat) :
    Lodge π (fun _ => True) (reserveCore cfg v n) := by
  unfold reserveCore
  lodge

theorem expandTail_lodge {v : Obj} (hv : π.A v = π.a) (old : Nat) (new : Nat) :
    Lodge π (fun _ => True) (expandTail cfg v old new) := by
  unfold expandTail
  lodge

theorem expandNoinit_lodge {v : Obj} (hv : π.A v = π.a) (delta : Nat) (exp : Bool) :
    Lodge π (fun _ => True) (expandNoinit cfg v delta exp) := by
  unfold expandNoinit
  lodge

theorem shrinkSmall_lodge (v : Obj) (delta : Nat) :
    Lodge π (fun _ => True) (shrinkSmall cfg v delta) := by
  unfold shrinkSmall
  lodge

theorem shrinkMedium_lodge {v : Obj} (hv : π.A v = π.a) {d : Nat} (hd : π.F d = π.a) (k : Nat) (cap : Nat) (large : Bool) (delta : Nat) :
    Lodge π (fun _ => True) (shrinkMedium cfg v d k cap large delta) := by
  unfold shrinkMedium
  lodge

theorem shrinkLarge_lodge {v : Obj} (hv : π.A v = π.a) {al : Nat} (ha : al = π.a) (d : Nat) (k : Nat) (delta : Nat) :
    Lodge π (fun _ => True) (shrinkLarge cfg v al d k delta) := by
  unfold shrinkLarge
  lodge

theorem shrink_lodge {v : Obj} (hv : π.A v = π.a) (delta : Nat) :
    Lodge π (fun _ => True) (shrink cfg v delta) := by
  unfold shrink
  lodge

theorem copyMedium_lodge {v : Obj} (hv : π.A v = π.a) {al : Nat} (ha : al = π.a) (d n : Nat) :
    Lodge π (fun _ => True) (copyMedium cfg v al d n) := by
  unfold copyMedium
  lodge

theorem copyCore_lodge {v : Obj} (hv : π.A v = π.a) {r : Ob} (hr : r.al = π.a) (hr' : r.core.lodged π.F π.a) :
    Lodge π (fun _ => True) (copyCore cfg v r) := by
  unfold copyCore
  lodge

theorem copyCheck_lodge (v u : Obj) : Lodge π (fun _ => True) (copyCheck cfg v u) := by
  unfold copyCheck
  lodge

theorem ctorCopy_lodge {v u : Obj} (hv : π.A v = π.a) (hu : π.A u = π.a) :
    Lodge π (fun _ => True) (ctorCopy cfg v u) := by
  unfold ctorCopy
  lodge

theorem mutableData_lodge {v : Obj} (hv : π.A v = π.a) : Lodge π (fun _ => True) (mutableData cfg v) := by
  unfold mutableData
  lodge

theorem begin__lodge {v : Obj} (hv : π.A v = π.a) : Lodge π (fun _ => True) (begin_ cfg v) := by
  unfold begin_
  lodge

theorem pushBack_lodge {v : Obj} (hv : π.A v = π.a) (c : Ch) :
    Lodge π (fun _ => True) (pushBack cfg v c) := by
  unfold pushBack
  lodge

theorem sane_lodge (v : Obj) :
    Lodge π (fun _ => True) (sane cfg v) := by
  unfold sane
  lodge

theorem checking_lodge (v : Obj) {body : M β} {P : β → Prop} (h : Lodge π P body) :
    Lodge π P (checking cfg v body) := by
  refine h.handle (fun r => match r with
      | .ok b => (do sane cfg v; Pure.pure b : M β)
      | .error (.throw w) => (do sane cfg v; M.fail (.throw w) : M β)
      | .error e => M.fail e)
    (fun s => ?_) fun r hr => ?_
  · unfold checking
    rcases body s with ⟨r, s1⟩
    cases r with
    | ok b =>
      simp only [bind_apply]
      rcases sane cfg v s1 with ⟨r, s2⟩
      cases r <;> rfl
    | error e =>
      cases e with
      | ub _ => rfl
      | assertFail _ => rfl
      | throw w =>
        simp only [bind_apply]
        rcases sane cfg v s1 with ⟨r, s2⟩
        cases r <;> rfl
  rcases r with e | b
  · cases e with
    | throw w => exact Lodge.bind (sane_lodge _) fun _ _ => Lodge.fail _
    | ub _ => exact Lodge.fail _
    | assertFail _ => exact Lodge.fail _
  · exact Lodge.bind (sane_lodge _) fun _ _ => Lodge.pure (hr b rfl)

theorem checker_lodge (v : Obj) {body : M β} {P : β → Prop} (h : Lodge π P body) :
    Lodge π P (checker cfg v body) := by
  unfold checker
  lodge

theorem enforce_lodge (c : Bool) :
    Lodge π (fun _ => True) (enforce c) := by
  unfold enforce
  lodge

theorem ctorFill_lodge {v : Obj} (hv : π.A v = π.a) {al : Nat} (ha : al = π.a) (n : Nat) (c : Ch) :
    Lodge π (fun _ => True) (ctorFill cfg v al n c) := by
  unfold ctorFill
  lodge

theorem resize_lodge {v : Obj} (hv : π.A v = π.a) (n : Nat) (c : Ch) :
    Lodge π (fun _ => True) (resize cfg v n c) := by
  unfold resize
  lodge

theorem appendCopy_lodge (v : Obj) (p : Ptr) (n : Nat) (q : Ptr) (old : Nat) (r : Ptr) :
    Lodge π (fun _ => True) (appendCopy cfg v p n q old r) := by
  unfold appendCopy
  lodge

theorem append_lodge {v : Obj} (hv : π.A v = π.a) (p : Ptr) (n : Nat) :
    Lodge π (fun _ => True) (append cfg v p n) := by
  unfold append
  lodge

theorem appendFill_lodge {v : Obj} (hv : π.A v = π.a) (n : Nat) (c : Ch) :
    Lodge π (fun _ => True) (appendFill cfg v n c) := by
  unfold appendFill
  lodge

theorem appendStr_lodge {v : Obj} (hv : π.A v = π.a) (u : Obj) :
    Lodge π (fun _ => True) (appendStr cfg v u) := by
  unfold appendStr
  lodge

theorem assignBy_lodge {v : Obj} (hv : π.A v = π.a) (p : Ptr) (n : Nat) (k : Nat) :
    Lodge π (fun _ => True) (assignBy cfg v p n k) := by
  unfold assignBy
  lodge

theorem assign_lodge {v : Obj} (hv : π.A v = π.a) (p : Ptr) (n : Nat) :
    Lodge π (fun _ => True) (assign cfg v p n) := by
  unfold assign
  lodge

theorem assignStr_lodge {v : Obj} (hv : π.A v = π.a) (u : Obj) :
    Lodge π (fun _ => True) (assignStr cfg v u) := by
  unfold assignStr
  lodge

theorem setFront_lodge {v : Obj} (hv : π.A v = π.a) (c : Ch) :
    Lodge π (fun _ => True) (setFront cfg v c) := by
  unfold setFront
  lodge

theorem assignChar_lodge {v : Obj} (hv : π.A v = π.a) (h0 : π.a = 0) (c : Ch) :
    Lodge π (fun _ => True) (assignChar cfg v c) := by
  unfold assignChar
  lodge

theorem reserve_lodge {v : Obj} (hv : π.A v = π.a) (n : Nat) :
    Lodge π (fun _ => True) (reserve cfg v n) := by
  unfold reserve
  lodge

theorem shrinkToFit_lodge {v : Obj} (hv : π.A v = π.a) (h0 : cfg.arena = false → π.a = 0) :
    Lodge π (fun _ => True) (shrinkToFit cfg v) := by
  unfold shrinkToFit
  split
  · lodge
  · have h1 := (h0 (by simp_all)).symm
    lodge

theorem clear_lodge {v : Obj} (hv : π.A v = π.a) :
    Lodge π (fun _ => True) (clear cfg v) := by
  unfold clear
  lodge

theorem setAt_lodge {v : Obj} (hv : π.A v = π.a) (i : Nat) (c : Ch) :
    Lodge π (fun _ => True) (setAt cfg v i c) := by
  unfold setAt
  lodge

theorem readChar_lodge (p : Ptr) :
    Lodge π (fun _ => True) (readChar p) := by
  unfold readChar
  lodge

theorem getAt_lodge (v : Obj) (i : Nat) :
    Lodge π (fun _ => True) (getAt v i) := by
  unfold getAt
  lodge

theorem atConst_lodge (v : Obj) (i : Nat) :
    Lodge π (fun _ => True) (atConst cfg v i) := by
  unfold atConst
  lodge

theorem setAtChecked_lodge {v : Obj} (hv : π.A v = π.a) (i : Nat) (c : Ch) :
    Lodge π (fun _ => True) (setAtChecked cfg v i c) := by
  unfold setAtChecked
  lodge

theorem copyOut_lodge (v : Obj) (n : Nat) (pos : Nat) :
    Lodge π (fun _ => True) (copyOut cfg v n pos) := by
  unfold copyOut
  lodge

theorem posOf_lodge (v : Obj) (i : Ptr) :
    Lodge π (fun _ => True) (posOf cfg v i) := by
  unfold posOf
  lodge

theorem insertFillAt_lodge {v : Obj} (hv : π.A v = π.a) (i : Ptr) (n : Nat) (c : Ch) :
    Lodge π (fun _ => True) (insertFillAt cfg v i n c) := by
  unfold insertFillAt
  lodge

theorem insertRangeAt_lodge {v : Obj} (hv : π.A v = π.a) (i : Ptr) (p : Ptr) (n : Nat) :
    Lodge π (fun _ => True) (insertRangeAt cfg v i p n) := by
  unfold insertRangeAt
  lodge

theorem insertFill_lodge {v : Obj} (hv : π.A v = π.a) (pos : Nat) (n : Nat) (c : Ch) :
    Lodge π (fun _ => True) (insertFill cfg v pos n c) := by
  unfold insertFill
  lodge

theorem insert_lodge {v : Obj} (hv : π.A v = π.a) (pos : Nat) (p : Ptr) (n : Nat) :
    Lodge π (fun _ => True) (insert cfg v pos p n) := by
  unfold insert
  lodge

theorem appendRange_lodge {v : Obj} (hv : π.A v = π.a) (p : Ptr) (n : Nat) :
    Lodge π (fun _ => True) (appendRange cfg v p n) := by
  unfold appendRange
  lodge

theorem erase_lodge {v : Obj} (hv : π.A v = π.a) (pos : Nat) (n : Nat) :
    Lodge π (fun _ => True) (erase cfg v pos n) := by
  unfold erase
  lodge

theorem eraseAt_lodge {v : Obj} (hv : π.A v = π.a) (i : Ptr) (n : Nat) :
    Lodge π (fun _ => True) (eraseAt cfg v i n) := by
  unfold eraseAt
  lodge

theorem replaceCopy_lodge {v : Obj} (hv : π.A v = π.a) {t : Obj} (ht : π.A t = π.a) (d : Ptr) (k : Nat) (pos : Nat) (n1 : Nat) (p : Ptr) (n2 : Nat) :
    Lodge π (fun _ => True) (replaceCopy cfg v t d k pos n1 p n2) := by
  unfold replaceCopy
  lodge

theorem replaceImpl_lodge {v : Obj} (hv : π.A v = π.a) (h0 : π.a = 0) (i1 : Ptr) (pos : Nat) (n1 : Nat) (p : Ptr) (n2 : Nat) :
    Lodge π (fun _ => True) (replaceImpl cfg v i1 pos n1 p n2) := by
  unfold replaceImpl
  lodge

theorem replaceCheck_lodge {v : Obj} (hv : π.A v = π.a) (i1 : Ptr) (n1 : Nat) :
    Lodge π (fun _ => True) (replaceCheck cfg v i1 n1) := by
  unfold replaceCheck
  lodge

theorem replace_lodge {v : Obj} (hv : π.A v = π.a) (h0 : π.a = 0) (pos : Nat) (n1 : Nat) (p : Ptr) (n2 : Nat) :
    Lodge π (fun _ => True) (replace cfg v pos n1 p n2) := by
  unfold replace
  lodge

theorem replaceFillAt_lodge {v : Obj} (hv : π.A v = π.a) (i1 : Ptr) (n1 : Nat) (n2 : Nat) (c : Ch) :
    Lodge π (fun _ => True) (replaceFillAt cfg v i1 n1 n2 c) := by
  unfold replaceFillAt
  lodge

theorem replaceFill_lodge {v : Obj} (hv : π.A v = π.a) (pos : Nat) (n1 : Nat) (n2 : Nat) (c : Ch) :
    Lodge π (fun _ => True) (replaceFill cfg v pos n1 n2 c) := by
  unfold replaceFill
  lodge

theorem assignFill_lodge {v : Obj} (hv : π.A v = π.a) (n : Nat) (c : Ch) :
    Lodge π (fun _ => True) (assignFill cfg v n c) := by
  unfold assignFill
  lodge

theorem building_lodge (v : Obj) {body : M Unit} (h : Lodge π (fun _ => True) body) :
    Lodge π (fun _ => True) (building cfg v body) := by
  refine h.handle (fun r => match r with
      | .error (.throw w) => (do destroy cfg v; M.fail (.throw w) : M Unit)
      | .error e => M.fail e
      | .ok b => Pure.pure b)
    (fun s => ?_) fun r _ => ?_
  · unfold building
    rcases body s with ⟨r, s1⟩
    cases r with
    | ok b => rfl
    | error e =>
      cases e with
      | ub _ => rfl
      | assertFail _ => rfl
      | throw w =>
        simp only [bind_apply]
        rcases destroy cfg v s1 with ⟨r, s2⟩
        cases r <;> rfl
  rcases r with e | b
  · cases e with
    | throw w => exact Lodge.bind (destroy_lodge _) fun _ _ => Lodge.fail _
    | ub _ => exact Lodge.fail _
    | assertFail _ => exact Lodge.fail _
  · exact Lodge.pure trivial

theorem substr_lodge {v : Obj} (hv : π.A v = π.a) {u : Obj} (hu : π.A u = π.a) (pos : Nat) (n : Nat) :
    Lodge π (fun _ => True) (substr cfg v u pos n) := by
  unfold substr
  lodge

theorem substrMove_lodge {v : Obj} (hv : π.A v = π.a) {u : Obj} (hu : π.A u = π.a) (pos : Nat) (n : Nat) :
    Lodge π (fun _ => True) (substrMove cfg v u pos n) := by
  unfold substrMove
  lodge

theorem concat_lodge {v : Obj} (hv : π.A v = π.a) {u1 : Obj} (hu : π.A u1 = π.a) (u2 : Obj) :
    Lodge π (fun _ => True) (concat cfg v u1 u2) := by
  unfold concat
  lodge

theorem addPart_lodge {v : Obj} (hv : π.A v = π.a) (u : Obj) (q : Part) :
    Lodge π (fun _ => True) (addPart cfg v u q) := by
  unfold addPart
  lodge

theorem addParts_lodge {v : Obj} (hv : π.A v = π.a) (u : Obj) (q1 : Part) (q2 : Part) :
    Lodge π (fun _ => True) (addParts cfg v u q1 q2) := by
  unfold addParts
  lodge

theorem partSize_lodge (u : Obj) (q : Part) :
    Lodge π (fun _ => True) (partSize cfg u q) := by
  unfold partSize
  lodge

theorem plusNew_lodge {v : Obj} (hv : π.A v = π.a) {u : Obj} (hu : π.A u = π.a) (q1 : Part) (q2 : Part) :
    Lodge π (fun _ => True) (plusNew cfg v u q1 q2) := by
  unfold plusNew
  lodge

theorem IStream.setstate_lodge (is : IStream) (e : Bool) (f : Bool) :
    Lodge π (fun _ => True) (is.setstate e f) := by
  unfold IStream.setstate
  lodge

theorem lineEnd_lodge (is : IStream) (delim : Ch) (k : Nat) (rest : List Ch) :
    Lodge π (fun _ => True) (lineEnd is delim k rest) := by
  unfold lineEnd
  lodge

theorem streamGetline_lodge (is : IStream) (p : Ptr) (n : Nat) (delim : Ch) :
    Lodge π (fun _ => True) (streamGetline is p n delim) := by
  unfold streamGetline
  lodge

theorem getlineLoop_lodge {v : Obj} (hv : π.A v = π.a) (delim : Ch) :
    ∀ (fuel : Nat) (is : IStream) (n : Nat), Lodge π (fun _ => True) (getlineLoop cfg v delim fuel is n)
  | 0, _, _ => Lodge.ub _
  | fuel + 1, is, n => by
    have ih := getlineLoop_lodge hv delim fuel
    unfold getlineLoop
    lodge

theorem getline_lodge {v : Obj} (hv : π.A v = π.a) (is : IStream) (delim : Ch) :
    Lodge π (fun _ => True) (getline cfg v is delim) := by
  unfold getline
  lodge

theorem ctypeSpace_lodge (c : Ch) :
    Lodge π (fun _ => True) (ctypeSpace c) := by
  unfold ctypeSpace
  lodge

theorem sentry_lodge (is : IStream) :
    Lodge π (fun _ => True) (sentry is) := by
  unfold sentry
  lodge

theorem extractLoop_lodge {v : Obj} (hv : π.A v = π.a) (is : IStream) :
    ∀ (inp : List Ch) (room k : Nat), Lodge π (fun _ => True) (extractLoop cfg v is room inp k)
  | [], room, k => by
    unfold extractLoop
    lodge
  | c :: t, room, k => by
    have ih := extractLoop_lodge hv is t
    unfold extractLoop
    lodge

theorem extractEnd_lodge (is : IStream) (k : Nat) (eof : Bool) :
    Lodge π (fun _ => True) (extractEnd is k eof) := by
  unfold extractEnd
  lodge

theorem extract_lodge {v : Obj} (hv : π.A v = π.a) (is : IStream) :
    Lodge π (fun _ => True) (extract cfg v is) := by
  unfold extract
  lodge

/-! ### Operations -/

theorem Src.resolve_lodge (src : Src) : Lodge π (fun _ => True) src.resolve := by
  cases src with
  | lit xs => exact Lodge.pure trivial
  | sub u i n =>
    unfold Src.resolve
    refine Lodge.bind (P := fun _ => True) ?_ fun p hp => Lodge.pure trivial
    exact Lodge.bind (getOb_lodge _) fun o ho => Lodge.pure trivial


theorem clone_lodge {v u : Obj} (hv : π.A v = π.a) (hu : π.A u = π.a) : Lodge π (fun _ => True) (clone cfg v u) := by
  unfold clone
  lodge

theorem popBack_lodge {v : Obj} (hv : π.A v = π.a) : Lodge π (fun _ => True) (popBack cfg v) := by
  unfold popBack
  lodge

end Verif.Str
