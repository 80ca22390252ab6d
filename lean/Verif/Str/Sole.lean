import Verif.Str.Local

/-!
Strings that share their buffer with no other string, as an invariant of what happens to them: `Sole V N P x` says
that the objects in `V` keep to blocks outside of `N`, which nobody shares, and that `x` does not end the program by
an exception leaving a `noexcept` function.
-/

namespace Verif.Str

open M

variable {β γ : Type} {cfg : Cfg} {V : Obj → Prop} {N : Nat → Prop}

/-- The objects in `V` use blocks outside of `N` only; new blocks are outside of `N`; blocks outside of `N` have one user
at most. -/
structure Only (V : Obj → Prop) (N : Nat → Prop) (s : St) : Prop where
  vars : ∀ o ob, V o → s.vars o = some ob → ob.core.off N
  fresh : ∀ b, N b → b < s.next
  rc : ∀ b B, ¬ N b → s.heap b = some B → B.rc.getD 1 ≤ 1

/-- `x` keeps to this, its result satisfies `P`, and it does not end the program. -/
structure Sole (V : Obj → Prop) (N : Nat → Prop) (P : β → Prop) (x : M β) : Prop where
  keeps : ∀ s, Only V N s → Only V N (x s).2
  result : ∀ s, Only V N s → ∀ b, (x s).1 = .ok b → P b
  safe : ∀ s, Only V N s → (x s).1 ≠ .error (.throw "terminate")

/-- An action that leaves the memory as it is. -/
theorem Sole.still {P : β → Prop} {x : M β} (h1 : ∀ s, (x s).2 = s) (h2 : ∀ s, Only V N s → ∀ b, (x s).1 = .ok b → P b)
    (h3 : ∀ s, (x s).1 ≠ .error (.throw "terminate")) : Sole V N P x :=
  ⟨fun s h => by rw [h1]; exact h, h2, fun s _ => h3 s⟩

theorem Sole.pure {P : β → Prop} {b : β} (h : P b) : Sole V N P (pure b : M β) :=
  Sole.still (fun _ => rfl) (fun _ _ b' h' => by cases h'; exact h) fun _ h => by cases h

theorem Sole.fail {P : β → Prop} {e : Fault} (h : e ≠ .throw "terminate") : Sole V N P (M.fail e : M β) :=
  Sole.still (fun _ => rfl) (fun _ _ _ h' => by cases h') fun _ h' => by cases h'; exact h rfl

theorem Sole.ub {P : β → Prop} (w : String) : Sole V N P (M.ub w : M β) := Sole.fail (by simp)

theorem Sole.raise {P : β → Prop} {w : String} (h : w ≠ "terminate") : Sole V N P (M.raise w : M β) :=
  Sole.fail fun e => h (by cases e; rfl)

/-- An action and what follows its result or fault. -/
theorem Sole.handle {P : β → Prop} {Q : γ → Prop} {x : M β} {y : M γ} (hx : Sole V N P x) (h : Except Fault β → M γ)
    (e : ∀ s, y s = h (x s).1 (x s).2)
    (hh : ∀ r, (∀ b, r = .ok b → P b) → r ≠ .error (.throw "terminate") → Sole V N Q (h r)) : Sole V N Q y := by
  have e : y = fun s => h (x s).1 (x s).2 := funext e
  subst e
  constructor
  · intro s hs
    exact (hh _ (hx.result s hs) (hx.safe s hs)).keeps _ (hx.keeps s hs)
  · intro s hs
    exact (hh _ (hx.result s hs) (hx.safe s hs)).result _ (hx.keeps s hs)
  · intro s hs
    exact (hh _ (hx.result s hs) (hx.safe s hs)).safe _ (hx.keeps s hs)

theorem Sole.bind {P : β → Prop} {Q : γ → Prop} {x : M β} {f : β → M γ} (hx : Sole V N P x)
    (hf : ∀ b, P b → Sole V N Q (f b)) : Sole V N Q (x >>= f) := by
  refine hx.handle (fun r => match r with
      | .ok b => f b
      | .error e => M.fail e)
    (fun s => ?_) fun r hr hn => ?_
  · rw [bind_apply]
    rcases x s with ⟨r, s1⟩
    cases r <;> rfl
  cases r with
  | ok b => exact hf b (hr b rfl)
  | error e => exact Sole.fail (fun h => hn (congrArg Except.error h))

theorem Sole.ite {P : β → Prop} {c : Prop} [Decidable c] {x y : M β} (hx : Sole V N P x) (hy : Sole V N P y) :
    Sole V N P (if c then x else y) := by
  split
  · exact hx
  · exact hy

theorem Sole.weaken {P : β → Prop} {x : M β} (hx : Sole V N P x) : Sole V N (fun _ => True) x :=
  ⟨hx.keeps, fun _ _ _ _ => trivial, hx.safe⟩

/-- What the lemmas ask of their arguments. -/
macro "solo_side" : tactic => `(tactic| first
  | with_reducible assumption
  | with_reducible exact trivial
  | with_reducible exact Mine.tmp _
  | (simp_all [Core.off]; done))

open Lean Elab Tactic Meta in
/-- Apply the lemma about the action at hand: for `f` it is `f_sole`. -/
elab "solo_lemma" : tactic => withMainContext do
  let g ← getMainGoal
  let t := (← instantiateMVars (← g.getType)).consumeMData
  unless t.isAppOf ``Sole do throwError "not Sole"
  let .const c _ := t.appArg!.consumeMData.getAppFn | throwError "no lemma"
  let n : Name := match c with
    | ``Bind.bind => ``Sole.bind
    | ``ite => ``Sole.ite
    | ``M.fail => ``Sole.fail
    | ``M.ub => ``Sole.ub
    | ``M.raise => ``Sole.raise
    | _ => c.appendAfter "_sole"
  unless (← getEnv).contains n do throwError "no lemma"
  let e ← mkConstWithFreshMVarLevels n
  let gs ← try g.apply e catch _ =>
    let [g'] ← g.apply (← mkConstWithFreshMVarLevels ``Sole.weaken) {newGoals := .nonDependentOnly} | throwError "weaken"
    g'.apply e
  replaceMainGoal gs

/-- Split an action into its parts. -/
macro "solo" : tactic => `(tactic| repeat' first
  | solo_lemma
  | with_reducible exact Sole.pure (P := fun _ => True) trivial
  | with_reducible refine Sole.pure ?_
  | (intro _ _; with_reducible refine (?_ : Sole _ _ _ _))
  | split
  | extract_lets
  | solo_side)

/-! ### Memory -/

theorem readCells_sole (p : Ptr) (n : Nat) : Sole V N (fun _ => True) (readCells p n) := by
  refine Sole.still (fun s => ?_) (fun _ _ _ _ => trivial) fun s => ?_
  all_goals
    unfold readCells
    repeat' split
    all_goals simp

theorem room_sole (p : Ptr) : Sole V N (fun _ => True) (room p) := by
  refine Sole.still (fun s => ?_) (fun _ _ _ _ => trivial) fun s => ?_
  all_goals
    unfold room
    repeat' split
    all_goals simp

/-- A change of one block that leaves its number of users at one. -/
theorem Only.setHeap {s : St} (h : Only V N s) {b : Nat} {B : Option Blk} (hB : ∀ C, ¬ N b → B = some C → C.rc.getD 1 ≤ 1) :
    Only V N { s with heap := upd s.heap b B } := by
  refine ⟨h.vars, h.fresh, fun i C hi hC => ?_⟩
  simp only [upd] at hC
  split at hC
  · rename_i e
    exact hB C (e ▸ hi) hC
  · exact h.rc i C hi hC

theorem Only.setVar {s : St} (h : Only V N s) {o : Obj} {ob : Option Ob} (hc : ∀ x, V o → ob = some x → x.core.off N) :
    Only V N { s with vars := upd s.vars o ob } := by
  refine ⟨fun i x hi hx => ?_, h.fresh, h.rc⟩
  simp only [upd] at hx
  split at hx
  · rename_i e
    exact hc x (e ▸ hi) hx
  · exact h.vars i x hi hx

theorem writeCells_sole (p : Ptr) (cs : List Cell) : Sole V N (fun _ => True) (writeCells p cs) := by
  refine ⟨fun s h => ?_, fun _ _ _ _ => trivial, fun s h => ?_⟩
  · unfold writeCells
    repeat' split
    any_goals exact h
    · rename_i B hB _
      exact h.setHeap fun C hb hC => by cases hC; exact h.rc _ B hb hB
    · exact h.setVar fun x _ hx => by cases hx; trivial
  · unfold writeCells
    repeat' split
    all_goals simp

theorem alloc_sole (al : Nat) (hdr : Bool) (bytes : Nat) : Sole V N (fun b => ¬ N b) (alloc cfg al hdr bytes) := by
  refine ⟨fun s h => ?_, fun s h b hb => ?_, fun s h => ?_⟩
  · unfold alloc
    split
    · exact h
    · split
      · have := h.setHeap (b := s.next) (B := some ⟨if hdr then some 1 else none, al, List.replicate ((bytes - hdrBytes hdr) / cfg.w) none⟩)
          fun C _ hC => by cases hC; cases hdr <;> simp
        exact ⟨this.vars, fun b hb => Nat.lt_succ_of_lt (h.fresh b hb), this.rc⟩
      · exact ⟨h.vars, fun b hb => Nat.lt_succ_of_lt (h.fresh b hb), h.rc⟩
  · unfold alloc at hb
    split at hb
    · cases hb
    · split at hb
      · cases hb
        exact fun hn => Nat.lt_irrefl _ (h.fresh _ hn)
      · cases hb
  · unfold alloc
    repeat' split
    all_goals simp

theorem dealloc_sole (al : Nat) (b : Nat) : Sole V N (fun _ => True) (dealloc cfg al b) := by
  refine ⟨fun s h => ?_, fun _ _ _ _ => trivial, fun s h => ?_⟩
  · unfold dealloc
    repeat' split
    any_goals exact h
    exact h.setHeap fun C _ hC => by cases hC
  · unfold dealloc
    repeat' split
    all_goals simp

theorem refs_sole (b : Nat) : Sole V N (fun n => ¬ N b → n ≤ 1) (refs b) := by
  refine Sole.still (fun s => ?_) (fun s h n hn hb => ?_) fun s => ?_
  · unfold refs
    split <;> rfl
  · unfold refs at hn
    split at hn
    · rename_i hB
      cases hn
      exact h.rc _ _ hb hB
    · cases hn
  · unfold refs
    split <;> simp

theorem setRefs_sole (b n : Nat) (hn : ¬ N b → n ≤ 1) : Sole V N (fun _ => True) (setRefs b n) := by
  refine ⟨fun s h => ?_, fun _ _ _ _ => trivial, fun s h => ?_⟩
  · unfold setRefs
    split
    · exact h.setHeap fun C hb hC => by cases hC; exact hn hb
    · exact h
  · unfold setRefs
    split <;> simp

theorem lengthError_sole {P : β → Prop} : Sole V N P (lengthError : M β) :=
  ⟨fun _ h => ⟨h.vars, h.fresh, h.rc⟩, (fun _ _ _ hb => by cases hb), fun _ _ => by simp [lengthError]⟩

theorem checkedRealloc_sole {a : Nat} (ha : ¬ N a) (hdr : Bool) (bytes : Nat) :
    Sole V N (fun b => ¬ N b) (checkedRealloc cfg a hdr bytes) := by
  refine ⟨fun s h => ?_, fun s h b hb => ?_, fun s h => ?_⟩
  · unfold checkedRealloc
    repeat' split
    · exact h
    · rename_i A hA _
      have h1 := h.setHeap (b := a) (B := none) fun C _ hC => by cases hC
      have h2 := h1.setHeap (b := s.next) (B := some ⟨A.rc, A.src,
          (A.cells.take ((bytes - hdrBytes hdr) / cfg.w)) ++ List.replicate ((bytes - hdrBytes hdr) / cfg.w - A.cells.length) none⟩)
        fun C _ hC => by cases hC; exact h.rc _ A ha hA
      exact ⟨h2.vars, fun b hb => Nat.lt_succ_of_lt (h.fresh b hb), h2.rc⟩
    · have h1 := h.setHeap (b := a) (B := none) fun C _ hC => by cases hC
      exact ⟨h1.vars, fun b hb => Nat.lt_succ_of_lt (h.fresh b hb), h1.rc⟩
  · unfold checkedRealloc at hb
    repeat' split at hb
    · cases hb
    · cases hb
      exact fun hn => Nat.lt_irrefl _ (h.fresh _ hn)
    · cases hb
  · unfold checkedRealloc
    repeat' split
    all_goals simp

theorem getOb_sole (v : Obj) : Sole V N (fun o => V v → o.core.off N) (getOb v) := by
  refine Sole.still (fun s => ?_) (fun s h o ho hv => ?_) fun s => ?_
  · unfold getOb
    split <;> rfl
  · unfold getOb at ho
    split at ho
    · rename_i hB
      cases ho
      exact h.vars _ _ hv hB
    · cases ho
  · unfold getOb
    split <;> simp

theorem setCore_sole {v : Obj} {c : Core} (hc : V v → c.off N) : Sole V N (fun _ => True) (setCore v c) := by
  refine ⟨fun s h => ?_, fun _ _ _ _ => trivial, fun s h => ?_⟩
  · unfold setCore
    split
    · exact h.setVar fun x hv hx => by cases hx; exact hc hv
    · exact h
  · unfold setCore
    split <;> simp

theorem newOb_sole (v : Obj) (al : Nat) : Sole V N (fun _ => True) (newOb cfg v al) := by
  refine ⟨fun s h => ?_, fun _ _ _ _ => trivial, fun s h => ?_⟩
  · unfold newOb
    repeat' split
    · exact h
    · exact h
    · exact h.setVar fun x hv hx => by cases hx; trivial
  · unfold newOb
    repeat' split
    all_goals simp

theorem dropOb_sole (v : Obj) : Sole V N (fun _ => True) (dropOb v) :=
  ⟨(fun s h => h.setVar fun x hv hx => by cases hx), fun _ _ _ _ => trivial, fun s h => by simp [dropOb]⟩

theorem assert_sole (c : Bool) (msg : String) : Sole V N (fun _ => True) (assert cfg c msg) := by
  unfold assert
  solo

theorem doIf_sole (c : Bool) {x : M Unit} (h : Sole V N (fun _ => True) x) : Sole V N (fun _ => True) (doIf c x) := by
  unfold doIf
  solo

theorem decrementRefs_sole (al : Nat) (b : Nat) : Sole V N (fun _ => True) (decrementRefs cfg al b) := by
  unfold decrementRefs
  refine Sole.bind (refs_sole b) fun r hr => Sole.bind (assert_sole _ _) fun _ _ => ?_
  split
  · exact Sole.ub _
  · exact Sole.bind (setRefs_sole b _ fun hb => Nat.le_trans (Nat.sub_le _ _) (hr hb)) fun _ _ => doIf_sole _ (dealloc_sole al b)

theorem podFill_sole [Mine V] (p : Ptr) (n : Nat) (c : Ch) :
    Sole V N (fun _ => True) (podFill p n c) := by
  unfold podFill
  solo

theorem podCopy_sole [Mine V] (p : Ptr) (n : Nat) (q : Ptr) :
    Sole V N (fun _ => True) (podCopy cfg p n q) := by
  unfold podCopy
  solo

theorem podMove_sole [Mine V] (p : Ptr) (n : Nat) (q : Ptr) :
    Sole V N (fun _ => True) (podMove p n q) := by
  unfold podMove
  solo

theorem largeBytes_sole (size : Nat) :
    Sole V N (fun _ => True) (largeBytes cfg size) := by
  unfold largeBytes
  solo

theorem create_sole [Mine V] (al : Nat) (size : Nat) :
    Sole V N (fun r => ¬ N r.1) (create cfg al size) := by
  unfold create
  solo

theorem copyBlk_sole [Mine V] (a : Nat) (b : Nat) (k : Nat) :
    Sole V N (fun _ => True) (copyBlk a b k) := by
  unfold copyBlk
  solo

theorem smartRealloc_sole [Mine V] (al : Nat) {a : Nat} (ha : ¬ N a) (hdr : Bool) (cur : Nat) (cap : Nat) (new : Nat) :
    Sole V N (fun b => ¬ N b) (smartRealloc cfg al a hdr cur cap new) := by
  unfold smartRealloc
  solo

theorem constructing_sole (v : Obj) {body : M Unit} (h : Sole V N (fun _ => True) body) :
    Sole V N (fun _ => True) (constructing v body) := by
  refine h.handle (fun r => match r with
      | .error (.throw w) => (do dropOb v; M.fail (.throw w) : M Unit)
      | .error e => M.fail e
      | .ok b => Pure.pure b)
    (fun s => ?_) fun r _ hn => ?_
  · unfold constructing
    rcases body s with ⟨r, s1⟩
    cases r with
    | ok b => rfl
    | error e => cases e <;> rfl
  rcases r with e | b
  · cases e with
    | throw w => exact Sole.bind (dropOb_sole _) fun _ _ => Sole.fail (fun h => hn (congrArg Except.error h))
    | ub _ => exact Sole.fail (by simp)
    | assertFail _ => exact Sole.fail (by simp)
  · exact Sole.pure trivial

theorem construct_sole (v : Obj) (al : Nat) {body : M Unit} (h : Sole V N (fun _ => True) body) :
    Sole V N (fun _ => True) (construct cfg v al body) := by
  unfold construct
  solo

theorem size_sole [Mine V] (v : Obj) :
    Sole V N (fun _ => True) (size cfg v) := by
  unfold size
  solo

theorem capacity_sole [Mine V] (v : Obj) :
    Sole V N (fun _ => True) (capacity cfg v) := by
  unfold capacity
  solo

theorem dataPtr_sole [Mine V] (v : Obj) :
    Sole V N (fun _ => True) (dataPtr v) := by
  unfold dataPtr
  solo

theorem isShared_sole [Mine V] (v : Obj) :
    Sole V N (fun _ => True) (isShared v) := by
  unfold isShared
  solo

theorem setSmallSize_sole [Mine V] (v : Obj) (n : Nat) :
    Sole V N (fun _ => True) (setSmallSize cfg v n) := by
  unfold setSmallSize
  solo

theorem release_sole [Mine V] (v : Obj) :
    Sole V N (fun _ => True) (release cfg v) := by
  unfold release
  solo

theorem destroy_sole [Mine V] (v : Obj) :
    Sole V N (fun _ => True) (destroy cfg v) := by
  unfold destroy
  solo

theorem withTemp_sole [Mine V] (t : Obj) {body : M β} {P : β → Prop} (h : Sole V N P body) :
    Sole V N P (withTemp cfg t body) := by
  refine h.handle (fun r => match r with
      | .ok b => (do destroy cfg t; Pure.pure b : M β)
      | .error (.throw w) => (do destroy cfg t; M.fail (.throw w) : M β)
      | .error e => M.fail e)
    (fun s => ?_) fun r hr hn => ?_
  · unfold withTemp
    rcases body s with ⟨r, s1⟩
    cases r with
    | ok b =>
      simp only [bind_apply]
      rcases destroy cfg t s1 with ⟨r, s2⟩
      cases r <;> rfl
    | error e =>
      cases e with
      | ub _ => rfl
      | assertFail _ => rfl
      | throw w =>
        simp only [bind_apply]
        rcases destroy cfg t s1 with ⟨r, s2⟩
        cases r <;> rfl
  rcases r with e | b
  · cases e with
    | throw w => exact Sole.bind (destroy_sole _) fun _ _ => Sole.fail (fun h => hn (congrArg Except.error h))
    | ub _ => exact Sole.fail (by simp)
    | assertFail _ => exact Sole.fail (by simp)
  · exact Sole.bind (destroy_sole _) fun _ _ => Sole.pure (hr b rfl)

theorem swap_sole [Mine V] {u : Obj} (hu : V u) {v : Obj} (hv : V v) :
    Sole V N (fun _ => True) (swap u v) := by
  unfold swap
  solo

theorem initEmpty_sole [Mine V] (v : Obj) :
    Sole V N (fun _ => True) (initEmpty cfg v) := by
  unfold initEmpty
  solo

theorem initSmall_sole [Mine V] (v : Obj) (p : Ptr) (n : Nat) :
    Sole V N (fun _ => True) (initSmall cfg v p n) := by
  unfold initSmall
  solo

theorem initMedium_sole [Mine V] {v : Obj} (hv : V v) (al : Nat) (p : Ptr) (n : Nat) :
    Sole V N (fun _ => True) (initMedium cfg v al p n) := by
  unfold initMedium
  solo

theorem initLarge_sole [Mine V] {v : Obj} (hv : V v) (al : Nat) (p : Ptr) (n : Nat) :
    Sole V N (fun _ => True) (initLarge cfg v al p n) := by
  unfold initLarge
  solo

theorem initData_sole [Mine V] {v : Obj} (hv : V v) (al : Nat) (p : Ptr) (n : Nat) :
    Sole V N (fun _ => True) (initData cfg v al p n) := by
  unfold initData
  solo

theorem initCheck_sole [Mine V] (v : Obj) (p : Ptr) (n : Nat) :
    Sole V N (fun _ => True) (initCheck cfg v p n) := by
  unfold initCheck
  solo

theorem ctorData_sole [Mine V] {v : Obj} (hv : V v) (al : Nat) (p : Ptr) (n : Nat) :
    Sole V N (fun _ => True) (ctorData cfg v al p n) := by
  unfold ctorData
  solo

theorem ctorEmpty_sole [Mine V] (v : Obj) (al : Nat) :
    Sole V N (fun _ => True) (ctorEmpty cfg v al) := by
  unfold ctorEmpty
  solo

theorem ctorMove_sole [Mine V] {v : Obj} (hv : V v) {u : Obj} (hu : V u) :
    Sole V N (fun _ => True) (ctorMove cfg v u) := by
  unfold ctorMove
  solo

theorem blockOf_sole [Mine V] {v : Obj} (hv : V v) :
    Sole V N (fun b => ¬ N b) (blockOf v) := by
  unfold blockOf
  solo

theorem reserveSmall_sole [Mine V] {v : Obj} (hv : V v) (n : Nat) :
    Sole V N (fun _ => True) (reserveSmall cfg v n) := by
  unfold reserveSmall
  solo

theorem unshare_sole [Mine V] {v : Obj} (hv : V v) (n : Nat) :
    Sole V N (fun _ => True) (unshare cfg v n) := by
  unfold unshare
  solo

theorem reallocate_sole [Mine V] (al : Nat) {d : Nat} (hd : ¬ N d) (size : Nat) (cap : Nat) (n : Nat) :
    Sole V N (fun r => ¬ N r.1) (reallocate cfg al d size cap n) := by
  unfold reallocate
  solo

theorem reserveLarge_sole [Mine V] {v : Obj} (hv : V v) (n : Nat) :
    Sole V N (fun _ => True) (reserveLarge cfg v n) := by
  unfold reserveLarge
  solo

theorem growNascent_sole [Mine V] {t : Obj} (ht : V t) {v : Obj} (hv : V v) {d : Nat} (hd : ¬ N d) (k : Nat) (n : Nat) :
    Sole V N (fun _ => True) (growNascent cfg t v d k n) := by
  unfold growNascent
  solo

theorem reserveMedium_sole [Mine V] {v : Obj} (hv : V v) (n : Nat) :
    Sole V N (fun _ => True) (reserveMedium cfg v n) := by
  unfold reserveMedium
  solo

theorem reserveBy_sole [Mine V] {v : Obj} (hv : V v) (n : Nat) :
    Sole V N (fun _ => True) (reserveBy cfg v n) := by
  unfold reserveBy
  solo

theorem reserveCore_sole [Mine V] {v : Obj} (hv : V v) (n : Nat) :
    Sole V N (fun _ => True) (reserveCore cfg v n) := by
  unfold reserveCore
  solo

theorem expandTail_sole [Mine V] {v : Obj} (hv : V v) (old : Nat) (new : Nat) :
    Sole V N (fun _ => True) (expandTail cfg v old new) := by
  unfold expandTail
  solo

theorem expandNoinit_sole [Mine V] {v : Obj} (hv : V v) (delta : Nat) (exp : Bool) :
    Sole V N (fun _ => True) (expandNoinit cfg v delta exp) := by
  unfold expandNoinit
  solo

theorem shrinkSmall_sole [Mine V] {v : Obj} (hv : V v) (delta : Nat) :
    Sole V N (fun _ => True) (shrinkSmall cfg v delta) := by
  unfold shrinkSmall
  solo

theorem shrinkMedium_sole [Mine V] {v : Obj} (hv : V v) {d : Nat} (hd : ¬ N d) (k : Nat) (cap : Nat) (large : Bool) (delta : Nat) :
    Sole V N (fun _ => True) (shrinkMedium cfg v d k cap large delta) := by
  unfold shrinkMedium
  solo

theorem shrinkLarge_sole [Mine V] {v : Obj} (hv : V v) (al : Nat) {d : Nat} (hd : ¬ N d) (k : Nat) (delta : Nat) :
    Sole V N (fun _ => True) (shrinkLarge cfg v al d k delta) := by
  unfold shrinkLarge
  solo

theorem shrink_sole [Mine V] {v : Obj} (hv : V v) (delta : Nat) :
    Sole V N (fun _ => True) (shrink cfg v delta) := by
  unfold shrink
  solo

/-- Of a string that is not shared `mutableData()` makes no copy. -/
theorem mutableData_plain {v : Obj} (hv : V v) {s : St} (h : Only V N s) :
    (mutableData cfg v s).2 = s ∧ ∀ w, (mutableData cfg v s).1 ≠ .error (.throw w) := by
  have key : ∀ (c : Bool) (x : M Ptr), (x s).2 = s ∧ (∀ w, (x s).1 ≠ .error (.throw w)) →
      (noexceptIf c x s).2 = s ∧ ∀ w, (noexceptIf c x s).1 ≠ .error (.throw w) := by
    intro c x hx
    unfold noexceptIf noexcept
    cases c
    · exact hx
    · rcases e : x s with ⟨r, s1⟩
      rw [e] at hx
      cases r with
      | ok b => simpa [e] using hx
      | error f =>
        cases f with
        | throw w => exact absurd rfl (hx.2 w)
        | ub _ => simpa [e] using hx
        | assertFail _ => simpa [e] using hx
  refine key _ _ ?_
  cases ho : s.vars v with
  | none => simp [bind_apply, getOb, ho]
  | some o =>
    have hd := h.vars v o hv ho
    rcases o with ⟨c, al⟩
    cases c with
    | small n => simp [bind_apply, getOb, dataPtr, ho, pure, M.pure]
    | ml d k cap l =>
      cases l
      · simp [bind_apply, getOb, dataPtr, ho, pure, M.pure]
      · cases hB : s.heap d with
        | none => simp [bind_apply, getOb, refs, ho, hB]
        | some B =>
          have := h.rc d B hd hB
          rcases B with ⟨rc, src, cells⟩
          cases rc with
          | none => simp [bind_apply, getOb, refs, ho, hB]
          | some r =>
            have h1 : ¬ 1 < r := Nat.not_lt.2 this
            simp [bind_apply, getOb, dataPtr, refs, ho, hB, h1, pure, M.pure]

theorem mutableData_sole {v : Obj} (hv : V v) : Sole V N (fun _ => True) (mutableData cfg v) :=
  ⟨fun _ h => by rw [(mutableData_plain hv h).1]; exact h, fun _ _ _ _ => trivial, fun _ h => (mutableData_plain hv h).2 _⟩

theorem begin__sole {v : Obj} (hv : V v) : Sole V N (fun _ => True) (begin_ cfg v) := by
  have key : ∀ s, Only V N s → begin_ cfg v s = mutableData cfg v s := by
    intro s h
    have := (mutableData_plain (cfg := cfg) hv h).2
    unfold begin_ noexcept
    rcases e : mutableData cfg v s with ⟨r, s1⟩
    rw [e] at this
    cases r with
    | ok b => rfl
    | error f =>
      cases f with
      | throw w => exact absurd rfl (this w)
      | ub _ => rfl
      | assertFail _ => rfl
  have hm := mutableData_sole (cfg := cfg) (N := N) hv
  exact ⟨fun s h => by rw [key s h]; exact hm.keeps s h, fun _ _ _ _ => trivial, fun s h => by rw [key s h]; exact hm.safe s h⟩

theorem pushBack_sole [Mine V] {v : Obj} (hv : V v) (c : Ch) :
    Sole V N (fun _ => True) (pushBack cfg v c) := by
  unfold pushBack
  solo

theorem sane_sole [Mine V] (v : Obj) :
    Sole V N (fun _ => True) (sane cfg v) := by
  unfold sane
  solo

theorem checking_sole [Mine V] (v : Obj) {body : M β} {P : β → Prop} (h : Sole V N P body) :
    Sole V N P (checking cfg v body) := by
  refine h.handle (fun r => match r with
      | .ok b => (do sane cfg v; Pure.pure b : M β)
      | .error (.throw w) => (do sane cfg v; M.fail (.throw w) : M β)
      | .error e => M.fail e)
    (fun s => ?_) fun r hr hn => ?_
  · unfold checking
    rcases body s with ⟨r, s1⟩
    cases r with
    | ok b =>
      simp only [bind_apply]
      rcases sane cfg v s1 with ⟨r, s2⟩
      cases r <;> rfl
    | error e =>
      cases e with
      | ub _ => rfl
      | assertFail _ => rfl
      | throw w =>
        simp only [bind_apply]
        rcases sane cfg v s1 with ⟨r, s2⟩
        cases r <;> rfl
  rcases r with e | b
  · cases e with
    | throw w => exact Sole.bind (sane_sole _) fun _ _ => Sole.fail (fun h => hn (congrArg Except.error h))
    | ub _ => exact Sole.fail (by simp)
    | assertFail _ => exact Sole.fail (by simp)
  · exact Sole.bind (sane_sole _) fun _ _ => Sole.pure (hr b rfl)

theorem checker_sole [Mine V] (v : Obj) {body : M β} {P : β → Prop} (h : Sole V N P body) :
    Sole V N P (checker cfg v body) := by
  unfold checker
  solo

theorem enforce_sole (c : Bool) :
    Sole V N (fun _ => True) (enforce c) := by
  unfold enforce
  solo

theorem ctorFill_sole [Mine V] {v : Obj} (hv : V v) (al : Nat) (n : Nat) (c : Ch) :
    Sole V N (fun _ => True) (ctorFill cfg v al n c) := by
  unfold ctorFill
  solo

theorem resize_sole [Mine V] {v : Obj} (hv : V v) (n : Nat) (c : Ch) :
    Sole V N (fun _ => True) (resize cfg v n c) := by
  unfold resize
  solo

theorem appendCopy_sole [Mine V] {v : Obj} (hv : V v) (p : Ptr) (n : Nat) (q : Ptr) (old : Nat) (r : Ptr) :
    Sole V N (fun _ => True) (appendCopy cfg v p n q old r) := by
  unfold appendCopy
  solo

theorem append_sole [Mine V] {v : Obj} (hv : V v) (p : Ptr) (n : Nat) :
    Sole V N (fun _ => True) (append cfg v p n) := by
  unfold append
  solo

theorem appendFill_sole [Mine V] {v : Obj} (hv : V v) (n : Nat) (c : Ch) :
    Sole V N (fun _ => True) (appendFill cfg v n c) := by
  unfold appendFill
  solo

theorem appendStr_sole [Mine V] {v : Obj} (hv : V v) (u : Obj) :
    Sole V N (fun _ => True) (appendStr cfg v u) := by
  unfold appendStr
  solo

theorem assignBy_sole [Mine V] {v : Obj} (hv : V v) (p : Ptr) (n : Nat) (k : Nat) :
    Sole V N (fun _ => True) (assignBy cfg v p n k) := by
  unfold assignBy
  solo

theorem assign_sole [Mine V] {v : Obj} (hv : V v) (p : Ptr) (n : Nat) :
    Sole V N (fun _ => True) (assign cfg v p n) := by
  unfold assign
  solo

theorem assignStr_sole [Mine V] {v : Obj} (hv : V v) (u : Obj) :
    Sole V N (fun _ => True) (assignStr cfg v u) := by
  unfold assignStr
  solo

theorem setFront_sole [Mine V] {v : Obj} (hv : V v) (c : Ch) :
    Sole V N (fun _ => True) (setFront cfg v c) := by
  unfold setFront
  solo

theorem assignChar_sole [Mine V] {v : Obj} (hv : V v) (c : Ch) :
    Sole V N (fun _ => True) (assignChar cfg v c) := by
  unfold assignChar
  solo

theorem reserve_sole [Mine V] {v : Obj} (hv : V v) (n : Nat) :
    Sole V N (fun _ => True) (reserve cfg v n) := by
  unfold reserve
  solo

theorem shrinkToFit_sole [Mine V] {v : Obj} (hv : V v) :
    Sole V N (fun _ => True) (shrinkToFit cfg v) := by
  unfold shrinkToFit
  solo

theorem clear_sole [Mine V] {v : Obj} (hv : V v) :
    Sole V N (fun _ => True) (clear cfg v) := by
  unfold clear
  solo

theorem setAt_sole [Mine V] {v : Obj} (hv : V v) (i : Nat) (c : Ch) :
    Sole V N (fun _ => True) (setAt cfg v i c) := by
  unfold setAt
  solo

theorem readChar_sole [Mine V] (p : Ptr) :
    Sole V N (fun _ => True) (readChar p) := by
  unfold readChar
  solo

theorem getAt_sole [Mine V] (v : Obj) (i : Nat) :
    Sole V N (fun _ => True) (getAt v i) := by
  unfold getAt
  solo

theorem atConst_sole [Mine V] (v : Obj) (i : Nat) :
    Sole V N (fun _ => True) (atConst cfg v i) := by
  unfold atConst
  solo

theorem setAtChecked_sole [Mine V] {v : Obj} (hv : V v) (i : Nat) (c : Ch) :
    Sole V N (fun _ => True) (setAtChecked cfg v i c) := by
  unfold setAtChecked
  solo

theorem copyOut_sole [Mine V] (v : Obj) (n : Nat) (pos : Nat) :
    Sole V N (fun _ => True) (copyOut cfg v n pos) := by
  unfold copyOut
  solo

theorem posOf_sole [Mine V] (v : Obj) (i : Ptr) :
    Sole V N (fun _ => True) (posOf cfg v i) := by
  unfold posOf
  solo

theorem insertFillAt_sole [Mine V] {v : Obj} (hv : V v) (i : Ptr) (n : Nat) (c : Ch) :
    Sole V N (fun _ => True) (insertFillAt cfg v i n c) := by
  unfold insertFillAt
  solo

theorem insertRangeAt_sole [Mine V] {v : Obj} (hv : V v) (i : Ptr) (p : Ptr) (n : Nat) :
    Sole V N (fun _ => True) (insertRangeAt cfg v i p n) := by
  unfold insertRangeAt
  solo

theorem insertFill_sole [Mine V] {v : Obj} (hv : V v) (pos : Nat) (n : Nat) (c : Ch) :
    Sole V N (fun _ => True) (insertFill cfg v pos n c) := by
  unfold insertFill
  solo

theorem insert_sole [Mine V] {v : Obj} (hv : V v) (pos : Nat) (p : Ptr) (n : Nat) :
    Sole V N (fun _ => True) (insert cfg v pos p n) := by
  unfold insert
  solo

theorem appendRange_sole [Mine V] {v : Obj} (hv : V v) (p : Ptr) (n : Nat) :
    Sole V N (fun _ => True) (appendRange cfg v p n) := by
  unfold appendRange
  solo

theorem erase_sole [Mine V] {v : Obj} (hv : V v) (pos : Nat) (n : Nat) :
    Sole V N (fun _ => True) (erase cfg v pos n) := by
  unfold erase
  solo

theorem eraseAt_sole [Mine V] {v : Obj} (hv : V v) (i : Ptr) (n : Nat) :
    Sole V N (fun _ => True) (eraseAt cfg v i n) := by
  unfold eraseAt
  solo

theorem replaceCopy_sole [Mine V] {v : Obj} (hv : V v) {t : Obj} (ht : V t) (d : Ptr) (k : Nat) (pos : Nat) (n1 : Nat) (p : Ptr) (n2 : Nat) :
    Sole V N (fun _ => True) (replaceCopy cfg v t d k pos n1 p n2) := by
  unfold replaceCopy
  solo

theorem replaceImpl_sole [Mine V] {v : Obj} (hv : V v) (i1 : Ptr) (pos : Nat) (n1 : Nat) (p : Ptr) (n2 : Nat) :
    Sole V N (fun _ => True) (replaceImpl cfg v i1 pos n1 p n2) := by
  unfold replaceImpl
  solo

theorem replaceCheck_sole [Mine V] {v : Obj} (hv : V v) (i1 : Ptr) (n1 : Nat) :
    Sole V N (fun _ => True) (replaceCheck cfg v i1 n1) := by
  unfold replaceCheck
  solo

theorem replace_sole [Mine V] {v : Obj} (hv : V v) (pos : Nat) (n1 : Nat) (p : Ptr) (n2 : Nat) :
    Sole V N (fun _ => True) (replace cfg v pos n1 p n2) := by
  unfold replace
  solo

theorem replaceFillAt_sole [Mine V] {v : Obj} (hv : V v) (i1 : Ptr) (n1 : Nat) (n2 : Nat) (c : Ch) :
    Sole V N (fun _ => True) (replaceFillAt cfg v i1 n1 n2 c) := by
  unfold replaceFillAt
  solo

theorem replaceFill_sole [Mine V] {v : Obj} (hv : V v) (pos : Nat) (n1 : Nat) (n2 : Nat) (c : Ch) :
    Sole V N (fun _ => True) (replaceFill cfg v pos n1 n2 c) := by
  unfold replaceFill
  solo

theorem assignFill_sole [Mine V] {v : Obj} (hv : V v) (n : Nat) (c : Ch) :
    Sole V N (fun _ => True) (assignFill cfg v n c) := by
  unfold assignFill
  solo

theorem building_sole [Mine V] (v : Obj) {body : M Unit} (h : Sole V N (fun _ => True) body) :
    Sole V N (fun _ => True) (building cfg v body) := by
  refine h.handle (fun r => match r with
      | .error (.throw w) => (do destroy cfg v; M.fail (.throw w) : M Unit)
      | .error e => M.fail e
      | .ok b => Pure.pure b)
    (fun s => ?_) fun r _ hn => ?_
  · unfold building
    rcases body s with ⟨r, s1⟩
    cases r with
    | ok b => rfl
    | error e =>
      cases e with
      | ub _ => rfl
      | assertFail _ => rfl
      | throw w =>
        simp only [bind_apply]
        rcases destroy cfg v s1 with ⟨r, s2⟩
        cases r <;> rfl
  rcases r with e | b
  · cases e with
    | throw w => exact Sole.bind (destroy_sole _) fun _ _ => Sole.fail (fun h => hn (congrArg Except.error h))
    | ub _ => exact Sole.fail (by simp)
    | assertFail _ => exact Sole.fail (by simp)
  · exact Sole.pure trivial

theorem substr_sole [Mine V] {v : Obj} (hv : V v) (u : Obj) (pos : Nat) (n : Nat) :
    Sole V N (fun _ => True) (substr cfg v u pos n) := by
  unfold substr
  solo

theorem substrMove_sole [Mine V] {v : Obj} (hv : V v) {u : Obj} (hu : V u) (pos : Nat) (n : Nat) :
    Sole V N (fun _ => True) (substrMove cfg v u pos n) := by
  unfold substrMove
  solo

theorem concat_sole [Mine V] {v : Obj} (hv : V v) (u1 : Obj) (u2 : Obj) :
    Sole V N (fun _ => True) (concat cfg v u1 u2) := by
  unfold concat
  solo

theorem addPart_sole [Mine V] {v : Obj} (hv : V v) (u : Obj) (q : Part) :
    Sole V N (fun _ => True) (addPart cfg v u q) := by
  unfold addPart
  solo

theorem addParts_sole [Mine V] {v : Obj} (hv : V v) (u : Obj) (q1 : Part) (q2 : Part) :
    Sole V N (fun _ => True) (addParts cfg v u q1 q2) := by
  unfold addParts
  solo

theorem partSize_sole [Mine V] (u : Obj) (q : Part) :
    Sole V N (fun _ => True) (partSize cfg u q) := by
  unfold partSize
  solo

theorem plusNew_sole [Mine V] {v : Obj} (hv : V v) (u : Obj) (q1 : Part) (q2 : Part) :
    Sole V N (fun _ => True) (plusNew cfg v u q1 q2) := by
  unfold plusNew
  solo

theorem IStream.setstate_sole (is : IStream) (e : Bool) (f : Bool) :
    Sole V N (fun _ => True) (is.setstate e f) := by
  unfold IStream.setstate
  solo

theorem lineEnd_sole (is : IStream) (delim : Ch) (k : Nat) (rest : List Ch) :
    Sole V N (fun _ => True) (lineEnd is delim k rest) := by
  unfold lineEnd
  solo

theorem streamGetline_sole [Mine V] (is : IStream) (p : Ptr) (n : Nat) (delim : Ch) :
    Sole V N (fun _ => True) (streamGetline is p n delim) := by
  unfold streamGetline
  solo

theorem getlineLoop_sole [Mine V] {v : Obj} (hv : V v) (delim : Ch) :
    ∀ (fuel : Nat) (is : IStream) (n : Nat), Sole V N (fun _ => True) (getlineLoop cfg v delim fuel is n)
  | 0, _, _ => Sole.ub _
  | fuel + 1, is, n => by
    have ih := getlineLoop_sole hv delim fuel
    unfold getlineLoop
    solo

theorem getline_sole [Mine V] {v : Obj} (hv : V v) (is : IStream) (delim : Ch) :
    Sole V N (fun _ => True) (getline cfg v is delim) := by
  unfold getline
  solo

theorem ctypeSpace_sole (c : Ch) :
    Sole V N (fun _ => True) (ctypeSpace c) := by
  unfold ctypeSpace
  solo

theorem sentry_sole (is : IStream) :
    Sole V N (fun _ => True) (sentry is) := by
  unfold sentry
  solo

theorem extractLoop_sole [Mine V] {v : Obj} (hv : V v) (is : IStream) :
    ∀ (inp : List Ch) (room k : Nat), Sole V N (fun _ => True) (extractLoop cfg v is room inp k)
  | [], room, k => by
    unfold extractLoop
    solo
  | c :: t, room, k => by
    have ih := extractLoop_sole hv is t
    unfold extractLoop
    solo

theorem extractEnd_sole (is : IStream) (k : Nat) (eof : Bool) :
    Sole V N (fun _ => True) (extractEnd is k eof) := by
  unfold extractEnd
  solo

theorem extract_sole [Mine V] {v : Obj} (hv : V v) (is : IStream) :
    Sole V N (fun _ => True) (extract cfg v is) := by
  unfold extract
  solo

/-! ### Operations -/

theorem Src.resolve_sole (src : Src) : Sole V N (fun _ => True) src.resolve := by
  cases src with
  | lit xs => exact Sole.pure trivial
  | sub u i n =>
    unfold Src.resolve
    refine Sole.bind (P := fun _ => True) ?_ fun p hp => Sole.pure trivial
    exact Sole.bind (getOb_sole _) fun o ho => Sole.pure trivial

/-- The strings an operation makes or changes. -/
def Op.targets : Op → List Nat
  | .makeEmpty v _ | .makeFill v _ _ _ | .destroy v | .assignFill v _ _ | .assignChar v _ | .appendFill v _ _ | .pushBack v _
  | .popBack v | .resize v _ _ | .reserve v _ | .shrinkToFit v | .clear v | .setAt v _ _ | .insertFill v _ _ _ | .erase v _ _
  | .replaceFill v _ _ _ _ | .getline v _ _ | .extract v _ | .make v _ _ | .assign v _ | .append v _ | .appendRange v _ | .insert v _ _
  | .replace v _ _ _ | .copy v _ | .clone v _ | .substr v _ _ _ | .concat v _ _ | .concatWith v _ _ _ | .assignStr v _
  | .appendStr v _ => [v]
  | .move v u | .substrMove v u _ _ | .swap v u | .assignMove v u => [v, u]

/-- Operations other than copies, `pop_back` and move assignment. -/
theorem op_sole [Mine V] (op : Op) (h : ∀ v ∈ op.targets, V (.user v)) (h1 : ∀ v u, op ≠ .copy v u) (h2 : ∀ v u, op ≠ .clone v u)
    (h3 : ∀ v, op ≠ .popBack v) (h4 : ∀ v u, op ≠ .assignMove v u) : Sole V N (fun _ => True) (op.run cfg) := by
  cases op <;> simp only [Op.targets, List.mem_cons, List.not_mem_nil, or_false, forall_eq_or_imp, forall_eq] at h <;> dsimp only [Op.run]
  all_goals first
    | exact absurd rfl (h1 _ _)
    | exact absurd rfl (h2 _ _)
    | exact absurd rfl (h3 _)
    | exact absurd rfl (h4 _ _)
    | refine Sole.bind (Src.resolve_sole _) fun r hr => ?_
    | skip
  all_goals first
    | (obtain ⟨hv, hu⟩ := h; solo; done)
    | (solo; done)

end Verif.Str
