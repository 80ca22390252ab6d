import Verif.Str.Prog
import Verif.Str.Heap

/-!
What an operation touches: only the string objects named in it, its local ones, the blocks these use, and new
blocks.  `Local V N x` says that `x` works on the objects in `V` only and stays off the blocks in `N`: it leaves all
other objects and the blocks in `N` as they are, and what it does does not depend on them in any way, not even on
whether those blocks exist (so that a mere read of one would show).
-/

namespace Verif.Str

open M

variable {β γ : Type} {cfg : Cfg} {V : Obj → Prop} {N : Nat → Prop}

/-- The characters are not in a block of `N`. -/
def Core.off (N : Nat → Prop) : Core → Prop
  | .small _ => True
  | .ml d _ _ _ => ¬ N d

/-- The pointer points neither into an object outside of `V` nor into a block of `N`. -/
def Ptr.mine (V : Obj → Prop) (N : Nat → Prop) : Ptr → Prop
  | .ext _ _ => True
  | .blk b _ => ¬ N b
  | .inl o _ => V o

/-- The objects in `V` do not use blocks of `N`, and these are not new. -/
structure Off (V : Obj → Prop) (N : Nat → Prop) (s : St) : Prop where
  vars : ∀ o ob, V o → s.vars o = some ob → ob.core.off N
  fresh : ∀ b, N b → b < s.next

/-- Two memories that differ only in objects outside of `V` and in blocks of `N`. -/
structure Alike (V : Obj → Prop) (N : Nat → Prop) (s s' : St) : Prop where
  vars : ∀ o, V o → s'.vars o = s.vars o
  heap : ∀ b, ¬ N b → s'.heap b = s.heap b
  next : s'.next = s.next
  refused : s'.refused = s.refused
  lost : s'.lost = s.lost

/-- Objects outside of `V` and blocks of `N` are as before. -/
structure Spared (V : Obj → Prop) (N : Nat → Prop) (s s1 : St) : Prop where
  vars : ∀ o, ¬ V o → s1.vars o = s.vars o
  heap : ∀ b, N b → s1.heap b = s.heap b

/-- `x` works on the objects in `V` and stays off the blocks in `N`; its result satisfies `P`. -/
structure Local (V : Obj → Prop) (N : Nat → Prop) (P : β → Prop) (x : M β) : Prop where
  off : ∀ s, Off V N s → Off V N (x s).2
  spared : ∀ s, Off V N s → Spared V N s (x s).2
  result : ∀ s, Off V N s → ∀ b, (x s).1 = .ok b → P b
  same : ∀ s, Off V N s → ∀ s', Alike V N s s' → (x s').1 = (x s).1 ∧ Alike V N (x s).2 (x s').2

theorem Spared.refl (s : St) : Spared V N s s := ⟨fun _ _ => rfl, fun _ _ => rfl⟩

theorem Spared.trans {s s1 s2 : St} (h1 : Spared V N s s1) (h2 : Spared V N s1 s2) : Spared V N s s2 :=
  ⟨fun o h => (h2.vars o h).trans (h1.vars o h), fun b h => (h2.heap b h).trans (h1.heap b h)⟩

theorem Ptr.mine_add {p : Ptr} (h : p.mine V N) (n : Nat) : (p.add n).mine V N := by
  cases p <;> exact h

theorem Core.ptr_mine {c : Core} {v : Obj} (h : c.off N) (hv : V v) : (Core.ptr v c).mine V N := by
  cases c with
  | small _ => exact hv
  | ml _ _ _ _ => exact h

/-- An action that leaves the memory as it is and looks at none of it. -/
theorem Local.const {P : β → Prop} {r : Except Fault β} (h : ∀ b, r = .ok b → P b) : Local V N P (fun s => (r, s)) :=
  ⟨fun _ h => h, fun s _ => Spared.refl s, fun _ _ b hb => h b hb, fun _ _ _ ha => ⟨rfl, ha⟩⟩

theorem Local.pure {P : β → Prop} {b : β} (h : P b) : Local V N P (pure b : M β) :=
  Local.const (r := .ok b) fun b' h' => by cases h'; exact h

theorem Local.fail {P : β → Prop} (e : Fault) : Local V N P (M.fail e : M β) :=
  Local.const (r := .error e) fun b' h' => by cases h'

theorem Local.ub {P : β → Prop} (w : String) : Local V N P (M.ub w : M β) := Local.fail _

theorem Local.raise {P : β → Prop} (w : String) : Local V N P (M.raise w : M β) := Local.fail _

/-- An action and what follows its result or fault. -/
theorem Local.handle {P : β → Prop} {Q : γ → Prop} {x : M β} {y : M γ} (hx : Local V N P x) (h : Except Fault β → M γ)
    (e : ∀ s, y s = h (x s).1 (x s).2) (hh : ∀ r, (∀ b, r = .ok b → P b) → Local V N Q (h r)) : Local V N Q y := by
  have e : y = fun s => h (x s).1 (x s).2 := funext e
  subst e
  constructor
  · intro s hs
    exact (hh _ (hx.result s hs)).off _ (hx.off s hs)
  · intro s hs
    exact (hx.spared s hs).trans ((hh _ (hx.result s hs)).spared _ (hx.off s hs))
  · intro s hs
    exact (hh _ (hx.result s hs)).result _ (hx.off s hs)
  · intro s hs s' ha
    obtain ⟨h1, h2⟩ := hx.same s hs s' ha
    rw [h1]
    exact (hh _ (hx.result s hs)).same _ (hx.off s hs) _ h2

theorem Local.bind {P : β → Prop} {Q : γ → Prop} {x : M β} {f : β → M γ} (hx : Local V N P x)
    (hf : ∀ b, P b → Local V N Q (f b)) : Local V N Q (x >>= f) := by
  refine hx.handle (fun r => match r with
      | .ok b => f b
      | .error e => M.fail e)
    (fun s => ?_) fun r hr => ?_
  · rw [bind_apply]
    rcases x s with ⟨r, s1⟩
    cases r <;> rfl
  cases r with
  | ok b => exact hf b (hr b rfl)
  | error e => exact Local.fail e

theorem Local.ite {P : β → Prop} {c : Prop} [Decidable c] {x y : M β} (hx : Local V N P x) (hy : Local V N P y) :
    Local V N P (if c then x else y) := by
  split
  · exact hx
  · exact hy

theorem Local.noexcept {P : β → Prop} {x : M β} (hx : Local V N P x) : Local V N P (noexcept x) := by
  refine hx.handle (fun r => match r with
      | .ok b => (Pure.pure b : M β)
      | .error (.throw _) => M.fail (.throw "terminate")
      | .error e => M.fail e)
    (fun s => ?_) fun r hr => ?_
  · unfold Str.noexcept
    rcases x s with ⟨r, s1⟩
    cases r with
    | ok b => rfl
    | error e => cases e <;> rfl
  rcases r with e | b
  · cases e <;> exact Local.fail _
  · exact Local.pure (hr b rfl)

theorem Local.noexceptIf {P : β → Prop} {c : Bool} {x : M β} (hx : Local V N P x) : Local V N P (noexceptIf c x) := by
  unfold Str.noexceptIf
  split
  · exact hx.noexcept
  · exact hx

theorem Local.weaken {P : β → Prop} {x : M β} (hx : Local V N P x) : Local V N (fun _ => True) x :=
  ⟨hx.off, hx.spared, fun _ _ _ _ => trivial, hx.same⟩

/-- Local objects are in `V`. -/
class Mine (V : Obj → Prop) : Prop where
  tmp : ∀ k, V (.tmp k)

/-- What the lemmas ask of their arguments. -/
macro "local_side" : tactic => `(tactic| first
  | with_reducible assumption
  | with_reducible exact trivial
  | with_reducible exact Mine.tmp _
  | (with_reducible exact Core.ptr_mine (by assumption) (by assumption))
  | (with_reducible refine Ptr.mine_add ?_ _; with_reducible assumption)
  | (with_reducible refine Ptr.mine_add ?_ _; with_reducible refine Ptr.mine_add ?_ _; with_reducible assumption)
  | (simp_all [Ptr.mine, Core.off]; done))

open Lean Elab Tactic Meta in
/-- Apply the lemma about the action at hand: for `f` it is `f_local`. -/
elab "local_lemma" : tactic => withMainContext do
  let g ← getMainGoal
  let t := (← instantiateMVars (← g.getType)).consumeMData
  unless t.isAppOf ``Local do throwError "not Local"
  let .const c _ := t.appArg!.consumeMData.getAppFn | throwError "no lemma"
  let n : Name := match c with
    | ``Bind.bind => ``Local.bind
    | ``ite => ``Local.ite
    | ``M.fail => ``Local.fail
    | ``M.ub => ``Local.ub
    | ``M.raise => ``Local.raise
    | ``Str.noexcept => ``Local.noexcept
    | ``Str.noexceptIf => ``Local.noexceptIf
    | _ => c.appendAfter "_local"
  unless (← getEnv).contains n do throwError "no lemma"
  let e ← mkConstWithFreshMVarLevels n
  let gs ← try g.apply e catch _ =>
    let [g'] ← g.apply (← mkConstWithFreshMVarLevels ``Local.weaken) {newGoals := .nonDependentOnly} | throwError "weaken"
    g'.apply e
  replaceMainGoal gs

/-- Split an action into its parts. -/
macro "localize" : tactic => `(tactic| repeat' first
  | local_lemma
  | with_reducible exact Local.pure (P := fun _ => True) trivial
  | with_reducible refine Local.pure ?_
  | (intro _ _; with_reducible refine (?_ : Local _ _ _ _))
  | split
  | extract_lets
  | local_side)

/-! ### Memory -/

theorem readCells_local {p : Ptr} (hp : p.mine V N) (n : Nat) : Local V N (fun _ => True) (readCells p n) := by
  have key : ∀ s, (readCells p n s).2 = s := by
    intro s
    unfold readCells
    repeat' split
    all_goals rfl
  refine ⟨fun s h => by rw [key]; exact h, fun s _ => by rw [key]; exact Spared.refl s, fun _ _ _ _ => trivial, ?_⟩
  intro s hs s' ha
  rw [key, key]
  refine ⟨?_, ha⟩
  unfold readCells
  cases p with
  | ext m _ => simp only; split <;> rfl
  | blk b i =>
    simp only
    rw [ha.heap b hp]
    split
    · split <;> rfl
    · rfl
  | inl o i =>
    simp only
    rw [ha.vars o hp]
    repeat' split
    all_goals rfl

theorem room_local {p : Ptr} (hp : p.mine V N) : Local V N (fun _ => True) (room p) := by
  have key : ∀ s, (room p s).2 = s := by
    intro s
    unfold room
    repeat' split
    all_goals rfl
  refine ⟨fun s h => by rw [key]; exact h, fun s _ => by rw [key]; exact Spared.refl s, fun _ _ _ _ => trivial, ?_⟩
  intro s hs s' ha
  rw [key, key]
  refine ⟨?_, ha⟩
  unfold room
  cases p with
  | ext m _ => rfl
  | blk b _ =>
    simp only
    rw [ha.heap b hp]
    split <;> rfl
  | inl o _ =>
    simp only
    rw [ha.vars o hp]
    repeat' split
    all_goals rfl

/-- A change of one block outside of `N`. -/
theorem Off.setHeap {s : St} (h : Off V N s) (b : Nat) (B : Option Blk) : Off V N { s with heap := upd s.heap b B } :=
  ⟨h.vars, h.fresh⟩

theorem Spared.setHeap {s : St} {b : Nat} (hb : ¬ N b) (B : Option Blk) : Spared V N s { s with heap := upd s.heap b B } :=
  ⟨fun _ _ => rfl, fun _ hi => upd_other _ _ (fun e => hb (e ▸ hi))⟩

theorem Alike.setHeap {s s' : St} (h : Alike V N s s') (b : Nat) (B : Option Blk) :
    Alike V N { s with heap := upd s.heap b B } { s' with heap := upd s'.heap b B } := by
  refine ⟨h.vars, fun i hi => ?_, h.next, h.refused, h.lost⟩
  simp only [upd]
  split
  · rfl
  · exact h.heap i hi

/-- A change of one object of `V`. -/
theorem Off.setVar {s : St} (h : Off V N s) {o : Obj} {ob : Option Ob} (hc : ∀ x, ob = some x → x.core.off N) :
    Off V N { s with vars := upd s.vars o ob } := by
  refine ⟨fun i x hi hx => ?_, h.fresh⟩
  simp only [upd] at hx
  split at hx
  · exact hc x hx
  · exact h.vars i x hi hx

theorem Spared.setVar {s : St} {o : Obj} (ho : V o) (ob : Option Ob) : Spared V N s { s with vars := upd s.vars o ob } :=
  ⟨fun _ hi => upd_other _ _ (fun e => hi (e ▸ ho)), fun _ _ => rfl⟩

theorem Alike.setVar {s s' : St} (h : Alike V N s s') (o : Obj) (ob : Option Ob) :
    Alike V N { s with vars := upd s.vars o ob } { s' with vars := upd s'.vars o ob } := by
  refine ⟨fun i hi => ?_, h.heap, h.next, h.refused, h.lost⟩
  simp only [upd]
  split
  · rfl
  · exact h.vars i hi

/-- An action on one block `b` outside of `N`. -/
theorem Local.onBlk {P : β → Prop} {x : M β} {b : Nat} (hb : ¬ N b) (f : Option Blk → Except Fault β × Option (Option Blk))
    (e : ∀ s, x s = ((f (s.heap b)).1, match (f (s.heap b)).2 with
      | none => s
      | some B => { s with heap := upd s.heap b B }))
    (hP : ∀ B r, (f B).1 = .ok r → P r) : Local V N P x := by
  constructor
  · intro s hs
    rw [e]
    simp only
    split
    · exact hs
    · exact hs.setHeap _ _
  · intro s hs
    rw [e]
    simp only
    split
    · exact Spared.refl s
    · exact Spared.setHeap hb _
  · intro s hs r hr
    rw [e] at hr
    exact hP _ r hr
  · intro s hs s' ha
    rw [e, e]
    simp only
    rw [ha.heap b hb]
    refine ⟨rfl, ?_⟩
    split
    · exact ha
    · exact ha.setHeap _ _

/-- An action on one object of `V`. -/
theorem Local.onVar {P : β → Prop} {x : M β} {o : Obj} (ho : V o) (f : Option Ob → Except Fault β × Option (Option Ob))
    (e : ∀ s, x s = ((f (s.vars o)).1, match (f (s.vars o)).2 with
      | none => s
      | some ob => { s with vars := upd s.vars o ob }))
    (hf : ∀ x, (∀ y, x = some y → y.core.off N) → ∀ y z, (f x).2 = some y → y = some z → z.core.off N)
    (hP : ∀ x, (∀ y, x = some y → y.core.off N) → ∀ r, (f x).1 = .ok r → P r) : Local V N P x := by
  constructor
  · intro s hs
    rw [e]
    simp only
    split
    · exact hs
    · rename_i ob heq
      exact hs.setVar fun z hz => hf _ (fun y hy => hs.vars o y ho hy) _ z heq hz
  · intro s hs
    rw [e]
    simp only
    split
    · exact Spared.refl s
    · exact Spared.setVar ho _
  · intro s hs r hr
    rw [e] at hr
    exact hP _ (fun y hy => hs.vars o y ho hy) r hr
  · intro s hs s' ha
    rw [e, e]
    simp only
    rw [ha.vars o ho]
    refine ⟨rfl, ?_⟩
    split
    · exact ha
    · exact ha.setVar _ _

theorem writeCells_local {p : Ptr} (hp : p.mine V N) (cs : List Cell) : Local V N (fun _ => True) (writeCells p cs) := by
  cases p with
  | ext _ _ => exact Local.fail _
  | blk b i =>
    refine Local.onBlk hp (fun B => match B with
        | some B => if i + cs.length ≤ B.cells.length then (.ok (), some (some { B with cells := put B.cells i cs }))
          else (.error (.ub "write outside a block"), none)
        | none => (.error (.ub "write to a freed block"), none)) (fun s => ?_) fun _ _ _ => trivial
    unfold writeCells
    simp only
    cases s.heap b with
    | none => rfl
    | some B => simp only; split <;> rfl
  | inl o i =>
    refine Local.onVar hp (fun x => match x with
        | some ⟨.small cells, al⟩ => if i + cs.length ≤ cells.length then (.ok (), some (some ⟨.small (put cells i cs), al⟩))
          else (.error (.ub "write outside a string object"), none)
        | _ => (.error (.ub "stale pointer into a string object"), none)) (fun s => ?_) ?_ fun _ _ _ _ => trivial
    · unfold writeCells
      simp only
      cases s.vars o with
      | none => rfl
      | some ob =>
        obtain ⟨core, al⟩ := ob
        cases core with
        | small cells => simp only; split <;> rfl
        | ml _ _ _ _ => rfl
    · intro x hx y z h1 h2
      subst h2
      split at h1
      · split at h1
        · cases h1; trivial
        · cases h1
      · cases h1

theorem assert_local (c : Bool) (msg : String) :
    Local V N (fun _ => True) (assert cfg c msg) := by
  unfold assert
  localize

theorem doIf_local (c : Bool) {x : M Unit} (h : Local V N (fun _ => True) x) : Local V N (fun _ => True) (doIf c x) := by
  unfold doIf
  localize

theorem podFill_local [Mine V] {p : Ptr} (hp : p.mine V N) (n : Nat) (c : Ch) :
    Local V N (fun _ => True) (podFill p n c) := by
  unfold podFill
  localize

theorem podCopy_local [Mine V] {p : Ptr} (hp : p.mine V N) (n : Nat) {q : Ptr} (hq : q.mine V N) :
    Local V N (fun _ => True) (podCopy cfg p n q) := by
  unfold podCopy
  localize

theorem podMove_local [Mine V] {p : Ptr} (hp : p.mine V N) (n : Nat) {q : Ptr} (hq : q.mine V N) :
    Local V N (fun _ => True) (podMove p n q) := by
  unfold podMove
  localize

theorem alloc_local (al : Nat) (hdr : Bool) (bytes : Nat) : Local V N (fun b => ¬ N b) (alloc cfg al hdr bytes) := by
  constructor
  · intro s hs
    unfold alloc
    generalize (if hdr then some 1 else none : Option Nat) = rc
    repeat' split
    · exact hs
    · exact ⟨hs.vars, fun b hb => Nat.lt_succ_of_lt (hs.fresh b hb)⟩
    · exact ⟨hs.vars, fun b hb => Nat.lt_succ_of_lt (hs.fresh b hb)⟩
  · intro s hs
    unfold alloc
    generalize (if hdr then some 1 else none : Option Nat) = rc
    repeat' split
    · exact Spared.refl s
    · exact ⟨fun _ _ => rfl, fun b hb => upd_other _ _ (Nat.ne_of_lt (hs.fresh b hb))⟩
    · exact ⟨fun _ _ => rfl, fun _ _ => rfl⟩
  · intro s hs b hb
    unfold alloc at hb
    split at hb
    · cases hb
    · split at hb
      · cases hb
        exact fun h => Nat.lt_irrefl _ (hs.fresh _ h)
      · cases hb
  · intro s hs s' ha
    unfold alloc
    generalize (if hdr then some 1 else none : Option Nat) = rc
    rw [ha.next]
    repeat' split
    · exact ⟨rfl, ha⟩
    · refine ⟨rfl, ha.vars, fun b hb => ?_, rfl, ha.refused, ha.lost⟩
      simp only [upd]
      split
      · rfl
      · exact ha.heap b hb
    · exact ⟨rfl, ha.vars, ha.heap, rfl, rfl, ha.lost⟩

theorem dealloc_local (al : Nat) {b : Nat} (hb : ¬ N b) : Local V N (fun _ => True) (dealloc cfg al b) := by
  refine Local.onBlk hb (fun B => match B with
      | none => (.error (.ub "double free"), none)
      | some B => if cfg.arena && al != 0 then (.ok (), none) else
        if B.src == al then (.ok (), some none) else (.error (.ub "deallocate with the wrong resource"), none))
    (fun s => ?_) fun _ _ _ => trivial
  unfold dealloc
  cases s.heap b with
  | none => rfl
  | some B =>
    simp only
    split
    · rfl
    · split <;> rfl

theorem refs_local {b : Nat} (hb : ¬ N b) : Local V N (fun _ => True) (refs b) := by
  refine Local.onBlk hb (fun B => match B with
      | some ⟨some n, _, _⟩ => (.ok n, none)
      | _ => (.error (.ub "reference count of a block that has none"), none)) (fun s => ?_) fun _ _ _ => trivial
  unfold refs
  cases s.heap b with
  | none => rfl
  | some B => obtain ⟨rc, _, _⟩ := B; cases rc <;> rfl

theorem setRefs_local {b : Nat} (hb : ¬ N b) (n : Nat) : Local V N (fun _ => True) (setRefs b n) := by
  refine Local.onBlk hb (fun B => match B with
      | some ⟨some _, src, cells⟩ => (.ok (), some (some ⟨some n, src, cells⟩))
      | _ => (.error (.ub "reference count of a block that has none"), none)) (fun s => ?_) fun _ _ _ => trivial
  unfold setRefs
  cases s.heap b with
  | none => rfl
  | some B => obtain ⟨rc, _, _⟩ := B; cases rc <;> rfl

theorem incrementRefs_local [Mine V] {b : Nat} (hb : ¬ N b) :
    Local V N (fun _ => True) (incrementRefs b) := by
  unfold incrementRefs
  localize

theorem decrementRefs_local [Mine V] (al : Nat) {b : Nat} (hb : ¬ N b) :
    Local V N (fun _ => True) (decrementRefs cfg al b) := by
  unfold decrementRefs
  localize

theorem lengthError_local {P : β → Prop} : Local V N P (lengthError : M β) :=
  ⟨fun _ h => ⟨h.vars, h.fresh⟩, fun _ _ => ⟨fun _ _ => rfl, fun _ _ => rfl⟩, (fun _ _ _ hb => by cases hb),
    fun _ _ _ ha => ⟨rfl, ha.vars, ha.heap, ha.next, rfl, ha.lost⟩⟩

theorem largeBytes_local (size : Nat) :
    Local V N (fun _ => True) (largeBytes cfg size) := by
  unfold largeBytes
  localize

theorem create_local [Mine V] (al : Nat) (size : Nat) :
    Local V N (fun r => ¬ N r.1) (create cfg al size) := by
  unfold create
  localize

theorem copyBlk_local [Mine V] {a : Nat} (ha : ¬ N a) {b : Nat} (hb : ¬ N b) (k : Nat) :
    Local V N (fun _ => True) (copyBlk a b k) := by
  unfold copyBlk
  localize

theorem checkedRealloc_local {a : Nat} (h : ¬ N a) (hdr : Bool) (bytes : Nat) : Local V N (fun b => ¬ N b) (checkedRealloc cfg a hdr bytes) := by
  constructor
  · intro s hs
    unfold checkedRealloc
    repeat' split
    · exact hs
    · exact ⟨hs.vars, fun b hb => Nat.lt_succ_of_lt (hs.fresh b hb)⟩
    · exact ⟨hs.vars, fun b hb => Nat.lt_succ_of_lt (hs.fresh b hb)⟩
  · intro s hs
    unfold checkedRealloc
    repeat' split
    · exact Spared.refl s
    · refine ⟨fun _ _ => rfl, fun b hb => ?_⟩
      refine (upd_other _ _ (Nat.ne_of_lt (hs.fresh b hb))).trans (upd_other _ _ fun e => ?_)
      exact h (e ▸ hb)
    · refine ⟨fun _ _ => rfl, fun b hb => upd_other _ _ fun e => ?_⟩
      exact h (e ▸ hb)
  · intro s hs b hb
    unfold checkedRealloc at hb
    repeat' split at hb
    · cases hb
    · cases hb
      exact fun h => Nat.lt_irrefl _ (hs.fresh _ h)
    · cases hb
  · intro s hs s' ha
    unfold checkedRealloc
    rw [ha.next, ha.heap a h]
    repeat' split
    · exact ⟨rfl, ha⟩
    · refine ⟨rfl, ha.vars, fun b hb => ?_, rfl, ha.refused, ha.lost⟩
      simp only [upd]
      repeat' split
      · rfl
      · rfl
      · exact ha.heap b hb
    · refine ⟨rfl, ha.vars, fun b hb => ?_, rfl, rfl, rfl⟩
      simp only [upd]
      split
      · rfl
      · exact ha.heap b hb

theorem smartRealloc_local [Mine V] (al : Nat) {a : Nat} (ha : ¬ N a) (hdr : Bool) (cur : Nat) (cap : Nat) (new : Nat) :
    Local V N (fun b => ¬ N b) (smartRealloc cfg al a hdr cur cap new) := by
  unfold smartRealloc
  localize

theorem getOb_local {v : Obj} (hv : V v) : Local V N (fun o => o.core.off N) (getOb v) := by
  refine Local.onVar hv (fun x => match x with
      | some o => (.ok o, none)
      | none => (.error (.ub "use of a dead string"), none)) (fun s => ?_) ?_ ?_
  · unfold getOb
    cases s.vars v <;> rfl
  · intro x hx y z h1
    cases x <;> cases h1
  · intro x hx r h
    cases x with
    | none => cases h
    | some o => cases h; exact hx _ rfl

theorem setCore_local {v : Obj} (hv : V v) {c : Core} (hc : c.off N) : Local V N (fun _ => True) (setCore v c) := by
  refine Local.onVar hv (fun x => match x with
      | some o => (.ok (), some (some ⟨c, o.al⟩))
      | none => (.error (.ub "use of a dead string"), none)) (fun s => ?_) ?_ fun _ _ _ _ => trivial
  · unfold setCore
    cases s.vars v <;> rfl
  · intro x hx y z h1 h2
    cases x with
    | none => cases h1
    | some o => cases h1; cases h2; exact hc

theorem newOb_local {v : Obj} (hv : V v) (al : Nat) : Local V N (fun _ => True) (newOb cfg v al) := by
  refine Local.onVar hv (fun x => match x with
      | some _ => (.error (.ub "the object exists already"), none)
      | none => if cfg.arena && cfg.dbg && al == 0 then (.error (.throw "logic_error"), none) else
        (.ok (), some (some ⟨.small (List.replicate (cfg.ms + 1) (some 0)), al⟩))) (fun s => ?_) ?_ fun _ _ _ _ => trivial
  · unfold newOb
    cases s.vars v with
    | none => simp only; split <;> rfl
    | some _ => rfl
  · intro x hx y z h1 h2
    cases x with
    | some _ => cases h1
    | none =>
      simp only at h1
      split at h1
      · cases h1
      · cases h1; cases h2; trivial

theorem dropOb_local {v : Obj} (hv : V v) : Local V N (fun _ => True) (dropOb v) :=
  Local.onVar hv (fun _ => (.ok (), some none)) (fun _ => rfl) (fun _ _ y z h1 h2 => by cases h1; cases h2) fun _ _ _ _ => trivial

theorem constructing_local {v : Obj} (hv : V v) {body : M Unit} (h : Local V N (fun _ => True) body) :
    Local V N (fun _ => True) (constructing v body) := by
  refine h.handle (fun r => match r with
      | .error (.throw w) => (do dropOb v; M.fail (.throw w) : M Unit)
      | .error e => M.fail e
      | .ok b => Pure.pure b)
    (fun s => ?_) fun r _ => ?_
  · unfold constructing
    rcases body s with ⟨r, s1⟩
    cases r with
    | ok b => rfl
    | error e => cases e <;> rfl
  rcases r with e | b
  · cases e with
    | throw w => exact Local.bind (dropOb_local hv) fun _ _ => Local.fail _
    | ub _ => exact Local.fail _
    | assertFail _ => exact Local.fail _
  · exact Local.pure trivial

theorem construct_local {v : Obj} (hv : V v) (al : Nat) {body : M Unit} (h : Local V N (fun _ => True) body) :
    Local V N (fun _ => True) (construct cfg v al body) := by
  unfold construct
  localize

theorem size_local [Mine V] {v : Obj} (hv : V v) :
    Local V N (fun _ => True) (size cfg v) := by
  unfold size
  localize

theorem capacity_local [Mine V] {v : Obj} (hv : V v) :
    Local V N (fun _ => True) (capacity cfg v) := by
  unfold capacity
  localize

theorem dataPtr_local [Mine V] {v : Obj} (hv : V v) :
    Local V N (fun p => p.mine V N) (dataPtr v) := by
  unfold dataPtr
  localize

theorem isShared_local [Mine V] {v : Obj} (hv : V v) :
    Local V N (fun _ => True) (isShared v) := by
  unfold isShared
  localize

theorem setSmallSize_local [Mine V] {v : Obj} (hv : V v) (n : Nat) :
    Local V N (fun _ => True) (setSmallSize cfg v n) := by
  unfold setSmallSize
  localize

theorem release_local [Mine V] {v : Obj} (hv : V v) :
    Local V N (fun _ => True) (release cfg v) := by
  unfold release
  localize

theorem destroy_local [Mine V] {v : Obj} (hv : V v) :
    Local V N (fun _ => True) (destroy cfg v) := by
  unfold destroy
  localize

theorem withTemp_local [Mine V] {t : Obj} (hv : V t) {body : M β} {P : β → Prop} (h : Local V N P body) :
    Local V N P (withTemp cfg t body) := by
  refine h.handle (fun r => match r with
      | .ok b => (do destroy cfg t; Pure.pure b : M β)
      | .error (.throw w) => (do destroy cfg t; M.fail (.throw w) : M β)
      | .error e => M.fail e)
    (fun s => ?_) fun r hr => ?_
  · unfold withTemp
    rcases body s with ⟨r, s1⟩
    cases r with
    | ok b =>
      simp only [bind_apply]
      rcases destroy cfg t s1 with ⟨r, s2⟩
      cases r <;> rfl
    | error e =>
      cases e with
      | ub _ => rfl
      | assertFail _ => rfl
      | throw w =>
        simp only [bind_apply]
        rcases destroy cfg t s1 with ⟨r, s2⟩
        cases r <;> rfl
  rcases r with e | b
  · cases e with
    | throw w => exact Local.bind (destroy_local hv) fun _ _ => Local.fail _
    | ub _ => exact Local.fail _
    | assertFail _ => exact Local.fail _
  · exact Local.bind (destroy_local hv) fun _ _ => Local.pure (hr b rfl)

theorem swap_local [Mine V] {u : Obj} (hu : V u) {v : Obj} (hv : V v) :
    Local V N (fun _ => True) (swap u v) := by
  unfold swap
  localize

theorem initEmpty_local [Mine V] {v : Obj} (hv : V v) :
    Local V N (fun _ => True) (initEmpty cfg v) := by
  unfold initEmpty
  localize

theorem initSmall_local [Mine V] {v : Obj} (hv : V v) {p : Ptr} (hp : p.mine V N) (n : Nat) :
    Local V N (fun _ => True) (initSmall cfg v p n) := by
  unfold initSmall
  localize

theorem initMedium_local [Mine V] {v : Obj} (hv : V v) (al : Nat) {p : Ptr} (hp : p.mine V N) (n : Nat) :
    Local V N (fun _ => True) (initMedium cfg v al p n) := by
  unfold initMedium
  localize

theorem initLarge_local [Mine V] {v : Obj} (hv : V v) (al : Nat) {p : Ptr} (hp : p.mine V N) (n : Nat) :
    Local V N (fun _ => True) (initLarge cfg v al p n) := by
  unfold initLarge
  localize

theorem initData_local [Mine V] {v : Obj} (hv : V v) (al : Nat) {p : Ptr} (hp : p.mine V N) (n : Nat) :
    Local V N (fun _ => True) (initData cfg v al p n) := by
  unfold initData
  localize

theorem initCheck_local [Mine V] {v : Obj} (hv : V v) {p : Ptr} (hp : p.mine V N) (n : Nat) :
    Local V N (fun _ => True) (initCheck cfg v p n) := by
  unfold initCheck
  localize

theorem ctorData_local [Mine V] {v : Obj} (hv : V v) (al : Nat) {p : Ptr} (hp : p.mine V N) (n : Nat) :
    Local V N (fun _ => True) (ctorData cfg v al p n) := by
  unfold ctorData
  localize

theorem ctorEmpty_local [Mine V] {v : Obj} (hv : V v) (al : Nat) :
    Local V N (fun _ => True) (ctorEmpty cfg v al) := by
  unfold ctorEmpty
  localize

theorem copyMedium_local [Mine V] {v : Obj} (hv : V v) (al : Nat) {d : Nat} (hd : ¬ N d) (n : Nat) :
    Local V N (fun _ => True) (copyMedium cfg v al d n) := by
  unfold copyMedium
  localize

theorem copyCore_local [Mine V] {v : Obj} (hv : V v) {r : Ob} (hr : r.core.off N) :
    Local V N (fun _ => True) (copyCore cfg v r) := by
  unfold copyCore
  localize

theorem copyCheck_local [Mine V] {v : Obj} (hv : V v) {u : Obj} (hu : V u) :
    Local V N (fun _ => True) (copyCheck cfg v u) := by
  unfold copyCheck
  localize

theorem ctorCopy_local [Mine V] {v : Obj} (hv : V v) {u : Obj} (hu : V u) :
    Local V N (fun _ => True) (ctorCopy cfg v u) := by
  unfold ctorCopy
  localize

theorem ctorMove_local [Mine V] {v : Obj} (hv : V v) {u : Obj} (hu : V u) :
    Local V N (fun _ => True) (ctorMove cfg v u) := by
  unfold ctorMove
  localize

theorem blockOf_local [Mine V] {v : Obj} (hv : V v) :
    Local V N (fun b => ¬ N b) (blockOf v) := by
  unfold blockOf
  localize

theorem reserveSmall_local [Mine V] {v : Obj} (hv : V v) (n : Nat) :
    Local V N (fun _ => True) (reserveSmall cfg v n) := by
  unfold reserveSmall
  localize

theorem unshare_local [Mine V] {v : Obj} (hv : V v) (n : Nat) :
    Local V N (fun _ => True) (unshare cfg v n) := by
  unfold unshare
  localize

theorem reallocate_local [Mine V] (al : Nat) {d : Nat} (hd : ¬ N d) (size : Nat) (cap : Nat) (n : Nat) :
    Local V N (fun r => ¬ N r.1) (reallocate cfg al d size cap n) := by
  unfold reallocate
  localize

theorem reserveLarge_local [Mine V] {v : Obj} (hv : V v) (n : Nat) :
    Local V N (fun _ => True) (reserveLarge cfg v n) := by
  unfold reserveLarge
  localize

theorem growNascent_local [Mine V] {t : Obj} (ht : V t) {v : Obj} (hv : V v) {d : Nat} (hd : ¬ N d) (k : Nat) (n : Nat) :
    Local V N (fun _ => True) (growNascent cfg t v d k n) := by
  unfold growNascent
  localize

theorem reserveMedium_local [Mine V] {v : Obj} (hv : V v) (n : Nat) :
    Local V N (fun _ => True) (reserveMedium cfg v n) := by
  unfold reserveMedium
  localize

theorem reserveBy_local [Mine V] {v : Obj} (hv : V v) (n : Nat) :
    Local V N (fun _ => True) (reserveBy cfg v n) := by
  unfold reserveBy
  localize

theorem reserveCore_local [Mine V] {v : Obj} (hv : V v) (n : Nat) :
    Local V N (fun _ => True) (reserveCore cfg v n) := by
  unfold reserveCore
  localize

theorem expandTail_local [Mine V] {v : Obj} (hv : V v) (old : Nat) (new : Nat) :
    Local V N (fun p => p.mine V N) (expandTail cfg v old new) := by
  unfold expandTail
  localize

theorem expandNoinit_local [Mine V] {v : Obj} (hv : V v) (delta : Nat) (exp : Bool) :
    Local V N (fun p => p.mine V N) (expandNoinit cfg v delta exp) := by
  unfold expandNoinit
  localize

theorem shrinkSmall_local [Mine V] {v : Obj} (hv : V v) (delta : Nat) :
    Local V N (fun _ => True) (shrinkSmall cfg v delta) := by
  unfold shrinkSmall
  localize

theorem shrinkMedium_local [Mine V] {v : Obj} (hv : V v) {d : Nat} (hd : ¬ N d) (k : Nat) (cap : Nat) (large : Bool) (delta : Nat) :
    Local V N (fun _ => True) (shrinkMedium cfg v d k cap large delta) := by
  unfold shrinkMedium
  localize

theorem shrinkLarge_local [Mine V] {v : Obj} (hv : V v) (al : Nat) {d : Nat} (hd : ¬ N d) (k : Nat) (delta : Nat) :
    Local V N (fun _ => True) (shrinkLarge cfg v al d k delta) := by
  unfold shrinkLarge
  localize

theorem shrink_local [Mine V] {v : Obj} (hv : V v) (delta : Nat) :
    Local V N (fun _ => True) (shrink cfg v delta) := by
  unfold shrink
  localize

theorem mutableData_local [Mine V] {v : Obj} (hv : V v) :
    Local V N (fun p => p.mine V N) (mutableData cfg v) := by
  unfold mutableData
  localize

theorem pushBack_local [Mine V] {v : Obj} (hv : V v) (c : Ch) :
    Local V N (fun _ => True) (pushBack cfg v c) := by
  unfold pushBack
  localize

theorem sane_local [Mine V] {v : Obj} (hv : V v) :
    Local V N (fun _ => True) (sane cfg v) := by
  unfold sane
  localize

theorem checking_local [Mine V] {v : Obj} (hv : V v) {body : M β} {P : β → Prop} (h : Local V N P body) :
    Local V N P (checking cfg v body) := by
  refine h.handle (fun r => match r with
      | .ok b => (do sane cfg v; Pure.pure b : M β)
      | .error (.throw w) => (do sane cfg v; M.fail (.throw w) : M β)
      | .error e => M.fail e)
    (fun s => ?_) fun r hr => ?_
  · unfold checking
    rcases body s with ⟨r, s1⟩
    cases r with
    | ok b =>
      simp only [bind_apply]
      rcases sane cfg v s1 with ⟨r, s2⟩
      cases r <;> rfl
    | error e =>
      cases e with
      | ub _ => rfl
      | assertFail _ => rfl
      | throw w =>
        simp only [bind_apply]
        rcases sane cfg v s1 with ⟨r, s2⟩
        cases r <;> rfl
  rcases r with e | b
  · cases e with
    | throw w => exact Local.bind (sane_local hv) fun _ _ => Local.fail _
    | ub _ => exact Local.fail _
    | assertFail _ => exact Local.fail _
  · exact Local.bind (sane_local hv) fun _ _ => Local.pure (hr b rfl)

theorem checker_local [Mine V] {v : Obj} (hv : V v) {body : M β} {P : β → Prop} (h : Local V N P body) :
    Local V N P (checker cfg v body) := by
  unfold checker
  localize

theorem enforce_local (c : Bool) :
    Local V N (fun _ => True) (enforce c) := by
  unfold enforce
  localize

theorem begin__local [Mine V] {v : Obj} (hv : V v) :
    Local V N (fun p => p.mine V N) (begin_ cfg v) := by
  unfold begin_
  localize

theorem ctorFill_local [Mine V] {v : Obj} (hv : V v) (al : Nat) (n : Nat) (c : Ch) :
    Local V N (fun _ => True) (ctorFill cfg v al n c) := by
  unfold ctorFill
  localize

theorem resize_local [Mine V] {v : Obj} (hv : V v) (n : Nat) (c : Ch) :
    Local V N (fun _ => True) (resize cfg v n c) := by
  unfold resize
  localize

theorem appendCopy_local [Mine V] {v : Obj} (hv : V v) {p : Ptr} (hp : p.mine V N) (n : Nat) {q : Ptr} (_ : q.mine V N) (old : Nat) {r : Ptr} (hr : r.mine V N) :
    Local V N (fun _ => True) (appendCopy cfg v p n q old r) := by
  unfold appendCopy
  localize

theorem append_local [Mine V] {v : Obj} (hv : V v) {p : Ptr} (hp : p.mine V N) (n : Nat) :
    Local V N (fun _ => True) (append cfg v p n) := by
  unfold append
  localize

theorem appendFill_local [Mine V] {v : Obj} (hv : V v) (n : Nat) (c : Ch) :
    Local V N (fun _ => True) (appendFill cfg v n c) := by
  unfold appendFill
  localize

theorem appendStr_local [Mine V] {v : Obj} (hv : V v) {u : Obj} (hu : V u) :
    Local V N (fun _ => True) (appendStr cfg v u) := by
  unfold appendStr
  localize

theorem assignBy_local [Mine V] {v : Obj} (hv : V v) {p : Ptr} (hp : p.mine V N) (n : Nat) (k : Nat) :
    Local V N (fun _ => True) (assignBy cfg v p n k) := by
  unfold assignBy
  localize

theorem assign_local [Mine V] {v : Obj} (hv : V v) {p : Ptr} (hp : p.mine V N) (n : Nat) :
    Local V N (fun _ => True) (assign cfg v p n) := by
  unfold assign
  localize

theorem assignStr_local [Mine V] {v : Obj} (hv : V v) {u : Obj} (hu : V u) :
    Local V N (fun _ => True) (assignStr cfg v u) := by
  unfold assignStr
  localize

theorem assignMove_local [Mine V] {v : Obj} (hv : V v) {u : Obj} (hu : V u) :
    Local V N (fun _ => True) (assignMove cfg v u) := by
  unfold assignMove
  localize

theorem setFront_local [Mine V] {v : Obj} (hv : V v) (c : Ch) :
    Local V N (fun _ => True) (setFront cfg v c) := by
  unfold setFront
  localize

theorem assignChar_local [Mine V] {v : Obj} (hv : V v) (c : Ch) :
    Local V N (fun _ => True) (assignChar cfg v c) := by
  unfold assignChar
  localize

theorem reserve_local [Mine V] {v : Obj} (hv : V v) (n : Nat) :
    Local V N (fun _ => True) (reserve cfg v n) := by
  unfold reserve
  localize

theorem shrinkToFit_local [Mine V] {v : Obj} (hv : V v) :
    Local V N (fun _ => True) (shrinkToFit cfg v) := by
  unfold shrinkToFit
  localize

theorem clear_local [Mine V] {v : Obj} (hv : V v) :
    Local V N (fun _ => True) (clear cfg v) := by
  unfold clear
  localize

theorem popBack_local [Mine V] {v : Obj} (hv : V v) :
    Local V N (fun _ => True) (popBack cfg v) := by
  unfold popBack
  localize

theorem setAt_local [Mine V] {v : Obj} (hv : V v) (i : Nat) (c : Ch) :
    Local V N (fun _ => True) (setAt cfg v i c) := by
  unfold setAt
  localize

theorem readChar_local [Mine V] {p : Ptr} (hp : p.mine V N) :
    Local V N (fun _ => True) (readChar p) := by
  unfold readChar
  localize

theorem getAt_local [Mine V] {v : Obj} (hv : V v) (i : Nat) :
    Local V N (fun _ => True) (getAt v i) := by
  unfold getAt
  localize

theorem atConst_local [Mine V] {v : Obj} (hv : V v) (i : Nat) :
    Local V N (fun _ => True) (atConst cfg v i) := by
  unfold atConst
  localize

theorem setAtChecked_local [Mine V] {v : Obj} (hv : V v) (i : Nat) (c : Ch) :
    Local V N (fun _ => True) (setAtChecked cfg v i c) := by
  unfold setAtChecked
  localize

theorem copyOut_local [Mine V] {v : Obj} (hv : V v) (n : Nat) (pos : Nat) :
    Local V N (fun _ => True) (copyOut cfg v n pos) := by
  unfold copyOut
  localize

theorem posOf_local [Mine V] {v : Obj} (hv : V v) {i : Ptr} (_ : i.mine V N) :
    Local V N (fun _ => True) (posOf cfg v i) := by
  unfold posOf
  localize

theorem insertFillAt_local [Mine V] {v : Obj} (hv : V v) {i : Ptr} (hi : i.mine V N) (n : Nat) (c : Ch) :
    Local V N (fun _ => True) (insertFillAt cfg v i n c) := by
  unfold insertFillAt
  localize

theorem insertRangeAt_local [Mine V] {v : Obj} (hv : V v) {i : Ptr} (hi : i.mine V N) {p : Ptr} (hp : p.mine V N) (n : Nat) :
    Local V N (fun _ => True) (insertRangeAt cfg v i p n) := by
  unfold insertRangeAt
  localize

theorem insertFill_local [Mine V] {v : Obj} (hv : V v) (pos : Nat) (n : Nat) (c : Ch) :
    Local V N (fun _ => True) (insertFill cfg v pos n c) := by
  unfold insertFill
  localize

theorem insert_local [Mine V] {v : Obj} (hv : V v) (pos : Nat) {p : Ptr} (hp : p.mine V N) (n : Nat) :
    Local V N (fun _ => True) (insert cfg v pos p n) := by
  unfold insert
  localize

theorem appendRange_local [Mine V] {v : Obj} (hv : V v) {p : Ptr} (hp : p.mine V N) (n : Nat) :
    Local V N (fun _ => True) (appendRange cfg v p n) := by
  unfold appendRange
  localize

theorem erase_local [Mine V] {v : Obj} (hv : V v) (pos : Nat) (n : Nat) :
    Local V N (fun _ => True) (erase cfg v pos n) := by
  unfold erase
  localize

theorem eraseAt_local [Mine V] {v : Obj} (hv : V v) {i : Ptr} (_ : i.mine V N) (n : Nat) :
    Local V N (fun _ => True) (eraseAt cfg v i n) := by
  unfold eraseAt
  localize

theorem replaceCopy_local [Mine V] {v : Obj} (hv : V v) {t : Obj} (ht : V t) {d : Ptr} (hd : d.mine V N) (k : Nat) (pos : Nat) (n1 : Nat) {p : Ptr} (hp : p.mine V N) (n2 : Nat) :
    Local V N (fun _ => True) (replaceCopy cfg v t d k pos n1 p n2) := by
  unfold replaceCopy
  localize

theorem replaceImpl_local [Mine V] {v : Obj} (hv : V v) {i1 : Ptr} (hi1 : i1.mine V N) (pos : Nat) (n1 : Nat) {p : Ptr} (hp : p.mine V N) (n2 : Nat) :
    Local V N (fun _ => True) (replaceImpl cfg v i1 pos n1 p n2) := by
  unfold replaceImpl
  localize

theorem replaceCheck_local [Mine V] {v : Obj} (hv : V v) {i1 : Ptr} (_ : i1.mine V N) (n1 : Nat) :
    Local V N (fun _ => True) (replaceCheck cfg v i1 n1) := by
  unfold replaceCheck
  localize

theorem replace_local [Mine V] {v : Obj} (hv : V v) (pos : Nat) (n1 : Nat) {p : Ptr} (hp : p.mine V N) (n2 : Nat) :
    Local V N (fun _ => True) (replace cfg v pos n1 p n2) := by
  unfold replace
  localize

theorem replaceFillAt_local [Mine V] {v : Obj} (hv : V v) {i1 : Ptr} (hi1 : i1.mine V N) (n1 : Nat) (n2 : Nat) (c : Ch) :
    Local V N (fun _ => True) (replaceFillAt cfg v i1 n1 n2 c) := by
  unfold replaceFillAt
  localize

theorem replaceFill_local [Mine V] {v : Obj} (hv : V v) (pos : Nat) (n1 : Nat) (n2 : Nat) (c : Ch) :
    Local V N (fun _ => True) (replaceFill cfg v pos n1 n2 c) := by
  unfold replaceFill
  localize

theorem assignFill_local [Mine V] {v : Obj} (hv : V v) (n : Nat) (c : Ch) :
    Local V N (fun _ => True) (assignFill cfg v n c) := by
  unfold assignFill
  localize

theorem building_local [Mine V] {v : Obj} (hv : V v) {body : M Unit} (h : Local V N (fun _ => True) body) :
    Local V N (fun _ => True) (building cfg v body) := by
  refine h.handle (fun r => match r with
      | .error (.throw w) => (do destroy cfg v; M.fail (.throw w) : M Unit)
      | .error e => M.fail e
      | .ok b => Pure.pure b)
    (fun s => ?_) fun r _ => ?_
  · unfold building
    rcases body s with ⟨r, s1⟩
    cases r with
    | ok b => rfl
    | error e =>
      cases e with
      | ub _ => rfl
      | assertFail _ => rfl
      | throw w =>
        simp only [bind_apply]
        rcases destroy cfg v s1 with ⟨r, s2⟩
        cases r <;> rfl
  rcases r with e | b
  · cases e with
    | throw w => exact Local.bind (destroy_local hv) fun _ _ => Local.fail _
    | ub _ => exact Local.fail _
    | assertFail _ => exact Local.fail _
  · exact Local.pure trivial

theorem clone_local [Mine V] {v : Obj} (hv : V v) {u : Obj} (hu : V u) :
    Local V N (fun _ => True) (clone cfg v u) := by
  unfold clone
  localize

theorem substr_local [Mine V] {v : Obj} (hv : V v) {u : Obj} (hu : V u) (pos : Nat) (n : Nat) :
    Local V N (fun _ => True) (substr cfg v u pos n) := by
  unfold substr
  localize

theorem substrMove_local [Mine V] {v : Obj} (hv : V v) {u : Obj} (hu : V u) (pos : Nat) (n : Nat) :
    Local V N (fun _ => True) (substrMove cfg v u pos n) := by
  unfold substrMove
  localize

theorem concat_local [Mine V] {v : Obj} (hv : V v) {u1 : Obj} (hu1 : V u1) {u2 : Obj} (hu2 : V u2) :
    Local V N (fun _ => True) (concat cfg v u1 u2) := by
  unfold concat
  localize

theorem addPart_local [Mine V] {v : Obj} (hv : V v) {u : Obj} (hu : V u) (q : Part) :
    Local V N (fun _ => True) (addPart cfg v u q) := by
  unfold addPart
  localize

theorem addParts_local [Mine V] {v : Obj} (hv : V v) {u : Obj} (hu : V u) (q1 : Part) (q2 : Part) :
    Local V N (fun _ => True) (addParts cfg v u q1 q2) := by
  unfold addParts
  localize

theorem partSize_local [Mine V] {u : Obj} (hu : V u) (q : Part) :
    Local V N (fun _ => True) (partSize cfg u q) := by
  unfold partSize
  localize

theorem plusNew_local [Mine V] {v : Obj} (hv : V v) {u : Obj} (hu : V u) (q1 : Part) (q2 : Part) :
    Local V N (fun _ => True) (plusNew cfg v u q1 q2) := by
  unfold plusNew
  localize

theorem IStream.setstate_local (is : IStream) (e : Bool) (f : Bool) :
    Local V N (fun _ => True) (is.setstate e f) := by
  unfold IStream.setstate
  localize

theorem lineEnd_local (is : IStream) (delim : Ch) (k : Nat) (rest : List Ch) :
    Local V N (fun _ => True) (lineEnd is delim k rest) := by
  unfold lineEnd
  localize

theorem streamGetline_local [Mine V] (is : IStream) {p : Ptr} (hp : p.mine V N) (n : Nat) (delim : Ch) :
    Local V N (fun _ => True) (streamGetline is p n delim) := by
  unfold streamGetline
  localize

theorem getlineLoop_local [Mine V] {v : Obj} (hv : V v) (delim : Ch) :
    ∀ (fuel : Nat) (is : IStream) (n : Nat), Local V N (fun _ => True) (getlineLoop cfg v delim fuel is n)
  | 0, _, _ => Local.ub _
  | fuel + 1, is, n => by
    have ih := getlineLoop_local hv delim fuel
    unfold getlineLoop
    localize

theorem getline_local [Mine V] {v : Obj} (hv : V v) (is : IStream) (delim : Ch) :
    Local V N (fun _ => True) (getline cfg v is delim) := by
  unfold getline
  localize

theorem ctypeSpace_local (c : Ch) :
    Local V N (fun _ => True) (ctypeSpace c) := by
  unfold ctypeSpace
  localize

theorem sentry_local (is : IStream) :
    Local V N (fun _ => True) (sentry is) := by
  unfold sentry
  localize

theorem extractLoop_local [Mine V] {v : Obj} (hv : V v) (is : IStream) :
    ∀ (inp : List Ch) (room k : Nat), Local V N (fun _ => True) (extractLoop cfg v is room inp k)
  | [], room, k => by
    unfold extractLoop
    localize
  | c :: t, room, k => by
    have ih := extractLoop_local hv is t
    unfold extractLoop
    localize

theorem extractEnd_local (is : IStream) (k : Nat) (eof : Bool) :
    Local V N (fun _ => True) (extractEnd is k eof) := by
  unfold extractEnd
  localize

theorem extract_local [Mine V] {v : Obj} (hv : V v) (is : IStream) :
    Local V N (fun _ => True) (extract cfg v is) := by
  unfold extract
  localize

/-- The strings a source lies in. -/
def Src.vars : Src → List Nat
  | .lit _ => []
  | .sub u _ _ => [u]

/-- The strings an operation is called with. -/
def Op.vars : Op → List Nat
  | .makeEmpty v _ | .makeFill v _ _ _ | .destroy v | .assignFill v _ _ | .assignChar v _ | .appendFill v _ _ | .pushBack v _
  | .popBack v | .resize v _ _ | .reserve v _ | .shrinkToFit v | .clear v | .setAt v _ _ | .insertFill v _ _ _ | .erase v _ _
  | .replaceFill v _ _ _ _ | .getline v _ _ | .extract v _ => [v]
  | .copy v u | .move v u | .clone v u | .substr v u _ _ | .substrMove v u _ _ | .concatWith v u _ _ | .swap v u | .assignStr v u
  | .assignMove v u | .appendStr v u => [v, u]
  | .concat v u1 u2 => [v, u1, u2]
  | .make v _ src | .assign v src | .append v src | .appendRange v src | .insert v _ src | .replace v _ _ src => v :: src.vars

theorem Src.resolve_local (src : Src) (h : ∀ u ∈ src.vars, V (.user u)) : Local V N (fun r => r.1.mine V N) src.resolve := by
  cases src with
  | lit xs => exact Local.pure trivial
  | sub u i n =>
    unfold Src.resolve
    refine Local.bind (P := fun p => p.mine V N) ?_ fun p hp => Local.pure (Ptr.mine_add hp i)
    refine Local.bind (getOb_local (h u (by simp [Src.vars]))) fun o ho => Local.pure (Core.ptr_mine ho (h u (by simp [Src.vars])))

/-- An operation works on the strings it is called with and on its local ones, on their blocks and on new ones. -/
theorem op_local [Mine V] (op : Op) (h : ∀ v ∈ op.vars, V (.user v)) : Local V N (fun _ => True) (op.run cfg) := by
  cases op <;> simp only [Op.vars, List.mem_cons, List.not_mem_nil, or_false, forall_eq_or_imp, forall_eq] at h <;> dsimp only [Op.run]
  all_goals first
    | refine Local.bind (Src.resolve_local _ h.2) fun r hr => ?_
    | skip
  all_goals first
    | (obtain ⟨hv, hu, hu2⟩ := h; localize)
    | (obtain ⟨hv, hu⟩ := h; localize)
    | (localize)

end Verif.Str
