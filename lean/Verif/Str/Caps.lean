import Verif.Str.GrowProps

/-!
How large the capacities of strings get: lemmas about the functions of the model.
-/

namespace Verif.Str.Caps

open M

variable {β γ : Type} {cfg : Cfg} {N K : Nat} {s s' : St} {v : Obj}

/-- Whether the object, if it has a block, has a capacity of at most `K`. -/
def Thin (K : Nat) : Option Ob → Prop
  | some ⟨.ml _ _ c _, _⟩ => c ≤ K
  | _ => True

/-- Whether the object, if it has a block, has a size of at most `N`. -/
def Low (N : Nat) : Option Ob → Prop
  | some ⟨.ml _ k _ _, _⟩ => k ≤ N
  | _ => True

/-- No string is longer than `N`. -/
def Short (N : Nat) (s : St) : Prop := ∀ o, Low N (s.vars o)

/-- No string is longer than `N`, and no capacity is above `K`. -/
def Fit (N K : Nat) (s : St) : Prop := ∀ o, Thin K (s.vars o) ∧ Low N (s.vars o)

/-- How the two numbers relate. -/
structure Lim (cfg : Cfg) (N K : Nat) : Prop where
  ok : cfg.Ok
  ms : cfg.ms < N
  two : 2 * cfg.ms ≤ K
  half : 1 + (N - 1) * 3 / 2 ≤ K

theorem Lim.le (h : Lim cfg N K) : N ≤ K := by have := h.half; omega

/-- The lengths have not passed `N` nor come back, and the capacities have not passed `K`. -/
def Even (N K : Nat) (s s' : St) : Prop := ∀ o, (Thin K (s.vars o) → Thin K (s'.vars o)) ∧ (Low N (s'.vars o) ↔ Low N (s.vars o))

theorem Even.refl (s : St) : Even N K s s := fun _ => ⟨id, Iff.rfl⟩

theorem Even.of_vars (h : s'.vars = s.vars) : Even N K s s' := fun o => by rw [h]; exact ⟨id, Iff.rfl⟩

theorem Even.trans {s1 s2 s3 : St} (h : Even N K s1 s2) (h' : Even N K s2 s3) : Even N K s1 s3 :=
  fun o => ⟨fun t => (h' o).1 ((h o).1 t), (h' o).2.trans (h o).2⟩

theorem Even.fit (h : Even N K s s') (hf : Fit N K s) : Fit N K s' := fun o => ⟨(h o).1 (hf o).1, (h o).2.2 (hf o).2⟩

theorem Even.short (h : Even N K s s') (hf : Short N s') : Short N s := fun o => (h o).2.1 (hf o)

theorem Fit.short (h : Fit N K s) : Short N s := fun o => (h o).2

/-- Replacing one object. -/
theorem Even.upd {ob : Option Ob} (h : Thin K (s.vars v) → Thin K ob) (h' : Low N ob ↔ Low N (s.vars v)) :
    Even N K s { s with vars := upd s.vars v ob } := by
  intro o
  by_cases ho : o = v
  · subst ho; simp only [upd_same]; exact ⟨h, h'⟩
  · show (_ → Thin K (Str.upd s.vars v ob o)) ∧ (Low N (Str.upd s.vars v ob o) ↔ _)
    rw [upd_other _ _ ho]
    exact ⟨id, Iff.rfl⟩

theorem Fit.upd {ob : Option Ob} (h : Fit N K s) (h1 : Thin K ob) (h2 : Low N ob) : Fit N K { s with vars := upd s.vars v ob } := by
  intro o
  by_cases ho : o = v
  · subst ho; simp only [upd_same]; exact ⟨h1, h2⟩
  · simp only [upd_other _ _ ho]; exact h o

/-! ### Actions that are even -/

/-- The action is even, whatever becomes of it. -/
structure Evenly (N K : Nat) (x : M β) : Prop where
  keeps : ∀ s, Even N K s (x s).2

theorem Evenly.of_still {x : M β} (h : Still x) : Evenly N K x := ⟨fun s => by rw [h s]; exact Even.refl _⟩

theorem Evenly.pure (b : β) : Evenly N K (pure b : M β) := ⟨fun _ => Even.refl _⟩

theorem Evenly.fail (e : Fault) : Evenly N K (M.fail e : M β) := ⟨fun _ => Even.refl _⟩

theorem Evenly.ub (w : String) : Evenly N K (M.ub w : M β) := Evenly.fail _

theorem Evenly.raise (w : String) : Evenly N K (M.raise w : M β) := Evenly.fail _

theorem Evenly.bind {x : M β} {f : β → M γ} (hx : Evenly N K x) (hf : ∀ b, Evenly N K (f b)) : Evenly N K (x >>= f) := by
  constructor
  intro s
  have h1 := hx.keeps s
  rw [bind_apply]
  rcases e : x s with ⟨r, s1⟩
  rw [e] at h1
  cases r with
  | ok b => exact h1.trans ((hf b).keeps s1)
  | error f => exact h1

theorem Evenly.ite {c : Prop} [Decidable c] {x y : M β} (hx : Evenly N K x) (hy : Evenly N K y) :
    Evenly N K (if c then x else y) := by
  split
  · exact hx
  · exact hy

theorem Evenly.noexcept {x : M β} (hx : Evenly N K x) : Evenly N K (noexcept x) := by
  constructor
  intro s
  have h1 := hx.keeps s
  unfold Str.noexcept
  rcases hxs : x s with ⟨r, s1⟩
  rw [hxs] at h1
  cases r with
  | ok b => exact h1
  | error e => cases e <;> exact h1

theorem Evenly.noexceptIf {c : Bool} {x : M β} (hx : Evenly N K x) : Evenly N K (noexceptIf c x) := by
  unfold Str.noexceptIf
  split
  · exact hx.noexcept
  · exact hx

open Lean Elab Tactic Meta in
/-- Apply the lemma about the action at hand: for `f` it is `f_even` or `f_still`. -/
elab "even_lemma" : tactic => withMainContext do
  let g ← getMainGoal
  let t := (← instantiateMVars (← g.getType)).consumeMData
  unless t.isAppOf ``Evenly do throwError "not Evenly"
  let .const c _ := t.appArg!.consumeMData.getAppFn | throwError "no lemma"
  let special : Option Name := match c with
    | ``Bind.bind => some ``Evenly.bind
    | ``Pure.pure => some ``Evenly.pure
    | ``ite => some ``Evenly.ite
    | ``M.fail => some ``Evenly.fail
    | ``M.ub => some ``Evenly.ub
    | ``M.raise => some ``Evenly.raise
    | ``Str.noexcept => some ``Evenly.noexcept
    | ``Str.noexceptIf => some ``Evenly.noexceptIf
    | _ => none
  let own : Name := `Verif.Str.Caps ++ (c.componentsRev.head!).appendAfter "_even"
  let still : Name := c.appendAfter "_still"
  let env ← getEnv
  match special with
  | some n => replaceMainGoal (← g.apply (← mkConstWithFreshMVarLevels n))
  | none =>
    if env.contains own then replaceMainGoal (← g.apply (← mkConstWithFreshMVarLevels own))
    else if env.contains still then
      let gs ← g.apply (← mkConstWithFreshMVarLevels ``Evenly.of_still)
      let mut out := []
      for g' in gs do out := out ++ (← g'.apply (← mkConstWithFreshMVarLevels still))
      replaceMainGoal out
    else throwError "no lemma"

/-- Split an action into its parts. -/
macro "evened" : tactic => `(tactic| repeat' first
  | even_lemma
  | (intro _; with_reducible refine (?_ : Evenly _ _ _))
  | split
  | extract_lets)

/-- An action given by cases on the memory that leaves the objects alone. -/
macro "even_cases" : tactic => `(tactic| (constructor; intro s; repeat' split) <;> (first
  | exact Even.refl _
  | exact Even.of_vars rfl))

theorem doIf_even (c : Bool) {x : M Unit} (h : Evenly N K x) : Evenly N K (doIf c x) := by
  unfold doIf
  evened
  exact h

theorem writeCells_even (p : Ptr) (cs : List Cell) : Evenly N K (writeCells p cs) := by
  unfold writeCells
  constructor
  intro s
  repeat' split
  all_goals first
    | exact Even.refl _
    | exact Even.of_vars rfl
    | (rename_i h _; refine Even.upd (fun _ => trivial) ?_; simp only [h, Low])

theorem room_even (p : Ptr) : Evenly N K (room p) := by
  unfold room
  even_cases

theorem podFill_even (p : Ptr) (n : Nat) (c : Ch) : Evenly N K (podFill p n c) := by
  unfold podFill
  evened

theorem podCopy_even (p : Ptr) (n : Nat) (q : Ptr) : Evenly N K (podCopy cfg p n q) := by
  unfold podCopy
  evened

theorem podMove_even (p : Ptr) (n : Nat) (q : Ptr) : Evenly N K (podMove p n q) := by
  unfold podMove
  evened

theorem alloc_even (al : Nat) (hdr : Bool) (bytes : Nat) : Evenly N K (alloc cfg al hdr bytes) := by
  unfold alloc
  even_cases

theorem dealloc_even (al : Nat) (b : Nat) : Evenly N K (dealloc cfg al b) := by
  unfold dealloc
  even_cases

theorem setRefs_even (b n : Nat) : Evenly N K (setRefs b n) := by
  unfold setRefs
  even_cases

theorem incrementRefs_even (b : Nat) : Evenly N K (incrementRefs b) := by
  unfold incrementRefs
  evened

theorem decrementRefs_even (al : Nat) (b : Nat) : Evenly N K (decrementRefs cfg al b) := by
  unfold decrementRefs
  evened

theorem lengthError_even : Evenly N K (lengthError : M β) := by
  unfold lengthError
  even_cases

theorem largeBytes_even (n : Nat) : Evenly N K (largeBytes cfg n) := by
  unfold largeBytes
  evened

theorem create_even (al n : Nat) : Evenly N K (create cfg al n) := by
  unfold create
  evened

theorem copyBlk_even (a b k : Nat) : Evenly N K (copyBlk a b k) := by
  unfold copyBlk
  evened

theorem checkedRealloc_even (a : Nat) (hdr : Bool) (bytes : Nat) : Evenly N K (checkedRealloc cfg a hdr bytes) := by
  unfold checkedRealloc
  even_cases

theorem smartRealloc_even (al a : Nat) (hdr : Bool) (cur cap new : Nat) : Evenly N K (smartRealloc cfg al a hdr cur cap new) := by
  unfold smartRealloc
  evened

theorem reallocate_even (al d size cap n : Nat) : Evenly N K (reallocate cfg al d size cap n) := by
  unfold reallocate
  evened

theorem sane_even (v : Obj) : Evenly N K (sane cfg v) := by
  unfold sane
  evened

theorem posOf_even (v : Obj) (i : Ptr) : Evenly N K (posOf cfg v i) := by
  unfold posOf
  evened

theorem initCheck_even (v : Obj) (p : Ptr) (n : Nat) : Evenly N K (initCheck cfg v p n) := by
  unfold initCheck
  evened

theorem appendCopy_even (v : Obj) (p : Ptr) (n : Nat) (q : Ptr) (old : Nat) (r : Ptr) : Evenly N K (appendCopy cfg v p n q old r) := by
  unfold appendCopy
  evened

theorem release_even (v : Obj) : Evenly N K (release cfg v) := by
  unfold release
  evened

theorem checker_even (v : Obj) {x : M β} (h : Evenly N K x) : Evenly N K (checker cfg v x) := by
  unfold checker
  refine (sane_even v).bind fun _ => ⟨fun s => ?_⟩
  have h1 := h.keeps s
  unfold checking
  rcases e : x s with ⟨r, s1⟩
  rw [e] at h1
  have h2 := (sane_even (cfg := cfg) (N := N) (K := K) v).keeps s1
  rcases e2 : sane cfg v s1 with ⟨r2, s2⟩
  rw [e2] at h2
  cases r with
  | ok b => simp only [e2]; cases r2 <;> exact h1.trans h2
  | error f =>
    cases f with
    | throw w => simp only [e2]; cases r2 <;> exact h1.trans h2
    | _ => exact h1

end Verif.Str.Caps
