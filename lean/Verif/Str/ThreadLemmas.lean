import Verif.Str.Threads
import Verif.Str.News
import Verif.Str.StreamOps
import Verif.Str.Views

/-!
Lemmas about what concerns several threads: strings that are not shared, functions that only read.
-/

namespace Verif.Str

open M

variable {β γ : Type} {cfg : Cfg} {s s' : St} {a a' : Abs}

/-! ### What operations should do concerns only the strings they are called with -/

/-- The same outcome for the strings in `L`, and none for others. -/
def Agree (L : List Nat) (a b : Abs) : Option Out → Option Out → Prop
  | none, none => True
  | some .outOfRange, some .outOfRange => True
  | some (.done a'), some (.done b') => (∀ v ∈ L, a' v = b' v) ∧ ∀ v, v ∉ L → a' v = a v ∧ b' v = b v
  | _, _ => False

theorem Src.chars_local {a b : Abs} {src : Src} (h : ∀ v ∈ src.vars, a v = b v) : src.chars a = src.chars b := by
  cases src with
  | lit xs => rfl
  | sub u i n => simp only [Src.chars, h u (by simp [Src.vars])]

theorem Agree.bind {α : Type} {L : List Nat} {a b : Abs} (x : Option α) {f g : α → Option Out}
    (h : ∀ y, x = some y → Agree L a b (f y) (g y)) : Agree L a b (x >>= f) (x >>= g) := by
  cases x with
  | none => trivial
  | some y => exact h y rfl

theorem Agree.ite {L : List Nat} {a b : Abs} {c : Prop} [Decidable c] {x y x' y' : Option Out}
    (h : Agree L a b x y) (h' : Agree L a b x' y') : Agree L a b (if c then x else x') (if c then y else y') := by
  split <;> assumption

theorem Agree.upd {L : List Nat} {a b : Abs} (h : ∀ v ∈ L, a v = b v) {v : Nat} (hv : v ∈ L) (x : Option (List Ch)) :
    Agree L a b (some (.done (upd a v x))) (some (.done (upd b v x))) := by
  refine ⟨fun i hi => ?_, fun i hi => ?_⟩
  · simp only [Str.upd]; split
    · rfl
    · exact h i hi
  · have : i ≠ v := fun e => hi (e ▸ hv)
    simp [Str.upd, this]

theorem Agree.upd2 {L : List Nat} {a b : Abs} (h : ∀ v ∈ L, a v = b v) {v u : Nat} (hv : v ∈ L) (hu : u ∈ L)
    (x y : Option (List Ch)) :
    Agree L a b (some (.done (Str.upd (Str.upd a v x) u y))) (some (.done (Str.upd (Str.upd b v x) u y))) := by
  refine ⟨fun i hi => ?_, fun i hi => ?_⟩
  · simp only [Str.upd]
    repeat' split
    all_goals first | rfl | exact h i hi
  · have : i ≠ v := fun e => hi (e ▸ hv)
    have : i ≠ u := fun e => hi (e ▸ hu)
    simp [Str.upd, *]

theorem Agree.make {L : List Nat} {a b : Abs} (h : ∀ v ∈ L, a v = b v) {v : Nat} (hv : v ∈ L) (x : List Ch) :
    Agree L a b (a.make v x) (b.make v x) := by
  unfold Abs.make
  rw [h v hv]
  exact Agree.ite (Agree.upd h hv _) trivial

theorem Agree.set {L : List Nat} {a b : Abs} (h : ∀ v ∈ L, a v = b v) {v : Nat} (hv : v ∈ L) (x : List Ch) :
    Agree L a b (a.set v x) (b.set v x) := by
  unfold Abs.set
  exact Agree.ite (Agree.upd h hv _) trivial

/-- What an operation should do concerns the strings it is called with only. -/
theorem spec_local {arena : Bool} {a b : Abs} {op : Op} (h : ∀ v ∈ op.vars, a v = b v) :
    Agree op.vars a b (op.spec arena a) (op.spec arena b) := by
  have hs : ∀ src : Src, (∀ v ∈ src.vars, v ∈ op.vars) → src.chars a = src.chars b :=
    fun src hsrc => Src.chars_local fun v hv => h v (hsrc v hv)
  have h' := h
  cases op
  all_goals
    simp only [Op.vars, List.mem_cons, List.not_mem_nil, or_false, forall_eq_or_imp, forall_eq] at h'
    simp only [Op.spec]
    (try rw [hs _ (fun _ hv => by simp [Op.vars, hv])])
    (try simp only [h'])
    repeat' first
      | trivial
      | exact Agree.make h (by simp [Op.vars]) _
      | exact Agree.set h (by simp [Op.vars]) _
      | exact Agree.upd h (by simp [Op.vars]) _
      | exact Agree.upd2 h (by simp [Op.vars]) (by simp [Op.vars]) _ _
      | (refine Agree.bind _ fun _ _ => ?_)
      | (apply Agree.ite)

/-! ### Functions that only read -/

/-- The action leaves the memory as it is. -/
def Still (x : M β) : Prop := ∀ s, (x s).2 = s

theorem Still.pure (b : β) : Still (pure b : M β) := fun _ => rfl

theorem Still.fail (e : Fault) : Still (M.fail e : M β) := fun _ => rfl

theorem Still.ub (w : String) : Still (M.ub w : M β) := fun _ => rfl

theorem Still.raise (w : String) : Still (M.raise w : M β) := fun _ => rfl

theorem Still.bind {x : M β} {f : β → M γ} (hx : Still x) (hf : ∀ b, Still (f b)) : Still (x >>= f) := by
  intro s
  rw [bind_apply]
  have h := hx s
  rcases hs : x s with ⟨r, s1⟩
  rw [hs] at h
  cases h
  cases r with
  | error e => rfl
  | ok b => exact hf b s1

theorem Still.ite {c : Prop} [Decidable c] {x y : M β} (hx : Still x) (hy : Still y) : Still (if c then x else y) := by
  split
  · exact hx
  · exact hy

open Lean Elab Tactic Meta in
/-- Apply the lemma about the action at hand: for `f` it is `f_still`. -/
elab "still_lemma" : tactic => withMainContext do
  let g ← getMainGoal
  let t := (← instantiateMVars (← g.getType)).consumeMData
  unless t.isAppOf ``Still do throwError "not Still"
  let .const c _ := t.appArg!.consumeMData.getAppFn | throwError "no lemma"
  let n : Name := match c with
    | ``Bind.bind => ``Still.bind
    | ``Pure.pure => ``Still.pure
    | ``ite => ``Still.ite
    | ``M.fail => ``Still.fail
    | ``M.ub => ``Still.ub
    | ``M.raise => ``Still.raise
    | _ => c.appendAfter "_still"
  unless (← getEnv).contains n do throwError "no lemma"
  replaceMainGoal (← g.apply (← mkConstWithFreshMVarLevels n))

/-- Split an action into its parts. -/
macro "stilled" : tactic => `(tactic| repeat' first
  | still_lemma
  | (intro _; with_reducible refine (?_ : Still _))
  | split
  | extract_lets)

theorem assert_still (c : Bool) (msg : String) : Still (assert cfg c msg) := by
  unfold assert
  stilled

theorem enforce_still (c : Bool) : Still (enforce c) := by
  unfold enforce
  stilled

theorem readCells_still (p : Ptr) (n : Nat) : Still (readCells p n) := by
  intro s
  unfold readCells
  repeat' split
  all_goals rfl

theorem getOb_still (v : Obj) : Still (getOb v) := by
  intro s
  unfold getOb
  split <;> rfl

theorem refs_still (b : Nat) : Still (refs b) := by
  intro s
  unfold refs
  split <;> rfl

theorem size_still (v : Obj) : Still (size cfg v) := by
  unfold size
  stilled

theorem capacity_still (v : Obj) : Still (capacity cfg v) := by
  unfold capacity
  stilled

theorem dataPtr_still (v : Obj) : Still (dataPtr v) := by
  unfold dataPtr
  stilled

theorem isShared_still (v : Obj) : Still (isShared v) := by
  unfold isShared
  stilled

theorem readChar_still (p : Ptr) : Still (readChar p) := by
  unfold readChar
  stilled

theorem getAt_still (v : Obj) (i : Nat) : Still (getAt v i) := by
  unfold getAt
  stilled

theorem atConst_still (v : Obj) (i : Nat) : Still (atConst cfg v i) := by
  unfold atConst
  stilled

theorem copyOut_still (v : Obj) (n pos : Nat) : Still (copyOut cfg v n pos) := by
  unfold copyOut
  stilled

theorem startsWith_still (v : Obj) (t : List Ch) : Still (startsWith cfg v t) := by
  unfold startsWith
  stilled

theorem endsWith_still (v : Obj) (t : List Ch) : Still (endsWith cfg v t) := by
  unfold endsWith
  stilled

theorem front_still (v : Obj) : Still (front v) := by
  unfold front
  stilled

theorem back_still (v : Obj) : Still (back cfg v) := by
  unfold back
  stilled

theorem subOf_still (u : Obj) (pos n : Nat) : Still (subOf cfg u pos n) := by
  unfold subOf
  stilled

theorem hash_still (H : List Nat → Nat → Nat) (v : Obj) : Still (hash H cfg v) := by
  unfold hash
  stilled

theorem lengthFrom_still (p : Ptr) (i fuel : Nat) : Still (lengthFrom p i fuel) := by
  induction fuel generalizing i with
  | zero => exact Still.ub _
  | succ fuel ih =>
    unfold lengthFrom
    stilled
    exact ih _

theorem toStdString_still (v : Obj) : Still (toStdString v) := by
  unfold toStdString
  stilled

theorem known_still (cs : List Cell) : Still (known cs) := by
  induction cs with
  | nil => exact Still.pure _
  | cons c t ih =>
    cases c with
    | none => exact Still.ub _
    | some c => exact Still.bind ih fun _ => Still.pure _

theorem ostreamWrite_still (os : OStream) (p : Ptr) (n : Int) : Still (ostreamWrite os p n) := by
  unfold ostreamWrite
  stilled

theorem ostreamInsert_still (os : OStream) (p : Ptr) (n : Int) : Still (ostreamInsert os p n) := by
  unfold ostreamInsert
  stilled

theorem insertTo_still (v : Obj) (os : OStream) : Still (insertTo cfg v os) := by
  unfold insertTo
  stilled

theorem charsFrom_still (v : Obj) (i n : Nat) : Still (charsFrom v i n) := by
  induction n generalizing i with
  | zero => exact Still.pure _
  | succ n ih =>
    unfold charsFrom
    stilled
    exact ih _

theorem contents_still (v : Nat) : Still (contents cfg v) := by
  unfold contents
  stilled

theorem copyCheck_still (v u : Obj) : Still (copyCheck cfg v u) := by
  unfold copyCheck
  stilled

/-! ### What is written -/

/-- `x` changes no object but `v` and no block below `n0`. -/
structure Writes (v : Obj) (n0 : Nat) (P : β → Prop) (x : M β) : Prop where
  next : ∀ s, n0 ≤ s.next → n0 ≤ (x s).2.next
  vars : ∀ s, n0 ≤ s.next → ∀ o, o ≠ v → (x s).2.vars o = s.vars o
  heap : ∀ s, n0 ≤ s.next → ∀ b, b < n0 → (x s).2.heap b = s.heap b
  result : ∀ s, n0 ≤ s.next → ∀ b, (x s).1 = .ok b → P b

variable {v u : Obj} {n0 : Nat}

theorem Still.writes {x : M β} (h : Still x) : Writes v n0 (fun _ => True) x :=
  ⟨fun s hs => by rw [h s]; exact hs, fun s _ _ _ => by rw [h s], fun s _ _ _ => by rw [h s], fun _ _ _ _ => trivial⟩

theorem Writes.pure {P : β → Prop} {b : β} (h : P b) : Writes v n0 P (pure b : M β) :=
  ⟨fun _ hs => hs, fun _ _ _ _ => rfl, fun _ _ _ _ => rfl, fun _ _ _ hb => by cases hb; exact h⟩

theorem Writes.bind {P : β → Prop} {Q : γ → Prop} {x : M β} {f : β → M γ} (hx : Writes v n0 P x)
    (hf : ∀ b, P b → Writes v n0 Q (f b)) : Writes v n0 Q (x >>= f) := by
  have key : ∀ s, n0 ≤ s.next → (∃ b, P b ∧ ∃ s1, x s = (.ok b, s1) ∧ n0 ≤ s1.next ∧ (∀ o, o ≠ v → s1.vars o = s.vars o) ∧
      (∀ b, b < n0 → s1.heap b = s.heap b) ∧ (x >>= f) s = f b s1) ∨
      (∃ e s1, x s = (.error e, s1) ∧ (x >>= f) s = (.error e, s1)) := by
    intro s hs
    rw [bind_apply]
    have h1 := hx.next s hs
    have h2 := hx.vars s hs
    have h3 := hx.heap s hs
    have h4 := hx.result s hs
    rcases hxs : x s with ⟨r, s1⟩
    rw [hxs] at h1 h2 h3 h4
    cases r with
    | error e => exact Or.inr ⟨e, s1, rfl, rfl⟩
    | ok b => exact Or.inl ⟨b, h4 b rfl, s1, rfl, h1, h2, h3, rfl⟩
  constructor
  · intro s hs
    rcases key s hs with ⟨b, hb, s1, _, h1, _, _, e⟩ | ⟨e, s1, h1, h2⟩
    · rw [e]; exact (hf b hb).next s1 h1
    · have := hx.next s hs; rw [h1] at this; rw [h2]; exact this
  · intro s hs o ho
    rcases key s hs with ⟨b, hb, s1, _, h1, h2, _, e⟩ | ⟨e, s1, h1, h2⟩
    · rw [e, (hf b hb).vars s1 h1 o ho, h2 o ho]
    · have := hx.vars s hs o ho; rw [h1] at this; rw [h2]; exact this
  · intro s hs o ho
    rcases key s hs with ⟨b, hb, s1, _, h1, _, h2, e⟩ | ⟨e, s1, h1, h2⟩
    · rw [e, (hf b hb).heap s1 h1 o ho, h2 o ho]
    · have := hx.heap s hs o ho; rw [h1] at this; rw [h2]; exact this
  · intro s hs c hc
    rcases key s hs with ⟨b, hb, s1, _, h1, _, h2, e⟩ | ⟨e, s1, h1, h2⟩
    · rw [e] at hc; exact (hf b hb).result s1 h1 c hc
    · rw [h2] at hc; cases hc

theorem alloc_writes (al : Nat) (hdr : Bool) (bytes : Nat) : Writes v n0 (fun b => n0 ≤ b) (alloc cfg al hdr bytes) := by
  constructor
  · intro s hs
    unfold alloc
    split
    · exact hs
    · split
      · exact Nat.le_succ_of_le hs
      · exact Nat.le_succ_of_le hs
  · intro s hs o ho
    unfold alloc
    split
    · rfl
    · split <;> rfl
  · intro s hs b hb
    unfold alloc
    split
    · rfl
    · split
      · exact upd_other _ _ (by omega)
      · rfl
  · intro s hs b hb
    unfold alloc at hb
    split at hb
    · cases hb
    · split at hb
      · cases hb; exact hs
      · cases hb

theorem writeCells_writes {b : Nat} (hb : n0 ≤ b) (i : Nat) (cs : List Cell) : Writes v n0 (fun _ => True) (writeCells (.blk b i) cs) := by
  constructor
  · intro s hs
    unfold writeCells
    simp only
    repeat' split
    all_goals exact hs
  · intro s hs o ho
    unfold writeCells
    simp only
    repeat' split
    all_goals rfl
  · intro s hs k hk
    unfold writeCells
    simp only
    repeat' split
    · exact upd_other _ _ (by omega)
    all_goals rfl
  · exact fun _ _ _ _ => trivial

theorem podCopy_writes {b : Nat} (hb : n0 ≤ b) (p : Ptr) (n i : Nat) : Writes v n0 (fun _ => True) (podCopy cfg p n (.blk b i)) := by
  unfold podCopy
  split
  · exact Still.writes (by stilled)
  · exact Writes.bind (readCells_still _ _).writes fun _ _ => writeCells_writes hb _ _

theorem setCore_writes (c : Core) : Writes v n0 (fun _ => True) (setCore v c) := by
  constructor
  · intro s hs
    unfold setCore
    split <;> exact hs
  · intro s hs o ho
    unfold setCore
    split
    · exact upd_other _ _ ho
    · rfl
  · intro s hs b hb
    unfold setCore
    split <;> rfl
  · exact fun _ _ _ _ => trivial

theorem newOb_writes (al : Nat) : Writes v n0 (fun _ => True) (newOb cfg v al) := by
  constructor
  · intro s hs
    unfold newOb
    split
    · exact hs
    · split <;> exact hs
  · intro s hs o ho
    unfold newOb
    split
    · rfl
    · split
      · rfl
      · exact upd_other _ _ ho
  · intro s hs b hb
    unfold newOb
    split
    · rfl
    · split <;> rfl
  · exact fun _ _ _ _ => trivial

theorem constructing_writes {body : M Unit} (h : Writes v n0 (fun _ => True) body) :
    Writes v n0 (fun _ => True) (constructing v body) := by
  have key : ∀ s, (constructing v body s).2.next = (body s).2.next ∧ (constructing v body s).2.heap = (body s).2.heap ∧
      ∀ o, o ≠ v → (constructing v body s).2.vars o = (body s).2.vars o := by
    intro s
    unfold constructing
    rcases body s with ⟨r, s1⟩
    cases r with
    | ok _ => exact ⟨rfl, rfl, fun _ _ => rfl⟩
    | error e =>
      cases e with
      | throw w => exact ⟨rfl, rfl, fun o ho => upd_other _ _ ho⟩
      | ub _ => exact ⟨rfl, rfl, fun _ _ => rfl⟩
      | assertFail _ => exact ⟨rfl, rfl, fun _ _ => rfl⟩
  refine ⟨fun s hs => ?_, fun s hs o ho => ?_, fun s hs b hb => ?_, fun _ _ _ _ => trivial⟩
  · rw [(key s).1]; exact h.next s hs
  · rw [(key s).2.2 o ho]; exact h.vars s hs o ho
  · rw [(key s).2.1]; exact h.heap s hs b hb

theorem noexceptIf_state (c : Bool) (x : M β) (s : St) : (noexceptIf c x s).2 = (x s).2 := by
  unfold noexceptIf
  split
  · unfold noexcept
    rcases x s with ⟨r, s1⟩
    cases r with
    | ok _ => rfl
    | error e => cases e <;> rfl
  · rfl

theorem noexceptIf_writes {c : Bool} {x : M β} (h : Writes v n0 (fun _ => True) x) : Writes v n0 (fun _ => True) (noexceptIf c x) := by
  refine ⟨fun s hs => ?_, fun s hs o ho => ?_, fun s hs b hb => ?_, fun _ _ _ _ => trivial⟩ <;> rw [noexceptIf_state]
  · exact h.next s hs
  · exact h.vars s hs o ho
  · exact h.heap s hs b hb

/-- The core of a string without reference count. -/
def Core.plain : Core → Prop
  | .ml _ _ _ true => False
  | _ => True

theorem copyCore_writes {r : Ob} (h : r.core.plain) : Writes v n0 (fun _ => True) (copyCore cfg v r) := by
  obtain ⟨c, al⟩ := r
  unfold copyCore
  cases c with
  | small _ => exact setCore_writes _
  | ml d n cap large =>
    cases large with
    | true => exact h.elim
    | false =>
      unfold copyMedium
      exact Writes.bind (alloc_writes _ _ _) fun b hb => Writes.bind (podCopy_writes hb _ _ _) fun _ _ => setCore_writes _

/-- Copying a string whose characters are not in a counted buffer. -/
theorem ctorCopy_writes {ob : Ob} (hu : s.vars u = some ob) (h : ob.core.plain) (hn : n0 ≤ s.next) :
    (∀ o, o ≠ v → (ctorCopy cfg v u s).2.vars o = s.vars o) ∧ ∀ b, b < n0 → (ctorCopy cfg v u s).2.heap b = s.heap b := by
  have e : (ctorCopy cfg v u s).2 = (construct cfg v ob.al (do copyCore cfg v ob; copyCheck cfg v u) s).2 := by
    unfold ctorCopy
    rw [noexceptIf_state]
    rw [bind_ok (getOb_ok hu)]
  have w : Writes v n0 (fun _ => True) (construct cfg v ob.al (do copyCore cfg v ob; copyCheck cfg v u)) :=
    Writes.bind (newOb_writes _) fun _ _ => constructing_writes
      (Writes.bind (copyCore_writes h) fun _ _ => (copyCheck_still _ _).writes)
  rw [e]
  exact ⟨w.vars s hn, w.heap s hn⟩

/-! ### Strings that are not shared -/

/-- A string that owns its buffer alone. -/
theorem Excl.unshared (hw : WInv cfg s) {v : Nat} (hx : Excl s (.user v)) : ∀ i, i ≠ v → ¬ Shares s i v := by
  intro i hi hs
  obtain ⟨b, h1, h2⟩ := (shares_iff hi).1 hs
  have h2' := h2
  unfold blkOf at h2
  cases hv : s.vars (.user v) with
  | none => rw [hv] at h2; cases h2
  | some ob =>
    obtain ⟨c, al⟩ := ob
    rw [hv] at h2
    cases c with
    | small _ => cases h2
    | ml d n cap large =>
      cases h2
      obtain ⟨B, hB, _, _, _, hl, _⟩ := hw.core _ _ hv
      have hr : B.rc = none ∨ B.rc = some 1 := by
        cases large with
        | false => exact Or.inl (by simpa using hl)
        | true =>
          obtain ⟨B', hB', h⟩ := hx _ _ _ _ hv
          rw [hB] at hB'
          cases hB'
          exact Or.inr h
      have := hw.only hB hr h2' h1
      cases this
      exact hi rfl

theorem bind_ok_inv {x : M β} {f : β → M γ} {c : γ} (h : (x >>= f) s = (.ok c, s')) : ∃ b s1, x s = (.ok b, s1) ∧ f b s1 = (.ok c, s') := by
  rw [bind_apply] at h
  rcases hx : x s with ⟨r, s1⟩
  rw [hx] at h
  cases r with
  | error e => cases h
  | ok b => exact ⟨b, s1, rfl, h⟩

theorem setCore_plain {c : Core} (hc : c.plain) (h : setCore v c s = (.ok (), s')) : ∃ ob, s'.vars v = some ob ∧ ob.core.plain := by
  unfold setCore at h
  split at h
  · cases h
    exact ⟨_, upd_same _ _ _, hc⟩
  · cases h

theorem copyCore_plain {r : Ob} (hr : r.core.plain) (h : copyCore cfg v r s = (.ok (), s')) :
    ∃ ob, s'.vars v = some ob ∧ ob.core.plain := by
  obtain ⟨c, al⟩ := r
  unfold copyCore at h
  cases c with
  | small c => exact setCore_plain (c := .small c) trivial h
  | ml d n cap large =>
    cases large with
    | true => exact hr.elim
    | false =>
      unfold copyMedium at h
      obtain ⟨b, s1, _, h⟩ := bind_ok_inv h
      obtain ⟨_, s2, _, h⟩ := bind_ok_inv h
      exact setCore_plain (by exact trivial) h

theorem of_noexceptIf {c : Bool} {x : M β} {b : β} (h : noexceptIf c x s = (.ok b, s')) : x s = (.ok b, s') := by
  cases c with
  | false => exact h
  | true =>
    have h' : noexcept x s = (.ok b, s') := h
    unfold noexcept at h'
    generalize x s = y at h' ⊢
    obtain ⟨r, s1⟩ := y
    cases r with
    | ok _ => exact h'
    | error e => cases e <;> cases h'

/-- A copy of a string without counted buffer has none either. -/
theorem ctorCopy_plain {ob : Ob} (hu : s.vars u = some ob) (hp : ob.core.plain) (h : ctorCopy cfg v u s = (.ok (), s')) :
    ∃ ob, s'.vars v = some ob ∧ ob.core.plain := by
  have h1 : construct cfg v ob.al (do copyCore cfg v ob; copyCheck cfg v u) s = (.ok (), s') := by
    unfold ctorCopy at h
    have h2 := of_noexceptIf h
    rwa [bind_ok (getOb_ok hu)] at h2
  unfold construct at h1
  obtain ⟨_, s1, _, h1⟩ := bind_ok_inv h1
  have h2 : (do copyCore cfg v ob; copyCheck cfg v u) s1 = (.ok (), s') := by
    unfold constructing at h1
    generalize (do copyCore cfg v ob; copyCheck cfg v u : M Unit) s1 = x at h1 ⊢
    obtain ⟨x, s1⟩ := x
    cases x with
    | ok _ => exact h1
    | error e => cases e <;> cases h1
  obtain ⟨_, s2, h3, h4⟩ := bind_ok_inv h2
  have := copyCheck_still (cfg := cfg) v u s2
  rw [h4] at this
  cases this
  exact copyCore_plain hp h3

theorem Excl.of_plain {ob : Ob} (h : s.vars v = some ob) (hp : ob.core.plain) : Excl s v := by
  intro d n cap al hv
  rw [h] at hv
  cases hv
  exact hp.elim

/-- `clone()` makes a string that owns its buffer alone. -/
theorem clone_excl (hc : cfg.Ok) (hw : WInv cfg s) {cs : List Cell} (hv : s.vars v = none) (hu : Raw cfg s u cs)
    (h : clone cfg v u s = (.ok (), s')) : Excl s' v := by
  have hu0 := hu
  obtain ⟨ob, l, n, hh, rfl⟩ := hu
  have h0 := h
  unfold clone at h
  rw [bind_ok (getOb_ok hh.var)] at h
  obtain ⟨core, al⟩ := ob
  cases core with
  | small c =>
    obtain ⟨ob, h1, h2⟩ := ctorCopy_plain hh.var (by exact trivial) h
    exact Excl.of_plain h1 h2
  | ml d m cap large =>
    cases large with
    | false =>
      obtain ⟨ob, h1, h2⟩ := ctorCopy_plain hh.var (by exact trivial) h
      exact Excl.of_plain h1 h2
    | true =>
      obtain ⟨_, s1, h1, h2⟩ := bind_ok_inv h
      have ht := ctorCopy_tri hc hw hv hu0
      unfold Tri at ht
      rw [h1] at ht
      obtain ⟨w1, f1, r1, sh⟩ := ht
      obtain ⟨hv1, ⟨rc, src, B⟩, hB, r, hr, hr1⟩ := sh d m cap al hh.var
      simp only at hr
      subst hr
      have hm : m = n := by simpa [Core.size?] using hh.size
      subst hm
      have hH : Holds cfg s1 v ⟨.ml d m cap true, al⟩ B m := ⟨hv1, by simp [cellsOf, hB], rfl⟩
      have hun := unshare_tri hc w1 (n := 0) hH hB hr1
      unfold Tri at hun
      unfold building at h2
      generalize unshare cfg v 0 s1 = x at hun h2
      obtain ⟨x, s2⟩ := x
      cases x with
      | ok _ =>
        cases h2
        obtain ⟨_, _, _, _, _, _, g, _⟩ := hun
        exact g
      | error e =>
        cases e with
        | throw w =>
          simp only at h2
          split at h2 <;> cases h2
        | ub w => cases h2
        | assertFail w => cases h2

end Verif.Str
