import Verif.Arena.Traits
import Verif.Arena.Nested

/-!
C110: whose destructors the arena runs. C111: what can be created. C112: what the constructor gets.
-/

namespace Verif.Arena

variable {cfg : Cfg} {A : Nat} {st : St} {h : Hist}

/-! ### Sample types -/

/-- A class like `std::string`: a pointer and a destructor that frees memory. -/
def exString : Ty := .cls [] .nil (.cons .priv (.scalar 8) .nil) (.provided 7) [.fixed [], .fixed [.value 0]] false

/-- A class with `ArenaManagedCreateOnlyTag` in its public part. -/
def exBase : Ty := .cls [(.createOnly, .pub)] .nil (.cons .priv .ref .nil) .implicit [.fixed [.arena]] false

/-- A class derived from it with a string of its own. -/
def exDerived : Ty := .cls [] (.cons .pub exBase .nil) (.cons .priv exString .nil) .implicit [.fixed [.arena]] false

/-- A class with `ArenaFullManagedTag` in its public part and a string. -/
def exManaged : Ty := .cls [(.full, .pub)] .nil (.cons .priv exString .nil) .implicit [.fixed [.value 1]] false

/-- `own_arena`, arena/README.md:207-214, with a public constructor. -/
def exOwnArena : Ty := .cls [] .nil (.cons .priv .ref .nil) .implicit [.fixed [.arena]] false

/-- `with_container`, arena/README.md:187-198: the tags are in the private part. -/
def exContainer : Ty :=
  .cls [(.full, .priv), (.createOnly, .priv)] .nil (.cons .priv .ref (.cons .priv exString .nil)) .implicit [.fixed [.arena]] false

/-- `std::pmr::string`. -/
def exPmr : Ty := .cls [] .nil (.cons .priv (.scalar 8) .nil) (.provided 8) [.fixed [], .fixed [.allocator], .fixed [.value 0, .allocator]] false

/-- `std::any`. -/
def exAny : Ty := .cls [] .nil (.cons .priv (.scalar 8) .nil) (.provided 9) [.fixed [], .fixed [.any]] false

/-- The simplest struct, arena/README.md:92-95. -/
def exTrivial : Ty := .cls [] .nil (.cons .pub (.scalar 4) (.cons .pub (.scalar 1) .nil)) .implicit [] false

/-! ### Destructors -/

/-- C110: an object of a class with `ArenaManagedCreateOnlyTag` as a public member gets no destructor call. -/
theorem c110_skip {t : Ty} {f : Nat} {r : Ret} (ht : t.declares .createOnly = some .pub) :
    pending (h ++ [(t.createOp f, r)]) = pending h := by
  have hsk : t.skippable = true := by
    unfold Ty.skippable
    rw [Ty.tagged_declared ht]
    rfl
  unfold Ty.createOp
  rw [hsk]
  simp only [if_true, pending, List.foldl_append, List.foldl_cons, List.foldl_nil]
  rw [if_neg (by intro h; cases h)]
  rfl

example : exBase.declares .createOnly = some .pub := by decide

/-- C110, expected: the destructor of every object that `Create` made runs when the arena is destroyed, if it does something, unless
the class of the object has told the arena that it is safe to skip it, arena/arenahelper.hpp:95-96. -/
def DestructorsRun : Prop :=
  ∀ (cfg : Cfg) (A : Nat) (h : Hist) (st : St) (t : Ty) (f p : Nat) (st' : St), 8 ∣ A → GoodCfg cfg → Sane A cfg → Exec cfg A h st →
    t.declares .createOnly = none → Contract A h (t.createOp f) → step cfg st (t.createOp f) = .ok (.ptr (some p), st') →
    t.destroys = [] ∨ ∃ before after, destroy cfg st' = .ok (before ++ .cleanup ⟨p, f⟩ :: after)

theorem created_derived : ∃ st st', Exec (exCfg true 32 []) 32 [] st ∧
    step (exCfg true 32 []) st (exDerived.createOp 1) = .ok (.ptr (some 64), st') ∧
    destroy (exCfg true 32 []) st' = .ok [.destroyed 4096 4048 none, .dealloc 32, .allocated 16 none, .newblock 0 4096 none,
      .blockAlloc 4096 (some 32), .init] := by
  have h1 : (step (exCfg true 32 []) (mkArena none) (exDerived.createOp 1)).map (fun x => (x.1, destroy (exCfg true 32 []) x.2)) =
      .ok (.ptr (some 64), .ok [.destroyed 4096 4048 none, .dealloc 32, .allocated 16 none, .newblock 0 4096 none,
      .blockAlloc 4096 (some 32), .init]) := by decide +kernel
  cases h2 : step (exCfg true 32 []) (mkArena none) (exDerived.createOp 1) with
  | error e => rw [h2] at h1; cases h1
  | ok x =>
    obtain ⟨a, b⟩ := x
    rw [h2] at h1
    simp only [Except.map, Except.ok.injEq, Prod.mk.injEq] at h1
    obtain ⟨rfl, h3⟩ := h1
    exact ⟨_, b, .init none, h2, h3⟩

/-- C110 is violated: a class derived from one with the tag is taken for one with the tag; its string is never destroyed. -/
theorem c110_violated : ¬ DestructorsRun := by
  intro hall
  obtain ⟨st, st', he, hs, hd⟩ := created_derived
  rcases hall _ 32 _ _ exDerived 1 _ _ (by decide) (exCfg_good _ _ _) (exCfg_sane _ (by decide) _) he (by decide)
    (by decide) hs with h | ⟨b, a, h⟩
  · exact absurd h (by decide)
  · rw [hd] at h
    have h := Except.ok.inj h
    have hm : Ev.cleanup ⟨64, 1⟩ ∈ b ++ Ev.cleanup ⟨64, 1⟩ :: a := by simp
    rw [← h] at hm
    revert hm; decide

theorem Ty.createOp_registers {t : Ty} {f p : Nat} {regs : List Region} (hs : t.skippable = false) :
    registeredBy regs (t.createOp f, .ptr (some p)) = [⟨⟨p, f⟩, ⟨p, t.size⟩ :: regs⟩] := by
  unfold Ty.createOp
  rw [hs]
  rfl

/-- C110, what holds: so it is for classes none of whose base classes has the tag, whatever happens later, at destruction and at `Reset`. Tags
that are not public count as none. Missing: classes that inherit the tag (`c110_violated`). -/
theorem c110_partial (hA : 8 ∣ A) (hc : GoodCfg cfg) (hs : Sane A cfg) (he : Exec cfg A h st) {t : Ty} {f p : Nat} {st1 : St}
    (hi : t.inherits .createOnly = false) (hd : t.declares .createOnly ≠ some .pub) (hop : Contract A h (t.createOp f))
    (hstep : step cfg st (t.createOp f) = .ok (.ptr (some p), st1)) {h' : Hist} {st' : St}
    (hl : Later cfg A (h ++ [(t.createOp f, .ptr (some p))]) st1 h' st') :
    t.destroys = [] ∨
    ((∃ before after, destroy cfg st' = .ok (before ++ .cleanup ⟨p, f⟩ :: after)) ∧
      ∀ r2 st2, step cfg st' .reset = .ok (r2, st2) → ∃ before after, st2.trace = before ++ .cleanup ⟨p, f⟩ :: after) := by
  cases hsk : t.skippable with
  | true =>
    left
    unfold Ty.skippable at hsk
    rw [Ty.not_tagged hi hd, Bool.false_or] at hsk
    exact Ty.trivDtor_destroys t hsk
  | false =>
    right
    obtain ⟨_, _, ⟨b, a, h1, _⟩, h2⟩ := c107_partial hA hc hs he hop hstep (Ty.createOp_registers hsk) hl
    refine ⟨⟨b, a, h1⟩, fun r2 st2 hr => ?_⟩
    obtain ⟨b, a, h1, _⟩ := h2 r2 st2 hr
    exact ⟨b, a, h1⟩

example : ∃ st st1 st', Exec (exCfg true 32 []) 32 [] st ∧
    step (exCfg true 32 []) st (exManaged.createOp 1) = .ok (.ptr (some 64), st1) ∧
    Later (exCfg true 32 []) 32 ([] ++ [(exManaged.createOp 1, .ptr (some 64))]) st1
      ([] ++ [(exManaged.createOp 1, .ptr (some 64))] ++ [(.allocate 5000 8, .ptr (some 4192))]) st' ∧
    ∃ before after, destroy (exCfg true 32 []) st' = .ok (before ++ .cleanup ⟨64, 1⟩ :: after) := by
  have h1 : (step (exCfg true 32 []) (mkArena none) (exManaged.createOp 1)).map (fun x => (x.1,
      (step (exCfg true 32 []) x.2 (.allocate 5000 8)).map (·.1))) = .ok (.ptr (some 64), .ok (.ptr (some 4192))) := by decide +kernel
  cases h2 : step (exCfg true 32 []) (mkArena none) (exManaged.createOp 1) with
  | error e => rw [h2] at h1; cases h1
  | ok x =>
    obtain ⟨a, b⟩ := x
    rw [h2] at h1
    simp only [Except.map, Except.ok.injEq, Prod.mk.injEq] at h1
    obtain ⟨rfl, h3⟩ := h1
    cases h4 : step (exCfg true 32 []) b (.allocate 5000 8) with
    | error e => rw [h4] at h3; cases h3
    | ok y =>
      obtain ⟨c, d⟩ := y
      rw [h4] at h3
      simp only [Except.ok.injEq] at h3
      subst h3
      have hl : Later (exCfg true 32 []) 32 ([] ++ [(exManaged.createOp 1, .ptr (some 64))]) b
          ([] ++ [(exManaged.createOp 1, .ptr (some 64))] ++ [(.allocate 5000 8, .ptr (some 4192))]) d :=
        .step .refl (by decide) (by decide) h4
      refine ⟨mkArena none, b, d, .init none, h2, hl, ?_⟩
      rcases c110_partial (by decide) (exCfg_good _ _ _) (exCfg_sane _ (by decide) _) (.init none) (t := exManaged) (by decide) (by decide)
        (by decide) h2 hl with h | ⟨h, _⟩
      · exact absurd h (by decide)
      · exact h

/-- C110: no destructor is missed by `CreateArray`: it accepts only types whose destruction does nothing. -/
theorem c110_array {t : Ty} {xs : List Arg} (ht : t.createArray = some xs) : t.destroys = [] := by
  unfold Ty.createArray at ht
  split at ht
  · next h =>
    rw [Bool.and_eq_true] at h
    exact Ty.trivDtor_destroys t h.2
  · cases ht

example : exTrivial.createArray = some [] := by decide

/-! ### What can be created -/

/-- C111: a public tag is enough. -/
theorem c111_tagged {t : Ty} {g : Tag} (ht : t.declares g = some .pub) : t.creatable = true := by
  have h := Ty.tagged_declared ht
  unfold Ty.creatable Ty.constructable Ty.skippable
  cases g <;> simp [h]

example : exManaged.declares .full = some .pub ∧ exBase.declares .createOnly = some .pub := by decide

theorem Ty.isTrivial_ctors {t : Ty} (h : t.isTrivial = true) : t.ctors = [] := by
  cases t with
  | cls tags bs ms d cs v =>
    simp only [Ty.isTrivial, Bool.and_eq_true, List.isEmpty_iff] at h
    exact h.1.1.1.2
  | _ => rfl

/-- C111: trivial types with standard layout can be created, also in arrays, and get no arguments. -/
theorem c111_simple {t : Ty} (h1 : t.isTrivial = true) : t.create [] = some [] ∧ t.createArray = some [] := by
  have hd := Ty.isTrivial_trivDtor t h1
  have hc := Ty.isTrivial_ctors h1
  have hcr : t.creatable = true := by simp [Ty.creatable, Ty.constructable, Ty.skippable, hd]
  have hco : t.construct [] = some [] := by simp [Ty.construct, Ty.new, Ty.constructible, hc]
  simp [Ty.create, Ty.createArray, hcr, hd, hco]

example : exTrivial.isTrivial = true ∧ exTrivial.stdLayout = true := by decide

/-- C111, expected (arena/README.md:72, 112-131, 204-214): without a tag and without a constructor for allocators, only trivial classes with
standard layout can be created. -/
def UntaggedAreSimple : Prop :=
  ∀ (t : Ty) (xs ys : List Arg), (∀ g, t.declares g = none ∧ t.inherits g = false) → t.constructible [.allocator 0] = false →
    t.create xs = some ys → t.isTrivial = true ∧ t.stdLayout = true

/-- C111 is violated: `own_arena` of the README, said to be safe from creation in an arena, can be created. -/
theorem c111_violated : ¬ UntaggedAreSimple := by
  intro hall
  have := hall exOwnArena [] [.arena 0] (by intro g; cases g <;> decide) (by decide) (by decide)
  revert this; decide

/-- C111, expected (arena/README.md:71, 187-201): with a tag among its members a class can be created. -/
def MembersAreEnough : Prop :=
  ∀ (t : Ty) (g : Tag), t.declares g ≠ none → t.creatable = true

/-- C111 is violated: the class `with_container` of the README has its tags in its private part and cannot be created. -/
theorem c111_private_violated : ¬ MembersAreEnough := by
  intro hall
  have := hall exContainer .full (by decide)
  revert this; decide

/-- C111, expected (arena/README.md:141-149, 181-182): `CreateArray` is for trivial types with standard layout only. -/
def ArraysAreSimple : Prop :=
  ∀ (t : Ty) (xs : List Arg), t.createArray = some xs → t.isTrivial = true ∧ t.stdLayout = true

/-- C111 is violated: `CreateArray` takes classes with references and constructors. -/
theorem c111_array_violated : ¬ ArraysAreSimple := by
  intro hall
  have := hall exOwnArena [.arena 0] (by decide)
  revert this; decide

/-- C111, what holds: a class whose destruction is not trivial, that is no `std::variant` and has no constructor for an allocator can be
created if and only if it has one of the tags as a public member, when no base class has tags. Missing: classes with trivial
destruction, all of which can be created (`c111_violated`). -/
theorem c111_partial {t : Ty} (hd : t.trivDtor = false) (hv : ∀ a b, t ≠ .variant a b) (hc : t.constructible [.allocator 0] = false)
    (hi : ∀ g, t.inherits g = false) : t.creatable = true ↔ ∃ g, t.declares g = some .pub := by
  constructor
  · intro h
    by_cases h1 : t.declares .full = some .pub
    · exact ⟨_, h1⟩
    · by_cases h2 : t.declares .createOnly = some .pub
      · exact ⟨_, h2⟩
      · exfalso
        have h3 := Ty.not_tagged (hi .full) h1
        have h4 := Ty.not_tagged (hi .createOnly) h2
        have h5 : t.isTrivial = false := by
          cases h : t.isTrivial with
          | false => rfl
          | true => rw [Ty.isTrivial_trivDtor t h] at hd; cases hd
        have h6 : t.variantWithString = false := by
          cases t with
          | variant a b => exact absurd rfl (hv a b)
          | _ => rfl
        simp [Ty.creatable, Ty.constructable, Ty.skippable, h3, h4, hd, hc, h5, h6] at h
  · rintro ⟨g, h⟩
    exact c111_tagged h

example : exManaged.trivDtor = false ∧ exManaged.constructible [.allocator 0] = false ∧ exManaged.creatable = true ∧
    exContainer.trivDtor = false ∧ exContainer.constructible [.allocator 0] = false ∧ exContainer.creatable = false := by decide

/-! ### What the constructor gets -/

/-- The parameter is neither for arenas nor for allocators nor for everything. -/
def Param.plain : Param → Bool
  | .value _ => true
  | .resource => true
  | _ => false

/-- All parameters are such. -/
def Ctor.plain : Ctor → Bool
  | .fixed ps => ps.all Param.plain
  | .variadic => false

/-- The constructor has a parameter for an arena or an allocator. -/
def Ctor.wants : Ctor → Bool
  | .fixed ps => ps.any (fun p => p == .arena || p == .allocator)
  | .variadic => false

theorem takesAll_append : ∀ (ps : List Param) (p : Param) (xs : List Arg) (x : Arg),
    takesAll (ps ++ [p]) (xs ++ [x]) = (takesAll ps xs && p.takes x)
  | [], p, [], x => by simp [takesAll]
  | [], p, y :: xs, x => by cases xs <;> simp [takesAll]
  | q :: ps, p, [], x => by cases ps <;> simp [takesAll]
  | q :: ps, p, y :: xs, x => by
    simp only [List.cons_append, takesAll, takesAll_append ps p xs x, Bool.and_assoc]

theorem takesAll_plain_last {ps : List Param} {xs : List Arg} {i : Nat} (hp : ps.all Param.plain = true) :
    takesAll ps (xs ++ [.allocator i]) = false := by
  rcases List.eq_nil_or_concat ps with rfl | ⟨qs, q, rfl⟩
  · cases xs <;> rfl
  · rw [List.concat_eq_append] at hp ⊢
    rw [takesAll_append]
    simp only [List.all_append, Bool.and_eq_true, List.all_cons] at hp
    have := hp.2.1
    cases q <;> simp [Param.plain, Param.takes] at this ⊢

theorem plain_not {t : Ty} (hp : ∀ c ∈ t.ctors, c.plain = true) (xs : List Arg) (i j : Nat) :
    t.constructible (xs ++ [.allocator i]) = false ∧ t.constructible (.arena j :: xs) = false := by
  unfold Ty.constructible
  by_cases he : t.ctors.isEmpty = true
  · simp [he]
  · simp only [he]
    constructor
    · simp only [Bool.false_eq_true, if_false, List.any_eq_false]
      intro c hc
      have := hp c hc
      cases c with
      | variadic => cases this
      | fixed ps => simp [Ctor.takes, takesAll_plain_last this]
    · simp only [Bool.false_eq_true, if_false, List.any_eq_false]
      intro c hc
      have := hp c hc
      cases c with
      | variadic => cases this
      | fixed ps =>
        cases ps with
        | nil => simp [Ctor.takes, takesAll]
        | cons p ps =>
          simp only [Ctor.plain, List.all_cons, Bool.and_eq_true] at this
          cases p <;> simp_all [Ctor.takes, takesAll, Param.takes, Param.plain]

/-- C112: for classes whose constructors are neither for arenas nor for allocators nor templates for everything, `Create<T>(xs...)` is
`T(xs...)`, as with `make_unique` (arena/README.md:220).  Missing: templates for everything (`c112_violated`). -/
theorem c112_plain_partial {t : Ty} (hc : t.creatable = true) (hp : ∀ c ∈ t.ctors, c.plain = true) (xs : List Arg) :
    t.create xs = if t.constructible xs then some xs else none := by
  obtain ⟨h1, h2⟩ := plain_not hp xs 0 0
  unfold Ty.create Ty.construct Ty.new
  rw [if_pos hc, if_neg (by rw [h1]; decide), if_neg (by rw [h2]; decide)]

example : exManaged.creatable = true ∧ (∀ c ∈ exManaged.ctors, c.plain = true) ∧ exManaged.create [.value 1] = some [.value 1] := by decide

/-- C112: a class with a constructor for an allocator after the arguments, as the containers of `std::pmr` have, gets the memory
resource of this arena. -/
theorem c112_pmr {t : Ty} {ps : List Param} {xs : List Arg} (hc : t.creatable = true) (hm : Ctor.fixed (ps ++ [.allocator]) ∈ t.ctors)
    (hx : takesAll ps xs = true) : t.create xs = some (xs ++ [.resource 0]) := by
  have hne : t.ctors.isEmpty = false := by
    cases h : t.ctors with
    | nil => rw [h] at hm; cases hm
    | cons _ _ => rfl
  have h1 : ∀ a, Param.allocator.takes a = true → t.constructible (xs ++ [a]) = true := by
    intro a ha
    unfold Ty.constructible
    rw [hne]
    simp only [Bool.false_eq_true, if_false, List.any_eq_true]
    exact ⟨_, hm, by simp only [Ctor.takes, takesAll_append, hx, ha, Bool.and_self]⟩
  unfold Ty.create Ty.construct Ty.new
  rw [if_pos hc, if_pos (h1 _ rfl), if_pos (h1 _ rfl)]

example : exPmr.creatable = true ∧ exPmr.create [.value 0] = some [.value 0, .resource 0] ∧ exPmr.create [] = some [.resource 0] := by decide

/-- C112: otherwise a class with a constructor for an `Arena&` before the arguments gets this arena. -/
theorem c112_arena {t : Ty} {ps : List Param} {xs : List Arg} (hc : t.creatable = true) (hm : Ctor.fixed (.arena :: ps) ∈ t.ctors)
    (hx : takesAll ps xs = true) (hno : ∀ c ∈ t.ctors, c.takes (xs ++ [.allocator 0]) = false) : t.create xs = some (.arena 0 :: xs) := by
  have hne : t.ctors.isEmpty = false := by
    cases h : t.ctors with
    | nil => rw [h] at hm; cases hm
    | cons _ _ => rfl
  have h1 : t.constructible (.arena 0 :: xs) = true := by
    unfold Ty.constructible
    rw [hne]
    simp only [Bool.false_eq_true, if_false, List.any_eq_true]
    exact ⟨_, hm, by simp only [Ctor.takes, takesAll, Param.takes, hx, Bool.and_self]⟩
  have h2 : t.constructible (xs ++ [.allocator 0]) = false := by
    unfold Ty.constructible
    rw [hne]
    simp only [Bool.false_eq_true, if_false, List.any_eq_false]
    intro c hc
    rw [hno c hc]; decide
  unfold Ty.create Ty.construct Ty.new
  rw [if_pos hc, if_neg (by rw [h2]; decide), if_pos h1, if_pos h1]

example : exBase.creatable = true ∧ exBase.create [] = some [.arena 0] := by decide

/-- C112: `Create` adds the arena to the arguments or nothing: this arena or its memory resource, once; and what the constructor gets,
it can take. -/
theorem c112_only {t : Ty} {xs ys : List Arg} (h : t.create xs = some ys) :
    t.constructible ys = true ∧ (ys = xs ∨ ys = .arena 0 :: xs ∨ ys = xs ++ [.resource 0]) := by
  unfold Ty.create Ty.construct Ty.new at h
  split at h
  · split at h
    · split at h
      · next h1 => cases h; exact ⟨h1, .inr (.inr rfl)⟩
      · cases h
    · split at h
      · next h1 => cases h; exact ⟨h1, .inr (.inl rfl)⟩
      · split at h
        · next h1 => cases h; exact ⟨h1, .inl rfl⟩
        · cases h
  · cases h

example : exBase.create [.arena 1] = some [.arena 1] ∧ exOwnArena.create [] = some [.arena 0] ∧ exPmr.create [] = some [.resource 0] := by decide

/-- C112, expected (arena/README.md:220): if no constructor of the class asks for an arena or an allocator, `Create<T>(xs...)` is `T(xs...)`. -/
def LikeMakeUnique : Prop :=
  ∀ (t : Ty) (xs : List Arg), t.creatable = true → (∀ c ∈ t.ctors, c.wants = false) → t.constructible xs = true → t.create xs = some xs

/-- C112 is violated: `Create<std::any>()` does not make an empty `std::any` but one that holds the address of the memory resource. -/
theorem c112_violated : ¬ LikeMakeUnique := by
  intro hall
  have := hall exAny [] (by decide) (by decide) (by decide)
  revert this; decide

/-- C112, expected (arena/README.md:236-237): passing an arena by hand to a class with the constructor `T(Arena&)` fails, as the arena
is passed twice. -/
def ArenaPassedTwice : Prop :=
  ∀ (t : Ty) (i : Nat), t.ctors = [.fixed [.arena]] → t.create [.arena i] = none

/-- C112 is violated: the call compiles, also with another arena, which the object then uses though it lives in this one. -/
theorem c112_other_violated : ¬ ArenaPassedTwice := by
  intro hall
  have := hall exBase 1 rfl
  revert this; decide

/-- C112, expected (arena/README.md:186): a class with a constructor for a `memory_resource*` gets that of the arena. -/
def ResourceIsPassed : Prop :=
  ∀ (t : Ty), t.creatable = true → Ctor.fixed [.resource] ∈ t.ctors → t.create [] = some [.resource 0]

/-- C112 is violated: it is asked for constructors with a `polymorphic_allocator` only. -/
theorem c112_resource_violated : ¬ ResourceIsPassed := by
  intro hall
  have := hall (.cls [(.full, .pub)] .nil (.cons .priv exString .nil) .implicit [.fixed [], .fixed [.resource]] false)
    (by decide) (by decide)
  revert this; decide

end Verif.Arena
