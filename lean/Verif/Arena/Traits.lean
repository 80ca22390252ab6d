import Verif.Arena.Example

/-!
C110 to C112: which types `Create` and `CreateArray` accept, whose destructors the arena skips, and what is passed to
the constructor.  All of it is decided when the code is compiled, from the declaration of the type; the model has a
small language of declarations with the rules of C++20 for the names and type traits used.
-/

namespace Verif.Arena

/-- Access of a member or a base class. -/
inductive Access where
  | pub | prot | priv
  deriving DecidableEq, Repr

/-- `ArenaFullManagedTag` and `ArenaManagedCreateOnlyTag`, arena/arenahelper.hpp:42-43: each declares a type member. -/
inductive Tag where
  | full | createOnly
  deriving DecidableEq, Repr

/-- A destructor: none declared, `virtual ~T() = default`, or one whose body is identified by a number. -/
inductive Dtor where
  | implicit | virtualDefault | provided (body : Nat)
  deriving DecidableEq, Repr

/-- Arguments of a constructor call: values of the caller (by type), `Arena&`, `memory_resource*` and
`polymorphic_allocator`; the last three are numbered, 0 being those of the arena whose `Create` is called. -/
inductive Arg where
  | value (k : Nat) | arena (i : Nat) | resource (i : Nat) | allocator (i : Nat)
  deriving DecidableEq, Repr

/-- Parameters of constructors; `any` takes everything, such as that of `std::any`. -/
inductive Param where
  | value (k : Nat) | arena | resource | allocator | any
  deriving DecidableEq, Repr

/-- A public constructor: its parameters, or a template `T(Args&&...)` for everything. -/
inductive Ctor where
  | fixed (ps : List Param) | variadic
  deriving DecidableEq, Repr

mutual
/-- Object types. `scalar n`: arithmetic types, enumerations and pointers of `n` bytes. `ref`: a member that is a reference.
`cls`: a class with the tags it declares, its base classes, its data members, its destructor, its public constructors (`[]`:
only those of the compiler) and whether it has virtual functions. `variant`: a `std::variant` that holds `held` and has further
alternatives. Simplifications: no virtual base classes, no padding, aggregates are not initialised from
parentheses. -/
inductive Ty where
  | scalar (n : Nat)
  | ref
  | cls (tags : List (Tag × Access)) (bases members : Parts) (dtor : Dtor) (ctors : List Ctor) (virt : Bool)
  | variant (held : Ty) (others : Parts)
/-- Base classes or members with their access. -/
inductive Parts where
  | nil
  | cons (a : Access) (t : Ty) (rest : Parts)
end

/-- The constructors. -/
def Ty.ctors : Ty → List Ctor
  | .cls _ _ _ _ cs _ => cs
  | _ => []

mutual
/-- `sizeof`, without padding; an empty class has one byte. -/
def Ty.size : Ty → Nat
  | .scalar n => n
  | .ref => 8
  | .cls _ bs ms _ _ _ => max 1 (bs.size + ms.size)
  | .variant t _ => t.size + 8
def Parts.size : Parts → Nat
  | .nil => 0
  | .cons _ t ps => t.size + ps.size
end

/-! ### Specification -/

mutual
/-- The bodies that run when an object of the type is destroyed, [class.dtor]/14: its own, those of the members in reverse order, those of
the base classes in reverse order. -/
def Ty.destroys : Ty → List Nat
  | .scalar _ | .ref => []
  | .cls _ bs ms d _ _ => (match d with | .provided f => [f] | _ => []) ++ ms.destroys ++ bs.destroys
  | .variant t _ => t.destroys
def Parts.destroys : Parts → List Nat
  | .nil => []
  | .cons _ t ps => ps.destroys ++ t.destroys
end

/-- The class itself declares the tag, with this access. -/
def Ty.declares (t : Tag) : Ty → Option Access
  | .cls tags _ _ _ _ _ => tags.lookup t
  | _ => none

mutual
/-- A base class, or one of its base classes and so on, declares the tag. -/
def Ty.inherits (t : Tag) : Ty → Bool
  | .cls _ bs _ _ _ _ => bs.inherits t
  | _ => false
def Parts.inherits (t : Tag) : Parts → Bool
  | .nil => false
  | .cons _ b bs => (b.declares t).isSome || b.inherits t || bs.inherits t
end

/-! ### Model -/

/-- An argument can be passed to a parameter: a `polymorphic_allocator` is made from a `memory_resource*`. -/
def Param.takes : Param → Arg → Bool
  | .value k, .value j => k == j
  | .arena, .arena _ => true
  | .resource, .resource _ => true
  | .allocator, .resource _ => true
  | .allocator, .allocator _ => true
  | .any, _ => true
  | _, _ => false

/-- A list of arguments can be passed. -/
def takesAll : List Param → List Arg → Bool
  | [], [] => true
  | p :: ps, x :: xs => p.takes x && takesAll ps xs
  | _, _ => false

/-- The constructor can be called. -/
def Ctor.takes : Ctor → List Arg → Bool
  | .fixed ps, xs => takesAll ps xs
  | .variadic, _ => true

/-- `std::is_constructible_v`, used at arena/arena.hpp:114 and 680-682. -/
def Ty.constructible (t : Ty) (xs : List Arg) : Bool :=
  if t.ctors.isEmpty then xs.isEmpty else t.ctors.any (·.takes xs)

mutual
/-- `typename U::ArenaManaged_` and `typename U::ArenaManagedSkipDestruct_` in the declarations at arena/arenahelper.hpp:70-71 and 80-81 are
well-formed, [class.member.lookup], [class.access.base]: the name is a public member, declared in the class, which hides those of base
classes, or in a public base class. Tags in several base classes name the same type and are not ambiguous. -/
def Ty.tagged (t : Tag) : Ty → Bool
  | .cls tags bs _ _ _ _ =>
    match tags.lookup t with
    | some a => a == .pub
    | none => bs.tagged t
  | _ => false
def Parts.tagged (t : Tag) : Parts → Bool
  | .nil => false
  | .cons a b bs => (a == .pub && b.tagged t) || bs.tagged t
end

mutual
/-- `std::is_trivially_destructible`, used at arena/arenahelper.hpp:78 and arena/arena.hpp:120. -/
def Ty.trivDtor : Ty → Bool
  | .scalar _ | .ref => true
  | .cls _ bs ms d _ _ => d == .implicit && bs.trivDtor && ms.trivDtor
  | .variant t ps => t.trivDtor && ps.trivDtor
def Parts.trivDtor : Parts → Bool
  | .nil => true
  | .cons _ t ps => t.trivDtor && ps.trivDtor
end

mutual
/-- `std::is_trivial`, used at arena/arena.hpp:113. -/
def Ty.isTrivial : Ty → Bool
  | .scalar _ => true
  | .ref => false
  | .cls _ bs ms d cs v => d == .implicit && cs.isEmpty && !v && bs.isTrivial && ms.isTrivial
  | .variant _ _ => false
def Parts.isTrivial : Parts → Bool
  | .nil => true
  | .cons _ t ps => t.isTrivial && ps.isTrivial
end

mutual
/-- How many classes of the hierarchy have data members. -/
def Ty.dataClasses : Ty → Nat
  | .cls _ bs ms _ _ _ => bs.dataClasses + (match ms with | .nil => 0 | _ => 1)
  | _ => 0
def Parts.dataClasses : Parts → Nat
  | .nil => 0
  | .cons _ t ps => t.dataClasses + ps.dataClasses
end

/-- All members have this access. -/
def Parts.allAccess (a : Access) : Parts → Bool
  | .nil => true
  | .cons b _ ps => a == b && ps.allAccess a

/-- All members have the same access. -/
def Parts.sameAccess : Parts → Bool
  | .nil => true
  | .cons a _ ps => ps.allAccess a

mutual
/-- `std::is_standard_layout`, used at arena/arena.hpp:113; that of a `std::variant` is not specified, here it is false. -/
def Ty.stdLayout : Ty → Bool
  | .scalar _ => true
  | .ref => false
  | .cls t bs ms d cs v => !v && d != .virtualDefault && ms.sameAccess && ms.stdLayout && bs.stdLayout &&
      decide ((Ty.cls t bs ms d cs v).dataClasses ≤ 1)
  | .variant _ _ => false
def Parts.stdLayout : Parts → Bool
  | .nil => true
  | .cons _ t ps => t.stdLayout && ps.stdLayout
end

/-- `is_destructor_skippable`, arena/arenahelper.hpp:76-78, 104-106. -/
def Ty.skippable (t : Ty) : Bool := t.tagged .createOnly || t.trivDtor

/-- `Constructable`, arena/arenahelper.hpp:108-109 with `is_arena_full_managable`, lines 85-86, 101-103. -/
def Ty.constructable (t : Ty) : Bool := t.tagged .full || t.skippable

/-- `VariantWithString`, arena/arena.hpp:104-106: the requirement is on the declaration of `std::holds_alternative` only, which is
valid for every `std::variant`. -/
def Ty.variantWithString : Ty → Bool
  | .variant _ _ => true
  | _ => false

/-- `Creatable`, arena/arena.hpp:112-114. -/
def Ty.creatable (t : Ty) : Bool :=
  t.constructable || (t.stdLayout && t.isTrivial) || t.constructible [.allocator 0] || t.variantWithString

/-- A `new` expression that compiles. -/
def Ty.new (t : Ty) (xs : List Arg) : Option (List Arg) := if t.constructible xs then some xs else none

/-- `Construct<T>`, arena/arena.hpp:677-687: the arguments the constructor gets; `none`: does not compile. -/
def Ty.construct (t : Ty) (xs : List Arg) : Option (List Arg) :=
  if t.constructible (xs ++ [.allocator 0]) then t.new (xs ++ [.resource 0])
  else if t.constructible (.arena 0 :: xs) then t.new (.arena 0 :: xs)
  else t.new xs

/-- `Create<T>(xs...)`, arena/arena.hpp:429-433: the arguments the constructor gets; `none`: does not compile. -/
def Ty.create (t : Ty) (xs : List Arg) : Option (List Arg) := if t.creatable then t.construct xs else none

/-- `CreateArray<T>(n)`, arena/arena.hpp:451-475: likewise for each element. -/
def Ty.createArray (t : Ty) : Option (List Arg) := if t.creatable && t.trivDtor then t.construct [] else none

/-- The call of the arena that `Create<T>` is, arena/arena.hpp:430-444 with `RegisterDestructor`, lines 594-611: a destructor, here the
function `f`, is registered if it is not skippable. -/
def Ty.createOp (t : Ty) (f : Nat) : Op := .create t.size (if t.skippable then none else some f)

/-! ### Lemmas -/

mutual
theorem Ty.trivDtor_destroys : ∀ (t : Ty), t.trivDtor = true → t.destroys = []
  | .scalar _, _ => rfl
  | .ref, _ => rfl
  | .cls tags bs ms d cs v, h => by
    simp only [Ty.trivDtor, Bool.and_eq_true, beq_iff_eq] at h
    obtain ⟨⟨rfl, h2⟩, h3⟩ := h
    simp only [Ty.destroys, Parts.trivDtor_destroys bs h2, Parts.trivDtor_destroys ms h3, List.append_nil]
  | .variant t ps, h => by
    simp only [Ty.trivDtor, Bool.and_eq_true] at h
    exact Ty.trivDtor_destroys t h.1
theorem Parts.trivDtor_destroys : ∀ (ps : Parts), ps.trivDtor = true → ps.destroys = []
  | .nil, _ => rfl
  | .cons _ t ps, h => by
    simp only [Parts.trivDtor, Bool.and_eq_true] at h
    simp only [Parts.destroys, Ty.trivDtor_destroys t h.1, Parts.trivDtor_destroys ps h.2, List.append_nil]
end

mutual
theorem Ty.isTrivial_trivDtor : ∀ (t : Ty), t.isTrivial = true → t.trivDtor = true
  | .scalar _, _ => rfl
  | .ref, _ => rfl
  | .cls tags bs ms d cs v, h => by
    simp only [Ty.isTrivial, Bool.and_eq_true, beq_iff_eq] at h
    obtain ⟨⟨⟨⟨rfl, _⟩, _⟩, h2⟩, h3⟩ := h
    simp only [Ty.trivDtor, Parts.isTrivial_trivDtor bs h2, Parts.isTrivial_trivDtor ms h3]
    rfl
  | .variant t ps, h => by cases h
theorem Parts.isTrivial_trivDtor : ∀ (ps : Parts), ps.isTrivial = true → ps.trivDtor = true
  | .nil, _ => rfl
  | .cons _ t ps, h => by
    simp only [Parts.isTrivial, Bool.and_eq_true] at h
    simp only [Parts.trivDtor, Ty.isTrivial_trivDtor t h.1, Parts.isTrivial_trivDtor ps h.2]
    rfl
end

mutual
theorem Ty.tagged_found (t : Tag) : ∀ (c : Ty), c.tagged t = true → c.declares t = some .pub ∨ (c.declares t = none ∧ c.inherits t = true)
  | .scalar _, h => by cases h
  | .ref, h => by cases h
  | .variant _ _, h => by cases h
  | .cls tags bs ms d cs v, h => by
    unfold Ty.tagged at h
    simp only [Ty.declares, Ty.inherits]
    cases hl : tags.lookup t with
    | some a =>
      rw [hl] at h
      left
      rw [beq_iff_eq.1 h]
    | none =>
      rw [hl] at h
      exact .inr ⟨rfl, Parts.tagged_found t bs h⟩
theorem Parts.tagged_found (t : Tag) : ∀ (bs : Parts), bs.tagged t = true → bs.inherits t = true
  | .nil, h => by cases h
  | .cons a b bs, h => by
    simp only [Parts.tagged, Bool.or_eq_true, Bool.and_eq_true] at h
    simp only [Parts.inherits, Bool.or_eq_true]
    rcases h with ⟨_, h⟩ | h
    · rcases Ty.tagged_found t b h with h | ⟨_, h⟩
      · rw [h]; exact .inl (.inl rfl)
      · exact .inl (.inr h)
    · exact .inr (Parts.tagged_found t bs h)
end

theorem Ty.tagged_declared {t : Tag} {c : Ty} {a : Access} (h : c.declares t = some a) : c.tagged t = (a == .pub) := by
  cases c with
  | cls tags bs ms d cs v =>
    simp only [Ty.declares] at h
    simp only [Ty.tagged, h]
  | _ => cases h

theorem Ty.not_tagged {t : Tag} {c : Ty} (hi : c.inherits t = false) (hd : c.declares t ≠ some .pub) : c.tagged t = false := by
  cases h : c.tagged t with
  | false => rfl
  | true =>
    rcases Ty.tagged_found t c h with h | ⟨_, h⟩
    · exact absurd h hd
    · rw [hi] at h; cases h

end Verif.Arena
