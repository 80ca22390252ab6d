import Verif.Vector.Props

/-!
C106: the elements that `stdb_vector(n)` and `resize(n)` add. `construct_range` sets all bytes to zero for the types
that pass the concept `IsZeroInitable`; the specification is the value of `T()`. The model has a small language of object types with the rules of C++ for value-initialisation and for the
type traits the concept uses.
-/

namespace Verif.Vector

open V

/-- The bytes of an object. -/
abbrev Bytes := List UInt8

mutual
/-- Object types. `scalar n`: arithmetic types, enumerations, pointers and pointers to member functions of `n` bytes, whose zero value has
only zero bytes. `memberPtr`: a pointer to a data member, whose null value is -1 (Itanium C++ ABI 2.3). `cls`: a class with its members and,
if it has a default constructor of its own, what that writes. `union`: the same for unions; `init` is a default member initialiser, `first` the first
member, `pad` what the others need beyond it. `declared`: `ZeroInitable<T>` is specialised for the class. Simplification: classes have no padding. -/
inductive Ty where
  | scalar (n : Nat)
  | memberPtr
  | cls (ctor : Option Bytes) (members : Members) (declared : Bool)
  | union (ctor init : Option Bytes) (first : Ty) (pad : Nat)
/-- Members with their default member initialisers. -/
inductive Members where
  | nil
  | cons (ty : Ty) (init : Option Bytes) (rest : Members)
end

mutual
/-- `sizeof`. -/
def Ty.size : Ty → Nat
  | .scalar n => n
  | .memberPtr => 8
  | .cls _ ms _ => ms.size
  | .union _ _ t pad => t.size + pad
def Members.size : Members → Nat
  | .nil => 0
  | .cons t _ ms => t.size + ms.size
end

/-! ### Specification -/

mutual
/-- The bytes of `T()`, C++20 [dcl.init.general]/8: zero-initialisation, then the default constructor if there is one that does
something. -/
def Ty.value : Ty → Bytes
  | .scalar n => List.replicate n 0
  | .memberPtr => List.replicate 8 255
  | .cls (some b) _ _ => b
  | .cls none ms _ => ms.value
  | .union (some b) _ _ _ => b
  | .union none (some b) _ _ => b
  | .union none none t pad => t.value ++ List.replicate pad 0
def Members.value : Members → Bytes
  | .nil => []
  | .cons _ (some b) ms => b ++ ms.value
  | .cons t none ms => t.value ++ ms.value
end

mutual
/-- There is a pointer to a data member among the parts. -/
def Ty.hasMemberPtr : Ty → Bool
  | .scalar _ => false
  | .memberPtr => true
  | .cls _ ms _ => ms.hasMemberPtr
  | .union _ _ t _ => t.hasMemberPtr
def Members.hasMemberPtr : Members → Bool
  | .nil => false
  | .cons t _ ms => t.hasMemberPtr || ms.hasMemberPtr
end

/-! ### Model -/

mutual
/-- `std::is_trivially_default_constructible_v<T>`, used at container/stdb_vector.hpp:71. -/
def Ty.trivial : Ty → Bool
  | .scalar _ | .memberPtr => true
  | .cls ctor ms _ => ctor.isNone && ms.trivial
  | .union ctor init t _ => ctor.isNone && init.isNone && t.trivial
def Members.trivial : Members → Bool
  | .nil => true
  | .cons t init ms => init.isNone && t.trivial && ms.trivial
end

/-- `std::is_class<T>::value`, used at container/stdb_vector.hpp:71: false for unions. -/
def Ty.isClass : Ty → Bool
  | .cls _ _ _ => true
  | _ => false

/-- `ZeroInitable<T>::value`, container/stdb_vector.hpp:57-59. -/
def Ty.declared : Ty → Bool
  | .cls _ _ d => d
  | _ => false

/-- `IsZeroInitable<T>`, container/stdb_vector.hpp:69-71. -/
def Ty.isZeroInitable (t : Ty) : Bool := t.trivial || !t.isClass || t.declared

/-- What `construct_range` leaves in each element, container/stdb_vector.hpp:92-104: `memset` or `new (first) T()`. -/
def Ty.constructed (t : Ty) : Bytes := if t.isZeroInitable then List.replicate t.size 0 else t.value

/-- A vector of elements of the type: `T()` in `Cfg` is what `construct_range` makes. -/
def Ty.cfg (t : Ty) (kind : Kind) (dbg : Bool) (malloc : Nat → Nat → Bool) : Cfg Bytes := ⟨kind, t.size, dbg, malloc, t.constructed, false⟩

/-! ### Properties -/

mutual
theorem Ty.value_zero (t : Ty) (ht : t.trivial = true) (hm : t.hasMemberPtr = false) : t.value = List.replicate t.size 0 := by
  match t with
  | .scalar n => rfl
  | .memberPtr => simp [Ty.hasMemberPtr] at hm
  | .cls none ms d =>
    simp only [Ty.trivial, Option.isNone_none, Bool.true_and] at ht
    simp only [Ty.hasMemberPtr] at hm
    simp only [Ty.value, Ty.size]
    exact ms.value_zero ht hm
  | .cls (some b) ms d => simp [Ty.trivial] at ht
  | .union none none t pad =>
    simp only [Ty.trivial, Option.isNone_none, Bool.true_and] at ht
    simp only [Ty.hasMemberPtr] at hm
    simp only [Ty.value, Ty.size, t.value_zero ht hm, List.replicate_append_replicate]
  | .union none (some b) t pad => simp [Ty.trivial] at ht
  | .union (some b) i t pad => simp [Ty.trivial] at ht
theorem Members.value_zero (ms : Members) (ht : ms.trivial = true) (hm : ms.hasMemberPtr = false) :
    ms.value = List.replicate ms.size 0 := by
  match ms with
  | .nil => rfl
  | .cons t none ms =>
    simp only [Members.trivial, Option.isNone_none, Bool.true_and, Bool.and_eq_true] at ht
    simp only [Members.hasMemberPtr, Bool.or_eq_false_iff] at hm
    simp only [Members.value, Members.size, t.value_zero ht.1 hm.1, ms.value_zero ht.2 hm.2, List.replicate_append_replicate]
  | .cons t (some b) ms => simp [Members.trivial] at ht
end

mutual
theorem Ty.value_not_zero (t : Ty) (ht : t.trivial = true) (hm : t.hasMemberPtr = true) : (255 : UInt8) ∈ t.value := by
  match t with
  | .scalar n => simp [Ty.hasMemberPtr] at hm
  | .memberPtr => simp [Ty.value]
  | .cls none ms d =>
    simp only [Ty.trivial, Option.isNone_none, Bool.true_and] at ht
    simp only [Ty.hasMemberPtr] at hm
    simp only [Ty.value]
    exact ms.value_not_zero ht hm
  | .cls (some b) ms d => simp [Ty.trivial] at ht
  | .union none none t pad =>
    simp only [Ty.trivial, Option.isNone_none, Bool.true_and] at ht
    simp only [Ty.hasMemberPtr] at hm
    exact List.mem_append_left _ (t.value_not_zero ht hm)
  | .union none (some b) t pad => simp [Ty.trivial] at ht
  | .union (some b) i t pad => simp [Ty.trivial] at ht
theorem Members.value_not_zero (ms : Members) (ht : ms.trivial = true) (hm : ms.hasMemberPtr = true) : (255 : UInt8) ∈ ms.value := by
  match ms with
  | .nil => simp [Members.hasMemberPtr] at hm
  | .cons t none ms =>
    simp only [Members.trivial, Option.isNone_none, Bool.true_and, Bool.and_eq_true] at ht
    simp only [Members.hasMemberPtr, Bool.or_eq_true] at hm
    simp only [Members.value, List.mem_append]
    exact hm.elim (fun h => .inl (t.value_not_zero ht.1 h)) (fun h => .inr (ms.value_not_zero ht.2 h))
  | .cons t (some b) ms => simp [Members.trivial] at ht
end

variable {t : Ty} {kind : Kind} {dbg : Bool} {malloc : Nat → Nat → Bool} {w : World Bytes} {i n : Nat} {xs : List Bytes}

/-- The types for which the concept is right: classes that are not declared `ZeroInitable`, and everything else that is
trivially default constructible, in both cases without pointers to data members when that matters. -/
def Ty.Honest (t : Ty) : Prop :=
  t.declared = false ∧ (t.trivial = true → t.hasMemberPtr = false) ∧ (t.trivial = false → t.isClass = true)

theorem Ty.constructed_honest (h : t.Honest) : t.constructed = t.value := by
  obtain ⟨h1, h2, h3⟩ := h
  unfold Ty.constructed
  cases ht : t.trivial with
  | true =>
    have hz : t.isZeroInitable = true := by simp [Ty.isZeroInitable, ht]
    rw [if_pos hz, t.value_zero ht (h2 ht)]
  | false =>
    have hz : t.isZeroInitable = false := by simp [Ty.isZeroInitable, ht, h1, h3 ht]
    rw [hz, if_neg (by simp)]

/-- C106 (partial): `resize(n)` adds elements equal to `T()`. Missing are unions with a constructor or an initialiser and types with
pointers to data members, for which it is false (below), and classes the user has declared `ZeroInitable`. -/
theorem resize_value_initialises_partial (ht : t.Honest) (hg : Good (t.cfg kind dbg malloc)) (hr : Reachable (t.cfg kind dbg malloc) w)
    (hl : Lucky (t.cfg kind dbg malloc) w.mem) (hx : w.Reads i xs) (hfit : Fits (t.cfg kind dbg malloc) n) :
    ∃ w', wstep (t.cfg kind dbg malloc) w (.call i (.resize n)) = (.ok .unit, w') ∧
      Becomes (t.cfg kind dbg malloc) w w' i (xs.take n ++ List.replicate (n - xs.length) t.value) := by
  have := resize_default hg hr hl hx hfit
  simpa only [Ty.cfg, Ty.constructed_honest ht] using this

/-- C106 (partial): so does the constructor `stdb_vector(n)`. -/
theorem ctor_value_initialises_partial (ht : t.Honest) (hg : Good (t.cfg kind dbg malloc)) (hr : Reachable (t.cfg kind dbg malloc) w)
    (hl : Lucky (t.cfg kind dbg malloc) w.mem) (hfit : Fits (t.cfg kind dbg malloc) n) :
    ∃ w', wstep (t.cfg kind dbg malloc) w (.ctorSized n) = (.ok .unit, w') ∧ w'.Reads w.vecs.length (List.replicate n t.value) := by
  obtain ⟨ys, w', hw, e, hr', hw'⟩ := world_ok (op := .ctorSized n) hg hr hl (fun _ _ => hfit) (fun _ _ h => by cases h)
  refine ⟨w', e, ?_⟩
  rw [hw'.reads_iff, hw.len]
  simp [specWorld, Ty.cfg, Ty.constructed_honest ht]

/-- C106 is violated for every trivially default constructible type with a pointer to a data member: the elements added by `resize` are not `T()`. -/
theorem member_pointers_violated (ht : t.trivial = true) (hm : t.hasMemberPtr = true) (hg : Good (t.cfg kind dbg malloc))
    (hr : Reachable (t.cfg kind dbg malloc) w) (hl : Lucky (t.cfg kind dbg malloc) w.mem) (hx : w.Reads i xs)
    (hfit : Fits (t.cfg kind dbg malloc) n) :
    ∃ w' y, wstep (t.cfg kind dbg malloc) w (.call i (.resize n)) = (.ok .unit, w') ∧
      Becomes (t.cfg kind dbg malloc) w w' i (xs.take n ++ List.replicate (n - xs.length) y) ∧ y ≠ t.value := by
  obtain ⟨w', e, hb⟩ := resize_default hg hr hl hx hfit
  refine ⟨w', t.constructed, e, hb, fun h => ?_⟩
  have hz : t.isZeroInitable = true := by simp [Ty.isZeroInitable, ht]
  have := t.value_not_zero ht hm
  rw [← h, Ty.constructed, if_pos hz] at this
  have := (List.mem_replicate.1 this).2
  exact absurd this (by decide)

/-- C106 is violated for every union with a default constructor or a default member initialiser: its elements have zero
bytes instead of what the constructor writes. -/
theorem unions_violated {ctor init : Option Bytes} {f : Ty} {pad : Nat} {b : Bytes} (hb : ctor.or init = some b)
    (hz : b ≠ List.replicate (f.size + pad) 0) :
    (Ty.union ctor init f pad).value = b ∧ (Ty.union ctor init f pad).constructed ≠ b := by
  constructor
  · cases ctor with
    | some c => simp only [Option.or] at hb; simpa [Ty.value] using hb
    | none =>
      cases init with
      | some c => simp only [Option.or] at hb; simpa [Ty.value] using hb
      | none => simp at hb
  · have : (Ty.union ctor init f pad).isZeroInitable = true := by simp [Ty.isZeroInitable, Ty.isClass]
    rw [Ty.constructed, if_pos this]
    exact fun h => hz h.symm

/-- `struct { int32_t a; char* b; int64_t c = 7; }`. -/
def exStruct : Ty := .cls none (.cons (.scalar 4) none (.cons (.scalar 8) none (.cons (.scalar 8) (some [7, 0, 0, 0, 0, 0, 0, 0]) .nil))) false

theorem exStruct_honest : exStruct.Honest := by
  refine ⟨rfl, fun h => ?_, fun _ => rfl⟩
  simp [exStruct, Ty.trivial, Members.trivial] at h

/-- Some vector of that type. -/
def exStructProg : List (WOp Bytes) := [.ctor, .call 0 (.resize 1)]

theorem exStructReach : Reachable (exStruct.cfg .triv true (fun _ _ => true)) (run (exStruct.cfg .triv true (fun _ _ => true)) World.empty exStructProg).2 :=
  ⟨exStructProg, ⟨fun _ _ => rfl, trivial, fun _ _ => rfl, ⟨[], rfl, trivial, by show Fits _ _; unfold Fits; decide⟩, trivial⟩, rfl⟩

example : ∃ w', wstep (exStruct.cfg .triv true (fun _ _ => true)) (run (exStruct.cfg .triv true (fun _ _ => true)) World.empty exStructProg).2 (.ctorSized 3)
      = (.ok .unit, w') ∧ w'.Reads 1 (List.replicate 3 ([0, 0, 0, 0, 0, 0, 0, 0, 0, 0, 0, 0] ++ [7, 0, 0, 0, 0, 0, 0, 0])) := by
  have := ctor_value_initialises_partial (n := 3) exStruct_honest (by unfold Good; decide) exStructReach (fun _ _ => rfl) (by unfold Fits; decide)
  have hn : (run (exStruct.cfg .triv true (fun _ _ => true)) World.empty exStructProg).2.vecs.length = 1 := by decide +kernel
  have hv : exStruct.value = [0, 0, 0, 0, 0, 0, 0, 0, 0, 0, 0, 0] ++ [7, 0, 0, 0, 0, 0, 0, 0] := by decide +kernel
  rwa [hn, hv] at this

/-- `struct { int32_t a; int32_t X::* b; }`. -/
def exMember : Ty := .cls none (.cons (.scalar 4) none (.cons .memberPtr none .nil)) false

example : exMember.trivial = true ∧ exMember.hasMemberPtr = true ∧ exMember.constructed = List.replicate 12 0 ∧
    exMember.value = [0, 0, 0, 0, 255, 255, 255, 255, 255, 255, 255, 255] := by decide +kernel

/-- An empty vector of any type, for the examples. -/
theorem oneVector (t : Ty) : Reachable (t.cfg .triv true (fun _ _ => true)) ⟨World.empty.mem, [some nullVec]⟩ :=
  ⟨[.ctor], ⟨fun _ _ => rfl, trivial, trivial⟩, rfl⟩

example : ∃ w', wstep (exStruct.cfg .triv true (fun _ _ => true)) ⟨World.empty.mem, [some nullVec]⟩ (.call 0 (.resize 2)) = (.ok .unit, w') ∧
      Becomes (exStruct.cfg .triv true (fun _ _ => true)) ⟨World.empty.mem, [some nullVec]⟩ w' 0 ([] ++ List.replicate 2 exStruct.value) :=
  resize_value_initialises_partial (i := 0) (n := 2) (xs := []) exStruct_honest (by unfold Good; decide) (oneVector _) (fun _ _ => rfl) (by unfold World.Reads; rfl)
    (by unfold Fits; decide)

example : ∃ w' y, wstep (exMember.cfg .triv true (fun _ _ => true)) ⟨World.empty.mem, [some nullVec]⟩ (.call 0 (.resize 2)) = (.ok .unit, w') ∧
      Becomes (exMember.cfg .triv true (fun _ _ => true)) ⟨World.empty.mem, [some nullVec]⟩ w' 0 ([] ++ List.replicate 2 y) ∧ y ≠ exMember.value :=
  member_pointers_violated (t := exMember) (i := 0) (n := 2) (xs := []) (by decide) (by decide) (by unfold Good; decide) (oneVector _) (fun _ _ => rfl) (by unfold World.Reads; rfl)
    (by unfold Fits; decide)

/-- `union { int32_t a = 7; int64_t b; }`. -/
example : (Ty.union none (some [7, 0, 0, 0, 0, 0, 0, 0]) (.scalar 4) 4).value = [7, 0, 0, 0, 0, 0, 0, 0] ∧
    (Ty.union none (some [7, 0, 0, 0, 0, 0, 0, 0]) (.scalar 4) 4).constructed ≠ [7, 0, 0, 0, 0, 0, 0, 0] :=
  unions_violated rfl (by decide)

end Verif.Vector
