import Verif.Vector.Zero

/-!
C113: ranges whose elements have another type than the vector's, or do not lie side by side. `copy_from_iterator` at the level of bytes.
-/

namespace Verif.Vector

/-! ### Model -/

/-- The bytes of memory; `none`: not allocated. -/
abbrev ByteMem := Nat → Option UInt8

/-- Read `n` bytes at an address. -/
def readBytes (m : ByteMem) (a : Nat) : Nat → Except Fault Bytes
  | 0 => .ok []
  | n + 1 =>
    match m a with
    | none => .error (.ub "read of memory that is not allocated")
    | some b => do
      let bs ← readBytes m (a + 1) n
      return b :: bs

/-- A range `[first, last)` of iterators: the number of elements, the address `(first + i).operator->()` gives for each `i` up to the number, the
size of the elements the iterators refer to, and whether the iterators have random access. -/
structure Range where
  n : Nat
  ptr : Nat → Nat
  width : Nat
  random : Bool

/-- `T(*it)` for each element of a range from number `i` on, `conv` being the conversion to `T`: the loop of `copy_from_iterator`,
container/stdb_vector.hpp:176-179. -/
def convertLoop (m : ByteMem) (r : Range) (conv : Bytes → Bytes) (i : Nat) : Nat → Except Fault (List (Option UInt8))
  | 0 => .ok []
  | k + 1 => do
    let b ← readBytes m (r.ptr i) r.width
    let bs ← convertLoop m r conv (i + 1) k
    return (conv b).map some ++ bs

/-- `copy_from_iterator`, container/stdb_vector.hpp:167-181, for elements of `size` bytes: the bytes of the destination afterwards (`none`:
still uninitialised). `reloc` is `IsRelocatable<T>`. -/
def copyRangeBytes (m : ByteMem) (reloc : Bool) (size : Nat) (conv : Bytes → Bytes) (r : Range) : Except Fault (List (Option UInt8)) :=
  if reloc && r.random then
    if r.ptr 0 < r.ptr r.n then do
      let bs ← readBytes m (r.ptr 0) (r.n * size)
      return bs.map some
    else .ok (List.replicate (r.n * size) none)
  else convertLoop m r conv 0 r.n

/-! ### Specification -/

/-- The elements of the range can be read, and these are their bytes. -/
def Range.Holds (m : ByteMem) (r : Range) (es : List Bytes) : Prop :=
  es.length = r.n ∧ ∀ i (h : i < es.length), readBytes m (r.ptr i) r.width = .ok es[i]

/-- The bytes of the elements converted to `T`, one after the other. -/
def converted (conv : Bytes → Bytes) (es : List Bytes) : List (Option UInt8) := (es.flatMap conv).map some

/-- The elements lie side by side, as in an array. -/
def Range.Contiguous (r : Range) : Prop := ∀ i, i ≤ r.n → r.ptr i = r.ptr 0 + i * r.width

/-! ### Lemmas -/

theorem readBytes_length {m : ByteMem} {a n : Nat} {bs : Bytes} (h : readBytes m a n = .ok bs) : bs.length = n := by
  induction n generalizing a bs with
  | zero => cases h; rfl
  | succ n ih =>
    unfold readBytes at h
    split at h
    · cases h
    · cases h1 : readBytes m (a + 1) n with
      | error e => rw [h1] at h; cases h
      | ok cs =>
        rw [h1] at h
        cases h
        simp [ih h1]

theorem readBytes_append {m : ByteMem} {a n k : Nat} {bs cs : Bytes} (h1 : readBytes m a n = .ok bs) (h2 : readBytes m (a + n) k = .ok cs) :
    readBytes m a (n + k) = .ok (bs ++ cs) := by
  induction n generalizing a bs with
  | zero =>
    cases h1
    rw [Nat.zero_add]
    exact h2
  | succ n ih =>
    rw [Nat.succ_add]
    unfold readBytes at h1 ⊢
    split at h1
    · cases h1
    · next b hb =>
      cases h3 : readBytes m (a + 1) n with
      | error e => rw [h3] at h1; cases h1
      | ok ds =>
        rw [h3] at h1
        cases h1
        rw [ih h3 (by rw [← h2]; congr 1; omega)]
        rfl

theorem readBytes_fault {m : ByteMem} {a n k : Nat} (hk : k < n) (h : m (a + k) = none) :
    readBytes m a n = .error (.ub "read of memory that is not allocated") := by
  induction n generalizing a k with
  | zero => cases hk
  | succ n ih =>
    unfold readBytes
    cases hb : m a with
    | none => rfl
    | some b =>
      cases k with
      | zero => rw [Nat.add_zero, hb] at h; cases h
      | succ k =>
        have := ih (a := a + 1) (k := k) (by omega) (by rw [← h]; congr 1; omega)
        simp only [this]
        rfl

theorem convertLoop_ok {m : ByteMem} {r : Range} {conv : Bytes → Bytes} {es : List Bytes} {i : Nat}
    (h : ∀ j (hj : j < es.length), readBytes m (r.ptr (i + j)) r.width = .ok es[j]) :
    convertLoop m r conv i es.length = .ok (converted conv es) := by
  induction es generalizing i with
  | nil => rfl
  | cons e es ih =>
    have h0 := h 0 (by simp)
    rw [Nat.add_zero, List.getElem_cons_zero] at h0
    have h1 := ih (i := i + 1) (fun j hj => by
      have := h (j + 1) (by simp [hj])
      rw [List.getElem_cons_succ] at this
      rw [← this]; congr 2; omega)
    simp only [List.length_cons, convertLoop, h0, h1]
    simp [converted]
    rfl

theorem read_contiguous {m : ByteMem} {a w : Nat} {es : List Bytes}
    (h : ∀ j (hj : j < es.length), readBytes m (a + j * w) w = .ok es[j]) : readBytes m a (es.length * w) = .ok es.flatten := by
  induction es generalizing a with
  | nil => simp [readBytes]
  | cons e es ih =>
    have h0 := h 0 (by simp)
    rw [Nat.zero_mul, Nat.add_zero, List.getElem_cons_zero] at h0
    have h1 := ih (a := a + w) (fun j hj => by
      have := h (j + 1) (by simp [hj])
      rw [List.getElem_cons_succ] at this
      rw [← this]; congr 1; rw [Nat.succ_mul]; omega)
    rw [List.length_cons, Nat.succ_mul, Nat.add_comm]
    exact readBytes_append h0 h1

/-! ### Properties -/

/-- C113: element types that are not relocatable, and iterators without random access: every element is converted. -/
theorem ranges_converted {m : ByteMem} {reloc : Bool} {size : Nat} {conv : Bytes → Bytes} {r : Range} {es : List Bytes} (hr : r.Holds m es)
    (hn : reloc = false ∨ r.random = false) : copyRangeBytes m reloc size conv r = .ok (converted conv es) := by
  unfold copyRangeBytes
  rw [if_neg (by rcases hn with h | h <;> simp [h]), ← hr.1]
  exact convertLoop_ok (fun j hj => by rw [Nat.zero_add]; exact hr.2 j hj)

/-- What a relocatable element type gets from a range with random access: the bytes from the first element on. -/
theorem ranges_raw {m : ByteMem} {size : Nat} {conv : Bytes → Bytes} {r : Range} (hr : r.random = true) (hp : r.ptr 0 < r.ptr r.n) :
    copyRangeBytes m true size conv r = (readBytes m (r.ptr 0) (r.n * size)).map (·.map some) := by
  unfold copyRangeBytes
  rw [if_pos (by simp [hr]), if_pos hp]
  cases readBytes m (r.ptr 0) (r.n * size) <;> rfl

/-- C113, what holds: ranges of elements of the vector's own type that lie side by side in memory are copied. Missing: elements of other types
and elements that do not lie side by side (the violations below). -/
theorem ranges_copied_partial {m : ByteMem} {size : Nat} {r : Range} {es : List Bytes} (hr : r.Holds m es) (hw : r.width = size)
    (hs : 0 < size) (hc : r.Contiguous) (hn : 0 < r.n) (reloc : Bool) : copyRangeBytes m reloc size id r = .ok (converted id es) := by
  by_cases h : reloc = false ∨ r.random = false
  · exact ranges_converted hr h
  · rw [not_or, Bool.not_eq_false, Bool.not_eq_false] at h
    obtain ⟨rfl, h2⟩ := h
    have hp : r.ptr 0 < r.ptr r.n := by
      rw [hc r.n (Nat.le_refl _), hw]
      exact Nat.lt_add_of_pos_right (Nat.mul_pos hn hs)
    rw [ranges_raw h2 hp, ← hr.1, ← hw, read_contiguous (es := es) (fun j hj => by
      rw [← hc j (by rw [← hr.1]; omega)]; exact hr.2 j hj)]
    simp [Except.map, converted]

/-- Memory with the given bytes at an address and nothing else. -/
def memAt (a : Nat) (bs : Bytes) : ByteMem := fun x => if a ≤ x then bs[x - a]? else none

/-- An array of elements of `w` bytes at an address. -/
def arrayRange (a n w : Nat) : Range := ⟨n, fun i => a + i * w, w, true⟩

/-- Two elements of four bytes. -/
example : copyRangeBytes (memAt 100 [1, 0, 0, 0, 2, 0, 0, 0]) true 4 id (arrayRange 100 2 4) =
    .ok (converted id [[1, 0, 0, 0], [2, 0, 0, 0]]) := by
  refine ranges_copied_partial ⟨rfl, ?_⟩ rfl (by decide) (fun i _ => rfl) (by decide) true
  intro i hi
  match i, hi with
  | 0, _ => rfl
  | 1, _ => rfl

/-- C113, expected: the elements of every range that can be read are converted to the element type of the vector. -/
def RangesConverted : Prop :=
  ∀ (m : ByteMem) (reloc : Bool) (size : Nat) (conv : Bytes → Bytes) (r : Range) (es : List Bytes), 0 < r.n → r.Holds m es →
    (∀ e ∈ es, (conv e).length = size) → copyRangeBytes m reloc size conv r = .ok (converted conv es)

/-- C113 is violated for all ranges of an array of elements smaller than those of the vector: a `stdb_vector<int>` made from an array of `short`
reads beyond the end of the array. -/
theorem narrow_violated {m : ByteMem} {size : Nat} {conv : Bytes → Bytes} {r : Range} (hr : r.random = true) (hc : r.Contiguous)
    (hn : 0 < r.n) (hw : 0 < r.width) (hs : r.width < size) (hend : m (r.ptr r.n) = none) :
    copyRangeBytes m true size conv r = .error (.ub "read of memory that is not allocated") := by
  have hp : r.ptr r.n = r.ptr 0 + r.n * r.width := hc r.n (Nat.le_refl _)
  rw [ranges_raw hr (by rw [hp]; exact Nat.lt_add_of_pos_right (Nat.mul_pos hn hw))]
  rw [readBytes_fault (k := r.n * r.width) (Nat.mul_lt_mul_of_pos_left hs hn) (by rw [← hp]; exact hend)]
  rfl

example : copyRangeBytes (memAt 100 [1, 0, 2, 0]) true 4 (· ++ [0, 0]) (arrayRange 100 2 2) =
    .error (.ub "read of memory that is not allocated") :=
  narrow_violated rfl (fun _ _ => rfl) (by decide) (by decide) (by decide) rfl

/-- C113 is violated for all ranges of an array of another type of the same size: the elements are reinterpreted, not converted. A
`stdb_vector<float>` made from an array of `int` has the integers' bytes. -/
theorem reinterpreted_violated {m : ByteMem} {conv : Bytes → Bytes} {r : Range} {es : List Bytes} (hr : r.Holds m es)
    (hra : r.random = true) (hc : r.Contiguous) (hn : 0 < r.n) (hw : 0 < r.width) (hdiff : es.flatMap conv ≠ es.flatten) :
    copyRangeBytes m true r.width conv r = .ok (converted id es) ∧
    copyRangeBytes m true r.width conv r ≠ .ok (converted conv es) := by
  have h : copyRangeBytes m true r.width conv r = .ok (converted id es) := by
    rw [← ranges_copied_partial hr rfl hw hc hn true]
    have hp : r.ptr 0 < r.ptr r.n := by
      rw [hc r.n (Nat.le_refl _)]
      exact Nat.lt_add_of_pos_right (Nat.mul_pos hn hw)
    rw [ranges_raw hra hp, ranges_raw hra hp]
  refine ⟨h, fun h2 => hdiff ?_⟩
  rw [h] at h2
  have h3 := Except.ok.inj h2
  unfold converted at h3
  have := (List.map_inj_right (fun x y h => Option.some.inj h)).1 h3
  rw [← this, List.flatMap_id]

/-- Conversion of 4-byte integers 0 and 1 to `float`. -/
def exToFloat : Bytes → Bytes
  | [1, 0, 0, 0] => [0, 0, 128, 63]
  | b => b

example : copyRangeBytes (memAt 100 [1, 0, 0, 0]) true 4 exToFloat (arrayRange 100 1 4) = .ok [some 1, some 0, some 0, some 0] ∧
    converted exToFloat [[1, 0, 0, 0]] = [some 0, some 0, some 128, some 63] := by
  refine ⟨?_, rfl⟩
  exact (reinterpreted_violated (r := arrayRange 100 1 4) (es := [[1, 0, 0, 0]]) (m := memAt 100 [1, 0, 0, 0])
    ⟨rfl, fun i hi => match i, hi with | 0, _ => rfl⟩ rfl (fun _ _ => rfl) (by decide) (by decide) (by decide)).1

/-- C113 is violated for ranges that do not lie side by side, such as those of a `std::deque`: with the second segment at a higher address the
bytes after the first segment are read. -/
theorem segmented_violated {m : ByteMem} {size k : Nat} {conv : Bytes → Bytes} {r : Range} (hr : r.random = true)
    (hup : r.ptr 0 < r.ptr r.n) (hk : k < r.n * size) (hgap : m (r.ptr 0 + k) = none) :
    copyRangeBytes m true size conv r = .error (.ub "read of memory that is not allocated") := by
  rw [ranges_raw hr hup, readBytes_fault hk hgap]
  rfl

/-- A deque of four bytes in two segments, at 100 and at 200; `last` is at the end of the second. -/
def exDeque : Range := ⟨4, fun i => if i < 2 then 100 + i else 200 + (i - 2), 1, true⟩

/-- The memory of the deque. -/
def exDequeMem : ByteMem := fun x => if x = 100 ∨ x = 101 then some 7 else if x = 200 ∨ x = 201 then some 8 else none

example : copyRangeBytes exDequeMem true 1 id exDeque = .error (.ub "read of memory that is not allocated") :=
  segmented_violated (k := 2) rfl (by decide) (by decide) rfl

/-- C113 is violated for ranges whose end is not at a higher address, such as those of a `std::deque` whose second segment is at a lower address
and those of reverse iterators: nothing is copied, and the new elements are uninitialised. -/
theorem descending_violated {m : ByteMem} {size : Nat} {conv : Bytes → Bytes} {r : Range} (hr : r.random = true)
    (hdown : r.ptr r.n ≤ r.ptr 0) : copyRangeBytes m true size conv r = .ok (List.replicate (r.n * size) none) := by
  unfold copyRangeBytes
  rw [if_pos (by simp [hr]), if_neg (Nat.not_lt.2 hdown)]

example : copyRangeBytes (memAt 100 [1, 2, 3]) true 1 id ⟨3, fun i => 102 - i, 1, true⟩ = .ok [none, none, none] :=
  descending_violated rfl (by decide)

/-- C113 is violated. -/
theorem ranges_converted_violated : ¬ RangesConverted := by
  intro h
  have h1 := h exDequeMem true 1 id exDeque [[7], [7], [8], [8]] (by decide)
    ⟨rfl, fun i hi => match i, hi with | 0, _ => rfl | 1, _ => rfl | 2, _ => rfl | 3, _ => rfl⟩ (by decide)
  rw [segmented_violated (k := 2) rfl (by decide) (by decide) rfl] at h1
  cases h1

end Verif.Vector
