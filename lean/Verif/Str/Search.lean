import Verif.Base

/-!
Model of the searching and comparing members of `basic_string`
(`/repo/string/string.hpp`), which only read the characters.

A string is the list of its code units. A pointer into the characters is an
index; every read goes through `rd`, which faults outside the array, so
"never reads outside" is part of what is proved. `size_type` arithmetic that
could wrap is written with `add64` and `sub64`.
-/

namespace Verif.Str

/-- A code unit (`value_type`), as an unsigned number. `char_traits<char>`
compares as unsigned, as does `char_traits<char16_t>` and `<char32_t>`. -/
abbrev Ch := Nat

/-- `npos`, `string.hpp` L1070. -/
def npos : Nat := M64 - 1

/-- Reading `p[i]` from an array holding exactly the elements of `l`. -/
def rd (l : List Ch) (i : Nat) : Except Fault Ch :=
  match l[i]? with
  | some c => .ok c
  | none => .error (.ub "read outside the array")

/-! ### find, `string.hpp` L1950-2010 -/

/-- `while (i[nsize_1] != lastNeedle) { if (++i == iEnd) return npos; }`,
`string.hpp` L1980-1985. `none` is the early return. The guard `i < iEnd` is
the outer loop's condition (L1978); it makes the recursion well-founded. -/
def scanLast (hay : List Ch) (last : Ch) (n1 iEnd i : Nat) : Except Fault (Option Nat) :=
  if i < iEnd then do
    let c ← rd hay (i + n1)
    if c ≠ last then
      if i + 1 = iEnd then pure none else scanLast hay last n1 iEnd (i + 1)
    else pure (some i)
  else .error (.ub "find: scan past the end")
termination_by iEnd - i

/-- `for (size_t j = 0;;) { if (i[j] != needle[j]) … if (++j == nsize) … }`,
`string.hpp` L1988-2007, with the debug assertion of L1989. -/
def matchFrom (hay needle : List Ch) (i j : Nat) : Except Fault Bool :=
  if j < needle.length then do
    let a ← rd hay (i + j)
    let b ← rd needle j
    if a ≠ b then pure false
    else if j + 1 = needle.length then pure true
    else matchFrom hay needle i (j + 1)
  else .error (.assertFail "find index can not overflow the size")
termination_by needle.length - j

/-- `while (skip <= nsize_1 && needle[nsize_1 - skip] != lastNeedle) ++skip;`,
`string.hpp` L1993-1998. -/
def computeSkip (needle : List Ch) (last : Ch) (n1 skip : Nat) : Except Fault Nat :=
  if skip ≤ n1 then do
    let c ← rd needle (n1 - skip)
    if c ≠ last then computeSkip needle last n1 (skip + 1) else pure skip
  else pure skip
termination_by n1 + 1 - skip

/-- The outer loop, `string.hpp` L1978-2009; `skip = 0` is "not yet computed".
A fresh skip is at least 1 (`computeSkip_pos`), a stored one is non-zero. -/
def findLoop (hay needle : List Ch) (last : Ch) (n1 iEnd i skip : Nat) : Except Fault Nat :=
  if _h : i < iEnd then
    match scanLast hay last n1 iEnd i with
    | .error e => .error e
    | .ok none => .ok npos
    | .ok (some k) =>
      match matchFrom hay needle k 0 with
      | .error e => .error e
      | .ok true => .ok k
      | .ok false =>
        match (if skip = 0 then computeSkip needle last n1 1 else .ok skip) with
        | .error e => .error e
        | .ok sk =>
          if _hk : i < k + sk then findLoop hay needle last n1 iEnd (k + sk) sk
          else .error (.ub "find: no progress")
  else .ok npos
termination_by iEnd - i

/-- `find(needle, pos, nsize)`, `string.hpp` L1950-2010. -/
def find (hay needle : List Ch) (pos : Nat) : Except Fault Nat :=
  let size := hay.length
  let nsize := needle.length
  if add64 nsize pos > size ∨ add64 nsize pos < pos then .ok npos
  else if nsize = 0 then .ok pos
  else do
    let n1 := nsize - 1
    let last ← rd needle n1
    findLoop hay needle last n1 (size - n1) pos 0

/-- `find(c, pos)`, `string.hpp` L1627. -/
def findChar (hay : List Ch) (c : Ch) (pos : Nat) : Except Fault Nat := find hay [c] pos

/-- `traits_type::length(s)`: the index of the first NUL in the memory that
starts at `s`; reading past that memory is undefined. `string.hpp` L1758-1761
(`traitsLength`; the null pointer, for which it throws, is in `Mixed.lean`). -/
def strlen (mem : List Ch) (i : Nat) : Except Fault Nat :=
  if i < mem.length then do
    let c ← rd mem i
    if c = 0 then pure i else strlen mem (i + 1)
  else .error (.ub "strlen: no terminator")
termination_by mem.length - i

/-- `find(const value_type* s, pos)`, `string.hpp` L1623-1625. -/
def findCStr (hay mem : List Ch) (pos : Nat) : Except Fault Nat := do
  let n ← strlen mem 0
  find hay (mem.take n) pos

/-- `contains(c)`, `string.hpp` L1603. -/
def containsChar (hay : List Ch) (c : Ch) : Except Fault Bool := do
  let r ← findChar hay c 0
  pure (r ≠ npos)

/-- `contains(const value_type*)`, `string.hpp` L1605-1607. -/
def containsCStr (hay mem : List Ch) : Except Fault Bool := do
  let r ← findCStr hay mem 0
  pure (r ≠ npos)

/-- `contains(string_view)`, `string.hpp` L1609-1611: the view is the first
`_n` elements of `mem`, but only its pointer is passed on. -/
def containsView (hay mem : List Ch) (_n : Nat) : Except Fault Bool := do
  let r ← findCStr hay mem 0
  pure (r ≠ npos)

/-- `contains(const basic_string&)`, `string.hpp` L1613-1615. -/
def containsStr (hay needle : List Ch) : Except Fault Bool := do
  let r ← find hay needle 0
  pure (r ≠ npos)

/-! ### rfind and the character-set searches, `string.hpp` L2166-2255 -/

/-- `traits_type::compare(p, q, n) == 0` on the `n` elements of `s` at `p + i`
and the first `n` of `t`, reading until the first difference. -/
def eqN (hay t : List Ch) (i n : Nat) : Except Fault Bool :=
  match n with
  | 0 => .ok true
  | n + 1 => do
    let a ← rd hay i
    match t with
    | [] => .error (.ub "read outside the array")
    | b :: t' => if a = b then eqN hay t' (i + 1) n else pure false

/-- The loop of `rfind`, `string.hpp` L2177-2185. -/
def rfindLoop (hay needle : List Ch) (i : Nat) : Except Fault Nat := do
  let a ← rd hay i
  let b ← rd needle 0
  let hit ← if a = b then eqN hay needle i needle.length else pure false
  if hit then pure i
  else match i with
    | 0 => pure npos
    | k + 1 => rfindLoop hay needle k

/-- `rfind(s, pos, n)`, `string.hpp` L2166-2187. -/
def rfind (hay needle : List Ch) (pos : Nat) : Except Fault Nat :=
  if needle.length > hay.length then .ok npos
  else
    let p := min pos (hay.length - needle.length)
    if needle.length = 0 then .ok p else rfindLoop hay needle p

/-- `traits_type::find(str, n, c) != nullptr`: a scan of the first elements of
the set. -/
def inSet (set : List Ch) (c : Ch) : Bool := set.any (· == c)

/-- Upwards loop of `find_first_of`/`find_first_not_of`, `string.hpp`
L2195-2201 and L2228-2234. `want` is whether a member or a non-member is
sought. -/
def upLoop (hay set : List Ch) (want : Bool) (i : Nat) : Except Fault Nat :=
  if i ≠ hay.length then
    if i < hay.length then do
      let c ← rd hay i
      if inSet set c = want then pure i else upLoop hay set want (i + 1)
    else .error (.ub "iterator past the end")
  else .ok npos
termination_by hay.length - i

/-- Downwards loop of `find_last_of`/`find_last_not_of`, `string.hpp`
L2210-2218 and L2244-2252. -/
def downLoop (hay set : List Ch) (want : Bool) (i : Nat) : Except Fault Nat := do
  let c ← rd hay i
  if inSet set c = want then pure i
  else match i with
    | 0 => pure npos
    | k + 1 => downLoop hay set want k

/-- `find_first_of(str, pos, n)`, `string.hpp` L2189-2203. -/
def findFirstOf (hay set : List Ch) (pos : Nat) : Except Fault Nat :=
  if pos > hay.length ∨ set.length = 0 then .ok npos else upLoop hay set true pos

/-- `find_last_of(str, pos, n)`, `string.hpp` L2205-2221. -/
def findLastOf (hay set : List Ch) (pos : Nat) : Except Fault Nat :=
  if hay ≠ [] ∧ set.length > 0 then downLoop hay set true (min pos (hay.length - 1)) else .ok npos

/-- `find_first_not_of(str, pos, n)`, `string.hpp` L2223-2237. -/
def findFirstNotOf (hay set : List Ch) (pos : Nat) : Except Fault Nat :=
  if pos < hay.length then upLoop hay set false pos else .ok npos

/-- `find_last_not_of(str, pos, n)`, `string.hpp` L2239-2255. -/
def findLastNotOf (hay set : List Ch) (pos : Nat) : Except Fault Nat :=
  if hay ≠ [] then downLoop hay set false (min pos (hay.length - 1)) else .ok npos

/-! ### compare, `string.hpp` L1713-1752 -/

/-- `traits_type::compare(p, q, n)`: the sign of the first difference among `n`
elements, 0 if there is none; the standard fixes only the sign, the model
returns -1, 0 or 1. -/
def traitsCompare (a b : List Ch) (n : Nat) : Except Fault Int :=
  match n with
  | 0 => .ok 0
  | n + 1 =>
    match a, b with
    | x :: a', y :: b' => if x < y then .ok (-1) else if y < x then .ok 1 else traitsCompare a' b' n
    | _, _ => .error (.ub "read outside the array")

/-- `r != 0 ? r : n1 > n2 ? 1 : n1 < n2 ? -1 : 0` on the comparison of the
common length, `string.hpp` L1717-1718 and L1733-1734. -/
def compareN (a b : List Ch) (n1 n2 : Nat) : Except Fault Int := do
  let r ← traitsCompare a b (min n1 n2)
  pure (if r ≠ 0 then r else if n1 > n2 then 1 else if n1 < n2 then -1 else 0)

/-- `compare(str)`, `string.hpp` L1713-1719. -/
def compare (a b : List Ch) : Except Fault Int := compareN a b a.length b.length

/-- `compare(pos1, n1, s, n2)`, `string.hpp` L1729-1735. -/
def compareSub (a : List Ch) (pos1 n1 : Nat) (b : List Ch) : Except Fault Int :=
  if pos1 ≤ a.length then compareN (a.drop pos1) b (min n1 (a.length - pos1)) b.length
  else .error (.throw "out_of_range")

/-- `compare(pos1, n1, str, pos2, n2)`, `string.hpp` L1737-1741. -/
def compareSub2 (a : List Ch) (pos1 n1 : Nat) (b : List Ch) (pos2 n2 : Nat) : Except Fault Int :=
  if pos2 ≤ b.length then compareSub a pos1 n1 ((b.drop pos2).take (min n2 (b.length - pos2)))
  else .error (.throw "out_of_range")

/-- `compare(const value_type* s)`, `string.hpp` L1744-1751; `mem` is the
memory that starts at `s`. -/
def compareCStr (a mem : List Ch) : Except Fault Int := do
  let n2 ← strlen mem 0
  compareN a mem a.length n2

/-- `operator==`, `string.hpp` L2396-2398. -/
def opEq (a b : List Ch) : Except Fault Bool :=
  if a.length = b.length then do
    let r ← compare a b
    pure (r = 0)
  else .ok false

/-- `operator!=`, `string.hpp` L2413-2415. -/
def opNe (a b : List Ch) : Except Fault Bool := do
  let r ← opEq a b
  pure (!r)

/-- `operator<`, `string.hpp` L2430-2432. -/
def opLt (a b : List Ch) : Except Fault Bool := do
  let r ← compare a b
  pure (r < 0)

/-- `operator>`, `string.hpp` L2447-2449. -/
def opGt (a b : List Ch) : Except Fault Bool := opLt b a

/-- `operator<=`, `string.hpp` L2464-2466. -/
def opLe (a b : List Ch) : Except Fault Bool := do
  let r ← opLt b a
  pure (!r)

/-- `operator>=`, `string.hpp` L2481-2483. -/
def opGe (a b : List Ch) : Except Fault Bool := do
  let r ← opLt a b
  pure (!r)

/-- `operator<=>`, `string.hpp` L2381-2393. -/
def opCmp (a b : List Ch) : Except Fault Ordering := do
  let r ← compare a b
  pure (if r < 0 then .lt else if r > 0 then .gt else .eq)

/-- Comparison with a `std::string`, `lhs.compare(0, lhs.size(), rhs.data(),
rhs.size())`, `string.hpp` L2578-2605. -/
def stdCompare (a b : List Ch) : Except Fault Int := compareSub a 0 a.length b

/-- `operator<(const basic_string&, const std::string&)`, `string.hpp` L2627-2629. -/
def stdLt (a b : List Ch) : Except Fault Bool := do
  let r ← stdCompare a b
  pure (r < 0)

/-- `operator>(const basic_string&, const std::string&)`, `string.hpp` L2632-2634. -/
def stdGt (a b : List Ch) : Except Fault Bool := do
  let r ← stdCompare a b
  pure (r > 0)

/-- `operator==(const basic_string&, const std::string&)`, `string.hpp` L2607-2609. -/
def stdEq (a b : List Ch) : Except Fault Bool := do
  let r ← stdCompare a b
  pure (r = 0)

end Verif.Str
