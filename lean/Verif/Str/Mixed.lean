import Verif.Str.SearchProps
import Verif.Str.StringProps

/-!
The operators that compare a string with a C string or a `std::string`, on either side, and the
functions that take a C string when it is a null pointer.
-/

namespace Verif.Str

variable {β : Type}

/-- A `const value_type*`: the null pointer, or the memory that starts at it. -/
abbrev CPtr := Option (List Ch)

/-- A `noexcept` function: an exception leaving it calls `std::terminate`. -/
def nx (x : Except Fault β) : Except Fault β :=
  match x with
  | .error (.throw _) => .error (.throw "terminate")
  | x => x

/-- `traitsLength(s)`, string.hpp:1758-1761. -/
def traitsLength : CPtr → Except Fault Nat
  | none => .error (.throw "logic_error")
  | some mem => strlen mem 0

/-- The elements `s[0] … s[n - 1]`. -/
def chars (n : Nat) : CPtr → List Ch
  | none => []
  | some mem => mem.take n

/-! ### Comparison with C strings, string.hpp:2400-2495 -/

/-- `compare(const value_type* s)`, string.hpp:1744-1751. -/
def compareP (a : List Ch) (s : CPtr) : Except Fault Int := do
  let n2 ← traitsLength s
  compareN a (chars n2 s) a.length n2

/-- `operator==(str, s)`, string.hpp:2406-2410. -/
def eqSP (a : List Ch) (s : CPtr) : Except Fault Bool := nx do
  let r ← compareP a s
  pure (r = 0)

/-- `operator==(s, str)`, string.hpp:2400-2404. -/
def eqPS (s : CPtr) (b : List Ch) : Except Fault Bool := nx (eqSP b s)

/-- `operator!=(s, str)`, string.hpp:2417-2421. -/
def nePS (s : CPtr) (b : List Ch) : Except Fault Bool := nx do
  let r ← eqPS s b
  pure (!r)

/-- `operator!=(str, s)`, string.hpp:2423-2427. -/
def neSP (a : List Ch) (s : CPtr) : Except Fault Bool := nx do
  let r ← eqSP a s
  pure (!r)

/-- `operator<(str, s)`, string.hpp:2434-2438. -/
def ltSP (a : List Ch) (s : CPtr) : Except Fault Bool := nx do
  let r ← compareP a s
  pure (r < 0)

/-- `operator<(s, str)`, string.hpp:2440-2444. -/
def ltPS (s : CPtr) (b : List Ch) : Except Fault Bool := nx do
  let r ← compareP b s
  pure (r > 0)

/-- `operator>(str, s)`, string.hpp:2451-2455. -/
def gtSP (a : List Ch) (s : CPtr) : Except Fault Bool := nx (ltPS s a)

/-- `operator>(s, str)`, string.hpp:2457-2461. -/
def gtPS (s : CPtr) (b : List Ch) : Except Fault Bool := nx (ltSP b s)

/-- `operator<=(str, s)`, string.hpp:2468-2472. -/
def leSP (a : List Ch) (s : CPtr) : Except Fault Bool := nx do
  let r ← ltPS s a
  pure (!r)

/-- `operator<=(s, str)`, string.hpp:2474-2478. -/
def lePS (s : CPtr) (b : List Ch) : Except Fault Bool := nx do
  let r ← ltSP b s
  pure (!r)

/-- `operator>=(str, s)`, string.hpp:2485-2489. -/
def geSP (a : List Ch) (s : CPtr) : Except Fault Bool := nx do
  let r ← ltSP a s
  pure (!r)

/-- `operator>=(s, str)`, string.hpp:2491-2495. -/
def gePS (s : CPtr) (b : List Ch) : Except Fault Bool := nx do
  let r ← ltPS s b
  pure (!r)

/-! ### Comparison with `std::string`, string.hpp:2576-2665 -/

/-- `std::string::compare(pos, n, s, n2)`, called in string.hpp:2596: as the function of the same name of
`basic_string`; the sign of the difference of the lengths decides after the common part.  Simplification: the
standard library returns the difference of the lengths, of which only the sign is used. -/
def stdStringCompare (a b : List Ch) : Except Fault Int := compareSub a 0 a.length b

/-- `operator<=>(str, std)`, string.hpp:2578-2590. -/
def cmpSD (a b : List Ch) : Except Fault Ordering := nx do
  let r ← stdCompare a b
  pure (if r < 0 then .lt else if r > 0 then .gt else .eq)

/-- `operator<=>(std, str)`, string.hpp:2593-2604. -/
def cmpDS (a b : List Ch) : Except Fault Ordering := nx do
  let r ← stdStringCompare a b
  pure (if r < 0 then .lt else if r > 0 then .gt else .eq)

/-- `operator==(std, str)`, string.hpp:2611-2614. -/
def eqDS (a b : List Ch) : Except Fault Bool := nx (stdEq b a)

/-- `operator!=(str, std)`, string.hpp:2616-2619. -/
def neSD (a b : List Ch) : Except Fault Bool := nx do
  let r ← stdEq a b
  pure (!r)

/-- `operator!=(std, str)`, string.hpp:2621-2624. -/
def neDS (a b : List Ch) : Except Fault Bool := nx do
  let r ← eqDS a b
  pure (!r)

/-- `operator<(std, str)`, string.hpp:2636-2639. -/
def ltDS (a b : List Ch) : Except Fault Bool := nx (stdGt b a)

/-- `operator>(std, str)`, string.hpp:2641-2644. -/
def gtDS (a b : List Ch) : Except Fault Bool := nx (stdLt b a)

/-- `operator<=(str, std)`, string.hpp:2646-2649. -/
def leSD (a b : List Ch) : Except Fault Bool := nx do
  let r ← stdGt a b
  pure (!r)

/-- `operator>=(str, std)`, string.hpp:2651-2654. -/
def geSD (a b : List Ch) : Except Fault Bool := nx do
  let r ← stdLt a b
  pure (!r)

/-- `operator<=(std, str)`, string.hpp:2656-2659. -/
def leDS (a b : List Ch) : Except Fault Bool := nx do
  let r ← gtDS a b
  pure (!r)

/-- `operator>=(std, str)`, string.hpp:2661-2664. -/
def geDS (a b : List Ch) : Except Fault Bool := nx do
  let r ← ltDS a b
  pure (!r)

/-! ### All operators -/

/-- The operators. -/
inductive Cmp where
  | eq | ne | lt | gt | le | ge
  deriving DecidableEq, Repr

/-- An operand: a string, a C string, a `std::string`. -/
inductive Operand where
  | str (a : List Ch)
  | ptr (s : CPtr)
  | std (a : List Ch)

/-- The operator chosen for two operands; `none` if there is none of this library (two C strings, two
`std::string`s, or one of each). -/
def operator (o : Cmp) : Operand → Operand → Option (Except Fault Bool)
  | .str a, .str b => some (match o with
    | .eq => opEq a b | .ne => opNe a b | .lt => opLt a b | .gt => opGt a b | .le => opLe a b | .ge => opGe a b)
  | .str a, .ptr s => some (match o with
    | .eq => eqSP a s | .ne => neSP a s | .lt => ltSP a s | .gt => gtSP a s | .le => leSP a s | .ge => geSP a s)
  | .ptr s, .str b => some (match o with
    | .eq => eqPS s b | .ne => nePS s b | .lt => ltPS s b | .gt => gtPS s b | .le => lePS s b | .ge => gePS s b)
  | .str a, .std b => some (match o with
    | .eq => nx (stdEq a b) | .ne => neSD a b | .lt => nx (stdLt a b) | .gt => nx (stdGt a b) | .le => leSD a b | .ge => geSD a b)
  | .std a, .str b => some (match o with
    | .eq => eqDS a b | .ne => neDS a b | .lt => ltDS a b | .gt => gtDS a b | .le => leDS a b | .ge => geDS a b)
  | _, _ => none

/-! ### Functions that take a C string -/

/-- `find(s, pos)` and `rfind`, `find_first_of`, `find_last_of`, `find_first_not_of`, `find_last_not_of` with a C
string, string.hpp:1623-1625, 1635-1637, 1649-1651, 1663-1665, 1677-1679, 1691-1693: `noexcept`, the length is
taken first. -/
def searchP (f : List Ch → List Ch → Nat → Except Fault Nat) (hay : List Ch) (s : CPtr) (pos : Nat) : Except Fault Nat := nx do
  let n ← traitsLength s
  f hay (chars n s) pos

/-- `contains(s)`, string.hpp:1605-1607. -/
def containsP (hay : List Ch) (s : CPtr) : Except Fault Bool := nx do
  let r ← searchP find hay s 0
  pure (r ≠ npos)

/-- `contains(string_view)`, string.hpp:1609-1611: the view is the first `_n` elements at `data`, which may be null
if `_n` is 0. -/
def containsV (hay : List Ch) (data : CPtr) (_n : Nat) : Except Fault Bool := nx do
  let r ← searchP find hay data 0
  pure (r ≠ npos)

/-- `starts_with(s)` and `ends_with(s)`, string.hpp:1575-1577 and 1591-1593: `test` is the comparison of the view;
the parameter is converted to a `string_view`, for which `s` must not be null. -/
def affixP (test : List Ch → List Ch → Bool) (a : List Ch) (s : CPtr) : Except Fault Bool := nx do
  match s with
  | none => .error (.ub "string_view of a null pointer")
  | some mem => do
    let n ← strlen mem 0
    pure (test (mem.take n) a)

/-- `compare(pos1, n1, s)`, string.hpp:1725-1727. -/
def compareSubP (a : List Ch) (pos1 n1 : Nat) (s : CPtr) : Except Fault Int := do
  let n ← traitsLength s
  compareSub a pos1 n1 (chars n s)

/-- Members that change a string and take a C string: the constructor, string.hpp:1114; `assign` and `operator=`,
string.hpp:1365, 1160; `append` and `operator+=`, string.hpp:1334, 1316, and through it `operator+` of a string that
may be moved from and a C string, string.hpp:2358-2362; `insert`, string.hpp:1392; `replace`, string.hpp:1480-1482.
`replace` with iterators, string.hpp:1505-1507, differs only in how the position is given. -/
inductive CEdit where
  | make (v al : Nat)
  | assign (v : Nat)
  | append (v : Nat)
  | insert (v pos : Nat)
  | replace (v pos n1 : Nat)
  deriving Repr, DecidableEq

/-- The overload with a length that each of them calls. -/
def CEdit.op (x : Src) : CEdit → Op
  | .make v al => .make v al x
  | .assign v => .assign v x
  | .append v => .append v x
  | .insert v pos => .insert v pos x
  | .replace v pos n1 => .replace v pos n1 x

/-- A C string given to one of them: memory of the caller, or `u.c_str() + i`. -/
inductive CArg where
  | mem (s : CPtr)
  | of (u i : Nat)

/-- Taking its length with `traitsLength`, string.hpp:1758-1761.  The characters of a string are followed by a NUL
(`storage_ok`); beyond it nothing may be read. -/
def CArg.src (cfg : Cfg) : CArg → M Src
  | .mem s => match traitsLength s with
    | .error f => M.fail f
    | .ok n => pure (.lit (chars n s))
  | .of u i => do
    let xs ← contents cfg u
    match strlen ((xs ++ [0]).drop i) 0 with
    | .error f => M.fail f
    | .ok n => pure (.sub u i n)

/-- Such a call: the length is an argument of the call of the other overload, so it is taken before anything else. -/
def CEdit.run (cfg : Cfg) (e : CEdit) (s : CArg) : M Unit := do
  let x ← s.src cfg
  (e.op x).run cfg

/-- `operator+` of a const string (`left`: on the left) and a C string, string.hpp:2293-2301, 2345-2355, whose
length is taken with `traits_type::length`, which does not accept null, after the result is constructed.
Simplification: its length is taken before that. -/
def plusP (cfg : Cfg) (left : Bool) (v u : Nat) (s : CPtr) : M Unit :=
  match s with
  | none => M.ub "strlen of a null pointer"
  | some mem =>
    match strlen mem 0 with
    | .error f => M.fail f
    | .ok n =>
      (if left then Op.concatWith v u .str (.chars (mem.take n)) else Op.concatWith v u (.chars (mem.take n)) .str).run cfg

end Verif.Str
