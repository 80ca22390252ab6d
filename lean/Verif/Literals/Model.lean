import Verif.Base

/-!
Model of the size literals of `memory.hpp`.  A C string is the list of its characters before the
terminating NUL; characters are their code points (all NUL-free lists occur as spellings).
-/

namespace Verif.Literals

/-- `is_digit`, memory.hpp:37. -/
def isDigit (c : Char) : Bool := c ≤ '9' && '0' ≤ c

/-- `stoi_impl`, memory.hpp:39-45: fold the digits, `throw` on anything else.  The recursion
`static_cast<uint64_t>(*str - '0') + value * 10` is on `uint64_t` and wraps. -/
def stoiImpl : List Char → Nat → Except Fault Nat
  | [], value => .ok value
  | c :: str, value =>
    if isDigit c then stoiImpl str (add64 (c.toNat - 48) (mul64 value 10))
    else .error (.throw "compile-time-error: not a digit")

/-- `stoi`, memory.hpp:47. -/
def stoi (str : List Char) : Except Fault Nat := stoiImpl str 0

/-- `kilo`, memory.hpp:48. -/
def kilo : Nat := 1024

/-- `operator""_KB`, memory.hpp:50. -/
def litKB (s : List Char) : Except Fault Nat := do return mul64 (← stoi s) kilo

/-- `operator""_MB`, memory.hpp:52. -/
def litMB (s : List Char) : Except Fault Nat := do return mul64 (mul64 (← stoi s) kilo) kilo

/-- `operator""_GB`, memory.hpp:54-56. -/
def litGB (s : List Char) : Except Fault Nat := do
  return mul64 (mul64 (mul64 (← stoi s) kilo) kilo) kilo

end Verif.Literals
