/-
Shared conventions of the model: machine integers and faults.
-/

namespace Verif

/-- The ways in which an execution of the C++ code can leave the defined path.
`ub` is undefined behaviour, `assertFail` a failed `Assert` of a debug build
(assert_config.hpp: `Assert` is `assert`, a no-op under `NDEBUG`), `throw` a C++ exception. -/
inductive Fault where
  | ub (what : String)
  | assertFail (what : String)
  | throw (what : String)
  deriving Repr, DecidableEq

deriving instance DecidableEq for Except

/-- `2^64`, the modulus of `uint64_t`. -/
notation "M64" => (18446744073709551616 : Nat)

/-- Reduction of a `uint64_t` result. -/
@[inline] def w64 (n : Nat) : Nat := n % M64

/-- `uint64_t` addition. -/
@[inline] def add64 (a b : Nat) : Nat := (a + b) % M64

/-- `uint64_t` multiplication. -/
@[inline] def mul64 (a b : Nat) : Nat := (a * b) % M64

/-- `uint64_t` subtraction (operands below `2^64`). -/
@[inline] def sub64 (a b : Nat) : Nat := (a + M64 - b) % M64

theorem add64_of_lt {a b : Nat} (h : a + b < M64) : add64 a b = a + b := Nat.mod_eq_of_lt h

theorem mul64_of_lt {a b : Nat} (h : a * b < M64) : mul64 a b = a * b := Nat.mod_eq_of_lt h

theorem sub64_of_le {a b : Nat} (h : b ≤ a) (ha : a < M64) : sub64 a b = a - b := by
  unfold sub64; omega

theorem add64_lt (a b : Nat) : add64 a b < M64 := Nat.mod_lt _ (by decide)

/-- `Assert(c, msg)` (assert_config.hpp): in a debug build a failed condition aborts, in a release
build the macro is empty. -/
def assertDbg (dbg : Bool) (c : Bool) (msg : String) : Except Fault Unit :=
  if dbg && !c then .error (.assertFail msg) else .ok ()

@[simp] theorem assertDbg_true (dbg : Bool) (msg : String) : assertDbg dbg true msg = .ok () := by
  simp [assertDbg]

end Verif
