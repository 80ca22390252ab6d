import Verif.Base

/-!
Model of `align/align.hpp`.
-/

namespace Verif.Align

/-- `AlignUpTo<N>(n)`, align/align.hpp:40-47: `(n + N - 1) & static_cast<uint64_t>(-N)`.
The template parameter is an ordinary argument here; the two `static_assert`s (lines 44-45) are the
predicate `Instantiable` below. -/
def alignUpTo (N n : BitVec 64) : BitVec 64 := (n + N - 1#64) &&& (-N)

/-- The `static_assert`s of `AlignUpTo`, align/align.hpp:44-45: `(N & (N-1)) == 0` and
`N >= kMinAlignSize` (= 8, line 38). -/
def Instantiable (N : BitVec 64) : Prop := N &&& (N - 1#64) = 0#64 ∧ 8#64 ≤ N

/-- `AlignUp(n, block_size)`, align/align.hpp:49-52.  `n % 0` is undefined behaviour. -/
def alignUp (n block : Nat) : Except Fault Nat :=
  if block = 0 then .error (.ub "division by zero in AlignUp")
  else
    let reminder := n % block
    .ok (add64 (sub64 n reminder) (mul64 (if reminder ≠ 0 then 1 else 0) block))

/-- `AlignUpTo<8>` on numbers, as used by `Arena::align_size` (arena/arena.hpp:590-592). -/
def alignUpTo8 (n : Nat) : Nat := (alignUpTo 8#64 (BitVec.ofNat 64 n)).toNat

end Verif.Align
