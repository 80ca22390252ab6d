import Verif.Base

/-!
Model of the 24-byte representation of `string_core`
(`/repo/string/string.hpp` L638-710): the union of the in-situ characters and
of the `{data_, size_, capacity_}` triple, whose last byte tells which of the
two is in use.

The bytes are a list of 24 numbers below 256. Both byte orders and the
character widths 1, 2 and 4 are covered.
-/

namespace Verif.Str.Layout

/-- A platform and a character type: `be` is "not `isLittleEndian()`"
(`string.hpp` L142), `w` is `sizeof(Char)`. -/
structure Plat where
  be : Bool
  w : Nat

/-- The character widths of `char`, `char16_t`, `char32_t`/`wchar_t`. -/
def Plat.Ok (p : Plat) : Prop := p.w = 1 ∨ p.w = 2 ∨ p.w = 4

/-- The `n` low bytes of a number, low byte first. -/
def leBytes (v : Nat) : Nat → List Nat
  | 0 => []
  | n + 1 => v % 256 :: leBytes (v / 256) n

/-- The number with these bytes, low byte first. -/
def leNat : List Nat → Nat
  | [] => 0
  | b :: bs => b + 256 * leNat bs

/-- Object representation of an unsigned integer of `n` bytes. -/
def enc (be : Bool) (v n : Nat) : List Nat := if be then (leBytes v n).reverse else leBytes v n

/-- Value of an unsigned integer with this object representation. -/
def dec (be : Bool) (bs : List Nat) : Nat := if be then leNat bs.reverse else leNat bs

/-- The `n` bytes from `off` on. -/
def slice (l : List Nat) (off n : Nat) : List Nat := (l.drop off).take n

/-- Overwriting the bytes from `off` on. -/
def put (l : List Nat) (off : Nat) (bs : List Nat) : List Nat := l.take off ++ bs ++ l.drop (off + bs.length)

/-- The `k`-th 8-byte field of `MediumLarge` (0 `data_`, 1 `size_`,
2 `capacity_`), `string.hpp` L651-656. -/
def rdWord (p : Plat) (l : List Nat) (k : Nat) : Nat := dec p.be (slice l (8 * k) 8)

/-- Storing into a field of `MediumLarge`. -/
def wrWord (p : Plat) (l : List Nat) (k v : Nat) : List Nat := put l (8 * k) (enc p.be v 8)

/-- `small_[i]`, `string.hpp` L670. -/
def rdChar (p : Plat) (l : List Nat) (i : Nat) : Nat := dec p.be (slice l (p.w * i) p.w)

/-- `small_[i] = v`. -/
def wrChar (p : Plat) (l : List Nat) (i v : Nat) : List Nat := put l (p.w * i) (enc p.be v p.w)

/-- `lastChar`, `string.hpp` L679. -/
def lastChar : Nat := 23

/-- `maxSmallSize`, `string.hpp` L680. -/
def Plat.maxSmall (p : Plat) : Nat := lastChar / p.w

/-- The three categories and their codes, `string.hpp` L639-644. -/
inductive Cat | small | medium | large
  deriving DecidableEq, Repr

/-- `isMedium = isLittleEndian() ? 0x80 : 0x2` and so on, `string.hpp` L641-643. -/
def catCode (be : Bool) : Cat → Nat
  | .small => 0
  | .medium => if be then 0x2 else 0x80
  | .large => if be then 0x1 else 0x40

/-- `categoryExtractMask`, `string.hpp` L682. -/
def catMask (be : Bool) : Nat := if be then 0x3 else 0xC0

/-- `kCategoryShift`, `string.hpp` L683. -/
def catShift : Nat := 56

/-- `category()`, `string.hpp` L646-649: the masked last byte as an enumerator
code. -/
def category (p : Plat) (l : List Nat) : Nat := l.getD lastChar 0 &&& catMask p.be

/-- `MediumLarge::capacity()`, `string.hpp` L657-659; `~(mask << 56)` is the 64-bit
complement. -/
def mlCapacity (p : Plat) (l : List Nat) : Nat :=
  if p.be then rdWord p l 2 >>> 2 else rdWord p l 2 &&& (M64 - 1 - (catMask p.be <<< catShift))

/-- `MediumLarge::setCapacity(cap, cat)`, `string.hpp` L661-664. -/
def setCapacity (p : Plat) (l : List Nat) (cap : Nat) (c : Cat) : List Nat :=
  wrWord p l 2 (if p.be then w64 (cap <<< 2) ||| catCode p.be c else cap ||| (catCode p.be c <<< catShift))

/-- `setSmallSize(newSize)`, `string.hpp` L697-708, without its assertions. The
value fits a `char` (at most 23, or 92 after the shift). -/
def setSmallSize (p : Plat) (l : List Nat) (n : Nat) : List Nat :=
  wrChar p (wrChar p l p.maxSmall ((p.maxSmall - n) <<< (if p.be then 2 else 0))) n 0

/-- `smallSize()`, `string.hpp` L689-695. -/
def smallSize (p : Plat) (l : List Nat) : Nat :=
  sub64 p.maxSmall (rdChar p l p.maxSmall >>> (if p.be then 2 else 0))

/-- `size()`, `string.hpp` L497-510: on a little-endian machine the 64-bit
difference is kept when, as `ssize_t`, it is not negative. -/
def size (p : Plat) (l : List Nat) : Nat :=
  if p.be then (if category p l = catCode p.be .small then smallSize p l else rdWord p l 1)
  else
    let maybe := sub64 p.maxSmall (rdChar p l p.maxSmall)
    if maybe < 9223372036854775808 then maybe else rdWord p l 1

/-- Filling in `data_`, `size_` and the capacity with its category, as
`initMedium`, `initLarge`, `copyMedium`, `reserveSmall` do (`string.hpp`
L816-839, L746-758, L918-948). -/
def setML (p : Plat) (l : List Nat) (data sz cap : Nat) (c : Cat) : List Nat :=
  setCapacity p (wrWord p (wrWord p l 0 data) 1 sz) cap c

/-- The word-wise path of `initSmall` in a release build, `string.hpp`
L789-803: the words that contain the first `n` characters are copied whole from
the memory that starts at the (aligned) source, then the size is set. `src` are
the bytes found there, beyond the source's own end if need be. -/
def initSmallWords (p : Plat) (l src : List Nat) (n : Nat) : List Nat :=
  setSmallSize p (put l 0 (src.take (8 * ((n * p.w + 7) / 8)))) n

/-- How many bytes of the source `initSmallWords` reads. -/
def initSmallReads (p : Plat) (n : Nat) : Nat := 8 * ((n * p.w + 7) / 8)

end Verif.Str.Layout
