import Verif.Str.Strings

/-!
Model of reading strings from streams and writing them to streams: `getline` (string/string.hpp:1408-1415,
1917-1948), `operator>>` (2503-2539) and `operator<<` (2541-2571, the branch of libstdc++).  The parts of the
standard library they call are modelled as libstdc++ implements them, in the C locale.
-/

namespace Verif.Str

open M

/-- A `std::basic_istream` on a buffer: the characters not read yet, the three bits of `rdstate()`, those of
`exceptions()`, `width()` and the flag `skipws`. -/
structure IStream where
  inp : List Ch
  eof : Bool := false
  fail : Bool := false
  bad : Bool := false
  throwEof : Bool := false
  throwFail : Bool := false
  throwBad : Bool := false
  width : Nat := 0
  skipws : Bool := true
  deriving DecidableEq, Repr

/-- `good()`. -/
def IStream.good (is : IStream) : Bool := !is.eof && !is.fail && !is.bad

/-- `clear()`: all bits of the state are cleared. -/
def IStream.clear (is : IStream) : IStream := { is with eof := false, fail := false, bad := false }

/-- `setstate`: the bits are added, and `ios_base::failure` is thrown if the state and `exceptions()` have a bit
in common.  Simplification: the state of the stream is not known to the caller after the exception. -/
def IStream.setstate (is : IStream) (eof fail : Bool) : M IStream :=
  let is := { is with eof := is.eof || eof, fail := is.fail || fail }
  if (is.eof && is.throwEof) || (is.fail && is.throwFail) || (is.bad && is.throwBad) then raise "ios_base::failure"
  else pure is

/-- The loop of `std::basic_istream::getline(s, n + 1, delim)`: the characters stored, and those left. -/
def lineLoop (delim : Ch) : Nat → List Ch → List Ch × List Ch
  | 0, inp => ([], inp)
  | _ + 1, [] => ([], [])
  | n + 1, c :: t =>
    if c = delim then ([], c :: t)
    else
      let (a, b) := lineLoop delim n t
      (c :: a, b)

/-- What `std::basic_istream::getline` does after its loop that left `rest`: the end of the input sets `eofbit`,
the delimiter is extracted and counted, anything else sets `failbit`, as does extracting nothing. -/
def lineEnd (is : IStream) (delim : Ch) (k : Nat) : List Ch → M (IStream × Nat)
  | [] => do
    let is ← { is with inp := [] }.setstate true (k == 0)
    pure (is, k)
  | c :: t =>
    if c = delim then pure ({ is with inp := t }, k + 1)
    else do
      let is ← { is with inp := c :: t }.setstate false true
      pure (is, k)

/-- `is.getline(p, n + 1, delim)` and `is.gcount()`: the characters stored are followed by a NUL character; a
stream that is not good fails and stores only that. -/
def streamGetline (is : IStream) (p : Ptr) (n : Nat) (delim : Ch) : M (IStream × Nat) :=
  if is.good then do
    let (cs, rest) := lineLoop delim n is.inp
    writeCells p (cs.map some)
    writeCells (p.add cs.length) [some 0]
    lineEnd is delim cs.length rest
  else do
    writeCells p [some 0]
    let is ← is.setstate false true
    pure (is, 0)

/-- The loop of `getlineImpl`, string.hpp:1923-1946.  Running out of `fuel` is a fault of its own: `getline_tri`
shows that it does not happen. -/
def getlineLoop (cfg : Cfg) (v : Obj) (delim : Ch) : Nat → IStream → Nat → M IStream
  | 0, _, _ => ub "out of fuel"
  | fuel + 1, is, size => do
    let c ← capacity cfg v
    let avail := sub64 c size
    let p ← expandNoinit cfg v avail false
    let (is, k) ← streamGetline is p avail delim
    let size := add64 size k
    if is.bad || is.eof || !is.fail then do
      resize cfg v (if !is.bad && !is.eof then sub64 size 1 else size) 0
      pure is
    else do
      let n ← Str.size cfg v
      assert cfg (decide (size = n)) "getlineImpl: size"
      let c ← capacity cfg v
      assert cfg (decide (size = c)) "getlineImpl: capacity"
      reserve cfg v (max 63 (mul64 3 size / 2))
      getlineLoop cfg v delim fuel is.clear size

/-- `getline(is, str, delim)`, string.hpp:1917-1948. -/
def getline (cfg : Cfg) (v : Obj) (is : IStream) (delim : Ch) : M IStream :=
  checker cfg v do
    clear cfg v
    getlineLoop cfg v delim (is.inp.length + 3) is 0

/-- `isspace` in the C locale. -/
def isSpace (c : Ch) : Bool := c == 32 || (decide (9 ≤ c) && decide (c ≤ 13))

/-- `isspace(c)` of `<cctype>`, which is defined for values of `unsigned char` and `EOF` only. -/
def ctypeSpace (c : Ch) : M Bool := if c < 256 then pure (isSpace c) else ub "isspace of a wide character"

/-- The constructor of `std::basic_istream::sentry`: the stream and whether it is ready. -/
def sentry (is : IStream) : M (IStream × Bool) :=
  if is.good then
    if is.skipws then
      let inp := is.inp.dropWhile isSpace
      if inp.isEmpty then do
        let is ← { is with inp := [] }.setstate true true
        pure (is, false)
      else pure ({ is with inp := inp }, true)
    else pure (is, true)
  else do
    let is ← is.setstate false true
    pure (is, false)

/-- The loop of `operator>>`, string.hpp:2519-2530; `room` is how many characters may still be extracted.  The
result is the stream, the number of characters and whether `eofbit` is to be set. -/
def extractLoop (cfg : Cfg) (v : Obj) (is : IStream) : Nat → List Ch → Nat → M (IStream × Nat × Bool)
  | room, inp, k =>
    if room = 0 then pure ({ is with inp := inp }, k, false) else
    match inp with
    | [] => pure ({ is with inp := [], width := 0 }, k, true)
    | c :: t => do
      let sp ← ctypeSpace c
      if sp then pure ({ is with inp := c :: t }, k, false)
      else do
        pushBack cfg v c
        extractLoop cfg v is (room - 1) t (k + 1)

/-- The end of `operator>>`, string.hpp:2532-2538. -/
def extractEnd (is : IStream) (k : Nat) (eof : Bool) : M IStream :=
  if eof || k == 0 then is.setstate eof (k == 0) else pure is

/-- `is >> str`, string.hpp:2503-2539.  `int64_t(str.max_size())` compared as a `size_t` is the largest one. -/
def extract (cfg : Cfg) (v : Obj) (is : IStream) : M IStream := do
  let (is, ok) ← sentry is
  if ok then do
    let n := if is.width = 0 then M64 - 1 else is.width
    erase cfg v 0 (M64 - 1)
    let (is, k, eof) ← extractLoop cfg v is n is.inp 0
    extractEnd is k eof
  else extractEnd is 0 false

/-- A `std::basic_ostream` on a buffer that takes everything: what was written, whether it is good,
`width()`, `fill()` and whether the adjustment is to the left. -/
structure OStream where
  out : List Ch := []
  ok : Bool := true
  width : Int := 0
  fill : Ch := 32
  left : Bool := false
  deriving DecidableEq, Repr

/-- The conversion of a `size_t` to `int32_t`. -/
def toInt32 (n : Nat) : Int :=
  if n % 4294967296 < 2147483648 then (n % 4294967296 : Nat) else (n % 4294967296 : Nat) - 4294967296

/-- `std::__ostream_fill`. -/
def OStream.pad (os : OStream) (n : Int) : OStream := { os with out := os.out ++ List.replicate n.toNat os.fill }

/-- The characters read, which must have values. -/
def known : List Cell → M (List Ch)
  | [] => pure []
  | some c :: t => do
    let xs ← known t
    pure (c :: xs)
  | none :: _ => ub "read of an indeterminate character"

/-- `std::__ostream_write(os, p, n)`: `sputn` writes nothing for a negative `n`, and as it does not return `n`,
`badbit` is set. -/
def ostreamWrite (os : OStream) (p : Ptr) (n : Int) : M OStream :=
  if n < 0 then pure { os with ok := false }
  else do
    let cs ← readCells p n.toNat
    let xs ← known cs
    pure { os with out := os.out ++ xs }

/-- `std::__ostream_insert(os, p, n)`: nothing is written to a stream that is not good. -/
def ostreamInsert (os : OStream) (p : Ptr) (n : Int) : M OStream :=
  if os.ok then
    if os.width > n then
      if os.left then do
        let os1 ← ostreamWrite os p n
        let os2 := if os1.ok then os1.pad (os.width - n) else os1
        pure { os2 with width := 0 }
      else do
        let os1 ← ostreamWrite (os.pad (os.width - n)) p n
        pure { os1 with width := 0 }
    else do
      let os1 ← ostreamWrite os p n
      pure { os1 with width := 0 }
  else pure os

/-- `os << str`, string.hpp:2541-2571. -/
def insertTo (cfg : Cfg) (v : Obj) (os : OStream) : M OStream := do
  let p ← dataPtr v
  let n ← size cfg v
  ostreamInsert os p (toInt32 n)

end Verif.Str
