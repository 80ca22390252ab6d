import Verif.Str.Streams

/-!
What reading a line, reading a word and writing a string mean, in terms of lists of characters.
-/

namespace Verif.Str

/-- The stream is good, and does not throw when the end is met or nothing could be read. -/
def IStream.calm (is : IStream) : Bool := is.good && !is.throwEof && !is.throwFail

/-- The stream is at its end or bad, and does not throw. -/
def IStream.over (is : IStream) : Bool := (is.bad || is.eof) && !is.throwEof && !is.throwFail && !(is.bad && is.throwBad)

/-- The line that is next in the input: the characters before the delimiter, or all of them. -/
def lineOf (delim : Ch) (inp : List Ch) : List Ch := inp.takeWhile (· != delim)

/-- The stream after a line has been read: the line and the delimiter are gone; without a delimiter the end has
been seen, and if there was nothing at all, reading failed. -/
def IStream.afterLine (is : IStream) (delim : Ch) : IStream :=
  match is.inp.dropWhile (· != delim) with
  | [] => { is with inp := [], eof := true, fail := is.inp.isEmpty }
  | _ :: t => { is with inp := t }

/-- The word that is next in the input, of at most `n` characters. -/
def wordOf (n : Nat) (inp : List Ch) : List Ch := (inp.takeWhile (!isSpace ·)).take n

/-- The input from where a word may start. -/
def IStream.ready (is : IStream) : List Ch := if is.skipws then is.inp.dropWhile isSpace else is.inp

/-- How many characters a word may have. -/
def IStream.limit (is : IStream) : Nat := if is.width = 0 then M64 - 1 else is.width

/-- Nothing but white space is left, and it is skipped. -/
def IStream.blank (is : IStream) : Bool := is.skipws && is.ready.isEmpty

/-- The string after reading a word into a string that was `old`. -/
def IStream.word (is : IStream) (old : List Ch) : List Ch := if is.blank then old else wordOf is.limit is.ready

/-- Reading the word has met the end of the input. -/
def IStream.wordEof (is : IStream) : Bool :=
  is.blank || (is.ready.all (!isSpace ·) && decide (is.ready.length < is.limit))

/-- The stream after reading a word, its `width()` aside. -/
def IStream.afterWord (is : IStream) : IStream :=
  { is with
    inp := is.ready.drop (wordOf is.limit is.ready).length
    eof := is.wordEof
    fail := (wordOf is.limit is.ready).isEmpty }

/-- The stream after writing a string: padded to `width()`, which is used up; a stream that is not good is left
alone. -/
def OStream.written (os : OStream) (xs : List Ch) : OStream :=
  if os.ok then
    let pad := List.replicate (os.width - xs.length).toNat os.fill
    { os with width := 0, out := os.out ++ if os.left then xs ++ pad else pad ++ xs }
  else os

end Verif.Str
