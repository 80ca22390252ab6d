import Verif.Str.Strings

/-!
More functions of the strings: prefixes and suffixes, element access, the overloads of `operator+`,
`std::hash`.
-/

namespace Verif.Str

open M

/-- `starts_with`, string.hpp:1571-1585: `basic_string_view::starts_with` on `data()` and `size()`; `t` are
the characters of the argument (one for the overload on a character). -/
def startsWith (cfg : Cfg) (v : Obj) (t : List Ch) : M Bool := do
  let p ← dataPtr v
  let k ← size cfg v
  if t.length ≤ k then do
    let cs ← readCells p t.length
    pure (decide (cs = t.map some))
  else pure false

/-- `ends_with`, string.hpp:1587-1601. -/
def endsWith (cfg : Cfg) (v : Obj) (t : List Ch) : M Bool := do
  let p ← dataPtr v
  let k ← size cfg v
  if t.length ≤ k then do
    let cs ← readCells (p.add (k - t.length)) t.length
    pure (decide (cs = t.map some))
  else pure false

/-- `front()` of a const string, string.hpp:1247. -/
def front (v : Obj) : M Ch := do
  let p ← dataPtr v
  readChar p

/-- `back()` of a const string, string.hpp:1248-1252. -/
def back (cfg : Cfg) (v : Obj) : M Ch := do
  let k ← size cfg v
  assert cfg (decide (k ≠ 0)) "back"
  let p ← dataPtr v
  if k = 0 then ub "back of an empty string" else readChar (p.add (k - 1))

/-- `substr(pos, n)` of the argument in `insert(pos1, str, pos2, n)` and
`replace(pos1, n1, str, pos2, n2)`: string.hpp:1380-1384, 1473-1477. -/
def subOf (cfg : Cfg) (u : Obj) (pos n : Nat) : M (Ptr × Nat) := do
  let k ← size cfg u
  enforce (decide (pos ≤ k))
  let p ← dataPtr u
  pure (p.add pos, min n (k - pos))

/-- `insert(pos1, str, pos2, n)`, string.hpp:1380-1384. -/
def insertSub (cfg : Cfg) (v : Obj) (pos1 : Nat) (u : Obj) (pos2 n : Nat) : M Unit := do
  let (p, m) ← subOf cfg u pos2 n
  insert cfg v pos1 p m

/-- `replace(pos1, n1, str, pos2, n2)`, string.hpp:1473-1477. -/
def replaceSub (cfg : Cfg) (v : Obj) (pos1 n1 : Nat) (u : Obj) (pos2 n2 : Nat) : M Unit := do
  let (p, m) ← subOf cfg u pos2 n2
  replace cfg v pos1 n1 p m

/-- `append(str, pos, n)`, string.hpp:1835-1842, and `assign(str, pos, n)`, string.hpp:1884-1891. -/
def appendSub (cfg : Cfg) (v u : Obj) (pos n : Nat) : M Unit := do
  let (p, m) ← subOf cfg u pos n
  append cfg v p m

/-- `assign(str, pos, n)`, string.hpp:1884-1891. -/
def assignSub (cfg : Cfg) (v u : Obj) (pos n : Nat) : M Unit := do
  let (p, m) ← subOf cfg u pos n
  assign cfg v p m

/-! ### operator+ -/

/-- `operator+(basic_string&&, const basic_string&)` and `operator+(basic_string&&, basic_string&&)`,
string.hpp:2269-2272, 2287-2290. -/
def plusLeft (cfg : Cfg) (v u1 u2 : Obj) : M Unit := do
  appendStr cfg u1 u2
  ctorMove cfg v u1

/-- `operator+(const basic_string&, basic_string&&)`, string.hpp:2275-2284. -/
def plusRight (cfg : Cfg) (v u1 u2 : Obj) : M Unit := do
  let c ← capacity cfg u2
  let n1 ← size cfg u1
  let n2 ← size cfg u2
  if add64 n1 n2 ≤ c then do
    let p ← dataPtr u1
    let n ← size cfg u1
    insert cfg u2 0 p n
    ctorMove cfg v u2
  else concat cfg v u1 u2

/-- `operator+(const E*, basic_string&&)`, string.hpp:2304-2318, with `insert(begin(), first, last)`. -/
def plusPrefix (cfg : Cfg) (v u : Obj) (pre : List Ch) : M Unit := do
  let c ← capacity cfg u
  let n ← size cfg u
  if add64 pre.length n ≤ c then do
    let b ← begin_ cfg u
    insertRangeAt cfg u b (.ext pre 0) pre.length
    ctorMove cfg v u
  else plusNew cfg v u (.chars pre) .str

/-- `operator+(basic_string&&, const E*)`, string.hpp:2358-2362. -/
def plusSuffix (cfg : Cfg) (v u : Obj) (post : List Ch) : M Unit := do
  append cfg u (.ext post 0) post.length
  ctorMove cfg v u

/-- `operator+(E, basic_string&&)`, string.hpp:2331-2342, with `insert(begin(), c)`. -/
def plusPrefixChar (cfg : Cfg) (v u : Obj) (c : Ch) : M Unit := do
  let k ← capacity cfg u
  let n ← size cfg u
  if n < k then do
    let b ← begin_ cfg u
    insertFillAt cfg u b 1 c
    ctorMove cfg v u
  else plusNew cfg v u (.char c) .str

/-- `operator+(basic_string&&, E)`, string.hpp:2375-2379. -/
def plusSuffixChar (cfg : Cfg) (v u : Obj) (c : Ch) : M Unit := do
  pushBack cfg u c
  ctorMove cfg v u

/-! ### std::hash -/

/-- The bytes of a character in memory, least significant first; `none` for an indeterminate one. -/
def charBytes (w : Nat) (c : Cell) : List (Option Nat) :=
  (List.range w).map fun i => c.map fun x => x / 256 ^ i % 256

/-- `std::hash`, string.hpp:2704-2752: `H` stands for `XXH3_64bits_withSeed`, which is given
`str.size()` bytes from `str.data()` on and the seed `str.size() * sizeof(Char)`. -/
def hash (H : List Nat → Nat → Nat) (cfg : Cfg) (v : Obj) : M Nat := do
  let p ← dataPtr v
  let n ← size cfg v
  let cs ← readCells p ((n + cfg.w - 1) / cfg.w)
  match ((cs.flatMap (charBytes cfg.w)).take n).mapM id with
  | some bytes => pure (H bytes (mul64 n cfg.w))
  | none => ub "hash of indeterminate characters"

/-! ### std::to_string -/

/-- `strlen`; `fuel` is the number of addresses there are. -/
def lengthFrom (p : Ptr) : Nat → Nat → M Nat
  | _, 0 => ub "no terminator"
  | i, fuel + 1 => do
    let c ← readChar (p.add i)
    if c = 0 then pure i else lengthFrom p (i + 1) fuel

/-- `std::to_string`, string.hpp:2773-2775: `std::string{str.data()}`, which copies up to the first
character 0. -/
def toStdString (v : Obj) : M (List Cell) := do
  let p ← dataPtr v
  let n ← lengthFrom p 0 M64
  readCells p n

end Verif.Str
