import Verif.Str.Model

/-!
Model of the member functions of `basic_string` (string/string.hpp:1019-2165) and of `operator+`, on
top of the cores.  Iterators are pointers.
-/

namespace Verif.Str

open M

variable {β : Type}

/-- `isSane()`, string.hpp:1030-1033, which only debug builds evaluate.  The parts that compare
`begin()` and `end()` hold by pointer arithmetic. -/
def sane (cfg : Cfg) (v : Obj) : M Unit :=
  if cfg.dbg then do
    let n ← size cfg v
    let c ← capacity cfg v
    let p ← dataPtr v
    let cs ← readCells (p.add n) 1
    assert cfg (decide (n ≤ c) && decide (cs = [some 0])) "the string is not sane"
  else pure ()

/-- `~Invariant()`, string.hpp:1045: `isSane` when the scope is left, normally or by an
exception. -/
def checking (cfg : Cfg) (v : Obj) (body : M β) : M β := fun s =>
  match body s with
  | (.ok r, s') =>
    match sane cfg v s' with
    | (.ok _, s'') => (.ok r, s'')
    | (.error e, s'') => (.error e, s'')
  | (.error (.throw w), s') =>
    match sane cfg v s' with
    | (.ok _, s'') => (.error (.throw w), s'')
    | (.error e, s'') => (.error e, s'')
  | r => r

/-- `Invariant checker(*this);`, string.hpp:1035-1049. -/
def checker (cfg : Cfg) (v : Obj) (body : M β) : M β := do
  sane cfg v
  checking cfg v body

/-- `enforce<std::out_of_range>(c)`, string.hpp:1023-1028. -/
def enforce (c : Bool) : M Unit := if c then pure () else raise "out_of_range"

/-- `begin()` of a string that is not const, string.hpp:1218. -/
def begin_ (cfg : Cfg) (v : Obj) : M Ptr := noexcept (mutableData cfg v)

/-! ### Construction and assignment -/

/-- `basic_string(n, c, a)`, string.hpp:1118-1121. -/
def ctorFill (cfg : Cfg) (v : Obj) (al n : Nat) (c : Ch) : M Unit :=
  construct cfg v al do
    initEmpty cfg v
    let p ← expandNoinit cfg v n false
    podFill p n c

/-- `resize(n, c)`, string.hpp:1810-1823. -/
def resize (cfg : Cfg) (v : Obj) (n : Nat) (c : Ch) : M Unit :=
  checker cfg v do
    let k ← size cfg v
    if n ≤ k then shrink cfg v (k - n)
    else do
      let p ← expandNoinit cfg v (n - k) false
      podFill p (n - k) c

/-- The copy of `append(s, n)`, string.hpp:1856-1870: `q` and `old` are the data and size before the
string was expanded, `r` the new room. -/
def appendCopy (cfg : Cfg) (v : Obj) (p : Ptr) (n : Nat) (q : Ptr) (old : Nat) (r : Ptr) : M Unit :=
  if p.within q old then do
    assert cfg (decide (p.off + n ≤ q.off + old)) "append: aliasing"
    let q' ← dataPtr v
    podMove (q'.add (p.off - q.off)) n r
  else podCopy cfg p n r

/-- `append(s, n)`, string.hpp:1844-1874. -/
def append (cfg : Cfg) (v : Obj) (p : Ptr) (n : Nat) : M Unit :=
  checker cfg v do
    if n = 0 then pure ()
    else do
      let old ← size cfg v
      let q ← dataPtr v
      let r ← expandNoinit cfg v n true
      appendCopy cfg v p n q old r
      let k ← size cfg v
      assert cfg (decide (k = add64 old n)) "append: size"

/-- `append(n, c)`, string.hpp:1876-1882. -/
def appendFill (cfg : Cfg) (v : Obj) (n : Nat) (c : Ch) : M Unit :=
  checker cfg v do
    let p ← expandNoinit cfg v n true
    podFill p n c

/-- `append(str)`, string.hpp:1825-1833. -/
def appendStr (cfg : Cfg) (v u : Obj) : M Unit := do
  let old ← size cfg v
  let n ← size cfg u
  let p ← dataPtr u
  append cfg v p n
  let k ← size cfg v
  assert cfg (decide (k = add64 old n)) "append(str): size"

/-- The cases of `assign(s, n)`, string.hpp:1897-1911. -/
def assignBy (cfg : Cfg) (v : Obj) (p : Ptr) (n k : Nat) : M Unit :=
  if n = 0 then resize cfg v 0 0
  else if n ≤ k then do
    let q ← mutableData cfg v
    podMove p n q
    let k' ← size cfg v
    shrink cfg v (k' - n)
  else do
    resize cfg v 0 0
    let q ← expandNoinit cfg v n false
    podCopy cfg p n q

/-- `assign(s, n)`, string.hpp:1893-1915. -/
def assign (cfg : Cfg) (v : Obj) (p : Ptr) (n : Nat) : M Unit :=
  checker cfg v do
    let k ← size cfg v
    assignBy cfg v p n k
    let k' ← size cfg v
    assert cfg (decide (k' = n)) "assign: size"

/-- `operator=(const basic_string&)`, string.hpp:1768-1777. -/
def assignStr (cfg : Cfg) (v u : Obj) : M Unit :=
  checker cfg v do
    if u = v then pure ()
    else do
      let n ← size cfg u
      let p ← dataPtr u
      assign cfg v p n

/-- `operator=(basic_string&&)`, string.hpp:1780-1792. -/
def assignMove (cfg : Cfg) (v u : Obj) : M Unit :=
  noexcept do
    if u = v then pure ()
    else do
      destroy cfg v
      ctorMove cfg v u

/-- `front() = c`, string.hpp:1254, 1806. -/
def setFront (cfg : Cfg) (v : Obj) (c : Ch) : M Unit := do
  let p ← begin_ cfg v
  writeCells p [some c]

/-- `operator=(value_type)`, string.hpp:1794-1808; the temporary of a shared string has the default
allocator. -/
def assignChar (cfg : Cfg) (v : Obj) (c : Ch) : M Unit :=
  checker cfg v do
    let k ← size cfg v
    let sh ← isShared v
    if k = 0 then do
      let _ ← expandNoinit cfg v 1 false
      setFront cfg v c
    else if sh then do
      ctorFill cfg (.tmp 4) 0 1 c
      withTemp cfg (.tmp 4) (swap (.tmp 4) v)
    else do
      shrink cfg v (k - 1)
      setFront cfg v c

/-! ### Capacity and elements -/

/-- `reserve(n)`, string.hpp:1276-1279; `max_size()` is the largest `size_type`. -/
def reserve (cfg : Cfg) (v : Obj) (n : Nat) : M Unit := reserveCore cfg v n

/-- `shrink_to_fit()`, string.hpp:1281-1290. -/
def shrinkToFit (cfg : Cfg) (v : Obj) : M Unit :=
  if cfg.arena then pure () else do
    let c ← capacity cfg v
    let k ← size cfg v
    if c < mul64 k 3 / 2 then pure ()
    else do
      let p ← dataPtr v
      ctorData cfg (.tmp 5) 0 p k
      withTemp cfg (.tmp 5) (swap (.tmp 5) v)

/-- `clear()`, string.hpp:1292. -/
def clear (cfg : Cfg) (v : Obj) : M Unit := resize cfg v 0 0

/-- `pop_back()`, string.hpp:1260-1263. -/
def popBack (cfg : Cfg) (v : Obj) : M Unit :=
  noexcept do
    let k ← size cfg v
    assert cfg (decide (k ≠ 0)) "pop_back"
    shrink cfg v 1

/-- `s[i] = c`, string.hpp:1299. -/
def setAt (cfg : Cfg) (v : Obj) (i : Nat) (c : Ch) : M Unit := do
  let p ← begin_ cfg v
  writeCells (p.add i) [some c]

/-- Reading one character, which must have a value. -/
def readChar (p : Ptr) : M Ch := do
  let cs ← readCells p 1
  match cs with
  | [some c] => pure c
  | _ => ub "read of an indeterminate character"

/-- `s[i]` of a const string, string.hpp:1297. -/
def getAt (v : Obj) (i : Nat) : M Ch := do
  let p ← dataPtr v
  readChar (p.add i)

/-- `at(i)` of a const string, string.hpp:1301-1304. -/
def atConst (cfg : Cfg) (v : Obj) (i : Nat) : M Ch := do
  let k ← size cfg v
  enforce (decide (i < k))
  getAt v i

/-- `at(i) = c`, string.hpp:1306-1309. -/
def setAtChecked (cfg : Cfg) (v : Obj) (i : Nat) (c : Ch) : M Unit := do
  let k ← size cfg v
  enforce (decide (i < k))
  setAt cfg v i c

/-- `copy(s, n, pos)`: the characters copied out, string.hpp:1545-1553. -/
def copyOut (cfg : Cfg) (v : Obj) (n pos : Nat) : M (List Cell) := do
  let k ← size cfg v
  enforce (decide (pos ≤ k))
  let p ← dataPtr v
  readCells (p.add pos) (min n (k - pos))

/-! ### insert -/

/-- `Assert(i >= cbegin() && i <= cend())` and `i - cbegin()`, string.hpp:2018-2019, 2045-2046;
subtracting pointers into different arrays is undefined. -/
def posOf (cfg : Cfg) (v : Obj) (i : Ptr) : M Nat := do
  let p ← dataPtr v
  let k ← size cfg v
  if i.same p && decide (p.off ≤ i.off) && decide (i.off ≤ p.off + k) then pure (i.off - p.off)
  else if cfg.dbg then fail (.assertFail "insert: iterator out of range") else ub "insert: iterator out of range"

/-- `insert(i, n, c)`, string.hpp:2012-2028. -/
def insertFillAt (cfg : Cfg) (v : Obj) (i : Ptr) (n : Nat) (c : Ch) : M Unit :=
  checker cfg v do
    let pos ← posOf cfg v i
    let old ← size cfg v
    let _ ← expandNoinit cfg v n true
    let b ← begin_ cfg v
    podMove (b.add pos) (old - pos) (b.add (pos + n))
    podFill (b.add pos) n c

/-- `insert(i, s, s + n)` for forward iterators, string.hpp:2039-2057. -/
def insertRangeAt (cfg : Cfg) (v : Obj) (i : Ptr) (p : Ptr) (n : Nat) : M Unit :=
  checker cfg v do
    let pos ← posOf cfg v i
    let old ← size cfg v
    let _ ← expandNoinit cfg v n true
    let b ← begin_ cfg v
    podMove (b.add pos) (old - pos) (b.add (pos + n))
    podMove p n (b.add pos)

/-- `insert(pos, n, c)`, string.hpp:1394-1398. -/
def insertFill (cfg : Cfg) (v : Obj) (pos n : Nat) (c : Ch) : M Unit := do
  let k ← size cfg v
  enforce (decide (pos ≤ k))
  let b ← begin_ cfg v
  insertFillAt cfg v (b.add pos) n c

/-- `insert(pos, s, n)`, string.hpp:1386-1390. -/
def insert (cfg : Cfg) (v : Obj) (pos : Nat) (p : Ptr) (n : Nat) : M Unit := do
  let k ← size cfg v
  enforce (decide (pos ≤ k))
  let b ← begin_ cfg v
  insertRangeAt cfg v (b.add pos) p n

/-- `append(first, last)` for forward iterators, string.hpp:1338-1342. -/
def appendRange (cfg : Cfg) (v : Obj) (p : Ptr) (n : Nat) : M Unit := do
  let b ← begin_ cfg v
  let k ← size cfg v
  insertRangeAt cfg v (b.add k) p n

/-! ### erase and replace -/

/-- `erase(pos, n)`, string.hpp:1443-1451. -/
def erase (cfg : Cfg) (v : Obj) (pos n : Nat) : M Unit :=
  checker cfg v do
    let k ← size cfg v
    enforce (decide (pos ≤ k))
    let m := min n (k - pos)
    let b ← begin_ cfg v
    podMove (b.add (pos + m)) (k - (pos + m)) (b.add pos)
    resize cfg v (k - m) 0

/-- `erase(first, last)`, string.hpp:1460-1464. -/
def eraseAt (cfg : Cfg) (v : Obj) (i : Ptr) (n : Nat) : M Unit := do
  let b ← begin_ cfg v
  if i.same b && decide (b.off ≤ i.off) then erase cfg v (i.off - b.off) n
  else ub "erase: iterator of another array"

/-- The copy to a new string in `replaceAliased`, string.hpp:2120-2124; `d` is `begin()`, `k` the size,
`pos` and `n1` the part replaced. -/
def replaceCopy (cfg : Cfg) (v t : Obj) (d : Ptr) (k pos n1 : Nat) (p : Ptr) (n2 : Nat) : M Unit := do
  reserve cfg t (add64 (sub64 k n1) n2)
  appendRange cfg t d pos
  appendRange cfg t p n2
  appendRange cfg t (d.add (pos + n1)) (k - (pos + n1))
  swap v t

/-- `replace(i1, i2, s, s + n2)` for pointers, with `i1 = begin() + pos`, `i2 = i1 + n1`,
string.hpp:2111-2155.  The local of `replaceAliased` has the default allocator (string.hpp:2120). -/
def replaceImpl (cfg : Cfg) (v : Obj) (i1 : Ptr) (pos n1 : Nat) (p : Ptr) (n2 : Nat) : M Unit :=
  checker cfg v do
    let b ← begin_ cfg v
    let k ← size cfg v
    if p.within b (k + 1) then do
      ctorEmpty cfg (.tmp 2) 0
      withTemp cfg (.tmp 2) (replaceCopy cfg v (.tmp 2) b k pos n1 p n2)
    else if n2 < n1 then do
      podMove p n2 i1
      eraseAt cfg v (i1.add n2) (n1 - n2)
      sane cfg v
    else do
      podMove p n1 i1
      insertRangeAt cfg v (i1.add n1) (p.add n1) (n2 - n1)
      sane cfg v

/-- The `Assert`s of string.hpp:2078-2080, whose `begin()` is evaluated in debug builds only. -/
def replaceCheck (cfg : Cfg) (v : Obj) (i1 : Ptr) (n1 : Nat) : M Unit :=
  if cfg.dbg then do
    let b ← begin_ cfg v
    let k ← size cfg v
    assert cfg (i1.same b && decide (b.off ≤ i1.off) && decide (i1.off + n1 ≤ b.off + k)) "replace: iterators"
  else pure ()

/-- `replace(pos, n1, s, n2)`, string.hpp:1491-1499, 2074-2083. -/
def replace (cfg : Cfg) (v : Obj) (pos n1 : Nat) (p : Ptr) (n2 : Nat) : M Unit :=
  checker cfg v do
    let k ← size cfg v
    enforce (decide (pos ≤ k))
    let m := min n1 (k - pos)
    let b ← begin_ cfg v
    replaceCheck cfg v (b.add pos) m
    replaceImpl cfg v (b.add pos) pos m p n2

/-- `replace(i1, i2, n2, c)`, string.hpp:2084-2098. -/
def replaceFillAt (cfg : Cfg) (v : Obj) (i1 : Ptr) (n1 n2 : Nat) (c : Ch) : M Unit := do
  if n2 < n1 then do
    podFill i1 n2 c
    eraseAt cfg v (i1.add n2) (n1 - n2)
    sane cfg v
  else do
    podFill i1 n1 c
    insertFillAt cfg v (i1.add n1) (n2 - n1) c
    sane cfg v

/-- `replace(pos, n1, n2, c)`, string.hpp:1491-1499, 2084-2098. -/
def replaceFill (cfg : Cfg) (v : Obj) (pos n1 n2 : Nat) (c : Ch) : M Unit :=
  checker cfg v do
    let k ← size cfg v
    enforce (decide (pos ≤ k))
    let b ← begin_ cfg v
    replaceFillAt cfg v (b.add pos) (min n1 (k - pos)) n2 c

/-- `assign(n, c)`, string.hpp:1371-1374: `replace(begin(), end(), n, c)`. -/
def assignFill (cfg : Cfg) (v : Obj) (n : Nat) (c : Ch) : M Unit := do
  let b ← begin_ cfg v
  let k ← size cfg v
  replaceFillAt cfg v b k n c

/-! ### New strings -/

/-- A new string that `body` fills; when it throws the string is destroyed. -/
def building (cfg : Cfg) (v : Obj) (body : M Unit) : M Unit := fun s =>
  match body s with
  | (.error (.throw w), s') =>
    match destroy cfg v s' with
    | (.ok _, s'') => (.error (.throw w), s'')
    | (.error e, s'') => (.error e, s'')
  | r => r

/-- `clone()`, string.hpp:1188-1215. -/
def clone (cfg : Cfg) (v u : Obj) : M Unit := do
  let o ← getOb u
  match o.core with
  | .ml _ _ _ true => do
    ctorCopy cfg v u
    building cfg v (unshare cfg v 0)
  | _ => ctorCopy cfg v u

/-- `substr(pos, n) const&`, string.hpp:1699-1702. -/
def substr (cfg : Cfg) (v u : Obj) (pos n : Nat) : M Unit := do
  let k ← size cfg u
  enforce (decide (pos ≤ k))
  let p ← dataPtr u
  let o ← getOb u
  ctorData cfg v o.al (p.add pos) (min n (k - pos))

/-- `substr(pos, n) &&`, string.hpp:1704-1711. -/
def substrMove (cfg : Cfg) (v u : Obj) (pos n : Nat) : M Unit := do
  let k ← size cfg u
  enforce (decide (pos ≤ k))
  erase cfg u 0 pos
  let k' ← size cfg u
  doIf (decide (n < k')) (resize cfg u n 0)
  ctorMove cfg v u

/-- `operator+(const basic_string&, const basic_string&)`, string.hpp:2259-2266. -/
def concat (cfg : Cfg) (v u1 u2 : Obj) : M Unit := do
  let o ← getOb u1
  ctorEmpty cfg v o.al
  building cfg v do
    let n1 ← size cfg u1
    let n2 ← size cfg u2
    reserve cfg v (add64 n1 n2)
    appendStr cfg v u1
    appendStr cfg v u2

/-- What `operator+` of a string and something else appends to its result: the string itself, the
characters of a C string, or one character. -/
inductive Part where
  | str
  | chars (xs : List Ch)
  | char (c : Ch)
  deriving Repr, DecidableEq

/-- Append one part. -/
def addPart (cfg : Cfg) (v u : Obj) (q : Part) : M Unit :=
  match q with
  | .str => appendStr cfg v u
  | .chars xs => append cfg v (.ext xs 0) xs.length
  | .char c => pushBack cfg v c

/-- Append two parts. -/
def addParts (cfg : Cfg) (v u : Obj) (q1 q2 : Part) : M Unit := do
  addPart cfg v u q1
  addPart cfg v u q2

/-- The length of a part. -/
def partSize (cfg : Cfg) (u : Obj) (q : Part) : M Nat :=
  match q with
  | .str => size cfg u
  | .chars xs => pure xs.length
  | .char _ => pure 1

/-- `operator+` of a const string and a C string or a character, on either side, string.hpp:2293-2301,
2321-2328, 2345-2355, 2365-2372. -/
def plusNew (cfg : Cfg) (v u : Obj) (q1 q2 : Part) : M Unit := do
  let o ← getOb u
  ctorEmpty cfg v o.al
  building cfg v do
    let n1 ← partSize cfg u q1
    let n2 ← partSize cfg u q2
    reserve cfg v (add64 n1 n2)
    addParts cfg v u q1 q2

end Verif.Str
