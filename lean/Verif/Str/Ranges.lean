import Verif.Str.StringMore

/-!
Ranges given by iterators other than pointers: the functions for single pass (`input`) iterators, which are written on their own, and
iterators that throw.
-/

namespace Verif.Str.Ranges

open M

variable {β γ : Type} {cfg : Cfg} {s s' : St} {v u t : Obj}

/-! ### Model -/

/-- What the iterators of a range give, in their order: a character, or `none` if reading it or going on to it throws. -/
abbrev Range := List (Option Ch)

/-- `for (; b != e; ++b) { temp.push_back(*b); }`, string.hpp:2065-2067. -/
def pushRange (cfg : Cfg) (t : Obj) : Range → M Unit
  | [] => pure ()
  | none :: _ => raise "iterator"
  | some c :: r => do
    pushBack cfg t c
    pushRange cfg t r

/-- `i - begin` for a pointer into the string whose characters begin at `b`, without the `Assert` of the function for forward iterators
(string.hpp:2063); subtracting pointers into different arrays is undefined. -/
def distance (cfg : Cfg) (v : Obj) (b i : Ptr) : M Nat := do
  let k ← size cfg v
  if i.same b && decide (b.off ≤ i.off) && decide (i.off ≤ b.off + k) then pure (i.off - b.off)
  else ub "iterator of another array"

/-- The body of `insertImpl` for input iterators after the construction of the local `temp` (`t`), string.hpp:2065-2070, where the iterator
returned is made too. -/
def insertInputBody (cfg : Cfg) (v t : Obj) (i : Ptr) (pos : Nat) (r : Range) : M Unit := do
  pushRange cfg t r
  let k ← size cfg v
  appendRange cfg t i (k - pos)
  swap v t
  let _ ← begin_ cfg v

/-- `insert(i, b, e)` for input iterators, string.hpp:2059-2071; `t` is the local `temp`. -/
def insertInputAt (cfg : Cfg) (v t : Obj) (i : Ptr) (r : Range) : M Unit := do
  let b ← dataPtr v
  let pos ← distance cfg v b i
  let o ← getOb v
  ctorData cfg t o.al b pos
  withTemp cfg t (insertInputBody cfg v t i pos r)

/-- `s.insert(s.begin() + pos, b, e)` for input iterators. -/
def insertInput (cfg : Cfg) (v t : Obj) (pos : Nat) (r : Range) : M Unit := do
  let b ← begin_ cfg v
  insertInputAt cfg v t (b.add pos) r

/-- `append(b, e)` for input iterators, string.hpp:1338-1342: `insert(end(), b, e)`. -/
def appendInput (cfg : Cfg) (v t : Obj) (r : Range) : M Unit := do
  let b ← begin_ cfg v
  let k ← size cfg v
  insertInputAt cfg v t (b.add k) r

/-- The body of `replaceImpl` for input iterators after the construction of the local `temp`, string.hpp:2163-2164. -/
def replaceInputBody (cfg : Cfg) (v : Obj) (i2 : Ptr) (n : Nat) (r : Range) : M Unit := do
  appendInput cfg (.tmp 2) (.tmp 3) r
  let _ ← begin_ cfg v
  let k ← size cfg v
  appendRange cfg (.tmp 2) i2 (k - n)
  swap v (.tmp 2)

/-- `replace(i1, i1 + n1, b, e)` for input iterators, string.hpp:2157-2164; `.tmp 2` is its local `temp`, `.tmp 3` that of the
`append` it calls. -/
def replaceInputAt (cfg : Cfg) (v : Obj) (i1 : Ptr) (n1 : Nat) (r : Range) : M Unit := do
  let b ← begin_ cfg v
  let pos ← distance cfg v b i1
  let o ← getOb v
  ctorData cfg (.tmp 2) o.al b pos
  withTemp cfg (.tmp 2) (replaceInputBody cfg v (i1.add n1) (pos + n1) r)

/-- `s.replace(s.begin() + pos, s.begin() + pos + n1, b, e)` for input iterators, string.hpp:1537-1543, 2101-2109. -/
def replaceInput (cfg : Cfg) (v : Obj) (pos n1 : Nat) (r : Range) : M Unit := do
  let b ← begin_ cfg v
  replaceInputAt cfg v (b.add pos) n1 r

/-- `assign(b, e)` for input iterators, string.hpp:1371-1374: `replace(begin(), end(), b, e)`. -/
def assignInput (cfg : Cfg) (v : Obj) (r : Range) : M Unit := do
  let b ← begin_ cfg v
  let k ← size cfg v
  replaceInputAt cfg v b k r

/-- The constructor from input iterators, string.hpp:1123-1128; when `assign` throws the core is destroyed. -/
def makeInput (cfg : Cfg) (v : Obj) (al : Nat) (r : Range) : M Unit := do
  ctorEmpty cfg v al
  building cfg v (assignInput cfg v r)

/-- `std::copy(s1, s2, p)` for forward iterators that may throw, string.hpp:2054: the characters are written one by one. -/
def copyRange (p : Ptr) : Range → M Unit
  | [] => pure ()
  | none :: _ => raise "iterator"
  | some c :: r => do
    writeCells p [some c]
    copyRange (p.add 1) r

/-- `insert(i, s1, s2)` for forward iterators that may throw, string.hpp:2039-2057. -/
def insertForwardAt (cfg : Cfg) (v : Obj) (i : Ptr) (r : Range) : M Unit :=
  checker cfg v do
    let pos ← posOf cfg v i
    let old ← size cfg v
    let _ ← expandNoinit cfg v r.length true
    let b ← begin_ cfg v
    podMove (b.add pos) (old - pos) (b.add (pos + r.length))
    copyRange (b.add pos) r

/-- `s.insert(s.begin() + pos, s1, s2)` for forward iterators. -/
def insertForward (cfg : Cfg) (v : Obj) (pos : Nat) (r : Range) : M Unit := do
  let b ← begin_ cfg v
  insertForwardAt cfg v (b.add pos) r

/-- `append(s1, s2)` for forward iterators, string.hpp:1338-1342. -/
def appendForward (cfg : Cfg) (v : Obj) (r : Range) : M Unit := do
  let b ← begin_ cfg v
  let k ← size cfg v
  insertForwardAt cfg v (b.add k) r

/-! ### Programs -/

/-- The calls with ranges, and all the others. -/
inductive Call where
  | op (o : Op)
  | make (v al : Nat) (r : Range)
  | insert (v pos : Nat) (r : Range)
  | append (v : Nat) (r : Range)
  | assign (v : Nat) (r : Range)
  | replace (v pos n1 : Nat) (r : Range)

/-- Run a call; the ranges are of single pass iterators. -/
def Call.run (cfg : Cfg) : Call → M Unit
  | .op o => o.run cfg
  | .make v al r => makeInput cfg (.user v) al r
  | .insert v pos r => insertInput cfg (.user v) (.tmp 2) pos r
  | .append v r => appendInput cfg (.user v) (.tmp 2) r
  | .assign v r => assignInput cfg (.user v) r
  | .replace v pos n1 r => replaceInput cfg (.user v) pos n1 r

/-! ### Specification -/

/-- What a call should do: what `Out` says, or let the exception of an iterator out and change nothing. -/
inductive Result where
  | out (o : Out)
  | thrown

/-- The characters a range gives before it throws, or all of them. -/
def given : Range → List Ch
  | some c :: r => c :: given r
  | _ => []

/-- A range that gives the characters `ys` should have the effect of these; one that throws after them, none. -/
def ranged (r : Range) (f : List Ch → Option Out) : Option Result :=
  (f (given r)).map fun o => if none ∈ r then .thrown else .out o

/-- What a call should do to the contents of the strings; `none` if its preconditions do not hold. -/
def Call.spec (arena : Bool) (a : Abs) : Call → Option Result
  | .op o => (o.spec arena a).map .out
  | .make v al r => if arena = (al != 0) ∧ (given r).length < M64 then ranged r (a.make v) else none
  | .insert v pos r => do
    let xs ← a v
    if pos ≤ xs.length then ranged r fun ys => a.set v (splice xs pos 0 ys) else none
  | .append v r => do
    let xs ← a v
    ranged r fun ys => a.set v (xs ++ ys)
  | .assign v r => do
    let _ ← a v
    ranged r fun ys => a.set v ys
  | .replace v pos n1 r => do
    let xs ← a v
    if pos + n1 ≤ xs.length then ranged r fun ys => a.set v (splice xs pos n1 ys) else none

end Verif.Str.Ranges
