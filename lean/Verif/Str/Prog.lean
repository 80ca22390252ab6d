import Verif.Str.StreamSpec

/-!
Programs that use any number of strings: the operations, how they run on the model, and what they
should do to the contents, written on lists alone.
-/

namespace Verif.Str

open M

/-- The source of characters of an operation: memory of the caller, or `n` characters of the string
`u` from index `i` on (`u.data() + i`, `n`). -/
inductive Src where
  | lit (xs : List Ch)
  | sub (u i n : Nat)
  deriving Repr, DecidableEq

/-- The pointer and the number of characters of a source. -/
def Src.resolve : Src → M (Ptr × Nat)
  | .lit xs => pure (.ext xs 0, xs.length)
  | .sub u i n => do
    let p ← dataPtr (.user u)
    pure (p.add i, n)

/-- Operations of a program; strings have numbers.  The first argument is the string made or
changed. -/
inductive Op where
  | makeEmpty (v al : Nat)
  | make (v al : Nat) (src : Src)
  | makeFill (v al n : Nat) (c : Ch)
  | copy (v u : Nat)
  | move (v u : Nat)
  | clone (v u : Nat)
  | substr (v u pos n : Nat)
  | substrMove (v u pos n : Nat)
  | concat (v u1 u2 : Nat)
  | concatWith (v u : Nat) (q1 q2 : Part)
  | destroy (v : Nat)
  | swap (v u : Nat)
  | assignStr (v u : Nat)
  | assignMove (v u : Nat)
  | assign (v : Nat) (src : Src)
  | assignFill (v n : Nat) (c : Ch)
  | assignChar (v : Nat) (c : Ch)
  | append (v : Nat) (src : Src)
  | appendStr (v u : Nat)
  | appendFill (v n : Nat) (c : Ch)
  | appendRange (v : Nat) (src : Src)
  | pushBack (v : Nat) (c : Ch)
  | popBack (v : Nat)
  | resize (v n : Nat) (c : Ch)
  | reserve (v n : Nat)
  | shrinkToFit (v : Nat)
  | clear (v : Nat)
  | setAt (v i : Nat) (c : Ch)
  | insert (v pos : Nat) (src : Src)
  | insertFill (v pos n : Nat) (c : Ch)
  | erase (v pos n : Nat)
  | replace (v pos n1 : Nat) (src : Src)
  | replaceFill (v pos n1 n2 : Nat) (c : Ch)
  | getline (v : Nat) (is : IStream) (delim : Ch)
  | extract (v : Nat) (is : IStream)
  deriving Repr, DecidableEq

/-- Run one operation. -/
def Op.run (cfg : Cfg) : Op → M Unit
  | .makeEmpty v al => ctorEmpty cfg (.user v) al
  | .make v al src => do let (p, n) ← src.resolve; ctorData cfg (.user v) al p n
  | .makeFill v al n c => ctorFill cfg (.user v) al n c
  | .copy v u => ctorCopy cfg (.user v) (.user u)
  | .move v u => ctorMove cfg (.user v) (.user u)
  | .clone v u => Str.clone cfg (.user v) (.user u)
  | .substr v u pos n => Str.substr cfg (.user v) (.user u) pos n
  | .substrMove v u pos n => Str.substrMove cfg (.user v) (.user u) pos n
  | .concat v u1 u2 => Str.concat cfg (.user v) (.user u1) (.user u2)
  | .concatWith v u q1 q2 => Str.plusNew cfg (.user v) (.user u) q1 q2
  | .destroy v => Str.destroy cfg (.user v)
  | .swap v u => Str.swap (.user v) (.user u)
  | .assignStr v u => Str.assignStr cfg (.user v) (.user u)
  | .assignMove v u => Str.assignMove cfg (.user v) (.user u)
  | .assign v src => do let (p, n) ← src.resolve; Str.assign cfg (.user v) p n
  | .assignFill v n c => Str.assignFill cfg (.user v) n c
  | .assignChar v c => Str.assignChar cfg (.user v) c
  | .append v src => do let (p, n) ← src.resolve; Str.append cfg (.user v) p n
  | .appendStr v u => Str.appendStr cfg (.user v) (.user u)
  | .appendFill v n c => Str.appendFill cfg (.user v) n c
  | .appendRange v src => do let (p, n) ← src.resolve; Str.appendRange cfg (.user v) p n
  | .pushBack v c => Str.pushBack cfg (.user v) c
  | .popBack v => Str.popBack cfg (.user v)
  | .resize v n c => Str.resize cfg (.user v) n c
  | .reserve v n => Str.reserve cfg (.user v) n
  | .shrinkToFit v => Str.shrinkToFit cfg (.user v)
  | .clear v => Str.clear cfg (.user v)
  | .setAt v i c => Str.setAt cfg (.user v) i c
  | .insert v pos src => do let (p, n) ← src.resolve; Str.insert cfg (.user v) pos p n
  | .insertFill v pos n c => Str.insertFill cfg (.user v) pos n c
  | .erase v pos n => Str.erase cfg (.user v) pos n
  | .replace v pos n1 src => do let (p, n) ← src.resolve; Str.replace cfg (.user v) pos n1 p n
  | .replaceFill v pos n1 n2 c => Str.replaceFill cfg (.user v) pos n1 n2 c
  | .getline v is delim => do let _ ← Str.getline cfg (.user v) is delim; pure ()
  | .extract v is => do let _ ← Str.extract cfg (.user v) is; pure ()

/-! ### Specification -/

/-- The contents of the strings alive. -/
abbrev Abs := Nat → Option (List Ch)

/-- What an operation should do: change the contents, or throw `out_of_range` and change nothing. -/
inductive Out where
  | done (a : Abs)
  | outOfRange

/-- The characters of a source; `none` when it is not a range of a string alive. -/
def Src.chars (a : Abs) : Src → Option (List Ch)
  | .lit xs => if xs.length < M64 then some xs else none
  | .sub u i n => do
    let xs ← a u
    if i + n ≤ xs.length then some ((xs.drop i).take n) else none

/-- Whether a source lies in the string `v`. -/
def Src.isIn (v : Nat) : Src → Bool
  | .lit _ => false
  | .sub u _ _ => u == v

/-- The characters of a part, when those of the string are `xs`. -/
def Part.of (xs : List Ch) : Part → List Ch
  | .str => xs
  | .chars ys => ys
  | .char c => [c]

/-- The contents after replacing `n1` characters from `pos` on. -/
def splice (xs : List Ch) (pos n1 : Nat) (ys : List Ch) : List Ch :=
  xs.take pos ++ ys ++ xs.drop (pos + n1)

/-- A new string. -/
def Abs.make (a : Abs) (v : Nat) (xs : List Ch) : Option Out :=
  if (a v).isNone then some (.done (upd a v (some xs))) else none

/-- A string gets new contents; lengths have to fit in a `size_type`. -/
def Abs.set (a : Abs) (v : Nat) (xs : List Ch) : Option Out :=
  if xs.length < M64 then some (.done (upd a v (some xs))) else none

/-- What each operation should do; `none` when the caller breaks a precondition.  For strings on an
arena (`arena`), the allocator given must not be the default one; streams must be good (`getline` also takes those at the end) and not throw; two uses of a default-constructed
temporary inside the library are excluded, as they go wrong (`arena_replace_alias_violated`,
`arena_assign_char_violated`). -/
def Op.spec (arena : Bool) (a : Abs) : Op → Option Out
  | .makeEmpty v al => if arena = (al != 0) then a.make v [] else none
  | .make v al src => do
    let xs ← src.chars a
    if arena = (al != 0) then a.make v xs else none
  | .makeFill v al n c => if arena = (al != 0) ∧ n < M64 then a.make v (List.replicate n c) else none
  | .copy v u | .clone v u => do let xs ← a u; a.make v xs
  | .move v u => do
    let xs ← a u
    if (a v).isNone then some (.done (upd (upd a v (some xs)) u (some []))) else none
  | .substr v u pos n => do
    let xs ← a u
    if (a v).isSome then none else
    if pos ≤ xs.length then a.make v ((xs.drop pos).take n) else some .outOfRange
  | .substrMove v u pos n => do
    let xs ← a u
    if (a v).isSome then none else
    if pos ≤ xs.length then some (.done (upd (upd a v (some ((xs.drop pos).take n))) u (some [])))
    else some .outOfRange
  | .concat v u1 u2 => do
    let xs ← a u1
    let ys ← a u2
    if xs.length + ys.length < M64 then a.make v (xs ++ ys) else none
  | .concatWith v u q1 q2 => do
    let xs ← a u
    if (q1.of xs).length + (q2.of xs).length < M64 then a.make v (q1.of xs ++ q2.of xs) else none
  | .destroy v => do let _ ← a v; some (.done (upd a v none))
  | .swap v u => do
    let xs ← a v
    let ys ← a u
    some (.done (upd (upd a v (some ys)) u (some xs)))
  | .assignStr v u => do let _ ← a v; let xs ← a u; a.set v xs
  | .assignMove v u => do
    let _ ← a v
    let xs ← a u
    some (.done (upd (upd a u (some [])) v (some xs)))
  | .assign v src => do let _ ← a v; let xs ← src.chars a; a.set v xs
  | .assignFill v n c => do let _ ← a v; a.set v (List.replicate n c)
  | .assignChar v c => do
    let _ ← a v
    if arena then none else a.set v [c]
  | .append v src => do let xs ← a v; let ys ← src.chars a; a.set v (xs ++ ys)
  | .appendStr v u => do let xs ← a v; let ys ← a u; a.set v (xs ++ ys)
  | .appendFill v n c => do let xs ← a v; a.set v (xs ++ List.replicate n c)
  | .appendRange v src => do
    let xs ← a v
    let ys ← src.chars a
    if src.isIn v then none else a.set v (xs ++ ys)
  | .pushBack v c => do let xs ← a v; a.set v (xs ++ [c])
  | .popBack v => do
    let xs ← a v
    if xs = [] then none else a.set v xs.dropLast
  | .resize v n c => do let xs ← a v; a.set v (xs.take n ++ List.replicate (n - xs.length) c)
  | .reserve v n => do
    let xs ← a v
    if n < M64 then a.set v xs else none
  | .shrinkToFit v => do let xs ← a v; a.set v xs
  | .clear v => do let _ ← a v; a.set v []
  | .setAt v i c => do
    let xs ← a v
    if i < xs.length then a.set v (xs.set i c) else none
  | .insert v pos src => do
    let xs ← a v
    let ys ← src.chars a
    if src.isIn v then none else
    if pos ≤ xs.length then a.set v (splice xs pos 0 ys) else some .outOfRange
  | .insertFill v pos n c => do
    let xs ← a v
    if pos ≤ xs.length then a.set v (splice xs pos 0 (List.replicate n c)) else some .outOfRange
  | .erase v pos n => do
    let xs ← a v
    if pos ≤ xs.length then a.set v (splice xs pos n []) else some .outOfRange
  | .replace v pos n1 src => do
    let xs ← a v
    let ys ← src.chars a
    if arena && src.isIn v then none else
    if pos ≤ xs.length then a.set v (splice xs pos n1 ys) else some .outOfRange
  | .replaceFill v pos n1 n2 c => do
    let xs ← a v
    if pos ≤ xs.length then a.set v (splice xs pos n1 (List.replicate n2 c)) else some .outOfRange
  | .getline v is delim => do
    let _ ← a v
    if is.calm then a.set v (lineOf delim is.inp) else if is.over then a.set v [] else none
  | .extract v is => do
    let xs ← a v
    if is.calm ∧ ∀ c ∈ is.inp, c < 256 then a.set v (is.word xs) else none

end Verif.Str
