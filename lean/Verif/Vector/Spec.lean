import Verif.Vector.Model

/-!
What users of a vector may rely on: the contents of vectors as lists, the effect of every operation
on these lists, and the contract under which the operations may be called.  Nothing here looks at
storage; the only thing about a vector mentioned besides its contents is `capacity()`.
-/

namespace Verif.Vector

variable {α : Type}

/-- The value of an argument when a vector contains `xs`. -/
def Arg.val (xs : List α) : Arg α → Option α
  | .ext v => some v
  | .own i => xs[i]?

/-- The argument is an object outside the vector. -/
def Arg.outside : Arg α → Bool
  | .ext _ => true
  | .own _ => false

/-- The contents after an operation, `xs` being the contents before. -/
def specStep [DecidableEq α] (dflt : α) (xs : List α) : Op α → List α
  | .pushBack _ _ a => xs ++ (a.val xs).toList
  | .insert _ _ pos a => xs.take pos ++ (a.val xs).toList ++ xs.drop pos
  | .insertN _ pos n a => xs.take pos ++ ((a.val xs).toList.flatMap (List.replicate n)) ++ xs.drop pos
  | .insertRange _ pos src => xs.take pos ++ src.list ++ xs.drop pos
  | .erase pos => xs.take pos ++ xs.drop (pos + 1)
  | .eraseRange a b => xs.take a ++ xs.drop b
  | .eraseValue a => xs.filter (fun x => some x ≠ a.val xs)
  | .eraseIf p => xs.filter (fun x => ¬ p x)
  | .popBack => xs.dropLast
  | .resize n => xs.take n ++ List.replicate (n - xs.length) dflt
  | .resizeValue n a => xs.take n ++ (a.val xs).toList.flatMap (List.replicate (n - xs.length))
  | .resizeRaw l => xs ++ l
  | .assignN n a => (a.val xs).toList.flatMap (List.replicate n)
  | .assignRange src => src.list
  | .clear => []
  | .reserve _ => xs
  | .shrinkToFit => xs
  | .fill _ _ l => xs ++ l
  | .writeBuffer _ l => xs ++ l
  | .set i x => xs.set i x

/-- What an operation returns: `insert` and `emplace` the position of the first new element, `erase`
the position of the element behind the erased ones, `erase(value)` and `erase_if` the number of
elements erased. -/
def specRet [DecidableEq α] (xs : List α) : Op α → Ret
  | .insert _ _ pos _ | .insertN _ pos _ _ | .insertRange _ pos _ => .num pos
  | .erase pos => .num pos
  | .eraseRange a _ => .num a
  | .eraseValue a => .num (xs.countP (fun x => some x = a.val xs))
  | .eraseIf p => .num (xs.countP p)
  | _ => .unit

/-- The element types the contract covers: types of more than 128 KiB are left out. -/
def Good (cfg : Cfg α) : Prop := 0 < cfg.size ∧ cfg.size ≤ 131072

/-- Storage for twice `n` elements is not larger than an object can be. -/
def Fits (cfg : Cfg α) (n : Nat) : Prop := 2 * (n * cfg.size) < 2 ^ 63

/-- A range is given by iterators that copy its elements. -/
def Source.Copied (cfg : Cfg α) : Source α → Prop
  | .contiguous _ => cfg.kind ≠ .reloc
  | .reversed _ => cfg.kind.relocatable = false
  | .forward _ => True

/-- The operations that construct and destroy the elements of `Relocatable` types that are not trivially
copyable properly; for all other types all operations do. -/
def Op.Proper (cfg : Cfg α) (xs : List α) : Op α → Prop
  | .pushBack _ e _ => cfg.kind = .reloc → e = true
  | .insert _ e pos _ => cfg.kind = .reloc → e = true ∧ xs.length ≤ pos + 1
  | .insertN _ pos n _ => cfg.kind = .reloc → xs.length ≤ pos + n
  | .insertRange _ pos src => cfg.kind = .reloc → xs.length ≤ pos + src.list.length
  | .eraseValue _ | .eraseIf _ => cfg.kind ≠ .reloc
  | _ => True

/-- What the arguments of an operation must be on a vector with contents `xs` and capacity `cap`. -/
def Requires (cfg : Cfg α) (cap : Nat) (xs : List α) : Op α → Prop
  | .pushBack safe _ a =>
      (a.val xs).isSome ∧ (if safe then Fits cfg (xs.length + 1) else xs.length < cap)
  | .insert safe _ pos a =>
      pos ≤ xs.length ∧ a.outside ∧ (if safe then Fits cfg (xs.length + 1) else xs.length < cap)
  | .insertN safe pos n a =>
      pos ≤ xs.length ∧ 0 < n ∧ a.outside ∧ (if safe then Fits cfg (xs.length + n) else xs.length + n ≤ cap)
  | .insertRange safe pos src =>
      pos ≤ xs.length ∧ src.Copied cfg ∧
      (if safe then Fits cfg (xs.length + src.list.length) else xs.length + src.list.length ≤ cap)
  | .erase pos => pos < xs.length
  | .eraseRange a b => a ≤ b ∧ b ≤ xs.length
  | .eraseValue a => a.outside
  | .eraseIf _ => True
  | .popBack => xs ≠ []
  | .resize n => Fits cfg n
  | .resizeValue n a => a.outside ∧ Fits cfg n
  | .resizeRaw l => Fits cfg (xs.length + l.length)
  | .assignN n a => 0 < n ∧ a.outside ∧ Fits cfg n
  | .assignRange src => src.list ≠ [] ∧ src.Copied cfg ∧ Fits cfg src.list.length
  | .clear => True
  | .reserve n => Fits cfg n
  | .shrinkToFit => True
  | .fill safe promise l =>
      l.length ≤ promise ∧ (if safe then Fits cfg (xs.length + promise) else xs.length + promise ≤ cap)
  | .writeBuffer safe l =>
      Fits cfg (xs.length + l.length) ∧ (xs.length + l.length ≤ cap ∨ (safe = true ∧ xs = []))
  | .set i _ => i < xs.length

/-- When an operation may be called on a vector with contents `xs` and capacity `cap`. -/
def InContract (cfg : Cfg α) (cap : Nat) (xs : List α) (op : Op α) : Prop :=
  op.Proper cfg xs ∧ Requires cfg cap xs op

/-! ### Several vectors -/

/-- The contents of all vectors of a program; `none` is a destroyed vector. -/
abbrev Contents (α : Type) := List (Option (List α))

/-- The contents after an operation of a program. -/
def specWorld [DecidableEq α] (dflt : α) (ys : Contents α) : WOp α → Contents α
  | .ctor => ys ++ [some []]
  | .ctorSized n => ys ++ [some (List.replicate n dflt)]
  | .ctorValue n x => ys ++ [some (List.replicate n x)]
  | .ctorRange src => ys ++ [some src.list]
  | .copyCtor j => ys ++ [(ys[j]?).join]
  | .moveCtor j => ys.set j (some []) ++ [(ys[j]?).join]
  | .copyAssign i j => ys.set i (ys[j]?).join
  | .moveAssign i j => if i = j then ys else (ys.set i (ys[j]?).join).set j (some [])
  | .swap i j => (ys.set i (ys[j]?).join).set j (ys[i]?).join
  | .call i op => ys.set i ((ys[i]?).join.map (fun xs => specStep dflt xs op))
  | .destroy i => ys.set i none

/-- Vector `i` exists. -/
def Alive (ys : Contents α) (i : Nat) : Prop := ∃ xs, ys[i]? = some (some xs)

/-- When an operation of a program may be called: `cap i` is the capacity of vector `i`. -/
def WContract (cfg : Cfg α) (cap : Nat → Nat) (ys : Contents α) : WOp α → Prop
  | .ctor => True
  | .ctorSized n => Fits cfg n
  | .ctorValue n _ => Fits cfg n
  | .ctorRange src => src.Copied cfg ∧ Fits cfg src.list.length
  | .copyCtor j => Alive ys j ∧ cfg.kind ≠ .reloc
  | .moveCtor j => Alive ys j
  | .copyAssign i j => Alive ys i ∧ Alive ys j ∧ cfg.kind ≠ .reloc
  | .moveAssign i j | .swap i j => Alive ys i ∧ Alive ys j
  | .call i op => ∃ xs, ys[i]? = some (some xs) ∧ InContract cfg (cap i) xs op
  | .destroy i => Alive ys i

/-! ### What a program can see, and programs -/

/-- The next call of `malloc` succeeds if it asks for less than half of the address space. -/
def Lucky (cfg : Cfg α) (m : Mem α) : Prop := ∀ n, n < 2 ^ 63 → cfg.malloc m.next n = true

/-- `capacity()` of vector `i`. -/
def World.capacity (w : World α) (i : Nat) : Nat :=
  match w.vecs[i]? with
  | some (some v) => v.edge
  | _ => 0

/-- What an operation of a program returns. -/
def specWRet [DecidableEq α] (ys : Contents α) : WOp α → Ret
  | .call i op =>
    match ys[i]? with
    | some (some xs) => specRet xs op
    | _ => .unit
  | _ => .unit

/-- `size()` of vector `i`. -/
def World.size (w : World α) (i : Nat) : Nat :=
  match w.vecs[i]? with
  | some (some v) => v.fin
  | _ => 0

/-- `data()` of vector `i`: the block its elements are in. -/
def World.data (w : World α) (i : Nat) : Option Nat :=
  match w.vecs[i]? with
  | some (some v) => v.start
  | _ => none

/-- Run a `const` member function of vector `i`; `none` if there is no such vector. -/
def World.look {β : Type} (w : World α) (i : Nat) (x : V α β) : Option (Except Fault β) :=
  match w.vecs[i]? with
  | some (some v) => some (x ⟨w.mem, v⟩).1
  | _ => none

/-- What a loop from `begin()` to `end()` of vector `i` sees. -/
def World.read (w : World α) (i : Nat) : Option (Except Fault (List α)) := w.look i toList

/-- A loop over vector `i` sees the elements `xs`. -/
def World.Reads (w : World α) (i : Nat) (xs : List α) : Prop := w.read i = some (.ok xs)

/-- `vectors[i] == vectors[j]`; `none` if one of them does not exist. -/
def World.equal [DecidableEq α] (w : World α) (i j : Nat) : Option (Except Fault Bool) :=
  match w.vecs[i]?, w.vecs[j]? with
  | some (some u), some (some v) => some (vecEq u v ⟨w.mem, u⟩).1
  | _, _ => none

/-- `vectors[i] <=> vectors[j]`, `lt` being the `<` of the elements. -/
def World.compare (lt : α → α → Bool) (w : World α) (i j : Nat) : Option (Except Fault Ordering) :=
  match w.vecs[i]?, w.vecs[j]? with
  | some (some u), some (some v) => some (vecCmp lt u v ⟨w.mem, u⟩).1
  | _, _ => none

/-- The number of elements in all vectors. -/
def World.elements (w : World α) : Nat := ((List.range w.vecs.length).map w.size).sum

/-- Run a program. -/
def run [DecidableEq α] (cfg : Cfg α) : World α → List (WOp α) → Except Fault (List Ret) × World α
  | w, [] => (.ok [], w)
  | w, op :: ops =>
    match wstep cfg w op with
    | (.ok r, w) =>
      match run cfg w ops with
      | (.ok rs, w) => (.ok (r :: rs), w)
      | (.error e, w) => (.error e, w)
    | (.error e, w) => (.error e, w)

/-- Every operation of a program is called within its contract, and memory does not run out. `ys` are
the contents of the vectors according to the specification. -/
def Legal [DecidableEq α] (cfg : Cfg α) : World α → Contents α → List (WOp α) → Prop
  | _, _, [] => True
  | w, ys, op :: ops => Lucky cfg w.mem ∧ WContract cfg w.capacity ys op ∧
      Legal cfg (wstep cfg w op).2 (specWorld cfg.dflt ys op) ops

/-- What the contents of the vectors should be at the end of a program. -/
def specRun [DecidableEq α] (dflt : α) (ops : List (WOp α)) : Contents α := ops.foldl (specWorld dflt) []

/-- A state some legal program reaches. -/
def Reachable [DecidableEq α] (cfg : Cfg α) (w : World α) : Prop :=
  ∃ ops, Legal cfg World.empty [] ops ∧ (run cfg World.empty ops).2 = w

/-- From `w` to `w'` the contents of vector `i` became `xs`, no other vector changed, and the program
can go on. -/
structure Becomes [DecidableEq α] (cfg : Cfg α) (w w' : World α) (i : Nat) (xs : List α) : Prop where
  reads : w'.Reads i xs
  others : ∀ j, j ≠ i → w'.read j = w.read j
  goesOn : Reachable cfg w'

end Verif.Vector
