import Verif.Vector.Refs

/-!
The iterators of vectors, container/stdb_vector.hpp:744-888, as objects.

An iterator holds one pointer.  Here a pointer may be moved only within its block of memory (up to one
past the end of it); everything else is undefined in C++ and an error here.  Iterators to `T` and to
`const T` differ in nothing but the type of what they refer to, and the conversion of the first to the
second (lines 763-766) copies the pointer, as copying does.
-/

namespace Verif.Vector

open V

variable {α : Type}

/-- Assign to a variable. -/
def setVar {β : Type} (s : Nat → β) (x : Nat) (b : β) : Nat → β := fun y => if y = x then b else s y

/-- The null pointer. -/
def nullPtr : Ptr := ⟨none, 0⟩

/-- `p + n` for a pointer to `T`, C++ [expr.add]: the result has to be in the block, or one past it. -/
def Ptr.advance (m : Mem α) (p : Ptr) (n : Int) : Except Fault Ptr :=
  match p.blk with
  | none => if n = 0 then .ok p else .error (.ub "arithmetic on a null pointer")
  | some b =>
    match m.heap b with
    | none => .error (.ub "arithmetic on a dangling pointer")
    | some B =>
      if 0 ≤ (p.off : Int) + n ∧ (p.off : Int) + n ≤ B.len then .ok ⟨some b, ((p.off : Int) + n).toNat⟩
      else .error (.ub "pointer outside the block")

/-- `p - q`; the pointers have to point into the same block or be null. -/
def Ptr.minus (p q : Ptr) : Except Fault Int :=
  if p.blk = q.blk then .ok ((p.off : Int) - q.off) else .error (.ub "difference of unrelated pointers")

/-- `p <=> q`; unspecified, here an error, for pointers into different blocks. -/
def Ptr.cmp (p q : Ptr) : Except Fault Ordering :=
  if p.blk = q.blk then .ok (compare p.off q.off) else .error (.ub "unrelated pointers compared")

/-- The variables of a program that are iterators. -/
abbrev Its := Nat → Ptr

/-- What a program does with its iterators `x`, `y`.  Line numbers are those of container/stdb_vector.hpp. -/
inductive IOp where
  /-- `x = v.begin()`, `v.cbegin()`, lines 846-854. -/
  | first (x i : Nat)
  /-- `x = v.end()`, `v.cend()`, lines 856-864. -/
  | last (x i : Nat)
  /-- `x = {}`, line 757. -/
  | null (x : Nat)
  /-- `x = y`, lines 761, 763-766 and 773. -/
  | copy (x y : Nat)
  /-- `x = std::move(y)`, lines 760 and 769-772. -/
  | move (x y : Nat)
  /-- `++x`, lines 775-778. -/
  | inc (x : Nat)
  /-- `y = x++`, lines 780-784. -/
  | postInc (y x : Nat)
  /-- `--x`, lines 786-789. -/
  | dec (x : Nat)
  /-- `y = x--`, lines 791-795. -/
  | postDec (y x : Nat)
  /-- `x += n`, lines 797-800. -/
  | add (x : Nat) (n : Int)
  /-- `x -= n`, lines 802-805. -/
  | sub (x : Nat) (n : Int)
  /-- `y = x + n` and `y = n + x`, lines 824-826 and 832-834. -/
  | plus (y x : Nat) (n : Int)
  /-- `y = x - n`, lines 828-830. -/
  | minus (y x : Nat) (n : Int)

/-- `begin()` of vector `i`, lines 846-854. -/
def World.begin_ (w : World α) (i : Nat) : Ptr := ⟨w.data i, 0⟩

/-- `end()` of vector `i`, lines 856-864: `_finish`. -/
def World.end_ (w : World α) (i : Nat) : Ptr := ⟨w.data i, w.size i⟩

/-- Execute one of the above; see there for the lines.  The memory does not change. -/
def istep (w : World α) (s : Its) : IOp → Except Fault Its
  | .first x i => .ok (setVar s x (w.begin_ i))
  | .last x i => .ok (setVar s x (w.end_ i))
  | .null x => .ok (setVar s x nullPtr)
  | .copy x y => .ok (setVar s x (s y))
  | .move x y => .ok (setVar (setVar s y nullPtr) x (s y))
  | .inc x => do return setVar s x (← (s x).advance w.mem 1)
  | .postInc y x => do return setVar (setVar s x (← (s x).advance w.mem 1)) y (s x)
  | .dec x => do return setVar s x (← (s x).advance w.mem (-1))
  | .postDec y x => do return setVar (setVar s x (← (s x).advance w.mem (-1))) y (s x)
  | .add x n => do return setVar s x (← (s x).advance w.mem n)
  | .sub x n => do return setVar s x (← (s x).advance w.mem (-n))
  | .plus y x n => do return setVar s y (← (s x).advance w.mem n)
  | .minus y x n => do return setVar s y (← (s x).advance w.mem (-n))

/-- Execute several. -/
def irun (w : World α) (s : Its) : List IOp → Except Fault Its
  | [] => .ok s
  | op :: ops => do irun w (← istep w s op) ops

/-- `*x` and `*x.operator->()`, container/stdb_vector.hpp:807-811. -/
def World.deref (w : World α) (p : Ptr) : Except Fault α := w.through p

/-- `x[n]`, container/stdb_vector.hpp:813-816: the argument is converted to `std::size_t`. -/
def World.subscript (w : World α) (p : Ptr) (n : Int) : Except Fault α := do
  w.through (← p.advance w.mem (n % 18446744073709551616))

/-- `for (; it != last; ++it) use(*it)`, container/stdb_vector.hpp:775-778, 807-809 and 818: the values seen;
`none` if the loop is still running after `fuel` turns. -/
def World.loop (w : World α) (last : Ptr) : Nat → Ptr → Option (Except Fault (List α))
  | 0, _ => none
  | fuel + 1, it =>
    if it = last then some (.ok [])
    else
      match w.deref it with
      | .error e => some (.error e)
      | .ok x =>
        match it.advance w.mem 1 with
        | .error e => some (.error e)
        | .ok it' => (w.loop last fuel it').map (fun r => r.map (x :: ·))

/-- The same from `rbegin()` to `rend()`, container/stdb_vector.hpp:866-888.  `std::reverse_iterator` holds an
iterator `base`; `*it` is `auto tmp = base; return *--tmp;` and `++it` is `--base`. -/
def World.loopRev (w : World α) (last : Ptr) : Nat → Ptr → Option (Except Fault (List α))
  | 0, _ => none
  | fuel + 1, base =>
    if base = last then some (.ok [])
    else
      match base.advance w.mem (-1) with
      | .error e => some (.error e)
      | .ok tmp =>
        match w.deref tmp with
        | .error e => some (.error e)
        | .ok x =>
          match base.advance w.mem (-1) with
          | .error e => some (.error e)
          | .ok base' => (w.loopRev last fuel base').map (fun r => r.map (x :: ·))

/-! ### Specification -/

/-- What an iterator is to a user: a position, from 0 to the size, in one of the vectors; or it refers to
nothing. -/
abbrev Pos := Option (Nat × Nat)

/-- Position `k + n` in a vector with the elements `xs`. -/
def posAdd (ys : Contents α) (p : Pos) (n : Int) : Option Pos := do
  let (i, k) ← p
  let xs ← (← ys[i]?)
  if 0 ≤ (k : Int) + n ∧ (k : Int) + n ≤ xs.length then some (some (i, ((k : Int) + n).toNat)) else none

/-- What the operations do to the positions; `none` if they are not allowed. -/
def ispec (ys : Contents α) (a : Nat → Pos) : IOp → Option (Nat → Pos)
  | .first x i => do
    let _ ← (← ys[i]?)
    return setVar a x (some (i, 0))
  | .last x i => do
    let xs ← (← ys[i]?)
    return setVar a x (some (i, xs.length))
  | .null x => some (setVar a x none)
  | .copy x y => some (setVar a x (a y))
  | .move x y => some (setVar (setVar a y none) x (a y))
  | .inc x => do return setVar a x (← posAdd ys (a x) 1)
  | .postInc y x => do return setVar (setVar a x (← posAdd ys (a x) 1)) y (a x)
  | .dec x => do return setVar a x (← posAdd ys (a x) (-1))
  | .postDec y x => do return setVar (setVar a x (← posAdd ys (a x) (-1))) y (a x)
  | .add x n => do return setVar a x (← posAdd ys (a x) n)
  | .sub x n => do return setVar a x (← posAdd ys (a x) (-n))
  | .plus y x n => do return setVar a y (← posAdd ys (a x) n)
  | .minus y x n => do return setVar a y (← posAdd ys (a x) (-n))

/-- A program of such operations. -/
def ispecs (ys : Contents α) (a : Nat → Pos) : List IOp → Option (Nat → Pos)
  | [] => some a
  | op :: ops => do ispecs ys (← ispec ys a op) ops

/-- The vectors of the program hold `ys`. -/
def World.Shows (w : World α) (ys : Contents α) : Prop := ∀ i xs, ys[i]? = some (some xs) → w.Reads i xs

end Verif.Vector
