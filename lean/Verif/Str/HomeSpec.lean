import Verif.Str.Reach

/-!
Programs whose strings are on several arenas, some of which end while strings on the others live on.
-/

namespace Verif.Str

open M

/-- `get_allocator()` of a string, string.hpp:1563-1569, arena_string.hpp:200. -/
def getAllocator (v : Nat) : M Nat := do
  let o ← getOb (.user v)
  pure o.al

/-- The end of the arena `A`, `~Arena` or `Reset`, arena.hpp:369-378, 396-408: its memory is gone.  `Reset` keeps the memory of the
first block of the arena to give it out anew, which no string may use any more either. -/
def endArena (A : Nat) : M Unit := fun s =>
  (.ok (), { s with heap := fun b => match s.heap b with
    | some B => if B.src = A then none else some B
    | none => none })

/-- Which allocators the strings alive should have. -/
abbrev Allocs := Nat → Option Nat

/-- What each operation should do to the allocators: a string made from another one has that one's, move assignment takes along the
allocator, and nothing else changes it. -/
def Op.allocs (g : Allocs) : Op → Allocs
  | .makeEmpty v al | .make v al _ | .makeFill v al _ _ => upd g v (some al)
  | .copy v u | .move v u | .clone v u | .substr v u _ _ | .substrMove v u _ _ | .concat v u _ | .concatWith v u _ _
  | .assignMove v u => upd g v (g u)
  | .destroy v => upd g v none
  | _ => g

/-- The calls that keep strings to their arenas: `swap` only for strings with the same allocator. -/
def Op.settled (g : Allocs) : Op → Prop
  | .swap v u => g v = g u
  | _ => True

/-- Histories as in `Reach`, with the allocators of the strings, in which an arena may end at any time when no string alive has it as
its allocator. -/
inductive Life (cfg : Cfg) : Abs → Allocs → St → Prop
  | start : Life cfg (fun _ => none) (fun _ => none) St.init
  | done {a a' : Abs} {g : Allocs} {s s' : St} {op : Op} : Life cfg a g s → op.settled g → op.spec cfg.arena a = some (.done a') →
      op.run cfg s = (.ok (), s') → Life cfg a' (op.allocs g) s'
  | caught {a a' a1 : Abs} {g : Allocs} {s s' : St} {op : Op} {w : String} : Life cfg a g s → op.settled g →
      op.spec cfg.arena a = some (.done a1) → op.run cfg s = (.error (.throw w), s') → s'.lost = false →
      (∀ i, a' i = if op.weak = some i then (contents cfg i s').1.toOption else a i) →
      Life cfg a' g { s' with refused := false }
  | over {a : Abs} {g : Allocs} {s : St} (A : Nat) : Life cfg a g s → (∀ v, g v ≠ some A) → Life cfg a g (endArena A s).2

end Verif.Str
