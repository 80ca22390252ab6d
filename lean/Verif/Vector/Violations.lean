import Verif.Vector.Failure

/-!
Counterexamples to the properties of vectors: C36, C38, C42, C47, C76, C77, C80. Each is a short program that is run by
the model; what it does is compared with the specification.
-/

namespace Verif.Vector

open V

/-- A configuration for the examples in which memory never runs out. -/
def vCfg (k : Kind) (dbg : Bool) : Cfg Nat := ⟨k, 16, dbg, fun _ _ => true, 0, false⟩

/-- What a program returns. -/
def vRet (k : Kind) (prog : List (WOp Nat)) : Except Fault (List Ret) := (run (vCfg k true) World.empty prog).1

/-- The state after a program. -/
def vEnd (k : Kind) (prog : List (WOp Nat)) : World Nat := (run (vCfg k true) World.empty prog).2

/-! ### C35 -/

/-- C35 is violated: `insert(pos, 0, value)` fails an assertion of debug builds. In release builds it moves the elements
from `pos` on to the places they are in: they end up moved from, or destroyed if they can only be copied. -/
theorem insert_none_violated :
    ∃ prog, prog = [.ctorRange (.contiguous [1, 2, 3]), .call 0 (.insertN true 1 0 (.ext 9))] ∧
      specStep 0 [1, 2, 3] (.insertN true 1 0 (.ext 9)) = [1, 2, 3] ∧
      (∀ k, vRet k prog = .error (.assertFail "count should be larger than 0")) ∧
      (run (vCfg .mov false) World.empty prog).1 = .ok [.unit, .num 1] ∧
      (run (vCfg .mov false) World.empty prog).2.read 0 = some (.error (.ub "value of a moved-from element used")) ∧
      (run (vCfg .cpy false) World.empty prog).2.read 0 = some (.error (.ub "value of an element that does not live")) :=
  ⟨_, rfl, by decide +kernel, fun k => by cases k <;> decide +kernel, by decide +kernel, by decide +kernel, by decide +kernel⟩

/-! ### C36 -/

/-- C36 is violated: `erase(first, last)` returns the position `last` had, not that of the element behind the erased
ones. Here it returns 3, which is `end()`, though the element 4 that followed the erased ones is at 1. -/
theorem erase_range_return_violated :
    ∃ prog, prog = [.ctorRange (.contiguous [1, 2, 3, 4, 5]), .call 0 (.eraseRange 1 3)] ∧
      vRet .mov prog = .ok [.unit, .num 3] ∧ (vEnd .mov prog).read 0 = some (.ok [1, 4, 5]) ∧ (vEnd .mov prog).size 0 = 3 ∧
      specRet [1, 2, 3, 4, 5] (.eraseRange 1 3) = .num 1 :=
  ⟨_, rfl, by decide +kernel, by decide +kernel, by decide +kernel, by decide +kernel⟩

/-! ### C38 -/

/-- C38 is violated: assigning an empty range destroys the elements and keeps the size; reading the vector reads
destroyed elements, and its destructor destroys them again. -/
theorem assign_empty_violated :
    ∃ prog, prog = [.ctorRange (.contiguous [1, 2, 3]), .call 0 (.assignRange (.contiguous []))] ∧
      vRet .cpy prog = .ok [.unit, .unit] ∧ (vEnd .cpy prog).size 0 = 3 ∧
      (vEnd .cpy prog).read 0 = some (.error (.ub "value of an element that does not live")) ∧
      vRet .cpy (prog ++ [.destroy 0]) = .error (.ub "destructor of an element that does not live") :=
  ⟨_, rfl, by decide +kernel, by decide +kernel, by decide +kernel, by decide +kernel⟩

/-- C38 is violated: the same for trivial elements, which are still there. -/
theorem assign_empty_trivial_violated :
    ∃ prog, prog = [.ctorRange (.contiguous [1, 2, 3]), .call 0 (.assignRange (.contiguous []))] ∧
      vRet .triv prog = .ok [.unit, .unit] ∧ (vEnd .triv prog).read 0 = some (.ok [1, 2, 3]) :=
  ⟨_, rfl, by decide +kernel, by decide +kernel⟩

/-- C38 is violated: `assign(0, value)` fails an assertion of debug builds. -/
theorem assign_zero_violated :
    ∃ prog, prog = [.ctorRange (.contiguous [1, 2, 3]), .call 0 (.assignN 0 (.ext 5))] ∧
      vRet .mov prog = .error (.assertFail "first should always before last") :=
  ⟨_, rfl, by decide +kernel⟩

/-! ### C42 -/

/-- C42 is violated for elements of more than 128 KiB: the first `push_back` asks for a capacity of 0. It fails an
assertion of debug builds, and writes behind the storage in release builds. -/
theorem growth_big_violated (dbg : Bool) :
    nextCapacity (⟨.triv, 131073, dbg, fun _ _ => true, 0, false⟩ : Cfg Nat) 0 = 0 ∧
    (run (⟨.triv, 131073, dbg, fun _ _ => true, 0, false⟩ : Cfg Nat) World.empty [.ctor, .call 0 (.pushBack true false (.ext 5))]).1
      = .error (if dbg then .assertFail "new_cap should be larger than old_size, or it will cause data loss"
          else .ub "access outside the block") := by
  cases dbg <;> exact ⟨by decide +kernel, by decide +kernel⟩

/-! ### C47 -/

/-- C47 is violated: inserting an element of the vector at an earlier position inserts its predecessor. -/
theorem insert_alias_violated :
    ∃ prog op, prog = [.ctorRange (.contiguous [1, 2, 3]), .call 0 (.reserve 8)] ∧ op = .insert true false 0 (.own 2) ∧
      (vEnd .triv prog).read 0 = some (.ok [1, 2, 3]) ∧
      (vEnd .triv (prog ++ [.call 0 op])).read 0 = some (.ok [2, 1, 2, 3]) ∧ specStep 0 [1, 2, 3] op = [3, 1, 2, 3] :=
  ⟨_, _, rfl, rfl, by decide +kernel, by decide +kernel, by decide +kernel⟩

/-- C47 is violated: when the vector is full, `insert` reads the element from the storage it has freed. -/
theorem insert_alias_full_violated :
    ∃ prog, prog = [.ctorRange (.contiguous [1, 2, 3]), .call 0 (.insert true false 0 (.own 2))] ∧
      vRet .mov prog = .error (.ub "dangling pointer dereferenced") :=
  ⟨_, rfl, by decide +kernel⟩

/-- C47 is violated: `insert(pos, count, v[i])`. -/
theorem insert_count_alias_violated :
    ∃ prog op, prog = [.ctorRange (.contiguous [1, 2, 3]), .call 0 (.reserve 8)] ∧ op = .insertN true 0 2 (.own 2) ∧
      (vEnd .triv (prog ++ [.call 0 op])).read 0 = some (.ok [1, 1, 1, 2, 3]) ∧ specStep 0 [1, 2, 3] op = [3, 3, 1, 2, 3] :=
  ⟨_, _, rfl, rfl, by decide +kernel, by decide +kernel⟩

/-- C47 is violated: `resize(n, v[i])` reads the element from the storage it has freed. -/
theorem resize_alias_violated :
    ∃ prog, prog = [.ctorRange (.contiguous [1, 2, 3]), .call 0 (.resizeValue 5 (.own 2))] ∧
      vRet .mov prog = .error (.ub "dangling pointer dereferenced") :=
  ⟨_, rfl, by decide +kernel⟩

/-- C47 is violated: `assign(n, v[i])` reads the element after destroying it. -/
theorem assign_alias_violated :
    ∃ prog, prog = [.ctorRange (.contiguous [1, 2, 3]), .call 0 (.assignN 2 (.own 1))] ∧
      vRet .mov prog = .error (.ub "value of an element that does not live") :=
  ⟨_, rfl, by decide +kernel⟩

/-- C47 is violated: `erase(v[0])` compares with whatever is first in the vector during the loop; it erases one of
three equal elements. -/
theorem erase_alias_violated :
    ∃ prog op, prog = [.ctorRange (.contiguous [1, 2, 1, 3, 1])] ∧ op = .eraseValue (.own 0) ∧
      vRet .triv (prog ++ [.call 0 op]) = .ok [.unit, .num 1] ∧
      (vEnd .triv (prog ++ [.call 0 op])).read 0 = some (.ok [2, 1, 3, 1]) ∧
      specStep 0 [1, 2, 1, 3, 1] op = [2, 3] ∧ specRet [1, 2, 1, 3, 1] op = .num 3 :=
  ⟨_, _, rfl, rfl, by decide +kernel, by decide +kernel, by decide +kernel, by decide +kernel⟩

/-- C47 (partial): `push_back(v[k])` and `emplace_back(v[k])` append a copy of the element, also when the vector is full.
Missing are the other functions, for which it is false (the theorems above). -/
theorem push_back_alias_partial {α : Type} [DecidableEq α] {cfg : Cfg α} {w : World α} {i k : Nat} {xs : List α} {emplace : Bool}
    (hg : Good cfg) (hr : Reachable cfg w) (hl : Lucky cfg w.mem) (hx : w.Reads i xs)
    (he : cfg.kind = .reloc → emplace = true) (hk : k < xs.length) (hfit : Fits cfg (xs.length + 1)) :
    ∃ w', wstep cfg w (.call i (.pushBack true emplace (.own k))) = (.ok .unit, w') ∧ Becomes cfg w w' i (xs ++ [xs[k]]) :=
  push_back_appends hg hr hl hx he (by simp [Arg.val, hk]) hfit

example : ∃ w', wstep (exCfg .mov) (exWorld .mov) (.call 0 (.pushBack true true (.own 4))) = (.ok .unit, w') ∧
    Becomes (exCfg .mov) (exWorld .mov) w' 0 [3, 1, 9, 2, 3, 3] :=
  push_back_alias_partial exGood exReach exLucky exReads.1 (fun _ => rfl) (by decide) (by unfold Fits exCfg; decide)

/-! ### C76 -/

/-- C76 is violated: for `Relocatable` types that are not trivial, `push_back` into free room assigns to memory that holds
no object. -/
theorem relocatable_push_back_violated :
    ∃ prog, prog = [.ctor, .call 0 (.pushBack true false (.ext 5)), .call 0 (.pushBack true false (.ext 6))] ∧
      vRet .reloc prog = .error (.ub "assignment to an element that does not live") ∧
      vRet .cpy prog = .ok [.unit, .unit, .unit] :=
  ⟨_, rfl, by decide +kernel, by decide +kernel⟩

/-- C76 is violated: copying a vector of such elements copies bytes and runs no constructor, and the destructors of both
vectors destroy every element: four destructions of two constructed objects. -/
theorem relocatable_copy_violated :
    ∃ prog, prog = [.ctorValue 2 5, .copyCtor 0, .destroy 0, .destroy 1] ∧
      vRet .reloc prog = .ok [.unit, .unit, .unit, .unit] ∧
      (vEnd .reloc prog).mem.ctors = 2 ∧ (vEnd .reloc prog).mem.dtors = 4 ∧
      (vEnd .cpy prog).mem.ctors = 4 ∧ (vEnd .cpy prog).mem.dtors = 4 :=
  ⟨_, rfl, by decide +kernel, by decide +kernel, by decide +kernel, by decide +kernel, by decide +kernel⟩

/-! ### C77 -/

/-- C77 is violated: a vector of trivial elements constructed from reverse iterators has the right size, but no element has
been written. -/
theorem reverse_ctor_violated :
    ∃ prog, prog = [.ctorRange (.reversed [1, 2, 3])] ∧ vRet .triv prog = .ok [.unit] ∧ (vEnd .triv prog).size 0 = 3 ∧
      (vEnd .triv prog).read 0 = some (.error (.ub "value of an element that does not live")) ∧
      (vEnd .cpy prog).read 0 = some (.ok [1, 2, 3]) :=
  ⟨_, rfl, by decide +kernel, by decide +kernel, by decide +kernel, by decide +kernel⟩

/-- C77 is violated: `assign` from reverse iterators keeps the old elements. -/
theorem reverse_assign_violated :
    ∃ prog, prog = [.ctorRange (.contiguous [7, 8, 9]), .call 0 (.assignRange (.reversed [1, 2]))] ∧
      vRet .triv prog = .ok [.unit, .unit] ∧ (vEnd .triv prog).read 0 = some (.ok [7, 8]) ∧
      (vEnd .cpy prog).read 0 = some (.ok [1, 2]) :=
  ⟨_, rfl, by decide +kernel, by decide +kernel, by decide +kernel⟩

/-! ### C80 -/

/-- C80 is violated: when the number of bytes does not fit in 64 bits, `reserve` asks `malloc` for the number modulo
2^64, here 0 bytes for 2^60 elements, and succeeds; the next `push_back` writes behind the storage. -/
theorem reserve_huge_violated :
    ∃ prog, prog = [.ctor, .call 0 (.reserve (2 ^ 60))] ∧ vRet .triv prog = .ok [.unit, .unit] ∧
      (vEnd .triv prog).capacity 0 = 2 ^ 60 ∧
      vRet .triv (prog ++ [.call 0 (.pushBack true false (.ext 1))]) = .error (.ub "access outside the block") :=
  ⟨_, rfl, by decide +kernel, by decide +kernel, by decide +kernel⟩

end Verif.Vector
