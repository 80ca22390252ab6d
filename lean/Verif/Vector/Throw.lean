import Verif.Vector.Model

/-!
The functions of `container/stdb_vector.hpp` that construct elements, for elements whose constructors may throw.
Move constructors do not: the code demands it (container/stdb_vector.hpp:147, 242, 499).  With constructors that never throw these
are the functions of `Model` (`throws_never` in `ThrowProps`).  Assignments to elements are not modelled to throw.
-/

namespace Verif.Vector

open V

variable {α β : Type}

/-- Which constructions throw: by the number of constructions so far and the value. -/
abbrev Throws (α : Type) := Nat → α → Bool

/-- No construction throws. -/
def never : Throws α := fun _ _ => false

/-- `new (p) T(v)`. -/
def constructAtT (th : Throws α) (p : Ptr) (v : α) : V α Unit := fun s =>
  if th s.mem.ctors v then (.error (.throw "element"), s) else constructAt p v s

/-- The loops of `construct_range` and `construct_range_with_cref`, container/stdb_vector.hpp:99-103, 114-118. -/
def constructLoopT (th : Throws α) (p : Ptr) (value : Ref α) : Nat → V α Unit
  | 0 => pure ()
  | n + 1 => do
    let v ← deref value
    constructAtT th p v
    constructLoopT th (p.add 1) value n

/-- `construct_range`, `construct_range_with_cref`, container/stdb_vector.hpp:92-120.  The `memset`s used for some types do not
throw; here the loop is taken for all types. -/
def constructRangeT (cfg : Cfg α) (th : Throws α) (p : Ptr) (n : Nat) (value : Ref α) : V α Unit := do
  assert cfg p.blk.isSome "first and last can not be nullptr"
  assert cfg (decide (0 < n)) "first should always before last"
  constructLoopT th p value n

/-- The loop of `copy_range`, container/stdb_vector.hpp:133-136. -/
def copyLoopT (th : Throws α) (dst src : Ptr) : Nat → V α Unit
  | 0 => pure ()
  | n + 1 => do
    let v ← load src
    constructAtT th dst v
    copyLoopT th (dst.add 1) (src.add 1) n

/-- `copy_range(dst, src, src + n)`, container/stdb_vector.hpp:122-138. -/
def copyRangeT (cfg : Cfg α) (th : Throws α) (dst src : Ptr) (n : Nat) : V α Unit := do
  assert cfg (dst.blk.isSome && src.blk.isSome) "dst and src can not be nullptr"
  assert cfg (decide (dst ≠ src)) "copy_range should not be called with same dst and src"
  assert cfg (decide (0 < n)) "src should always before src_end"
  if cfg.kind.relocatable then copyBytes false dst src n else copyLoopT th dst src n

/-- `copy_cref`, container/stdb_vector.hpp:153-162. -/
def copyCrefT (cfg : Cfg α) (th : Throws α) (dst : Ptr) (value : Ref α) : V α Unit := do
  assert cfg dst.blk.isSome "dst can not be nullptr"
  let v ← deref value
  if cfg.kind.relocatable then assignTo cfg dst v else constructAtT th dst v

/-- Construct the elements of a list one after the other. -/
def constructListT (th : Throws α) (p : Ptr) : List α → V α Unit
  | [] => pure ()
  | v :: l => do
    constructAtT th p v
    constructListT th (p.add 1) l

/-- `copy_from_iterator`, container/stdb_vector.hpp:167-181. -/
def copyFromIteratorT (cfg : Cfg α) (th : Throws α) (dst : Ptr) (src : Source α) : V α Unit := do
  assert cfg dst.blk.isSome "copy_from_iterator dst can not be nullptr"
  assert cfg (decide (src.list ≠ [])) "copy_from_iterator first can not accept empty range"
  match cfg.kind.relocatable, src with
  | true, .contiguous l => writeList dst l
  | true, .reversed _ => pure ()
  | _, _ => constructListT th dst src.list

/-- One step of the loops that move elements, container/stdb_vector.hpp:217-228, 243-256, 499-511: types without a move
constructor are copied, and the copy may throw. -/
def moveOneT (cfg : Cfg α) (th : Throws α) (dst src : Ptr) : V α Unit := do
  let v ← load src
  match cfg.kind with
  | .cpy => do
    constructAtT th dst v
    destroyPtr cfg src
  | _ => do
    constructAt dst v
    writeCell src .moved
    count 0 0 1 0

/-- The forward loops of `move_range_without_overlap` and `move_range_forward`. -/
def moveLoopFwdT (cfg : Cfg α) (th : Throws α) (dst src : Ptr) : Nat → V α Unit
  | 0 => pure ()
  | n + 1 => do
    moveOneT cfg th dst src
    moveLoopFwdT cfg th (dst.add 1) (src.add 1) n

/-- A function that is `noexcept`: an exception ends the program. -/
def noexcept (x : V α β) : V α β := fun s =>
  match x s with
  | (.error (.throw _), s') => (.error (.throw "terminate"), s')
  | r => r

/-- `move_range_without_overlap(dst, src, src + n)`, container/stdb_vector.hpp:207-228, which is `noexcept`. -/
def moveRangeNoOverlapT (cfg : Cfg α) (th : Throws α) (dst src : Ptr) (n : Nat) : V α Unit := noexcept do
  assert cfg (dst.blk.isSome && src.blk.isSome) "dst and src can not be nullptr"
  assert cfg (decide (dst ≠ src)) "move_range_without_overlap should make sure dst != src"
  count 0 0 0 n
  if cfg.kind.relocatable then copyBytes false dst src n else moveLoopFwdT cfg th dst src n

/-- `move_range_forward(dst, src, src_end)`, container/stdb_vector.hpp:230-256. -/
def moveRangeForwardT (cfg : Cfg α) (th : Throws α) (b : Option Nat) (dst src srcEnd : Nat) : V α Unit := do
  assert cfg b.isSome "src and dst can not be nullptr"
  assert cfg (decide (src ≤ srcEnd)) "src_end should always after src"
  assert cfg (decide (dst < src ∨ srcEnd ≤ dst)) "dst should not overlap with [src, src_end)"
  let n := sub64 srcEnd src
  if cfg.kind.relocatable then copyBytes true ⟨b, dst⟩ ⟨b, src⟩ n
  else moveLoopFwdT cfg th ⟨b, dst⟩ ⟨b, src⟩ n

/-- `core(const core&)`, container/stdb_vector.hpp:326-335.  When an element throws, no destructor runs. -/
def coreCopyT (cfg : Cfg α) (th : Throws α) (rhs : Vec) : V α Unit := do
  if 0 < rhs.fin then do
    allocate cfg rhs.fin
    let v ← this
    copyRangeT cfg th v.startPtr rhs.startPtr rhs.fin
    setThis { v with fin := rhs.fin }
  else setThis nullVec

/-- `operator=(const core&)`, container/stdb_vector.hpp:343-371.  When an element throws after the allocation of new storage,
`_finish` still points into the old one; the offset kept here means nothing then, and `~core` is `destroyForeign`. -/
def coreCopyAssignT (cfg : Cfg α) (th : Throws α) (rhs : Vec) : V α Unit := do
  let newSize := rhs.fin
  let v ← this
  if newSize > v.edge then do
    destroyRange cfg v.startPtr v.fin
    free v.start
    allocate cfg newSize
    let v ← this
    copyRangeT cfg th v.startPtr rhs.startPtr newSize
    setThis { v with fin := newSize }
  else do
    destroyRange cfg v.startPtr v.fin
    if 0 < newSize then do
      copyRangeT cfg th v.startPtr rhs.startPtr newSize
      setThis { v with fin := newSize }
    else setThis { v with fin := 0 }

/-- `realloc_with_move` and `realloc_with_old_data`, container/stdb_vector.hpp:264-281, 423-430. -/
def reallocWithOldDataT (cfg : Cfg α) (th : Throws α) (newCap : Nat) : V α Unit := do
  let v ← this
  assert cfg (decide (v.fin ≤ newCap)) "new_cap should be larger than old_size, or it will cause data loss"
  match v.start with
  | none => do
    assert cfg (decide (v.fin = 0)) "ptr is nullptr, but old_size is not zero"
    let p ← malloc cfg newCap
    setThis ⟨p, 0, newCap⟩
  | some old => do
    assert cfg (decide (0 < newCap)) "new_size should be larger than zero"
    let p ← malloc cfg newCap
    match p with
    | none => fail (.throw "bad_alloc")
    | some new => do
      let n := min v.fin newCap
      moveRangeNoOverlapT cfg th ⟨some new, 0⟩ ⟨some old, 0⟩ n
      free (some old)
      setThis ⟨some new, n, newCap⟩

/-- `realloc_and_emplace_back`, container/stdb_vector.hpp:432-450: `_finish` is advanced before the construction. -/
def reallocAndEmplaceBackT (cfg : Cfg α) (th : Throws α) (newCap : Nat) (arg : Ref α) : V α Unit := do
  let old ← this
  assert cfg (decide (old.fin < newCap)) "new_cap should be larger than old_size, or it will cause data loss"
  allocate cfg newCap
  let v ← this
  setThis { v with fin := old.fin + 1 }
  let x ← deref arg
  constructAtT th (v.ptr old.fin) x
  doIf (0 < old.fin) (moveRangeNoOverlapT cfg th v.startPtr old.startPtr old.fin)
  free old.start

/-- `move_forward(dst, src)`, container/stdb_vector.hpp:472-481. -/
def moveForwardT (cfg : Cfg α) (th : Throws α) (dst src : Nat) : V α Unit := do
  assert cfg (decide (dst ≠ src)) "move_forward should not be called with same dst and src"
  let v ← this
  moveRangeForwardT cfg th v.start dst src v.fin

/-- One step of the backward loops of `move_backward`, container/stdb_vector.hpp:492-511. -/
def moveBackT (cfg : Cfg α) (th : Throws α) (dst src : Ptr) : V α Unit :=
  if cfg.kind.relocatable then do
    let v ← load src
    assignTo cfg dst v
  else moveOneT cfg th dst src

/-- The backward loops of `move_backward`, container/stdb_vector.hpp:492-511. -/
def moveLoopBwdT (cfg : Cfg α) (th : Throws α) (dst src : Ptr) : Nat → V α Unit
  | 0 => pure ()
  | n + 1 => do
    moveBackT cfg th (dst.add n) (src.add n)
    moveLoopBwdT cfg th dst src n

/-- `move_backward(dst, src)`, container/stdb_vector.hpp:484-511. -/
def moveBackwardT (cfg : Cfg α) (th : Throws α) (dst src : Nat) : V α Unit := do
  let v ← this
  assert cfg v.start.isSome "dst and src can not be nullptr"
  assert cfg (decide (src + 1 < v.fin)) "src should always before _finish - 1, or can not move backward"
  assert cfg (decide (dst ≠ src)) "move_backward should not be called with same dst and src"
  moveLoopBwdT cfg th (v.ptr dst) (v.ptr src) (v.fin - src)

/-- A constructor of `stdb_vector`: the base exists, and its destructor runs when the rest of the constructor throws. -/
def withBase (x cleanup : V α Unit) : V α Unit := fun s =>
  match x s with
  | (.error (.throw w), s') =>
    match cleanup s' with
    | (.ok _, s'') => (.error (.throw w), s'')
    | r => r
  | r => r

/-- `stdb_vector(size)`, container/stdb_vector.hpp:547-551, and `stdb_vector(size, value)`, lines 553-557: the base has its final
size before the elements are constructed. -/
def ctorSizedT (cfg : Cfg α) (th : Throws α) (size : Nat) (value : Ref α) : V α Unit := do
  coreSized cfg size size
  let v ← this
  withBase (doIf (0 < size) (constructRangeT cfg th v.startPtr size value)) (coreDestroy cfg)

/-- `~core` when `_finish` does not point into the storage at `_start`, container/stdb_vector.hpp:386-391 and 192-201: the loop from
`_start` never meets `_finish`. -/
def destroyForeign (cfg : Cfg α) : V α Unit := do
  let v ← this
  match cfg.kind with
  | .triv => free v.start
  | _ => do
    destroyRange cfg v.startPtr v.edge
    ub "destroy_range runs past the storage"

/-- `stdb_vector(first, last)`, container/stdb_vector.hpp:559-570: `_finish` is null until the end. -/
def ctorRangeT (cfg : Cfg α) (th : Throws α) (src : Source α) : V α Unit := do
  setThis nullVec
  assert cfg (decide (src.list.length ≤ maxSize cfg)) "stdb_vector size should be smaller than max_size"
  if 0 < src.list.length then do
    allocate cfg src.list.length
    let v ← this
    withBase (copyFromIteratorT cfg th v.startPtr src) (destroyForeign cfg)
    setThis { v with fin := src.list.length }

/-- `assign(count, value)`, container/stdb_vector.hpp:596-609. -/
def assignNT (cfg : Cfg α) (th : Throws α) (n : Nat) (value : Ref α) : V α Unit := do
  let v ← this
  (if n > v.edge then reallocDropOldData cfg n else destroyAll cfg)
  let v ← this
  setThis { v with fin := n }
  constructRangeT cfg th v.startPtr n value

/-- `assign(first, last)`, container/stdb_vector.hpp:611-631.  About `_finish` after an exception see `coreCopyAssignT`. -/
def assignRangeT (cfg : Cfg α) (th : Throws α) (src : Source α) : V α Unit := do
  let v ← this
  let n := src.list.length
  if n > v.edge then do
    reallocDropOldData cfg n
    let v ← this
    copyFromIteratorT cfg th v.startPtr src
    setThis { v with fin := n }
  else do
    destroyAll cfg
    if 0 < n then do
      copyFromIteratorT cfg th v.startPtr src
      setThis { v with fin := n }

/-- `reserve`, container/stdb_vector.hpp:687-692. -/
def reserveT (cfg : Cfg α) (th : Throws α) (n : Nat) : V α Unit := do
  let v ← this
  doIf (n > v.edge) (reallocWithOldDataT cfg th n)

/-- Construct one element at the end when there is room. -/
def putAtT (cfg : Cfg α) (th : Throws α) (emplace : Bool) (p : Ptr) (arg : Ref α) : V α Unit :=
  if emplace then do
    let x ← deref arg
    constructAtT th p x
  else copyCrefT cfg th p arg

/-- `push_back(const T&)`, container/stdb_vector.hpp:921-934, and `emplace_back`, lines 951-965: `_finish++` comes before the
construction. -/
def pushBackT (cfg : Cfg α) (th : Throws α) (safe emplace : Bool) (arg : Ref α) : V α Unit := do
  let f ← full cfg
  let v ← this
  if safe then
    if f then reallocAndEmplaceBackT cfg th (nextCapacity cfg v.edge) arg
    else do
      setThis { v with fin := v.fin + 1 }
      putAtT cfg th emplace v.finPtr arg
  else do
    assert cfg (!f) "push_back should not be called with full vector"
    setThis { v with fin := v.fin + 1 }
    putAtT cfg th emplace v.finPtr arg

/-- `erase(pos)`, container/stdb_vector.hpp:972-989. -/
def eraseT (cfg : Cfg α) (th : Throws α) (pos : Nat) : V α Nat := do
  let v ← this
  assert cfg (decide (pos < v.fin)) "pos should be in [begin(), end())"
  destroyPtr cfg (v.ptr pos)
  moveForwardT cfg th pos (pos + 1)
  setThis { v with fin := v.fin - 1 }
  return pos

/-- `resize(count)` and `resize(count, value)`, container/stdb_vector.hpp:1158-1197: `_finish` is set before the construction. -/
def resizeT (cfg : Cfg α) (th : Throws α) (construct : Bool) (n : Nat) (value : Ref α) : V α Unit := do
  let v ← this
  if n > v.fin then do
    doIf (n > v.edge) (reallocWithOldDataT cfg th n)
    let v ← this
    setThis { v with fin := n }
    doIf construct (constructRangeT cfg th v.finPtr (n - v.fin) value)
  else do
    setThis { v with fin := n }
    destroyRange cfg (v.ptr n) (v.fin - n)

/-- `insert(pos, const T&)`, container/stdb_vector.hpp:1201-1227, and `emplace`, lines 1321-1369. -/
def insertOneT (cfg : Cfg α) (th : Throws α) (safe emplace : Bool) (pos : Nat) (arg : Ref α) : V α Nat := do
  let v ← this
  assert cfg (emplace || decide (pos ≤ v.fin)) "pos should be in [begin(), end())"
  doIf safe (do
    let f ← full cfg
    doIf f (reserveT cfg th (nextCapacity cfg v.edge)))
  let f ← full cfg
  assert cfg (!f) "insert should not be called with full vector"
  let v ← this
  if pos = v.fin then do
    setThis { v with fin := v.fin + 1 }
    putAtT cfg th emplace (v.ptr pos) arg
    return pos
  else do
    (if pos + 1 < v.fin then moveBackwardT cfg th (pos + 1) pos else moveForwardT cfg th (pos + 1) pos)
    putAtT cfg th emplace (v.ptr pos) arg
    setThis { v with fin := v.fin + 1 }
    return pos

/-- Make room for `n` elements at `pos`, container/stdb_vector.hpp:1261-1277 and 1290-1309. -/
def makeRoomT (cfg : Cfg α) (th : Throws α) (safe : Bool) (pos n : Nat) : V α Unit := do
  let v ← this
  doIf (safe && decide (add64 v.fin n > v.edge)) (do
    let c ← computeNewCapacity cfg (add64 v.fin n)
    reserveT cfg th c)
  let w ← this
  assert cfg (decide (add64 v.fin n ≤ w.edge))
    "insert should not overflow the vector's cap, the vector should be reserved first"
  if w.fin ≤ pos + n then moveForwardT cfg th (pos + n) pos
  else moveBackwardT cfg th (pos + n) pos

/-- `insert(pos, count, value)`, container/stdb_vector.hpp:1257-1281. -/
def insertNT (cfg : Cfg α) (th : Throws α) (safe : Bool) (pos n : Nat) (value : Ref α) : V α Nat := do
  assert cfg (decide (0 < n)) "count should be larger than 0"
  let v ← this
  assert cfg (decide (pos ≤ v.fin)) "pos should be in [begin(), end())"
  makeRoomT cfg th safe pos n
  let v ← this
  constructRangeT cfg th (v.ptr pos) n value
  setThis { v with fin := v.fin + n }
  return pos

/-- `insert(pos, first, last)`, container/stdb_vector.hpp:1283-1313. -/
def insertRangeT (cfg : Cfg α) (th : Throws α) (safe : Bool) (pos : Nat) (src : Source α) : V α Nat := do
  let n := src.list.length
  if n = 0 then return pos
  else do
    makeRoomT cfg th safe pos n
    let v ← this
    copyFromIteratorT cfg th (v.ptr pos) src
    setThis { v with fin := v.fin + n }
    return pos

end Verif.Vector
