import Verif.Base

/-!
Model of `container/stdb_vector.hpp`: storage blocks made of cells that know whether an element lives
in them, vectors as three pointers into a block, and every member function on top of that.

An action runs on the memory and the vector it is a member function of, and yields a result or a
fault; the state reached is kept also when it faults, so that exceptions can be studied.
-/

namespace Verif.Vector

/-- The element types told apart by the `if constexpr`s (container/stdb_vector.hpp:65-71):
`triv` is trivially copyable (hence `IsRelocatable`, and without a destructor to run); `reloc` is not,
but declared `Relocatable<T>` by the user; `mov` is neither and has a move constructor; `cpy` has a
copy constructor only.  Simplifications: types of kind `mov` and `cpy` have a destructor that counts;
constructors do not throw (see `Verif.Vector.Throw` for those that do); `ZeroInitable` is not declared for types of kind `mov` and `cpy`. -/
inductive Kind where
  | triv | reloc | mov | cpy
  deriving DecidableEq, Repr

/-- `IsRelocatable`, container/stdb_vector.hpp:65-67. -/
def Kind.relocatable : Kind → Bool
  | .triv | .reloc => true
  | .mov | .cpy => false

/-- The memory of one element: nothing constructed there, a living element, or an element that has
been moved from (it lives, its value is unspecified). -/
inductive Cell (α : Type) where
  | raw
  | live (v : α)
  | moved
  deriving DecidableEq, Repr

/-- A block from `malloc`, seen as an array of cells. -/
structure Block (α : Type) where
  len : Nat
  cell : Nat → Cell α

/-- The memory: the blocks in use, the number of calls of `malloc` so far (which also names the next
block), and, for the properties, how many elements were constructed, destroyed, moved from, and how
many were transferred to a new block. -/
structure Mem (α : Type) where
  heap : Nat → Option (Block α)
  next : Nat
  ctors : Nat
  dtors : Nat
  moves : Nat
  relocs : Nat

/-- `core<T>`, container/stdb_vector.hpp:299-301: `start` is the block `_start` points to (`none` is
null), `fin` and `edge` are `_finish - _start` and `_edge - _start`.  (After a failed allocation
`_start` is null while the other two keep their old values; the offsets then are those of the old
pointers.) -/
structure Vec where
  start : Option Nat
  fin : Nat
  edge : Nat
  deriving DecidableEq, Repr

/-- What a member function works on. -/
structure S (α : Type) where
  mem : Mem α
  this : Vec

/-- The element type and the environment: kind, `sizeof(T)`, build mode, the answers of `malloc`
(which may depend on the number of the call and the number of bytes), the value of `T()`, and whether destroying a moved-from
element, or assigning to one, is to count as a fault: it is none in C++, but C145 is about programs that never do it. -/
structure Cfg (α : Type) where
  kind : Kind
  size : Nat
  dbg : Bool
  malloc : Nat → Nat → Bool
  dflt : α
  strict : Bool

/-- Actions. -/
def V (α β : Type) : Type := S α → Except Fault β × S α

namespace V

variable {α β γ : Type}

/-- Return a value. -/
protected def pure (b : β) : V α β := fun s => (.ok b, s)

/-- Sequence; a fault ends the action. -/
protected def bind (x : V α β) (f : β → V α γ) : V α γ := fun s =>
  match x s with
  | (.ok b, s') => f b s'
  | (.error e, s') => (.error e, s')

instance : Monad (V α) where
  pure := V.pure
  bind := V.bind

/-- End with a fault. -/
def fail (e : Fault) : V α β := fun s => (.error e, s)

/-- Undefined behaviour. -/
def ub (what : String) : V α β := fail (.ub what)

end V

open V

variable {α : Type}

/-- `Assert`, assert_config.hpp. -/
def assert (cfg : Cfg α) (c : Bool) (msg : String) : V α Unit :=
  if cfg.dbg && !c then fail (.assertFail msg) else pure ()

/-- `if (c) x;` -/
def doIf (c : Bool) (x : V α Unit) : V α Unit := if c then x else pure ()

/-- The vector. -/
def this : V α Vec := fun s => (.ok s.this, s)

/-- Set the pointers of the vector. -/
def setThis (v : Vec) : V α Unit := fun s => (.ok (), { s with this := v })

/-! ### Memory -/

/-- A pointer to an element: block (null: `none`) and index. -/
structure Ptr where
  blk : Option Nat
  off : Nat
  deriving DecidableEq, Repr

/-- Pointer arithmetic. -/
def Ptr.add (p : Ptr) (n : Nat) : Ptr := ⟨p.blk, p.off + n⟩

/-- Update a heap. -/
def upd (h : Nat → Option (Block α)) (b : Nat) (x : Option (Block α)) : Nat → Option (Block α) :=
  fun i => if i = b then x else h i

/-- `std::malloc(n * sizeof(T))`: the product wraps; the block has room for as many elements as fit
in the bytes asked for. -/
def malloc (cfg : Cfg α) (n : Nat) : V α (Option Nat) := fun s =>
  let bytes := mul64 n cfg.size
  let k := s.mem.next
  if cfg.malloc k bytes then
    (.ok (some k), { s with mem := { s.mem with
      heap := upd s.mem.heap k (some ⟨bytes / cfg.size, fun _ => .raw⟩), next := k + 1 } })
  else (.ok none, { s with mem := { s.mem with next := k + 1 } })

/-- `std::free`. -/
def free (p : Option Nat) : V α Unit := fun s =>
  match p with
  | none => (.ok (), s)
  | some b =>
    match s.mem.heap b with
    | none => (.error (.ub "free of a block not allocated"), s)
    | some _ => (.ok (), { s with mem := { s.mem with heap := upd s.mem.heap b none } })

/-- Look at a cell. -/
def readCell (p : Ptr) : V α (Cell α) := fun s =>
  match p.blk with
  | none => (.error (.ub "null pointer dereferenced"), s)
  | some b =>
    match s.mem.heap b with
    | none => (.error (.ub "dangling pointer dereferenced"), s)
    | some B => if p.off < B.len then (.ok (B.cell p.off), s) else (.error (.ub "access outside the block"), s)

/-- Overwrite one cell of a block. -/
def Block.set (B : Block α) (i : Nat) (c : Cell α) : Block α :=
  { B with cell := fun j => if j = i then c else B.cell j }

/-- Change a cell. -/
def writeCell (p : Ptr) (c : Cell α) : V α Unit := fun s =>
  match p.blk with
  | none => (.error (.ub "null pointer dereferenced"), s)
  | some b =>
    match s.mem.heap b with
    | none => (.error (.ub "dangling pointer dereferenced"), s)
    | some B =>
      if p.off < B.len then (.ok (), { s with mem := { s.mem with heap := upd s.mem.heap b (some (B.set p.off c)) } })
      else (.error (.ub "access outside the block"), s)

/-- The value of an element; there must be one. -/
def load (p : Ptr) : V α α := do
  match ← readCell p with
  | .live v => pure v
  | .moved => ub "value of a moved-from element used"
  | .raw => ub "value of an element that does not live"

/-- Count constructions, destructions, moves and transfers. -/
def count (c d m r : Nat) : V α Unit := fun s =>
  (.ok (), { s with mem := { s.mem with ctors := s.mem.ctors + c, dtors := s.mem.dtors + d, moves := s.mem.moves + m,
                                        relocs := s.mem.relocs + r } })

/-- `new (p) T(v)`. -/
def constructAt (p : Ptr) (v : α) : V α Unit := do
  writeCell p (.live v)
  count 1 0 0 0

/-- Whether there is nothing in a cell to destroy or to assign to. -/
def Cell.empty (strict : Bool) : Cell α → Bool
  | .raw => true
  | .moved => strict
  | .live _ => false

/-- `destroy_ptr`, container/stdb_vector.hpp:183-190. -/
def destroyPtr (cfg : Cfg α) (p : Ptr) : V α Unit :=
  match cfg.kind with
  | .triv => pure ()
  | _ => do
    let c ← readCell p
    if c.empty cfg.strict then ub "destructor of an element that does not live" else do
      writeCell p .raw
      count 0 1 0 0

/-- `*p = v`: only trivial types may be assigned to without an element living there. -/
def assignTo (cfg : Cfg α) (p : Ptr) (v : α) : V α Unit :=
  match cfg.kind with
  | .triv => writeCell p (.live v)
  | _ => do
    let c ← readCell p
    if c.empty cfg.strict then ub "assignment to an element that does not live" else writeCell p (.live v)

/-- `destroy_range(p, p + n)`, container/stdb_vector.hpp:192-201. -/
def destroyRange (cfg : Cfg α) (p : Ptr) : Nat → V α Unit
  | 0 => pure ()
  | n + 1 => do
    destroyPtr cfg p
    destroyRange cfg (p.add 1) n

/-- `std::memcpy` (`overlap = false`) and `std::memmove` (`overlap = true`) of `n` elements. -/
def copyBytes (overlap : Bool) (dst src : Ptr) (n : Nat) : V α Unit := fun s =>
  if n = 0 then (.ok (), s)
  else
    match dst.blk, src.blk with
    | some d, some b =>
      match s.mem.heap d, s.mem.heap b with
      | some D, some B =>
        if dst.off + n ≤ D.len ∧ src.off + n ≤ B.len then
          if overlap = false ∧ d = b ∧ dst.off < src.off + n ∧ src.off < dst.off + n then
            (.error (.ub "memcpy of overlapping ranges"), s)
          else
            (.ok (), { s with mem := { s.mem with heap := upd s.mem.heap d (some
              { D with cell := fun i =>
                  if dst.off ≤ i ∧ i < dst.off + n then B.cell (i - dst.off + src.off) else D.cell i }) } })
        else (.error (.ub "access outside the block"), s)
      | _, _ => (.error (.ub "dangling pointer dereferenced"), s)
    | _, _ => (.error (.ub "null pointer dereferenced"), s)

/-- A `const T&` argument: an object outside all vectors, or an element. -/
inductive Ref (α : Type) where
  | ext (v : α)
  | elem (p : Ptr)
  deriving DecidableEq, Repr

/-- The value a reference refers to now. -/
def deref : Ref α → V α α
  | .ext v => pure v
  | .elem p => load p

/-! ### Helpers, container/stdb_vector.hpp:91-281 -/

/-- Write the same value to `n` elements, each time reading it anew: the loops of `construct_range`
(container/stdb_vector.hpp:92-104) and `construct_range_with_cref` (lines 106-120).  The `memset`s
used for some types have the same effect on trivial types. -/
def constructLoop (p : Ptr) (value : Ref α) : Nat → V α Unit
  | 0 => pure ()
  | n + 1 => do
    let v ← deref value
    constructAt p v
    constructLoop (p.add 1) value n

/-- The two assertions of `construct_range` and `construct_range_with_cref` followed by the loop. -/
def constructRange (cfg : Cfg α) (p : Ptr) (n : Nat) (value : Ref α) : V α Unit := do
  assert cfg p.blk.isSome "first and last can not be nullptr"
  assert cfg (decide (0 < n)) "first should always before last"
  constructLoop p value n

/-- The loop of `copy_range`, container/stdb_vector.hpp:133-136. -/
def copyLoop (dst src : Ptr) : Nat → V α Unit
  | 0 => pure ()
  | n + 1 => do
    let v ← load src
    constructAt dst v
    copyLoop (dst.add 1) (src.add 1) n

/-- `copy_range(dst, src, src + n)`, container/stdb_vector.hpp:122-138. -/
def copyRange (cfg : Cfg α) (dst src : Ptr) (n : Nat) : V α Unit := do
  assert cfg (dst.blk.isSome && src.blk.isSome) "dst and src can not be nullptr"
  assert cfg (decide (dst ≠ src)) "copy_range should not be called with same dst and src"
  assert cfg (decide (0 < n)) "src should always before src_end"
  if cfg.kind.relocatable then copyBytes false dst src n else copyLoop dst src n

/-- `copy_value` and `copy_cref`, container/stdb_vector.hpp:140-162. -/
def copyCref (cfg : Cfg α) (dst : Ptr) (value : Ref α) : V α Unit := do
  assert cfg dst.blk.isSome "dst can not be nullptr"
  let v ← deref value
  if cfg.kind.relocatable then assignTo cfg dst v else constructAt dst v

/-- A range outside the vector, by the iterators it is given with: pointers or other contiguous
iterators, reverse iterators over an array, or iterators without random access.  The list is in the
order of iteration.  Simplification: the elements have type `T`; segmented random-access iterators
are treated apart, on bytes, in `Verif.Vector.Ranges`. -/
inductive Source (α : Type) where
  | contiguous (l : List α)
  | reversed (l : List α)
  | forward (l : List α)
  deriving DecidableEq, Repr

/-- The elements of a range. -/
def Source.list : Source α → List α
  | .contiguous l | .reversed l | .forward l => l

/-- Construct the elements of a list one after the other. -/
def constructList (p : Ptr) : List α → V α Unit
  | [] => pure ()
  | v :: l => do
    constructAt p v
    constructList (p.add 1) l

/-- `memcpy` from outside the vector. -/
def writeList (p : Ptr) : List α → V α Unit
  | [] => pure ()
  | v :: l => do
    writeCell p (.live v)
    writeList (p.add 1) l

/-- `copy_from_iterator`, container/stdb_vector.hpp:167-181.  For random-access iterators over
relocatable elements, memory is copied if `first` points before `last`; reverse iterators never do. -/
def copyFromIterator (cfg : Cfg α) (dst : Ptr) (src : Source α) : V α Unit := do
  assert cfg dst.blk.isSome "copy_from_iterator dst can not be nullptr"
  assert cfg (decide (src.list ≠ [])) "copy_from_iterator first can not accept empty range"
  match cfg.kind.relocatable, src with
  | true, .contiguous l => writeList dst l
  | true, .reversed _ => pure ()
  | _, _ => constructList dst src.list

/-- One step of the loops that move elements: `new (dst) T(std::move(*src))`, and for types without a
move constructor `new (dst) T(*src); src->~T()` (container/stdb_vector.hpp:217-228, 243-256,
499-511). -/
def moveOne (cfg : Cfg α) (dst src : Ptr) : V α Unit := do
  let v ← load src
  match cfg.kind with
  | .cpy => do
    constructAt dst v
    destroyPtr cfg src
  | _ => do
    constructAt dst v
    writeCell src .moved
    count 0 0 1 0

/-- The forward loops of `move_range_without_overlap` and `move_range_forward`. -/
def moveLoopFwd (cfg : Cfg α) (dst src : Ptr) : Nat → V α Unit
  | 0 => pure ()
  | n + 1 => do
    moveOne cfg dst src
    moveLoopFwd cfg (dst.add 1) (src.add 1) n

/-- `move_range_without_overlap(dst, src, src + n)`, container/stdb_vector.hpp:207-228. -/
def moveRangeNoOverlap (cfg : Cfg α) (dst src : Ptr) (n : Nat) : V α Unit := do
  assert cfg (dst.blk.isSome && src.blk.isSome) "dst and src can not be nullptr"
  assert cfg (decide (dst ≠ src)) "move_range_without_overlap should make sure dst != src"
  count 0 0 0 n
  if cfg.kind.relocatable then copyBytes false dst src n else moveLoopFwd cfg dst src n

/-- `move_range_forward(dst, src, src_end)` within one block (all pointers are offsets of `b`),
container/stdb_vector.hpp:230-256. -/
def moveRangeForward (cfg : Cfg α) (b : Option Nat) (dst src srcEnd : Nat) : V α Unit := do
  assert cfg b.isSome "src and dst can not be nullptr"
  assert cfg (decide (src ≤ srcEnd)) "src_end should always after src"
  assert cfg (decide (dst < src ∨ srcEnd ≤ dst)) "dst should not overlap with [src, src_end)"
  let n := sub64 srcEnd src
  if cfg.kind.relocatable then copyBytes true ⟨b, dst⟩ ⟨b, src⟩ n
  else moveLoopFwd cfg ⟨b, dst⟩ ⟨b, src⟩ n

/-! ### `core<T>`, container/stdb_vector.hpp:285-517 -/

/-- `_start`. -/
def Vec.startPtr (v : Vec) : Ptr := ⟨v.start, 0⟩
/-- `_finish`. -/
def Vec.finPtr (v : Vec) : Ptr := ⟨v.start, v.fin⟩
/-- A pointer into the storage. -/
def Vec.ptr (v : Vec) (i : Nat) : Ptr := ⟨v.start, i⟩

/-- `kFastVectorInitCapacity`, container/stdb_vector.hpp:297-298. -/
def initCapacity (cfg : Cfg α) : Nat := if 64 ≤ cfg.size then 1 else 64 / cfg.size

/-- `allocate`, container/stdb_vector.hpp:304-311. -/
def allocate (cfg : Cfg α) (cap : Nat) : V α Unit := do
  assert cfg (decide (0 < cap)) "allocate cap should be larger than zero"
  let p ← malloc cfg cap
  let v ← this
  match p with
  | some b => setThis { v with start := some b, edge := cap }
  | none => do
    setThis { v with start := none }
    fail (.throw "bad_alloc")

/-- A vector without storage: `core()`, container/stdb_vector.hpp:313. -/
def nullVec : Vec := ⟨none, 0, 0⟩

/-- `core(size, cap)`, container/stdb_vector.hpp:316-324. -/
def coreSized (cfg : Cfg α) (size cap : Nat) : V α Unit := do
  assert cfg (decide (size ≤ cap)) "size should be smaller than cap"
  if 0 < cap then do
    allocate cfg cap
    let v ← this
    setThis { v with fin := size }
  else setThis nullVec

/-- `core(const core&)`, container/stdb_vector.hpp:326-335. -/
def coreCopy (cfg : Cfg α) (rhs : Vec) : V α Unit := do
  if 0 < rhs.fin then do
    allocate cfg rhs.fin
    let v ← this
    copyRange cfg v.startPtr rhs.startPtr rhs.fin
    setThis { v with fin := rhs.fin }
  else setThis nullVec

/-- `operator=(const core&)`, container/stdb_vector.hpp:343-371; the test for self-assignment is made
by the caller (`wstep`), which knows the identities. -/
def coreCopyAssign (cfg : Cfg α) (rhs : Vec) : V α Unit := do
  let newSize := rhs.fin
  let v ← this
  if newSize > v.edge then do
    destroyRange cfg v.startPtr v.fin
    free v.start
    allocate cfg newSize
    let v ← this
    copyRange cfg v.startPtr rhs.startPtr newSize
    setThis { v with fin := newSize }
  else do
    destroyRange cfg v.startPtr v.fin
    if 0 < newSize then do
      copyRange cfg v.startPtr rhs.startPtr newSize
      setThis { v with fin := newSize }
    else setThis { v with fin := 0 }

/-- `~core`, container/stdb_vector.hpp:386-391. -/
def coreDestroy (cfg : Cfg α) : V α Unit := do
  let v ← this
  destroyRange cfg v.startPtr v.fin
  free v.start

/-- `operator=(core&&)`, container/stdb_vector.hpp:372-385, again without the test for
self-assignment; the other vector becomes `nullVec`. -/
def coreMoveAssign (cfg : Cfg α) (rhs : Vec) : V α Unit := do
  coreDestroy cfg
  setThis rhs

/-- `full()`, container/stdb_vector.hpp:409-412. -/
def full (cfg : Cfg α) : V α Bool := do
  let v ← this
  assert cfg (decide (v.fin ≤ v.edge)) "finish should always before edge"
  return decide (v.edge = v.fin)

/-- `realloc_with_move`, container/stdb_vector.hpp:264-281, together with its only caller
`realloc_with_old_data`, lines 423-430.  Without storage the result of `malloc` is not checked. -/
def reallocWithOldData (cfg : Cfg α) (newCap : Nat) : V α Unit := do
  let v ← this
  assert cfg (decide (v.fin ≤ newCap)) "new_cap should be larger than old_size, or it will cause data loss"
  match v.start with
  | none => do
    assert cfg (decide (v.fin = 0)) "ptr is nullptr, but old_size is not zero"
    let p ← malloc cfg newCap
    setThis ⟨p, 0, newCap⟩
  | some old => do
    assert cfg (decide (0 < newCap)) "new_size should be larger than zero"
    let p ← malloc cfg newCap
    match p with
    | none => fail (.throw "bad_alloc")
    | some new => do
      let n := min v.fin newCap
      moveRangeNoOverlap cfg ⟨some new, 0⟩ ⟨some old, 0⟩ n
      free (some old)
      setThis ⟨some new, n, newCap⟩

/-- `realloc_and_emplace_back`, container/stdb_vector.hpp:432-450. -/
def reallocAndEmplaceBack (cfg : Cfg α) (newCap : Nat) (arg : Ref α) : V α Unit := do
  let old ← this
  assert cfg (decide (old.fin < newCap)) "new_cap should be larger than old_size, or it will cause data loss"
  allocate cfg newCap
  let v ← this
  setThis { v with fin := old.fin + 1 }
  let x ← deref arg
  constructAt (v.ptr old.fin) x
  doIf (0 < old.fin) (moveRangeNoOverlap cfg v.startPtr old.startPtr old.fin)
  free old.start

/-- `realloc_drop_old_data`, container/stdb_vector.hpp:452-456. -/
def reallocDropOldData (cfg : Cfg α) (newCap : Nat) : V α Unit := do
  coreDestroy cfg
  allocate cfg newCap

/-- `destroy()`, container/stdb_vector.hpp:458-465. -/
def destroyAll (cfg : Cfg α) : V α Unit := do
  let v ← this
  assert cfg (decide (v.fin ≤ v.edge)) "finish should always before edge"
  destroyRange cfg v.startPtr v.fin

/-- `max_size()`, container/stdb_vector.hpp:467-469. -/
def maxSize (cfg : Cfg α) : Nat := (2 ^ 63 - 1) / cfg.size

/-- `move_forward(dst, src)`, container/stdb_vector.hpp:472-481: moves up to `_finish`. -/
def moveForward (cfg : Cfg α) (dst src : Nat) : V α Unit := do
  assert cfg (decide (dst ≠ src)) "move_forward should not be called with same dst and src"
  let v ← this
  moveRangeForward cfg v.start dst src v.fin

/-- One step of the backward loops of `move_backward`, container/stdb_vector.hpp:492-511. -/
def moveBack (cfg : Cfg α) (dst src : Ptr) : V α Unit :=
  if cfg.kind.relocatable then do
    let v ← load src
    assignTo cfg dst v
  else moveOne cfg dst src

/-- The backward loops of `move_backward`, container/stdb_vector.hpp:492-511: `n` elements, the last
first.  (The loops end with a pointer before `src`, which is formally undefined when `src` is the
start of the storage; this is not modelled.) -/
def moveLoopBwd (cfg : Cfg α) (dst src : Ptr) : Nat → V α Unit
  | 0 => pure ()
  | n + 1 => do
    moveBack cfg (dst.add n) (src.add n)
    moveLoopBwd cfg dst src n

/-- `move_backward(dst, src)`, container/stdb_vector.hpp:484-511: moves up to `_finish`. -/
def moveBackward (cfg : Cfg α) (dst src : Nat) : V α Unit := do
  let v ← this
  assert cfg v.start.isSome "dst and src can not be nullptr"
  assert cfg (decide (src + 1 < v.fin)) "src should always before _finish - 1, or can not move backward"
  assert cfg (decide (dst ≠ src)) "move_backward should not be called with same dst and src"
  moveLoopBwd cfg (v.ptr dst) (v.ptr src) (v.fin - src)

/-! ### `stdb_vector<T>`, container/stdb_vector.hpp:524-1395 -/

/-- `compute_next_capacity`, container/stdb_vector.hpp:1379-1394. -/
def nextCapacity (cfg : Cfg α) (cap : Nat) : Nat :=
  if cap < 131072 / cfg.size ∧ initCapacity cfg ≤ cap then add64 (mul64 cap 3) 1 / 2
  else if 131072 / cfg.size ≤ cap then mul64 cap 2
  else initCapacity cfg

/-- `compute_new_capacity`, container/stdb_vector.hpp:1372-1378. -/
def computeNewCapacity (cfg : Cfg α) (newSize : Nat) : V α Nat := do
  let v ← this
  assert cfg (decide (newSize > v.edge)) "new_size should larger than old cap, or no need to compute new cap"
  return if nextCapacity cfg v.edge > newSize then nextCapacity cfg v.edge else newSize

/-- `stdb_vector(size)`, container/stdb_vector.hpp:547-551, and `stdb_vector(size, value)`,
lines 553-557. -/
def ctorSized (cfg : Cfg α) (size : Nat) (value : Ref α) : V α Unit := do
  coreSized cfg size size
  let v ← this
  doIf (0 < size) (constructRange cfg v.startPtr size value)

/-- `stdb_vector(first, last)`, container/stdb_vector.hpp:559-570 (also the initializer list,
line 572).  Simplification: `last - first` is the length of the range; it needs random access. -/
def ctorRange (cfg : Cfg α) (src : Source α) : V α Unit := do
  setThis nullVec
  assert cfg (decide (src.list.length ≤ maxSize cfg)) "stdb_vector size should be smaller than max_size"
  if 0 < src.list.length then do
    allocate cfg src.list.length
    let v ← this
    copyFromIterator cfg v.startPtr src
    setThis { v with fin := src.list.length }

/-- `assign(count, value)`, container/stdb_vector.hpp:596-609. -/
def assignN (cfg : Cfg α) (n : Nat) (value : Ref α) : V α Unit := do
  let v ← this
  (if n > v.edge then reallocDropOldData cfg n else destroyAll cfg)
  let v ← this
  setThis { v with fin := n }
  constructRange cfg v.startPtr n value

/-- `assign(first, last)`, container/stdb_vector.hpp:611-631: an empty range leaves `_finish` as it
is. -/
def assignRange (cfg : Cfg α) (src : Source α) : V α Unit := do
  let v ← this
  let n := src.list.length
  if n > v.edge then do
    reallocDropOldData cfg n
    let v ← this
    copyFromIterator cfg v.startPtr src
    setThis { v with fin := n }
  else do
    destroyAll cfg
    if 0 < n then do
      copyFromIterator cfg v.startPtr src
      setThis { v with fin := n }

/-- `shrink_to_fit`, container/stdb_vector.hpp:666-679. -/
def shrinkToFit (cfg : Cfg α) : V α Unit := do
  let v ← this
  if v.fin = v.edge then pure ()
  else if v.fin = 0 then do
    coreDestroy cfg
    setThis nullVec
  else reallocWithOldData cfg v.fin

/-- `reserve`, container/stdb_vector.hpp:687-692. -/
def reserve (cfg : Cfg α) (n : Nat) : V α Unit := do
  let v ← this
  doIf (n > v.edge) (reallocWithOldData cfg n)

/-- `at` and `operator[]`, container/stdb_vector.hpp:414-421 and 697-712: `Assert`, no exception. -/
def at' (cfg : Cfg α) (i : Nat) : V α α := do
  let v ← this
  assert cfg (decide (i < v.fin)) "index out of range"
  load (v.ptr i)

/-- `operator[](i) = x` by the client. -/
def setAt (cfg : Cfg α) (i : Nat) (x : α) : V α Unit := do
  let v ← this
  assert cfg (decide (i < v.fin)) "index out of range"
  let c ← readCell (v.ptr i)
  if c.empty cfg.strict then ub "assignment to an element that does not live" else writeCell (v.ptr i) (.live x)

/-- `front`, container/stdb_vector.hpp:720-728. -/
def front (cfg : Cfg α) : V α α := do
  let v ← this
  assert cfg (decide (0 < v.fin)) "front should not be called with empty vector"
  load v.startPtr

/-- `back`, container/stdb_vector.hpp:730-738; `_finish - 1` before the storage is undefined. -/
def back (cfg : Cfg α) : V α α := do
  let v ← this
  assert cfg (decide (0 < v.fin)) "back should not be called with empty vector"
  if v.fin = 0 then ub "pointer before the storage" else load (v.ptr (v.fin - 1))

/-- `for (auto it = begin(); it != end(); ++it) use(*it)`, container/stdb_vector.hpp:744-864: the
values seen. -/
def iterate (p : Ptr) : Nat → V α (List α)
  | 0 => pure []
  | n + 1 => do
    let v ← load p
    let l ← iterate (p.add 1) n
    return v :: l

/-- The same with `rbegin()` and `rend()`, container/stdb_vector.hpp:866-888: a reverse iterator
dereferences the element before its base. -/
def iterateRev (p : Ptr) : Nat → V α (List α)
  | 0 => pure []
  | n + 1 => do
    let v ← load (p.add n)
    let l ← iterateRev p n
    return v :: l

/-- The values seen from `begin()` to `end()`. -/
def toList : V α (List α) := do
  let v ← this
  iterate v.startPtr v.fin

/-- The values seen from `rbegin()` to `rend()`. -/
def toListRev : V α (List α) := do
  let v ← this
  iterateRev v.startPtr v.fin

/-- `fill(filler)`, container/stdb_vector.hpp:890-901: `filler(nullptr)` returns `promise`,
`filler(_finish)` writes the elements `written` and returns their number. -/
def fill (cfg : Cfg α) (safe : Bool) (promise : Nat) (written : List α) : V α Unit := do
  let v ← this
  doIf (safe && decide (add64 promise v.fin > v.edge)) (do
    let c ← computeNewCapacity cfg (add64 promise v.fin)
    reallocWithOldData cfg c)
  let v ← this
  constructList v.finPtr written
  setThis { v with fin := v.fin + written.length }

/-- `get_writebuffer(n)`, container/stdb_vector.hpp:906-916; the result is the first index of the
span, whose length is `n`. -/
def getWritebuffer (cfg : Cfg α) (safe : Bool) (n : Nat) : V α Nat := do
  let v ← this
  doIf (safe && decide (add64 n v.fin > v.edge)) (do
    let c ← computeNewCapacity cfg n
    reallocWithOldData cfg c)
  let v ← this
  setThis { v with fin := v.fin + n }
  return v.fin

/-- Construct one element at the end when there is room: by `copy_cref`/`copy_value`, or with
`emplace = true` by placement `new`. -/
def putAt (cfg : Cfg α) (emplace : Bool) (p : Ptr) (arg : Ref α) : V α Unit :=
  if emplace then do
    let x ← deref arg
    constructAt p x
  else copyCref cfg p arg

/-- `push_back` (both overloads, container/stdb_vector.hpp:921-949) and `emplace_back`
(lines 951-965). Simplification: an rvalue argument is outside the vector. -/
def pushBack (cfg : Cfg α) (safe emplace : Bool) (arg : Ref α) : V α Unit := do
  let f ← full cfg
  let v ← this
  if safe then
    if f then reallocAndEmplaceBack cfg (nextCapacity cfg v.edge) arg
    else do
      setThis { v with fin := v.fin + 1 }
      putAt cfg emplace v.finPtr arg
  else do
    assert cfg (!f) "push_back should not be called with full vector"
    setThis { v with fin := v.fin + 1 }
    putAt cfg emplace v.finPtr arg

/-- `clear`, container/stdb_vector.hpp:967-970. -/
def clear (cfg : Cfg α) : V α Unit := do
  destroyAll cfg
  let v ← this
  setThis { v with fin := 0 }

/-- `erase(pos)`, container/stdb_vector.hpp:972-989; returns the index of the iterator. -/
def erase (cfg : Cfg α) (pos : Nat) : V α Nat := do
  let v ← this
  assert cfg (decide (pos < v.fin)) "pos should be in [begin(), end())"
  destroyPtr cfg (v.ptr pos)
  moveForward cfg pos (pos + 1)
  setThis { v with fin := v.fin - 1 }
  return pos

/-- `erase(first, last)`, container/stdb_vector.hpp:991-1017. -/
def eraseRange (cfg : Cfg α) (first last : Nat) : V α Nat := do
  let v ← this
  assert cfg (decide (last ≤ v.fin)) "first and last should be in [begin(), end())"
  assert cfg (decide (first ≤ last)) "last should be larger than first, or the input range is not valid"
  doIf (first ≠ last) (do
    destroyRange cfg (v.ptr first) (sub64 last first)
    moveForward cfg first last
    setThis { v with fin := sub64 v.fin (sub64 last first) })
  return last

/-- Keep an element in the loops of `erase(value)` and `erase_if`, container/stdb_vector.hpp:1024-1028,
1043-1047, 1064-1070 (and the same in `erase_if`). -/
def keepElem (cfg : Cfg α) (dst src : Ptr) : V α Unit :=
  if dst = src then pure () else moveBack cfg dst src

/-- Drop an element in the same loops, lines 1031-1033, 1050-1053, 1073-1076. -/
def dropElem (cfg : Cfg α) (src : Ptr) : V α Unit :=
  if cfg.kind.relocatable then pure () else destroyPtr cfg src

/-- The loops of `erase(value)`, container/stdb_vector.hpp:1019-1082, and `erase_if`, lines 1087-1151:
`test` decides whether the element at `src` goes.  Returns the number erased. -/
def eraseLoop (cfg : Cfg α) (test : α → V α Bool) (dst src : Ptr) : Nat → V α Nat
  | 0 => pure 0
  | n + 1 => do
    let x ← load src
    let t ← test x
    if t then do
      dropElem cfg src
      let e ← eraseLoop cfg test dst (src.add 1) n
      return e + 1
    else do
      keepElem cfg dst src
      eraseLoop cfg test (dst.add 1) (src.add 1) n

/-- `erase(value)`, container/stdb_vector.hpp:1019-1082: the value is read again for every element. -/
def eraseValue [DecidableEq α] (cfg : Cfg α) (value : Ref α) : V α Nat := do
  let v ← this
  let e ← eraseLoop cfg (fun x => do let y ← deref value; return decide (x = y)) v.startPtr v.startPtr v.fin
  setThis { v with fin := v.fin - e }
  return e

/-- `erase_if(pred)`, container/stdb_vector.hpp:1087-1151. -/
def eraseIf (cfg : Cfg α) (pred : α → Bool) : V α Nat := do
  let v ← this
  let e ← eraseLoop cfg (fun x => pure (pred x)) v.startPtr v.startPtr v.fin
  setThis { v with fin := v.fin - e }
  return e

/-- `pop_back`, container/stdb_vector.hpp:1153-1156; `_finish` before the storage is undefined. -/
def popBack (cfg : Cfg α) : V α Unit := do
  let v ← this
  if v.fin = 0 then ub "pointer before the storage"
  else do
    setThis { v with fin := v.fin - 1 }
    destroyPtr cfg (v.ptr (v.fin - 1))

/-- `resize(count)`, container/stdb_vector.hpp:1158-1179, with `value` the default value, and
`resize(count, value)`, lines 1181-1197.  With `Safety::Unsafe` (`construct = false`) the new elements
are not constructed. -/
def resize (cfg : Cfg α) (construct : Bool) (n : Nat) (value : Ref α) : V α Unit := do
  let v ← this
  if n > v.fin then do
    doIf (n > v.edge) (reallocWithOldData cfg n)
    let v ← this
    setThis { v with fin := n }
    doIf construct (constructRange cfg v.finPtr (n - v.fin) value)
  else do
    setThis { v with fin := n }
    destroyRange cfg (v.ptr n) (v.fin - n)

/-- `insert(pos, value)` (both overloads, container/stdb_vector.hpp:1201-1255) and `emplace`
(lines 1321-1369, without the first assertion); returns the index of the iterator. -/
def insertOne (cfg : Cfg α) (safe emplace : Bool) (pos : Nat) (arg : Ref α) : V α Nat := do
  let v ← this
  assert cfg (emplace || decide (pos ≤ v.fin)) "pos should be in [begin(), end())"
  doIf safe (do
    let f ← full cfg
    doIf f (reserve cfg (nextCapacity cfg v.edge)))
  let f ← full cfg
  assert cfg (!f) "insert should not be called with full vector"
  let v ← this
  if pos = v.fin then do
    setThis { v with fin := v.fin + 1 }
    putAt cfg emplace (v.ptr pos) arg
    return pos
  else do
    (if pos + 1 < v.fin then moveBackward cfg (pos + 1) pos else moveForward cfg (pos + 1) pos)
    putAt cfg emplace (v.ptr pos) arg
    setThis { v with fin := v.fin + 1 }
    return pos

/-- Make room for `n` elements at `pos`: the common part of the two functions below,
container/stdb_vector.hpp:1261-1277 and 1290-1309. -/
def makeRoom (cfg : Cfg α) (safe : Bool) (pos n : Nat) : V α Unit := do
  let v ← this
  doIf (safe && decide (add64 v.fin n > v.edge)) (do
    let c ← computeNewCapacity cfg (add64 v.fin n)
    reserve cfg c)
  let w ← this
  assert cfg (decide (add64 v.fin n ≤ w.edge))
    "insert should not overflow the vector's cap, the vector should be reserved first"
  if w.fin ≤ pos + n then moveForward cfg (pos + n) pos
  else moveBackward cfg (pos + n) pos

/-- `insert(pos, count, value)`, container/stdb_vector.hpp:1257-1281. -/
def insertN (cfg : Cfg α) (safe : Bool) (pos n : Nat) (value : Ref α) : V α Nat := do
  assert cfg (decide (0 < n)) "count should be larger than 0"
  let v ← this
  assert cfg (decide (pos ≤ v.fin)) "pos should be in [begin(), end())"
  makeRoom cfg safe pos n
  let v ← this
  constructRange cfg (v.ptr pos) n value
  setThis { v with fin := v.fin + n }
  return pos

/-- `insert(pos, first, last)`, container/stdb_vector.hpp:1283-1313 (also the initializer list,
lines 1315-1319). -/
def insertRange (cfg : Cfg α) (safe : Bool) (pos : Nat) (src : Source α) : V α Nat := do
  let n := src.list.length
  if n = 0 then return pos
  else do
    makeRoom cfg safe pos n
    let v ← this
    copyFromIterator cfg (v.ptr pos) src
    setThis { v with fin := v.fin + n }
    return pos

/-! ### Comparison, container/stdb_vector.hpp:1397-1427 -/

/-- The loop of `operator==`, container/stdb_vector.hpp:1402-1406, from index `i` for `n` elements. -/
def eqLoop [DecidableEq α] (a b : Vec) (i : Nat) : Nat → V α Bool
  | 0 => pure true
  | n + 1 => do
    let x ← load (a.ptr i)
    let y ← load (b.ptr i)
    if x ≠ y then return false else eqLoop a b (i + 1) n

/-- `operator==`, container/stdb_vector.hpp:1397-1408. -/
def vecEq [DecidableEq α] (a b : Vec) : V α Bool :=
  if a.fin ≠ b.fin then pure false else eqLoop a b 0 a.fin

/-- The loop of `operator<=>`, container/stdb_vector.hpp:1412-1419; `none` if it runs to its end. -/
def cmpLoop (lt : α → α → Bool) (a b : Vec) (i : Nat) : Nat → V α (Option Ordering)
  | 0 => pure none
  | n + 1 => do
    let x ← load (a.ptr i)
    let y ← load (b.ptr i)
    if lt x y then return some .lt
    else if lt y x then return some .gt
    else cmpLoop lt a b (i + 1) n

/-- `operator<=>`, container/stdb_vector.hpp:1410-1427; `lt` is the `<` of the elements, and `a > b`
on them is `b < a`. -/
def vecCmp (lt : α → α → Bool) (a b : Vec) : V α Ordering := do
  match ← cmpLoop lt a b 0 (min a.fin b.fin) with
  | some o => return o
  | none => return if a.fin < b.fin then .lt else if b.fin < a.fin then .gt else .eq

/-! ### Operations -/

/-- An argument of an operation: a value, or a reference to the vector's own element `i`. -/
inductive Arg (α : Type) where
  | ext (v : α)
  | own (i : Nat)
  deriving DecidableEq, Repr

/-- The reference passed. -/
def Arg.ref (v : Vec) : Arg α → Ref α
  | .ext x => .ext x
  | .own i => .elem (v.ptr i)

/-- Modifying member functions.  `writeBuffer` and `resizeRaw` are `get_writebuffer` and
`resize<Unsafe>` followed by the client constructing the given elements in the new room. -/
inductive Op (α : Type) where
  | pushBack (safe emplace : Bool) (a : Arg α)
  | insert (safe emplace : Bool) (pos : Nat) (a : Arg α)
  | insertN (safe : Bool) (pos n : Nat) (a : Arg α)
  | insertRange (safe : Bool) (pos : Nat) (src : Source α)
  | erase (pos : Nat)
  | eraseRange (first last : Nat)
  | eraseValue (a : Arg α)
  | eraseIf (pred : α → Bool)
  | popBack
  | resize (n : Nat)
  | resizeValue (n : Nat) (a : Arg α)
  | resizeRaw (l : List α)
  | assignN (n : Nat) (a : Arg α)
  | assignRange (src : Source α)
  | clear
  | reserve (n : Nat)
  | shrinkToFit
  | fill (safe : Bool) (promise : Nat) (written : List α)
  | writeBuffer (safe : Bool) (l : List α)
  | set (i : Nat) (x : α)

/-- What an operation returns: nothing, or a number (an index or a count). -/
inductive Ret where
  | unit
  | num (n : Nat)
  deriving DecidableEq, Repr

/-- Run an action without result. -/
def noRet (x : V α Unit) : V α Ret := do
  x
  return .unit

/-- Run an action with a number as result. -/
def numRet (x : V α Nat) : V α Ret := do
  let n ← x
  return .num n

/-- One call of a member function. -/
def step [DecidableEq α] (cfg : Cfg α) (op : Op α) : V α Ret := do
  let v ← this
  match op with
  | .pushBack s e a => noRet (pushBack cfg s e (a.ref v))
  | .insert s e pos a => numRet (insertOne cfg s e pos (a.ref v))
  | .insertN s pos n a => numRet (insertN cfg s pos n (a.ref v))
  | .insertRange s pos src => numRet (insertRange cfg s pos src)
  | .erase pos => numRet (erase cfg pos)
  | .eraseRange a b => numRet (eraseRange cfg a b)
  | .eraseValue a => numRet (eraseValue cfg (a.ref v))
  | .eraseIf p => numRet (eraseIf cfg p)
  | .popBack => noRet (popBack cfg)
  | .resize n => noRet (resize cfg true n (.ext cfg.dflt))
  | .resizeValue n a => noRet (resize cfg true n (a.ref v))
  | .resizeRaw l => noRet do
      resize cfg false (v.fin + l.length) (.ext cfg.dflt)
      let w ← this
      constructList (w.ptr v.fin) l
  | .assignN n a => noRet (assignN cfg n (a.ref v))
  | .assignRange src => noRet (assignRange cfg src)
  | .clear => noRet (clear cfg)
  | .reserve n => noRet (reserve cfg n)
  | .shrinkToFit => noRet (shrinkToFit cfg)
  | .fill s p l => noRet (fill cfg s p l)
  | .writeBuffer s l => noRet do
      let i ← getWritebuffer cfg s l.length
      let w ← this
      constructList (w.ptr i) l
  | .set i x => noRet (setAt cfg i x)

/-! ### Several vectors -/

/-- The memory and all vectors of a program; `none` is a destroyed vector. -/
structure World (α : Type) where
  mem : Mem α
  vecs : List (Option Vec)

/-- Operations of a program. New vectors get the next index. -/
inductive WOp (α : Type) where
  | ctor
  | ctorSized (n : Nat)
  | ctorValue (n : Nat) (x : α)
  | ctorRange (src : Source α)
  | copyCtor (j : Nat)
  | moveCtor (j : Nat)
  | copyAssign (i j : Nat)
  | moveAssign (i j : Nat)
  | swap (i j : Nat)
  | call (i : Nat) (op : Op α)
  | destroy (i : Nat)

/-- Run a constructor: when it throws there is no new vector. -/
def World.construct (w : World α) (x : V α Unit) : Except Fault Ret × World α :=
  match x ⟨w.mem, nullVec⟩ with
  | (.ok _, s) => (.ok .unit, ⟨s.mem, w.vecs ++ [some s.this]⟩)
  | (.error e, s) => (.error e, ⟨s.mem, w.vecs⟩)

/-- Run a member function of vector `i`. -/
def World.member (w : World α) (i : Nat) (x : V α Ret) : Except Fault Ret × World α :=
  match w.vecs[i]? with
  | some (some v) =>
    match x ⟨w.mem, v⟩ with
    | (r, s) => (r, ⟨s.mem, w.vecs.set i (some s.this)⟩)
  | _ => (.error (.ub "vector used outside its lifetime"), w)

/-- Replace the pointers of a vector. -/
def World.setVec (w : World α) (i : Nat) (v : Option Vec) : World α := { w with vecs := w.vecs.set i v }

/-- One operation of a program.  Copy and move construction and assignment: container/stdb_vector.hpp
lines 326-385 and 574-594; `swap`: lines 393-397 and 1199. -/
def wstep [DecidableEq α] (cfg : Cfg α) (w : World α) : WOp α → Except Fault Ret × World α
  | .ctor => w.construct (setThis nullVec)
  | .ctorSized n => w.construct (ctorSized cfg n (.ext cfg.dflt))
  | .ctorValue n x => w.construct (ctorSized cfg n (.ext x))
  | .ctorRange src => w.construct (ctorRange cfg src)
  | .copyCtor j =>
    match w.vecs[j]? with
    | some (some u) => w.construct (coreCopy cfg u)
    | _ => (.error (.ub "vector used outside its lifetime"), w)
  | .moveCtor j =>
    match w.vecs[j]? with
    | some (some u) => (.ok .unit, ⟨w.mem, w.vecs.set j (some nullVec) ++ [some u]⟩)
    | _ => (.error (.ub "vector used outside its lifetime"), w)
  | .copyAssign i j =>
    match w.vecs[j]? with
    | some (some u) => w.member i (if i = j then pure .unit else noRet (coreCopyAssign cfg u))
    | _ => (.error (.ub "vector used outside its lifetime"), w)
  | .moveAssign i j =>
    match w.vecs[j]? with
    | some (some u) =>
      if i = j then w.member i (pure .unit)
      else
        match w.member i (noRet (coreMoveAssign cfg u)) with
        | (.ok r, w) => (.ok r, w.setVec j (some nullVec))
        | (.error e, w) => (.error e, w)
    | _ => (.error (.ub "vector used outside its lifetime"), w)
  | .swap i j =>
    match w.vecs[i]?, w.vecs[j]? with
    | some (some u), some (some v) => (.ok .unit, (w.setVec i (some v)).setVec j (some u))
    | _, _ => (.error (.ub "vector used outside its lifetime"), w)
  | .call i op => w.member i (step cfg op)
  | .destroy i =>
    match w.member i (noRet (coreDestroy cfg)) with
    | (.ok r, w) => (.ok r, w.setVec i none)
    | (.error e, w) => (.error e, w)

/-- The program before its first operation. -/
def World.empty : World α :=
  ⟨{ heap := fun _ => none, next := 0, ctors := 0, dtors := 0, moves := 0, relocs := 0 }, []⟩

end Verif.Vector
