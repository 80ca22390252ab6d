import Verif.Align.Model

/-!
Model of the arena: `arena/arena.hpp` and `arena/arena.cc`.

Addresses and sizes are natural numbers below `2^64`; every `uint64_t` operation that can wrap is
written with `add64`/`sub64`/`mul64`.  `cfg.dbg` selects a debug build (with `Assert`) or a release
build (without).
-/

namespace Verif.Arena

open Verif.Align

/-- `CleanupNode`, arena/arena.hpp:74-78.  The function pointer is an identifier. -/
structure Node where
  element : Nat
  cleanup : Nat
  deriving DecidableEq, Repr

/-- Observable events: calls of the configured functions and hooks (Options, arena/arena.hpp:170-218)
and of the cleanup functions.  `blockAlloc` records the size asked for and the pointer returned. -/
inductive Ev where
  | init
  | blockAlloc (size : Nat) (res : Option Nat)
  | newblock (num size : Nat) (cookie : Option Nat)
  | allocated (size : Nat) (cookie : Option Nat)
  | reset (used wasted : Nat) (cookie : Option Nat)
  | destroyed (used wasted : Nat) (cookie : Option Nat)
  | cleanup (n : Node)
  | dealloc (base : Nat)
  | log
  deriving DecidableEq, Repr

/-- `Arena::Options`, arena/arena.hpp:170-218, together with the build mode.
`block_alloc` is a strategy of the environment: it may depend on everything that happened before
(the event trace, newest first).  Simplification: all hooks are installed and only record their
arguments; options with null pointers are in `Verif.Arena.Callbacks`. -/
structure Cfg where
  normal : Nat
  huge : Nat
  init : Nat
  dbg : Bool
  blockAlloc : List Ev → Nat → Option Nat

/-- `kByteSize`, arena/arena.hpp:80. -/
def kByteSize : Nat := 8
/-- `kInt256Size`, arena/arena.hpp:81. -/
def kInt256Size : Nat := 32
/-- `kCleanupNodeSize = AlignUpTo<8>(sizeof(CleanupNode))`, arena/arena.hpp:83; `sizeof` is 16. -/
def kCleanupNodeSize : Nat := alignUpTo8 16
/-- `kBlockHeaderSize = AlignUpTo<8>(sizeof(Block))`, arena/arena.hpp:692; `sizeof(Block)` is 32
(one pointer and three `uint64_t`, lines 315-318). -/
def kBlockHeaderSize : Nat := alignUpTo8 32
/-- `kThresholdHuge`, arena/arena.hpp:669. -/
def kThresholdHuge : Nat := 4

/-- `Block`, arena/arena.hpp:225-319: `base` is the address of the block (`this`), the other three
are the fields `_pos`, `_size`, `_limit`.  `cells` is the part of the block's memory holding cleanup
nodes, indexed by the offset of the node in the block (`none`: no intact node there).  The field
`_prev` is represented by the position in the arena's list of blocks. -/
structure Block where
  base : Nat
  pos : Nat
  size : Nat
  limit : Nat
  cells : Nat → Option Node

/-- The arena object, arena/arena.hpp:660-667: `blocks` is the chain from `_last_block` along
`_prev`; `cookie` is `_cookie`; `space` is `_space_allocated`.  `trace` is the history of events,
newest first. -/
structure St where
  blocks : List Block
  cookie : Option Nat
  space : Nat
  trace : List Ev

/-- Append an event. -/
def St.emit (st : St) (e : Ev) : St := { st with trace := e :: st.trace }

/-- `Block::Block`, arena/arena.cc:45. -/
def Block.mk' (base size : Nat) : Block :=
  { base := base, pos := kBlockHeaderSize, size := size, limit := size, cells := fun _ => none }

/-- `Block::AlignPos`, arena/arena.cc:47-57.  `% 0` is undefined behaviour. -/
def alignPos (dbg : Bool) (ptr alignment : Nat) : Except Fault (Nat × Nat) := do
  assertDbg dbg (decide (kByteSize ≤ alignment)) "AlignPos need alignment >= 8"
  assertDbg dbg (decide (alignment ≤ kInt256Size)) "AlignPos need alignment <= 32"
  if alignment = 0 then .error (.ub "modulo zero in AlignPos")
  else
    let reminder := ptr % alignment
    let forward := sub64 (mul64 alignment (if reminder ≠ 0 then 1 else 0)) reminder
    .ok (add64 ptr forward, forward)

/-- `Block::Pos`, arena/arena.hpp:239. -/
def Block.posPtr (b : Block) : Nat := add64 b.base b.pos

/-- `Block::has_enough_space`, arena/arena.hpp:289-294. -/
def Block.hasEnoughSpace (dbg : Bool) (b : Block) (size alignment : Nat) : Except Fault Bool := do
  let (_, waste) ← alignPos dbg b.posPtr alignment
  return decide (add64 (add64 b.pos waste) size ≤ b.limit)

/-- `Block::alloc`, arena/arena.hpp:255-262. The argument of `Assert` is evaluated only in debug. -/
def Block.alloc (dbg : Bool) (b : Block) (size alignment : Nat) : Except Fault (Nat × Block) := do
  if dbg then
    let ok ← b.hasEnoughSpace dbg size alignment
    assertDbg dbg ok "Block::alloc should make sure has enough space to alloc"
  let (alignedPtr, waste) ← alignPos dbg b.posPtr alignment
  return (alignedPtr, { b with pos := add64 b.pos (add64 size waste) })

/-- `Block::alloc_cleanup` and `Block::register_cleanup`, arena/arena.hpp:264-274.  The placement
`new` writes 16 bytes at `this + _limit`; writing outside `[header, _size)` or at an address that is
not 8-aligned is undefined behaviour. -/
def Block.registerCleanup (dbg : Bool) (b : Block) (n : Node) : Except Fault Block := do
  assertDbg dbg (decide (add64 b.pos kCleanupNodeSize ≤ b.limit))
    "alloc_cleanup should make sure has enough space less rest space"
  let limit := sub64 b.limit kCleanupNodeSize
  if limit + 16 ≤ b.size ∧ kBlockHeaderSize ≤ limit ∧ (b.base + limit) % 8 = 0 then
    .ok { b with limit := limit, cells := fun o => if o = limit then some n else b.cells o }
  else .error (.ub "cleanup node written outside the block or misaligned")

/-- `Block::remain`, arena/arena.hpp:284-287. -/
def Block.remain (dbg : Bool) (b : Block) : Except Fault Nat := do
  assertDbg dbg (decide (b.pos ≤ b.limit)) "remain should be ge than 0"
  return sub64 b.limit b.pos

/-- The loop of `Block::run_cleanups`, arena/arena.hpp:296-306, from the node at offset `off`:
the list of nodes whose `cleanup(element)` is called, in order.  Reading past the block or at an
offset without an intact node is undefined behaviour.  `fuel` bounds the number of iterations; it
starts at the number of bytes to walk, so it never runs out (`readNodes_eq`). -/
def readNodesAux (cells : Nat → Option Node) (size : Nat) : Nat → Nat → Except Fault (List Node)
  | 0, _ => .ok []
  | fuel + 1, off =>
    if off < size then
      if size < off + 16 then .error (.ub "cleanup node read past the end of the block")
      else
        match cells off with
        | none => .error (.ub "no cleanup node")
        | some n => do
          let rest ← readNodesAux cells size fuel (off + 16)
          return n :: rest
    else .ok []

/-- The loop of `Block::run_cleanups`, arena/arena.hpp:296-306, from offset `off`. -/
def readNodes (cells : Nat → Option Node) (off size : Nat) : Except Fault (List Node) :=
  readNodesAux cells size (size - off) off

/-- `Block::run_cleanups`, arena/arena.hpp:296-306. -/
def Block.runCleanups (b : Block) : Except Fault (List Node) := readNodes b.cells b.limit b.size

/-- `Block::cleanups`, arena/arena.hpp:308-312. -/
def Block.cleanups (dbg : Bool) (b : Block) : Except Fault Nat := do
  let space := sub64 b.size b.limit
  assertDbg dbg (decide (space % kCleanupNodeSize = 0))
    "cleanups space should aligned to sizeof (CleanupNode)"
  return space / kCleanupNodeSize

/-- `Block::Reset`, arena/arena.cc:128-133: the nodes run and the rewound block. -/
def Block.reset (b : Block) : Except Fault (List Node × Block) := do
  let ns ← b.runCleanups
  return (ns, { b with pos := kBlockHeaderSize, limit := b.size })

/-- The size chosen by `Arena::newBlock`, arena/arena.cc:62-96. `hasPrev` is `prev_block != nullptr`;
`AlignUp` with a zero `normal_block_size` divides by zero. -/
def newBlockSize (cfg : Cfg) (minBytes : Nat) (hasPrev : Bool) : Except Fault Nat := do
  let required := add64 minBytes kBlockHeaderSize
  let size ←
    if hasPrev then
      if required ≤ cfg.normal then .ok cfg.normal
      else if required ≤ cfg.huge / kThresholdHuge then alignUp minBytes cfg.normal
      else if required > cfg.huge / kThresholdHuge ∧ required ≤ cfg.huge then .ok cfg.huge
      else .ok 0
    else .ok cfg.init
  return max size required

/-- `Arena::newBlock`, arena/arena.cc:61-123, together with the assignment of `_last_block` done by
both callers (arena/arena.cc:142-147, arena/arena.hpp:576-579).  Returns `false` when `block_alloc`
returned `nullptr`.  An overflowing `min_bytes` is only logged (lines 65-69).  Placement of the
32-byte header in a smaller block is undefined behaviour. -/
def newBlock (cfg : Cfg) (st : St) (minBytes : Nat) : Except Fault (Bool × St) := do
  let st := if minBytes > M64 - 1 - kBlockHeaderSize then st.emit .log else st
  let size ← newBlockSize cfg minBytes (!st.blocks.isEmpty)
  let mem := cfg.blockAlloc st.trace size
  let st := st.emit (.blockAlloc size mem)
  match mem with
  | none => return (false, st)
  | some p =>
    let st := st.emit (.newblock st.blocks.length size st.cookie)
    if size < kBlockHeaderSize then .error (.ub "block header written outside the block")
    else
      return (true, { st with blocks := Block.mk' p size :: st.blocks,
                              space := add64 st.space size })

/-- `Arena::need_create_new_block`, arena/arena.hpp:566-569. -/
def needCreateNewBlock (cfg : Cfg) (st : St) (need alignment : Nat) : Except Fault Bool :=
  match st.blocks with
  | [] => .ok true
  | b :: _ => do
    let ok ← b.hasEnoughSpace cfg.dbg need alignment
    return !ok

/-- `Arena::allocateAligned`, arena/arena.cc:139-154. -/
def allocateAligned (cfg : Cfg) (st : St) (bytes alignment : Nat) : Except Fault (Option Nat × St) := do
  let needed := alignUpTo8 bytes
  let need ← needCreateNewBlock cfg st needed alignment
  let (ok, st) ← if need then newBlock cfg st needed else .ok (true, st)
  if !ok then return (none, st)
  match st.blocks with
  | [] => .error (.ub "null _last_block")
  | b :: rest =>
    let (result, b) ← b.alloc cfg.dbg needed alignment
    assertDbg cfg.dbg (decide (result % 8 = 0)) "alloc result should aligned kByteSize"
    return (some result, { st with blocks := b :: rest })

/-- `Arena::addCleanup`, arena/arena.hpp:574-585. -/
def addCleanup (cfg : Cfg) (st : St) (n : Node) : Except Fault (Bool × St) := do
  let need ← needCreateNewBlock cfg st kCleanupNodeSize kByteSize
  let (ok, st) ← if need then newBlock cfg st kCleanupNodeSize else .ok (true, st)
  if !ok then return (false, st)
  match st.blocks with
  | [] => .error (.ub "null _last_block")
  | b :: rest =>
    let b ← b.registerCleanup cfg.dbg n
    return (true, { st with blocks := b :: rest })

/-- Does `[p, p+n)` meet `[q, q+m)`? -/
def overlaps (p n q m : Nat) : Bool := decide (p < q + m ∧ q < p + n)

/-- Effect of a client (or of a constructor run by `Create`) writing the bytes `[p, p+n)`.  Bytes
outside every block, or inside a block header, make the arena's behaviour undefined; bytes of a
cleanup node destroy that node. -/
def memWrite (st : St) (p n : Nat) : Except Fault St :=
  if n = 0 then .ok st
  else if st.blocks.any (fun b => decide (b.base ≤ p ∧ p + n ≤ b.base + b.size)) then
    if st.blocks.any (fun b => overlaps p n b.base kBlockHeaderSize) then
      .error (.ub "block header overwritten")
    else
      .ok { st with
        blocks := st.blocks.map (fun b =>
          { b with cells := fun o => if overlaps p n (b.base + o) 16 then none else b.cells o }) }
  else .error (.ub "write outside the arena")

/-- `Arena::AllocateAligned`, arena/arena.hpp:482-490. -/
def AllocateAligned (cfg : Cfg) (st : St) (bytes alignment : Nat) : Except Fault (Option Nat × St) := do
  let (r, st) ← allocateAligned cfg st bytes alignment
  match r with
  | none => return (none, st)
  | some p => return (some p, st.emit (.allocated bytes st.cookie))

/-- `Arena::Create<T>`, arena/arena.hpp:430-444, with `RegisterDestructor` (lines 594-611):
`size = sizeof(T)`, `dtor = some f` when the destructor is not skippable.  `Construct`
(lines 678-687) writes `sizeof(T)` bytes; here the constructor does not call the arena, for others see
`createBegin`. -/
def Create (cfg : Cfg) (st : St) (size : Nat) (dtor : Option Nat) : Except Fault (Option Nat × St) := do
  let (r, st) ← allocateAligned cfg st size kByteSize
  match r with
  | none => return (none, st)
  | some p =>
    let st ← memWrite st p size
    let (ok, st) ← match dtor with
      | none => .ok (true, st)
      | some f => addCleanup cfg st { element := p, cleanup := f }
    if !ok then return (none, st)
    return (some p, st.emit (.allocated size st.cookie))

/-- The first half of `Arena::Create<T>`, arena/arena.hpp:430-434 with `Construct` (lines 678-687): the memory is
obtained and the constructor starts.  For constructors that call the arena themselves: such a `Create` is
`createBegin`, the calls the constructor makes, `createEnd` (`create_split`, `createWith`). -/
def createBegin (cfg : Cfg) (st : St) (size : Nat) : Except Fault (Option Nat × St) := do
  let (r, st) ← allocateAligned cfg st size kByteSize
  match r with
  | none => return (none, st)
  | some p =>
    let st ← memWrite st p size
    return (some p, st)

/-- The second half of `Arena::Create<T>`, arena/arena.hpp:435-444, after the constructor returned: the destructor is
registered (`RegisterDestructor`, lines 594-611) and the hook called; `false`: `nullptr` is returned. -/
def createEnd (cfg : Cfg) (st : St) (p size : Nat) (dtor : Option Nat) : Except Fault (Bool × St) := do
  let (ok, st) ← match dtor with
    | none => .ok (true, st)
    | some f => addCleanup cfg st { element := p, cleanup := f }
  if !ok then return (false, st)
  return (true, st.emit (.allocated size st.cookie))

/-- `Arena::CreateArray<T>`, arena/arena.hpp:452-475: the overflow of `sizeof(T) * num` is only
logged; then `num` objects are constructed. -/
def CreateArray (cfg : Cfg) (st : St) (size num : Nat) : Except Fault (Option Nat × St) := do
  if size = 0 then .error (.ub "sizeof(T) is never 0")
  else
    let st := if num > (M64 - 1) / size then st.emit .log else st
    let bytes := mul64 size num
    let (r, st) ← allocateAligned cfg st bytes kByteSize
    match r with
    | none => return (none, st)
    | some p =>
      let st ← memWrite st p (size * num)
      return (some p, st.emit (.allocated bytes st.cookie))

/-- `Arena::AllocateAlignedAndAddCleanup`, arena/arena.hpp:496-509; `element = none` is `nullptr`. -/
def AllocateAlignedAndAddCleanup (cfg : Cfg) (st : St) (bytes fn : Nat) (element : Option Nat) :
    Except Fault (Option Nat × St) := do
  let (r, st) ← allocateAligned cfg st bytes kByteSize
  match r with
  | none => return (none, st)
  | some p =>
    let (ok, st) ← addCleanup cfg st { element := element.getD p, cleanup := fn }
    if !ok then return (none, st)
    return (some p, st.emit (.allocated bytes st.cookie))

/-- `Arena::Own`, arena/arena.hpp:386-388. -/
def Own (cfg : Cfg) (st : St) (obj fn : Nat) : Except Fault (Bool × St) :=
  addCleanup cfg st { element := obj, cleanup := fn }

/-- `memory_resource::do_allocate`, arena/arena.hpp:330-332. -/
def pmrAllocate (cfg : Cfg) (st : St) (bytes alignment : Nat) : Except Fault (Option Nat × St) :=
  allocateAligned cfg st bytes (max kByteSize alignment)

/-- The events of running a list of cleanup nodes in order (trace is newest first). -/
def emitCleanups (tr : List Ev) (ns : List Node) : List Ev :=
  ns.foldl (fun t n => .cleanup n :: t) tr

/-- `Arena::free_all_blocks`, arena/arena.hpp:616-632: walk the chain, returning the summed remains
and the trace. -/
def freeAllBlocks (dbg : Bool) : List Block → Nat → List Ev → Except Fault (Nat × List Ev)
  | [], remain, tr => .ok (remain, tr)
  | b :: rest, remain, tr => do
    let r ← b.remain dbg
    let ns ← b.runCleanups
    freeAllBlocks dbg rest (add64 remain r) (.dealloc b.base :: emitCleanups tr ns)

/-- `Arena::free_blocks_except_head`, arena/arena.hpp:637-657: returns the summed remains, the block
kept and the trace.  With no block at all the debug build asserts and the release build
dereferences null. -/
def freeBlocksExceptHead (dbg : Bool) : List Block → Nat → List Ev → Except Fault (Nat × Block × List Ev)
  | [], _, _ => do
    assertDbg dbg false "curr should not be nullptr"
    .error (.ub "null block dereferenced")
  | [b], remain, tr => do
    let r ← b.remain dbg
    return (add64 remain r, b, tr)
  | b :: rest, remain, tr => do
    let r ← b.remain dbg
    let ns ← b.runCleanups
    freeBlocksExceptHead dbg rest (add64 remain r) (.dealloc b.base :: emitCleanups tr ns)

/-- `Arena::Reset`, arena/arena.hpp:396-407. -/
def Reset (cfg : Cfg) (st : St) : Except Fault (Nat × St) := do
  let (waste, head, tr) ← freeBlocksExceptHead cfg.dbg st.blocks 0 st.trace
  let tr := .reset st.space waste st.cookie :: tr
  let resetSize := st.space
  let (ns, head') ← head.reset
  return (resetSize, { st with blocks := [head'], space := head.size, trace := emitCleanups tr ns })

/-- `Arena::SpaceRemains`, arena/arena.hpp:420-422; null without a block. -/
def SpaceRemains (cfg : Cfg) (st : St) : Except Fault Nat :=
  match st.blocks with
  | [] => .error (.ub "null block dereferenced")
  | b :: _ => b.remain cfg.dbg

/-- `Arena::cleanups`, arena/arena.hpp:525-533. -/
def cleanupsCount (dbg : Bool) : List Block → Except Fault Nat
  | [] => .ok 0
  | b :: rest => do
    let n ← b.cleanups dbg
    let m ← cleanupsCount dbg rest
    return add64 n m

/-- `Arena::~Arena`, arena/arena.hpp:369-378: the final trace. -/
def destroy (cfg : Cfg) (st : St) : Except Fault (List Ev) := do
  let (waste, tr) ← freeAllBlocks cfg.dbg st.blocks 0 st.trace
  return .destroyed st.space waste st.cookie :: tr

/-- `ArenaContainStatus`, arena/arena.hpp:122-129. -/
inductive Status where
  | notContain | blockHeader | blockCleanup | blockUsed | blockUnUsed
  deriving DecidableEq, Repr

/-- `Arena::check`, arena/arena.cc:156-175.  Offsets are `int64_t` differences of addresses. -/
def check : List Block → Nat → Status
  | [], _ => .notContain
  | b :: rest, ptr =>
    let offset : Int := (ptr : Int) - (b.base : Int)
    if 0 ≤ offset ∧ offset < kBlockHeaderSize then .blockHeader
    else if (kBlockHeaderSize : Int) ≤ offset ∧ offset < b.pos then .blockUsed
    else if (b.pos : Int) ≤ offset ∧ offset < b.limit then .blockUnUsed
    else if (b.limit : Int) ≤ offset ∧ offset < b.size then .blockCleanup
    else check rest ptr

/-- The arena right after construction, arena/arena.hpp:353-363 and `init` (lines 540-550):
`cookie` is what `on_arena_init` returned. -/
def mkArena (cookie : Option Nat) : St :=
  { blocks := [], cookie := cookie, space := 0, trace := [.init] }

/-- The public operations, plus `write`: the client writes `[p, p+n)`, and the halves of a `Create` whose constructor
calls the arena.  `pmrDeallocate` is
`memory_resource::do_deallocate` (arena/arena.hpp:334-335), which does nothing. -/
inductive Op where
  | allocate (bytes alignment : Nat)
  | create (size : Nat) (dtor : Option Nat)
  | createArray (size num : Nat)
  | createBegin (size : Nat)
  | createEnd (p size : Nat) (dtor : Option Nat)
  | allocateCleanup (bytes fn : Nat) (element : Option Nat)
  | own (obj fn : Nat)
  | pmrAllocate (bytes alignment : Nat)
  | pmrDeallocate (p bytes alignment : Nat)
  | reset
  | write (p n : Nat)
  deriving DecidableEq, Repr

/-- What an operation returns to the caller. -/
inductive Ret where
  | ptr (p : Option Nat)
  | bool (b : Bool)
  | num (n : Nat)
  | unit
  deriving DecidableEq, Repr

/-- One API call. -/
def step (cfg : Cfg) (st : St) : Op → Except Fault (Ret × St)
  | .allocate b a => do let (r, st) ← AllocateAligned cfg st b a; return (.ptr r, st)
  | .create s d => do let (r, st) ← Create cfg st s d; return (.ptr r, st)
  | .createArray s n => do let (r, st) ← CreateArray cfg st s n; return (.ptr r, st)
  | .createBegin s => do let (r, st) ← Arena.createBegin cfg st s; return (.ptr r, st)
  | .createEnd p s d => do let (r, st) ← Arena.createEnd cfg st p s d; return (.bool r, st)
  | .allocateCleanup b f e => do
    let (r, st) ← AllocateAlignedAndAddCleanup cfg st b f e; return (.ptr r, st)
  | .own o f => do let (r, st) ← Own cfg st o f; return (.bool r, st)
  | .pmrAllocate b a => do let (r, st) ← pmrAllocate cfg st b a; return (.ptr r, st)
  | .pmrDeallocate _ _ _ => .ok (.unit, st)
  | .reset => do let (n, st) ← Reset cfg st; return (.num n, st)
  | .write p n => do let st ← memWrite st p n; return (.unit, st)

/-- A run of API calls from a state; the history pairs each call with its result (oldest first). -/
def run (cfg : Cfg) (st : St) : List Op → Except Fault (List (Op × Ret) × St)
  | [] => .ok ([], st)
  | op :: ops => do
    let (r, st) ← step cfg st op
    let (h, st) ← run cfg st ops
    return ((op, r) :: h, st)

end Verif.Arena
