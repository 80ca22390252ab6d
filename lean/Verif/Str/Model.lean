import Verif.Str.Search

/-!
Model of the storage of the strings: `string_core` (string/string.hpp:322-1012) and
`arena_string_core` (string/arena_string.hpp:70-850), on a heap of blocks.

The two cores are one template body up to a few differences, so there is one model with a flag
`arena`; each definition cites both files where they differ.

An action runs on the whole memory and yields a result or a fault; the state reached is kept also
when it faults, so that exceptions can be studied.  Sources of `append`, `assign`, `insert` and
`replace` are pointers, so that sources inside the string itself are covered.
-/

namespace Verif.Str

/-- The memory of one character; `none` is an indeterminate value. -/
abbrev Cell := Option Ch

/-- Names of string objects: those of the caller, and the local ones of the member functions. -/
inductive Obj where
  | user (n : Nat)
  | tmp (n : Nat)
  deriving DecidableEq, Repr

/-- The union of string.hpp:667-672 and arena_string.hpp:469-478 after decoding, which
`Layout.small_round_trip` and `Layout.ml_round_trip` justify.  `small` has the `24 / sizeof(Char)`
characters of `small_`, the last of which stores `maxSmallSize - size`.  `ml` has the block `data_`
points to, `size_`, the capacity and the category (`true` is large). -/
inductive Core where
  | small (cells : List Cell)
  | ml (data size cap : Nat) (large : Bool)
  deriving DecidableEq, Repr

/-- A string object: the core and its allocator (arena_string.hpp:468); 0 is the default
`polymorphic_allocator`, other numbers are arenas.  Strings on `std::allocator` have 0. -/
structure Ob where
  core : Core
  al : Nat
  deriving DecidableEq, Repr

/-- A block: for `RefCounted` blocks (string.hpp:557-561) the reference count, for others `none`; the
allocator it came from; the characters. -/
structure Blk where
  rc : Option Nat
  src : Nat
  cells : List Cell
  deriving DecidableEq, Repr

/-- The memory: blocks in use, number of allocations asked for so far (which also names the next
block), the strings alive, and two flags for the statements: whether an allocation was refused, and
whether a `realloc` was refused (after which `checkedRealloc` has freed the buffer). -/
structure St where
  heap : Nat → Option Blk
  next : Nat
  vars : Obj → Option Ob
  refused : Bool
  lost : Bool

/-- Nothing allocated, no strings. -/
def St.init : St := ⟨fun _ => none, 0, fun _ => none, false, false⟩

/-- `sizeof(Char)`, the build mode, which of the two cores, and the answers of the allocator, which
may depend on the number of the request and of bytes. -/
structure Cfg where
  w : Nat
  dbg : Bool
  arena : Bool
  malloc : Nat → Nat → Bool

/-- `maxSmallSize`, string.hpp:680. -/
def Cfg.ms (cfg : Cfg) : Nat := 23 / cfg.w

/-- `maxMediumSize`, string.hpp:681. -/
def Cfg.mm (cfg : Cfg) : Nat := 254 / cfg.w

/-- Whether small strings are kept inside the object: `FBSTRING_DISABLE_SSO` (string.hpp:150-154) is
set in debug builds; `arena_string_core` does not use it. -/
def Cfg.sso (cfg : Cfg) : Bool := cfg.arena || !cfg.dbg

/-- `RefCounted::getDataOffset()`, string.hpp:563: the characters follow an 8-byte count. -/
def hdrBytes (hdr : Bool) : Nat := if hdr then 8 else 0

/-- What is assumed of the environment: characters of 1, 2 or 4 bytes, and no allocator hands out
2^62 bytes. -/
structure Cfg.Ok (cfg : Cfg) : Prop where
  w : cfg.w = 1 ∨ cfg.w = 2 ∨ cfg.w = 4
  malloc : ∀ k n, 4611686018427387904 ≤ n → cfg.malloc k n = false

/-- Actions. -/
def M (β : Type) : Type := St → Except Fault β × St

namespace M

variable {β γ : Type}

/-- Return a value. -/
protected def pure (b : β) : M β := fun s => (.ok b, s)

/-- Sequence; a fault ends the action. -/
protected def bind (x : M β) (f : β → M γ) : M γ := fun s =>
  match x s with
  | (.ok b, s') => f b s'
  | (.error e, s') => (.error e, s')

instance : Monad M where
  pure := M.pure
  bind := M.bind

/-- End with a fault. -/
def fail (e : Fault) : M β := fun s => (.error e, s)

/-- Undefined behaviour. -/
def ub (what : String) : M β := fail (.ub what)

/-- `throw`. -/
def raise (what : String) : M β := fail (.throw what)

end M

open M

variable {β : Type}

/-- `Assert`, assert_config.hpp:44. -/
def assert (cfg : Cfg) (c : Bool) (msg : String) : M Unit :=
  if cfg.dbg && !c then fail (.assertFail msg) else pure ()

/-- `if (c) x;` -/
def doIf (c : Bool) (x : M Unit) : M Unit := if c then x else pure ()

/-- A `noexcept` function: an exception leaving it calls `std::terminate`. -/
def noexcept (x : M β) : M β := fun s =>
  match x s with
  | (.error (.throw _), s') => (.error (.throw "terminate"), s')
  | r => r

/-- `noexcept(c)`. -/
def noexceptIf (c : Bool) (x : M β) : M β := if c then noexcept x else x

/-- Update at one point. -/
def upd {κ ν : Type} [DecidableEq κ] (h : κ → ν) (k : κ) (x : ν) : κ → ν :=
  fun i => if i = k then x else h i

/-! ### Memory -/

/-- A pointer to a character: into memory of the caller holding `mem`, into a block, or into the
object `o` itself. -/
inductive Ptr where
  | ext (mem : List Ch) (off : Nat)
  | blk (b : Nat) (off : Nat)
  | inl (o : Obj) (off : Nat)
  deriving DecidableEq, Repr

/-- Pointer arithmetic. -/
def Ptr.add : Ptr → Nat → Ptr
  | .ext m i, n => .ext m (i + n)
  | .blk b i, n => .blk b (i + n)
  | .inl o i, n => .inl o (i + n)

/-- Offset in the array pointed into. -/
def Ptr.off : Ptr → Nat
  | .ext _ i | .blk _ i | .inl _ i => i

/-- Whether two pointers point into the same array (memory of the caller is never that of a
string). -/
def Ptr.same : Ptr → Ptr → Bool
  | .blk b _, .blk b' _ => b == b'
  | .inl o _, .inl o' _ => o == o'
  | _, _ => false

/-- `le(q, p) && !le(q + n, p)`, string.hpp:1856-1863: pointers to different arrays are never
between those of another one in the total order of `std::less_equal`. -/
def Ptr.within (p q : Ptr) (n : Nat) : Bool := p.same q && decide (q.off ≤ p.off) && decide (p.off < q.off + n)

/-- Overwrite part of an array. -/
def put (l : List Cell) (i : Nat) (cs : List Cell) : List Cell :=
  l.take i ++ cs ++ l.drop (i + cs.length)

/-- The characters `p[0..n)`. -/
def readCells (p : Ptr) (n : Nat) : M (List Cell) := fun s =>
  match p with
  | .ext m i =>
    if i + n ≤ m.length then (.ok (((m.drop i).take n).map some), s)
    else (.error (.ub "read outside the caller's memory"), s)
  | .blk b i =>
    match s.heap b with
    | some B =>
      if i + n ≤ B.cells.length then (.ok ((B.cells.drop i).take n), s)
      else (.error (.ub "read outside a block"), s)
    | none => (.error (.ub "read of a freed block"), s)
  | .inl o i =>
    match s.vars o with
    | some ⟨.small cells, _⟩ =>
      if i + n ≤ cells.length then (.ok ((cells.drop i).take n), s)
      else (.error (.ub "read outside a string object"), s)
    | _ => (.error (.ub "stale pointer into a string object"), s)

/-- Write `cs` to `p[0..cs.length)`. -/
def writeCells (p : Ptr) (cs : List Cell) : M Unit := fun s =>
  match p with
  | .ext _ _ => (.error (.ub "write to the caller's memory"), s)
  | .blk b i =>
    match s.heap b with
    | some B =>
      if i + cs.length ≤ B.cells.length then
        (.ok (), { s with heap := upd s.heap b (some { B with cells := put B.cells i cs }) })
      else (.error (.ub "write outside a block"), s)
    | none => (.error (.ub "write to a freed block"), s)
  | .inl o i =>
    match s.vars o with
    | some ⟨.small cells, al⟩ =>
      if i + cs.length ≤ cells.length then
        (.ok (), { s with vars := upd s.vars o (some ⟨.small (put cells i cs), al⟩) })
      else (.error (.ub "write outside a string object"), s)
    | _ => (.error (.ub "stale pointer into a string object"), s)

/-- Number of characters from `p` to the end of its array. -/
def room (p : Ptr) : M Nat := fun s =>
  match p with
  | .ext m i => (.ok (m.length - i), s)
  | .blk b i => match s.heap b with
    | some B => (.ok (B.cells.length - i), s)
    | none => (.error (.ub "pointer into a freed block"), s)
  | .inl o i => match s.vars o with
    | some ⟨.small cells, _⟩ => (.ok (cells.length - i), s)
    | _ => (.error (.ub "stale pointer into a string object"), s)

/-- `podFill(p, p + n, c)`, string.hpp:167-189.  Forming `p + n` outside the array is undefined
already; a debug build would usually stop at the `Assert`. -/
def podFill (p : Ptr) (n : Nat) (c : Ch) : M Unit := do
  let r ← room p
  if n ≤ r then writeCells p (List.replicate n (some c)) else ub "fill outside the array"

/-- `podCopy(p, p + n, q)`, string.hpp:200-208: overlap is an `Assert`, and undefined in `memcpy`. -/
def podCopy (cfg : Cfg) (p : Ptr) (n : Nat) (q : Ptr) : M Unit := do
  if p.same q && !(decide (p.off + n ≤ q.off) || decide (q.off + n ≤ p.off)) then
    if cfg.dbg then fail (.assertFail "podCopy: overlap") else ub "memcpy: overlap"
  else
    let cs ← readCells p n
    writeCells q cs

/-- `podMove(p, p + n, q)`, string.hpp:214-220; also `std::copy(p, p + n, q)` and `copy_n`
(string.hpp:158-165), whose destination is in the code before the source or disjoint from it. -/
def podMove (p : Ptr) (n : Nat) (q : Ptr) : M Unit := do
  let cs ← readCells p n
  writeCells q cs

/-! ### Allocation -/

/-- `malloc(bytes)` (string.hpp:95-101) or `allocator_.allocate(bytes)` (arena_string.hpp:496-508,
386-396), with `hdr` for a `RefCounted` block, whose count is set to 1 (string.hpp:597,
arena_string.hpp:391).  Debug builds refuse to allocate from the default `polymorphic_allocator`
(arena_string.hpp:380-384, 497-501).  Simplifications: a block has room for as many characters as
fit in the bytes asked for; `allocate` of a wide-character allocator is asked for more. -/
def alloc (cfg : Cfg) (al : Nat) (hdr : Bool) (bytes : Nat) : M Nat := fun s =>
  if cfg.arena && cfg.dbg && al == 0 then (.error (.throw "logic_error"), s) else
  if cfg.malloc s.next bytes then
    (.ok s.next, { s with
      heap := upd s.heap s.next (some ⟨if hdr then some 1 else none, al,
        List.replicate ((bytes - hdrBytes hdr) / cfg.w) none⟩)
      next := s.next + 1 })
  else (.error (.throw "bad_alloc"), { s with next := s.next + 1, refused := true })

/-- `free(p)`, or `deallocate` on an allocator: on an arena it does nothing, on the default resource
it frees, and passing it a block of an arena is undefined. -/
def dealloc (cfg : Cfg) (al : Nat) (b : Nat) : M Unit := fun s =>
  match s.heap b with
  | none => (.error (.ub "double free"), s)
  | some B =>
    if cfg.arena && al != 0 then (.ok (), s) else
    if B.src == al then (.ok (), { s with heap := upd s.heap b none })
    else (.error (.ub "deallocate with the wrong resource"), s)

/-- `RefCounted::refs`, string.hpp:571. -/
def refs (b : Nat) : M Nat := fun s =>
  match s.heap b with
  | some ⟨some n, _, _⟩ => (.ok n, s)
  | _ => (.error (.ub "reference count of a block that has none"), s)

/-- Set the reference count. -/
def setRefs (b n : Nat) : M Unit := fun s =>
  match s.heap b with
  | some ⟨some _, src, cells⟩ => (.ok (), { s with heap := upd s.heap b (some ⟨some n, src, cells⟩) })
  | _ => (.error (.ub "reference count of a block that has none"), s)

/-- `RefCounted::incrementRefs`, string.hpp:574. -/
def incrementRefs (b : Nat) : M Unit := do
  let n ← refs b
  setRefs b (n + 1)

/-- `RefCounted::decrementRefs`, string.hpp:576-584, arena_string.hpp:357-369. -/
def decrementRefs (cfg : Cfg) (al : Nat) (b : Nat) : M Unit := do
  let n ← refs b
  assert cfg (decide (0 < n)) "decrementRefs"
  if n = 0 then ub "reference count wraps" else do
    setRefs b (n - 1)
    doIf (n == 1) (dealloc cfg al b)

/-- A request whose number of bytes does not fit in 64 bits, string.hpp:588-593. -/
def lengthError : M β := fun s => (.error (.throw "length_error"), { s with refused := true })

/-- `(size + 1) * sizeof(Char) + getDataOffset()` with the overflow checks, string.hpp:587-593 and
616-622, arena_string.hpp:332-342. -/
def largeBytes (cfg : Cfg) (size : Nat) : M Nat :=
  if size + 1 < M64 then
    if (size + 1) * cfg.w + 8 < M64 then pure ((size + 1) * cfg.w + 8) else lengthError
  else lengthError

/-- `RefCounted::create(&size)`, string.hpp:586-600, arena_string.hpp:371-397; yields the block and
the effective capacity. -/
def create (cfg : Cfg) (al : Nat) (size : Nat) : M (Nat × Nat) := do
  let bytes ← largeBytes cfg size
  let b ← alloc cfg al true bytes
  pure (b, (bytes - 8) / cfg.w - 1)

/-- `memcpy` of a block into a new one: `k` characters, and the count if there is one. -/
def copyBlk (a b k : Nat) : M Unit := do
  let cs ← readCells (.blk a 0) k
  writeCells (.blk b 0) cs

/-- `checkedRealloc(p, bytes)`, string.hpp:103-110.  Simplification: a successful `realloc` always
moves the block, so that pointers kept to the old one dangle. -/
def checkedRealloc (cfg : Cfg) (a : Nat) (hdr : Bool) (bytes : Nat) : M Nat := fun s =>
  match s.heap a with
  | none => (.error (.ub "realloc of a freed block"), s)
  | some A =>
    if cfg.malloc s.next bytes then
      let n := (bytes - hdrBytes hdr) / cfg.w
      (.ok s.next, { s with
        heap := upd (upd s.heap a none) s.next (some ⟨A.rc, A.src,
          (A.cells.take n) ++ List.replicate (n - A.cells.length) none⟩)
        next := s.next + 1 })
    else (.error (.throw "bad_alloc"), { s with
      heap := upd s.heap a none, next := s.next + 1, refused := true, lost := true })

/-- `smartRealloc(p, currentSize, currentCapacity, newCapacity)`, string.hpp:122-140, and
`arena_smartRealloc`, arena_string.hpp:44-68.  `memcpy` copies a count along with the characters; it
is 1 (Assert of string.hpp:626), which is what `alloc` put there. -/
def smartRealloc (cfg : Cfg) (al : Nat) (a : Nat) (hdr : Bool) (cur cap new : Nat) : M Nat := do
  assert cfg (decide (cur ≤ cap) && decide (cap < new)) "smartRealloc"
  if cfg.arena then do
    let b ← alloc cfg al hdr new
    copyBlk a b ((cur - hdrBytes hdr) / cfg.w)
    doIf (al == 0) (dealloc cfg al a)
    pure b
  else if mul64 (sub64 cap cur) 2 > cur then do
    let b ← alloc cfg al hdr new
    copyBlk a b ((cur - hdrBytes hdr) / cfg.w)
    dealloc cfg al a
    pure b
  else checkedRealloc cfg a hdr new

/-! ### Objects -/

/-- The object `v`. -/
def getOb (v : Obj) : M Ob := fun s =>
  match s.vars v with
  | some o => (.ok o, s)
  | none => (.error (.ub "use of a dead string"), s)

/-- Set the core of `v`. -/
def setCore (v : Obj) (c : Core) : M Unit := fun s =>
  match s.vars v with
  | some o => (.ok (), { s with vars := upd s.vars v (some ⟨c, o.al⟩) })
  | none => (.error (.ub "use of a dead string"), s)

/-- Begin the construction of `v`: the union is zeroed (`bytes_`, string.hpp:669).  Debug builds
throw for an `arena_string` with the default allocator (arena_string.hpp:79-84, 147-154). -/
def newOb (cfg : Cfg) (v : Obj) (al : Nat) : M Unit := fun s =>
  match s.vars v with
  | some _ => (.error (.ub "the object exists already"), s)
  | none =>
    if cfg.arena && cfg.dbg && al == 0 then (.error (.throw "logic_error"), s) else
    (.ok (), { s with vars := upd s.vars v (some ⟨.small (List.replicate (cfg.ms + 1) (some 0)), al⟩) })

/-- Remove the object. -/
def dropOb (v : Obj) : M Unit := fun s => (.ok (), { s with vars := upd s.vars v none })

/-- The body of a constructor of `v`: when it throws the object never existed. -/
def constructing (v : Obj) (body : M Unit) : M Unit := fun s =>
  match body s with
  | (.error (.throw w), s') => (.error (.throw w), { s' with vars := upd s'.vars v none })
  | r => r

/-- A constructor of `v`. -/
def construct (cfg : Cfg) (v : Obj) (al : Nat) (body : M Unit) : M Unit := do
  newOb cfg v al
  constructing v body

/-- `size()` of a core, string.hpp:497-510, 689-695: for small strings from the last character. -/
def Core.size? (cfg : Cfg) : Core → Option Nat
  | .small cells =>
    match cells[cfg.ms]? with
    | some (some t) => if t ≤ cfg.ms then some (cfg.ms - t) else none
    | _ => none
  | .ml _ n _ _ => some n

/-- `size()`, string.hpp:497-510. -/
def size (cfg : Cfg) (v : Obj) : M Nat := do
  let o ← getOb v
  match o.core.size? cfg with
  | some n => pure n
  | none => ub "corrupt representation"

/-- `capacity()`, string.hpp:512-531. -/
def capacity (cfg : Cfg) (v : Obj) : M Nat := do
  let o ← getOb v
  match o.core with
  | .small _ => pure cfg.ms
  | .ml _ _ cap false => pure cap
  | .ml d n cap true => do
    let r ← refs d
    if r > 1 then pure n else pure cap

/-- Where the characters of a core are, `c_str()` string.hpp:458-463. -/
def Core.ptr (v : Obj) : Core → Ptr
  | .small _ => .inl v 0
  | .ml d _ _ _ => .blk d 0

/-- `data()`, `c_str()`, const or not, string.hpp:442-444, 458-463, 538-543. -/
def dataPtr (v : Obj) : M Ptr := do
  let o ← getOb v
  pure (o.core.ptr v)

/-- `isShared()`, string.hpp:533-535. -/
def isShared (v : Obj) : M Bool := do
  let o ← getOb v
  match o.core with
  | .ml d _ _ true => do
    let r ← refs d
    pure (decide (1 < r))
  | _ => pure false

/-- `setSmallSize(n)`, string.hpp:697-708; when the object was not small its other characters are
bytes of the old pointer, size and capacity. -/
def setSmallSize (cfg : Cfg) (v : Obj) (n : Nat) : M Unit := do
  assert cfg (decide (n ≤ cfg.ms)) "setSmallSize"
  let o ← getOb v
  let cells := match o.core with
    | .small cells => cells
    | .ml _ _ _ _ => List.replicate (cfg.ms + 1) none
  if n ≤ cfg.ms then
    setCore v (.small ((cells.set cfg.ms (some (cfg.ms - n))).set n (some 0)))
  else ub "setSmallSize outside the object"

/-- `~string_core()`, string.hpp:393-403, 547-555; `~arena_string_core()`, arena_string.hpp:171-180,
304-325 (only strings on the default allocator give anything back). -/
def release (cfg : Cfg) (v : Obj) : M Unit := do
  let o ← getOb v
  match o.core with
  | .small _ => pure ()
  | .ml d _ _ large =>
    if cfg.arena && o.al != 0 then pure () else
    if large then decrementRefs cfg o.al d else dealloc cfg o.al d

/-- The end of the life of `v`. -/
def destroy (cfg : Cfg) (v : Obj) : M Unit := do
  release cfg v
  dropOb v

/-- A local object `t`, constructed before `body`: destroyed when the scope is left, normally or by an
exception. -/
def withTemp (cfg : Cfg) (t : Obj) (body : M β) : M β := fun s =>
  match body s with
  | (.ok r, s') =>
    match destroy cfg t s' with
    | (.ok _, s'') => (.ok r, s'')
    | (.error e, s'') => (.error e, s'')
  | (.error (.throw w), s') =>
    match destroy cfg t s' with
    | (.ok _, s'') => (.error (.throw w), s'')
    | (.error e, s'') => (.error e, s'')
  | r => r

/-- `swap`, string.hpp:432-439, arena_string.hpp:186-193: the unions are exchanged, the allocators are
not. -/
def swap (u v : Obj) : M Unit := do
  let a ← getOb u
  let b ← getOb v
  setCore u b.core
  setCore v a.core

/-! ### Constructors of the core -/

/-- The default constructor, string.hpp:329-331, arena_string.hpp:78-91. -/
def initEmpty (cfg : Cfg) (v : Obj) : M Unit := setSmallSize cfg v 0

/-- `initSmall`, string.hpp:770-814.  The word-wise copy of release builds is in `Layout`; here it is
the copy of `n` characters that it amounts to. -/
def initSmall (cfg : Cfg) (v : Obj) (p : Ptr) (n : Nat) : M Unit := do
  doIf (n != 0) (podCopy cfg p n (.inl v 0))
  setSmallSize cfg v n

/-- `initMedium`, string.hpp:816-829. -/
def initMedium (cfg : Cfg) (v : Obj) (al : Nat) (p : Ptr) (n : Nat) : M Unit := do
  let bytes := mul64 (add64 1 n) cfg.w
  let b ← alloc cfg al false bytes
  doIf (n != 0) (podCopy cfg p n (.blk b 0))
  setCore v (.ml b n (bytes / cfg.w - 1) false)
  writeCells (.blk b n) [some 0]

/-- `initLarge`, string.hpp:831-840, 602-609. -/
def initLarge (cfg : Cfg) (v : Obj) (al : Nat) (p : Ptr) (n : Nat) : M Unit := do
  let (b, cap) ← create cfg al n
  doIf (n != 0) (podCopy cfg p n (.blk b 0))
  setCore v (.ml b n cap true)
  writeCells (.blk b n) [some 0]

/-- The choice of string.hpp:381-387, arena_string.hpp:159-165. -/
def initData (cfg : Cfg) (v : Obj) (al : Nat) (p : Ptr) (n : Nat) : M Unit :=
  if cfg.sso && decide (n ≤ cfg.ms) then initSmall cfg v p n
  else if n ≤ cfg.mm then initMedium cfg v al p n
  else initLarge cfg v al p n

/-- The `Assert`s of string.hpp:388-390. -/
def initCheck (cfg : Cfg) (v : Obj) (p : Ptr) (n : Nat) : M Unit := do
  let k ← size cfg v
  assert cfg (decide (k = n)) "init size"
  if cfg.dbg && n != 0 then do
    let q ← dataPtr v
    let xs ← readCells q n
    let ys ← readCells p n
    assert cfg (decide (xs = ys)) "init data"
  else pure ()

/-- `string_core(data, size)`, string.hpp:378-391, arena_string.hpp:145-169. -/
def ctorData (cfg : Cfg) (v : Obj) (al : Nat) (p : Ptr) (n : Nat) : M Unit :=
  construct cfg v al do
    initData cfg v al p n
    initCheck cfg v p n

/-- The default constructor of a string on allocator `al`. -/
def ctorEmpty (cfg : Cfg) (v : Obj) (al : Nat) : M Unit :=
  construct cfg v al (initEmpty cfg v)

/-- `copyMedium`, string.hpp:746-758. -/
def copyMedium (cfg : Cfg) (v : Obj) (al d n : Nat) : M Unit := do
  let bytes := mul64 (add64 1 n) cfg.w
  let b ← alloc cfg al false bytes
  podCopy cfg (.blk d 0) (n + 1) (.blk b 0)
  setCore v (.ml b n (bytes / cfg.w - 1) false)

/-- `copySmall`, `copyMedium`, `copyLarge`, string.hpp:730-768. -/
def copyCore (cfg : Cfg) (v : Obj) (r : Ob) : M Unit :=
  match r.core with
  | .small cells => setCore v (.small cells)
  | .ml d n _ false => copyMedium cfg v r.al d n
  | .ml d n cap true => do
    setCore v (.ml d n cap true)
    incrementRefs d

/-- The `Assert`s of string.hpp:361-362. -/
def copyCheck (cfg : Cfg) (v u : Obj) : M Unit := do
  let k ← size cfg v
  let n ← size cfg u
  assert cfg (decide (k = n)) "copy size"
  if cfg.dbg then do
    let q ← dataPtr v
    let p ← dataPtr u
    let xs ← readCells q n
    let ys ← readCells p n
    assert cfg (decide (xs = ys)) "copy data"
  else pure ()

/-- The copy constructor, string.hpp:333-363 (`noexcept`), arena_string.hpp:98-126 (not). -/
def ctorCopy (cfg : Cfg) (v u : Obj) : M Unit :=
  noexceptIf (!cfg.arena) do
    let r ← getOb u
    construct cfg v r.al do
      copyCore cfg v r
      copyCheck cfg v u

/-- The move constructor, string.hpp:366-375, arena_string.hpp:131-143. -/
def ctorMove (cfg : Cfg) (v u : Obj) : M Unit := do
  let r ← getOb u
  construct cfg v r.al do
    setCore v r.core
    setSmallSize cfg u 0

/-! ### Growing and shrinking -/

/-- The block of an object with a block. -/
def blockOf (v : Obj) : M Nat := do
  let o ← getOb v
  match o.core with
  | .ml d _ _ _ => pure d
  | .small _ => ub "the string has no block"

/-- `reserveSmall`, string.hpp:918-947, arena_string.hpp:755-785. -/
def reserveSmall (cfg : Cfg) (v : Obj) (n : Nat) : M Unit := do
  let o ← getOb v
  if cfg.sso && decide (n ≤ cfg.ms) then pure ()
  else if n ≤ cfg.mm then do
    let bytes := mul64 (add64 1 n) cfg.w
    let b ← alloc cfg o.al false bytes
    let k ← size cfg v
    podCopy cfg (.inl v 0) (k + 1) (.blk b 0)
    setCore v (.ml b k (bytes / cfg.w - 1) false)
  else do
    let (b, cap) ← create cfg o.al n
    let k ← size cfg v
    podCopy cfg (.inl v 0) (k + 1) (.blk b 0)
    setCore v (.ml b k cap true)
    let c ← capacity cfg v
    assert cfg (decide (cap ≤ c)) "reserveSmall"

/-- `unshare(minCapacity)`, string.hpp:842-856, arena_string.hpp:674-689. -/
def unshare (cfg : Cfg) (v : Obj) (n : Nat) : M Unit := do
  let o ← getOb v
  match o.core with
  | .ml d k cap true => do
    let (b, ecap) ← create cfg o.al (max n cap)
    assert cfg (decide (cap ≤ ecap)) "unshare"
    podCopy cfg (.blk d 0) (k + 1) (.blk b 0)
    decrementRefs cfg o.al d
    setCore v (.ml b k ecap true)
  | _ => if cfg.dbg then fail (.assertFail "unshare") else ub "unshare of a string that is not large"

/-- `RefCounted::reallocate`, string.hpp:611-634, arena_string.hpp:408-435. -/
def reallocate (cfg : Cfg) (al d size cap n : Nat) : M (Nat × Nat) := do
  assert cfg (decide (0 < n) && decide (size < n)) "reallocate: capacity"
  let bytes ← largeBytes cfg n
  let r ← refs d
  assert cfg (decide (r = 1)) "reallocate: shared"
  let b ← smartRealloc cfg al d true (8 + mul64 (add64 size 1) cfg.w) (8 + mul64 (add64 cap 1) cfg.w) bytes
  pure (b, (bytes - 8) / cfg.w - 1)

/-- `reserveLarge`, string.hpp:867-887, arena_string.hpp:700-721. -/
def reserveLarge (cfg : Cfg) (v : Obj) (n : Nat) : M Unit := do
  let o ← getOb v
  match o.core with
  | .ml d k cap true => do
    let r ← refs d
    if r > 1 then unshare cfg v n
    else if n > cap then do
      let (b, ncap) ← reallocate cfg o.al d k cap n
      setCore v (.ml b k ncap true)
      let c ← capacity cfg v
      assert cfg (decide (ncap ≤ c)) "reserveLarge"
    else do
      let c ← capacity cfg v
      assert cfg (decide (n ≤ c)) "reserveLarge"
  | _ => if cfg.dbg then fail (.assertFail "reserveLarge") else ub "reserveLarge of a string that is not large"

/-- The body of the conversion from medium to large with the local `nascent`, string.hpp:906-914.
`nascent.reserve` is `reserveSmall`, `nascent` being empty. -/
def growNascent (cfg : Cfg) (t v : Obj) (d k n : Nat) : M Unit := do
  reserveSmall cfg t n
  let o ← getOb t
  match o.core with
  | .ml b _ cap large => do
    setCore t (.ml b k cap large)
    podCopy cfg (.blk d 0) (k + 1) (.blk b 0)
    swap t v
    let c ← capacity cfg v
    assert cfg (decide (n ≤ c)) "reserveMedium"
  | .small _ => ub "nascent is small"

/-- `reserveMedium`, string.hpp:889-916, arena_string.hpp:723-753. -/
def reserveMedium (cfg : Cfg) (v : Obj) (n : Nat) : M Unit := do
  let o ← getOb v
  match o.core with
  | .ml d k cap false =>
    if n ≤ cap then pure ()
    else if n ≤ cfg.mm then do
      let bytes := mul64 (add64 1 n) cfg.w
      let b ← smartRealloc cfg o.al d false (mul64 (add64 k 1) cfg.w) (mul64 (add64 cap 1) cfg.w) bytes
      setCore v (.ml b k (bytes / cfg.w - 1) false)
    else do
      ctorEmpty cfg (.tmp 0) o.al
      withTemp cfg (.tmp 0) (growNascent cfg (.tmp 0) v d k n)
  | _ => if cfg.dbg then fail (.assertFail "reserveMedium") else ub "reserveMedium of a string that is not medium"

/-- The choice in `reserve`, string.hpp:476-488. -/
def reserveBy (cfg : Cfg) (v : Obj) (n : Nat) : M Unit := do
  let o ← getOb v
  match o.core with
  | .small _ => reserveSmall cfg v n
  | .ml _ _ _ false => reserveMedium cfg v n
  | .ml _ _ _ true => reserveLarge cfg v n

/-- `reserve`, string.hpp:475-491, arena_string.hpp:231-247. -/
def reserveCore (cfg : Cfg) (v : Obj) (n : Nat) : M Unit := do
  reserveBy cfg v n
  let c ← capacity cfg v
  assert cfg (decide (n ≤ c)) "reserve"

/-- The end of `expandNoinit`, string.hpp:972-981. -/
def expandTail (cfg : Cfg) (v : Obj) (old new : Nat) : M Ptr := do
  let c ← capacity cfg v
  assert cfg (decide (new ≤ c)) "expandNoinit: capacity"
  let o ← getOb v
  match o.core with
  | .ml d _ cap large => do
    setCore v (.ml d new cap large)
    writeCells (.blk d new) [some 0]
    pure (.blk d old)
  | .small _ => if cfg.dbg then fail (.assertFail "expandNoinit: category") else ub "expandNoinit of a small string"

/-- `expandNoinit`, string.hpp:949-982, arena_string.hpp:787-817. -/
def expandNoinit (cfg : Cfg) (v : Obj) (delta : Nat) (exp : Bool) : M Ptr := do
  let c ← capacity cfg v
  let old ← size cfg v
  assert cfg (decide (old ≤ c)) "expandNoinit: size"
  let o ← getOb v
  let new := add64 old delta
  match o.core with
  | .small _ =>
    if cfg.sso && decide (new ≤ cfg.ms) then do
      setSmallSize cfg v new
      pure (.inl v old)
    else do
      reserveSmall cfg v (if exp then max new (2 * cfg.ms) else new)
      expandTail cfg v old new
  | .ml _ _ _ _ => do
    doIf (decide (c < new)) (reserveCore cfg v (if exp then max new (add64 1 (mul64 c 3 / 2)) else new))
    expandTail cfg v old new

/-- `shrinkSmall`, string.hpp:984-989. -/
def shrinkSmall (cfg : Cfg) (v : Obj) (delta : Nat) : M Unit := do
  let k ← size cfg v
  assert cfg (decide (delta ≤ k)) "shrinkSmall"
  setSmallSize cfg v (sub64 k delta)

/-- `shrinkMedium`, string.hpp:991-998. -/
def shrinkMedium (cfg : Cfg) (v : Obj) (d k cap : Nat) (large : Bool) (delta : Nat) : M Unit := do
  assert cfg (decide (delta ≤ k)) "shrinkMedium"
  setCore v (.ml d (sub64 k delta) cap large)
  writeCells (.blk d (sub64 k delta)) [some 0]

/-- `shrinkLarge`, string.hpp:1000-1010. -/
def shrinkLarge (cfg : Cfg) (v : Obj) (al d k delta : Nat) : M Unit := do
  assert cfg (decide (delta ≤ k)) "shrinkLarge"
  if delta = 0 then pure () else do
    ctorData cfg (.tmp 1) al (.blk d 0) (sub64 k delta)
    withTemp cfg (.tmp 1) (swap (.tmp 1) v)

/-- `shrink(delta)`, string.hpp:465-473. -/
def shrink (cfg : Cfg) (v : Obj) (delta : Nat) : M Unit := do
  let o ← getOb v
  match o.core with
  | .small _ => shrinkSmall cfg v delta
  | .ml d k cap false => shrinkMedium cfg v d k cap false delta
  | .ml d k cap true => do
    let r ← refs d
    if r = 1 then shrinkMedium cfg v d k cap true delta else shrinkLarge cfg v o.al d k delta

/-- `mutableData()`, string.hpp:446-456, 857-865; `noexcept` in `string_core` only. -/
def mutableData (cfg : Cfg) (v : Obj) : M Ptr :=
  noexceptIf (!cfg.arena) do
    let o ← getOb v
    match o.core with
    | .ml d _ _ true => do
      let r ← refs d
      if r > 1 then do
        unshare cfg v 0
        dataPtr v
      else dataPtr v
    | _ => dataPtr v

/-- `push_back(c)` of the core, string.hpp:495. -/
def pushBack (cfg : Cfg) (v : Obj) (c : Ch) : M Unit := do
  let p ← expandNoinit cfg v 1 true
  writeCells p [some c]

end Verif.Str
