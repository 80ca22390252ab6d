import Verif.Arena.Like
import Verif.Arena.Example

/-!
Options whose functions are partly not set (null pointers): the model and the lemmas for C117.  `Verif.Arena.Model` has
all of them set.
-/

namespace Verif.Arena

open Verif.Align

/-! ### Model -/

/-- Which function pointers of `Options` are set, arena/arena.hpp:182-202. -/
structure Given where
  alloc : Bool := true
  dealloc : Bool := true
  logger : Bool := true
  init : Bool := true
  reset : Bool := true
  allocation : Bool := true
  newblock : Bool := true
  destruction : Bool := true

/-- A call guarded by a test for null, such as arena/arena.hpp:373, 399, 438, 469, 484, 500, 547 and arena/arena.cc:111. -/
def hook (given : Bool) (tr : List Ev) (e : Ev) : List Ev := if given then e :: tr else tr

/-- A call without such a test, such as arena/arena.hpp:460, 545, 627, 648 and arena/arena.cc:68, 102. -/
def must (given : Bool) (tr : List Ev) (e : Ev) : Except Fault (List Ev) :=
  if given then .ok (e :: tr) else .error (.ub "null function pointer called")

/-- A message when the condition holds, arena/arena.hpp:455-461, 541-546 and arena/arena.cc:65-69. -/
def logIf (g : Given) (c : Prop) [Decidable c] (tr : List Ev) : Except Fault (List Ev) :=
  if c then must g.logger tr .log else .ok tr

/-- `Arena::init`, arena/arena.hpp:540-550, called by the constructors (lines 353-363): `resource` tells whether there
was memory for the `memory_resource`; without it the failure is logged. -/
def initG (g : Given) (resource : Bool) (cookie : Option Nat) : Except Fault St := do
  let tr ← logIf g (resource = false) []
  return { blocks := [], cookie := if g.init then cookie else none, space := 0, trace := hook g.init tr .init }

/-- `Arena::newBlock`, arena/arena.cc:61-123, as `newBlock`. -/
def newBlockG (g : Given) (cfg : Cfg) (st : St) (minBytes : Nat) : Except Fault (Bool × St) := do
  let tr ← logIf g (minBytes > M64 - 1 - kBlockHeaderSize) st.trace
  let size ← newBlockSize cfg minBytes (!st.blocks.isEmpty)
  let mem := cfg.blockAlloc tr size
  let tr ← must g.alloc tr (.blockAlloc size mem)
  match mem with
  | none => return (false, { st with trace := tr })
  | some p =>
    let tr := hook g.newblock tr (.newblock st.blocks.length size st.cookie)
    if size < kBlockHeaderSize then .error (.ub "block header written outside the block")
    else
      return (true, { st with blocks := Block.mk' p size :: st.blocks, space := add64 st.space size, trace := tr })

/-- `Arena::allocateAligned`, arena/arena.cc:139-154. -/
def allocateAlignedG (g : Given) (cfg : Cfg) (st : St) (bytes alignment : Nat) : Except Fault (Option Nat × St) := do
  let needed := alignUpTo8 bytes
  let need ← needCreateNewBlock cfg st needed alignment
  let (ok, st) ← if need then newBlockG g cfg st needed else .ok (true, st)
  if !ok then return (none, st)
  match st.blocks with
  | [] => .error (.ub "null _last_block")
  | b :: rest =>
    let (result, b) ← b.alloc cfg.dbg needed alignment
    assertDbg cfg.dbg (decide (result % 8 = 0)) "alloc result should aligned kByteSize"
    return (some result, { st with blocks := b :: rest })

/-- `Arena::addCleanup`, arena/arena.hpp:574-585. -/
def addCleanupG (g : Given) (cfg : Cfg) (st : St) (n : Node) : Except Fault (Bool × St) := do
  let need ← needCreateNewBlock cfg st kCleanupNodeSize kByteSize
  let (ok, st) ← if need then newBlockG g cfg st kCleanupNodeSize else .ok (true, st)
  if !ok then return (false, st)
  match st.blocks with
  | [] => .error (.ub "null _last_block")
  | b :: rest =>
    let b ← b.registerCleanup cfg.dbg n
    return (true, { st with blocks := b :: rest })

/-- The report of an allocation, arena/arena.hpp:438-440, 469-471, 484-486, 500-504. -/
def reportG (g : Given) (st : St) (bytes : Nat) : St :=
  { st with trace := hook g.allocation st.trace (.allocated bytes st.cookie) }

/-- `Arena::AllocateAligned`, arena/arena.hpp:482-490. -/
def AllocateAlignedG (g : Given) (cfg : Cfg) (st : St) (bytes alignment : Nat) : Except Fault (Option Nat × St) := do
  let (r, st) ← allocateAlignedG g cfg st bytes alignment
  match r with
  | none => return (none, st)
  | some p => return (some p, reportG g st bytes)

/-- `Arena::Create<T>`, arena/arena.hpp:430-444, as `Create`. -/
def CreateG (g : Given) (cfg : Cfg) (st : St) (size : Nat) (dtor : Option Nat) : Except Fault (Option Nat × St) := do
  let (r, st) ← allocateAlignedG g cfg st size kByteSize
  match r with
  | none => return (none, st)
  | some p =>
    let st ← memWrite st p size
    let (ok, st) ← match dtor with
      | none => .ok (true, st)
      | some f => addCleanupG g cfg st { element := p, cleanup := f }
    if !ok then return (none, st)
    return (some p, reportG g st size)

/-- The first half of `Arena::Create<T>`, arena/arena.hpp:430-434, as `createBegin`. -/
def createBeginG (g : Given) (cfg : Cfg) (st : St) (size : Nat) : Except Fault (Option Nat × St) := do
  let (r, st) ← allocateAlignedG g cfg st size kByteSize
  match r with
  | none => return (none, st)
  | some p =>
    let st ← memWrite st p size
    return (some p, st)

/-- The second half of `Arena::Create<T>`, arena/arena.hpp:435-444, as `createEnd`. -/
def createEndG (g : Given) (cfg : Cfg) (st : St) (p size : Nat) (dtor : Option Nat) : Except Fault (Bool × St) := do
  let (ok, st) ← match dtor with
    | none => .ok (true, st)
    | some f => addCleanupG g cfg st { element := p, cleanup := f }
  if !ok then return (false, st)
  return (true, reportG g st size)

/-- `Arena::CreateArray<T>`, arena/arena.hpp:452-475, as `CreateArray`. -/
def CreateArrayG (g : Given) (cfg : Cfg) (st : St) (size num : Nat) : Except Fault (Option Nat × St) := do
  if size = 0 then .error (.ub "sizeof(T) is never 0")
  else
    let tr ← logIf g (num > (M64 - 1) / size) st.trace
    let st := { st with trace := tr }
    let bytes := mul64 size num
    let (r, st) ← allocateAlignedG g cfg st bytes kByteSize
    match r with
    | none => return (none, st)
    | some p =>
      let st ← memWrite st p (size * num)
      return (some p, reportG g st bytes)

/-- `Arena::AllocateAlignedAndAddCleanup`, arena/arena.hpp:496-509. -/
def AllocateAlignedAndAddCleanupG (g : Given) (cfg : Cfg) (st : St) (bytes fn : Nat) (element : Option Nat) :
    Except Fault (Option Nat × St) := do
  let (r, st) ← allocateAlignedG g cfg st bytes kByteSize
  match r with
  | none => return (none, st)
  | some p =>
    let (ok, st) ← addCleanupG g cfg st { element := element.getD p, cleanup := fn }
    if !ok then return (none, st)
    return (some p, reportG g st bytes)

/-- `Arena::free_all_blocks`, arena/arena.hpp:616-632. -/
def freeAllBlocksG (g : Given) (dbg : Bool) : List Block → Nat → List Ev → Except Fault (Nat × List Ev)
  | [], remain, tr => .ok (remain, tr)
  | b :: rest, remain, tr => do
    let r ← b.remain dbg
    let ns ← b.runCleanups
    let tr ← must g.dealloc (emitCleanups tr ns) (.dealloc b.base)
    freeAllBlocksG g dbg rest (add64 remain r) tr

/-- `Arena::free_blocks_except_head`, arena/arena.hpp:637-657. -/
def freeBlocksExceptHeadG (g : Given) (dbg : Bool) : List Block → Nat → List Ev → Except Fault (Nat × Block × List Ev)
  | [], _, _ => do
    assertDbg dbg false "curr should not be nullptr"
    .error (.ub "null block dereferenced")
  | [b], remain, tr => do
    let r ← b.remain dbg
    return (add64 remain r, b, tr)
  | b :: rest, remain, tr => do
    let r ← b.remain dbg
    let ns ← b.runCleanups
    let tr ← must g.dealloc (emitCleanups tr ns) (.dealloc b.base)
    freeBlocksExceptHeadG g dbg rest (add64 remain r) tr

/-- `Arena::Reset`, arena/arena.hpp:396-407. -/
def ResetG (g : Given) (cfg : Cfg) (st : St) : Except Fault (Nat × St) := do
  let (waste, head, tr) ← freeBlocksExceptHeadG g cfg.dbg st.blocks 0 st.trace
  let tr := hook g.reset tr (.reset st.space waste st.cookie)
  let (ns, head') ← head.reset
  return (st.space, { st with blocks := [head'], space := head.size, trace := emitCleanups tr ns })

/-- `Arena::~Arena`, arena/arena.hpp:369-378: the final trace. -/
def destroyG (g : Given) (cfg : Cfg) (st : St) : Except Fault (List Ev) := do
  let (waste, tr) ← freeAllBlocksG g cfg.dbg st.blocks 0 st.trace
  return hook g.destruction tr (.destroyed st.space waste st.cookie)

/-- One call, as `step`. -/
def stepG (g : Given) (cfg : Cfg) (st : St) : Op → Except Fault (Ret × St)
  | .allocate b a => do let (r, st) ← AllocateAlignedG g cfg st b a; return (.ptr r, st)
  | .create s d => do let (r, st) ← CreateG g cfg st s d; return (.ptr r, st)
  | .createArray s n => do let (r, st) ← CreateArrayG g cfg st s n; return (.ptr r, st)
  | .createBegin s => do let (r, st) ← createBeginG g cfg st s; return (.ptr r, st)
  | .createEnd p s d => do let (r, st) ← createEndG g cfg st p s d; return (.bool r, st)
  | .allocateCleanup b f e => do
    let (r, st) ← AllocateAlignedAndAddCleanupG g cfg st b f e; return (.ptr r, st)
  | .own o f => do let (r, st) ← addCleanupG g cfg st { element := o, cleanup := f }; return (.bool r, st)
  | .pmrAllocate b a => do let (r, st) ← allocateAlignedG g cfg st b (max kByteSize a); return (.ptr r, st)
  | .pmrDeallocate _ _ _ => .ok (.unit, st)
  | .reset => do let (n, st) ← ResetG g cfg st; return (.num n, st)
  | .write p n => do let st ← memWrite st p n; return (.unit, st)

/-- A run of calls, as `run`. -/
def runG (g : Given) (cfg : Cfg) (st : St) : List Op → Except Fault (List (Op × Ret) × St)
  | [] => .ok ([], st)
  | op :: ops => do
    let (r, st) ← stepG g cfg st op
    let (h, st) ← runG g cfg st ops
    return ((op, r) :: h, st)

/-! ### Specification -/

/-- The calls of functions that are set, and of destructors. -/
def Given.sees (g : Given) : Ev → Bool
  | .init => g.init
  | .blockAlloc _ _ => g.alloc
  | .newblock _ _ _ => g.newblock
  | .allocated _ _ => g.allocation
  | .reset _ _ _ => g.reset
  | .destroyed _ _ _ => g.destruction
  | .cleanup _ => true
  | .dealloc _ => g.dealloc
  | .log => g.logger

/-- What is left of a history when functions are not set. -/
def Given.seen (g : Given) (tr : List Ev) : List Ev := tr.filter g.sees

/-- The answers of `block_alloc` do not depend on the functions that are not set. -/
def Indifferent (g : Given) (cfg : Cfg) : Prop := ∀ tr n, cfg.blockAlloc (g.seen tr) n = cfg.blockAlloc tr n

/-- Numbers of bytes that are not near `2^64`. -/
def Op.modest : Op → Prop
  | .allocate b _ | .create b _ | .createBegin b | .allocateCleanup b _ _ | .pmrAllocate b _ => b < 2 ^ 63
  | .createArray s n => s * n < 2 ^ 63
  | _ => True

/-! ### Lemmas -/

variable {g : Given} {cfg : Cfg} {s t : St}

/-- The same arena, with the history that is left. -/
structure Seen (g : Given) (s t : St) : Prop where
  blocks : t.blocks = s.blocks
  cookie : t.cookie = s.cookie
  space : t.space = s.space
  trace : t.trace = g.seen s.trace

/-- The same outcome: the same fault, or the same result and related states. -/
def SeenOut {α : Type} (g : Given) (x y : Except Fault (α × St)) : Prop :=
  (∃ e, x = .error e ∧ y = .error e) ∨ ∃ a s t, x = .ok (a, s) ∧ y = .ok (a, t) ∧ Seen g s t

theorem SeenOut.ok {α : Type} {a : α} (h : Seen g s t) : SeenOut g (.ok (a, s)) (.ok (a, t)) :=
  Or.inr ⟨a, s, t, rfl, rfl, h⟩

theorem SeenOut.bind {α β : Type} {x y : Except Fault (α × St)} {f k : α × St → Except Fault (β × St)}
    (h : SeenOut g x y) (hf : ∀ a s t, Seen g s t → SeenOut g (f (a, s)) (k (a, t))) :
    SeenOut g (x >>= f) (y >>= k) := by
  rcases h with ⟨e, rfl, rfl⟩ | ⟨a, s, t, rfl, rfl, h⟩
  · exact Or.inl ⟨e, rfl, rfl⟩
  · exact hf a s t h

theorem SeenOut.bindPure {α β : Type} {x y : Except Fault α} {f k : α → Except Fault (β × St)} (h : x = y)
    (hf : ∀ a, SeenOut g (f a) (k a)) : SeenOut g (x >>= f) (y >>= k) := by
  subst h
  cases x with
  | error e => exact Or.inl ⟨e, rfl, rfl⟩
  | ok a => exact hf a

theorem seen_cons (e : Ev) (tr : List Ev) : g.seen (e :: tr) = hook (g.sees e) (g.seen tr) e := by
  unfold Given.seen hook
  rw [List.filter_cons]

theorem seen_cleanups (tr : List Ev) (ns : List Node) : g.seen (emitCleanups tr ns) = emitCleanups (g.seen tr) ns := by
  unfold emitCleanups
  induction ns generalizing tr with
  | nil => rfl
  | cons n ns ih =>
    rw [List.foldl_cons, List.foldl_cons, ih, seen_cons]
    rfl

theorem Seen.log (h : Seen g s t) (c : Prop) [Decidable c] (hl : g.logger = true ∨ ¬ c) :
    ∃ t', logIf g c t.trace = .ok t'.trace ∧
      t' = { t with trace := t'.trace } ∧ Seen g (if c then s.emit .log else s) t' := by
  unfold logIf
  by_cases hc : c
  · have hl := hl.resolve_right (not_not_intro hc)
    refine ⟨{ t with trace := .log :: t.trace }, ?_, rfl, ?_⟩
    · rw [if_pos hc, must, if_pos hl]
    · rw [if_pos hc]
      refine ⟨h.blocks, h.cookie, h.space, ?_⟩
      show _ = g.seen (.log :: s.trace)
      rw [seen_cons, Given.sees, hook, if_pos hl, h.trace]
  · exact ⟨t, by rw [if_neg hc], rfl, by rw [if_neg hc]; exact h⟩

theorem Seen.report (h : Seen g s t) (n : Nat) : Seen g (s.emit (.allocated n s.cookie)) (reportG g t n) := by
  refine ⟨h.blocks, h.cookie, h.space, ?_⟩
  show hook _ _ _ = g.seen (_ :: s.trace)
  rw [seen_cons, h.trace, h.cookie]
  rfl

theorem need_seen (h : Seen g s t) (n a : Nat) : needCreateNewBlock cfg s n a = needCreateNewBlock cfg t n a := by
  unfold needCreateNewBlock
  rw [h.blocks]

theorem newBlock_seen (hi : Indifferent g cfg) (ha : g.alloc = true) (h : Seen g s t) {n : Nat}
    (hn : g.logger = true ∨ n ≤ M64 - 1 - kBlockHeaderSize) : SeenOut g (newBlock cfg s n) (newBlockG g cfg t n) := by
  unfold newBlock newBlockG
  obtain ⟨t', e1, e2, h'⟩ := h.log (n > M64 - 1 - kBlockHeaderSize) (hn.imp_right Nat.not_lt.2)
  rw [e1]
  simp only [ok_bind]
  have hb : t.blocks = t'.blocks := by rw [e2]
  have hk : t.cookie = t'.cookie := by rw [e2]
  have hs : t.space = t'.space := by rw [e2]
  rw [hb, hk, hs]
  generalize (if n > M64 - 1 - kBlockHeaderSize then s.emit .log else s) = s' at h'
  simp only [h'.blocks]
  refine .bindPure rfl ?_
  intro z
  rw [h'.trace, hi]
  simp only [must, ha, if_true, ok_bind]
  have hseen : ∀ x, g.seen (.blockAlloc z x :: s'.trace) = .blockAlloc z x :: g.seen s'.trace := by
    intro x; rw [seen_cons, Given.sees, ha]; rfl
  cases hm : cfg.blockAlloc s'.trace z with
  | none => exact .ok ⟨rfl, h'.cookie, h'.space, (hseen _).symm⟩
  | some p =>
    simp only
    split
    · exact Or.inl ⟨_, rfl, rfl⟩
    · refine .ok ⟨?_, h'.cookie, ?_, ?_⟩
      · simp only [St.emit]
      · simp only [St.emit, h'.space]
      · show hook _ _ _ = g.seen (.newblock _ _ _ :: .blockAlloc _ _ :: s'.trace)
        rw [seen_cons, hseen, h'.cookie]
        rfl

theorem grow_seen (hi : Indifferent g cfg) (ha : g.alloc = true) (h : Seen g s t) {n : Nat}
    (hn : g.logger = true ∨ n ≤ M64 - 1 - kBlockHeaderSize) (need : Bool) :
    SeenOut g (if need then newBlock cfg s n else .ok (true, s)) (if need then newBlockG g cfg t n else .ok (true, t)) := by
  cases need
  · exact .ok h
  · exact newBlock_seen hi ha h hn

theorem modest_aligned {n : Nat} (h : n < 2 ^ 63) : alignUpTo8 n ≤ M64 - 1 - kBlockHeaderSize := by
  have h1 : alignUpTo8 n ≤ n + 7 := by
    rw [alignUpTo8_eq (by show n + 7 < 18446744073709551616; omega)]
    exact Nat.div_mul_le_self _ _
  have h2 : M64 - 1 - kBlockHeaderSize = 18446744073709551583 := by decide
  omega

theorem allocateAligned_seen (hi : Indifferent g cfg) (ha : g.alloc = true) (h : Seen g s t) {n a : Nat}
    (hn : g.logger = true ∨ alignUpTo8 n ≤ M64 - 1 - kBlockHeaderSize) :
    SeenOut g (allocateAligned cfg s n a) (allocateAlignedG g cfg t n a) := by
  unfold allocateAligned allocateAlignedG
  refine .bindPure (need_seen h _ _) ?_
  intro need
  simp only [like_bind_ite]
  refine (grow_seen hi ha h hn need).bind ?_
  intro ok s t h
  cases ok with
  | false => exact .ok h
  | true =>
    simp only [Bool.not_true, Bool.false_eq_true, if_false, h.blocks]
    cases s.blocks with
    | nil => exact Or.inl ⟨_, rfl, rfl⟩
    | cons b bs =>
      refine .bindPure rfl ?_
      rintro ⟨p, b'⟩
      refine .bindPure rfl ?_
      intro _
      exact .ok ⟨rfl, h.cookie, h.space, h.trace⟩

theorem addCleanup_seen (hi : Indifferent g cfg) (ha : g.alloc = true) (h : Seen g s t) (n : Node) :
    SeenOut g (addCleanup cfg s n) (addCleanupG g cfg t n) := by
  unfold addCleanup addCleanupG
  refine .bindPure (need_seen h _ _) ?_
  intro need
  simp only [like_bind_ite]
  refine (grow_seen hi ha h (Or.inr (by decide)) need).bind ?_
  intro ok s t h
  cases ok with
  | false => exact .ok h
  | true =>
    simp only [Bool.not_true, Bool.false_eq_true, if_false, h.blocks]
    cases s.blocks with
    | nil => exact Or.inl ⟨_, rfl, rfl⟩
    | cons b bs =>
      refine .bindPure rfl ?_
      intro b'
      exact .ok ⟨rfl, h.cookie, h.space, h.trace⟩

theorem memWrite_seen (h : Seen g s t) (p n : Nat) :
    (∃ e, memWrite s p n = .error e ∧ memWrite t p n = .error e) ∨
    ∃ s' t', memWrite s p n = .ok s' ∧ memWrite t p n = .ok t' ∧ Seen g s' t' := by
  unfold memWrite
  rw [h.blocks]
  split
  · exact Or.inr ⟨_, _, rfl, rfl, h⟩
  · split
    · split
      · exact Or.inl ⟨_, rfl, rfl⟩
      · exact Or.inr ⟨_, _, rfl, rfl, rfl, h.cookie, h.space, h.trace⟩
    · exact Or.inl ⟨_, rfl, rfl⟩

theorem freeAll_seen (hd : g.dealloc = true) (dbg : Bool) (bs : List Block) (r : Nat) (tr : List Ev) :
    freeAllBlocksG g dbg bs r (g.seen tr) = (freeAllBlocks dbg bs r tr).map (fun x => (x.1, g.seen x.2)) := by
  induction bs generalizing r tr with
  | nil => rfl
  | cons b bs ih =>
    unfold freeAllBlocksG freeAllBlocks
    cases b.remain dbg with
    | error e => rfl
    | ok m =>
      cases b.runCleanups with
      | error e => rfl
      | ok ns =>
        simp only [ok_bind, must, hd, if_true]
        rw [← ih, seen_cons, seen_cleanups, Given.sees, hd]
        rfl

theorem freeButHead_seen (hd : g.dealloc = true) (dbg : Bool) (bs : List Block) (r : Nat) (tr : List Ev) :
    freeBlocksExceptHeadG g dbg bs r (g.seen tr) =
      (freeBlocksExceptHead dbg bs r tr).map (fun x => (x.1, x.2.1, g.seen x.2.2)) := by
  induction bs generalizing r tr with
  | nil =>
    unfold freeBlocksExceptHeadG freeBlocksExceptHead
    cases dbg <;> rfl
  | cons b bs ih =>
    cases bs with
    | nil =>
      unfold freeBlocksExceptHeadG freeBlocksExceptHead
      cases b.remain dbg with
      | error e => rfl
      | ok m => rfl
    | cons b2 bs =>
      unfold freeBlocksExceptHeadG freeBlocksExceptHead
      cases b.remain dbg with
      | error e => rfl
      | ok m =>
        cases b.runCleanups with
        | error e => rfl
        | ok ns =>
          simp only [ok_bind, must, hd, if_true]
          rw [← ih, seen_cons, seen_cleanups, Given.sees, hd]
          rfl

theorem destroy_seen (hd : g.dealloc = true) (h : Seen g s t) : destroyG g cfg t = (destroy cfg s).map g.seen := by
  unfold destroyG destroy
  rw [h.trace, h.blocks, freeAll_seen hd]
  cases freeAllBlocks cfg.dbg s.blocks 0 s.trace with
  | error e => rfl
  | ok x =>
    obtain ⟨m, tr⟩ := x
    show Except.ok (hook _ _ _) = Except.ok (g.seen (_ :: tr))
    rw [seen_cons, h.space, h.cookie]
    rfl

theorem Reset_seen (hd : g.dealloc = true) (h : Seen g s t) : SeenOut g (Reset cfg s) (ResetG g cfg t) := by
  unfold Reset ResetG
  rw [h.trace, h.blocks, freeButHead_seen hd]
  cases freeBlocksExceptHead cfg.dbg s.blocks 0 s.trace with
  | error e => exact Or.inl ⟨e, rfl, rfl⟩
  | ok x =>
    obtain ⟨m, b, tr⟩ := x
    show SeenOut g (b.reset >>= _) (b.reset >>= _)
    refine .bindPure rfl ?_
    rintro ⟨ns, b'⟩
    simp only [h.space]
    refine .ok ⟨rfl, h.cookie, rfl, ?_⟩
    show emitCleanups (hook _ _ _) ns = g.seen (emitCleanups (_ :: tr) ns)
    rw [seen_cleanups, seen_cons, h.cookie]
    rfl

theorem step_seen (hi : Indifferent g cfg) (ha : g.alloc = true) (hd : g.dealloc = true) (h : Seen g s t) {op : Op}
    (hop : g.logger = true ∨ op.modest) : SeenOut g (step cfg s op) (stepG g cfg t op) := by
  cases op with
  | allocate b a =>
    unfold step AllocateAligned stepG AllocateAlignedG
    refine .bind ?_ (fun r s t h => .ok h)
    refine .bind (allocateAligned_seen hi ha h (hop.imp_right modest_aligned)) ?_
    intro r s t h
    cases r with
    | none => exact .ok h
    | some p => exact .ok (h.report _)
  | create sz d =>
    unfold step Create stepG CreateG
    refine .bind ?_ (fun r s t h => .ok h)
    refine .bind (allocateAligned_seen hi ha h (hop.imp_right modest_aligned)) ?_
    intro r s t h
    cases r with
    | none => exact .ok h
    | some p =>
      simp only
      rcases memWrite_seen h p sz with ⟨e, e1, e2⟩ | ⟨s', t', e1, e2, h'⟩
      · rw [e1, e2]; exact Or.inl ⟨e, rfl, rfl⟩
      · rw [e1, e2]
        simp only [ok_bind]
        cases d with
        | none => exact .ok (h'.report _)
        | some f =>
          refine .bind (addCleanup_seen hi ha h' _) ?_
          intro ok s t h
          cases ok with
          | false => exact .ok h
          | true => exact .ok (h.report _)
  | createArray sz n =>
    unfold step CreateArray stepG CreateArrayG
    refine .bind ?_ (fun r s t h => .ok h)
    split
    · exact Or.inl ⟨_, rfl, rfl⟩
    · next hz =>
      have hm : sz * n < 2 ^ 63 → ¬ n > (M64 - 1) / sz ∧ mul64 sz n < 2 ^ 63 := by
        intro hm
        constructor
        · rw [Nat.not_lt, Nat.le_div_iff_mul_le (Nat.pos_of_ne_zero hz), Nat.mul_comm]
          show sz * n ≤ 18446744073709551616 - 1
          omega
        · exact Nat.lt_of_le_of_lt (Nat.mod_le _ _) hm
      obtain ⟨t', e1, e2, h'⟩ := h.log (n > (M64 - 1) / sz) (hop.imp_right fun hx => (hm hx).1)
      rw [e1]
      simp only [ok_bind]
      rw [← e2]
      refine .bind (allocateAligned_seen hi ha h' (hop.imp_right fun hx => modest_aligned (hm hx).2)) ?_
      intro r s t h
      cases r with
      | none => exact .ok h
      | some p =>
        simp only
        rcases memWrite_seen h p (sz * n) with ⟨e, e1, e2⟩ | ⟨s', t', e1, e2, h'⟩
        · rw [e1, e2]; exact Or.inl ⟨e, rfl, rfl⟩
        · rw [e1, e2]
          exact .ok (h'.report _)
  | createBegin sz =>
    unfold step createBegin stepG createBeginG
    refine .bind ?_ (fun r s t h => .ok h)
    refine .bind (allocateAligned_seen hi ha h (hop.imp_right modest_aligned)) ?_
    intro r s t h
    cases r with
    | none => exact .ok h
    | some p =>
      simp only
      rcases memWrite_seen h p sz with ⟨e, e1, e2⟩ | ⟨s', t', e1, e2, h'⟩
      · rw [e1, e2]; exact Or.inl ⟨e, rfl, rfl⟩
      · rw [e1, e2]; exact .ok h'
  | createEnd p sz d =>
    unfold step createEnd stepG createEndG
    refine .bind ?_ (fun r s t h => .ok h)
    cases d with
    | none => exact .ok (h.report _)
    | some f =>
      refine .bind (addCleanup_seen hi ha h _) ?_
      intro ok s t h
      cases ok with
      | false => exact .ok h
      | true => exact .ok (h.report _)
  | allocateCleanup b f e =>
    unfold step AllocateAlignedAndAddCleanup stepG AllocateAlignedAndAddCleanupG
    refine .bind ?_ (fun r s t h => .ok h)
    refine .bind (allocateAligned_seen hi ha h (hop.imp_right modest_aligned)) ?_
    intro r s t h
    cases r with
    | none => exact .ok h
    | some p =>
      refine .bind (addCleanup_seen hi ha h _) ?_
      intro ok s t h
      cases ok with
      | false => exact .ok h
      | true => exact .ok (h.report _)
  | own o f => exact .bind (addCleanup_seen hi ha h _) (fun r s t h => .ok h)
  | pmrAllocate b a => exact .bind (allocateAligned_seen hi ha h (hop.imp_right modest_aligned)) (fun r s t h => .ok h)
  | pmrDeallocate p b a => exact .ok h
  | reset => exact .bind (Reset_seen hd h) (fun r s t h => .ok h)
  | write p n =>
    unfold step stepG
    simp only
    rcases memWrite_seen h p n with ⟨e, e1, e2⟩ | ⟨s', t', e1, e2, h'⟩
    · rw [e1, e2]; exact Or.inl ⟨e, rfl, rfl⟩
    · rw [e1, e2]; exact .ok h'

end Verif.Arena
