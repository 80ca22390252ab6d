import Verif.Arena.Nested

/-!
C109: destructors that call the arena while it is torn down or reset.
-/

namespace Verif.Arena

variable {cfg : Cfg} {A : Nat} {st : St} {h : Hist}

/-! ### Model -/

/-- A call made by a destructor while the blocks in `freed` have already been given back and `_last_block` still leads
to them (arena/arena.hpp:616-632, 637-657: it is assigned only after the loop). Every call that needs memory reads
`*_last_block` (`need_create_new_block`, lines 566-569), and a new block makes `newBlock` walk the whole chain to count
its blocks for the hook (arena/arena.cc:111-118; not if there is no hook). `do_deallocate` touches nothing. `Reset` called by a destructor would
run the same destructors again and is not modelled. -/
def callDuring (cfg : Cfg) (freed : List Nat) (st : St) (op : Op) : Except Fault St :=
  let used := st.blocks.any (fun b => decide (b.base ∈ freed))
  match op with
  | .pmrDeallocate _ _ _ => .ok st
  | .reset => .error (.ub "Reset called by a destructor")
  | .write p n =>
    if st.blocks.any (fun b => decide (b.base ∈ freed) && overlaps p n b.base b.size) then
      .error (.ub "memory written after block_dealloc")
    else memWrite st p n
  | op =>
    match st.blocks with
    | [] => do let (_, st) ← step cfg st op; return st
    | b :: _ =>
      if b.base ∈ freed then .error (.ub "block read after block_dealloc")
      else do
        let (_, st') ← step cfg st op
        if used && decide (st.blocks.length < st'.blocks.length) then .error (.ub "chain walked after block_dealloc")
        else return st'

/-- The calls of one destructor. -/
def callsDuring (cfg : Cfg) (freed : List Nat) (st : St) : List Op → Except Fault St
  | [] => .ok st
  | op :: ops => do
    let st ← callDuring cfg freed st op
    callsDuring cfg freed st ops

/-- `Block::run_cleanups`, arena/arena.hpp:296-306, with destructors that make the calls `calls`. The nodes are those
present at the start: new ones are put below them. -/
def runNodes (cfg : Cfg) (calls : Node → List Op) (freed : List Nat) (st : St) : List Node → Except Fault St
  | [] => .ok st
  | n :: ns => do
    let st ← callsDuring cfg freed (st.emit (.cleanup n)) (calls n)
    runNodes cfg calls freed st ns

/-- `Arena::free_all_blocks`, arena/arena.hpp:616-632, from the oldest but `k` block on: `curr` walks down the chain that
was there at the start, while `_last_block` and the blocks may be changed by the destructors. -/
def freeAllWith (cfg : Cfg) (calls : Node → List Op) : Nat → Nat → List Nat → St → Except Fault (Nat × St)
  | 0, remain, _, st => .ok (remain, st)
  | k + 1, remain, freed, st =>
    match st.blocks.drop (st.blocks.length - (k + 1)) with
    | [] => .error (.ub "null block dereferenced")
    | b :: _ => do
      let r ← b.remain cfg.dbg
      let ns ← b.runCleanups
      let st ← runNodes cfg calls freed st ns
      freeAllWith cfg calls k (add64 remain r) (b.base :: freed) (st.emit (.dealloc b.base))

/-- `Arena::~Arena`, arena/arena.hpp:369-378, with destructors that call the arena: the final trace. -/
def destroyWith (cfg : Cfg) (calls : Node → List Op) (st : St) : Except Fault (List Ev) := do
  let (waste, st) ← freeAllWith cfg calls st.blocks.length 0 [] st
  return .destroyed st.space waste st.cookie :: st.trace

/-- `Arena::free_blocks_except_head`, arena/arena.hpp:637-657, likewise, up to the last block. -/
def freeButHeadWith (cfg : Cfg) (calls : Node → List Op) : Nat → Nat → List Nat → St → Except Fault (Nat × St)
  | 0, _, _, _ => do
    assertDbg cfg.dbg false "curr should not be nullptr"
    .error (.ub "null block dereferenced")
  | 1, remain, _, st =>
    match st.blocks.getLast? with
    | none => .error (.ub "null block dereferenced")
    | some b => do
      let r ← b.remain cfg.dbg
      return (add64 remain r, { st with blocks := [b] })
  | k + 2, remain, freed, st =>
    match st.blocks.drop (st.blocks.length - (k + 2)) with
    | [] => .error (.ub "null block dereferenced")
    | b :: _ => do
      let r ← b.remain cfg.dbg
      let ns ← b.runCleanups
      let st ← runNodes cfg calls freed st ns
      freeButHeadWith cfg calls (k + 1) (add64 remain r) (b.base :: freed) (st.emit (.dealloc b.base))

/-- `Arena::Reset`, arena/arena.hpp:396-407 with `Block::Reset` (arena/arena.cc:128-133), likewise: the first block is
rewound after its destructors have run. -/
def resetWith (cfg : Cfg) (calls : Node → List Op) (st : St) : Except Fault (Nat × St) := do
  let (waste, st) ← freeButHeadWith cfg calls st.blocks.length 0 [] st
  let st := st.emit (.reset st.space waste st.cookie)
  let resetSize := st.space
  match st.blocks with
  | [] => .error (.ub "null block dereferenced")
  | head :: _ =>
    let ns ← head.runCleanups
    let st ← runNodes cfg calls [] { st with space := head.size } ns
    return (resetSize, { st with blocks := st.blocks.dropLast ++
      (st.blocks.getLast?.map (fun b => { b with pos := kBlockHeaderSize, limit := b.size })).toList })

/-! ### Without calls -/

theorem runNodes_none {calls : Node → List Op} {freed : List Nat} {ns : List Node} (hn : ∀ n ∈ ns, calls n = []) :
    runNodes cfg calls freed st ns = .ok { st with trace := emitCleanups st.trace ns } := by
  induction ns generalizing st with
  | nil => rfl
  | cons n ns ih =>
    simp only [runNodes, hn n (by simp), callsDuring, ok_bind]
    rw [ih (fun m hm => hn m (by simp [hm]))]
    rfl

theorem drop_suffix {pre bs : List Block} : (pre ++ bs).drop ((pre ++ bs).length - bs.length) = bs := by
  rw [List.length_append, Nat.add_sub_cancel, List.drop_left]

theorem freeAllWith_none {calls : Node → List Op} {pre bs : List Block} {rem : Nat} {freed : List Nat}
    (hb : st.blocks = pre ++ bs) (hn : ∀ b ∈ bs, ∀ ns, b.runCleanups = .ok ns → ∀ n ∈ ns, calls n = []) :
    freeAllWith cfg calls bs.length rem freed st =
      (freeAllBlocks cfg.dbg bs rem st.trace).map (fun x => (x.1, { st with trace := x.2 })) := by
  induction bs generalizing st pre rem freed with
  | nil => rfl
  | cons b bs ih =>
    have hd : st.blocks.drop (st.blocks.length - (bs.length + 1)) = b :: bs := by
      rw [hb]; exact drop_suffix
    simp only [List.length_cons, freeAllWith, freeAllBlocks, hd]
    cases h1 : b.remain cfg.dbg with
    | error e => rfl
    | ok r =>
      simp only [ok_bind]
      cases h2 : b.runCleanups with
      | error e => rfl
      | ok ns =>
        simp only [ok_bind, runNodes_none (hn b (by simp) ns h2)]
        rw [ih (pre := pre ++ [b]) (by rw [List.append_assoc]; exact hb) (fun c hc => hn c (by simp [hc]))]
        rfl

/-- With destructors that make no calls this is the destruction of the other properties. -/
theorem destroyWith_none {calls : Node → List Op} (hn : ∀ n, calls n = []) :
    destroyWith cfg calls st = destroy cfg st := by
  unfold destroyWith destroy
  rw [freeAllWith_none (pre := []) rfl (fun _ _ _ _ n _ => hn n)]
  cases freeAllBlocks cfg.dbg st.blocks 0 st.trace <;> rfl

theorem freeButHeadWith_none {calls : Node → List Op} {pre bs : List Block} {rem : Nat} {freed : List Nat}
    (hb : st.blocks = pre ++ bs) (hn : ∀ n, calls n = []) :
    freeButHeadWith cfg calls bs.length rem freed st =
      (freeBlocksExceptHead cfg.dbg bs rem st.trace).map
        (fun x => (x.1, { st with blocks := [x.2.1], trace := x.2.2 })) := by
  induction bs generalizing st pre rem freed with
  | nil =>
    simp only [List.length_nil, freeButHeadWith, freeBlocksExceptHead]
    cases assertDbg cfg.dbg false "curr should not be nullptr" <;> rfl
  | cons b bs ih =>
    cases bs with
    | nil =>
      have hl : st.blocks.getLast? = some b := by rw [hb]; simp
      simp only [List.length_cons, List.length_nil, Nat.zero_add, freeButHeadWith, freeBlocksExceptHead, hl]
      cases b.remain cfg.dbg <;> rfl
    | cons c bs =>
      have hd : st.blocks.drop (st.blocks.length - (bs.length + 2)) = b :: c :: bs := by
        rw [hb]; exact drop_suffix
      rw [show (b :: c :: bs).length = bs.length + 2 from rfl, freeButHeadWith, hd, freeBlocksExceptHead]
      · simp only
        cases h1 : b.remain cfg.dbg with
        | error e => rfl
        | ok r =>
          simp only [ok_bind]
          cases h2 : b.runCleanups with
          | error e => rfl
          | ok ns =>
            simp only [ok_bind, runNodes_none (fun n _ => hn n)]
            exact ih (pre := pre ++ [b]) (by rw [List.append_assoc]; exact hb)
      · simp

/-- With destructors that make no calls this is the `Reset` of the other properties. -/
theorem resetWith_none {calls : Node → List Op} (hn : ∀ n, calls n = []) : resetWith cfg calls st = Reset cfg st := by
  unfold resetWith Reset
  rw [freeButHeadWith_none (pre := []) rfl hn]
  cases h1 : freeBlocksExceptHead cfg.dbg st.blocks 0 st.trace with
  | error e => rfl
  | ok x =>
    obtain ⟨w, b, tr⟩ := x
    simp only [Except.map, ok_bind, St.emit, Block.reset]
    cases h2 : b.runCleanups with
    | error e => rfl
    | ok ns =>
      simp only [ok_bind, pure_eq_ok, runNodes_none (fun n _ => hn n)]
      rfl

/-! ### Violations -/

/-- Calls that only ask for memory. -/
def AllocCall (A : Nat) : Op → Prop
  | .allocate b a => b ≤ 2 ^ 62 ∧ GoodAlign A a
  | .pmrAllocate b a => b ≤ 2 ^ 62 ∧ GoodAlign A (max 8 a)
  | .pmrDeallocate _ _ _ => True
  | _ => False

/-- C109, expected: when destructors get memory from the arena while it is destroyed, destruction goes through and all
blocks are given back. -/
def DestructorsMayAllocate : Prop :=
  ∀ (cfg : Cfg) (A : Nat) (h : Hist) (st : St) (calls : Node → List Op), 8 ∣ A → GoodCfg cfg → Sane A cfg →
    Exec cfg A h st → (∀ n, ∀ op ∈ calls n, AllocCall A op) →
    ∃ tr, destroyWith cfg calls st = .ok tr ∧ held tr = []

/-- C109, expected: what a destructor registers while the arena is destroyed is run too. -/
def DestructorsMayRegister : Prop :=
  ∀ (cfg : Cfg) (A : Nat) (h : Hist) (st : St) (calls : Node → List Op), 8 ∣ A → GoodCfg cfg → Sane A cfg →
    Exec cfg A h st → ∀ tr, destroyWith cfg calls st = .ok tr →
    ∀ n ∈ ran tr, ∀ o f, calls n = [.own o f] → ⟨o, f⟩ ∈ ran tr

/-- C109, expected at `Reset`: it goes through, and the blocks held are those the arena knows. -/
def ResetDestructorsMayAllocate : Prop :=
  ∀ (cfg : Cfg) (A : Nat) (h : Hist) (st : St) (calls : Node → List Op), 8 ∣ A → GoodCfg cfg → Sane A cfg →
    Exec cfg A h st → st.blocks ≠ [] → (∀ n, ∀ op ∈ calls n, AllocCall A op) →
    ∃ s st', resetWith cfg calls st = .ok (s, st') ∧ held st'.trace = st'.blocks.map Block.region

/-- C109, expected at `Reset`: what a destructor registers is run then or still pending. -/
def ResetDestructorsMayRegister : Prop :=
  ∀ (cfg : Cfg) (A : Nat) (h : Hist) (st : St) (calls : Node → List Op), 8 ∣ A → GoodCfg cfg → Sane A cfg →
    Exec cfg A h st → ∀ s st', resetWith cfg calls st = .ok (s, st') →
    ∀ tr, destroy cfg st' = .ok tr → ∀ n ∈ ran tr, ∀ o f, calls n = [.own o f] → ⟨o, f⟩ ∈ ran tr

/-- The destructor numbered 1 makes a call. -/
def oneCalls (op : Op) (n : Node) : List Op := if n.cleanup = 1 then [op] else []

theorem oneCalls_alloc {op : Op} (hop : AllocCall A op) : ∀ n, ∀ o ∈ oneCalls op n, AllocCall A o := by
  intro n o ho
  unfold oneCalls at ho
  split at ho
  · rw [List.mem_singleton] at ho; rw [ho]; exact hop
  · cases ho

/-- C109 is violated: a block obtained by a destructor is never given back (memory leak). -/
theorem c109_leak_violated : ¬ DestructorsMayAllocate := by
  intro hall
  obtain ⟨st, he, hd⟩ := exec_such (cfg := exCfg false 32 []) (A := 32) (cookie := none)
    (ops := [.create 24 (some 1)]) (h := [(.create 24 (some 1), .ptr (some 64))])
    (P := fun st => (destroyWith (exCfg false 32 []) (oneCalls (.pmrAllocate 5000 8)) st).map held =
      .ok [⟨4160, 8192⟩]) (by decide +kernel)
  obtain ⟨tr, h1, h2⟩ := hall _ _ _ _ _ (by decide) (exCfg_good _ _ _) (exCfg_sane _ (by decide) _) he
    (oneCalls_alloc (A := 32) (op := .pmrAllocate 5000 8) ⟨by decide, goodAlign8 (by decide)⟩)
  rw [h1] at hd
  simp only [Except.map, Except.ok.injEq] at hd
  rw [h2] at hd
  cases hd

/-- C109 is violated: a destructor that asks for 8 bytes after a newer block has been given back reads that block
through `_last_block` (use after free). -/
theorem c109_freed_violated : ¬ DestructorsMayAllocate := by
  intro hall
  obtain ⟨st, he, hd⟩ := exec_such (cfg := exCfg false 32 []) (A := 32) (cookie := none)
    (ops := [.create 24 (some 1), .create 5000 (some 2)])
    (h := [(.create 24 (some 1), .ptr (some 64)), (.create 5000 (some 2), .ptr (some 4192))])
    (P := fun st => (destroyWith (exCfg false 32 []) (oneCalls (.allocate 8 8)) st).map held =
      .error (.ub "block read after block_dealloc")) (by decide +kernel)
  obtain ⟨tr, h1, h2⟩ := hall _ _ _ _ _ (by decide) (exCfg_good _ _ _) (exCfg_sane _ (by decide) _) he
    (oneCalls_alloc (A := 32) (op := .allocate 8 8) ⟨by decide, goodAlign8 (by decide)⟩)
  rw [h1] at hd
  cases hd

/-- C109 is violated: a destructor that needs a block, when an earlier one got a block and a block in between has been
given back, makes `newBlock` walk through the block given back to count the blocks (use after free). -/
theorem c109_chain_violated : ¬ DestructorsMayAllocate := by
  intro hall
  obtain ⟨st, he, hd⟩ := exec_such (cfg := exCfg false 32 []) (A := 32) (cookie := none)
    (ops := [.create 24 (some 1), .create 5000 (some 1)])
    (h := [(.create 24 (some 1), .ptr (some 64)), (.create 5000 (some 1), .ptr (some 4192))])
    (P := fun st => (destroyWith (exCfg false 32 []) (oneCalls (.allocate 8000 8)) st).map held =
      .error (.ub "chain walked after block_dealloc")) (by decide +kernel)
  obtain ⟨tr, h1, h2⟩ := hall _ _ _ _ _ (by decide) (exCfg_good _ _ _) (exCfg_sane _ (by decide) _) he
    (oneCalls_alloc (A := 32) (op := .allocate 8000 8) ⟨by decide, goodAlign8 (by decide)⟩)
  rw [h1] at hd
  cases hd

/-- C109 is violated: an object handed to `Own` by a destructor during destruction is never deleted. -/
theorem c109_lost_violated : ¬ DestructorsMayRegister := by
  intro hall
  obtain ⟨st, he, hd⟩ := exec_such (cfg := exCfg false 32 []) (A := 32) (cookie := none)
    (ops := [.create 24 (some 1)]) (h := [(.create 24 (some 1), .ptr (some 64))])
    (P := fun st => (destroyWith (exCfg false 32 []) (oneCalls (.own 77 2)) st).map ran =
      .ok [⟨64, 1⟩]) (by decide +kernel)
  cases h1 : destroyWith (exCfg false 32 []) (oneCalls (.own 77 2)) st with
  | error e => rw [h1] at hd; cases hd
  | ok tr =>
    rw [h1] at hd
    simp only [Except.map, Except.ok.injEq] at hd
    have := hall _ _ _ _ _ (by decide) (exCfg_good _ _ _) (exCfg_sane _ (by decide) _) he tr h1 ⟨64, 1⟩
      (by rw [hd]; simp) 77 2 (by decide)
    rw [hd] at this
    revert this; decide

/-- C109 is violated at `Reset`: a block obtained by a destructor while a newer block is given up is lost, and a
destructor in a middle block reads a block given back. -/
theorem c109_reset_violated : ¬ ResetDestructorsMayAllocate ∧
    ∃ st, Exec (exCfg false 32 []) 32 [(.create 24 (some 1), .ptr (some 64)), (.create 5000 (some 1), .ptr (some 4192)),
        (.create 5000 (some 2), .ptr (some 12416))] st ∧
      (resetWith (exCfg false 32 []) (oneCalls (.allocate 8 8)) st).map Prod.fst =
        .error (.ub "block read after block_dealloc") := by
  constructor
  · intro hall
    obtain ⟨st, he, hd⟩ := exec_such (cfg := exCfg false 32 []) (A := 32) (cookie := none)
      (ops := [.create 24 (some 2), .create 5000 (some 1)])
      (h := [(.create 24 (some 2), .ptr (some 64)), (.create 5000 (some 1), .ptr (some 4192))])
      (P := fun st => (resetWith (exCfg false 32 []) (oneCalls (.allocate 8000 8)) st).map
        (fun x => (held x.2.trace, x.2.blocks.map Block.region)) =
        .ok ([⟨12384, 8192⟩, ⟨32, 4096⟩], [⟨32, 4096⟩])) (by decide +kernel)
    have hne : st.blocks ≠ [] := by
      obtain ⟨_, hb⟩ := exec_inv (by decide) (exCfg_good _ _ _) (exCfg_sane _ (by decide) _) he
      exact hb ⟨_, List.mem_cons_self, rfl⟩
    obtain ⟨s, st', h1, h2⟩ := hall _ _ _ _ _ (by decide) (exCfg_good _ _ _) (exCfg_sane _ (by decide) _) he hne
      (oneCalls_alloc (A := 32) (op := .allocate 8000 8) ⟨by decide, goodAlign8 (by decide)⟩)
    rw [h1] at hd
    simp only [Except.map, Except.ok.injEq, Prod.mk.injEq] at hd
    rw [h2, hd.2] at hd
    cases hd.1
  · exact exec_such (cookie := none) (ops := [.create 24 (some 1), .create 5000 (some 1), .create 5000 (some 2)])
      (by decide +kernel)

/-- C109 is violated at `Reset`: an object handed to `Own` by a destructor of the first block is never deleted, not
even when the arena is destroyed later. -/
theorem c109_reset_lost_violated : ¬ ResetDestructorsMayRegister := by
  intro hall
  obtain ⟨st, he, hd⟩ := exec_such (cfg := exCfg false 32 []) (A := 32) (cookie := none)
    (ops := [.create 24 (some 1)]) (h := [(.create 24 (some 1), .ptr (some 64))])
    (P := fun st => (resetWith (exCfg false 32 []) (oneCalls (.own 77 2)) st).map
      (fun x => (destroy (exCfg false 32 []) x.2).map ran) = .ok (.ok [⟨64, 1⟩])) (by decide +kernel)
  cases h1 : resetWith (exCfg false 32 []) (oneCalls (.own 77 2)) st with
  | error e => rw [h1] at hd; cases hd
  | ok x =>
    obtain ⟨s, st'⟩ := x
    rw [h1] at hd
    simp only [Except.map, Except.ok.injEq] at hd
    cases h2 : destroy (exCfg false 32 []) st' with
    | error e => rw [h2] at hd; cases hd
    | ok tr =>
      rw [h2] at hd
      simp only [Except.ok.injEq] at hd
      have := hall _ _ _ _ _ (by decide) (exCfg_good _ _ _) (exCfg_sane _ (by decide) _) he s st' h1 tr h2 ⟨64, 1⟩
        (by rw [hd]; simp) 77 2 (by decide)
      rw [hd] at this
      revert this; decide

/-! ### What holds -/

/-- Room a call may take, padding included. -/
def callBytes : Op → Nat
  | .allocate b a => round8 b + (a - 8)
  | .pmrAllocate b a => round8 b + (max 8 a - 8)
  | _ => 0

/-- The bytes left in the newest block. -/
def room (b : Block) : Nat := b.limit - b.pos

/-- Is it a report of `on_arena_allocation`? -/
def isAllocated : Ev → Bool
  | .allocated _ _ => true
  | _ => false

theorem held_filter (tr : List Ev) : held (tr.filter (fun e => !isAllocated e)) = held tr := by
  induction tr with
  | nil => rfl
  | cons e tr ih =>
    cases e with
    | blockAlloc s p => rw [List.filter_cons_of_pos rfl]; cases p <;> simp only [held, ih]
    | allocated s c => rw [List.filter_cons_of_neg (by simp [isAllocated])]; exact ih
    | _ => rw [List.filter_cons_of_pos rfl]; simp only [held, ih]

theorem ran_filter (tr : List Ev) : ran (tr.filter (fun e => !isAllocated e)) = ran tr := by
  unfold ran
  congr 1
  induction tr with
  | nil => rfl
  | cons e tr ih =>
    cases e with
    | allocated s c =>
      rw [List.filter_cons_of_neg (by simp [isAllocated]), List.filterMap_cons_none rfl]
      exact ih
    | cleanup n => rw [List.filter_cons_of_pos rfl]; simp only [List.filterMap_cons, ih]
    | _ => rw [List.filter_cons_of_pos rfl, List.filterMap_cons_none rfl, List.filterMap_cons_none rfl, ih]

/-- The state after allocations in the newest block. -/
structure Bumped (A : Nat) (st st' : St) (b b' : Block) (rest : List Block) : Prop where
  blocks : st'.blocks = b' :: rest
  base : b'.base = b.base
  size : b'.size = b.size
  limit : b'.limit = b.limit
  cells : b'.cells = b.cells
  space : st'.space = st.space
  cookie : st'.cookie = st.cookie

theorem callDuring_fit (hA : 8 ∣ A) {regs : List Region} {pend : List Pending} (wf : WF A st regs pend) {b : Block}
    {rest : List Block} (hb : st.blocks = b :: rest) {op : Op} (hop : AllocCall A op) (hfit : callBytes op ≤ room b) :
    ∃ st' b' regs', callDuring cfg [] st op = .ok st' ∧ Bumped A st st' b b' rest ∧ WF A st' regs' pend ∧
      room b ≤ room b' + callBytes op ∧
      st'.trace.filter (fun e => !isAllocated e) = st.trace.filter (fun e => !isAllocated e) := by
  have key : ∀ {n a : Nat}, n ≤ 2 ^ 62 → GoodAlign A a → round8 n + (a - 8) ≤ room b →
      Fits b (round8 n) a ∧ room b ≤ room (bump b (round8 n) a) + (round8 n + (a - 8)) := by
    intro n a hn ha hf
    obtain ⟨h8, h32, h8d, hd⟩ := ha.bounds
    have hp := (bump_aligned8 hA (head_ok wf hb) h8d (by omega)).1
    have hlt := padOf_lt (p := b.base + b.pos) (a := a) (by omega)
    have := (head_ok wf hb).pos_le
    unfold room at hf ⊢
    unfold Fits bump
    simp only
    constructor <;> omega
  have hbn : st.blocks.any (fun b => decide (b.base ∈ ([] : List Nat))) = false := by simp
  cases op with
  | allocate n a =>
    obtain ⟨hf, hr⟩ := key hop.1 hop.2 hfit
    have h1 := allocate_fit (cfg := cfg) hA wf hb hop.2 hop.1 hf
    refine ⟨{ st with blocks := bump b (round8 n) a :: rest, trace := .allocated n st.cookie :: st.trace },
      bump b (round8 n) a, _, ?_, ⟨rfl, rfl, rfl, rfl, rfl, rfl, rfl⟩,
      (bump_wf hA wf hb hop.2 hf).of_trace (.allocated n st.cookie :: st.trace) rfl, hr, ?_⟩
    · simp only [callDuring, hb, step, AllocateAligned, h1, ok_bind, pure_eq_ok]
      simp [St.emit]
    · simp [isAllocated]
  | pmrAllocate n a =>
    obtain ⟨hf, hr⟩ := key hop.1 hop.2 hfit
    have h1 := allocate_fit (cfg := cfg) hA wf hb hop.2 hop.1 hf
    have h2 : max kByteSize a = max 8 a := rfl
    refine ⟨{ st with blocks := bump b (round8 n) (max 8 a) :: rest }, bump b (round8 n) (max 8 a), _, ?_, ⟨rfl, rfl, rfl, rfl, rfl, rfl, rfl⟩,
      bump_wf hA wf hb hop.2 hf, hr, rfl⟩
    simp only [callDuring, hb, step, pmrAllocate, h2, h1, ok_bind, pure_eq_ok]
    simp
  | pmrDeallocate p n a =>
    exact ⟨st, b, regs, rfl, ⟨hb, rfl, rfl, rfl, rfl, rfl, rfl⟩, wf, by simp [callBytes], rfl⟩
  | _ => exact hop.elim

theorem Bumped.trans {s1 s2 s3 : St} {b1 b2 b3 : Block} {rest : List Block} (h1 : Bumped A s1 s2 b1 b2 rest)
    (h2 : Bumped A s2 s3 b2 b3 rest) : Bumped A s1 s3 b1 b3 rest :=
  ⟨h2.blocks, h2.base.trans h1.base, h2.size.trans h1.size, h2.limit.trans h1.limit, h2.cells.trans h1.cells,
    h2.space.trans h1.space, h2.cookie.trans h1.cookie⟩

theorem callsDuring_fit (hA : 8 ∣ A) {regs : List Region} {pend : List Pending} (wf : WF A st regs pend) {b : Block}
    {rest : List Block} (hb : st.blocks = b :: rest) {ops : List Op} (hop : ∀ op ∈ ops, AllocCall A op)
    (hfit : (ops.map callBytes).sum ≤ room b) :
    ∃ st' b' regs', callsDuring cfg [] st ops = .ok st' ∧ Bumped A st st' b b' rest ∧ WF A st' regs' pend ∧
      room b ≤ room b' + (ops.map callBytes).sum ∧
      st'.trace.filter (fun e => !isAllocated e) = st.trace.filter (fun e => !isAllocated e) := by
  induction ops generalizing st b regs with
  | nil => exact ⟨st, b, regs, rfl, ⟨hb, rfl, rfl, rfl, rfl, rfl, rfl⟩, wf, by simp, rfl⟩
  | cons op ops ih =>
    simp only [List.map_cons, List.sum_cons] at hfit ⊢
    obtain ⟨st1, b1, regs1, h1, h2, h3, h4, h5⟩ := callDuring_fit (cfg := cfg) hA wf hb (hop op (by simp)) (by omega)
    obtain ⟨st2, b2, regs2, i1, i2, i3, i4, i5⟩ := ih h3 h2.blocks (fun o ho => hop o (by simp [ho])) (by omega)
    refine ⟨st2, b2, regs2, by simp only [callsDuring, h1, ok_bind, i1], h2.trans i2, i3, by omega, by rw [i5, h5]⟩

theorem runNodes_fit (hA : 8 ∣ A) {regs : List Region} {pend : List Pending} (wf : WF A st regs pend) {b : Block}
    {rest : List Block} (hb : st.blocks = b :: rest) {calls : Node → List Op} {ns : List Node}
    (hop : ∀ n, ∀ op ∈ calls n, AllocCall A op)
    (hfit : (ns.map (fun n => ((calls n).map callBytes).sum)).sum ≤ room b) :
    ∃ st' b' regs', runNodes cfg calls [] st ns = .ok st' ∧ Bumped A st st' b b' rest ∧ WF A st' regs' pend ∧
      st'.trace.filter (fun e => !isAllocated e) =
        (emitCleanups st.trace ns).filter (fun e => !isAllocated e) := by
  induction ns generalizing st b regs with
  | nil => exact ⟨st, b, regs, rfl, ⟨hb, rfl, rfl, rfl, rfl, rfl, rfl⟩, wf, rfl⟩
  | cons n ns ih =>
    simp only [List.map_cons, List.sum_cons] at hfit
    have wf0 : WF A (st.emit (.cleanup n)) regs pend := wf.of_trace _ rfl
    obtain ⟨st1, b1, regs1, h1, h2, h3, h4, h5⟩ := callsDuring_fit (cfg := cfg) hA wf0 hb (hop n) (by omega)
    obtain ⟨st2, b2, regs2, i1, i2, i3, i4⟩ := ih h3 h2.blocks (by omega)
    have h6 : Bumped A st st1 b b1 rest := ⟨h2.blocks, h2.base, h2.size, h2.limit, h2.cells, h2.space, h2.cookie⟩
    refine ⟨st2, b2, regs2, by simp only [runNodes, h1, ok_bind, i1], h6.trans i2, i3, ?_⟩
    rw [i4, emitCleanups_eq, List.filter_append, h5, ← List.filter_append]
    show _ = (emitCleanups (.cleanup n :: st.trace) ns).filter _
    rw [emitCleanups_eq]
    rfl

/-- C109, what holds: when the arena has one block and the memory the destructors ask for fits in what remains of it,
destruction goes through as without these calls, except for the reports of `on_arena_allocation`: every destructor runs
once, the last registered first, and the block is given back. Missing: several blocks, calls that need a new one,
and registrations. -/
theorem c109_partial (hA : 8 ∣ A) (hc : GoodCfg cfg) (hs : Sane A cfg) (he : Exec cfg A h st)
    {calls : Node → List Op} (hop : ∀ n, ∀ op ∈ calls n, AllocCall A op) (hone : (held st.trace).length = 1) {n : Nat}
    (hrem : SpaceRemains cfg st = .ok n)
    (hfit : ((pending h).map (fun x => ((calls x.node).map callBytes).sum)).sum ≤ n) :
    ∃ tr tr0, destroyWith cfg calls st = .ok tr ∧ destroy cfg st = .ok tr0 ∧
      tr.filter (fun e => !isAllocated e) = tr0.filter (fun e => !isAllocated e) ∧
      ran tr = ran st.trace ++ (pending h).map Pending.node ∧ held tr = [] := by
  obtain ⟨tr0, d1, d2⟩ := c10_destroy hA hc hs he
  obtain ⟨tr1, d3, d4, _⟩ := c13_balanced hA hc hs he
  rw [d1] at d3; cases d3
  obtain ⟨wf, _⟩ := exec_inv hA hc hs he
  rw [wf.held_eq, List.length_map] at hone
  obtain ⟨b, hb⟩ := List.length_eq_one_iff.1 hone
  have hok := head_ok wf hb
  have hnodes := wf.nodes
  rw [hb] at hnodes
  obtain ⟨l, r, hp, h2, _, h4⟩ := hnodes
  have hr : r = [] := h4
  subst hr
  rw [List.append_nil] at hp
  unfold SpaceRemains at hrem
  rw [hb] at hrem
  simp only [remain_ok hok] at hrem
  cases hrem
  obtain ⟨st', b', regs', r1, r2, r3, r4⟩ := runNodes_fit (cfg := cfg) (calls := calls) (ns := l.map Pending.node) hA wf hb
    hop (by rw [List.map_map]; rw [hp] at hfit; exact hfit)
  have hd0 : destroy cfg st = .ok (.destroyed st.space (add64 0 (b.limit - b.pos)) st.cookie ::
      .dealloc b.base :: emitCleanups st.trace (l.map Pending.node)) := by
    unfold destroy
    rw [hb]
    simp only [freeAllBlocks, remain_ok hok, ok_bind, Block.runCleanups, h2, pure_eq_ok]
  have hd1 : destroyWith cfg calls st = .ok (.destroyed st'.space (add64 0 (b.limit - b.pos)) st'.cookie ::
      .dealloc b.base :: st'.trace) := by
    unfold destroyWith
    simp only [hb, List.length_cons, List.length_nil, Nat.zero_add, freeAllWith, Nat.sub_self, List.drop_zero,
      remain_ok hok, ok_bind, Block.runCleanups, h2, r1, pure_eq_ok]
    rfl
  have hf : (Ev.destroyed st'.space (add64 0 (b.limit - b.pos)) st'.cookie :: .dealloc b.base :: st'.trace).filter
      (fun e => !isAllocated e) = tr0.filter (fun e => !isAllocated e) := by
    rw [hd0] at d1; cases d1
    rw [List.filter_cons_of_pos rfl, List.filter_cons_of_pos rfl, List.filter_cons_of_pos rfl,
      List.filter_cons_of_pos rfl, r4, r2.space, r2.cookie]
  refine ⟨_, tr0, hd1, d1, hf, ?_, ?_⟩
  · rw [← ran_filter, hf, ran_filter, d2]
  · rw [← held_filter, hf, held_filter, d4]

/-- A destructor that asks for 100 bytes. -/
example : ∃ st tr, Exec (exCfg true 32 []) 32 [(.create 24 (some 1), .ptr (some 64)), (.own 7 2, .bool true)] st ∧
    destroyWith (exCfg true 32 []) (oneCalls (.allocate 100 16)) st = .ok tr ∧ ran tr = ran st.trace ++ [⟨7, 2⟩, ⟨64, 1⟩] ∧
    held tr = [] := by
  obtain ⟨st, he, h1, h2⟩ := exec_such (cfg := exCfg true 32 []) (A := 32) (cookie := none)
    (ops := [.create 24 (some 1), .own 7 2]) (h := [(.create 24 (some 1), .ptr (some 64)), (.own 7 2, .bool true)])
    (P := fun st => (held st.trace).length = 1 ∧ SpaceRemains (exCfg true 32 []) st = .ok 4008) (by decide +kernel)
  obtain ⟨tr, _, h3, _, _, h4, h5⟩ := c109_partial (A := 32) (by decide) (exCfg_good _ _ _) (exCfg_sane _ (by decide) _) he
    (oneCalls_alloc (A := 32) (op := .allocate 100 16) ⟨by decide, by decide⟩) h1 h2 (by decide)
  exact ⟨st, tr, he, h3, h4, h5⟩

end Verif.Arena
