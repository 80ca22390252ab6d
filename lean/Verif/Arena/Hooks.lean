import Verif.Arena.Like
import Verif.Arena.Trace
import Verif.Arena.Example

/-!
Hooks of the arena that call the arena themselves: the model and the lemmas for C114.
-/

namespace Verif.Arena

open Verif.Align

/-! ### Model

The hooks are functions of the user. `on_arena_reset` and `on_arena_destruction` receive the arena as a parameter;
`on_arena_newblock` can reach it through the cookie that `on_arena_init` returned. The calls a hook makes are a list of
calls, run in order with `run`; hooks fired by these calls in turn make no calls. `on_arena_allocation` is called at the
end of `AllocateAligned`, `Create`, ... (arena/arena.hpp:438-440, 469-471, 484-486, 500-504), so its calls are calls made
right after and need no model of their own. -/

/-- The arena while its `on_arena_init` runs, arena/arena.hpp:351-363, 540-550: no block and no cookie; then the value
it returns becomes the cookie. -/
def initHook (cfg : Cfg) (cookie : Option Nat) (calls : List Op) : Except Fault (List (Op × Ret) × St) := do
  let (h, st) ← run cfg (mkArena none) calls
  return (h, { st with cookie := cookie })

/-- The arena while its `on_arena_destruction` runs, arena/arena.hpp:369-376: `free_all_blocks` (lines 616-632) has set
`_last_block` to null, the space counter still has its old value. -/
def atDestruction (cfg : Cfg) (st : St) : Except Fault St := do
  let (waste, tr) ← freeAllBlocks cfg.dbg st.blocks 0 st.trace
  return { st with blocks := [], trace := .destroyed st.space waste st.cookie :: tr }

/-- `Arena::~Arena` with an `on_arena_destruction` that makes calls, arena/arena.hpp:369-378: nothing is freed after the
hook. -/
def destroyHook (cfg : Cfg) (st : St) (calls : List Op) : Except Fault (List (Op × Ret) × St) := do
  let st ← atDestruction cfg st
  run cfg st calls

/-- The arena while its `on_arena_reset` runs, arena/arena.hpp:396-401: only the first block is left
(`free_blocks_except_head`, lines 637-657), not rewound yet, and the space counter has its old value. -/
def atReset (cfg : Cfg) (st : St) : Except Fault St := do
  let (waste, head, tr) ← freeBlocksExceptHead cfg.dbg st.blocks 0 st.trace
  return { st with blocks := [head], trace := .reset st.space waste st.cookie :: tr }

/-- `Arena::Reset` with an `on_arena_reset` that makes calls, arena/arena.hpp:396-407: after the hook the newest block
is rewound and its size becomes the space counter; blocks before it are kept as they are. -/
def resetHook (cfg : Cfg) (st : St) (calls : List Op) : Except Fault (List (Op × Ret) × Nat × St) := do
  let st ← atReset cfg st
  let (h, st) ← run cfg st calls
  match st.blocks with
  | [] => .error (.ub "null _last_block")
  | b :: rest =>
    let (ns, b') ← b.reset
    return (h, st.space, { st with blocks := b' :: rest, space := b.size, trace := emitCleanups st.trace ns })

/-- `Arena::newBlock` up to `on_arena_newblock`, arena/arena.cc:61-118: the size and the address of the memory, if there
is any, and the arena while the hook runs. -/
def atNewBlock (cfg : Cfg) (st : St) (minBytes : Nat) : Except Fault (Option (Nat × Nat) × St) := do
  let st := if minBytes > M64 - 1 - kBlockHeaderSize then st.emit .log else st
  let size ← newBlockSize cfg minBytes (!st.blocks.isEmpty)
  let mem := cfg.blockAlloc st.trace size
  let st := st.emit (.blockAlloc size mem)
  match mem with
  | none => return (none, st)
  | some p => return (some (size, p), st.emit (.newblock st.blocks.length size st.cookie))

/-- `Arena::newBlock` with an `on_arena_newblock` that makes calls, and the assignment of `_last_block`,
arena/arena.cc:61-123, 142-147: the new block is linked to `prev_block`, which was read before the hook ran, so blocks the
hook obtained are no longer in the chain. -/
def newBlockHook (cfg : Cfg) (st : St) (minBytes : Nat) (calls : List Op) :
    Except Fault (List (Op × Ret) × Bool × St) := do
  let (mem, st1) ← atNewBlock cfg st minBytes
  match mem with
  | none => return ([], false, st1)
  | some (size, p) =>
    let (h, st2) ← run cfg st1 calls
    if size < kBlockHeaderSize then .error (.ub "block header written outside the block")
    else
      return (h, true, { st2 with
        blocks := Block.mk' p size :: st2.blocks.drop (st2.blocks.length - st1.blocks.length),
        space := add64 st2.space size })

/-- The end of `allocateAligned` (arena/arena.cc:148-153) and of `AllocateAligned` (arena/arena.hpp:484-489), when the
newest block has room. -/
def finishAlloc (cfg : Cfg) (st : St) (bytes alignment : Nat) : Except Fault (Option Nat × St) :=
  match st.blocks with
  | [] => .error (.ub "null _last_block")
  | b :: rest => do
    let (result, b) ← b.alloc cfg.dbg (alignUpTo8 bytes) alignment
    assertDbg cfg.dbg (decide (result % 8 = 0)) "alloc result should aligned kByteSize"
    return (some result, { st with blocks := b :: rest }.emit (.allocated bytes st.cookie))

/-- `Arena::AllocateAligned` (arena/arena.hpp:482-490, arena/arena.cc:139-154) with an `on_arena_newblock` that makes
calls. For the other calls that need a block see `stepHook` (`Arena/HookCalls`). -/
def allocateHook (cfg : Cfg) (st : St) (bytes alignment : Nat) (calls : List Op) :
    Except Fault (List (Op × Ret) × Option Nat × St) := do
  let need ← needCreateNewBlock cfg st (alignUpTo8 bytes) alignment
  let (h, ok, st) ← if need then newBlockHook cfg st (alignUpTo8 bytes) calls else .ok ([], true, st)
  if !ok then return (h, none, st)
  let (r, st) ← finishAlloc cfg st bytes alignment
  return (h, r, st)

/-! ### Specification -/

/-- The calls, made from `st` after the history `h`, obey their contracts, and none is a `Reset`. -/
def Obeys (cfg : Cfg) (A : Nat) : Hist → St → List Op → Prop
  | _, _, [] => True
  | h, st, op :: ops => Contract A h op ∧ op ≠ .reset ∧
      match step cfg st op with
      | .ok (r, st') => Obeys cfg A (h ++ [(op, r)]) st' ops
      | .error _ => True

/-- Decidable, for the examples. -/
def decObeys (cfg : Cfg) (A : Nat) : (h : Hist) → (st : St) → (ops : List Op) → Decidable (Obeys cfg A h st ops)
  | _, _, [] => .isTrue trivial
  | h, st, op :: ops => by
    unfold Obeys
    haveI : Decidable (match step cfg st op with
      | .ok (r, st') => Obeys cfg A (h ++ [(op, r)]) st' ops
      | .error _ => True) := by
      cases step cfg st op with
      | error e => exact .isTrue trivial
      | ok x => exact decObeys cfg A (h ++ [(op, x.1)]) x.2 ops
    infer_instance

instance (cfg : Cfg) (A : Nat) (h : Hist) (st : St) (ops : List Op) : Decidable (Obeys cfg A h st ops) :=
  decObeys cfg A h st ops

/-! ### Lemmas -/

variable {cfg cfg2 : Cfg} {A : Nat} {st : St} {h : Hist} {T U : List Ev} {sp : Bool}

/-- The events of calls other than `Reset`: each request for a block was answered by `block_alloc`. -/
def Answered (cfg : Cfg) (U : List Ev) : List Ev → Prop
  | [] => True
  | .blockAlloc s r :: new => (cfg.blockAlloc (new ++ U) s = r ∧ 32 ≤ s) ∧ Answered cfg U new
  | .newblock _ _ _ :: new => Answered cfg U new
  | .allocated _ _ :: new => Answered cfg U new
  | _ :: _ => False

theorem Answered.append {new1 new2 : List Ev} (h1 : Answered cfg U new1) (h2 : Answered cfg (new1 ++ U) new2) :
    Answered cfg U (new2 ++ new1) := by
  induction new2 with
  | nil => exact h1
  | cons e new2 ih =>
    cases e with
    | blockAlloc s r => exact ⟨⟨(congrArg (cfg.blockAlloc · s) (List.append_assoc new2 new1 U)).trans h2.1.1, h2.1.2⟩, ih h2.2⟩
    | newblock a b c => exact ih h2
    | allocated a b => exact ih h2
    | _ => exact h2.elim

theorem Answered.held {new : List Ev} (h1 : Answered cfg U new) (V : List Ev) :
    held (new ++ V) = Arena.held new ++ Arena.held V := by
  induction new with
  | nil => rfl
  | cons e new ih =>
    cases e with
    | blockAlloc s r =>
      cases r with
      | none => simpa [Arena.held] using ih h1.2
      | some p => simpa [Arena.held] using ih h1.2
    | newblock a b c => simpa [Arena.held] using ih h1
    | allocated a b => simpa [Arena.held] using ih h1
    | _ => exact h1.elim

theorem Answered.ran {new : List Ev} (h1 : Answered cfg U new) (V : List Ev) :
    ran (new ++ V) = Arena.ran V := by
  induction new with
  | nil => rfl
  | cons e new ih =>
    cases e with
    | blockAlloc s r => have := ih h1.2; simpa [Arena.ran] using this
    | newblock a b c => have := ih h1; simpa [Arena.ran] using this
    | allocated a b => have := ih h1; simpa [Arena.ran] using this
    | _ => exact h1.elim

/-- Blocks obtained meanwhile are apart from those held before. -/
theorem Answered.fresh {new : List Ev} (h1 : Answered cfg2 U new) (hl : LikeCfg T U cfg cfg2) (hs : Sane A cfg) :
    ∀ r ∈ Arena.held new, 32 ≤ r.len ∧ ∀ g ∈ Arena.held T, Region.Disjoint r g := by
  induction new with
  | nil => intro r hr; cases hr
  | cons e new ih =>
    cases e with
    | blockAlloc s r =>
      cases r with
      | none => exact ih h1.2
      | some p =>
        intro r hr
        rcases List.mem_cons.1 hr with rfl | hr
        · refine ⟨h1.1.2, ?_⟩
          intro g hg
          have h2 := h1.1.1
          rw [hl.alloc] at h2
          refine hs.fresh _ _ _ h2 g ?_
          rw [h1.2.held]
          exact List.mem_append_right _ hg
        · exact ih h1.2 r hr
    | newblock a b c => exact ih h1
    | allocated a b => exact ih h1
    | _ => exact h1.elim

theorem blockPolicy_ge (cfg : Cfg) (m : Nat) (f : Bool) : 32 ≤ blockPolicy cfg m f := by
  rw [← chosenSize_eq_policy]
  have := chosenSize_ge cfg m (!f)
  omega

theorem Grow.answered {c : Option Nat} {ms : List Nat} {tr tr' : List Ev} (h : Grow cfg c ms tr tr') :
    ∃ new, tr' = new ++ tr ∧ Answered cfg tr new := by
  induction h with
  | refl => exact ⟨[], rfl, trivial⟩
  | fail _ _ hs hm ih =>
    obtain ⟨new, rfl, h1⟩ := ih
    exact ⟨_ :: new, rfl, ⟨hm, hs ▸ blockPolicy_ge _ _ _⟩, h1⟩
  | block _ _ hs hm ih =>
    obtain ⟨new, rfl, h1⟩ := ih
    exact ⟨_ :: _ :: new, rfl, ⟨hm, hs ▸ blockPolicy_ge _ _ _⟩, h1⟩

theorem contract_congr {h h' : Hist} (hl : live h = live h') {op : Op} (hr : op ≠ .reset) (hc : Contract A h op) :
    Contract A h' op := by
  cases op <;> simp only [Contract] at hc ⊢ <;> first | exact absurd rfl hr | (rw [← hl]; exact hc) | exact hc

theorem obeys_congr {ops : List Op} {h h' : Hist} {st : St} (hl : live h = live h') (ho : Obeys cfg A h st ops) :
    Obeys cfg A h' st ops := by
  induction ops generalizing h h' st with
  | nil => trivial
  | cons op ops ih =>
    obtain ⟨h1, h2, h3⟩ := ho
    refine ⟨contract_congr hl h2 h1, h2, ?_⟩
    cases hs : step cfg st op with
    | error e => trivial
    | ok x =>
      rw [hs] at h3
      exact ih (by rw [live_append, live_append, hl]) h3

/-- The calls of a hook: they run without fault, keep the invariant of the shadow arena, and leave only the events of
allocations. -/
theorem hook_run (hA : 8 ∣ A) (hc : GoodCfg cfg2) (hs : Sane A cfg2) (hl : LikeCfg T U cfg cfg2) :
    ∀ {ops : List Op} {h : Hist} {s t : St}, Like sp T U s t → WF A t (live h) (pending h) →
      ((∃ x ∈ h, succeeded x) → t.blocks ≠ []) → Obeys cfg A h s ops →
      ∃ h2 s2 t2 new, run cfg s ops = .ok (h2, s2) ∧ Like sp T U s2 t2 ∧
        WF A t2 (live (h ++ h2)) (pending (h ++ h2)) ∧ ((∃ x ∈ h ++ h2, succeeded x) → t2.blocks ≠ []) ∧
        (t.blocks ≠ [] → t2.blocks ≠ []) ∧ t2.cookie = t.cookie ∧
        s2.trace = new ++ s.trace ∧ t2.trace = new ++ t.trace ∧ Answered cfg2 t.trace new ∧
        ∀ x ∈ h2, x.1 ≠ .reset := by
  intro ops
  induction ops with
  | nil =>
    intro h s t hlk wf hne _
    exact ⟨[], s, t, [], rfl, hlk, by simpa using wf, by simpa using hne, fun h => h, rfl, rfl, rfl, trivial, by simp⟩
  | cons op ops ih =>
    intro h s t hlk wf hne ho
    obtain ⟨h1, h2, h3⟩ := ho
    obtain ⟨r, t1, ok⟩ := step_ok hA hc hs wf hne h1
    have hso := step_like hl hlk h2
    rw [ok.eq] at hso
    rcases hso with ⟨e, _, he⟩ | ⟨a, s1, t1', e1, e2, hlk1⟩
    · cases he
    · simp only [Except.ok.injEq, Prod.mk.injEq] at e2
      obtain ⟨rfl, rfl⟩ := e2
      rw [e1] at h3
      obtain ⟨tr', hg, htr⟩ := ok.grow h2
      obtain ⟨n0, rfl, hn0⟩ := hg.answered
      have hne1 : (∃ x ∈ h ++ [(op, r)], succeeded x) → t1.blocks ≠ [] := by
        rintro ⟨x, hx, hsx⟩
        rcases List.mem_append.1 hx with hx | hx
        · exact ok.blocks (hne ⟨x, hx, hsx⟩)
        · rw [List.mem_singleton] at hx
          subst hx
          exact ok.succ hsx
      obtain ⟨n1, hn1, hans1⟩ : ∃ n1, t1.trace = n1 ++ t.trace ∧ Answered cfg2 t.trace n1 := by
        rw [htr]
        cases hookOf (op, r) with
        | none => exact ⟨n0, rfl, hn0⟩
        | some b => exact ⟨.allocated b t.cookie :: n0, rfl, hn0⟩
      have hns : s1.trace = n1 ++ s.trace := by
        obtain ⟨k, hk1, hk2⟩ := hlk.trace
        obtain ⟨k', hk1', hk2'⟩ := hlk1.trace
        rw [hk1', hk1]
        rw [hn1, hk2, ← List.append_assoc] at hk2'
        rw [← List.append_cancel_right hk2', List.append_assoc]
      obtain ⟨h2', s2, t2, new, e2, hlk2, wf2, hb2, hbb, hck, hs2, ht2, hans, hnr⟩ := ih hlk1 ok.wf hne1 h3
      refine ⟨(op, r) :: h2', s2, t2, new ++ n1, ?_, hlk2, ?_, ?_, fun h => hbb (ok.blocks h), hck.trans ok.cookie,
        ?_, ?_, ?_, ?_⟩
      · unfold run
        rw [e1]
        simp only [ok_bind, e2, pure_eq_ok]
      · simpa using wf2
      · simpa using hb2
      · rw [hs2, hns, List.append_assoc]
      · rw [ht2, hn1, List.append_assoc]
      · refine hans1.append ?_
        rw [← hn1]; exact hans
      · intro x hx
        rcases List.mem_cons.1 hx with rfl | hx
        · exact h2
        · exact hnr x hx

theorem LikeCfg.refl (T : List Ev) (cfg : Cfg) : LikeCfg T T cfg cfg := ⟨rfl, rfl, rfl, rfl, fun _ _ => rfl⟩

/-- The options with `block_alloc` answering after the past `U` as it does after `T`. -/
def shift (T U : List Ev) (cfg : Cfg) : Cfg :=
  { cfg with blockAlloc := fun tr n =>
      if U <:+ tr then cfg.blockAlloc (tr.take (tr.length - U.length) ++ T) n else none }

theorem shift_like (T U : List Ev) (cfg : Cfg) : LikeCfg T U cfg (shift T U cfg) := by
  refine ⟨rfl, rfl, rfl, rfl, ?_⟩
  intro new n
  simp [shift]

theorem held_mono (hm : ∀ r ∈ held U, r ∈ held T) (new : List Ev) : ∀ r ∈ held (new ++ U), r ∈ held (new ++ T) := by
  induction new with
  | nil => exact hm
  | cons e new ih =>
    cases e with
    | blockAlloc s r =>
      cases r with
      | none => exact ih
      | some p =>
        intro r hr
        rcases List.mem_cons.1 hr with rfl | hr
        · exact List.mem_cons_self
        · exact List.mem_cons_of_mem _ (ih r hr)
    | dealloc p =>
      intro r hr
      simp only [List.cons_append, held, List.mem_filter] at hr ⊢
      exact ⟨ih r hr.1, hr.2⟩
    | _ => exact ih

theorem shift_sane (hs : Sane A cfg) (hm : ∀ r ∈ held U, r ∈ held T) : Sane A (shift T U cfg) := by
  constructor
  · intro tr s p h
    simp only [shift] at h
    split at h
    · exact hs.aligned _ _ _ h
    · cases h
  · intro tr s p h
    simp only [shift] at h
    split at h
    · exact hs.nonnull _ _ _ h
    · cases h
  · intro tr s p h
    simp only [shift] at h
    split at h
    · exact hs.fits _ _ _ h
    · cases h
  · intro tr s p h r hr
    simp only [shift] at h
    split at h
    · rename_i hsuf
      obtain ⟨new, rfl⟩ := hsuf
      refine hs.fresh _ _ _ h r ?_
      have : List.take ((new ++ U).length - U.length) (new ++ U) = new := by simp
      rw [this]
      exact held_mono hm new r hr
    · cases h

theorem shift_good (hc : GoodCfg cfg) : GoodCfg (shift T U cfg) :=
  ⟨hc.normal_pos, hc.normal8, hc.huge8, hc.init8, hc.normal_le, hc.huge_le, hc.init_le⟩

end Verif.Arena
