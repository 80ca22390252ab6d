import Verif.Arena.HooksProps

/-!
A block hook that calls the arena, for every call that obtains memory: the model and the lemmas for C114.
-/

namespace Verif.Arena

open Verif.Align

/-! ### Model -/

/-- The common beginning of `allocateAligned` (arena/arena.cc:142-147) and `addCleanup` (arena/arena.hpp:576-580): a new
block is made if there is too little room in the newest. `calls` are made by its `on_arena_newblock`. -/
def ensureHook (cfg : Cfg) (st : St) (need alignment : Nat) (calls : List Op) :
    Except Fault (List (Op × Ret) × Bool × St) := do
  let new ← needCreateNewBlock cfg st need alignment
  if new then newBlockHook cfg st need calls else .ok ([], true, st)

/-- `Arena::allocateAligned`, arena/arena.cc:139-154. -/
def allocateAlignedHook (cfg : Cfg) (st : St) (bytes alignment : Nat) (calls : List Op) :
    Except Fault (List (Op × Ret) × Option Nat × St) := do
  let needed := alignUpTo8 bytes
  let (h, ok, st) ← ensureHook cfg st needed alignment calls
  if !ok then return (h, none, st)
  match st.blocks with
  | [] => .error (.ub "null _last_block")
  | b :: rest =>
    let (result, b) ← b.alloc cfg.dbg needed alignment
    assertDbg cfg.dbg (decide (result % 8 = 0)) "alloc result should aligned kByteSize"
    return (h, some result, { st with blocks := b :: rest })

/-- `Arena::addCleanup`, arena/arena.hpp:574-585. -/
def addCleanupHook (cfg : Cfg) (st : St) (n : Node) (calls : List Op) :
    Except Fault (List (Op × Ret) × Bool × St) := do
  let (h, ok, st) ← ensureHook cfg st kCleanupNodeSize kByteSize calls
  if !ok then return (h, false, st)
  match st.blocks with
  | [] => .error (.ub "null _last_block")
  | b :: rest =>
    let b ← b.registerCleanup cfg.dbg n
    return (h, true, { st with blocks := b :: rest })

/-- One call, with the calls that `on_arena_newblock` makes if a block is needed: `AllocateAligned`
(arena/arena.hpp:482-490), `CreateArray` (lines 452-475), `Own` (lines 386-388), `do_allocate` (lines 330-332) and the two
halves of `Create` (lines 430-444), each of which may need a block. The halves of `AllocateAlignedAndAddCleanup` (lines
496-509) are those of `do_allocate` and `Own`; as one call it is here with a hook that makes no calls. -/
def stepHook (cfg : Cfg) (st : St) (calls : List Op) : Op → Except Fault (List (Op × Ret) × Ret × St)
  | .allocate b a => do
    let (h, r, st) ← allocateAlignedHook cfg st b a calls
    match r with
    | none => return (h, .ptr none, st)
    | some p => return (h, .ptr (some p), st.emit (.allocated b st.cookie))
  | .createArray size num => do
    if size = 0 then .error (.ub "sizeof(T) is never 0")
    else
      let st := if num > (M64 - 1) / size then st.emit .log else st
      let bytes := mul64 size num
      let (h, r, st) ← allocateAlignedHook cfg st bytes kByteSize calls
      match r with
      | none => return (h, .ptr none, st)
      | some p =>
        let st ← memWrite st p (size * num)
        return (h, .ptr (some p), st.emit (.allocated bytes st.cookie))
  | .createBegin size => do
    let (h, r, st) ← allocateAlignedHook cfg st size kByteSize calls
    match r with
    | none => return (h, .ptr none, st)
    | some p =>
      let st ← memWrite st p size
      return (h, .ptr (some p), st)
  | .createEnd p size (some f) => do
    let (h, ok, st) ← addCleanupHook cfg st { element := p, cleanup := f } calls
    if !ok then return (h, .bool false, st)
    return (h, .bool true, st.emit (.allocated size st.cookie))
  | .own o f => do
    let (h, ok, st) ← addCleanupHook cfg st { element := o, cleanup := f } calls
    return (h, .bool ok, st)
  | .pmrAllocate b a => do
    let (h, r, st) ← allocateAlignedHook cfg st b (max kByteSize a) calls
    return (h, .ptr r, st)
  | op => do
    let (r, st) ← step cfg st op
    return ([], r, st)

/-! ### Specification -/

/-- The room a call asks for, and its alignment, if it asks once. -/
def roomFor : Op → Option (Nat × Nat)
  | .allocate b a => some (round8 b, a)
  | .createArray s n => some (round8 (s * n), 8)
  | .createBegin s => some (round8 s, 8)
  | .createEnd _ _ (some _) => some (16, 8)
  | .own _ _ => some (16, 8)
  | .pmrAllocate b a => some (round8 b, max 8 a)
  | _ => none

/-- `s` is the arena as the block hook finds it, if the call needs a block and there is memory for it. -/
def AtHook (cfg : Cfg) (st : St) (op : Op) (s : St) : Prop :=
  ∃ m a z p, roomFor op = some (m, a) ∧ needCreateNewBlock cfg st m a = .ok true ∧
    atNewBlock cfg st m = .ok (some (z, p), s)

/-- The calls obtain no block. -/
def NoBlock (cfg : Cfg) (s : St) (calls : List Op) : Prop :=
  ∀ h2 s2, run cfg s calls = .ok (h2, s2) → (grants s2.trace).length = (grants s.trace).length

/-- Executions in which every block hook may call the arena, obeying the contracts and obtaining no block. The calls of a
hook come before the call that needed the block. -/
inductive ExecH (cfg : Cfg) (A : Nat) : Hist → St → Prop where
  | init (cookie : Option Nat) : ExecH cfg A [] (mkArena cookie)
  | step {h h2 : Hist} {st st' : St} {op : Op} {calls : List Op} {r : Ret} :
      ExecH cfg A h st → Contract A h op → (∀ s, AtHook cfg st op s → Obeys cfg A h s calls ∧ NoBlock cfg s calls) →
      stepHook cfg st calls op = .ok (h2, r, st') → ExecH cfg A (h ++ h2 ++ [(op, r)]) st'

/-! ### Lemmas -/

variable {cfg : Cfg} {A : Nat} {st : St} {h : Hist}

/-- What holds in every state. -/
structure Good (A : Nat) (h : Hist) (st : St) : Prop where
  wf : WF A st (live h) (pending h)
  ne : (∃ x ∈ h, succeeded x) → st.blocks ≠ []

theorem live_mono {h2 : Hist} (hn : ∀ x ∈ h2, x.1 ≠ .reset) {r : Region} : ∀ {h : Hist}, r ∈ live h → r ∈ live (h ++ h2) := by
  induction h2 with
  | nil => intro h hr; simpa using hr
  | cons x xs ih =>
    intro h hr
    have e : h ++ x :: xs = (h ++ [x]) ++ xs := by simp
    rw [e]
    refine ih (fun y hy => hn y (by simp [hy])) ?_
    rw [live_append, if_neg (hn x (by simp))]
    exact List.mem_append_right _ hr

theorem contract_mono {h2 : Hist} (hn : ∀ x ∈ h2, x.1 ≠ .reset) {op : Op} (hc : Contract A h op) : Contract A (h ++ h2) op := by
  cases op with
  | createEnd p s d => exact live_mono hn hc
  | write p n =>
    obtain ⟨r, hr, h1⟩ := hc
    exact ⟨r, live_mono hn hr, h1⟩
  | reset =>
    obtain ⟨x, hx, h1⟩ := hc
    exact ⟨x, by simp [hx], h1⟩
  | _ => exact hc

theorem roomFor_ok (hA : 8 ∣ A) {op : Op} (hc : Contract A h op) {m a : Nat} (hr : roomFor op = some (m, a)) :
    8 ∣ m ∧ m ≤ 2 ^ 62 + 8 ∧ GoodAlign A a := by
  have h8 : GoodAlign A 8 := ⟨Or.inl rfl, hA⟩
  have hd : ∀ n, 8 ∣ round8 n := fun n => Nat.dvd_mul_left 8 _
  have hb : ∀ n, n ≤ 2 ^ 62 → round8 n ≤ 2 ^ 62 + 8 := fun n h => by unfold round8; omega
  cases op with
  | allocate b a' => cases hr; exact ⟨hd _, hb _ hc.1, hc.2⟩
  | createArray s n => cases hr; exact ⟨hd _, hb _ hc.2, h8⟩
  | createBegin s => cases hr; exact ⟨hd _, hb _ hc, h8⟩
  | createEnd p s d =>
    cases d with
    | none => cases hr
    | some f => cases hr; exact ⟨by decide, by decide, h8⟩
  | own o f => cases hr; exact ⟨by decide, by decide, h8⟩
  | pmrAllocate b a' => cases hr; exact ⟨hd _, hb _ hc.1, hc.2⟩
  | _ => cases hr

/-- A block that is held but not in the chain. -/
def LostBlock (st : St) : Prop := ∃ g ∈ held st.trace, ∀ b ∈ st.blocks, g.start ≠ b.base

/-- Making room: without the hook, or with it. -/
theorem ensureHook_ok (hA : 8 ∣ A) (hc : GoodCfg cfg) (hs : Sane A cfg) (hg : Good A h st) {m a : Nat} (h8 : 8 ∣ m)
    (hm : m ≤ 2 ^ 62 + 8) (ha : GoodAlign A a) {calls : List Op}
    (ho : ∀ z p s, needCreateNewBlock cfg st m a = .ok true → atNewBlock cfg st m = .ok (some (z, p), s) →
      Obeys cfg A h s calls) :
    (needCreateNewBlock cfg st m a = .ok false ∧ ensureHook cfg st m a calls = .ok ([], true, st)) ∨
    (∃ st', needCreateNewBlock cfg st m a = .ok true ∧ newBlock cfg st m = .ok (false, st') ∧
      ensureHook cfg st m a calls = .ok ([], false, st') ∧ grants st'.trace = grants st.trace) ∨
    ∃ z p s h2 s2 s4, needCreateNewBlock cfg st m a = .ok true ∧ atNewBlock cfg st m = .ok (some (z, p), s) ∧
      run cfg s calls = .ok (h2, s2) ∧ ensureHook cfg st m a calls = .ok (h2, true, s4) ∧
      needCreateNewBlock cfg s4 m a = .ok false ∧ (∀ x ∈ h2, x.1 ≠ .reset) ∧ s4.trace = s2.trace ∧
      (grants s.trace).length = (grants st.trace).length + 1 ∧ (grants s.trace).length ≤ (grants s2.trace).length ∧
      ((grants s2.trace).length = (grants s.trace).length → Good A (h ++ h2) s4 ∧ ran s4.trace = ran st.trace) ∧
      ((grants s.trace).length < (grants s2.trace).length → LostBlock s4) := by
  obtain ⟨wf, hne⟩ := hg
  obtain ⟨hb8, hb32, _, _⟩ := ha.bounds
  have hneed : ∃ need, needCreateNewBlock cfg st m a = .ok need := by
    cases hb : st.blocks with
    | nil => exact ⟨true, by unfold needCreateNewBlock; rw [hb]⟩
    | cons b rest => exact ⟨_, needCreate_cons wf hb hb8 hb32 hm⟩
  obtain ⟨need, hneed⟩ := hneed
  cases need with
  | false =>
    left
    refine ⟨hneed, ?_⟩
    unfold ensureHook
    rw [hneed]
    rfl
  | true =>
    right
    have hat := atNewBlock_eq (st := st) hc hm
    cases hmem : cfg.blockAlloc st.trace (chosenSize cfg m (!st.blocks.isEmpty)) with
    | none =>
      left
      rw [hmem] at hat
      have hnb := newBlock_at cfg st m
      rw [hat] at hnb
      simp only [ok_bind] at hnb
      refine ⟨_, hneed, hnb, ?_, rfl⟩
      unfold ensureHook newBlockHook
      simp only [hneed, hat, ok_bind, if_true, pure_eq_ok]
    | some p =>
      right
      rw [hmem] at hat
      simp only at hat
      have hwf := afterNewBlock_wf hc hs wf h8 hmem
      have hge := chosenSize_ge cfg m (!st.blocks.isEmpty)
      generalize hz : chosenSize cfg m (!st.blocks.isEmpty) = z at *
      have hbk : BlockOK A (Block.mk' p z) := hwf.ok _ (by simp [afterNewBlock])
      have ho := ho z p _ hneed hat
      have hlk : Like true (.newblock st.blocks.length z st.cookie :: .blockAlloc z (some p) :: st.trace) st.trace
          ((st.emit (.blockAlloc z (some p))).emit (.newblock st.blocks.length z st.cookie)) st :=
        ⟨rfl, rfl, ⟨[], rfl, rfl⟩, fun _ => rfl⟩
      obtain ⟨h2, s2, t2, new, e2, hlk2, wf2, hne2, hbb, hck2, hs2, ht2, hans, hnr⟩ :=
        hook_run hA (shift_good hc) (shift_sane hs (T := .newblock st.blocks.length z st.cookie ::
          .blockAlloc z (some p) :: st.trace) (U := st.trace) (fun r hr => List.mem_cons_of_mem _ hr))
          (shift_like _ _ cfg) hlk wf hne ho
      have hfit : Fits (Block.mk' p z) m a := (mk'_fits (size := z) (need := m) ha hbk.aligned (by omega)).2
      refine ⟨z, p, _, h2, s2, ⟨Block.mk' p z :: s2.blocks.drop (s2.blocks.length - st.blocks.length), s2.cookie,
        add64 s2.space z, s2.trace⟩, hneed, hat, e2, ?_, ?_, hnr, rfl, rfl, ?_, ?_, ?_⟩
      · unfold ensureHook newBlockHook
        simp only [hneed, hat, ok_bind, if_true, e2, pure_eq_ok]
        rw [if_neg (by simp only [kBlockHeaderSize_eq]; omega)]
        rfl
      · unfold needCreateNewBlock
        simp only
        unfold Fits at hfit
        rw [hasEnoughSpace_ok hbk hb8 hb32 hm]
        simp only [hfit, decide_true, ok_bind, Bool.not_true, pure_eq_ok]
      · show (grants _).length ≤ _
        rw [hs2, hans.grants]
        exact Nat.le_add_left _ _
      · intro hgr
        have hnew : held new = [] := by
          rw [hs2, hans.grants] at hgr
          exact List.eq_nil_of_length_eq_zero (by
            simp only [St.emit] at hgr
            omega)
        have hh : held t2.trace = held st.trace := by rw [ht2, hans.held, hnew]; rfl
        have hlen : t2.blocks.length = st.blocks.length := by
          have h1 := wf2.held_eq
          rw [hh, wf.held_eq] at h1
          have := congrArg List.length h1
          simpa using this.symm
        have hem : t2.blocks.isEmpty = st.blocks.isEmpty := by
          cases h1 : t2.blocks <;> cases h2 : st.blocks <;> simp [h1, h2] at hlen ⊢
        have hdrop : s2.blocks.drop (s2.blocks.length - st.blocks.length) = t2.blocks := by
          rw [hlk2.blocks, hlen, Nat.sub_self]; rfl
        rw [hdrop]
        have hz' : z = chosenSize cfg m (!t2.blocks.isEmpty) := by rw [hem]; exact hz.symm
        have wf3 := wf_linked (st := st) (m := m) (p := p) hc hs wf2 h8 hh (by rw [← hz']; exact hmem)
        rw [← hz'] at wf3
        have hsp3 := wf3.space_lt
        refine ⟨⟨⟨wf3.ok, wf3.disj, ?_, ?_, wf3.nodes, wf3.regs_in, wf3.regs_disj⟩, by simp⟩, ?_⟩
        · have h1 := wf3.held_eq
          show held s2.trace = _
          rw [hs2, hans.held, hnew]
          have h5 : held (afterNewBlock t2 p z).trace = ⟨p, z⟩ :: held t2.trace := rfl
          rw [h5, hh] at h1
          exact h1
        · show add64 s2.space z = _
          rw [hlk2.space rfl, add64_of_lt (by
            have : (afterNewBlock t2 p z).space = t2.space + z := rfl
            rw [this] at hsp3
            have : M64 = 2 ^ 64 := rfl
            omega)]
          exact wf3.space_eq
        · show ran s2.trace = _
          rw [hs2, hans.ran]
          simp [ran, St.emit]
      · intro hgr
        rw [hs2, hans.grants] at hgr
        cases hnew : held new with
        | nil => rw [hnew] at hgr; simp at hgr
        | cons g gs =>
          obtain ⟨hg32, hfr⟩ := hans.fresh (shift_like _ _ cfg) hs g (by rw [hnew]; simp)
          have hst : ∀ k : Region,
              k ∈ held (.newblock st.blocks.length z st.cookie :: .blockAlloc z (some p) :: st.trace) →
              0 < k.len → g.start ≠ k.start := by
            intro k hk hkl heq
            refine hfr k hk g.start ?_
            refine ⟨⟨Nat.le_refl _, by omega⟩, ?_, ?_⟩ <;> omega
          have hdrop : (s2.blocks.drop (s2.blocks.length - st.blocks.length)).map Block.region =
              st.blocks.map Block.region := by
            have h1 := wf2.held_eq
            rw [ht2, hans.held, wf.held_eq] at h1
            have h3 : t2.blocks.length = (held new).length + st.blocks.length := by
              have := congrArg List.length h1
              simpa using this.symm
            rw [hlk2.blocks, List.map_drop, ← h1, h3, Nat.add_sub_cancel]
            simp
          refine ⟨g, ?_, ?_⟩
          · show g ∈ held s2.trace
            rw [hs2, hans.held, hnew]
            simp
          · intro c hcm heq
            rcases List.mem_cons.1 hcm with rfl | hcb
            · exact hst ⟨p, z⟩ (by simp [held]) (by show 0 < z; omega) (by rw [heq]; rfl)
            · have hd3 : c.region ∈ st.blocks.map Block.region := by
                rw [← hdrop]; exact List.mem_map_of_mem hcb
              have hd4 := hd3
              rw [← wf.held_eq] at hd4
              obtain ⟨d', hd5, hd6⟩ := List.mem_map.1 hd3
              have hok := wf.ok d' hd5
              have := hok.hdr; have := hok.pos_le; have := hok.limit_le
              refine hst c.region ?_ ?_ ?_
              · simp only [held]
                exact List.mem_cons_of_mem _ hd4
              · rw [← hd6]; show 0 < d'.size; omega
              · rw [heq]; rfl

theorem mul64_small {s n : Nat} (h : s * n ≤ 2 ^ 62) : mul64 s n = s * n := by
  unfold mul64
  exact Nat.mod_eq_of_lt (by have : M64 = 2 ^ 64 := rfl; omega)

theorem noLog {s n : Nat} (hs : 0 < s) (h : s * n ≤ 2 ^ 62) : ¬ n > (M64 - 1) / s := by
  rw [Nat.not_lt]
  refine (Nat.le_div_iff_mul_le hs).2 ?_
  rw [Nat.mul_comm]
  have : M64 = 2 ^ 64 := rfl
  omega

/-- With room made, the rest of the call is that of the call without a hook. -/
theorem stepHook_room {op : Op} (hc : Contract A h op) {m a : Nat} (hr : roomFor op = some (m, a)) {calls : List Op}
    {h2 : Hist} {s : St} (he : ensureHook cfg st m a calls = .ok (h2, true, s))
    (hn : needCreateNewBlock cfg s m a = .ok false) :
    stepHook cfg st calls op = (step cfg s op).map (fun x => (h2, x)) := by
  have hal : ∀ {b a' : Nat}, b ≤ 2 ^ 62 → (round8 b, a') = (m, a) →
      allocateAlignedHook cfg st b a' calls = (allocateAligned cfg s b a').map (fun x => (h2, x)) := by
    intro b a' hb e
    cases e
    unfold allocateAlignedHook allocateAligned
    rw [alignUpTo8_round8 hb]
    simp only [he, hn, ok_bind, Bool.not_true, Bool.false_eq_true, if_false]
    cases s.blocks with
    | nil => rfl
    | cons b0 rest =>
      simp only
      cases b0.alloc cfg.dbg (round8 b) a with
      | error e => rfl
      | ok x =>
        simp only [ok_bind]
        cases assertDbg cfg.dbg (decide (x.1 % 8 = 0)) "alloc result should aligned kByteSize" <;> rfl
  have hcl : ∀ {n : Node}, (16, 8) = (m, a) →
      addCleanupHook cfg st n calls = (addCleanup cfg s n).map (fun x => (h2, x)) := by
    intro n e
    cases e
    unfold addCleanupHook addCleanup
    rw [show kCleanupNodeSize = 16 from rfl, show kByteSize = 8 from rfl]
    simp only [he, hn, ok_bind, Bool.not_true, Bool.false_eq_true, if_false]
    cases s.blocks with
    | nil => rfl
    | cons b0 rest =>
      simp only
      cases b0.registerCleanup cfg.dbg n <;> rfl
  cases op with
  | allocate b a' =>
    simp only [stepHook, step, AllocateAligned, hal hc.1 (Option.some.inj hr)]
    cases allocateAligned cfg s b a' with
    | error e => rfl
    | ok x =>
      obtain ⟨r, s'⟩ := x
      cases r <;> rfl
  | createArray z n =>
    have hz : z ≠ 0 := by have := hc.1; omega
    simp only [stepHook, step, CreateArray, mul64_small hc.2, if_neg hz, if_neg (noLog hc.1 hc.2)]
    rw [show kByteSize = 8 from rfl, hal hc.2 (Option.some.inj hr)]
    cases allocateAligned cfg s (z * n) 8 with
    | error e => rfl
    | ok x =>
      obtain ⟨r, s'⟩ := x
      cases r with
      | none => rfl
      | some p =>
        simp only [Except.map, ok_bind]
        cases memWrite s' p (z * n) <;> rfl
  | createBegin z =>
    simp only [stepHook, step, Arena.createBegin]
    rw [show kByteSize = 8 from rfl, hal hc (Option.some.inj hr)]
    cases allocateAligned cfg s z 8 with
    | error e => rfl
    | ok x =>
      obtain ⟨r, s'⟩ := x
      cases r with
      | none => rfl
      | some p =>
        simp only [Except.map, ok_bind]
        cases memWrite s' p z <;> rfl
  | createEnd p z d =>
    cases d with
    | none => cases hr
    | some f =>
      simp only [stepHook, step, Arena.createEnd, hcl (Option.some.inj hr)]
      cases addCleanup cfg s { element := p, cleanup := f } with
      | error e => rfl
      | ok x =>
        obtain ⟨r, s'⟩ := x
        cases r <;> rfl
  | own o f =>
    simp only [stepHook, step, Own, hcl (Option.some.inj hr)]
    cases addCleanup cfg s { element := o, cleanup := f } with
    | error e => rfl
    | ok x => rfl
  | pmrAllocate b a' =>
    simp only [stepHook, step, Arena.pmrAllocate]
    rw [show kByteSize = 8 from rfl, hal hc.1 (Option.some.inj hr)]
    cases allocateAligned cfg s b (max 8 a') with
    | error e => rfl
    | ok x => rfl
  | _ => cases hr

/-- Without memory for a block, the call is that without a hook. -/
theorem stepHook_fail {op : Op} (hc : Contract A h op) {m a : Nat} (hr : roomFor op = some (m, a)) {calls : List Op}
    {s : St} (hn : needCreateNewBlock cfg st m a = .ok true) (hb : newBlock cfg st m = .ok (false, s))
    (he : ensureHook cfg st m a calls = .ok ([], false, s)) :
    stepHook cfg st calls op = (step cfg st op).map (fun x => ([], x)) := by
  have hal : ∀ {b a' : Nat}, b ≤ 2 ^ 62 → (round8 b, a') = (m, a) →
      allocateAlignedHook cfg st b a' calls = .ok ([], none, s) ∧ allocateAligned cfg st b a' = .ok (none, s) := by
    intro b a' hb' e
    cases e
    unfold allocateAlignedHook allocateAligned
    rw [alignUpTo8_round8 hb']
    simp only [he, hn, hb, ok_bind, Bool.not_false, if_true, pure_eq_ok, and_self]
  have hcl : ∀ {n : Node}, (16, 8) = (m, a) →
      addCleanupHook cfg st n calls = .ok ([], false, s) ∧ addCleanup cfg st n = .ok (false, s) := by
    intro n e
    cases e
    unfold addCleanupHook addCleanup
    rw [show kCleanupNodeSize = 16 from rfl, show kByteSize = 8 from rfl]
    simp only [he, hn, hb, ok_bind, Bool.not_false, if_true, pure_eq_ok, and_self]
  cases op with
  | allocate b a' =>
    obtain ⟨e1, e2⟩ := hal hc.1 (Option.some.inj hr)
    simp only [stepHook, step, AllocateAligned, e1, e2]
    rfl
  | createArray z n =>
    obtain ⟨e1, e2⟩ := hal hc.2 (Option.some.inj hr)
    have hz : z ≠ 0 := by have := hc.1; omega
    simp only [stepHook, step, CreateArray, mul64_small hc.2, if_neg hz, if_neg (noLog hc.1 hc.2)]
    rw [show kByteSize = 8 from rfl, e1, e2]
    rfl
  | createBegin z =>
    obtain ⟨e1, e2⟩ := hal hc (Option.some.inj hr)
    simp only [stepHook, step, Arena.createBegin]
    rw [show kByteSize = 8 from rfl, e1, e2]
    rfl
  | createEnd p z d =>
    cases d with
    | none => cases hr
    | some f =>
      simp only [stepHook, step, Arena.createEnd, (hcl (Option.some.inj hr)).1, (hcl (Option.some.inj hr)).2]
      rfl
  | own o f =>
    simp only [stepHook, step, Own, (hcl (Option.some.inj hr)).1, (hcl (Option.some.inj hr)).2]
    rfl
  | pmrAllocate b a' =>
    obtain ⟨e1, e2⟩ := hal hc.1 (Option.some.inj hr)
    simp only [stepHook, step, Arena.pmrAllocate]
    rw [show kByteSize = 8 from rfl, e1, e2]
    rfl
  | _ => cases hr

theorem stepHook_none {op : Op} (hr : roomFor op = none) {calls : List Op} :
    stepHook cfg st calls op = (step cfg st op).map (fun x => ([], x)) := by
  have key : (step cfg st op >>= fun x => pure ([], x.1, x.2)) = (step cfg st op).map (fun x => (([] : Hist), x)) := by
    cases step cfg st op <;> rfl
  cases op with
  | createEnd p z d =>
    cases d with
    | none => exact key
    | some f => cases hr
  | allocate b a => cases hr
  | createArray z n => cases hr
  | createBegin z => cases hr
  | own o f => cases hr
  | pmrAllocate b a => cases hr
  | create z d => exact key
  | allocateCleanup b f e => exact key
  | pmrDeallocate p b a => exact key
  | reset => exact key
  | write p n => exact key

/-- A call whose hook obeys its contracts and obtains no block. -/
theorem stepHook_good (hA : 8 ∣ A) (hc : GoodCfg cfg) (hs : Sane A cfg) (hg : Good A h st) {op : Op} {calls : List Op}
    (hop : Contract A h op) (ho : ∀ s, AtHook cfg st op s → Obeys cfg A h s calls ∧ NoBlock cfg s calls) :
    ∃ h2 r st' s, stepHook cfg st calls op = .ok (h2, r, st') ∧ Good A (h ++ h2) s ∧ ran s.trace = ran st.trace ∧
      StepOK cfg A s op (h ++ h2) r st' ∧ Good A (h ++ h2 ++ [(op, r)]) st' ∧ (op = .reset → h2 = []) := by
  have fin : ∀ {h2 : Hist} {s : St}, stepHook cfg st calls op = (step cfg s op).map (fun x => (h2, x)) →
      Good A (h ++ h2) s → ran s.trace = ran st.trace → (∀ x ∈ h2, x.1 ≠ .reset) → (op = .reset → h2 = []) →
      ∃ h2 r st' s, stepHook cfg st calls op = .ok (h2, r, st') ∧ Good A (h ++ h2) s ∧ ran s.trace = ran st.trace ∧
        StepOK cfg A s op (h ++ h2) r st' ∧ Good A (h ++ h2 ++ [(op, r)]) st' ∧ (op = .reset → h2 = []) := by
    intro h2 s e hg2 hran hnr hrs
    obtain ⟨r, st', ok⟩ := step_ok hA hc hs hg2.wf hg2.ne (contract_mono hnr hop)
    refine ⟨h2, r, st', s, ?_, hg2, hran, ok, ⟨ok.wf, ?_⟩, hrs⟩
    · rw [e, ok.eq]; rfl
    · rintro ⟨x, hx, hsx⟩
      rcases List.mem_append.1 hx with hx | hx
      · exact ok.blocks (hg2.ne ⟨x, hx, hsx⟩)
      · rw [List.mem_singleton] at hx
        subst hx
        exact ok.succ hsx
  have hg0 : Good A (h ++ []) st := by simpa using hg
  cases hr : roomFor op with
  | none => exact fin (stepHook_none hr) hg0 rfl (by simp) (fun _ => rfl)
  | some ma =>
    obtain ⟨m, a⟩ := ma
    have hrs : op = .reset → False := by rintro rfl; cases hr
    obtain ⟨h8, hm, ha⟩ := roomFor_ok hA hop hr
    rcases ensureHook_ok hA hc hs hg h8 hm ha (calls := calls) (fun z p s e1 e2 => (ho s ⟨m, a, z, p, hr, e1, e2⟩).1) with
      ⟨e1, e2⟩ | ⟨st', e1, e2, e3, _⟩ | ⟨z, p, s, h2, s2, s4, e1, e2, e3, e4, e5, e6, e7, e8, e9, e10, _⟩
    · exact fin (stepHook_room hop hr e2 e1) hg0 rfl (by simp) (fun _ => rfl)
    · exact fin (stepHook_fail hop hr e1 e2 e3) hg0 rfl (by simp) (fun _ => rfl)
    · obtain ⟨g1, g2⟩ := e10 ((ho s ⟨m, a, z, p, hr, e1, e2⟩).2 h2 s2 e3)
      exact fin (stepHook_room hop hr e4 e5) g1 g2 e6 (fun h => (hrs h).elim)

theorem execH_good (hA : 8 ∣ A) (hc : GoodCfg cfg) (hs : Sane A cfg) (he : ExecH cfg A h st) : Good A h st := by
  induction he with
  | init cookie =>
    obtain ⟨a, b⟩ := exec_inv hA hc hs (Exec.init (cfg := cfg) (A := A) cookie)
    exact ⟨a, b⟩
  | step he hop ho e ih =>
    obtain ⟨h2, r, st', s, e1, _, _, _, e2, _⟩ := stepHook_good hA hc hs ih hop ho
    rw [e] at e1
    simp only [Except.ok.injEq, Prod.mk.injEq] at e1
    obtain ⟨rfl, rfl, rfl⟩ := e1
    exact e2

/-! ### A lost block stays lost -/

theorem alloc_base {dbg : Bool} {b b' : Block} {n a p : Nat} (e : b.alloc dbg n a = .ok (p, b')) : b'.base = b.base := by
  have key : ∀ {x : Except Fault (Nat × Nat)},
      (x >>= fun y => pure (y.1, { b with pos := add64 b.pos (add64 n y.2) })) = .ok (p, b') → b'.base = b.base := by
    intro x e
    cases x with
    | error f => cases e
    | ok y => cases e; rfl
  unfold Block.alloc at e
  cases dbg with
  | false => exact key e
  | true =>
    rw [if_pos rfl] at e
    obtain ⟨u, _, e⟩ := bind_eq_ok.1 e
    obtain ⟨_, _, e⟩ := bind_eq_ok.1 e
    exact key e

theorem registerCleanup_base {dbg : Bool} {b b' : Block} {n : Node} (e : b.registerCleanup dbg n = .ok b') :
    b'.base = b.base := by
  unfold Block.registerCleanup at e
  obtain ⟨u, _, e⟩ := bind_eq_ok.1 e
  dsimp only at e
  split at e
  · cases e; rfl
  · cases e

theorem memWrite_base {s s' : St} {p n : Nat} (e : memWrite s p n = .ok s') :
    s'.blocks.map Block.base = s.blocks.map Block.base ∧ s'.trace = s.trace := by
  unfold memWrite at e
  split at e
  · cases e; exact ⟨rfl, rfl⟩
  · split at e
    · split at e
      · cases e
      · cases e
        refine ⟨?_, rfl⟩
        rw [List.map_map]
        rfl
    · cases e

theorem LostBlock.of {s s' : St} (hl : LostBlock s) (hb : s'.blocks.map Block.base = s.blocks.map Block.base)
    (ht : held s'.trace = held s.trace) : LostBlock s' := by
  obtain ⟨g, h1, h2⟩ := hl
  refine ⟨g, by rw [ht]; exact h1, ?_⟩
  intro b hbm
  have : b.base ∈ s.blocks.map Block.base := by rw [← hb]; exact List.mem_map_of_mem hbm
  obtain ⟨c, hc, e⟩ := List.mem_map.1 this
  rw [← e]
  exact h2 c hc

theorem LostBlock.destroy (hl : LostBlock st) {tr : List Ev} (hd : Arena.destroy cfg st = .ok tr) : held tr ≠ [] := by
  obtain ⟨g, h1, h2⟩ := hl
  unfold Arena.destroy at hd
  obtain ⟨⟨w, tr1⟩, hf, hd⟩ := bind_eq_ok.1 hd
  simp only [pure_eq_ok, Except.ok.injEq] at hd
  have := freeAllBlocks_keeps hf g h1 h2
  rw [← hd]
  intro e
  rw [show held (.destroyed st.space w st.cookie :: tr1) = held tr1 from rfl] at e
  rw [e] at this
  cases this

/-- A call that has room for itself obtains no block and lets none go. -/
theorem step_room_keeps {op : Op} (hc : Contract A h op) {m a : Nat} (hr : roomFor op = some (m, a)) {s s' : St} {r : Ret}
    (hn : needCreateNewBlock cfg s m a = .ok false) (e : step cfg s op = .ok (r, s')) :
    s'.blocks.map Block.base = s.blocks.map Block.base ∧ held s'.trace = held s.trace := by
  have hal : ∀ {b a' : Nat} {q : Option Nat} {t : St}, b ≤ 2 ^ 62 → (round8 b, a') = (m, a) →
      allocateAligned cfg s b a' = .ok (q, t) → t.blocks.map Block.base = s.blocks.map Block.base ∧ t.trace = s.trace := by
    intro b a' q t hb e e1
    cases e
    unfold allocateAligned at e1
    rw [alignUpTo8_round8 hb] at e1
    simp only [hn, ok_bind, Bool.not_true, Bool.false_eq_true, if_false] at e1
    split at e1
    · cases e1
    · rename_i b0 rest hbl
      obtain ⟨⟨p, b1⟩, e2, e1⟩ := bind_eq_ok.1 e1
      obtain ⟨_, _, e1⟩ := bind_eq_ok.1 e1
      simp only [pure_eq_ok, Except.ok.injEq, Prod.mk.injEq] at e1
      rw [← e1.2, hbl]
      simp [alloc_base e2]
  have hcl : ∀ {n : Node} {q : Bool} {t : St}, (16, 8) = (m, a) →
      addCleanup cfg s n = .ok (q, t) → t.blocks.map Block.base = s.blocks.map Block.base ∧ t.trace = s.trace := by
    intro n q t e e1
    cases e
    unfold addCleanup at e1
    rw [show kCleanupNodeSize = 16 from rfl, show kByteSize = 8 from rfl] at e1
    simp only [hn, ok_bind, Bool.not_true, Bool.false_eq_true, if_false] at e1
    split at e1
    · cases e1
    · rename_i b0 rest hbl
      obtain ⟨b1, e2, e1⟩ := bind_eq_ok.1 e1
      simp only [pure_eq_ok, Except.ok.injEq, Prod.mk.injEq] at e1
      rw [← e1.2, hbl]
      simp [registerCleanup_base e2]
  cases op with
  | allocate b a' =>
    simp only [step, AllocateAligned] at e
    obtain ⟨⟨q, t⟩, e1, e⟩ := bind_eq_ok.1 e
    obtain ⟨⟨q', t'⟩, e2, e1⟩ := bind_eq_ok.1 e1
    obtain ⟨g1, g2⟩ := hal hc.1 (Option.some.inj hr) e2
    cases q' <;> cases e1 <;> cases e <;> exact ⟨g1, by show held t'.trace = _; rw [g2]⟩
  | createArray z n =>
    have hz : z ≠ 0 := by have := hc.1; omega
    simp only [step, CreateArray, mul64_small hc.2, if_neg hz, if_neg (noLog hc.1 hc.2)] at e
    obtain ⟨⟨q, t⟩, e1, e⟩ := bind_eq_ok.1 e
    obtain ⟨⟨q', t'⟩, e2, e1⟩ := bind_eq_ok.1 e1
    obtain ⟨g1, g2⟩ := hal hc.2 (Option.some.inj hr) e2
    cases q' with
    | none => cases e1; cases e; exact ⟨g1, by rw [g2]⟩
    | some p =>
      obtain ⟨t2, e3, e1⟩ := bind_eq_ok.1 e1
      obtain ⟨g3, g4⟩ := memWrite_base e3
      cases e1; cases e
      exact ⟨g3.trans g1, by show held t2.trace = _; rw [g4, g2]⟩
  | createBegin z =>
    simp only [step, Arena.createBegin] at e
    obtain ⟨⟨q, t⟩, e1, e⟩ := bind_eq_ok.1 e
    obtain ⟨⟨q', t'⟩, e2, e1⟩ := bind_eq_ok.1 e1
    obtain ⟨g1, g2⟩ := hal hc (Option.some.inj hr) e2
    cases q' with
    | none => cases e1; cases e; exact ⟨g1, by rw [g2]⟩
    | some p =>
      obtain ⟨t2, e3, e1⟩ := bind_eq_ok.1 e1
      obtain ⟨g3, g4⟩ := memWrite_base e3
      cases e1; cases e
      exact ⟨g3.trans g1, by rw [g4, g2]⟩
  | createEnd p z d =>
    cases d with
    | none => cases hr
    | some f =>
      simp only [step, Arena.createEnd] at e
      obtain ⟨⟨q, t⟩, e1, e⟩ := bind_eq_ok.1 e
      obtain ⟨⟨q', t'⟩, e2, e1⟩ := bind_eq_ok.1 e1
      obtain ⟨g1, g2⟩ := hcl (Option.some.inj hr) e2
      cases q' <;> cases e1 <;> cases e <;> exact ⟨g1, by show held t'.trace = _; rw [g2]⟩
  | own o f =>
    simp only [step, Own] at e
    obtain ⟨⟨q, t⟩, e2, e⟩ := bind_eq_ok.1 e
    obtain ⟨g1, g2⟩ := hcl (Option.some.inj hr) e2
    cases e
    exact ⟨g1, by rw [← g2]⟩
  | pmrAllocate b a' =>
    simp only [step, Arena.pmrAllocate] at e
    obtain ⟨⟨q, t⟩, e2, e⟩ := bind_eq_ok.1 e
    obtain ⟨g1, g2⟩ := hal hc.1 (Option.some.inj hr) e2
    cases e
    exact ⟨g1, by rw [← g2]⟩
  | _ => cases hr

/-! ### The model with a hook against those without -/

theorem newBlockHook_nil (cfg : Cfg) (st : St) (m : Nat) :
    newBlockHook cfg st m [] = (newBlock cfg st m).map (fun x => ([], x)) := by
  rw [newBlock_at]
  unfold newBlockHook
  cases atNewBlock cfg st m with
  | error e => rfl
  | ok x =>
    obtain ⟨mem, s⟩ := x
    cases mem with
    | none => rfl
    | some zp =>
      obtain ⟨z, p⟩ := zp
      simp only [ok_bind, run]
      split
      · rfl
      · simp [Except.map]

theorem allocateAlignedHook_nil (cfg : Cfg) (st : St) (b a : Nat) :
    allocateAlignedHook cfg st b a [] = (allocateAligned cfg st b a).map (fun x => ([], x)) := by
  have key : ∀ {x : Except Fault (Bool × St)} {b a : Nat},
      (x.map (fun y => (([] : Hist), y)) >>= fun y => if (!y.2.1) = true then pure (y.1, none, y.2.2) else
        match y.2.2.blocks with
        | [] => .error (.ub "null _last_block")
        | c :: rest => c.alloc cfg.dbg b a >>= fun u =>
          assertDbg cfg.dbg (decide (u.1 % 8 = 0)) "alloc result should aligned kByteSize" >>= fun _ =>
            pure (y.1, some u.1, { y.2.2 with blocks := u.2 :: rest })) =
      (x >>= fun y => if (!y.1) = true then pure (none, y.2) else
        match y.2.blocks with
        | [] => .error (.ub "null _last_block")
        | c :: rest => c.alloc cfg.dbg b a >>= fun u =>
          assertDbg cfg.dbg (decide (u.1 % 8 = 0)) "alloc result should aligned kByteSize" >>= fun _ =>
            pure (some u.1, { y.2 with blocks := u.2 :: rest })).map (fun x => (([] : Hist), x)) := by
    intro x b a
    cases x with
    | error e => rfl
    | ok y =>
      obtain ⟨ok, s⟩ := y
      cases ok with
      | false => rfl
      | true =>
        simp only [Except.map, ok_bind, Bool.not_true, Bool.false_eq_true, if_false]
        cases s.blocks with
        | nil => rfl
        | cons c rest =>
          simp only
          cases c.alloc cfg.dbg b a with
          | error e => rfl
          | ok u =>
            simp only [ok_bind]
            cases assertDbg cfg.dbg (decide (u.1 % 8 = 0)) "alloc result should aligned kByteSize" <;> rfl
  unfold allocateAlignedHook allocateAligned ensureHook
  dsimp only
  cases needCreateNewBlock cfg st (alignUpTo8 b) a with
  | error e => rfl
  | ok need =>
    simp only [ok_bind]
    cases need with
    | true => rw [if_pos rfl, if_pos rfl, newBlockHook_nil]; exact key
    | false => rw [if_neg (by simp), if_neg (by simp)]; exact key (x := .ok (true, st))

theorem addCleanupHook_nil (cfg : Cfg) (st : St) (n : Node) :
    addCleanupHook cfg st n [] = (addCleanup cfg st n).map (fun x => ([], x)) := by
  have key : ∀ {x : Except Fault (Bool × St)},
      (x.map (fun y => (([] : Hist), y)) >>= fun y => if (!y.2.1) = true then pure (y.1, false, y.2.2) else
        match y.2.2.blocks with
        | [] => .error (.ub "null _last_block")
        | c :: rest => c.registerCleanup cfg.dbg n >>= fun u => pure (y.1, true, { y.2.2 with blocks := u :: rest })) =
      (x >>= fun y => if (!y.1) = true then pure (false, y.2) else
        match y.2.blocks with
        | [] => .error (.ub "null _last_block")
        | c :: rest => c.registerCleanup cfg.dbg n >>= fun u =>
            pure (true, { y.2 with blocks := u :: rest })).map (fun x => (([] : Hist), x)) := by
    intro x
    cases x with
    | error e => rfl
    | ok y =>
      obtain ⟨ok, s⟩ := y
      cases ok with
      | false => rfl
      | true =>
        simp only [Except.map, ok_bind, Bool.not_true, Bool.false_eq_true, if_false]
        cases s.blocks with
        | nil => rfl
        | cons c rest =>
          simp only
          cases c.registerCleanup cfg.dbg n <;> rfl
  unfold addCleanupHook addCleanup ensureHook
  cases needCreateNewBlock cfg st kCleanupNodeSize kByteSize with
  | error e => rfl
  | ok need =>
    simp only [ok_bind]
    cases need with
    | true => rw [if_pos rfl, if_pos rfl, newBlockHook_nil]; exact key
    | false => rw [if_neg (by simp), if_neg (by simp)]; exact key (x := .ok (true, st))

/-- A hook that makes no calls changes nothing: the model is that of C01 to C20. -/
theorem stepHook_nil (cfg : Cfg) (st : St) (op : Op) :
    stepHook cfg st [] op = (step cfg st op).map (fun x => ([], x)) := by
  cases op with
  | allocate b a =>
    simp only [stepHook, step, AllocateAligned, allocateAlignedHook_nil]
    cases allocateAligned cfg st b a with
    | error e => rfl
    | ok x => obtain ⟨r, s⟩ := x; cases r <;> rfl
  | createArray z n =>
    simp only [stepHook, step, CreateArray, allocateAlignedHook_nil]
    split
    · rfl
    · generalize (if n > (M64 - 1) / z then st.emit .log else st) = st1
      cases allocateAligned cfg st1 (mul64 z n) kByteSize with
      | error e => rfl
      | ok x =>
        obtain ⟨r, s⟩ := x
        cases r with
        | none => rfl
        | some p =>
          simp only [Except.map, ok_bind]
          cases memWrite s p (z * n) <;> rfl
  | createBegin z =>
    simp only [stepHook, step, Arena.createBegin, allocateAlignedHook_nil]
    cases allocateAligned cfg st z kByteSize with
    | error e => rfl
    | ok x =>
      obtain ⟨r, s⟩ := x
      cases r with
      | none => rfl
      | some p =>
        simp only [Except.map, ok_bind]
        cases memWrite s p z <;> rfl
  | createEnd p z d =>
    cases d with
    | none => exact stepHook_none rfl
    | some f =>
      simp only [stepHook, step, Arena.createEnd, addCleanupHook_nil]
      cases addCleanup cfg st { element := p, cleanup := f } with
      | error e => rfl
      | ok x => obtain ⟨r, s⟩ := x; cases r <;> rfl
  | own o f =>
    simp only [stepHook, step, Own, addCleanupHook_nil]
    cases addCleanup cfg st { element := o, cleanup := f } with
    | error e => rfl
    | ok x => rfl
  | pmrAllocate b a =>
    simp only [stepHook, step, Arena.pmrAllocate, allocateAlignedHook_nil]
    cases allocateAligned cfg st b (max kByteSize a) with
    | error e => rfl
    | ok x => rfl
  | create z d => exact stepHook_none rfl
  | allocateCleanup b f e => exact stepHook_none rfl
  | pmrDeallocate p b a => exact stepHook_none rfl
  | reset => exact stepHook_none rfl
  | write p n => exact stepHook_none rfl

end Verif.Arena
