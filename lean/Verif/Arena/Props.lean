import Verif.Arena.Check
import Verif.Arena.Example

/-!
Property theorems of the arena (C04-C18, C26-C28), for every in-contract execution `Exec`: any
options satisfying `GoodCfg`, any `block_alloc` satisfying `Sane` (it may fail at any time), debug
or release build, any sequence of API calls within their contracts, any client writes inside the
memory handed out.
-/

namespace Verif.Arena

variable {cfg : Cfg} {A : Nat} {h : Hist} {st : St}

/-- C04: every pointer ever returned is aligned as requested. -/
theorem c04_aligned (hA : 8 ∣ A) (hc : GoodCfg cfg) (hs : Sane A cfg) (he : Exec cfg A h st) :
    ∀ x ∈ h, AlignedRet x :=
  (exec_trace hA hc hs he).al

example : ∃ st, Exec sampleCfg 32 sampleHist st ∧ ∀ x ∈ sampleHist, AlignedRet x :=
  let ⟨st, he⟩ := sample_exec
  ⟨st, he, c04_aligned (by decide) sample_good sample_sane he⟩

/-- C05: memory handed out since the last `Reset` lies in one block that is still held. -/
theorem c05_in_bounds (hA : 8 ∣ A) (hc : GoodCfg cfg) (hs : Sane A cfg) (he : Exec cfg A h st) :
    ∀ r ∈ live h, ∃ b ∈ held st.trace, Region.Within r b := by
  intro r hr
  obtain ⟨wf, _⟩ := exec_inv hA hc hs he
  rw [wf.held_eq]
  exact inside_within wf.ok (wf.regs_in r hr)

example : ∃ st, Exec sampleCfg 32 (sampleHist.take 9) st ∧ live (sampleHist.take 9) =
      [⟨9360, 10⟩, ⟨9320, 40⟩, ⟨9216, 100⟩, ⟨9192, 24⟩, ⟨4192, 5000⟩, ⟨64, 24⟩] ∧
    ∃ b ∈ held st.trace, Region.Within ⟨4192, 5000⟩ b :=
  let ⟨st, he⟩ := sample_exec9
  ⟨st, he, by decide, c05_in_bounds (by decide) sample_good sample_sane he _ (by decide)⟩

/-- C06: regions handed out since the last `Reset` are pairwise disjoint. -/
theorem c06_disjoint (hA : 8 ∣ A) (hc : GoodCfg cfg) (hs : Sane A cfg) (he : Exec cfg A h st) :
    (live h).Pairwise Region.Disjoint := by
  obtain ⟨wf, _⟩ := exec_inv hA hc hs he
  refine wf.regs_disj.imp ?_
  intro r s hrs x hx
  obtain ⟨⟨h1, h2⟩, h3, h4⟩ := hx
  omega

example : ∃ st, Exec sampleCfg 32 (sampleHist.take 9) st ∧
    [⟨9360, 10⟩, ⟨9320, 40⟩, ⟨9216, 100⟩, ⟨9192, 24⟩, ⟨4192, 5000⟩, ⟨64, 24⟩].Pairwise
      Region.Disjoint :=
  let ⟨st, he⟩ := sample_exec9
  ⟨st, he, c06_disjoint (by decide) sample_good sample_sane he⟩

/-- C07: no region handed out meets a block header, every byte of it is `BlockUsed` (so neither a
header nor a cleanup node). -/
theorem c07_bookkeeping (hA : 8 ∣ A) (hc : GoodCfg cfg) (hs : Sane A cfg) (he : Exec cfg A h st) :
    (∀ r ∈ live h, ∀ b ∈ held st.trace, Region.Disjoint r ⟨b.start, 32⟩) ∧
    (∀ r ∈ live h, ∀ x, r.Mem x → check st.blocks x = .blockUsed) := by
  obtain ⟨wf, _⟩ := exec_inv hA hc hs he
  have hused : ∀ r ∈ live h, ∀ x, r.Mem x → check st.blocks x = .blockUsed := by
    intro r hr x hx
    obtain ⟨c, hc', h1, h2⟩ := wf.regs_in r hr
    rw [(check_iff wf.ok wf.disj x).2.2.1]
    exact ⟨c, hc', by have := hx.1; omega, by have := hx.2; omega⟩
  refine ⟨?_, hused⟩
  intro r hr b hb x hx
  have h1 := hused r hr x hx.1
  rw [wf.held_eq] at hb
  obtain ⟨c, hc', rfl⟩ := List.mem_map.1 hb
  have h2 := (check_iff wf.ok wf.disj x).2.1.2 ⟨c, hc', hx.2.1, hx.2.2⟩
  rw [h1] at h2
  cases h2

example : ∃ st, Exec sampleCfg 32 (sampleHist.take 9) st ∧ check st.blocks 9190 = .blockUsed :=
  let ⟨st, he⟩ := sample_exec9
  ⟨st, he, (c07_bookkeeping (by decide) sample_good sample_sane he).2 ⟨4192, 5000⟩ (by decide) _
    ⟨by decide, by decide⟩⟩

/-- C07: a client writing inside its regions does not change what destruction does: the same
cleanups run, the same blocks are freed, in the same order. -/
theorem c07_write (hA : 8 ∣ A) (hc : GoodCfg cfg) (hs : Sane A cfg) (he : Exec cfg A h st)
    {p n : Nat} (hop : Contract A h (.write p n)) {r : Ret} {st' : St}
    (hstep : step cfg st (.write p n) = .ok (r, st')) : destroy cfg st' = destroy cfg st := by
  obtain ⟨wf, _⟩ := exec_inv hA hc hs he
  obtain ⟨q, hq, h1, h2⟩ := hop
  obtain ⟨c, hc', h3, h4⟩ := wf.regs_in q hq
  obtain ⟨st2, m1, m2, m3, m4, m5, m6, m7, m8, m9⟩ :=
    memWrite_ok wf (p := p) (n := n) ⟨c, hc', by omega, by omega⟩
  simp only [step, m1, ok_bind, pure_eq_ok] at hstep
  cases hstep
  unfold destroy
  rw [m3, m4, m8, freeAllBlocks_congr 0 st.trace m7 m9]

example : ∃ st st', Exec sampleCfg 32 (sampleHist.take 6) st ∧
    step sampleCfg st (.write 4192 5000) = .ok (.unit, st') ∧
    destroy sampleCfg st' = destroy sampleCfg st :=
  let ⟨st, st', he, hc, hs, _⟩ := sample_step 6 (by decide)
  ⟨st, st', he, hs, c07_write (by decide) sample_good sample_sane he hc hs⟩

/-- C08: in-contract calls never fail with an assertion or undefined behaviour, in debug or release
builds; neither does destruction; `cleanups()` is the number of pending destructors. -/
theorem c08_safe (hA : 8 ∣ A) (hc : GoodCfg cfg) (hs : Sane A cfg) (he : Exec cfg A h st) :
    (∀ op, Contract A h op → ∃ r st', step cfg st op = .ok (r, st')) ∧
    (∃ tr, destroy cfg st = .ok tr) ∧
    cleanupsCount cfg.dbg st.blocks = .ok (pending h).length := by
  obtain ⟨wf, hne⟩ := exec_inv hA hc hs he
  refine ⟨?_, ?_, ?_⟩
  · intro op hop
    obtain ⟨r, st', h1⟩ := step_ok hA hc hs wf hne hop
    exact ⟨r, st', h1.eq⟩
  · obtain ⟨evs, h1, _⟩ := destroy_ok (cfg := cfg) wf
    exact ⟨_, h1⟩
  · apply cleanupsCount_ok wf.ok wf.nodes
    have := wf.space_lt
    rw [wf.space_eq] at this
    omega

example : ∃ st, Exec sampleCfg 32 (sampleHist.take 9) st ∧
    (∃ r st', step sampleCfg st (.createArray 24 1000000) = .ok (r, st')) ∧
    cleanupsCount true st.blocks = .ok 4 :=
  let ⟨st, he⟩ := sample_exec9
  have h := c08_safe (by decide) sample_good sample_sane he
  ⟨st, he, h.1 _ (by decide), h.2.2⟩

/-- Requests to `block_alloc` so far. -/
def blockRequests (tr : List Ev) : Nat :=
  tr.countP (fun e => match e with | .blockAlloc _ _ => true | _ => false)

theorem blockRequests_grow {c : Option Nat} {m : Nat} {tr : List Ev} {b : Nat} {c' : Option Nat} :
    blockRequests (.allocated b c' :: .newblock m b c :: .blockAlloc b (some m) :: tr)
      = blockRequests tr + 1 := by
  simp [blockRequests]

/-- C09: a null result of `AllocateAligned` means that `block_alloc` was asked once, answered null,
and nothing else happened: blocks, remaining space, `SpaceAllocated`, cookie unchanged, no hook. -/
theorem c09_null_unchanged (hA : 8 ∣ A) (hc : GoodCfg cfg) (hs : Sane A cfg) (he : Exec cfg A h st)
    {b a : Nat} (hop : Contract A h (.allocate b a)) {st' : St}
    (hstep : step cfg st (.allocate b a) = .ok (.ptr none, st')) :
    ∃ size, cfg.blockAlloc st.trace size = none ∧
      st' = { st with trace := .blockAlloc size none :: st.trace } := by
  obtain ⟨wf, _⟩ := exec_inv hA hc hs he
  rcases allocateAligned_spec hA hc hs wf hop.2 hop.1 with
    ⟨size, h1, h2, _⟩ | ⟨p, st2, h1, _⟩
  · simp only [step, AllocateAligned, h2, ok_bind, pure_eq_ok] at hstep
    cases hstep
    exact ⟨size, h1.fail_self, rfl⟩
  · simp only [step, AllocateAligned, h1, ok_bind, pure_eq_ok] at hstep
    cases hstep

example : ∃ st st' size, Exec sampleCfg 32 (sampleHist.take 7) st ∧
    step sampleCfg st (.allocate 9000 8) = .ok (.ptr none, st') ∧
    st' = { st with trace := .blockAlloc size none :: st.trace } :=
  let ⟨st, st', he, hc, hs, _⟩ := sample_step 7 (by decide)
  let ⟨size, _, h⟩ := c09_null_unchanged (by decide) sample_good sample_sane he hc hs
  ⟨st, st', size, he, hs, h⟩

/-- C09: any call that fails (null or false) does so because `block_alloc` just returned null. -/
theorem c09_failure_cause (hA : 8 ∣ A) (hc : GoodCfg cfg) (hs : Sane A cfg) (he : Exec cfg A h st)
    {op : Op} (hop : Contract A h op) {r : Ret} {st' : St} (hstep : step cfg st op = .ok (r, st'))
    (hr : r = .ptr none ∨ r = .bool false) :
    ∃ size tr, st'.trace = .blockAlloc size none :: tr ∧ cfg.blockAlloc tr size = none := by
  obtain ⟨wf, hne⟩ := exec_inv hA hc hs he
  obtain ⟨r2, st2, h1⟩ := step_ok hA hc hs wf hne hop
  have e := h1.eq
  rw [hstep] at e
  cases e
  exact h1.fail hr

example : ∃ st st' : St, Exec sampleCfg 32 (sampleHist.take 7) st ∧
    ∃ size tr, st'.trace = .blockAlloc size none :: tr ∧ bumpAlloc 32 [2] tr size = none :=
  let ⟨st, st', he, hc, hs, _⟩ := sample_step 7 (by decide)
  ⟨st, st', he, c09_failure_cause (by decide) sample_good sample_sane he hc hs (Or.inl rfl)⟩

/-- C09: a request that fits in the remaining space (with room for the worst padding) succeeds
without asking `block_alloc`. -/
theorem c09_fits_succeeds (hA : 8 ∣ A) (hc : GoodCfg cfg) (hs : Sane A cfg) (he : Exec cfg A h st)
    {b a n : Nat} (hop : Contract A h (.allocate b a)) (hrem : SpaceRemains cfg st = .ok n)
    (hfit : round8 b + (a - 8) ≤ n) :
    ∃ p st', step cfg st (.allocate b a) = .ok (.ptr (some p), st') ∧
      st'.trace = .allocated b st.cookie :: st.trace ∧ st'.space = st.space := by
  obtain ⟨wf, _⟩ := exec_inv hA hc hs he
  obtain ⟨h8, h32, h8d, hd⟩ := hop.2.bounds
  unfold SpaceRemains at hrem
  cases hb : st.blocks with
  | nil => rw [hb] at hrem; cases hrem
  | cons blk rest =>
    rw [hb] at hrem
    simp only [remain_ok (head_ok wf hb)] at hrem
    cases hrem
    have hp := (bump_aligned8 hA (head_ok wf hb) h8d (by omega)).1
    have hlt := padOf_lt (p := blk.base + blk.pos) (a := a) (by omega)
    have := (head_ok wf hb).pos_le
    have hf : Fits blk (round8 b) a := by unfold Fits; omega
    have := allocate_fit (cfg := cfg) hA wf hb hop.2 hop.1 hf
    simp only [step, AllocateAligned, this, ok_bind, pure_eq_ok]
    exact ⟨_, _, rfl, rfl, rfl⟩

example : ∃ st p st', Exec sampleCfg 32 (sampleHist.take 1) st ∧
    SpaceRemains sampleCfg st = .ok 4024 ∧
    step sampleCfg st (.allocate 4000 32) = .ok (.ptr (some p), st') ∧ st'.space = st.space :=
  let ⟨st, he, hr⟩ := exec_such (cfg := sampleCfg) (A := 32) (cookie := none)
    (ops := sampleOps.take 1) (h := sampleHist.take 1)
    (P := fun st => SpaceRemains sampleCfg st = .ok 4024) (by decide +kernel)
  let ⟨p, st', h1, _, h2⟩ := c09_fits_succeeds (b := 4000) (a := 32) (by decide) sample_good
    sample_sane he (by decide) hr (by decide)
  ⟨st, p, st', he, hr, h1, h2⟩

/-- C10: destroying the arena runs exactly the pending destructors, once each, the last registered
first (`pending` lists them newest first), and nothing else. -/
theorem c10_destroy (hA : 8 ∣ A) (hc : GoodCfg cfg) (hs : Sane A cfg) (he : Exec cfg A h st) :
    ∃ tr, destroy cfg st = .ok tr ∧ ran tr = ran st.trace ++ (pending h).map Pending.node := by
  obtain ⟨wf, _⟩ := exec_inv hA hc hs he
  obtain ⟨evs, h1, h2⟩ := destroy_ok (cfg := cfg) wf
  refine ⟨_, h1, ?_⟩
  rw [← h2.ran]; rfl

example : ∃ st tr, Exec sampleCfg 32 (sampleHist.take 9) st ∧ destroy sampleCfg st = .ok tr ∧
    ran tr = ran st.trace ++ [⟨9360, 4⟩, ⟨9320, 3⟩, ⟨77, 2⟩, ⟨64, 1⟩] :=
  let ⟨st, he⟩ := sample_exec9
  let ⟨tr, h1, h2⟩ := c10_destroy (by decide) sample_good sample_sane he
  ⟨st, tr, he, h1, h2⟩

/-- C11: `Reset` runs exactly the pending destructors, once each, the last registered first; no
other call runs any. -/
theorem c11_reset (hA : 8 ∣ A) (hc : GoodCfg cfg) (hs : Sane A cfg) (he : Exec cfg A h st)
    {op : Op} (hop : Contract A h op) {r : Ret} {st' : St} (hstep : step cfg st op = .ok (r, st')) :
    ran st'.trace = ran st.trace ++ (if op = .reset then (pending h).map Pending.node else []) := by
  have h1 := (exec_trace hA hc hs he).ran
  have h2 := (exec_trace hA hc hs (.step he hop hstep)).ran
  rw [h2, owed_append, h1, ← owed_pending]
  simp only
  split <;> simp

example : ∃ st st', Exec sampleCfg 32 (sampleHist.take 9) st ∧
    step sampleCfg st .reset = .ok (.num 12288, st') ∧
    ran st'.trace = ran st.trace ++ [⟨9360, 4⟩, ⟨9320, 3⟩, ⟨77, 2⟩, ⟨64, 1⟩] :=
  let ⟨st, st', he, hc, hs, _⟩ := sample_step 9 (by decide)
  have hp : (pending (sampleHist.take 9)).map Pending.node = [(⟨9360, 4⟩ : Node), ⟨9320, 3⟩, ⟨77, 2⟩, ⟨64, 1⟩] := by decide
  have hr := c11_reset (by decide) sample_good sample_sane he hc hs
  ⟨st, st', he, hs, by rw [hr, if_pos (by decide), hp]⟩

/-- C10/C11 over the whole life of an arena: the cleanups run are, in order, for each `Reset` the
destructors registered since the previous one, newest first, and finally those registered since the
last `Reset`; each registration runs exactly once. -/
theorem c11_life (hA : 8 ∣ A) (hc : GoodCfg cfg) (hs : Sane A cfg) (he : Exec cfg A h st) :
    ∃ tr, destroy cfg st = .ok tr ∧ ran tr = (owed h).1 ++ (owed h).2 := by
  obtain ⟨tr, h1, h2⟩ := c10_destroy hA hc hs he
  exact ⟨tr, h1, by rw [h2, (exec_trace hA hc hs he).ran, owed_pending]⟩

example : ∃ st tr, Exec sampleCfg 32 sampleHist st ∧ destroy sampleCfg st = .ok tr ∧
    ran tr = [⟨9360, 4⟩, ⟨9320, 3⟩, ⟨77, 2⟩, ⟨64, 1⟩, ⟨64, 5⟩] :=
  let ⟨st, he⟩ := sample_exec
  let ⟨tr, h1, h2⟩ := c11_life (by decide) sample_good sample_sane he
  ⟨st, tr, he, h1, h2⟩

/-- C12: every destructor runs while all memory handed out before its registration is still held, that of its object
included, at destruction and at `Reset` (`Teardown` demands it of each cleanup event for the regions in `needs`). -/
theorem c12_alive (hA : 8 ∣ A) (hc : GoodCfg cfg) (hs : Sane A cfg) (he : Exec cfg A h st) :
    (∃ evs used wasted, destroy cfg st = .ok (.destroyed used wasted st.cookie :: (evs.reverse ++ st.trace)) ∧
      Teardown (held st.trace) (pending h) evs []) ∧
    (∀ r st', Contract A h .reset → step cfg st .reset = .ok (r, st') →
      ∃ evs rest, st'.trace = evs.reverse ++ st.trace ∧
        Teardown (held st.trace) (pending h) evs rest) := by
  obtain ⟨wf, hne⟩ := exec_inv hA hc hs he
  refine ⟨?_, ?_⟩
  · obtain ⟨evs, h1, h2⟩ := destroy_ok (cfg := cfg) wf
    exact ⟨evs, _, _, h1, h2⟩
  · intro r st' hop hstep
    obtain ⟨evs, h1, h2, _⟩ := reset_ok (cfg := cfg) wf (hne hop)
    simp only [step, h1, ok_bind, pure_eq_ok] at hstep
    cases hstep
    exact ⟨evs, _, rfl, h2⟩

example : ∃ st st' evs rest, Exec sampleCfg 32 (sampleHist.take 9) st ∧
    step sampleCfg st .reset = .ok (.num 12288, st') ∧
    Teardown (held st.trace)
      [⟨⟨9360, 4⟩, [⟨9360, 10⟩, ⟨9320, 40⟩, ⟨9216, 100⟩, ⟨9192, 24⟩, ⟨4192, 5000⟩, ⟨64, 24⟩]⟩,
       ⟨⟨9320, 3⟩, [⟨9320, 40⟩, ⟨9216, 100⟩, ⟨9192, 24⟩, ⟨4192, 5000⟩, ⟨64, 24⟩]⟩,
       ⟨⟨77, 2⟩, [⟨4192, 5000⟩, ⟨64, 24⟩]⟩, ⟨⟨64, 1⟩, [⟨64, 24⟩]⟩] evs rest :=
  let ⟨st, st', he, hc, hs, _⟩ := sample_step 9 (by decide)
  let ⟨evs, rest, _, h⟩ := (c12_alive (by decide) sample_good sample_sane he).2 _ _ hc hs
  ⟨st, st', evs, rest, he, hs, h⟩

/-- C13: over the life of the arena each block is given back exactly once: after destruction, as
often as it was obtained; at every moment at most as often as it was obtained, and at least that
often minus one. -/
theorem c13_balanced (hA : 8 ∣ A) (hc : GoodCfg cfg) (hs : Sane A cfg) (he : Exec cfg A h st) :
    ∃ tr, destroy cfg st = .ok tr ∧ held tr = [] ∧ (∀ p, allocs p tr = deallocs p tr) ∧
      ∀ s, s <:+ tr → ∀ p, deallocs p s ≤ allocs p s ∧ allocs p s ≤ deallocs p s + 1 := by
  obtain ⟨wf, _⟩ := exec_inv hA hc hs he
  obtain ⟨evs, h1, h2⟩ := destroy_ok (cfg := cfg) wf
  have hal := (h2.always rfl (exec_trace hA hc hs he).always).cons
    (e := .destroyed st.space (unused st.blocks) st.cookie) (TI.neutral trivial)
  have hh : held (.destroyed st.space (unused st.blocks) st.cookie :: (evs.reverse ++ st.trace)) = [] :=
    h2.held rfl
  refine ⟨_, h1, hh, ?_, ?_⟩
  · intro p
    have := hal.here.bal p
    rw [hh] at this
    simpa using this
  · intro s hsuf p
    have ht := hal s hsuf
    have h3 := ht.bal p
    have h4 : ((held s).map Region.start).count p ≤ 1 := List.nodup_iff_count_le_one.1 ht.nodup p
    omega

example : ∃ st tr, Exec sampleCfg 32 sampleHist st ∧ destroy sampleCfg st = .ok tr ∧
    ∀ p, allocs p tr = deallocs p tr :=
  let ⟨st, he⟩ := sample_exec
  let ⟨tr, h1, _, h2, _⟩ := c13_balanced (by decide) sample_good sample_sane he
  ⟨st, tr, he, h1, h2⟩

/-- C14: `Reset` returns the previous `SpaceAllocated` and keeps only the first block ever obtained,
rewound: `SpaceAllocated` is its size, `SpaceRemains` its size minus the header, no cleanup nodes. -/
theorem c14_reset (hA : 8 ∣ A) (hc : GoodCfg cfg) (hs : Sane A cfg) (he : Exec cfg A h st)
    (hop : Contract A h .reset) {r : Ret} {st' : St} (hstep : step cfg st .reset = .ok (r, st')) :
    r = .num st.space ∧ ∃ b, firstBlock st.trace = some b ∧ held st'.trace = [b] ∧
      st'.space = b.len ∧ SpaceRemains cfg st' = .ok (b.len - 32) ∧
      cleanupsCount cfg.dbg st'.blocks = .ok 0 ∧ 32 ≤ b.len := by
  have he' := Exec.step he hop hstep
  have hcl := (c08_safe hA hc hs he').2.2
  obtain ⟨wf, hne⟩ := exec_inv hA hc hs he
  have hf := (exec_trace hA hc hs he).first
  obtain ⟨evs, h1, h2, _⟩ := reset_ok (cfg := cfg) wf (hne hop)
  simp only [step, h1, ok_bind, pure_eq_ok] at hstep
  cases hstep
  refine ⟨rfl, (st.blocks.getLast (hne hop)).region, ?_, h2.held rfl, rfl, ?_, ?_, ?_⟩
  · rw [← hf, wf.held_eq, List.getLast?_map, List.getLast?_eq_getLast_of_ne_nil (hne hop)]; rfl
  · have hwf := reset_wf wf (hne hop) h2
    have hb := hwf.ok _ (List.mem_singleton.2 rfl)
    show Block.remain cfg.dbg _ = _
    rw [remain_ok hb]; rfl
  · rw [hcl, pending_append]; rfl
  · have hb := wf.ok _ (List.getLast_mem (hne hop))
    have := hb.hdr; have := hb.pos_le; have := hb.limit_le
    simp only [Block.region]; omega

example : ∃ st st' b, Exec sampleCfg 32 (sampleHist.take 9) st ∧ st.space = 12288 ∧
    step sampleCfg st .reset = .ok (.num 12288, st') ∧ held st'.trace = [b] ∧ st'.space = b.len :=
  let ⟨st, st', he, hc, hs, _⟩ := sample_step 9 (by decide)
  let ⟨h1, b, _, h2, h3, _⟩ := c14_reset (by decide) sample_good sample_sane he hc hs
  ⟨st, st', b, he, by injection h1 with h1; exact h1.symm, hs, h2, h3⟩

/-- C15: `SpaceAllocated` is the sum of the sizes of the blocks currently held. -/
theorem c15_space (hA : 8 ∣ A) (hc : GoodCfg cfg) (hs : Sane A cfg) (he : Exec cfg A h st) :
    st.space = ((held st.trace).map Region.len).sum := by
  obtain ⟨wf, _⟩ := exec_inv hA hc hs he
  rw [wf.space_eq, wf.held_eq, List.map_map]; rfl

example : ∃ st, Exec sampleCfg 32 sampleHist st ∧ st.space = ((held st.trace).map Region.len).sum :=
  let ⟨st, he⟩ := sample_exec
  ⟨st, he, c15_space (by decide) sample_good sample_sane he⟩

/-- C16: whatever a call other than `Reset` asks from `block_alloc` has the size given by the policy
for one of its requests (the rounded object size, or 16 bytes for the record of a destructor), and
that size always has room for the header and the request. -/
theorem c16_policy (hA : 8 ∣ A) (hc : GoodCfg cfg) (hs : Sane A cfg) (he : Exec cfg A h st)
    {op : Op} (hop : Contract A h op) (hnr : op ≠ .reset) {r : Ret} {st' : St}
    (hstep : step cfg st op = .ok (r, st')) :
    (∃ tr', Grow cfg st.cookie (requests op) st.trace tr' ∧
      st'.trace = ((hookOf (op, r)).map (fun b => Ev.allocated b st.cookie)).toList ++ tr') ∧
    ∀ m first, m + 32 ≤ blockPolicy cfg m first := by
  obtain ⟨wf, hne⟩ := exec_inv hA hc hs he
  obtain ⟨r2, st2, h1⟩ := step_ok hA hc hs wf hne hop
  have e := h1.eq
  rw [hstep] at e
  cases e
  refine ⟨h1.grow hnr, ?_⟩
  intro m first
  rw [← chosenSize_eq_policy]
  exact chosenSize_ge _ _ _

example : ∃ st st', Exec sampleCfg 32 (sampleHist.take 1) st ∧
    step sampleCfg st (.allocate 5000 32) = .ok (.ptr (some 4192), st') ∧
    ∃ tr', Grow sampleCfg st.cookie [5000] st.trace tr' ∧
      st'.trace = .allocated 5000 st.cookie :: tr' :=
  let ⟨st, st', he, hc, hs, _⟩ := sample_step 1 (by decide)
  ⟨st, st', he, hs, (c16_policy (by decide) sample_good sample_sane he hc (by decide) hs).1⟩

/-- The policy on the default options: first block, a small, a medium, a big, a huge request. -/
example : (blockPolicy sampleCfg 5000 true, blockPolicy sampleCfg 4064 false,
      blockPolicy sampleCfg 5000 false, blockPolicy sampleCfg 600000 false,
      blockPolicy sampleCfg 3000000 false) = (5032, 4096, 8192, 2097152, 3000032) := by decide

/-- C17: hooks.  `on_arena_newblock` fired exactly once per block obtained, with the number of blocks
held before and the size; `on_arena_allocation` exactly once per successful allocation call with the
requested bytes (not for the memory resource); every hook got the arena's own cookie. -/
theorem c17_hooks (hA : 8 ∣ A) (hc : GoodCfg cfg) (hs : Sane A cfg) (he : Exec cfg A h st) :
    newblockHooks st.trace = grants st.trace ∧
    allocHooks st.trace = (h.filterMap hookOf).reverse ∧
    (∀ e ∈ st.trace, cookieOf e = none ∨ cookieOf e = some st.cookie) :=
  ⟨(exec_trace hA hc hs he).hooks, (exec_trace hA hc hs he).allocs, (exec_trace hA hc hs he).cookies⟩

example : ∃ st, Exec sampleCfg 32 sampleHist st ∧
    allocHooks st.trace = [4040, 10, 10, 40, 24, 5000, 24] ∧ newblockHooks st.trace = grants st.trace :=
  let ⟨st, he⟩ := sample_exec
  have h := c17_hooks (by decide) sample_good sample_sane he
  ⟨st, he, h.2.1, h.1⟩

theorem freeAllBlocks_events {dbg : Bool} {bs : List Block} {rem n : Nat} {tr tr' : List Ev}
    (hf : freeAllBlocks dbg bs rem tr = .ok (n, tr')) :
    ∃ evs : List Ev, tr' = evs.reverse ++ tr ∧ ∀ e ∈ evs, (∃ n, e = .cleanup n) ∨ ∃ b, e = .dealloc b := by
  induction bs generalizing rem tr with
  | nil => simp only [freeAllBlocks] at hf; cases hf; exact ⟨[], rfl, by simp⟩
  | cons b bs ih =>
    unfold freeAllBlocks at hf
    cases hr : b.remain dbg with
    | error e => rw [hr] at hf; cases hf
    | ok m =>
      cases hl : b.runCleanups with
      | error e => rw [hr, hl] at hf; cases hf
      | ok l =>
        rw [hr, hl] at hf
        simp only [ok_bind] at hf
        obtain ⟨evs, h1, h2⟩ := ih hf
        refine ⟨l.map Ev.cleanup ++ .dealloc b.base :: evs, ?_, ?_⟩
        · rw [h1, emitCleanups_eq]; simp
        · intro e he
          simp only [List.mem_append, List.mem_map, List.mem_cons] at he
          rcases he with ⟨x, _, rfl⟩ | rfl | he
          · exact Or.inl ⟨x, rfl⟩
          · exact Or.inr ⟨_, rfl⟩
          · exact h2 e he

/-- C17: `on_arena_reset` and `on_arena_destruction` fire once, with the `SpaceAllocated` just before
and the number of bytes that `check` calls unused. -/
theorem c17_reset_destroy (hA : 8 ∣ A) (hc : GoodCfg cfg) (hs : Sane A cfg) (he : Exec cfg A h st) :
    (∃ evs : List Ev, destroy cfg st = .ok (.destroyed st.space (addrs st.blocks .blockUnUsed).card st.cookie
        :: (evs.reverse ++ st.trace)) ∧ ∀ e ∈ evs, (∃ n, e = .cleanup n) ∨ ∃ b, e = .dealloc b) ∧
    (∀ r st', Contract A h .reset → step cfg st .reset = .ok (r, st') →
      ∃ pre post : List Ev, st'.trace
          = (pre ++ .reset st.space (addrs st.blocks .blockUnUsed).card st.cookie :: post).reverse
            ++ st.trace ∧
        ∀ e ∈ pre ++ post, (∃ n, e = .cleanup n) ∨ ∃ b, e = .dealloc b) := by
  obtain ⟨wf, hne⟩ := exec_inv hA hc hs he
  rw [card_unused wf]
  refine ⟨?_, ?_⟩
  · have hsp := wf.space_lt
    rw [wf.space_eq] at hsp
    obtain ⟨evs, h1, h2⟩ := freeAllBlocks_ok (dbg := cfg.dbg) (rem := 0) (tr := st.trace) wf.ok
      wf.disj wf.nodes (by omega)
    refine ⟨evs, by unfold destroy; rw [h1]; simp, ?_⟩
    obtain ⟨evs', h3, h4⟩ := freeAllBlocks_events h1
    rw [List.append_cancel_right_eq, List.reverse_inj] at h3
    rw [h3]; exact h4
  · intro r st' hop hstep
    obtain ⟨evs, h1, h2, pre, post, h3, h4⟩ := reset_ok (cfg := cfg) wf (hne hop)
    simp only [step, h1, ok_bind, pure_eq_ok] at hstep
    cases hstep
    exact ⟨pre, post, by rw [h3], h4⟩

example : ∃ st evs, Exec sampleCfg 32 sampleHist st ∧ destroy sampleCfg st =
    .ok (.destroyed st.space (addrs st.blocks .blockUnUsed).card st.cookie :: evs) :=
  let ⟨st, he⟩ := sample_exec
  let ⟨_, h, _⟩ := (c17_reset_destroy (by decide) sample_good sample_sane he).1
  ⟨st, _, he, h⟩

/-- C18: `check` classifies every address. Outside all held blocks: `NotContain`. In the first 32
bytes of a held block: `BlockHeader`. In memory handed out: `BlockUsed`. Each held block consists of
header, used, unused and cleanup part in this order, and the cleanup parts have 16 bytes for each
pending destructor. -/
theorem c18_check (hA : 8 ∣ A) (hc : GoodCfg cfg) (hs : Sane A cfg) (he : Exec cfg A h st) :
    (∀ x, check st.blocks x = .notContain ↔ ∀ b ∈ held st.trace, ¬ b.Mem x) ∧
    (∀ x, check st.blocks x = .blockHeader ↔ ∃ b ∈ held st.trace, Region.Mem ⟨b.start, 32⟩ x) ∧
    (∀ r ∈ live h, ∀ x, r.Mem x → check st.blocks x = .blockUsed) ∧
    (∀ b ∈ held st.trace, ∃ used unused, 32 ≤ used ∧ used ≤ unused ∧ unused ≤ b.len ∧
      ∀ o, o < b.len → check st.blocks (b.start + o) =
        if o < 32 then .blockHeader else if o < used then .blockUsed
        else if o < unused then .blockUnUsed else .blockCleanup) ∧
    (addrs st.blocks .blockCleanup).card = 16 * (pending h).length := by
  obtain ⟨wf, _⟩ := exec_inv hA hc hs he
  have hmem : ∀ b ∈ held st.trace, ∃ c ∈ st.blocks, c.region = b := by
    intro b hb
    rw [wf.held_eq] at hb
    obtain ⟨c, hc', h1⟩ := List.mem_map.1 hb
    exact ⟨c, hc', h1⟩
  refine ⟨?_, ?_, (c07_bookkeeping hA hc hs he).2, ?_, card_cleanup wf⟩
  · intro x
    rw [(check_iff wf.ok wf.disj x).1, wf.held_eq]
    simp [Region.Mem, Block.region]
  · intro x
    rw [(check_iff wf.ok wf.disj x).2.1, wf.held_eq]
    simp [Region.Mem, Block.region]
  · intro b hb
    obtain ⟨c, hc', rfl⟩ := hmem b hb
    have hb' := wf.ok c hc'
    refine ⟨c.pos, c.limit, hb'.hdr, hb'.pos_le, hb'.limit_le, ?_⟩
    intro o ho
    have ho' : o < c.size := ho
    show check st.blocks (c.base + o) = _
    rw [check_mem wf.ok wf.disj hc' (by omega) (by omega)]
    unfold Block.classify
    simp only [Nat.add_lt_add_iff_left]

example : ∃ st, Exec sampleCfg 32 (sampleHist.take 9) st ∧ check st.blocks 9370 ≠ .notContain ∧
    check st.blocks 9369 = .blockUsed ∧ (addrs st.blocks .blockCleanup).card = 64 := by
  obtain ⟨st, he⟩ := sample_exec9
  have h := c18_check (by decide) sample_good sample_sane he
  have h1 := h.2.2.1 ⟨9360, 10⟩ (by decide) 9369 ⟨by decide, by decide⟩
  obtain ⟨b, hb, hw⟩ := c05_in_bounds (by decide) sample_good sample_sane he ⟨9360, 10⟩ (by decide)
  obtain ⟨u, w, h2, h3, h4, h5⟩ := h.2.2.2.1 b hb
  refine ⟨st, he, ?_, h1, h.2.2.2.2⟩
  intro hn
  have h6 := (h.1 9370).1 hn b hb
  obtain ⟨hw1, hw2⟩ := hw
  simp only [Region.Mem] at h6 hw1 hw2
  have h7 := (exec_inv (by decide) sample_good sample_sane he).1
  have h8 : 8 ∣ b.start + b.len := by
    rw [h7.held_eq] at hb
    obtain ⟨c, hc, rfl⟩ := List.mem_map.1 hb
    have hk := h7.ok c hc
    have h9 : 8 ∣ c.base := Nat.dvd_trans (by decide) hk.aligned
    have h10 := hk.size8
    simp only [Block.region]; omega
  omega

/-- C27: after any successful call both are defined. -/
theorem c27_defined (hA : 8 ∣ A) (hc : GoodCfg cfg) (hs : Sane A cfg) (he : Exec cfg A h st)
    (hsucc : ∃ x ∈ h, succeeded x) :
    (∃ n, SpaceRemains cfg st = .ok n) ∧ (∃ n st', Reset cfg st = .ok (n, st')) := by
  obtain ⟨wf, hne⟩ := exec_inv hA hc hs he
  refine ⟨?_, ?_⟩
  · unfold SpaceRemains
    cases hb : st.blocks with
    | nil => exact absurd hb (hne hsucc)
    | cons b rest => exact ⟨_, remain_ok (head_ok wf hb)⟩
  · obtain ⟨evs, h1, _⟩ := reset_ok (cfg := cfg) wf (hne hsucc)
    exact ⟨_, _, h1⟩

example : ∃ st, Exec sampleCfg 32 (sampleHist.take 1) st ∧ ∃ n, SpaceRemains sampleCfg st = .ok n :=
  let ⟨st, _, he, _⟩ := sample_step 1 (by decide)
  ⟨st, he, (c27_defined (by decide) sample_good sample_sane he
    ⟨(.create 24 (some 1), .ptr (some 64)), by decide, rfl⟩).1⟩

/-- C26: with alignment 8, `block_alloc` is asked if and only if the rounded size exceeds
`SpaceRemains`. -/
theorem c26_space_remains (hA : 8 ∣ A) (hc : GoodCfg cfg) (hs : Sane A cfg) (he : Exec cfg A h st)
    {b n : Nat} (hop : Contract A h (.allocate b 8)) (hrem : SpaceRemains cfg st = .ok n)
    {r : Ret} {st' : St} (hstep : step cfg st (.allocate b 8) = .ok (r, st')) :
    blockRequests st'.trace = blockRequests st.trace + (if n < round8 b then 1 else 0) := by
  obtain ⟨wf, _⟩ := exec_inv hA hc hs he
  unfold SpaceRemains at hrem
  cases hb : st.blocks with
  | nil => rw [hb] at hrem; cases hrem
  | cons blk rest =>
    rw [hb] at hrem
    simp only [remain_ok (head_ok wf hb)] at hrem
    cases hrem
    have := (head_ok wf hb).pos_le
    have hfit : Fits blk (round8 b) 8 ↔ ¬ blk.limit - blk.pos < round8 b := by
      unfold Fits; rw [pad8_zero hA (head_ok wf hb)]; omega
    by_cases hf : Fits blk (round8 b) 8
    · have h1 := allocate_fit (cfg := cfg) hA wf hb hop.2 hop.1 hf
      simp only [step, AllocateAligned, h1, ok_bind, pure_eq_ok] at hstep
      cases hstep
      rw [if_neg (hfit.1 hf)]
      simp [blockRequests, St.emit]
    · have hno : ∀ b' rest', st.blocks = b' :: rest' → ¬ Fits b' (round8 b) 8 := by
        intro b' rest' h'
        rw [hb] at h'
        cases h'
        exact hf
      rw [if_pos (by by_contra hcon; exact hf (hfit.2 hcon))]
      cases hal : cfg.blockAlloc st.trace (chosenSize cfg (round8 b) (!st.blocks.isEmpty)) with
      | none =>
        have h1 := allocate_fail hc wf hop.2 hop.1 hno hal
        simp only [step, AllocateAligned, h1, ok_bind, pure_eq_ok] at hstep
        cases hstep
        simp [blockRequests, St.emit]
      | some p =>
        have h1 := allocate_fresh hA hc hs wf hop.2 hop.1 hno hal
        simp only [step, AllocateAligned, h1, ok_bind, pure_eq_ok] at hstep
        cases hstep
        simp [blockRequests, St.emit, afterFresh, afterNewBlock]

example : ∃ st st' n, Exec sampleCfg 32 (sampleHist.take 7) st ∧ SpaceRemains sampleCfg st = .ok n ∧
    step sampleCfg st (.allocate 9000 8) = .ok (.ptr none, st') ∧
    blockRequests st'.trace = blockRequests st.trace + (if n < 9000 then 1 else 0) :=
  let ⟨st, st', he, hc, hs, _⟩ := sample_step 7 (by decide)
  let ⟨n, hn⟩ := (c27_defined (by decide) sample_good sample_sane he
    ⟨(.create 24 (some 1), .ptr (some 64)), by decide, rfl⟩).1
  ⟨st, st', n, he, hn, hs, c26_space_remains (by decide) sample_good sample_sane he hc hn hs⟩

/-- C27: on an arena without a block, `Reset` asserts in debug and dereferences null in release,
`SpaceRemains` dereferences null in both; after any success both are defined. -/
theorem c27_needs_block (cookie : Option Nat) :
    (cfg.dbg = true → Reset cfg (mkArena cookie) = .error (.assertFail "curr should not be nullptr")) ∧
    (cfg.dbg = false → Reset cfg (mkArena cookie) = .error (.ub "null block dereferenced")) ∧
    SpaceRemains cfg (mkArena cookie) = .error (.ub "null block dereferenced") := by
  refine ⟨?_, ?_, rfl⟩ <;>
  · intro h
    simp [Reset, mkArena, freeBlocksExceptHead, h, assertDbg]

example : Reset (exCfg true 32 []) (mkArena none) = .error (.assertFail "curr should not be nullptr") ∧
    Reset (exCfg false 32 []) (mkArena none) = .error (.ub "null block dereferenced") :=
  ⟨(c27_needs_block none).1 rfl, (c27_needs_block none).2.1 rfl⟩

/-- C28: `space_used - space_wasted` reported at destruction is 32 bytes per held block, 16 per
pending destructor, the rounded sizes of the regions placed since the last `Reset`, and padding of at
most `alignment - 8` per aligned request (requests that failed half-way may have consumed their
bytes). -/
theorem c28_accounting (hA : 8 ∣ A) (hc : GoodCfg cfg) (hs : Sane A cfg) (he : Exec cfg A h st) :
    ∃ used wasted tr, destroy cfg st = .ok (.destroyed used wasted st.cookie :: tr) ∧
      wasted ≤ used ∧
      32 * (held st.trace).length + 16 * (pending h).length + placedMin h ≤ used - wasted ∧
      used - wasted ≤ 32 * (held st.trace).length + 16 * (pending h).length + placedMax h := by
  obtain ⟨wf, _⟩ := exec_inv hA hc hs he
  obtain ⟨evs, h1, _⟩ := destroy_ok (cfg := cfg) wf
  have ht := exec_trace hA hc hs he
  have h2 := space_partition wf.ok
  have h3 := nodeBytes_eq wf.ok wf.nodes
  have h4 : (held st.trace).length = st.blocks.length := by rw [wf.held_eq]; simp
  have h5 := wf.space_eq
  have := ht.usedMin
  have := ht.usedMax
  refine ⟨_, _, _, h1, ?_, ?_, ?_⟩ <;> omega

example : placedMin (sampleHist.take 9) = 5208 ∧ placedMax (sampleHist.take 9) = 14240 ∧
    (pending (sampleHist.take 9)).length = 4 ∧ ∃ st, Exec sampleCfg 32 (sampleHist.take 9) st :=
  ⟨by decide, by decide, by decide, sample_exec9⟩

/-- C28: when no call failed and no alignment above 8 was requested, the accounting is exact. -/
theorem c28_exact (hA : 8 ∣ A) (hc : GoodCfg cfg) (hs : Sane A cfg) (he : Exec cfg A h st)
    (hexact : placedMin h = placedMax h) :
    ∃ used wasted tr, destroy cfg st = .ok (.destroyed used wasted st.cookie :: tr) ∧
      used = wasted + 32 * (held st.trace).length + 16 * (pending h).length + placedMin h := by
  obtain ⟨used, wasted, tr, h1, h2, h3, h4⟩ := c28_accounting hA hc hs he
  exact ⟨used, wasted, tr, h1, by omega⟩

example : placedMin (sampleHist.take 1) = placedMax (sampleHist.take 1) ∧
    ∃ st, Exec sampleCfg 32 (sampleHist.take 1) st :=
  ⟨by decide, let ⟨st, _, he, _⟩ := sample_step 1 (by decide); ⟨st, he⟩⟩

end Verif.Arena
