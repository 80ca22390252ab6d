import Verif.Arena.Props

/-!
Properties of the arena that the code violates (C20-C23, C71): the expected property as a `def`,
its refutation by a concrete in-contract execution (`_violated`), and the part that does hold
(`_partial`).
-/

namespace Verif.Arena

open Verif.Align

/-- C20, expected: a request that does not fit into 64 bits (rounded, with the header) is refused
and the arena keeps its blocks as they are. -/
def RefusesImpossible : Prop :=
  ∀ (cfg : Cfg) (A : Nat) (h : Hist) (st : St) (b : Nat), 8 ∣ A → GoodCfg cfg → Sane A cfg →
    Exec cfg A h st → b < M64 → M64 ≤ round8 b + 32 →
    ∃ st', step cfg st (.allocate b 8) = .ok (.ptr none, st') ∧ st'.blocks = st.blocks

/-- C20 is violated: after one small allocation, `AllocateAligned(2^64 - 1)` returns a pointer. -/
theorem c20_violated : ¬ RefusesImpossible := by
  intro hall
  obtain ⟨st, he, hp⟩ := exec_such (cfg := exCfg false 32 []) (A := 32) (cookie := none)
    (ops := [.allocate 8 8]) (h := [(.allocate 8 8, .ptr (some 64))])
    (P := fun st => (step (exCfg false 32 []) st (.allocate (2 ^ 64 - 1) 8)).map Prod.fst
      = .ok (.ptr (some 72))) (by decide +kernel)
  obtain ⟨st', h1, _⟩ := hall _ _ _ _ (2 ^ 64 - 1) (by decide) (exCfg_good _ _ _)
    (exCfg_sane _ (by decide) _) he (by decide) (by decide)
  rw [h1] at hp
  cases hp

/-- C20, consequence: the request `2^64 - 40` makes the position wrap to the start of the block, in
debug as well as release builds: the next allocation returns the block header itself, and writing to
it is undefined behaviour. -/
theorem c20_corrupts (dbg : Bool) :
    ∃ st st1 st2 st3, Exec (exCfg dbg 32 []) 32 [(.allocate 8 8, .ptr (some 64))] st ∧
      step (exCfg dbg 32 []) st (.allocate (2 ^ 64 - 40) 8) = .ok (.ptr (some 72), st1) ∧
      step (exCfg dbg 32 []) st1 (.allocate 48 8) = .ok (.ptr (some 32), st2) ∧
      step (exCfg dbg 32 []) st2 (.allocate 8 8) = .ok (.ptr (some 80), st3) ∧
      step (exCfg dbg 32 []) st3 (.write 32 48) = .error (.ub "block header overwritten") := by
  obtain ⟨st, he, hp⟩ := exec_such (cfg := exCfg dbg 32 []) (A := 32) (cookie := none)
    (ops := [.allocate 8 8]) (h := [(.allocate 8 8, .ptr (some 64))])
    (P := fun st => (match step (exCfg dbg 32 []) st (.allocate (2 ^ 64 - 40) 8) with
      | .ok (r, st1) => (match step (exCfg dbg 32 []) st1 (.allocate 48 8) with
        | .ok (r2, st2) => (match step (exCfg dbg 32 []) st2 (.allocate 8 8) with
          | .ok (r3, st3) => decide (r = .ptr (some 72) ∧ r2 = .ptr (some 32) ∧ r3 = .ptr (some 80) ∧
              (step (exCfg dbg 32 []) st3 (.write 32 48)).map Prod.fst
                = .error (.ub "block header overwritten"))
          | _ => false)
        | _ => false)
      | _ => false) = true) (by cases dbg <;> decide +kernel)
  split at hp <;> try cases hp
  rename_i r st1 h1
  split at hp <;> try cases hp
  rename_i r2 st2 h2
  split at hp <;> try cases hp
  rename_i r3 st3 h3
  simp only [decide_eq_true_eq] at hp
  obtain ⟨rfl, rfl, rfl, h4⟩ := hp
  refine ⟨st, st1, st2, st3, he, h1, h2, h3, ?_⟩
  cases h5 : step (exCfg dbg 32 []) st3 (.write 32 48) with
  | ok x => rw [h5] at h4; cases h4
  | error e => rw [h5] at h4; cases h4; rfl

theorem allocateAligned_huge {cfg : Cfg} {A : Nat} {st : St} {regs : List Region}
    {pend : List Pending} (hc : GoodCfg cfg) (hs : Sane A cfg)
    (wf : WF A st regs pend) {bytes a : Nat} (h8 : 8 ≤ a) (h32 : a ≤ 32) (hlo : 2 ^ 63 ≤ bytes)
    (hhi : bytes + 64 + st.space ≤ 2 ^ 64) :
    ∃ s, allocateAligned cfg st bytes a = .ok (none, st.emit (.blockAlloc s none)) := by
  have hr : alignUpTo8 bytes = round8 bytes := by
    rw [alignUpTo8_eq]
    · rfl
    · omega
  have hr1 : bytes ≤ round8 bytes ∧ round8 bytes ≤ bytes + 7 := by unfold round8; omega
  have hneed : needCreateNewBlock cfg st (round8 bytes) a = .ok true := by
    cases hb : st.blocks with
    | nil => simp [needCreateNewBlock, hb]
    | cons b rest =>
      have hk := head_ok wf hb
      have h1 := hk.fits; have h2 := hk.pos_le; have h3 := hk.limit_le
      have h4 : b.size ≤ st.space := by rw [wf.space_eq, hb]; simp
      simp only [needCreateNewBlock, hb, Block.hasEnoughSpace, hk.posPtr]
      rw [alignPos_ok h8 h32 (by omega)]
      have h5 := padOf_lt (p := b.base + b.pos) (a := a) (by omega)
      simp only [ok_bind, pure_eq_ok]
      have h6 : add64 b.pos (padOf (b.base + b.pos) a) = b.pos + padOf (b.base + b.pos) a :=
        add64_of_lt (by omega)
      rw [h6, add64_of_lt (by omega)]
      have : ¬ b.pos + padOf (b.base + b.pos) a + round8 bytes ≤ b.limit := by omega
      simp [this]
  have hsize : ∀ p, newBlockSize cfg (round8 bytes) p = .ok (round8 bytes + 32) := by
    intro p
    have hn := hc.normal_le; have hh := hc.huge_le; have hi := hc.init_le
    have hd : cfg.huge / 4 ≤ cfg.huge := Nat.div_le_self _ _
    unfold newBlockSize
    have hk : kBlockHeaderSize = 32 := by decide
    rw [hk, add64_of_lt (by omega)]
    cases p
    · simp only [pure_eq_ok]
      show Except.ok (max cfg.init (round8 bytes + 32)) = _
      rw [Nat.max_eq_right (by omega)]
    · have h1 : ¬ round8 bytes + 32 ≤ cfg.normal := by omega
      have h2 : ¬ round8 bytes + 32 ≤ cfg.huge / kThresholdHuge := by
        show ¬ round8 bytes + 32 ≤ cfg.huge / 4
        omega
      have h3 : ¬ round8 bytes + 32 ≤ cfg.huge := by omega
      simp only [if_true, if_neg h1, if_neg h2, h3, and_false, if_false, ok_bind, pure_eq_ok,
        Nat.zero_max]
  have hnone : ∀ tr, cfg.blockAlloc tr (round8 bytes + 32) = none := by
    intro tr
    cases hp : cfg.blockAlloc tr (round8 bytes + 32) with
    | none => rfl
    | some p => have := hs.fits _ _ _ hp; omega
  refine ⟨round8 bytes + 32, ?_⟩
  unfold allocateAligned
  rw [hr]
  simp only [hneed, ok_bind, if_true]
  have hnb : newBlock cfg st (round8 bytes) = .ok (false, st.emit (.blockAlloc (round8 bytes + 32) none)) := by
    unfold newBlock
    have hk : kBlockHeaderSize = 32 := by decide
    have h1 : ¬ round8 bytes > M64 - 1 - kBlockHeaderSize := by rw [hk]; omega
    simp only [if_neg h1, hsize, ok_bind, hnone, pure_eq_ok]
  rw [hnb]
  simp [ok_bind, pure_eq_ok]

/-- C20, what holds: a request above half the address space is refused and changes nothing as long
as it does not wrap, that is, when it leaves 64 bytes plus the space already allocated below
`2^64`.  Missing: the requests in the last `64 + SpaceAllocated` bytes below `2^64`. -/
theorem c20_partial {cfg : Cfg} {A : Nat} {h : Hist} {st : St} (hA : 8 ∣ A) (hc : GoodCfg cfg)
    (hs : Sane A cfg) (he : Exec cfg A h st) {b a : Nat} (ha : a = 8 ∨ a = 16 ∨ a = 32)
    (hlo : 2 ^ 63 ≤ b) (hhi : b + 64 + st.space ≤ 2 ^ 64) :
    ∃ s, step cfg st (.allocate b a)
      = .ok (.ptr none, { st with trace := .blockAlloc s none :: st.trace }) := by
  obtain ⟨wf, _⟩ := exec_inv hA hc hs he
  obtain ⟨s, h1⟩ := allocateAligned_huge hc hs wf (a := a) (by omega) (by omega) hlo hhi
  exact ⟨s, by simp only [step, AllocateAligned, h1, ok_bind, pure_eq_ok]; rfl⟩

example : ∃ st s, Exec sampleCfg 32 sampleHist st ∧ step sampleCfg st (.allocate (2 ^ 64 - 100000) 16)
    = .ok (.ptr none, { st with trace := .blockAlloc s none :: st.trace }) := by
  obtain ⟨st, he, hsp⟩ := exec_such (cfg := sampleCfg) (A := 32) (cookie := some 9)
    (ops := sampleOps) (h := sampleHist) (P := fun st => st.space ≤ 20000) (by decide +kernel)
  obtain ⟨s, h⟩ := c20_partial (b := 2 ^ 64 - 100000) (a := 16) (by decide) sample_good sample_sane he
    (by decide) (by decide) (by omega)
  exact ⟨st, s, he, h⟩

/-- C21, expected: with any `block_alloc` returning memory aligned to 16 (as `malloc` does), an
alignment-32 request is answered null or with memory inside a held block. -/
def Align32Fits : Prop :=
  ∀ (cfg : Cfg) (h : Hist) (st : St) (b : Nat), GoodCfg cfg → Sane 16 cfg → Exec cfg 16 h st →
    b ≤ 2 ^ 62 → ∃ q st', step cfg st (.allocate b 32) = .ok (.ptr q, st') ∧
      ∀ p, q = some p → ∃ r ∈ held st'.trace, Region.Within ⟨p, b⟩ r

/-- C21 is violated: on a first block at an address that is 16 modulo 32, a request for the whole block
trips an assertion in debug builds. -/
theorem c21_violated : ¬ Align32Fits := by
  intro hall
  obtain ⟨q, st', h1, _⟩ := hall (exCfg true 16 []) [] (mkArena none) 4064 (exCfg_good _ _ _)
    (exCfg_sane _ (by decide) _) (.init none) (by decide)
  have h2 : (step (exCfg true 16 []) (mkArena none) (.allocate 4064 32)).map Prod.fst
      = .error (.assertFail "Block::alloc should make sure has enough space to alloc") := by
    decide +kernel
  rw [h1] at h2
  cases h2

/-- C21, release builds: the same call returns memory that ends 16 bytes past the only block. -/
theorem c21_release : ∃ st', step (exCfg false 16 []) (mkArena none) (.allocate 4064 32)
      = .ok (.ptr (some 64), st') ∧ held st'.trace = [⟨16, 4096⟩] ∧
    ¬ ∃ r ∈ held st'.trace, Region.Within ⟨64, 4064⟩ r := by
  have h : (step (exCfg false 16 []) (mkArena none) (.allocate 4064 32)).map
      (fun x => (x.1, held x.2.trace)) = .ok (.ptr (some 64), [⟨16, 4096⟩]) := by decide +kernel
  cases h5 : step (exCfg false 16 []) (mkArena none) (.allocate 4064 32) with
  | error e => rw [h5] at h; cases h
  | ok x =>
    obtain ⟨r, st'⟩ := x
    rw [h5] at h
    simp only [Except.map, Except.ok.injEq, Prod.mk.injEq] at h
    obtain ⟨rfl, h2⟩ := h
    refine ⟨st', rfl, h2, ?_⟩
    rw [h2]
    rintro ⟨r, hr, h3, h4⟩
    simp only [List.mem_singleton] at hr
    subst hr
    simp at h4

/-- C21, what holds: with a `block_alloc` that returns memory aligned to 32, alignment-32 requests
are null or aligned and inside a held block.  Missing: `block_alloc` aligned to 16 only. -/
theorem c21_partial {cfg : Cfg} {A : Nat} {h : Hist} {st : St} (hA : 32 ∣ A) (hc : GoodCfg cfg)
    (hs : Sane A cfg) (he : Exec cfg A h st) {b : Nat} (hb : b ≤ 2 ^ 62) :
    ∃ q st', step cfg st (.allocate b 32) = .ok (.ptr q, st') ∧
      ∀ p, q = some p → 32 ∣ p ∧ ∃ r ∈ held st'.trace, Region.Within ⟨p, b⟩ r := by
  have hA8 : 8 ∣ A := Nat.dvd_trans (by decide) hA
  have hop : Contract A h (.allocate b 32) := ⟨hb, by simp, hA⟩
  obtain ⟨wf, _⟩ := exec_inv hA8 hc hs he
  rcases allocateAligned_spec hA8 hc hs wf hop.2 hop.1 with ⟨size, _, h2, _⟩ | ⟨p, st2, h1, _⟩
  · refine ⟨none, st.emit (.blockAlloc size none),
      by simp only [step, AllocateAligned, h2, ok_bind, pure_eq_ok], ?_⟩
    intro p hp; cases hp
  · have hstep : step cfg st (.allocate b 32) = .ok (.ptr (some p), st2.emit (.allocated b st2.cookie)) := by
      simp only [step, AllocateAligned, h1, ok_bind, pure_eq_ok]
    refine ⟨some p, _, hstep, ?_⟩
    intro p' hp; cases hp
    have he' := Exec.step he hop hstep
    have h3 := c04_aligned hA8 hc hs he' (.allocate b 32, .ptr (some p)) (by simp)
    have h4 := c05_in_bounds hA8 hc hs he' ⟨p, b⟩ (by rw [live_append]; simp [regionsOf])
    exact ⟨h3, h4⟩

example : ∃ st q st', Exec sampleCfg 32 sampleHist st ∧
    step sampleCfg st (.allocate 4064 32) = .ok (.ptr q, st') :=
  let ⟨st, he⟩ := sample_exec
  let ⟨q, st', h, _⟩ := c21_partial (by decide) sample_good sample_sane he (b := 4064) (by decide)
  ⟨st, q, st', he, h⟩

/-- C22, expected: an array whose byte count exceeds 64 bits is refused. -/
def RefusesImpossibleArray : Prop :=
  ∀ (cfg : Cfg) (A : Nat) (h : Hist) (st : St) (s n : Nat), 8 ∣ A → GoodCfg cfg → Sane A cfg →
    Exec cfg A h st → 0 < s → n < M64 → M64 ≤ s * n →
    ∃ st', step cfg st (.createArray s n) = .ok (.ptr none, st')

/-- C22 is violated: `CreateArray<uint64_t>(2^61 + 1)` logs, obtains 8 bytes and constructs
`2^61 + 1` objects from there on. -/
theorem c22_violated : ¬ RefusesImpossibleArray := by
  intro hall
  obtain ⟨st', h1⟩ := hall (exCfg false 32 []) 32 [] (mkArena none) 8 (2 ^ 61 + 1) (by decide)
    (exCfg_good _ _ _) (exCfg_sane _ (by decide) _) (.init none) (by decide) (by decide) (by decide)
  have h2 : (step (exCfg false 32 []) (mkArena none) (.createArray 8 (2 ^ 61 + 1))).map Prod.fst
      = .error (.ub "write outside the arena") := by decide +kernel
  rw [h1] at h2
  cases h2

/-- C22, what holds: byte counts above half the address space that neither wrap nor come within
`64 + SpaceAllocated` of `2^64` are refused without any change.  Missing: products above that. -/
theorem c22_partial {cfg : Cfg} {A : Nat} {h : Hist} {st : St} (hA : 8 ∣ A) (hc : GoodCfg cfg)
    (hs : Sane A cfg) (he : Exec cfg A h st) {s n : Nat} (hpos : 0 < s)
    (hlo : 2 ^ 63 ≤ s * n) (hhi : s * n + 64 + st.space ≤ 2 ^ 64) :
    ∃ z, step cfg st (.createArray s n)
      = .ok (.ptr none, { st with trace := .blockAlloc z none :: st.trace }) := by
  obtain ⟨wf, _⟩ := exec_inv hA hc hs he
  obtain ⟨z, h1⟩ := allocateAligned_huge hc hs wf (a := 8) (by omega) (by omega) hlo hhi
  refine ⟨z, ?_⟩
  have hn : ¬ n > (M64 - 1) / s := by
    have : n ≤ (M64 - 1) / s := by
      rw [Nat.le_div_iff_mul_le hpos, Nat.mul_comm]; omega
    omega
  simp only [step, CreateArray, if_neg (Nat.pos_iff_ne_zero.1 hpos), if_neg hn,
    mul64_of_lt (show s * n < M64 by omega)]
  have hk : kByteSize = 8 := rfl
  rw [hk, h1]
  rfl

example : ∃ st z, Exec sampleCfg 32 sampleHist st ∧ step sampleCfg st (.createArray 8 (2 ^ 61 - 20000))
    = .ok (.ptr none, { st with trace := .blockAlloc z none :: st.trace }) := by
  obtain ⟨st, he, hsp⟩ := exec_such (cfg := sampleCfg) (A := 32) (cookie := some 9)
    (ops := sampleOps) (h := sampleHist) (P := fun st => st.space ≤ 20000) (by decide +kernel)
  obtain ⟨s, h⟩ := c22_partial (s := 8) (n := 2 ^ 61 - 20000) (by decide) sample_good sample_sane he
    (by decide) (by decide) (by omega)
  exact ⟨st, s, he, h⟩

/-- `Create` gets as far as constructing the object: its memory was obtained
(arena/arena.hpp:431-436). -/
def Constructs (cfg : Cfg) (st : St) (s : Nat) : Prop :=
  ∃ p st1, allocateAligned cfg st s 8 = .ok (some p, st1)

/-- C23, expected: when `Create` constructs an object that needs destruction, it returns it. -/
def NoLostObject : Prop :=
  ∀ (cfg : Cfg) (A : Nat) (h : Hist) (st : St) (s f : Nat), 8 ∣ A → GoodCfg cfg → Sane A cfg →
    Exec cfg A h st → s ≤ 2 ^ 62 → Constructs cfg st s →
    ∃ p st', step cfg st (.create s (some f)) = .ok (.ptr (some p), st')

/-- C23 is violated: the object fills the first block, the block for the registration is refused:
null is returned for the constructed object, and destroying the arena runs no destructor. -/
theorem c23_violated : ¬ NoLostObject ∧
    ∃ st' tr, Constructs (exCfg true 32 [1]) (mkArena none) 4064 ∧
      step (exCfg true 32 [1]) (mkArena none) (.create 4064 (some 5)) = .ok (.ptr none, st') ∧
      destroy (exCfg true 32 [1]) st' = .ok tr ∧ ran tr = [] := by
  have hcon : Constructs (exCfg true 32 [1]) (mkArena none) 4064 := by
    have h : (allocateAligned (exCfg true 32 [1]) (mkArena none) 4064 8).map Prod.fst
        = .ok (some 64) := by decide +kernel
    cases h5 : allocateAligned (exCfg true 32 [1]) (mkArena none) 4064 8 with
    | error e => rw [h5] at h; cases h
    | ok x =>
      obtain ⟨q, st1⟩ := x
      rw [h5] at h
      simp only [Except.map, Except.ok.injEq] at h
      exact ⟨64, st1, by rw [h5, h]⟩
  have h2 : (step (exCfg true 32 [1]) (mkArena none) (.create 4064 (some 5))).map
      (fun x => (x.1, (destroy (exCfg true 32 [1]) x.2).map ran)) = .ok (.ptr none, .ok []) := by
    decide +kernel
  constructor
  · intro hall
    obtain ⟨p, st', h1⟩ := hall (exCfg true 32 [1]) 32 [] (mkArena none) 4064 5 (by decide)
      (exCfg_good _ _ _) (exCfg_sane _ (by decide) _) (.init none) (by decide) hcon
    rw [h1] at h2
    cases h2
  · cases h5 : step (exCfg true 32 [1]) (mkArena none) (.create 4064 (some 5)) with
    | error e => rw [h5] at h2; cases h2
    | ok x =>
      obtain ⟨r, st'⟩ := x
      rw [h5] at h2
      simp only [Except.map, Except.ok.injEq, Prod.mk.injEq] at h2
      obtain ⟨rfl, h3⟩ := h2
      cases h6 : destroy (exCfg true 32 [1]) st' with
      | error e => rw [h6] at h3; cases h3
      | ok tr =>
        rw [h6] at h3
        simp only [Except.ok.injEq] at h3
        exact ⟨st', tr, hcon, rfl, h6, h3⟩

theorem grow_fail_cause {cfg : Cfg} {c : Option Nat} {ms : List Nat} {tr : List Ev} {s : Nat}
    (hg : Grow cfg c ms tr (.blockAlloc s none :: tr)) :
    ∃ m ∈ ms, s = blockPolicy cfg m (held tr).isEmpty ∧ cfg.blockAlloc tr s = none := by
  generalize ht : Ev.blockAlloc s none :: tr = t at hg
  cases hg with
  | refl => simp at ht
  | fail h1 h2 h3 h4 => cases ht; exact ⟨_, h2, h3, h4⟩
  | block => cases ht

/-- C23, what holds: with a `block_alloc` that does not refuse the block for the 16-byte record of the
destructor, `Create` returns the object and owes its destructor.  Missing: failure of that
request. -/
theorem c23_partial {cfg : Cfg} {A : Nat} {h : Hist} {st : St} (hA : 8 ∣ A) (hc : GoodCfg cfg)
    (hs : Sane A cfg) (he : Exec cfg A h st) {s f p : Nat} {st1 : St} (hsz : s ≤ 2 ^ 62)
    (h1 : allocateAligned cfg st s 8 = .ok (some p, st1))
    (hnf : ∀ first, cfg.blockAlloc st1.trace (blockPolicy cfg 16 first) ≠ none) :
    ∃ st', step cfg st (.create s (some f)) = .ok (.ptr (some p), st') ∧
      pending (h ++ [(.create s (some f), .ptr (some p))]) = ⟨⟨p, f⟩, ⟨p, s⟩ :: live h⟩ :: pending h := by
  obtain ⟨wf, hne⟩ := exec_inv hA hc hs he
  have ha : GoodAlign A 8 := ⟨by simp, hA⟩
  rcases allocateAligned_spec hA hc hs wf ha hsz with ⟨size, _, h2, _⟩ | ⟨p', st1', h2, _, hne1, _, wf1, _⟩
  · rw [h1] at h2; cases h2
  rw [h1] at h2
  cases h2
  obtain ⟨st2, m1, m2, m3, m4, m5, m6, m7, m8, m9⟩ :=
    memWrite_ok wf1 (p := p) (n := s) (wf1.regs_in ⟨p, s⟩ (by simp))
  have hk : kByteSize = 8 := rfl
  rcases addCleanup_spec hA hc hs m2 ⟨⟨p, f⟩, ⟨p, s⟩ :: live h⟩ m2.regs_in with ⟨z, hg, _⟩ | ⟨st3, h3, _⟩
  · exfalso
    obtain ⟨m, hm, rfl, hnone⟩ := grow_fail_cause hg
    simp only [List.mem_singleton] at hm
    subst hm
    rw [m3] at hnone
    exact hnf _ hnone
  · refine ⟨st3.emit (.allocated s st3.cookie), ?_, ?_⟩
    · simp only [step, Create, hk, h1, m1, ok_bind, h3, pure_eq_ok]
      rfl
    · rw [pending_append]; rfl

example : ∃ p st', step (exCfg true 32 []) (mkArena none) (.create 4064 (some 5))
    = .ok (.ptr (some p), st') := by
  have h : (match allocateAligned (exCfg true 32 []) (mkArena none) 4064 8 with
      | .ok (some _, st1) => decide (∀ first,
          (exCfg true 32 []).blockAlloc st1.trace (blockPolicy (exCfg true 32 []) 16 first) ≠ none)
      | _ => false) = true := by decide +kernel
  split at h
  · rename_i p st1 h1
    obtain ⟨st', h2, _⟩ := c23_partial (f := 5) (by decide) (exCfg_good _ _ _)
      (exCfg_sane _ (by decide) _) (.init none) (by decide) h1 (of_decide_eq_true h)
    exact ⟨p, st', h2⟩
  · cases h

/-- C71, expected: `Create<T>` returns memory aligned to `alignof(T)` (`a`; `sizeof(T)` is a multiple of
it) whenever `block_alloc` does. -/
def CreateAligned : Prop :=
  ∀ (cfg : Cfg) (A : Nat) (h : Hist) (st st' : St) (s a p : Nat) (d : Option Nat), 8 ∣ A →
    GoodCfg cfg → Sane A cfg → Exec cfg A h st → (a = 1 ∨ a = 2 ∨ a = 4 ∨ a = 8 ∨ a = 16 ∨ a = 32) →
    a ∣ A → 0 < s → a ∣ s → s ≤ 2 ^ 62 →
    step cfg st (.create s d) = .ok (.ptr (some p), st') → a ∣ p

/-- C71 is violated: the requested alignment is always 8 (arena/arena.hpp:431), so after an 8-byte
object a type with alignment 16 is created at an address that is 8 modulo 16. -/
theorem c71_violated : ¬ CreateAligned := by
  intro hall
  obtain ⟨st, he, hp⟩ := exec_such (cfg := exCfg true 32 []) (A := 32) (cookie := none)
    (ops := [.create 8 none]) (h := [(.create 8 none, .ptr (some 64))])
    (P := fun st => (step (exCfg true 32 []) st (.create 16 none)).map Prod.fst = .ok (.ptr (some 72)))
    (by decide +kernel)
  cases hx : step (exCfg true 32 []) st (.create 16 none) with
  | error e => rw [hx] at hp; cases hp
  | ok x =>
    obtain ⟨r, st'⟩ := x
    rw [hx] at hp
    simp only [Except.map, Except.ok.injEq] at hp
    subst hp
    have := hall _ 32 _ _ _ 16 16 72 none (by decide) (exCfg_good _ _ _) (exCfg_sane _ (by decide) _) he
      (by decide) (by decide) (by decide) (by decide) (by decide) hx
    revert this
    decide

/-- C71, what holds: types of alignment 1, 2, 4 or 8 are placed correctly, by `Create` and
`CreateArray`.  Missing: over-aligned types. -/
theorem c71_partial {cfg : Cfg} {A : Nat} {h : Hist} {st : St} (hA : 8 ∣ A) (hc : GoodCfg cfg)
    (hs : Sane A cfg) (he : Exec cfg A h st) {a p : Nat} (ha : a ∣ 8)
    (hx : (∃ s d, (.create s d, .ptr (some p)) ∈ h) ∨ ∃ s n, (.createArray s n, .ptr (some p)) ∈ h) :
    a ∣ p := by
  have hal := c04_aligned hA hc hs he
  rcases hx with ⟨s, d, hx⟩ | ⟨s, n, hx⟩
  · exact Nat.dvd_trans ha (hal _ hx)
  · exact Nat.dvd_trans ha (hal _ hx)

example : ∃ st, Exec sampleCfg 32 sampleHist st ∧ 4 ∣ 9360 :=
  let ⟨st, he⟩ := sample_exec
  ⟨st, he, c71_partial (by decide) sample_good sample_sane he (by decide)
    (Or.inl ⟨10, some 4, by decide⟩)⟩

end Verif.Arena
