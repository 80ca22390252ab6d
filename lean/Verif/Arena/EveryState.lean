import Verif.Arena.Violations

/-!
C20 to C23 in every state: what the arena does with sizes that wrap, with alignment 32, and with an object whose destructor cannot be registered.
-/

namespace Verif.Arena

open Verif.Align

variable {cfg : Cfg} {A : Nat} {h : Hist} {st : St}

/-! ### Lemmas -/

/-- The last seven sizes are rounded to zero. -/
theorem alignUpTo8_wraps {b : Nat} (hlo : 2 ^ 64 - 8 < b) (hhi : b < 2 ^ 64) : alignUpTo8 b = alignUpTo8 0 := by
  obtain ⟨k, rfl⟩ : ∃ k, b = 2 ^ 64 - 7 + k := ⟨b - (2 ^ 64 - 7), by omega⟩
  have hk : k < 7 := by omega
  obtain rfl | rfl | rfl | rfl | rfl | rfl | rfl : k = 0 ∨ k = 1 ∨ k = 2 ∨ k = 3 ∨ k = 4 ∨ k = 5 ∨ k = 6 := by omega
  all_goals decide

theorem allocateAligned_congr {b b' a : Nat} (h : alignUpTo8 b = alignUpTo8 b') : allocateAligned cfg st b a = allocateAligned cfg st b' a := by
  unfold allocateAligned
  rw [h]

theorem step_allocate {b a p : Nat} {st' : St} (h : allocateAligned cfg st b a = .ok (some p, st')) :
    step cfg st (.allocate b a) = .ok (.ptr (some p), st'.emit (.allocated b st'.cookie)) := by
  simp only [step, AllocateAligned, h]
  rfl

/-- Writing to the start of the current block. -/
theorem memWrite_header {b : Block} {rest : List Block} (hst : st.blocks = b :: rest) (hb : 8 ≤ b.size) :
    memWrite st b.base 8 = .error (.ub "block header overwritten") := by
  unfold memWrite
  rw [hst, if_neg (by omega), if_pos, if_pos]
  · simp [overlaps, kBlockHeaderSize_eq]
  · simp only [List.any_cons, Bool.or_eq_true, decide_eq_true_eq]
    exact .inl ⟨Nat.le_refl _, by omega⟩

/-- An arena that holds a block has a current block. -/
theorem held_head {regs : List Region} {pend : List Pending} (wf : WF A st regs pend) (hh : held st.trace ≠ []) :
    ∃ b rest, st.blocks = b :: rest := by
  cases hb : st.blocks with
  | nil => rw [wf.held_eq, hb] at hh; exact absurd rfl hh
  | cons b rest => exact ⟨b, rest, rfl⟩

theorem fits_zero (hA : 8 ∣ A) {b : Block} (hb : BlockOK A b) : Fits b (round8 0) 8 := by
  unfold Fits
  rw [pad8_zero hA hb]
  have := hb.pos_le
  simp only [round8]
  omega

/-- A write longer than the address space leaves every block. -/
theorem memWrite_long {regs : List Region} {pend : List Pending} (wf : WF A st regs pend) {p n : Nat} (hn : 2 ^ 64 ≤ n) :
    memWrite st p n = .error (.ub "write outside the arena") := by
  unfold memWrite
  rw [if_neg (by omega), if_neg]
  simp only [List.any_eq_true, decide_eq_true_eq, not_exists, not_and]
  intro b hb _ h2
  have := (wf.ok b hb).fits
  omega

/-- The request that makes the position of the current block wrap to zero. -/
theorem allocateAligned_back (hA : 8 ∣ A) {b : Block} {rest : List Block} (hst : st.blocks = b :: rest) (hb : BlockOK A b) :
    allocateAligned cfg st (2 ^ 64 - b.pos) 8 = .ok (some (b.base + b.pos), { st with blocks := { b with pos := 0 } :: rest }) := by
  have h1 := hb.fits; have h2 := hb.pos_le; have h3 := hb.limit_le; have h4 := hb.hdr; have h5 := hb.pos8
  have e0 : alignUpTo8 (2 ^ 64 - b.pos) = 2 ^ 64 - b.pos := by rw [alignUpTo8_eq (by omega)]; omega
  have hpad := pad8_zero hA hb
  have e1 := alignPos_ok (dbg := cfg.dbg) (a := 8) (by omega) (by omega) (p := b.base + b.pos) (by omega)
  rw [hpad] at e1
  have e2 : add64 (add64 b.pos 0) (2 ^ 64 - b.pos) = 0 := by
    unfold add64
    omega
  have e3 : add64 b.pos (add64 (2 ^ 64 - b.pos) 0) = 0 := by
    unfold add64
    omega
  have e4 : b.hasEnoughSpace cfg.dbg (2 ^ 64 - b.pos) 8 = .ok true := by
    unfold Block.hasEnoughSpace
    rw [hb.posPtr, e1]
    simp only [ok_bind, pure_eq_ok, e2, Nat.zero_le, decide_true]
  have e5 : b.alloc cfg.dbg (2 ^ 64 - b.pos) 8 = .ok (b.base + b.pos, { b with pos := 0 }) := by
    generalize 2 ^ 64 - b.pos = x at e3 e4 ⊢
    unfold Block.alloc
    cases hd : cfg.dbg <;> rw [hd] at e1 e4 <;> simp [e4, e1, e3, hb.posPtr]
  have h8 : 8 ∣ b.base := Nat.dvd_trans hA hb.aligned
  have hal : (b.base + b.pos) % 8 = 0 := by omega
  unfold allocateAligned needCreateNewBlock
  simp only [e0, hst, e4, ok_bind, pure_eq_ok, Bool.not_true, Bool.false_eq_true, if_false, e5, hal, decide_true, assertDbg_true]

/-- The next request is then served from the header. -/
theorem allocateAligned_header (hA : 8 ∣ A) {b : Block} {rest : List Block} {st1 : St} (hst : st1.blocks = { b with pos := 0 } :: rest)
    (hb : BlockOK A b) : allocateAligned cfg st1 8 8 = .ok (some b.base, { st1 with blocks := { b with pos := 8 } :: rest }) := by
  have h1 := hb.fits; have h2 := hb.pos_le; have h3 := hb.limit_le; have h4 := hb.hdr
  have h8 : 8 ∣ b.base := Nat.dvd_trans hA hb.aligned
  have e0 : alignUpTo8 8 = 8 := by rw [alignUpTo8_eq (by omega)]
  have e1 := alignPos_ok (dbg := cfg.dbg) (a := 8) (by omega) (by omega) (p := b.base) (by omega)
  rw [padOf_zero h8] at e1
  have ep : ({ b with pos := 0 } : Block).posPtr = b.base := by
    unfold Block.posPtr
    rw [add64_of_lt (by simp only; omega)]
    rfl
  have e2 : add64 (add64 0 0) 8 = 8 := by decide
  have e3 : add64 0 (add64 8 0) = 8 := by decide
  have e4 : ({ b with pos := 0 } : Block).hasEnoughSpace cfg.dbg 8 8 = .ok true := by
    unfold Block.hasEnoughSpace
    rw [ep, e1]
    simp only [ok_bind, pure_eq_ok, e2]
    rw [decide_eq_true (by omega)]
  have e5 : ({ b with pos := 0 } : Block).alloc cfg.dbg 8 8 = .ok (b.base, { b with pos := 8 }) := by
    unfold Block.alloc
    cases hd : cfg.dbg <;> rw [hd] at e1 e4 <;> simp [e4, e1, e3, ep]
  have hal : b.base % 8 = 0 := by omega
  unfold allocateAligned needCreateNewBlock
  simp only [e0, hst, e4, ok_bind, pure_eq_ok, Bool.not_true, Bool.false_eq_true, if_false, e5, hal, decide_true, assertDbg_true]

/-- An alignment-32 request served from a new block of its exact size at an address that is no multiple of 32. -/
theorem allocateAligned_misplaced (hA : 8 ∣ A) (hc : GoodCfg cfg) (hs : Sane A cfg) {regs : List Region} {pend : List Pending}
    (wf : WF A st regs pend) {b p : Nat} (hb : b ≤ 2 ^ 62) (hopt : cfg.normal ≤ b ∧ cfg.huge ≤ b ∧ cfg.init ≤ b)
    (hheld : ∀ c ∈ st.blocks, c.size < b) (hp : cfg.blockAlloc st.trace (round8 b + 32) = some p) (hmis : ¬ 32 ∣ p) :
    (cfg.dbg = true → allocateAligned cfg st b 32 = .error (.assertFail "Block::alloc should make sure has enough space to alloc")) ∧
    (cfg.dbg = false → ∃ q st', allocateAligned cfg st b 32 = .ok (some q, st') ∧ p + 40 ≤ q ∧
      st'.trace = (afterNewBlock st p (round8 b + 32)).trace) := by
  have hr1 : b ≤ round8 b ∧ round8 b ≤ b + 7 := by unfold round8; omega
  have hr : round8 b ≤ 2 ^ 62 + 8 := by omega
  have hsz : ∀ x, chosenSize cfg (round8 b) x = round8 b + 32 := by
    intro x
    obtain ⟨o1, o2, o3⟩ := hopt
    unfold chosenSize
    cases x
    · simp only [Bool.false_eq_true, if_false]; omega
    · have : ¬ round8 b + 32 ≤ cfg.huge / 4 := by omega
      simp only [if_true, if_neg (show ¬ round8 b + 32 ≤ cfg.normal by omega), if_neg this,
        if_neg (show ¬ round8 b + 32 ≤ cfg.huge by omega)]
      omega
  have hp' : cfg.blockAlloc st.trace (chosenSize cfg (round8 b) (!st.blocks.isEmpty)) = some p := by rw [hsz]; exact hp
  have hneed : needCreateNewBlock cfg st (round8 b) 32 = .ok true := by
    cases hbl : st.blocks with
    | nil => simp [needCreateNewBlock, hbl]
    | cons c rest =>
      rw [needCreate_cons wf hbl (by omega) (by omega) hr]
      have h1 := hheld c (by rw [hbl]; exact List.mem_cons_self ..)
      have h2 := (head_ok wf hbl).limit_le
      rw [decide_eq_false (by unfold Fits; omega)]
      rfl
  have hnb := newBlock_some hc hs wf hr hp'
  have hwf := afterNewBlock_wf hc hs wf (m := round8 b) (Nat.dvd_mul_left 8 _) hp'
  rw [hsz] at hnb hwf
  have hbk : BlockOK A (Block.mk' p (round8 b + 32)) := hwf.ok _ (by simp [afterNewBlock])
  have hAp : 8 ∣ p := Nat.dvd_trans hA (hs.aligned _ _ _ hp)
  have hfit := hs.fits _ _ _ hp
  have hal := padOf_aligned (p := p + 32) (a := 32) (by omega)
  have hpl := padOf_lt (p := p + 32) (a := 32) (by omega)
  have hpad : 8 ≤ padOf (p + 32) 32 := by omega
  have e1 : (Block.mk' p (round8 b + 32)).base = p := rfl
  have e2 : (Block.mk' p (round8 b + 32)).pos = 32 := by simp [Block.mk']
  have e3 : (Block.mk' p (round8 b + 32)).limit = round8 b + 32 := rfl
  have h1 := hasEnoughSpace_ok (dbg := cfg.dbg) hbk (size := round8 b) (a := 32) (by omega) (by omega) hr
  rw [e1, e2, e3, decide_eq_false (by omega)] at h1
  have h2 := alignPos_ok (dbg := cfg.dbg) (a := 32) (by omega) (by omega) (p := p + 32) (by omega)
  have hpp := hbk.posPtr
  rw [e1, e2] at hpp
  constructor
  · intro hd
    rw [hd] at h1
    unfold allocateAligned
    simp only [alignUpTo8_round8 hb, hneed, ok_bind, if_true, hnb, afterNewBlock, Bool.not_true, Bool.false_eq_true, if_false]
    unfold Block.alloc
    simp only [hd, if_true, h1, ok_bind]
    rfl
  · intro hd
    rw [hd] at h2
    have h3 : (Block.mk' p (round8 b + 32)).alloc false (round8 b) 32 = .ok (p + 32 + padOf (p + 32) 32,
        { Block.mk' p (round8 b + 32) with pos := add64 (Block.mk' p (round8 b + 32)).pos (add64 (round8 b) (padOf (p + 32) 32)) }) := by
      unfold Block.alloc
      simp only [Bool.false_eq_true, if_false, hpp, h2, ok_bind]
      rfl
    refine ⟨p + 32 + padOf (p + 32) 32, ⟨{ Block.mk' p (round8 b + 32) with
      pos := add64 (Block.mk' p (round8 b + 32)).pos (add64 (round8 b) (padOf (p + 32) 32)) } :: st.blocks, st.cookie,
      st.space + (round8 b + 32), (afterNewBlock st p (round8 b + 32)).trace⟩, ?_, by omega, rfl⟩
    unfold allocateAligned
    simp only [alignUpTo8_round8 hb, hneed, ok_bind, if_true, hnb, afterNewBlock, Bool.not_true, Bool.false_eq_true, if_false, hd, h3]
    rfl

/-! ### C20 -/

/-- C20 is violated in every state of an arena that holds a block: each of the last seven sizes below `2^64` is granted, without a new
block; the memory granted is in no block. -/
theorem huge_granted_violated (hA : 8 ∣ A) (hc : GoodCfg cfg) (hs : Sane A cfg) (he : Exec cfg A h st) (hh : held st.trace ≠ [])
    {b : Nat} (hlo : 2 ^ 64 - 8 < b) (hhi : b < 2 ^ 64) :
    ∃ p st', step cfg st (.allocate b 8) = .ok (.ptr (some p), st') ∧ held st'.trace = held st.trace ∧
      ∀ r ∈ held st'.trace, ¬ Region.Within ⟨p, b⟩ r := by
  obtain ⟨wf, _⟩ := exec_inv hA hc hs he
  obtain ⟨bk, rest, hb⟩ := held_head wf hh
  have h0 := allocate_fit (cfg := cfg) hA wf hb (bytes := 0) (a := 8) ⟨.inl rfl, hA⟩ (by omega) (fits_zero hA (head_ok wf hb))
  rw [← allocateAligned_congr (alignUpTo8_wraps hlo hhi)] at h0
  refine ⟨_, _, step_allocate h0, rfl, ?_⟩
  intro r hr hin
  have hr' : r ∈ held st.trace := hr
  rw [wf.held_eq, List.mem_map] at hr'
  obtain ⟨c, hc', rfl⟩ := hr'
  have h1 := (wf.ok c hc').fits
  have h2 := hin.2
  simp only [Block.region] at h2
  omega

/-- C20 is violated in every state of an arena that holds a block: some size above half the address space is granted, and the next
request is served with the start of a block, where writing overwrites the arena's own data. -/
theorem header_granted_violated (hA : 8 ∣ A) (hc : GoodCfg cfg) (hs : Sane A cfg) (he : Exec cfg A h st) (hh : held st.trace ≠ []) :
    ∃ b p st1 r st2 m, 2 ^ 63 ≤ b ∧ b < 2 ^ 64 ∧ step cfg st (.allocate b 8) = .ok (.ptr (some p), st1) ∧ r ∈ held st.trace ∧
      step cfg st1 (.allocate 8 8) = .ok (.ptr (some r.start), st2) ∧ step cfg st2 (.write r.start 8) = .error (.ub m) := by
  obtain ⟨wf, _⟩ := exec_inv hA hc hs he
  obtain ⟨bk, rest, hb⟩ := held_head wf hh
  have hok := head_ok wf hb
  have h1 := hok.fits; have h2 := hok.pos_le; have h3 := hok.limit_le; have h4 := hok.hdr
  have e1 := allocateAligned_back (cfg := cfg) hA hb hok
  refine ⟨2 ^ 64 - bk.pos, _, _, bk.region, _, "block header overwritten", by omega, by omega,
    step_allocate e1, by rw [wf.held_eq, hb]; exact List.mem_cons_self ..,
    step_allocate (allocateAligned_header (b := bk) (rest := rest) hA rfl hok), ?_⟩
  have e2 := memWrite_header (st := St.emit ⟨{ bk with pos := 8 } :: rest, st.cookie, st.space,
    .allocated (2 ^ 64 - bk.pos) st.cookie :: st.trace⟩ (.allocated 8 st.cookie)) (b := { bk with pos := 8 }) (rest := rest) rfl
    (by simp only; omega)
  exact congrArg (fun x => x.bind (fun st => .ok (Ret.unit, st))) e2

/-! ### C21 -/

/-- C21 is violated in every state: a request with alignment 32 that is larger than the sizes in the options and than every block held
gets a block of its own, and if that block is not at a multiple of 32 the request does not fit into it: a debug build stops with an
assertion, a release build returns memory that is in no block. -/
theorem align32_everywhere_violated (hA : 8 ∣ A) (hc : GoodCfg cfg) (hs : Sane A cfg) (he : Exec cfg A h st) {b p : Nat}
    (hb : b ≤ 2 ^ 62) (hopt : cfg.normal ≤ b ∧ cfg.huge ≤ b ∧ cfg.init ≤ b) (hheld : ∀ r ∈ held st.trace, r.len < b)
    (hp : cfg.blockAlloc st.trace (round8 b + 32) = some p) (hmis : ¬ 32 ∣ p) :
    (cfg.dbg = true → ∃ m, step cfg st (.allocate b 32) = .error (.assertFail m)) ∧
    (cfg.dbg = false → ∃ q st', step cfg st (.allocate b 32) = .ok (.ptr (some q), st') ∧
      held st'.trace = ⟨p, round8 b + 32⟩ :: held st.trace ∧ ∀ r ∈ held st'.trace, ¬ Region.Within ⟨q, b⟩ r) := by
  obtain ⟨wf, _⟩ := exec_inv hA hc hs he
  have hh : ∀ c ∈ st.blocks, c.size < b := fun c hm =>
    hheld c.region (by rw [wf.held_eq]; exact List.mem_map_of_mem hm)
  obtain ⟨h1, h2⟩ := allocateAligned_misplaced hA hc hs wf hb hopt hh hp hmis
  refine ⟨fun hd => ⟨_, by simp only [step, AllocateAligned, h1 hd]; rfl⟩, fun hd => ?_⟩
  obtain ⟨q, st', e, hq, ht⟩ := h2 hd
  have hheld' : held (st'.emit (.allocated b st'.cookie)).trace = ⟨p, round8 b + 32⟩ :: held st.trace := by
    show held st'.trace = _
    rw [ht]
    rfl
  refine ⟨q, _, step_allocate e, hheld', ?_⟩
  rw [hheld']
  intro r hr hin
  have h3 := hin.1
  have h4 := hin.2
  rcases List.mem_cons.1 hr with rfl | hr
  · have : round8 b ≤ b + 7 := by unfold round8; omega
    simp only at h3 h4
    omega
  · have := hheld r hr
    simp only at h3 h4
    omega

/-- The hypotheses are met after an allocation, with blocks at multiples of 16. -/
example (dbg : Bool) : ∃ st p, Exec (exCfg dbg 16 []) 16 [(.allocate 4080 8, .ptr (some 48))] st ∧
    (exCfg dbg 16 []).blockAlloc st.trace (round8 2097160 + 32) = some p ∧ ¬ 32 ∣ p ∧ ∀ r ∈ held st.trace, r.len < 2097160 := by
  obtain ⟨st, he, hp⟩ := exec_such (cfg := exCfg dbg 16 []) (A := 16) (cookie := none)
    (ops := [.allocate 4080 8]) (h := [(.allocate 4080 8, .ptr (some 48))])
    (P := fun st => (exCfg dbg 16 []).blockAlloc st.trace (round8 2097160 + 32) = some 4144 ∧ ∀ r ∈ held st.trace, r.len < 2097160)
    (by cases dbg <;> decide +kernel)
  exact ⟨st, 4144, he, hp.1, by decide, hp.2⟩

/-! ### C22 -/

/-- C22 is violated in every state: when the byte count does not fit into 64 bits, the objects are constructed past every block as soon as
`block_alloc` serves the wrapped count (here up to `2^62`).  Null is returned only when it refuses a block for that; never when the arena
holds a block and the count is a multiple of `2^64`. -/
theorem array_wraps_violated (hA : 8 ∣ A) (hc : GoodCfg cfg) (hs : Sane A cfg) (he : Exec cfg A h st) {s n : Nat} (hpos : 0 < s)
    (hbig : 2 ^ 64 ≤ s * n) (hw : s * n % 2 ^ 64 ≤ 2 ^ 62) :
    (step cfg st (.createArray s n) = .error (.ub "write outside the arena") ∨
      ∃ z st', step cfg st (.createArray s n) = .ok (.ptr none, st') ∧ st'.trace = .blockAlloc z none :: .log :: st.trace) ∧
    (held st.trace ≠ [] → s * n % 2 ^ 64 = 0 → step cfg st (.createArray s n) = .error (.ub "write outside the arena")) := by
  obtain ⟨wf, _⟩ := exec_inv hA hc hs he
  have hn : n > (M64 - 1) / s := by
    have : ¬ n ≤ (M64 - 1) / s := by
      rw [Nat.le_div_iff_mul_le hpos, Nat.mul_comm]; omega
    omega
  have wf1 : WF A (st.emit .log) (live h) (pending h) := wf.of_trace _ rfl
  have hk : kByteSize = 8 := rfl
  have hm : mul64 s n = s * n % 2 ^ 64 := rfl
  have hga : GoodAlign A 8 := ⟨.inl rfl, hA⟩
  have served : ∀ p st' regs pend, allocateAligned cfg (st.emit .log) (s * n % 2 ^ 64) 8 = .ok (some p, st') → WF A st' regs pend →
      step cfg st (.createArray s n) = .error (.ub "write outside the arena") := by
    intro p st' regs pend h1 wf2
    simp only [step, CreateArray, if_neg (Nat.pos_iff_ne_zero.1 hpos), if_pos hn, hk, hm, h1, ok_bind, memWrite_long wf2 hbig]
    rfl
  refine ⟨?_, fun hh h0 => ?_⟩
  · rcases allocateAligned_spec hA hc hs wf1 hga hw with ⟨z, _, h1, _⟩ | ⟨p, st', h1, _, _, _, wf2, _⟩
    · right
      exact ⟨z, _, by simp only [step, CreateArray, if_neg (Nat.pos_iff_ne_zero.1 hpos), if_pos hn, hk, hm, h1, ok_bind]; rfl, rfl⟩
    · exact .inl (served _ _ _ _ h1 wf2)
  · obtain ⟨bk, rest, hb⟩ := held_head wf hh
    have hf := fits_zero hA (head_ok wf hb)
    have hb1 : (st.emit .log).blocks = bk :: rest := hb
    have h1 := allocate_fit (cfg := cfg) hA wf1 hb1 hga (bytes := 0) (by omega) hf
    exact served _ _ _ _ (by rw [h0]; exact h1) (bump_wf hA wf1 hb1 hga hf)

/-- The hypotheses are met after a small allocation, in debug and release builds; `CreateArray<T>(2^63)` with `sizeof(T) = 2` is a
product of `2^64`. -/
example (dbg : Bool) : ∃ st, Exec (exCfg dbg 32 []) 32 [(.allocate 8 8, .ptr (some 64))] st ∧ held st.trace ≠ [] ∧
    (∃ p st', step (exCfg dbg 32 []) st (.allocate (2 ^ 64 - 1) 8) = .ok (.ptr (some p), st')) ∧
    step (exCfg dbg 32 []) st (.createArray 2 (2 ^ 63)) = .error (.ub "write outside the arena") := by
  obtain ⟨st, he, hp⟩ := exec_such (cfg := exCfg dbg 32 []) (A := 32) (cookie := none)
    (ops := [.allocate 8 8]) (h := [(.allocate 8 8, .ptr (some 64))]) (P := fun st => held st.trace ≠ [])
    (by cases dbg <;> decide +kernel)
  obtain ⟨p, st', h1, _⟩ := huge_granted_violated (by decide) (exCfg_good _ _ _) (exCfg_sane _ (by decide) _) he hp
    (b := 2 ^ 64 - 1) (by decide) (by decide)
  exact ⟨st, he, hp, ⟨p, st', h1⟩, (array_wraps_violated (by decide) (exCfg_good _ _ _) (exCfg_sane _ (by decide) _) he (by decide)
    (by decide) (by decide)).2 hp (by decide)⟩

/-! ### C23 -/

/-- C23 is violated in every state in which the object's memory is obtained but no destructor can be registered after that (`Own`, right
after the constructor, would return false): `Create` returns null for the object it constructed, and destroying the arena runs the
destructors it would have run without that object. -/
theorem lost_object_violated (hA : 8 ∣ A) (hc : GoodCfg cfg) (hs : Sane A cfg) (he : Exec cfg A h st) {s f p : Nat} {st1 st2 : St}
    (hsz : s ≤ 2 ^ 62) (hb : step cfg st (.createBegin s) = .ok (.ptr (some p), st1))
    (ho : step cfg st1 (.own p f) = .ok (.bool false, st2)) :
    step cfg st (.create s (some f)) = .ok (.ptr none, st2) ∧
    ∃ tr tr', destroy cfg st = .ok tr ∧ destroy cfg st2 = .ok tr' ∧ ran tr' = ran tr := by
  have e1 : step cfg st (.create s (some f)) = .ok (.ptr none, st2) := by
    simp only [step, createBegin] at hb
    simp only [step, Own] at ho
    simp only [step, Create]
    cases h1 : allocateAligned cfg st s kByteSize with
    | error e => rw [h1] at hb; cases hb
    | ok x =>
      obtain ⟨r, sa⟩ := x
      rw [h1] at hb
      cases r with
      | none => cases hb
      | some q =>
        simp only [ok_bind] at hb ⊢
        cases h2 : memWrite sa q s with
        | error e => rw [h2] at hb; cases hb
        | ok sb =>
          rw [h2] at hb
          cases hb
          simp only [ok_bind]
          cases h3 : addCleanup cfg sb ⟨p, f⟩ with
          | error e => rw [h3] at ho; cases ho
          | ok y =>
            obtain ⟨k, sc⟩ := y
            rw [h3] at ho
            cases ho
            rfl
  refine ⟨e1, ?_⟩
  have hct : Contract A h (.create s (some f)) := hsz
  obtain ⟨tr, h1, h2⟩ := c11_life hA hc hs he
  obtain ⟨tr', h3, h4⟩ := c11_life hA hc hs (.step he hct e1)
  refine ⟨tr, tr', h1, h3, ?_⟩
  rw [h4, h2, owed_append]
  rfl

/-- The hypotheses are met: the object fills the first block, the second is refused. -/
example : ∃ st1 st2, step (exCfg true 32 [1]) (mkArena none) (.createBegin 4064) = .ok (.ptr (some 64), st1) ∧
    step (exCfg true 32 [1]) st1 (.own 64 5) = .ok (.bool false, st2) := by
  have key : (match step (exCfg true 32 [1]) (mkArena none) (.createBegin 4064) with
    | .ok (.ptr (some 64), st1) =>
      match step (exCfg true 32 [1]) st1 (.own 64 5) with
      | .ok (.bool false, _) => true
      | _ => false
    | _ => false) = true := by decide +kernel
  split at key
  · next h1 =>
    split at key
    · next h2 => exact ⟨_, _, h1, h2⟩
    · cases key
  · cases key

end Verif.Arena
