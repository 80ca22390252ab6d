import Verif.Arena.Props

/-!
C19: after `Reset` an arena behaves like a new one.  Simulation between two runs whose blocks have
the same geometry but different garbage in their free memory, and whose traces differ by a common
past.  It covers every sequence of calls, including those that end in a fault.
-/

namespace Verif.Arena

open Verif.Align

/-- Two blocks that differ only in memory that is not part of the node list. -/
structure SameBlock (b c : Block) : Prop where
  base : b.base = c.base
  pos : b.pos = c.pos
  size : b.size = c.size
  limit : b.limit = c.limit
  lt : b.size < M64
  limit_le : b.limit ≤ b.size
  cells : ∀ k, b.limit + 16 * k < b.size → b.cells (b.limit + 16 * k) = c.cells (b.limit + 16 * k)

/-- Two states with the same blocks up to garbage, after the pasts `T`, `U`. -/
structure Same (T U : List Ev) (s t : St) : Prop where
  blocks : List.Forall₂ SameBlock s.blocks t.blocks
  ne : s.blocks ≠ []
  cookie : s.cookie = t.cookie
  space : s.space = t.space
  trace : ∃ new, s.trace = new ++ T ∧ t.trace = new ++ U

/-- The same outcome: the same fault, or the same result and related states. -/
def SameOut {α : Type} (T U : List Ev) (x y : Except Fault (α × St)) : Prop :=
  (∃ e, x = .error e ∧ y = .error e) ∨
    ∃ a s t, x = .ok (a, s) ∧ y = .ok (a, t) ∧ Same T U s t

section

variable {T U : List Ev} {s t : St}

theorem SameOut.ok {α : Type} {a : α} (h : Same T U s t) :
    SameOut T U (.ok (a, s)) (.ok (a, t)) := Or.inr ⟨a, s, t, rfl, rfl, h⟩

theorem SameOut.bind {α β : Type} {x y : Except Fault (α × St)}
    {f g : α × St → Except Fault (β × St)} (h : SameOut T U x y)
    (hf : ∀ a s t, Same T U s t → SameOut T U (f (a, s)) (g (a, t))) :
    SameOut T U (x >>= f) (y >>= g) := by
  rcases h with ⟨e, rfl, rfl⟩ | ⟨a, s, t, rfl, rfl, h⟩
  · exact Or.inl ⟨e, rfl, rfl⟩
  · exact hf a s t h

/-- Bind over a pure computation that is the same on both sides. -/
theorem SameOut.bindPure {α β : Type} {x y : Except Fault α}
    {f g : α → Except Fault (β × St)} (h : x = y) (hf : ∀ a, SameOut T U (f a) (g a)) :
    SameOut T U (x >>= f) (y >>= g) := by
  subst h
  cases x with
  | error e => exact Or.inl ⟨e, rfl, rfl⟩
  | ok a => exact hf a

theorem Same.emit (h : Same T U s t) (e : Ev) : Same T U (s.emit e) (t.emit e) := by
  obtain ⟨new, h1, h2⟩ := h.trace
  exact ⟨h.blocks, h.ne, h.cookie, h.space, e :: new, by simp [St.emit, h1], by simp [St.emit, h2]⟩

theorem hasEnough_same {dbg : Bool} {b c : Block} (h : SameBlock b c) (n a : Nat) :
    b.hasEnoughSpace dbg n a = c.hasEnoughSpace dbg n a := by
  unfold Block.hasEnoughSpace Block.posPtr
  rw [h.base, h.pos, h.limit]

theorem need_same {cfg cfg2 : Cfg} (hd : cfg.dbg = cfg2.dbg) (h : Same T U s t) (n a : Nat) :
    needCreateNewBlock cfg s n a = needCreateNewBlock cfg2 t n a := by
  have hb := h.blocks
  unfold needCreateNewBlock
  cases hs : s.blocks with
  | nil => exact absurd hs h.ne
  | cons b bs =>
    rw [hs] at hb
    cases ht : t.blocks with
    | nil => rw [ht] at hb; cases hb
    | cons c cs =>
      rw [ht] at hb
      cases hb with
      | cons h1 h2 => simp only [hasEnough_same h1, hd]

/-- Options of two arenas that agree on everything used once a block exists. -/
structure SameCfg (T U : List Ev) (cfg cfg2 : Cfg) : Prop where
  normal : cfg.normal = cfg2.normal
  huge : cfg.huge = cfg2.huge
  dbg : cfg.dbg = cfg2.dbg
  alloc : ∀ new n, cfg2.blockAlloc (new ++ U) n = cfg.blockAlloc (new ++ T) n

variable {cfg cfg2 : Cfg}

theorem alloc_same (hc : SameCfg T U cfg cfg2) (h : Same T U s t) (n : Nat) :
    cfg.blockAlloc s.trace n = cfg2.blockAlloc t.trace n := by
  obtain ⟨new, h1, h2⟩ := h.trace
  rw [h1, h2, hc.alloc]

theorem isEmpty_same (h : Same T U s t) : s.blocks.isEmpty = false ∧ t.blocks.isEmpty = false := by
  have hb := h.blocks
  have hne := h.ne
  cases hs : s.blocks with
  | nil => exact absurd hs hne
  | cons b bs =>
    rw [hs] at hb
    cases ht : t.blocks with
    | nil => rw [ht] at hb; cases hb
    | cons c cs => simp

theorem alignUp_lt {n b m : Nat} (h : alignUp n b = .ok m) : m < M64 := by
  unfold alignUp at h
  split at h
  · cases h
  · cases h; exact add64_lt _ _

theorem newBlockSize_lt (hg : GoodCfg cfg) {n z : Nat} (h : newBlockSize cfg n true = .ok z) :
    z < M64 := by
  have hn := hg.normal_le; have hh := hg.huge_le
  have hr := add64_lt n kBlockHeaderSize
  unfold newBlockSize at h
  simp only [if_true] at h
  split at h
  · cases h; omega
  · split at h
    · cases ha : alignUp n cfg.normal with
      | error e => rw [ha] at h; cases h
      | ok m => rw [ha] at h; have := alignUp_lt ha; cases h; omega
    · split at h
      · cases h; omega
      · cases h; omega

theorem newBlock_same (hg : GoodCfg cfg) (hc : SameCfg T U cfg cfg2) (h : Same T U s t) (n : Nat) :
    SameOut T U (newBlock cfg s n) (newBlock cfg2 t n) := by
  unfold newBlock
  have h' : Same T U (if n > M64 - 1 - kBlockHeaderSize then s.emit .log else s)
      (if n > M64 - 1 - kBlockHeaderSize then t.emit .log else t) := by
    split
    · exact h.emit _
    · exact h
  generalize (if n > M64 - 1 - kBlockHeaderSize then s.emit .log else s) = s' at h'
  generalize (if n > M64 - 1 - kBlockHeaderSize then t.emit .log else t) = t' at h'
  obtain ⟨e1, e2⟩ := isEmpty_same h'
  simp only [e1, e2, Bool.not_false]
  have hz : newBlockSize cfg n true = newBlockSize cfg2 n true := by
    unfold newBlockSize; simp only [if_true, hc.normal, hc.huge]
  cases hsz : newBlockSize cfg n true with
  | error e => rw [← hz, hsz]; exact Or.inl ⟨e, rfl, rfl⟩
  | ok z =>
    have hlt := newBlockSize_lt hg hsz
    rw [← hz, hsz]
    simp only [ok_bind, alloc_same hc h']
    cases hm : cfg2.blockAlloc t'.trace z with
    | none => exact .ok (h'.emit _)
    | some p =>
      simp only
      split
      · exact Or.inl ⟨_, rfl, rfl⟩
      · have hlen : s'.blocks.length = t'.blocks.length := h'.blocks.length_eq
        have h2 := (h'.emit (.blockAlloc z (some p))).emit (.newblock t'.blocks.length z t'.cookie)
        refine Or.inr ⟨_, _, _, rfl, rfl, ?_⟩
        obtain ⟨new, h3, h4⟩ := h2.trace
        refine ⟨.cons ⟨rfl, rfl, rfl, rfl, hlt, Nat.le_refl _, fun _ _ => rfl⟩ h'.blocks, by simp, h'.cookie, ?_,
          new, ?_, h4⟩
        · show add64 s'.space z = add64 t'.space z
          rw [h'.space]
        · rw [← h3]
          simp only [St.emit, hlen, h'.cookie]

theorem alloc_block_same {dbg : Bool} {b c : Block} (h : SameBlock b c) (n a : Nat) :
    (∃ e, b.alloc dbg n a = .error e ∧ c.alloc dbg n a = .error e) ∨
    ∃ p b' c', b.alloc dbg n a = .ok (p, b') ∧ c.alloc dbg n a = .ok (p, c') ∧ SameBlock b' c' := by
  unfold Block.alloc
  rw [hasEnough_same h]
  have hp : b.posPtr = c.posPtr := by unfold Block.posPtr; rw [h.base, h.pos]
  rw [hp, h.pos]
  generalize hx : (if dbg = true then do
    let ok ← c.hasEnoughSpace dbg n a
    assertDbg dbg ok "Block::alloc should make sure has enough space to alloc"
    else pure PUnit.unit : Except Fault PUnit) = x
  cases dbg with
  | false =>
    simp only [Bool.false_eq_true, if_false]
    cases ha : alignPos false c.posPtr a with
    | error e => exact Or.inl ⟨e, rfl, rfl⟩
    | ok y =>
      refine Or.inr ⟨_, _, _, rfl, rfl, ?_⟩
      exact ⟨h.base, rfl, h.size, h.limit, h.lt, h.limit_le, h.cells⟩
  | true =>
    simp only [if_true]
    cases he : c.hasEnoughSpace true n a with
    | error e => exact Or.inl ⟨e, rfl, rfl⟩
    | ok v =>
      simp only [ok_bind]
      cases hv : assertDbg true v "Block::alloc should make sure has enough space to alloc" with
      | error e => exact Or.inl ⟨e, rfl, rfl⟩
      | ok _ =>
        simp only [ok_bind]
        cases ha : alignPos true c.posPtr a with
        | error e => exact Or.inl ⟨e, rfl, rfl⟩
        | ok y =>
          refine Or.inr ⟨_, _, _, rfl, rfl, ?_⟩
          exact ⟨h.base, rfl, h.size, h.limit, h.lt, h.limit_le, h.cells⟩

theorem allocateAligned_same (hg : GoodCfg cfg) (hc : SameCfg T U cfg cfg2) (h : Same T U s t)
    (n a : Nat) : SameOut T U (allocateAligned cfg s n a) (allocateAligned cfg2 t n a) := by
  unfold allocateAligned
  refine .bindPure (need_same hc.dbg h _ _) ?_
  intro need
  have key : SameOut T U (if need then newBlock cfg s (alignUpTo8 n) else .ok (true, s))
      (if need then newBlock cfg2 t (alignUpTo8 n) else .ok (true, t)) := by
    cases need
    · exact .ok h
    · exact newBlock_same hg hc h _
  have hbind : ∀ {γ δ : Type} (b : Bool) (x y : Except Fault γ) (f : γ → Except Fault δ),
      (if b = true then x >>= f else y >>= f) = ((if b = true then x else y) >>= f) := by
    intro γ δ b x y f; cases b <;> rfl
  simp only [hbind]
  refine key.bind ?_
  · intro ok s t h
    cases ok with
    | false => exact .ok h
    | true =>
      have hb := h.blocks
      simp only [Bool.not_true, Bool.false_eq_true, if_false]
      cases hs : s.blocks with
      | nil => exact absurd hs h.ne
      | cons b bs =>
        rw [hs] at hb
        cases ht : t.blocks with
        | nil => rw [ht] at hb; cases hb
        | cons c cs =>
          rw [ht] at hb
          cases hb with
          | cons h1 h2 =>
            simp only [hc.dbg]
            rcases alloc_block_same (dbg := cfg2.dbg) h1 (alignUpTo8 n) a with
              ⟨e, e1, e2⟩ | ⟨p, b', c', e1, e2, e3⟩
            · rw [e1, e2]; exact Or.inl ⟨e, rfl, rfl⟩
            · rw [e1, e2]
              simp only [ok_bind]
              refine .bindPure rfl ?_
              intro _
              exact Or.inr ⟨_, _, _, rfl, rfl, .cons e3 h2, by simp, h.cookie, h.space, h.trace⟩

theorem sub64_back {l z : Nat} (h1 : l ≤ z) (h2 : z < M64)
    (h3 : sub64 l kCleanupNodeSize + 16 ≤ z) : sub64 l kCleanupNodeSize + 16 = l := by
  have hk : kCleanupNodeSize = 16 := by decide
  rw [hk] at h3 ⊢
  by_cases h : 16 ≤ l
  · rw [sub64_of_le h (by omega)]; omega
  · unfold sub64 at h3
    rw [Nat.mod_eq_of_lt (by omega)] at h3
    omega

theorem registerCleanup_eq (dbg : Bool) (b : Block) (n : Node) :
    b.registerCleanup dbg n = assertDbg dbg (decide (add64 b.pos kCleanupNodeSize ≤ b.limit))
        "alloc_cleanup should make sure has enough space less rest space" >>= fun _ =>
      if sub64 b.limit kCleanupNodeSize + 16 ≤ b.size ∧
          kBlockHeaderSize ≤ sub64 b.limit kCleanupNodeSize ∧
          (b.base + sub64 b.limit kCleanupNodeSize) % 8 = 0 then
        .ok { b with limit := sub64 b.limit kCleanupNodeSize,
                     cells := fun o => if o = sub64 b.limit kCleanupNodeSize then some n else b.cells o }
      else .error (.ub "cleanup node written outside the block or misaligned") := rfl

theorem push_same {b c : Block} (h : SameBlock b c) (n : Node) {l : Nat}
    (hl : l + 16 = b.limit) :
    SameBlock { b with limit := l, cells := fun o => if o = l then some n else b.cells o }
      { c with limit := l, cells := fun o => if o = l then some n else c.cells o } := by
  have hll := h.limit_le
  refine ⟨h.base, h.pos, h.size, rfl, h.lt, ?_, ?_⟩
  · show l ≤ b.size
    omega
  · intro k hk
    simp only at hk ⊢
    cases k with
    | zero => simp
    | succ k =>
      have hx : l + 16 * (k + 1) = b.limit + 16 * k := by omega
      rw [hx] at hk ⊢
      rw [if_neg (by omega), if_neg (by omega)]
      exact h.cells k hk

theorem register_aux {b c : Block} (h : SameBlock b c) (n : Node) (x : Except Fault Unit) (l : Nat)
    (hback : l + 16 ≤ b.size → l + 16 = b.limit) :
    let f := fun d : Block => x >>= fun _ =>
      if l + 16 ≤ d.size ∧ kBlockHeaderSize ≤ l ∧ (d.base + l) % 8 = 0 then
        Except.ok { d with limit := l, cells := fun o => if o = l then some n else d.cells o }
      else .error (.ub "cleanup node written outside the block or misaligned")
    (∃ e, f b = .error e ∧ f c = .error e) ∨ ∃ b' c', f b = .ok b' ∧ f c = .ok c' ∧ SameBlock b' c' := by
  cases x with
  | error e => exact Or.inl ⟨e, error_bind _ _, error_bind _ _⟩
  | ok _ =>
    simp only [ok_bind]
    by_cases hin : l + 16 ≤ b.size ∧ kBlockHeaderSize ≤ l ∧ (b.base + l) % 8 = 0
    · right
      refine ⟨_, _, if_pos hin, if_pos ?_, push_same h n (hback hin.1)⟩
      rw [← h.size, ← h.base]; exact hin
    · left
      refine ⟨_, if_neg hin, if_neg ?_⟩
      rw [← h.size, ← h.base]; exact hin

theorem register_same {dbg : Bool} {b c : Block} (h : SameBlock b c) (n : Node) :
    (∃ e, b.registerCleanup dbg n = .error e ∧ c.registerCleanup dbg n = .error e) ∨
    ∃ b' c', b.registerCleanup dbg n = .ok b' ∧ c.registerCleanup dbg n = .ok c' ∧ SameBlock b' c' := by
  have hback := sub64_back h.limit_le h.lt
  have := register_aux h n (assertDbg dbg (decide (add64 b.pos kCleanupNodeSize ≤ b.limit))
      "alloc_cleanup should make sure has enough space less rest space")
    (sub64 b.limit kCleanupNodeSize) hback
  have hl : sub64 c.limit kCleanupNodeSize = sub64 b.limit kCleanupNodeSize := by rw [h.limit]
  have hx : assertDbg dbg (decide (add64 c.pos kCleanupNodeSize ≤ c.limit))
        "alloc_cleanup should make sure has enough space less rest space" =
      assertDbg dbg (decide (add64 b.pos kCleanupNodeSize ≤ b.limit))
        "alloc_cleanup should make sure has enough space less rest space" := by rw [h.pos, h.limit]
  rw [registerCleanup_eq, registerCleanup_eq, hx, hl]
  exact this

theorem addCleanup_same (hg : GoodCfg cfg) (hc : SameCfg T U cfg cfg2) (h : Same T U s t)
    (n : Node) : SameOut T U (addCleanup cfg s n) (addCleanup cfg2 t n) := by
  unfold addCleanup
  refine .bindPure (need_same hc.dbg h _ _) ?_
  intro need
  have key : SameOut T U (if need then newBlock cfg s kCleanupNodeSize else .ok (true, s))
      (if need then newBlock cfg2 t kCleanupNodeSize else .ok (true, t)) := by
    cases need
    · exact .ok h
    · exact newBlock_same hg hc h _
  have hbind : ∀ {γ δ : Type} (b : Bool) (x y : Except Fault γ) (f : γ → Except Fault δ),
      (if b = true then x >>= f else y >>= f) = ((if b = true then x else y) >>= f) := by
    intro γ δ b x y f; cases b <;> rfl
  simp only [hbind]
  refine key.bind ?_
  · intro ok s t h
    cases ok with
    | false => exact .ok h
    | true =>
      have hb := h.blocks
      simp only [Bool.not_true, Bool.false_eq_true, if_false]
      cases hs : s.blocks with
      | nil => exact absurd hs h.ne
      | cons b bs =>
        rw [hs] at hb
        cases ht : t.blocks with
        | nil => rw [ht] at hb; cases hb
        | cons c cs =>
          rw [ht] at hb
          cases hb with
          | cons h1 h2 =>
            simp only [hc.dbg]
            rcases register_same (dbg := cfg2.dbg) h1 n with ⟨e, e1, e2⟩ | ⟨b', c', e1, e2, e3⟩
            · rw [e1, e2]; exact Or.inl ⟨e, rfl, rfl⟩
            · rw [e1, e2]
              exact Or.inr ⟨_, _, _, rfl, rfl, .cons e3 h2, by simp, h.cookie, h.space, h.trace⟩

theorem any_same {f : Block → Bool} (hf : ∀ b c, SameBlock b c → f b = f c) {bs cs : List Block}
    (h : List.Forall₂ SameBlock bs cs) : bs.any f = cs.any f := by
  induction h with
  | nil => rfl
  | cons h1 _ ih => simp [hf _ _ h1, ih]

theorem memWrite_same (h : Same T U s t) (p n : Nat) :
    (∃ e, memWrite s p n = .error e ∧ memWrite t p n = .error e) ∨
    ∃ s' t', memWrite s p n = .ok s' ∧ memWrite t p n = .ok t' ∧ Same T U s' t' := by
  unfold memWrite
  rw [any_same (f := fun b => decide (b.base ≤ p ∧ p + n ≤ b.base + b.size))
    (fun b c hb => by simp only [hb.base, hb.size]) h.blocks,
    any_same (f := fun b => overlaps p n b.base kBlockHeaderSize)
    (fun b c hb => by simp only [hb.base]) h.blocks]
  split
  · exact Or.inr ⟨_, _, rfl, rfl, h⟩
  · split
    · split
      · exact Or.inl ⟨_, rfl, rfl⟩
      · refine Or.inr ⟨_, _, rfl, rfl, ?_, ?_, h.cookie, h.space, h.trace⟩
        · simp only [List.forall₂_map_left_iff, List.forall₂_map_right_iff]
          refine h.blocks.imp ?_
          intro b c hb
          refine ⟨hb.base, hb.pos, hb.size, hb.limit, hb.lt, hb.limit_le, ?_⟩
          intro k hk
          simp only [hb.base, hb.cells k hk]
        · simpa using h.ne
    · exact Or.inl ⟨_, rfl, rfl⟩

theorem readNodesAux_same {c1 c2 : Nat → Option Node} {size : Nat} :
    ∀ (fuel off : Nat), (∀ k, off + 16 * k < size → c1 (off + 16 * k) = c2 (off + 16 * k)) →
      readNodesAux c1 size fuel off = readNodesAux c2 size fuel off := by
  intro fuel
  induction fuel with
  | zero => intro off _; rfl
  | succ f ih =>
    intro off h
    have h0 := h 0
    simp only [Nat.mul_zero, Nat.add_zero] at h0
    unfold readNodesAux
    split
    · rename_i hlt
      rw [h0 hlt, ih (off + 16) (fun k hk => by
        have := h (k + 1)
        rw [show off + 16 + 16 * k = off + 16 * (k + 1) by omega] at hk ⊢; exact this hk)]
    · rfl

theorem runCleanups_same {b c : Block} (h : SameBlock b c) : b.runCleanups = c.runCleanups := by
  unfold Block.runCleanups readNodes
  rw [← h.limit, ← h.size]
  exact readNodesAux_same _ _ h.cells

theorem remain_same {dbg : Bool} {b c : Block} (h : SameBlock b c) : b.remain dbg = c.remain dbg := by
  unfold Block.remain; rw [h.pos, h.limit]

theorem emitCleanups_append (ns : List Node) (new T : List Ev) :
    emitCleanups (new ++ T) ns = (emitCleanups new ns) ++ T := by
  rw [emitCleanups_eq, emitCleanups_eq]; simp

theorem freeExcept_same {dbg : Bool} {bs cs : List Block} (h : List.Forall₂ SameBlock bs cs)
    (new : List Ev) (rem : Nat) :
    (∃ e, freeBlocksExceptHead dbg bs rem (new ++ T) = .error e ∧
      freeBlocksExceptHead dbg cs rem (new ++ U) = .error e) ∨
    ∃ n b c new', freeBlocksExceptHead dbg bs rem (new ++ T) = .ok (n, b, new' ++ T) ∧
      freeBlocksExceptHead dbg cs rem (new ++ U) = .ok (n, c, new' ++ U) ∧ SameBlock b c := by
  induction h generalizing new rem with
  | nil =>
    left
    unfold freeBlocksExceptHead
    cases hv : assertDbg dbg false "curr should not be nullptr" with
    | error e => exact ⟨e, rfl, rfl⟩
    | ok _ => exact ⟨_, rfl, rfl⟩
  | @cons b c bs cs h1 h2 ih =>
    cases h2 with
    | nil =>
      unfold freeBlocksExceptHead
      rw [remain_same h1]
      cases hr : c.remain dbg with
      | error e => exact Or.inl ⟨e, rfl, rfl⟩
      | ok r => exact Or.inr ⟨_, _, _, new, rfl, rfl, h1⟩
    | cons h3 h4 =>
      unfold freeBlocksExceptHead
      rw [remain_same h1, runCleanups_same h1, h1.base]
      cases hr : c.remain dbg with
      | error e => exact Or.inl ⟨e, rfl, rfl⟩
      | ok r =>
        cases hn : c.runCleanups with
        | error e => exact Or.inl ⟨e, rfl, rfl⟩
        | ok ns =>
          simp only [ok_bind, emitCleanups_append]
          exact ih (.dealloc c.base :: emitCleanups new ns) (add64 rem r)

theorem reset_same (hc : SameCfg T U cfg cfg2) (h : Same T U s t) :
    SameOut T U (Reset cfg s) (Reset cfg2 t) := by
  obtain ⟨new, t1, t2⟩ := h.trace
  unfold Reset
  rw [t1, t2, hc.dbg]
  rcases freeExcept_same (T := T) (U := U) (dbg := cfg2.dbg) h.blocks new 0 with
    ⟨e, e1, e2⟩ | ⟨n, b, c, new', e1, e2, e3⟩
  · rw [e1, e2]; exact Or.inl ⟨e, rfl, rfl⟩
  · rw [e1, e2]
    simp only [ok_bind, Block.reset, runCleanups_same e3]
    cases hn : c.runCleanups with
    | error e => exact Or.inl ⟨e, rfl, rfl⟩
    | ok ns =>
      simp only [ok_bind, pure_eq_ok, h.space, h.cookie]
      refine Or.inr ⟨_, _, _, rfl, rfl, ?_, by simp, rfl, e3.size,
        emitCleanups (.reset t.space n t.cookie :: new') ns, ?_, ?_⟩
      · refine .cons ⟨e3.base, rfl, e3.size, e3.size, e3.lt, Nat.le_refl _, ?_⟩ .nil
        intro k hk
        simp only at hk
        omega
      · exact emitCleanups_append ns (.reset t.space n t.cookie :: new') T
      · exact emitCleanups_append ns (.reset t.space n t.cookie :: new') U

theorem step_same (hg : GoodCfg cfg) (hc : SameCfg T U cfg cfg2) (h : Same T U s t) (op : Op) :
    SameOut T U (step cfg s op) (step cfg2 t op) := by
  have hc' : ∀ {s t : St}, Same T U s t → s.cookie = t.cookie := fun h => h.cookie
  cases op with
  | allocate b a =>
    unfold step AllocateAligned
    refine .bind ?_ (fun r s t h => .ok h)
    refine .bind (allocateAligned_same hg hc h b a) ?_
    intro r s t h
    cases r with
    | none => exact .ok h
    | some p => simp only [hc' h]; exact .ok (h.emit _)
  | create sz d =>
    unfold step Create
    refine .bind ?_ (fun r s t h => .ok h)
    refine .bind (allocateAligned_same hg hc h sz _) ?_
    intro r s t h
    cases r with
    | none => exact .ok h
    | some p =>
      simp only
      rcases memWrite_same h p sz with ⟨e, e1, e2⟩ | ⟨s', t', e1, e2, h'⟩
      · rw [e1, e2]; exact Or.inl ⟨e, rfl, rfl⟩
      · rw [e1, e2]
        simp only [ok_bind]
        cases d with
        | none => simp only [hc' h']; exact .ok (h'.emit _)
        | some f =>
          refine .bind (addCleanup_same hg hc h' _) ?_
          intro ok s t h
          cases ok with
          | false => exact .ok h
          | true => simp only [hc' h]; exact .ok (h.emit _)
  | createArray sz n =>
    unfold step CreateArray
    refine .bind ?_ (fun r s t h => .ok h)
    split
    · exact Or.inl ⟨_, rfl, rfl⟩
    · have h' : Same T U (if n > (M64 - 1) / sz then s.emit .log else s)
          (if n > (M64 - 1) / sz then t.emit .log else t) := by
        split
        · exact h.emit _
        · exact h
      refine .bind (allocateAligned_same hg hc h' _ _) ?_
      intro r s t h
      cases r with
      | none => exact .ok h
      | some p =>
        simp only
        rcases memWrite_same h p (sz * n) with ⟨e, e1, e2⟩ | ⟨s', t', e1, e2, h'⟩
        · rw [e1, e2]; exact Or.inl ⟨e, rfl, rfl⟩
        · rw [e1, e2]
          simp only [ok_bind, hc' h']
          exact .ok (h'.emit _)
  | createBegin sz =>
    unfold step createBegin
    refine .bind ?_ (fun r s t h => .ok h)
    refine .bind (allocateAligned_same hg hc h sz _) ?_
    intro r s t h
    cases r with
    | none => exact .ok h
    | some p =>
      simp only
      rcases memWrite_same h p sz with ⟨e, e1, e2⟩ | ⟨s', t', e1, e2, h'⟩
      · rw [e1, e2]; exact Or.inl ⟨e, rfl, rfl⟩
      · rw [e1, e2]; exact .ok h'
  | createEnd p sz d =>
    unfold step createEnd
    refine .bind ?_ (fun r s t h => .ok h)
    cases d with
    | none =>
      have := h.emit (.allocated sz s.cookie)
      refine .ok (a := true) (s := s.emit (.allocated sz s.cookie)) (t := t.emit (.allocated sz t.cookie)) ?_
      rw [← hc' h]; exact this
    | some f =>
      refine .bind (addCleanup_same hg hc h _) ?_
      intro ok s t h
      cases ok with
      | false => exact .ok h
      | true => simp only [hc' h]; exact .ok (h.emit _)
  | allocateCleanup b f e =>
    unfold step AllocateAlignedAndAddCleanup
    refine .bind ?_ (fun r s t h => .ok h)
    refine .bind (allocateAligned_same hg hc h b _) ?_
    intro r s t h
    cases r with
    | none => exact .ok h
    | some p =>
      refine .bind (addCleanup_same hg hc h _) ?_
      intro ok s t h
      cases ok with
      | false => exact .ok h
      | true => simp only [hc' h]; exact .ok (h.emit _)
  | own o f =>
    unfold step Own
    exact .bind (addCleanup_same hg hc h _) (fun r s t h => .ok h)
  | pmrAllocate b a =>
    unfold step pmrAllocate
    exact .bind (allocateAligned_same hg hc h _ _) (fun r s t h => .ok h)
  | pmrDeallocate p b a => exact .ok h
  | reset => exact .bind (reset_same hc h) (fun r s t h => .ok h)
  | write p n =>
    unfold step
    simp only
    rcases memWrite_same h p n with ⟨e, e1, e2⟩ | ⟨s', t', e1, e2, h'⟩
    · rw [e1, e2]; exact Or.inl ⟨e, rfl, rfl⟩
    · rw [e1, e2]; exact .ok h'

theorem run_same (hg : GoodCfg cfg) (hc : SameCfg T U cfg cfg2) (ops : List Op) :
    ∀ {s t : St}, Same T U s t → SameOut T U (run cfg s ops) (run cfg2 t ops) := by
  induction ops with
  | nil => intro s t h; exact .ok h
  | cons op ops ih =>
    intro s t h
    unfold run
    refine .bind (step_same hg hc h op) ?_
    intro r s t h
    exact .bind (ih h) (fun r s t h => .ok h)

theorem spaceRemains_same (hd : cfg.dbg = cfg2.dbg) (h : Same T U s t) :
    SpaceRemains cfg s = SpaceRemains cfg2 t := by
  have hb := h.blocks
  unfold SpaceRemains
  cases hs : s.blocks with
  | nil => exact absurd hs h.ne
  | cons b bs =>
    rw [hs] at hb
    cases ht : t.blocks with
    | nil => rw [ht] at hb; cases hb
    | cons c cs =>
      rw [ht] at hb
      cases hb with
      | cons h1 h2 => simp only [remain_same h1, hd]

theorem check_same {bs cs : List Block} (h : List.Forall₂ SameBlock bs cs) (x : Nat) :
    check bs x = check cs x := by
  induction h with
  | nil => rfl
  | cons h1 _ ih =>
    unfold check
    simp only [h1.base, h1.pos, h1.limit, h1.size, ih]

end

/-- C19: after `Reset`, the arena is indistinguishable from a new one whose first block is the retained
one.  The new arena is constructed with that block's size as initial block size, gets the same address
from its `block_alloc` (`ba2`) for its first block, and the same answers afterwards as the old arena
gets after the `Reset`.  Its block is obtained by `AllocateAligned(0)`, which takes no space.  Then
every sequence of calls gives the same results (or the same fault), the same events, the same
`SpaceAllocated`, `SpaceRemains` and `check`. -/
theorem c19_like_new {cfg : Cfg} {A : Nat} {h : Hist} {st st1 : St} {r : Ret} (hA : 8 ∣ A)
    (hc : GoodCfg cfg) (hs : Sane A cfg) (he : Exec cfg A h st) (hop : Contract A h .reset)
    (hstep : step cfg st .reset = .ok (r, st1)) :
    ∃ b, held st1.trace = [b] ∧
      ∀ (ba2 : List Ev → Nat → Option Nat) (T : List Ev),
        T = [.allocated 0 st.cookie, .newblock 0 b.len st.cookie, .blockAlloc b.len (some b.start), .init] →
        ba2 [.init] b.len = some b.start →
        (∀ new n, ba2 (new ++ T) n = cfg.blockAlloc (new ++ st1.trace) n) →
        ∃ st2, step { cfg with init := b.len, blockAlloc := ba2 } (mkArena st.cookie) (.allocate 0 8)
            = .ok (.ptr (some (b.start + 32)), st2) ∧ st2.trace = T ∧
          ∀ ops, (∃ f, run cfg st1 ops = .error f ∧
              run { cfg with init := b.len, blockAlloc := ba2 } st2 ops = .error f) ∨
            ∃ hist s1 s2 new, run cfg st1 ops = .ok (hist, s1) ∧
              run { cfg with init := b.len, blockAlloc := ba2 } st2 ops = .ok (hist, s2) ∧
              s1.trace = new ++ st1.trace ∧ s2.trace = new ++ T ∧ s1.space = s2.space ∧
              SpaceRemains cfg s1 = SpaceRemains cfg s2 ∧
              ∀ x, check s1.blocks x = check s2.blocks x := by
  obtain ⟨wf, hne⟩ := exec_inv hA hc hs he
  obtain ⟨evs, h1, h2, _⟩ := reset_ok (cfg := cfg) wf (hne hop)
  simp only [step, h1, ok_bind, pure_eq_ok] at hstep
  cases hstep
  have hb := wf.ok _ (List.getLast_mem (hne hop))
  generalize st.blocks.getLast (hne hop) = b0 at *
  refine ⟨b0.region, h2.held rfl, ?_⟩
  intro ba2 T hT hfirst hlater
  have hfit := hb.fits
  have hhdr := hb.hdr; have hpl := hb.pos_le; have hll := hb.limit_le; have hbp := hb.base_pos
  have h8 : 8 ∣ b0.base := Nat.dvd_trans hA hb.aligned
  have hr : b0.region.len = b0.size := rfl
  have hr' : b0.region.start = b0.base := rfl
  rw [hr, hr'] at *
  let cfg2 : Cfg := { cfg with init := b0.size, blockAlloc := ba2 }
  let st2 : St := { blocks := [Block.mk' b0.base b0.size], cookie := st.cookie, space := b0.size, trace := T }
  have hst2 : step cfg2 (mkArena st.cookie) (.allocate 0 8) = .ok (.ptr (some (b0.base + 32)), st2) := by
    have hk : kBlockHeaderSize = 32 := by decide
    have h0 : alignUpTo8 0 = 0 := by decide
    have hpp : (Block.mk' b0.base b0.size).posPtr = b0.base + 32 := by
      have : add64 b0.base 32 = b0.base + 32 := add64_of_lt (by omega)
      simpa only [Block.posPtr, Block.mk', hk] using this
    have hap : alignPos cfg.dbg (b0.base + 32) 8 = .ok (b0.base + 32, 0) := by
      rw [alignPos_ok (by omega) (by omega) (by omega), padOf_zero (by omega)]
    have hal : (Block.mk' b0.base b0.size).alloc cfg.dbg 0 8
        = .ok (b0.base + 32, Block.mk' b0.base b0.size) := by
      unfold Block.alloc Block.hasEnoughSpace
      rw [hpp, hap]
      have hadd : add64 (add64 (Block.mk' b0.base b0.size).pos 0) 0 = 32 := by
        simp [Block.mk', add64]
      have hle : (32 : Nat) ≤ (Block.mk' b0.base b0.size).limit := by simp only [Block.mk']; omega
      simp only [ok_bind, pure_eq_ok, hadd, hle, decide_true, assertDbg_true]
      have : add64 (Block.mk' b0.base b0.size).pos (add64 0 0) = 32 := by
        simp [Block.mk', add64]
      rw [this]
      cases cfg.dbg <;> simp [Block.mk']
    have hnb : newBlock cfg2 (mkArena st.cookie) 0 = .ok (true,
        { blocks := [Block.mk' b0.base b0.size], cookie := st.cookie, space := b0.size,
          trace := [.newblock 0 b0.size st.cookie, .blockAlloc b0.size (some b0.base), .init] }) := by
      have hsz : newBlockSize cfg2 0 false = .ok b0.size := by
        unfold newBlockSize
        simp only [Bool.false_eq_true, if_false, ok_bind, pure_eq_ok]
        rw [hk, add64_of_lt (by omega)]
        simp only [cfg2]
        rw [Nat.max_eq_left (by omega)]
      unfold newBlock
      have h9 : ¬ 0 > M64 - 1 - kBlockHeaderSize := by omega
      have : cfg2.blockAlloc [.init] b0.size = some b0.base := hfirst
      simp only [mkArena, List.isEmpty_nil, Bool.not_true, if_neg h9, hsz, ok_bind, this, St.emit,
        List.length_nil]
      rw [if_neg (by omega), pure_eq_ok, add64_of_lt (by omega)]
      simp
    simp only [step, AllocateAligned, allocateAligned, h0, needCreateNewBlock]
    simp only [mkArena, ok_bind, if_true] at hnb ⊢
    rw [hnb]
    simp only [ok_bind, Bool.not_true, Bool.false_eq_true, if_false]
    have hd : cfg2.dbg = cfg.dbg := rfl
    rw [hd, hal]
    have : (b0.base + 32) % 8 = 0 := by omega
    simp only [ok_bind, this, decide_true, assertDbg_true, pure_eq_ok, St.emit, st2, hT]
    rfl
  refine ⟨st2, hst2, rfl, ?_⟩
  intro ops
  have hsame : Same (evs.reverse ++ st.trace) T
      { st with blocks := [rewind b0], space := b0.size, trace := evs.reverse ++ st.trace } st2 := by
    refine ⟨.cons ⟨rfl, rfl, rfl, rfl, ?_, Nat.le_refl _, ?_⟩ .nil, by simp, rfl, rfl, [], rfl, rfl⟩
    · show b0.size < M64
      omega
    · intro k hk
      simp only [rewind] at hk
      omega
  have hcfg : SameCfg (evs.reverse ++ st.trace) T cfg cfg2 := ⟨rfl, rfl, rfl, hlater⟩
  rcases run_same hc hcfg ops hsame with ⟨e, e1, e2⟩ | ⟨hist, s1, s2, e1, e2, e3⟩
  · exact Or.inl ⟨e, e1, e2⟩
  · obtain ⟨new, n1, n2⟩ := e3.trace
    exact Or.inr ⟨hist, s1, s2, new, e1, e2, n1, n2, e3.space,
      spaceRemains_same rfl e3, check_same e3.blocks⟩

/-- An environment for the new arena as described in `c19_like_new` exists for every state. -/
theorem c19_environment (cfg : Cfg) (st1 : St) (b : Region) (c : Option Nat) :
    ∃ (ba2 : List Ev → Nat → Option Nat), ba2 [.init] b.len = some b.start ∧
      ∀ new n, ba2 (new ++ [.allocated 0 c, .newblock 0 b.len c, .blockAlloc b.len (some b.start), .init]) n
        = cfg.blockAlloc (new ++ st1.trace) n := by
  refine ⟨fun tr n => if tr = [.init] then some b.start
    else cfg.blockAlloc (tr.take (tr.length - 4) ++ st1.trace) n, by simp, ?_⟩
  intro new n
  have h : new ++ [Ev.allocated 0 c, .newblock 0 b.len c, .blockAlloc b.len (some b.start), .init]
      ≠ [.init] := by
    intro h
    have := congrArg List.length h
    simp at this
  simp only [if_neg h]
  congr 1
  simp

example : ∃ st st1, Exec sampleCfg 32 (sampleHist.take 9) st ∧
    step sampleCfg st .reset = .ok (.num 12288, st1) ∧ ∃ b, held st1.trace = [b] ∧
    ∃ ba2 st2, step { sampleCfg with init := b.len, blockAlloc := ba2 } (mkArena st.cookie) (.allocate 0 8)
      = .ok (.ptr (some (b.start + 32)), st2) := by
  obtain ⟨st, st1, he, hc, hs, _⟩ := sample_step 9 (by decide)
  obtain ⟨b, h1, h2⟩ := c19_like_new (by decide) sample_good sample_sane he hc hs
  obtain ⟨ba2, h3, h4⟩ := c19_environment sampleCfg st1 b st.cookie
  obtain ⟨st2, h5, _⟩ := h2 ba2 _ rfl h3 h4
  exact ⟨st, st1, he, hs, b, h1, ba2, st2, h5⟩

end Verif.Arena
