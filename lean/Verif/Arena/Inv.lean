import Verif.Arena.Lemmas
import Mathlib.Data.Finset.Card
import Mathlib.Order.Interval.Finset.Nat

/-!
The invariant of the arena and its preservation by the internal operations.
-/

namespace Verif.Arena

open Verif.Align

/-- The nodes stored in the blocks are exactly `pend`, and all memory its destructor needs lies in
the node's own block or in older ones. -/
def NodesOK : List Block → List Pending → Prop
  | [], pend => pend = []
  | b :: bs, pend => ∃ l r, pend = l ++ r ∧
      readNodes b.cells b.limit b.size = .ok (l.map Pending.node) ∧
      (∀ x ∈ l, ∀ y ∈ x.needs, ∃ c ∈ b :: bs,
        c.base + 32 ≤ y.start ∧ y.start + y.len ≤ c.base + c.pos) ∧
      NodesOK bs r

/-- Arithmetic form of disjointness of two blocks. -/
def Apart (a b : Block) : Prop := a.base + a.size ≤ b.base ∨ b.base + b.size ≤ a.base

/-- The block as a region. -/
def Block.region (b : Block) : Region := ⟨b.base, b.size⟩

/-- The invariant: `regs` are the regions handed out, `pend` the registered destructors. -/
structure WF (A : Nat) (st : St) (regs : List Region) (pend : List Pending) : Prop where
  ok : ∀ b ∈ st.blocks, BlockOK A b
  disj : st.blocks.Pairwise Apart
  held_eq : held st.trace = st.blocks.map Block.region
  space_eq : st.space = (st.blocks.map Block.size).sum
  nodes : NodesOK st.blocks pend
  regs_in : ∀ r ∈ regs, ∃ b ∈ st.blocks,
    b.base + 32 ≤ r.start ∧ r.start + r.len ≤ b.base + b.pos
  regs_disj : regs.Pairwise (fun r s => r.start + r.len ≤ s.start ∨ s.start + s.len ≤ r.start)

/-! ### Sizes of disjoint blocks -/

/-- Union of the address sets of the blocks. -/
def cover (bs : List Block) : Finset Nat :=
  bs.foldr (fun b s => Finset.Ico b.base (b.base + b.size) ∪ s) ∅

theorem mem_cover {bs : List Block} {x : Nat} :
    x ∈ cover bs ↔ ∃ b ∈ bs, b.base ≤ x ∧ x < b.base + b.size := by
  induction bs with
  | nil => simp [cover]
  | cons b bs ih =>
    have : cover (b :: bs) = Finset.Ico b.base (b.base + b.size) ∪ cover bs := rfl
    rw [this, Finset.mem_union, ih]; simp

theorem card_cover {bs : List Block} (h : bs.Pairwise Apart) :
    (cover bs).card = (bs.map Block.size).sum := by
  induction bs with
  | nil => simp [cover]
  | cons b bs ih =>
    have e : cover (b :: bs) = Finset.Ico b.base (b.base + b.size) ∪ cover bs := rfl
    rw [List.pairwise_cons] at h
    rw [e, Finset.card_union_of_disjoint, ih h.2]
    · simp
    · rw [Finset.disjoint_left]
      intro x hx hx2
      rw [Finset.mem_Ico] at hx
      rw [mem_cover] at hx2
      obtain ⟨c, hc, h1, h2⟩ := hx2
      rcases h.1 c hc with h3 | h3 <;> omega

theorem sum_size_le {bs : List Block} {N : Nat} (h : bs.Pairwise Apart)
    (hN : ∀ b ∈ bs, b.base + b.size ≤ N) : (bs.map Block.size).sum ≤ N := by
  rw [← card_cover h]
  have : cover bs ⊆ Finset.range N := by
    intro x hx
    obtain ⟨b, hb, h1, h2⟩ := mem_cover.1 hx
    have := hN b hb
    rw [Finset.mem_range]; omega
  simpa using Finset.card_le_card this

/-! ### Nodes -/

theorem readNodesAux_fuel (cells : Nat → Option Node) (size : Nat) :
    ∀ f g off : Nat, size - off ≤ f → size - off ≤ g →
      readNodesAux cells size f off = readNodesAux cells size g off := by
  intro f
  induction f with
  | zero =>
    intro g off hf hg
    cases g with
    | zero => rfl
    | succ g => rw [readNodesAux, readNodesAux, if_neg (by omega)]
  | succ f ih =>
    intro g off hf hg
    cases g with
    | zero => rw [readNodesAux, readNodesAux, if_neg (by omega)]
    | succ g =>
      rw [readNodesAux, readNodesAux]
      by_cases h1 : off < size
      · rw [if_pos h1, if_pos h1, ih g (off + 16) (by omega) (by omega)]
      · rw [if_neg h1, if_neg h1]

/-- The loop without fuel. -/
theorem readNodes_eq (cells : Nat → Option Node) (off size : Nat) :
    readNodes cells off size =
      if off < size then
        if size < off + 16 then .error (.ub "cleanup node read past the end of the block")
        else
          match cells off with
          | none => .error (.ub "no cleanup node")
          | some n => do
            let rest ← readNodes cells (off + 16) size
            return n :: rest
      else .ok [] := by
  unfold readNodes
  by_cases h : off < size
  · obtain ⟨k, hk⟩ : ∃ k, size - off = k + 1 := ⟨size - off - 1, by omega⟩
    rw [hk, readNodesAux, readNodesAux_fuel cells size k (size - (off + 16)) (off + 16) (by omega)
      (by omega)]
    rfl
  · rw [show size - off = 0 by omega, readNodesAux, if_neg h]

theorem readNodes_end (cells : Nat → Option Node) (n : Nat) : readNodes cells n n = .ok [] := by
  rw [readNodes_eq]; simp

theorem readNodes_congr {c1 c2 : Nat → Option Node} {off size : Nat}
    (h : ∀ o, off ≤ o → o + 16 ≤ size → c1 o = c2 o) :
    readNodes c1 off size = readNodes c2 off size := by
  generalize hk : size - off = k
  induction k using Nat.strongRecOn generalizing off with
  | ind k ih =>
    rw [readNodes_eq c1, readNodes_eq c2]
    by_cases hlt : off < size
    · rw [if_pos hlt, if_pos hlt]
      by_cases hle : size < off + 16
      · rw [if_pos hle, if_pos hle]
      · rw [if_neg hle, if_neg hle, h off (Nat.le_refl _) (by omega),
          ih (size - (off + 16)) (by omega) (fun o h1 h2 => h o (by omega) h2) rfl]
    · rw [if_neg hlt, if_neg hlt]

theorem readNodes_cons {cells : Nat → Option Node} {off size : Nat} {n : Node} {l : List Node}
    (hle : off + 16 ≤ size) (hc : cells off = some n) (hr : readNodes cells (off + 16) size = .ok l) :
    readNodes cells off size = .ok (n :: l) := by
  rw [readNodes_eq, if_pos (by omega), if_neg (by omega), hc]
  simp [hr]

/-- Changing blocks without losing nodes or shrinking the used part keeps `NodesOK`. -/
theorem NodesOK.map {f : Block → Block} {bs : List Block} {pend : List Pending}
    (h : NodesOK bs pend)
    (hbase : ∀ b ∈ bs, (f b).base = b.base) (hpos : ∀ b ∈ bs, b.pos ≤ (f b).pos)
    (hread : ∀ b ∈ bs, readNodes (f b).cells (f b).limit (f b).size = readNodes b.cells b.limit b.size) :
    NodesOK (bs.map f) pend := by
  induction bs generalizing pend with
  | nil => exact h
  | cons b bs ih =>
    obtain ⟨l, r, he, h1, h2, h3⟩ := h
    refine ⟨l, r, he, ?_, ?_, ih h3 (fun c hc => hbase c (by simp [hc]))
      (fun c hc => hpos c (by simp [hc])) (fun c hc => hread c (by simp [hc]))⟩
    · rw [hread b (by simp)]; exact h1
    · intro x hx len hl
      obtain ⟨c, hc, h4, h5⟩ := h2 x hx len hl
      refine ⟨f c, ?_, ?_, ?_⟩
      · rw [← List.map_cons]; exact List.mem_map_of_mem hc
      · rw [hbase c hc]; exact h4
      · rw [hbase c hc]; have := hpos c hc; omega

/-! ### The trace -/

@[simp] theorem held_allocated (s : Nat) (c : Option Nat) (tr : List Ev) :
    held (.allocated s c :: tr) = held tr := rfl
@[simp] theorem held_log (tr : List Ev) : held (.log :: tr) = held tr := rfl
@[simp] theorem held_newblock (n s : Nat) (c : Option Nat) (tr : List Ev) :
    held (.newblock n s c :: tr) = held tr := rfl
@[simp] theorem held_reset (n s : Nat) (c : Option Nat) (tr : List Ev) :
    held (.reset n s c :: tr) = held tr := rfl
@[simp] theorem held_destroyed (n s : Nat) (c : Option Nat) (tr : List Ev) :
    held (.destroyed n s c :: tr) = held tr := rfl
@[simp] theorem held_cleanup (n : Node) (tr : List Ev) : held (.cleanup n :: tr) = held tr := rfl
@[simp] theorem held_none (s : Nat) (tr : List Ev) : held (.blockAlloc s none :: tr) = held tr := rfl
@[simp] theorem held_some (s p : Nat) (tr : List Ev) :
    held (.blockAlloc s (some p) :: tr) = ⟨p, s⟩ :: held tr := rfl
@[simp] theorem held_dealloc (p : Nat) (tr : List Ev) :
    held (.dealloc p :: tr) = (held tr).filter (fun r => r.start ≠ p) := rfl

theorem WF.of_trace {A : Nat} {st : St} {regs : List Region} {pend : List Pending} (wf : WF A st regs pend)
    (tr : List Ev) (h : held tr = held st.trace) : WF A { st with trace := tr } regs pend :=
  { ok := wf.ok, disj := wf.disj, held_eq := by rw [← wf.held_eq]; exact h
    space_eq := wf.space_eq, nodes := wf.nodes, regs_in := wf.regs_in, regs_disj := wf.regs_disj }

/-! ### newBlock -/

/-- The state after a successful `newBlock`. -/
def afterNewBlock (st : St) (p size : Nat) : St :=
  { blocks := Block.mk' p size :: st.blocks, cookie := st.cookie, space := st.space + size,
    trace := .newblock st.blocks.length size st.cookie :: .blockAlloc size (some p) :: st.trace }

theorem region_apart {p s : Nat} {b : Block} (hs : 0 < s) (hb : 0 < b.size)
    (h : Region.Disjoint ⟨p, s⟩ b.region) : p + s ≤ b.base ∨ b.base + b.size ≤ p := by
  by_contra hcon
  push Not at hcon
  apply h (max p b.base)
  simp only [Region.Mem, Block.region]
  omega

variable {cfg : Cfg} {A : Nat} {st : St} {regs : List Region} {pend : List Pending}

theorem newBlock_none (hc : GoodCfg cfg) {m : Nat} (hm : m ≤ 2 ^ 62 + 8)
    (h : cfg.blockAlloc st.trace (chosenSize cfg m (!st.blocks.isEmpty)) = none) :
    newBlock cfg st m
      = .ok (false, st.emit (.blockAlloc (chosenSize cfg m (!st.blocks.isEmpty)) none)) := by
  unfold newBlock
  simp only [kBlockHeaderSize_eq]
  rw [if_neg (by omega), newBlockSize_ok hc hm]
  simp [h]

theorem WF.space_lt (wf : WF A st regs pend) : st.space ≤ 2 ^ 63 := by
  rw [wf.space_eq]
  exact sum_size_le wf.disj (fun b hb => (wf.ok b hb).fits)

theorem newBlock_some (hc : GoodCfg cfg) (hs : Sane A cfg) (wf : WF A st regs pend)
    {m p : Nat} (hm : m ≤ 2 ^ 62 + 8)
    (h : cfg.blockAlloc st.trace (chosenSize cfg m (!st.blocks.isEmpty)) = some p) :
    newBlock cfg st m = .ok (true, afterNewBlock st p (chosenSize cfg m (!st.blocks.isEmpty))) := by
  have hfit := hs.fits _ _ _ h
  have hnn := hs.nonnull _ _ _ h
  have hsp := wf.space_lt
  have hge := chosenSize_ge cfg m (!st.blocks.isEmpty)
  unfold newBlock
  simp only [kBlockHeaderSize_eq]
  rw [if_neg (by omega), newBlockSize_ok hc hm]
  simp only [ok_bind, h]
  rw [if_neg (by omega)]
  simp only [pure_eq_ok, St.emit, afterNewBlock]
  rw [add64_of_lt (by omega)]

theorem afterNewBlock_wf (hc : GoodCfg cfg) (hs : Sane A cfg)
    (wf : WF A st regs pend) {m p : Nat} (h8 : 8 ∣ m)
    (h : cfg.blockAlloc st.trace (chosenSize cfg m (!st.blocks.isEmpty)) = some p) :
    WF A (afterNewBlock st p (chosenSize cfg m (!st.blocks.isEmpty))) regs pend := by
  have hfit := hs.fits _ _ _ h
  have hge := chosenSize_ge cfg m (!st.blocks.isEmpty)
  have hdv := chosenSize_dvd hc h8 (!st.blocks.isEmpty)
  generalize chosenSize cfg m (!st.blocks.isEmpty) = size at *
  refine ⟨?_, ?_, ?_, ?_, ?_, ?_, wf.regs_disj⟩
  · intro b hb
    rcases List.mem_cons.1 hb with rfl | hb
    · refine ⟨hs.aligned _ _ _ h, hs.nonnull _ _ _ h, hfit, ?_, ?_, ?_, ?_, hdv, ?_⟩
      · simp [Block.mk']
      · simp only [Block.mk', kBlockHeaderSize_eq]; omega
      · exact Nat.le_refl _
      · simp [Block.mk']
      · simp [Block.mk']
    · exact wf.ok b hb
  · refine List.pairwise_cons.2 ⟨?_, wf.disj⟩
    intro b hb
    have hbk := wf.ok b hb
    have hr := hs.fresh _ _ _ h b.region (by rw [wf.held_eq]; exact List.mem_map_of_mem hb)
    exact region_apart (s := size) (by omega)
      (by have := hbk.hdr; have := hbk.pos_le; have := hbk.limit_le; omega) hr
  · simp [afterNewBlock, wf.held_eq, Block.mk', Block.region]
  · simp [afterNewBlock, wf.space_eq, Block.mk']; omega
  · refine ⟨[], pend, rfl, ?_, by simp, wf.nodes⟩
    simp [Block.mk', readNodes_end]
  · intro r hr
    obtain ⟨b, hb, h1⟩ := wf.regs_in r hr
    exact ⟨b, List.mem_cons_of_mem _ hb, h1⟩

theorem chosenSize_eq_policy (cfg : Cfg) (m : Nat) (first : Bool) :
    chosenSize cfg m (!first) = blockPolicy cfg m first := by
  unfold chosenSize blockPolicy
  cases first <;> simp only [Bool.not_true, Bool.not_false, if_true, Bool.false_eq_true, if_false]
  · split
    · rename_i h; exact Nat.max_eq_right h
    · split
      · exact Nat.max_comm _ _
      · split
        · rename_i h; exact Nat.max_eq_right h
        · exact Nat.max_eq_left (Nat.zero_le _)
  · exact Nat.max_comm _ _

theorem WF.isEmpty (wf : WF A st regs pend) : (held st.trace).isEmpty = st.blocks.isEmpty := by
  rw [wf.held_eq]; simp

theorem WF.grow_fail (wf : WF A st regs pend) {m : Nat}
    (h : cfg.blockAlloc st.trace (chosenSize cfg m (!st.blocks.isEmpty)) = none) :
    Grow cfg st.cookie [m] st.trace
      (.blockAlloc (chosenSize cfg m (!st.blocks.isEmpty)) none :: st.trace) := by
  refine .fail (m := m) (.refl _) (by simp) ?_ h
  rw [wf.isEmpty, chosenSize_eq_policy]

theorem WF.grow_block (wf : WF A st regs pend) {m p : Nat}
    (h : cfg.blockAlloc st.trace (chosenSize cfg m (!st.blocks.isEmpty)) = some p) :
    Grow cfg st.cookie [m] st.trace
      (afterNewBlock st p (chosenSize cfg m (!st.blocks.isEmpty))).trace := by
  have hlen : st.blocks.length = (held st.trace).length := by rw [wf.held_eq]; simp
  simp only [afterNewBlock, hlen]
  refine .block (m := m) (.refl _) (by simp) ?_ h
  rw [wf.isEmpty, chosenSize_eq_policy]

theorem Grow.mono {c : Option Nat} {ms ms' : List Nat} {tr tr' : List Ev} (hms : ∀ m ∈ ms, m ∈ ms')
    (h : Grow cfg c ms tr tr') : Grow cfg c ms' tr tr' := by
  induction h with
  | refl => exact .refl _
  | fail _ hm hs ha ih => exact .fail ih (hms _ hm) hs ha
  | block _ hm hs ha ih => exact .block ih (hms _ hm) hs ha

theorem Grow.trans {c : Option Nat} {ms : List Nat} {t1 t2 t3 : List Ev}
    (h1 : Grow cfg c ms t1 t2) (h2 : Grow cfg c ms t2 t3) : Grow cfg c ms t1 t3 := by
  induction h2 with
  | refl => exact h1
  | fail _ hm hs ha ih => exact .fail ih hm hs ha
  | block _ hm hs ha ih => exact .block ih hm hs ha

/-- Bytes of user data (with padding) in the blocks. -/
def usedBytes (bs : List Block) : Nat := (bs.map (fun b => b.pos - 32)).sum

@[simp] theorem usedBytes_cons (b : Block) (bs : List Block) :
    usedBytes (b :: bs) = (b.pos - 32) + usedBytes bs := rfl

/-! ### allocateAligned -/

theorem alignUpTo8_round8 {n : Nat} (h : n ≤ 2 ^ 62) : alignUpTo8 n = round8 n :=
  alignUpTo8_eq (by omega)

/-- The head block after carving out `need` bytes at alignment `a`. -/
def bump (b : Block) (need a : Nat) : Block :=
  { b with pos := b.pos + padOf (b.base + b.pos) a + need }

/-- Does the request fit in the block? -/
def Fits (b : Block) (need a : Nat) : Prop :=
  b.pos + padOf (b.base + b.pos) a + need ≤ b.limit

instance (b : Block) (need a : Nat) : Decidable (Fits b need a) :=
  inferInstanceAs (Decidable (_ ≤ _))

theorem GoodAlign.bounds {a : Nat} (h : GoodAlign A a) : 8 ≤ a ∧ a ≤ 32 ∧ 8 ∣ a ∧ a ∣ 32 := by
  rcases h.1 with rfl | rfl | rfl <;> omega

theorem head_ok {b : Block} {rest : List Block} (wf : WF A st regs pend)
    (hb : st.blocks = b :: rest) : BlockOK A b := wf.ok b (by simp [hb])

theorem needCreate_cons (wf : WF A st regs pend) {b : Block} {rest : List Block}
    (hb : st.blocks = b :: rest) {need a : Nat} (h8 : 8 ≤ a) (h32 : a ≤ 32)
    (hn : need ≤ 2 ^ 62 + 8) :
    needCreateNewBlock cfg st need a = .ok (!decide (Fits b need a)) := by
  unfold needCreateNewBlock
  rw [hb]
  simp only
  rw [hasEnoughSpace_ok (head_ok wf hb) h8 h32 hn]
  rfl

theorem bump_aligned8 {b : Block} (hA : 8 ∣ A) (h : BlockOK A b) {a : Nat} (h8 : 8 ∣ a) (ha : 0 < a) :
    8 ∣ padOf (b.base + b.pos) a ∧ 8 ∣ b.base + b.pos + padOf (b.base + b.pos) a := by
  have h1 : 8 ∣ b.base + b.pos + padOf (b.base + b.pos) a := Nat.dvd_trans h8 (padOf_aligned ha)
  have h2 : 8 ∣ b.base := Nat.dvd_trans hA h.aligned
  have h3 := h.pos8
  refine ⟨?_, h1⟩
  omega

theorem allocate_fit (hA : 8 ∣ A) (wf : WF A st regs pend) {b : Block} {rest : List Block}
    (hb : st.blocks = b :: rest) {bytes a : Nat} (ha : GoodAlign A a) (hn : bytes ≤ 2 ^ 62)
    (hfit : Fits b (round8 bytes) a) :
    allocateAligned cfg st bytes a = .ok (some (b.base + b.pos + padOf (b.base + b.pos) a),
      { st with blocks := bump b (round8 bytes) a :: rest }) := by
  obtain ⟨h8, h32, h8d, _⟩ := ha.bounds
  have hr : round8 bytes ≤ 2 ^ 62 + 8 := by unfold round8; omega
  unfold allocateAligned
  simp only [alignUpTo8_round8 hn]
  rw [needCreate_cons wf hb h8 h32 hr]
  have hal := (bump_aligned8 hA (head_ok wf hb) h8d (by omega)).2
  have hal2 : (b.base + b.pos + padOf (b.base + b.pos) a) % 8 = 0 := Nat.mod_eq_zero_of_dvd hal
  simp only [ok_bind, hfit, decide_true, Bool.not_true, Bool.false_eq_true, if_false, hb]
  rw [alloc_ok (head_ok wf hb) h8 h32 hr hfit]
  simp [hal2, bump]

theorem allocate_fail (hc : GoodCfg cfg) (wf : WF A st regs pend) {bytes a : Nat}
    (ha : GoodAlign A a) (hn : bytes ≤ 2 ^ 62)
    (hno : ∀ b rest, st.blocks = b :: rest → ¬ Fits b (round8 bytes) a)
    (h : cfg.blockAlloc st.trace (chosenSize cfg (round8 bytes) (!st.blocks.isEmpty)) = none) :
    allocateAligned cfg st bytes a = .ok (none,
      st.emit (.blockAlloc (chosenSize cfg (round8 bytes) (!st.blocks.isEmpty)) none)) := by
  obtain ⟨h8, h32, h8d, _⟩ := ha.bounds
  have hr : round8 bytes ≤ 2 ^ 62 + 8 := by unfold round8; omega
  have hneed : needCreateNewBlock cfg st (round8 bytes) a = .ok true := by
    cases hb : st.blocks with
    | nil => simp [needCreateNewBlock, hb]
    | cons b rest => rw [needCreate_cons wf hb h8 h32 hr]; simp [hno b rest hb]
  unfold allocateAligned
  simp only [alignUpTo8_round8 hn, hneed, ok_bind, if_true]
  rw [newBlock_none hc hr h]
  simp

theorem mk'_fits {p size need a : Nat} (ha : GoodAlign A a) (hp : A ∣ p) (hsz : need + 32 ≤ size) :
    padOf (p + 32) a = 0 ∧ Fits (Block.mk' p size) need a := by
  obtain ⟨h8, h32, h8d, hd⟩ := ha.bounds
  have h0 : padOf (p + 32) a = 0 := padOf_zero (Nat.dvd_add (Nat.dvd_trans ha.2 hp) hd)
  refine ⟨h0, ?_⟩
  unfold Fits
  simp only [Block.mk', kBlockHeaderSize_eq, h0]
  omega

/-- The state after a request that was served from a new block at `p`. -/
def afterFresh (st : St) (p size need : Nat) : St :=
  { afterNewBlock st p size with
    blocks := { Block.mk' p size with pos := 32 + need } :: st.blocks }

theorem allocate_fresh (hA : 8 ∣ A) (hc : GoodCfg cfg) (hs : Sane A cfg)
    (wf : WF A st regs pend) {bytes a p : Nat}
    (ha : GoodAlign A a) (hn : bytes ≤ 2 ^ 62)
    (hno : ∀ b rest, st.blocks = b :: rest → ¬ Fits b (round8 bytes) a)
    (h : cfg.blockAlloc st.trace (chosenSize cfg (round8 bytes) (!st.blocks.isEmpty)) = some p) :
    allocateAligned cfg st bytes a = .ok (some (p + 32),
      afterFresh st p (chosenSize cfg (round8 bytes) (!st.blocks.isEmpty)) (round8 bytes)) := by
  obtain ⟨h8, h32, h8d, _⟩ := ha.bounds
  have hr : round8 bytes ≤ 2 ^ 62 + 8 := by unfold round8; omega
  have hneed : needCreateNewBlock cfg st (round8 bytes) a = .ok true := by
    cases hb : st.blocks with
    | nil => simp [needCreateNewBlock, hb]
    | cons b rest => rw [needCreate_cons wf hb h8 h32 hr]; simp [hno b rest hb]
  have hwf := afterNewBlock_wf hc hs wf (m := round8 bytes) (Nat.dvd_mul_left 8 _) h
  have hge := chosenSize_ge cfg (round8 bytes) (!st.blocks.isEmpty)
  have hnb := newBlock_some hc hs wf hr h
  generalize chosenSize cfg (round8 bytes) (!st.blocks.isEmpty) = size at *
  have hAp : A ∣ p := hs.aligned _ _ _ h
  obtain ⟨hpad, hfit⟩ := mk'_fits (size := size) (need := round8 bytes) ha hAp (by omega)
  have hbk : BlockOK A (Block.mk' p size) := hwf.ok _ (by simp [afterNewBlock])
  have hal : (p + 32) % 8 = 0 := by
    have : 8 ∣ p := Nat.dvd_trans hA hAp
    omega
  have hall := alloc_ok (dbg := cfg.dbg) hbk h8 h32 hr hfit
  have e1 : (Block.mk' p size).base = p := rfl
  have e2 : (Block.mk' p size).pos = 32 := by simp [Block.mk']
  rw [e1, e2, hpad] at hall
  simp only [Nat.add_zero] at hall
  unfold allocateAligned
  simp only [alignUpTo8_round8 hn, hneed, ok_bind, if_true]
  rw [hnb]
  simp [afterNewBlock, hall, hal, afterFresh, e1]

theorem bump_wf (hA : 8 ∣ A) (wf : WF A st regs pend) {b : Block} {rest : List Block}
    (hb : st.blocks = b :: rest) {bytes a : Nat} (ha : GoodAlign A a)
    (hfit : Fits b (round8 bytes) a) :
    WF A { st with blocks := bump b (round8 bytes) a :: rest }
      (⟨b.base + b.pos + padOf (b.base + b.pos) a, bytes⟩ :: regs) pend := by
  obtain ⟨h8, h32, h8d, _⟩ := ha.bounds
  have hbk := head_ok wf hb
  have hle : bytes ≤ round8 bytes := by unfold round8; omega
  have hpad8 := (bump_aligned8 hA hbk h8d (by omega)).1
  have h8r : 8 ∣ round8 bytes := Nat.dvd_mul_left 8 _
  unfold Fits at hfit
  have hdisj := wf.disj
  rw [hb, List.pairwise_cons] at hdisj
  refine ⟨?_, ?_, ?_, ?_, ?_, ?_, ?_⟩
  · intro c hc
    rcases List.mem_cons.1 hc with rfl | hc
    · exact ⟨hbk.aligned, hbk.base_pos, hbk.fits,
        by have := hbk.hdr; show 32 ≤ b.pos + _ + _; omega, hfit, hbk.limit_le,
        by have := hbk.pos8; show 8 ∣ b.pos + _ + _; omega, hbk.size8, hbk.nodes16⟩
    · exact wf.ok c (by simp [hb, hc])
  · exact List.pairwise_cons.2 ⟨hdisj.1, hdisj.2⟩
  · have := wf.held_eq; rw [hb] at this; exact this
  · have := wf.space_eq; rw [hb] at this; exact this
  · have hn := wf.nodes
    rw [hb] at hn
    obtain ⟨l, r, h1, h2, h3, h4⟩ := hn
    refine ⟨l, r, h1, h2, ?_, h4⟩
    intro x hx len hl
    obtain ⟨c, hc, h5, h6⟩ := h3 x hx len hl
    rcases List.mem_cons.1 hc with rfl | hc
    · exact ⟨bump c (round8 bytes) a, by simp, h5, by show _ ≤ c.base + (c.pos + _ + _); omega⟩
    · exact ⟨c, by simp [hc], h5, h6⟩
  · intro r hr
    rcases List.mem_cons.1 hr with rfl | hr
    · refine ⟨bump b (round8 bytes) a, by simp, ?_, ?_⟩
      · have := hbk.hdr; show b.base + 32 ≤ b.base + b.pos + _; omega
      · show b.base + b.pos + _ + bytes ≤ b.base + (b.pos + _ + _); omega
    · obtain ⟨c, hc, h5, h6⟩ := wf.regs_in r hr
      rw [hb] at hc
      rcases List.mem_cons.1 hc with rfl | hc
      · exact ⟨bump c (round8 bytes) a, by simp, h5, by show _ ≤ c.base + (c.pos + _ + _); omega⟩
      · exact ⟨c, by simp [hc], h5, h6⟩
  · refine List.pairwise_cons.2 ⟨?_, wf.regs_disj⟩
    intro r hr
    obtain ⟨c, hc, h5, h6⟩ := wf.regs_in r hr
    rw [hb] at hc
    have h1 := hbk.pos_le; have h2 := hbk.limit_le; have h3 := hbk.hdr
    rcases List.mem_cons.1 hc with rfl | hc
    · right; show r.start + r.len ≤ c.base + c.pos + _; omega
    · have hck := wf.ok c (by simp [hb, hc])
      have h4 := hck.pos_le; have h7 := hck.limit_le
      rcases hdisj.1 c hc with h | h
      · left; show b.base + b.pos + _ + bytes ≤ r.start; omega
      · right; show r.start + r.len ≤ b.base + b.pos + _; omega

theorem afterFresh_wf (hA : 8 ∣ A) (hc : GoodCfg cfg) (hs : Sane A cfg)
    (wf : WF A st regs pend) {bytes a p : Nat} (ha : GoodAlign A a)
    (h : cfg.blockAlloc st.trace (chosenSize cfg (round8 bytes) (!st.blocks.isEmpty)) = some p) :
    WF A (afterFresh st p (chosenSize cfg (round8 bytes) (!st.blocks.isEmpty)) (round8 bytes))
      (⟨p + 32, bytes⟩ :: regs) pend := by
  have hwf := afterNewBlock_wf hc hs wf (m := round8 bytes) (Nat.dvd_mul_left 8 _) h
  have hge := chosenSize_ge cfg (round8 bytes) (!st.blocks.isEmpty)
  generalize chosenSize cfg (round8 bytes) (!st.blocks.isEmpty) = size at *
  obtain ⟨hpad, hfit⟩ := mk'_fits (size := size) (need := round8 bytes) ha (hs.aligned _ _ _ h) (by omega)
  have := bump_wf hA hwf (b := Block.mk' p size) (rest := st.blocks) rfl ha hfit
  have e1 : (Block.mk' p size).base = p := rfl
  have e2 : (Block.mk' p size).pos = 32 := by simp [Block.mk']
  simp only [e1, e2, hpad, Nat.add_zero, bump] at this
  exact this

/-- Summary of `allocateAligned`: it never faults; it returns null only when `block_alloc` did, and
then the arena is unchanged; otherwise the new region is aligned and the invariant is extended. -/
theorem allocateAligned_spec (hA : 8 ∣ A) (hc : GoodCfg cfg) (hs : Sane A cfg)
    (wf : WF A st regs pend) {bytes a : Nat} (ha : GoodAlign A a) (hn : bytes ≤ 2 ^ 62) :
    (∃ size, Grow cfg st.cookie [round8 bytes] st.trace (.blockAlloc size none :: st.trace) ∧
      allocateAligned cfg st bytes a = .ok (none, st.emit (.blockAlloc size none)) ∧
      WF A (st.emit (.blockAlloc size none)) regs pend) ∨
    (∃ p st', allocateAligned cfg st bytes a = .ok (some p, st') ∧ a ∣ p ∧ st'.blocks ≠ [] ∧
      st'.cookie = st.cookie ∧ WF A st' (⟨p, bytes⟩ :: regs) pend ∧
      Grow cfg st.cookie [round8 bytes] st.trace st'.trace ∧
      (∃ pad, pad + 8 ≤ a ∧ usedBytes st'.blocks = usedBytes st.blocks + round8 bytes + pad)) := by
  obtain ⟨h8, h32, h8d, hd32⟩ := ha.bounds
  by_cases hfit : ∃ b rest, st.blocks = b :: rest ∧ Fits b (round8 bytes) a
  · obtain ⟨b, rest, hb, hf⟩ := hfit
    right
    refine ⟨_, _, allocate_fit hA wf hb ha hn hf, padOf_aligned (by omega), by simp, rfl,
      bump_wf hA wf hb ha hf, .refl _, padOf (b.base + b.pos) a, ?_, ?_⟩
    · have h1 := (bump_aligned8 hA (head_ok wf hb) h8d (by omega)).1
      have h2 := padOf_lt (p := b.base + b.pos) (a := a) (by omega)
      omega
    · have := (head_ok wf hb).hdr
      rw [hb]
      simp only [usedBytes_cons, bump]
      omega
  · have hno : ∀ b rest, st.blocks = b :: rest → ¬ Fits b (round8 bytes) a :=
      fun b rest hb hf => hfit ⟨b, rest, hb, hf⟩
    cases h : cfg.blockAlloc st.trace (chosenSize cfg (round8 bytes) (!st.blocks.isEmpty)) with
    | none =>
      left
      exact ⟨_, wf.grow_fail h, allocate_fail hc wf ha hn hno h, wf.of_trace _ rfl⟩
    | some p =>
      right
      refine ⟨_, _, allocate_fresh hA hc hs wf ha hn hno h, ?_, by simp [afterFresh], rfl,
        afterFresh_wf hA hc hs wf ha h, wf.grow_block h, 0, by omega, ?_⟩
      rotate_left
      · simp only [afterFresh, usedBytes_cons]
        omega
      exact Nat.dvd_add (Nat.dvd_trans ha.2 (hs.aligned _ _ _ h)) hd32

/-! ### addCleanup -/

/-- The head block after registering a node. -/
def pushNode (b : Block) (n : Node) : Block :=
  { b with limit := b.limit - 16, cells := fun o => if o = b.limit - 16 then some n else b.cells o }

theorem pad8_zero (hA : 8 ∣ A) {b : Block} (h : BlockOK A b) : padOf (b.base + b.pos) 8 = 0 := by
  apply padOf_zero
  exact Nat.dvd_add (Nat.dvd_trans hA h.aligned) h.pos8

theorem pushNode_wf (wf : WF A st regs pend) {b : Block} {rest : List Block}
    (hb : st.blocks = b :: rest) (hfit : b.pos + 16 ≤ b.limit) (x : Pending)
    (hin : ∀ y ∈ x.needs, ∃ c ∈ st.blocks,
      c.base + 32 ≤ y.start ∧ y.start + y.len ≤ c.base + c.pos) :
    WF A { st with blocks := pushNode b x.node :: rest } regs (x :: pend) := by
  have hbk := head_ok wf hb
  have hdisj := wf.disj
  rw [hb, List.pairwise_cons] at hdisj
  have hcar : ∀ (e n : Nat), (∃ c ∈ st.blocks, c.base + 32 ≤ e ∧ e + n ≤ c.base + c.pos) →
      ∃ c ∈ pushNode b x.node :: rest, c.base + 32 ≤ e ∧ e + n ≤ c.base + c.pos := by
    rintro e n ⟨c, hc, h1, h2⟩
    rw [hb] at hc
    rcases List.mem_cons.1 hc with rfl | hc
    · exact ⟨pushNode c x.node, by simp, h1, h2⟩
    · exact ⟨c, by simp [hc], h1, h2⟩
  refine ⟨?_, ?_, ?_, ?_, ?_, ?_, wf.regs_disj⟩
  · intro c hc
    rcases List.mem_cons.1 hc with rfl | hc
    · have h1 := hbk.nodes16; have h2 := hbk.limit_le; have h3 := hbk.hdr
      exact ⟨hbk.aligned, hbk.base_pos, hbk.fits, hbk.hdr,
        by show b.pos ≤ b.limit - 16; omega,
        by show b.limit - 16 ≤ b.size; omega, hbk.pos8, hbk.size8,
        by show 16 ∣ b.size - (b.limit - 16); omega⟩
    · exact wf.ok c (by simp [hb, hc])
  · exact List.pairwise_cons.2 ⟨hdisj.1, hdisj.2⟩
  · have := wf.held_eq; rw [hb] at this; exact this
  · have := wf.space_eq; rw [hb] at this; exact this
  · have hn := wf.nodes
    rw [hb] at hn
    obtain ⟨l, r, h1, h2, h3, h4⟩ := hn
    refine ⟨x :: l, r, by rw [h1]; rfl, ?_, ?_, h4⟩
    · have hl := hbk.limit_le; have hh := hbk.hdr
      have hcong : readNodes (pushNode b x.node).cells b.limit b.size = .ok (l.map Pending.node) := by
        rw [← h2]
        apply readNodes_congr
        intro o ho _
        simp only [pushNode]
        rw [if_neg (by omega)]
      apply readNodes_cons
      · show b.limit - 16 + 16 ≤ b.size; omega
      · simp [pushNode]
      · show readNodes (pushNode b x.node).cells (b.limit - 16 + 16) b.size = _
        rw [show b.limit - 16 + 16 = b.limit by omega]; exact hcong
    · intro y hy len hlen
      rcases List.mem_cons.1 hy with rfl | hy
      · exact hcar _ _ (hin len hlen)
      · exact hcar _ _ (by rw [hb]; exact h3 y hy len hlen)
  · intro r hr
    exact hcar _ _ (wf.regs_in r hr)

/-- The condition under which a node fits. -/
def NodeFits (b : Block) : Prop := b.pos + 16 ≤ b.limit

theorem fits16_iff (hA : 8 ∣ A) {b : Block} (h : BlockOK A b) : Fits b 16 8 ↔ NodeFits b := by
  unfold Fits NodeFits; rw [pad8_zero hA h]

theorem addCleanup_fit (hA : 8 ∣ A) (wf : WF A st regs pend) {b : Block} {rest : List Block}
    (hb : st.blocks = b :: rest) (n : Node) (hfit : NodeFits b) :
    addCleanup cfg st n = .ok (true, { st with blocks := pushNode b n :: rest }) := by
  have hbk := head_ok wf hb
  unfold addCleanup
  simp only [kCleanupNodeSize_eq, kByteSize_eq]
  rw [needCreate_cons wf hb (by omega) (by omega) (by omega)]
  have := (fits16_iff hA hbk).2 hfit
  simp only [ok_bind, this, decide_true, Bool.not_true, Bool.false_eq_true, if_false, hb]
  rw [registerCleanup_ok hA hbk n hfit]
  rfl

theorem addCleanup_fail (hA : 8 ∣ A) (hc : GoodCfg cfg) (wf : WF A st regs pend) (n : Node)
    (hno : ∀ b rest, st.blocks = b :: rest → ¬ NodeFits b)
    (h : cfg.blockAlloc st.trace (chosenSize cfg 16 (!st.blocks.isEmpty)) = none) :
    addCleanup cfg st n
      = .ok (false, st.emit (.blockAlloc (chosenSize cfg 16 (!st.blocks.isEmpty)) none)) := by
  have hneed : needCreateNewBlock cfg st 16 8 = .ok true := by
    cases hb : st.blocks with
    | nil => simp [needCreateNewBlock, hb]
    | cons b rest =>
      rw [needCreate_cons wf hb (by omega) (by omega) (by omega)]
      have := mt (fits16_iff hA (head_ok wf hb)).1 (hno b rest hb)
      simp [this]
  unfold addCleanup
  simp only [kCleanupNodeSize_eq, kByteSize_eq, hneed, ok_bind, if_true]
  rw [newBlock_none hc (by omega) h]
  simp

theorem addCleanup_fresh (hA : 8 ∣ A) (hc : GoodCfg cfg) (hs : Sane A cfg) (wf : WF A st regs pend)
    (n : Node) {p : Nat}
    (hno : ∀ b rest, st.blocks = b :: rest → ¬ NodeFits b)
    (h : cfg.blockAlloc st.trace (chosenSize cfg 16 (!st.blocks.isEmpty)) = some p) :
    addCleanup cfg st n = .ok (true,
      { afterNewBlock st p (chosenSize cfg 16 (!st.blocks.isEmpty)) with
        blocks := pushNode (Block.mk' p (chosenSize cfg 16 (!st.blocks.isEmpty))) n :: st.blocks }) ∧
      NodeFits (Block.mk' p (chosenSize cfg 16 (!st.blocks.isEmpty))) := by
  have hneed : needCreateNewBlock cfg st 16 8 = .ok true := by
    cases hb : st.blocks with
    | nil => simp [needCreateNewBlock, hb]
    | cons b rest =>
      rw [needCreate_cons wf hb (by omega) (by omega) (by omega)]
      have := mt (fits16_iff hA (head_ok wf hb)).1 (hno b rest hb)
      simp [this]
  have hwf := afterNewBlock_wf hc hs wf (m := 16) (by decide) h
  have hge := chosenSize_ge cfg 16 (!st.blocks.isEmpty)
  have hnb := newBlock_some hc hs wf (by omega) h
  generalize chosenSize cfg 16 (!st.blocks.isEmpty) = size at *
  have hfit : NodeFits (Block.mk' p size) := by
    unfold NodeFits; simp only [Block.mk', kBlockHeaderSize_eq]; omega
  refine ⟨?_, hfit⟩
  have hbk : BlockOK A (Block.mk' p size) := hwf.ok _ (by simp [afterNewBlock])
  unfold addCleanup
  simp only [kCleanupNodeSize_eq, kByteSize_eq, hneed, ok_bind, if_true]
  rw [hnb]
  simp only [ok_bind, Bool.not_true, Bool.false_eq_true, if_false, afterNewBlock]
  rw [registerCleanup_ok hA hbk n hfit]
  rfl

/-- Summary of `addCleanup`. -/
theorem addCleanup_spec (hA : 8 ∣ A) (hc : GoodCfg cfg) (hs : Sane A cfg) (wf : WF A st regs pend)
    (x : Pending)
    (hin : ∀ y ∈ x.needs, ∃ c ∈ st.blocks,
      c.base + 32 ≤ y.start ∧ y.start + y.len ≤ c.base + c.pos) :
    (∃ size, Grow cfg st.cookie [16] st.trace (.blockAlloc size none :: st.trace) ∧
      addCleanup cfg st x.node = .ok (false, st.emit (.blockAlloc size none)) ∧
      WF A (st.emit (.blockAlloc size none)) regs pend) ∨
    (∃ st', addCleanup cfg st x.node = .ok (true, st') ∧ st'.blocks ≠ [] ∧ st'.cookie = st.cookie ∧
      WF A st' regs (x :: pend) ∧ Grow cfg st.cookie [16] st.trace st'.trace ∧
      usedBytes st'.blocks = usedBytes st.blocks) := by
  by_cases hfit : ∃ b rest, st.blocks = b :: rest ∧ NodeFits b
  · obtain ⟨b, rest, hb, hf⟩ := hfit
    right
    exact ⟨_, addCleanup_fit hA wf hb x.node hf, by simp, rfl, pushNode_wf wf hb hf x hin, .refl _,
      by rw [hb]; rfl⟩
  · have hno : ∀ b rest, st.blocks = b :: rest → ¬ NodeFits b :=
      fun b rest hb hf => hfit ⟨b, rest, hb, hf⟩
    cases h : cfg.blockAlloc st.trace (chosenSize cfg 16 (!st.blocks.isEmpty)) with
    | none => left; exact ⟨_, wf.grow_fail h, addCleanup_fail hA hc wf x.node hno h, wf.of_trace _ rfl⟩
    | some p =>
      right
      obtain ⟨he, hf⟩ := addCleanup_fresh hA hc hs wf x.node hno h
      refine ⟨_, he, by simp, rfl, ?_, wf.grow_block h, by simp [pushNode, Block.mk']⟩
      have hwf := afterNewBlock_wf hc hs wf (m := 16) (by decide) h
      have := pushNode_wf hwf (b := Block.mk' p (chosenSize cfg 16 (!st.blocks.isEmpty)))
        (rest := st.blocks) rfl hf x (by
          intro len hl
          obtain ⟨c, hc, h1⟩ := hin len hl
          exact ⟨c, by simp [afterNewBlock, hc], h1⟩)
      exact this

/-! ### memWrite -/

/-- Effect of a write on one block. -/
def clobber (p n : Nat) (b : Block) : Block :=
  { b with cells := fun o => if overlaps p n (b.base + o) 16 then none else b.cells o }

theorem clobber_read {b c : Block} (hb : BlockOK A b) (hc : BlockOK A c) (hbc : c = b ∨ Apart c b)
    {p n : Nat} (h1 : c.base + 32 ≤ p) (h2 : p + n ≤ c.base + c.pos) :
    readNodes (clobber p n b).cells (clobber p n b).limit (clobber p n b).size
      = readNodes b.cells b.limit b.size := by
  apply readNodes_congr
  intro o ho hs
  have : overlaps p n (b.base + o) 16 = false := by
    simp only [overlaps, decide_eq_false_iff_not]
    intro h
    have h3 : b.limit ≤ o := ho
    have h4 : o + 16 ≤ b.size := hs
    have := hc.pos_le; have := hc.limit_le; have := hb.hdr; have := hb.pos_le
    rcases hbc with rfl | hap
    · omega
    · rcases hap with h5 | h5 <;> omega
  simp [clobber, this]

theorem apart_of_mem {bs : List Block} (h : bs.Pairwise Apart) {a b : Block} (ha : a ∈ bs)
    (hb : b ∈ bs) : a = b ∨ Apart a b := by
  induction bs with
  | nil => simp at ha
  | cons c bs ih =>
    rw [List.pairwise_cons] at h
    rcases List.mem_cons.1 ha with ha' | ha' <;> rcases List.mem_cons.1 hb with hb' | hb'
    · exact .inl (ha'.trans hb'.symm)
    · subst ha'; exact .inr (h.1 b hb')
    · subst hb'; exact .inr (h.1 a ha').symm
    · exact ih h.2 ha' hb'

theorem memWrite_ok (wf : WF A st regs pend) {p n : Nat}
    (hin : ∃ c ∈ st.blocks, c.base + 32 ≤ p ∧ p + n ≤ c.base + c.pos) :
    ∃ st', memWrite st p n = .ok st' ∧ WF A st' regs pend ∧ st'.trace = st.trace ∧
      st'.cookie = st.cookie ∧ (st.blocks ≠ [] → st'.blocks ≠ []) ∧
      (∀ e k, (∃ c ∈ st.blocks, c.base + 32 ≤ e ∧ e + k ≤ c.base + c.pos) →
        ∃ c ∈ st'.blocks, c.base + 32 ≤ e ∧ e + k ≤ c.base + c.pos) ∧
      (st'.blocks.map (fun b => (b.base, b.pos, b.limit, b.size))
        = st.blocks.map (fun b => (b.base, b.pos, b.limit, b.size))) ∧ st'.space = st.space ∧
      st'.blocks.map Block.runCleanups = st.blocks.map Block.runCleanups := by
  obtain ⟨c, hc, h1, h2⟩ := hin
  have hck := wf.ok c hc
  by_cases hn : n = 0
  · subst hn
    exact ⟨st, by simp [memWrite], wf, rfl, rfl, id, fun _ _ h => h, rfl, rfl, rfl⟩
  · have hany : st.blocks.any (fun b => decide (b.base ≤ p ∧ p + n ≤ b.base + b.size)) = true := by
      rw [List.any_eq_true]
      refine ⟨c, hc, ?_⟩
      have := hck.pos_le; have := hck.limit_le
      simp; omega
    have hapart : ∀ b ∈ st.blocks, c = b ∨ Apart c b := by
      intro b hb
      exact apart_of_mem wf.disj hc hb
    have hhdr : st.blocks.any (fun b => overlaps p n b.base kBlockHeaderSize) = false := by
      rw [List.any_eq_false]
      intro b hb
      have hbk := wf.ok b hb
      have := hck.pos_le; have := hck.limit_le; have := hbk.hdr; have := hbk.pos_le
      have := hbk.limit_le
      simp only [overlaps, kBlockHeaderSize_eq, decide_eq_true_eq]
      intro h
      rcases hapart b hb with rfl | hap
      · omega
      · rcases hap with h5 | h5 <;> omega
    refine ⟨{ st with blocks := st.blocks.map (clobber p n) }, ?_, ?_, rfl, rfl, ?_, ?_, ?_, rfl, ?_⟩
    · unfold memWrite
      rw [if_neg hn, if_pos hany, hhdr]
      rfl
    · refine ⟨?_, ?_, ?_, ?_, ?_, ?_, wf.regs_disj⟩
      · intro b hb
        obtain ⟨b0, hb0, rfl⟩ := List.mem_map.1 hb
        have := wf.ok b0 hb0
        exact ⟨this.aligned, this.base_pos, this.fits, this.hdr, this.pos_le, this.limit_le, this.pos8,
          this.size8, this.nodes16⟩
      · exact List.pairwise_map.2 wf.disj
      · simp only [List.map_map]; exact wf.held_eq
      · simp only [List.map_map]; exact wf.space_eq
      · exact wf.nodes.map (fun _ _ => rfl) (fun _ _ => Nat.le_refl _)
          (fun b hb => clobber_read (wf.ok b hb) hck (hapart b hb) h1 h2)
      · intro r hr
        obtain ⟨b, hb, h3⟩ := wf.regs_in r hr
        exact ⟨clobber p n b, List.mem_map_of_mem hb, h3⟩
    · intro h; simpa using h
    · rintro e k ⟨b, hb, h3⟩
      exact ⟨clobber p n b, List.mem_map_of_mem hb, h3⟩
    · simp only [List.map_map]; rfl
    · simp only [List.map_map]
      apply List.map_congr_left
      intro b hb
      exact clobber_read (wf.ok b hb) hck (hapart b hb) h1 h2

end Verif.Arena
