import Verif.Arena.Trace

/-!
Helper lemmas about `check()` and about the space accounting.
-/

namespace Verif.Arena

variable {cfg : Cfg} {A : Nat} {st : St} {regs : List Region} {pend : List Pending}

/-- Which part of the block an address belongs to. -/
def Block.classify (b : Block) (x : Nat) : Status :=
  if x < b.base + 32 then .blockHeader
  else if x < b.base + b.pos then .blockUsed
  else if x < b.base + b.limit then .blockUnUsed
  else .blockCleanup

theorem check_mem {bs : List Block} (hok : ∀ b ∈ bs, BlockOK A b) (hd : bs.Pairwise Apart) {b : Block}
    (hb : b ∈ bs) {x : Nat} (h1 : b.base ≤ x) (h2 : x < b.base + b.size) :
    check bs x = b.classify x := by
  induction bs with
  | nil => simp at hb
  | cons c bs ih =>
    rw [List.pairwise_cons] at hd
    have hck := hok c (by simp)
    have := hck.hdr; have := hck.pos_le; have := hck.limit_le
    simp only [check, kBlockHeaderSize_eq]
    rcases List.mem_cons.1 hb with rfl | hb
    · unfold Block.classify
      by_cases c1 : x < b.base + 32
      · rw [if_pos (by omega), if_pos c1]
      · rw [if_neg (by omega), if_neg c1]
        by_cases c2 : x < b.base + b.pos
        · rw [if_pos (by omega), if_pos c2]
        · rw [if_neg (by omega), if_neg c2]
          by_cases c3 : x < b.base + b.limit
          · rw [if_pos (by omega), if_pos c3]
          · rw [if_neg (by omega), if_neg c3, if_pos (by omega)]
    · have hap := hd.1 b hb
      have hout : x < c.base ∨ c.base + c.size ≤ x := by
        rcases hap with h | h <;> omega
      rw [if_neg (by omega), if_neg (by omega), if_neg (by omega), if_neg (by omega)]
      exact ih (fun b hb => hok b (by simp [hb])) hd.2 hb

theorem check_not_mem {bs : List Block} (hok : ∀ b ∈ bs, BlockOK A b) {x : Nat}
    (h : ∀ b ∈ bs, ¬ (b.base ≤ x ∧ x < b.base + b.size)) : check bs x = .notContain := by
  induction bs with
  | nil => rfl
  | cons c bs ih =>
    have hck := hok c (by simp)
    have := hck.hdr; have := hck.pos_le; have := hck.limit_le
    have hout := h c (by simp)
    simp only [check, kBlockHeaderSize_eq]
    rw [if_neg (by omega), if_neg (by omega), if_neg (by omega), if_neg (by omega)]
    exact ih (fun b hb => hok b (by simp [hb])) (fun b hb => h b (by simp [hb]))

/-- `check` in terms of the blocks. -/
theorem check_iff {bs : List Block} (hok : ∀ b ∈ bs, BlockOK A b) (hd : bs.Pairwise Apart) (x : Nat) :
    (check bs x = .notContain ↔ ∀ b ∈ bs, ¬ (b.base ≤ x ∧ x < b.base + b.size)) ∧
    (check bs x = .blockHeader ↔ ∃ b ∈ bs, b.base ≤ x ∧ x < b.base + 32) ∧
    (check bs x = .blockUsed ↔ ∃ b ∈ bs, b.base + 32 ≤ x ∧ x < b.base + b.pos) ∧
    (check bs x = .blockUnUsed ↔ ∃ b ∈ bs, b.base + b.pos ≤ x ∧ x < b.base + b.limit) ∧
    (check bs x = .blockCleanup ↔ ∃ b ∈ bs, b.base + b.limit ≤ x ∧ x < b.base + b.size) := by
  have hpos : ∀ b ∈ bs, 32 ≤ b.pos ∧ b.pos ≤ b.limit ∧ b.limit ≤ b.size :=
    fun b hb => ⟨(hok b hb).hdr, (hok b hb).pos_le, (hok b hb).limit_le⟩
  by_cases h : ∃ b ∈ bs, b.base ≤ x ∧ x < b.base + b.size
  · obtain ⟨b, hb, h1, h2⟩ := h
    have hc := check_mem hok hd hb h1 h2
    have huniq : ∀ c ∈ bs, c.base ≤ x → x < c.base + c.size → c = b := by
      intro c hc' h3 h4
      rcases apart_of_mem hd hc' hb with h | h
      · exact h
      · rcases h with h | h <;> omega
    have hp := hpos b hb
    rw [hc]
    unfold Block.classify
    have key : ∀ lo hi : Block → Nat, (∀ c ∈ bs, c.base ≤ lo c ∧ hi c ≤ c.base + c.size) →
        ((∃ c ∈ bs, lo c ≤ x ∧ x < hi c) ↔ lo b ≤ x ∧ x < hi b) := by
      intro lo hi hlh
      constructor
      · rintro ⟨c, hc', h3, h4⟩
        have := hlh c hc'
        have e := huniq c hc' (by omega) (by omega)
        subst e; exact ⟨h3, h4⟩
      · intro h3; exact ⟨b, hb, h3⟩
    have k1 := key (fun c => c.base) (fun c => c.base + 32) (fun c hc => by have := hpos c hc; simp; omega)
    have k2 := key (fun c => c.base + 32) (fun c => c.base + c.pos)
      (fun c hc => by have := hpos c hc; simp; omega)
    have k3 := key (fun c => c.base + c.pos) (fun c => c.base + c.limit)
      (fun c hc => by have := hpos c hc; simp; omega)
    have k4 := key (fun c => c.base + c.limit) (fun c => c.base + c.size)
      (fun c hc => by simp)
    rw [k1, k2, k3, k4]
    have k0 : ¬ ∀ c ∈ bs, ¬ (c.base ≤ x ∧ x < c.base + c.size) := fun hall => hall b hb ⟨h1, h2⟩
    split
    · simp only [reduceCtorEq, false_iff, true_iff, k0, true_and]; omega
    · split
      · simp only [reduceCtorEq, false_iff, true_iff, k0, true_and]; omega
      · split
        · simp only [reduceCtorEq, false_iff, true_iff, k0, true_and]; omega
        · simp only [reduceCtorEq, false_iff, true_iff, k0, true_and]; omega
  · have hall : ∀ b ∈ bs, ¬ (b.base ≤ x ∧ x < b.base + b.size) := fun b hb hx => h ⟨b, hb, hx⟩
    rw [check_not_mem hok hall]
    refine ⟨⟨fun _ => hall, fun _ => rfl⟩, ?_, ?_, ?_, ?_⟩ <;>
    · simp only [reduceCtorEq, false_iff]
      rintro ⟨b, hb, h1, h2⟩
      have := hpos b hb
      exact hall b hb (by omega)

/-- Addresses between `lo b` and `hi b` of some block. -/
def coverBy (lo hi : Block → Nat) (bs : List Block) : Finset Nat :=
  bs.foldr (fun b s => Finset.Ico (lo b) (hi b) ∪ s) ∅

theorem coverBy_cons (lo hi : Block → Nat) (b : Block) (bs : List Block) :
    coverBy lo hi (b :: bs) = Finset.Ico (lo b) (hi b) ∪ coverBy lo hi bs := rfl

theorem mem_coverBy {lo hi : Block → Nat} {bs : List Block} {x : Nat} :
    x ∈ coverBy lo hi bs ↔ ∃ b ∈ bs, lo b ≤ x ∧ x < hi b := by
  induction bs with
  | nil => simp [coverBy]
  | cons b bs ih => rw [coverBy_cons, Finset.mem_union, ih]; simp

theorem card_coverBy {lo hi : Block → Nat} {bs : List Block} (h : bs.Pairwise Apart)
    (hin : ∀ b ∈ bs, b.base ≤ lo b ∧ hi b ≤ b.base + b.size) :
    (coverBy lo hi bs).card = (bs.map (fun b => hi b - lo b)).sum := by
  induction bs with
  | nil => rfl
  | cons b bs ih =>
    rw [List.pairwise_cons] at h
    rw [coverBy_cons, Finset.card_union_of_disjoint, ih h.2 (fun c hc => hin c (by simp [hc]))]
    · simp
    · rw [Finset.disjoint_left]
      intro x hx hx2
      rw [mem_coverBy] at hx2
      obtain ⟨c, hc, h1, h2⟩ := hx2
      rw [Finset.mem_Ico] at hx
      have h3 := hin b (by simp)
      have h4 := hin c (by simp [hc])
      rcases h.1 c hc with h5 | h5 <;> omega

/-- Addresses that `check` classifies as `s`. -/
noncomputable def addrs (bs : List Block) (s : Status) : Finset Nat :=
  (Finset.range (2 ^ 63)).filter (fun x => check bs x = s)

theorem addrs_eq {bs : List Block} {lo hi : Block → Nat} {s : Status}
    (hok : ∀ b ∈ bs, BlockOK A b) (hhi : ∀ b ∈ bs, hi b ≤ b.base + b.size)
    (h : ∀ x, check bs x = s ↔ ∃ b ∈ bs, lo b ≤ x ∧ x < hi b) :
    addrs bs s = coverBy lo hi bs := by
  ext x
  rw [addrs, Finset.mem_filter, h, mem_coverBy, Finset.mem_range]
  constructor
  · exact fun h => h.2
  · rintro ⟨b, hb, h1, h2⟩
    have := (hok b hb).fits
    have := hhi b hb
    exact ⟨by omega, b, hb, h1, h2⟩

theorem card_unused (wf : WF A st regs pend) :
    (addrs st.blocks .blockUnUsed).card = unused st.blocks := by
  have hpos : ∀ b ∈ st.blocks, 32 ≤ b.pos ∧ b.pos ≤ b.limit ∧ b.limit ≤ b.size :=
    fun b hb => ⟨(wf.ok b hb).hdr, (wf.ok b hb).pos_le, (wf.ok b hb).limit_le⟩
  rw [addrs_eq (lo := fun b => b.base + b.pos) (hi := fun b => b.base + b.limit) wf.ok
    (fun b hb => by have := hpos b hb; simp; omega)
    (fun x => (check_iff wf.ok wf.disj x).2.2.2.1)]
  rw [card_coverBy wf.disj (fun b hb => by have := hpos b hb; simp; omega)]
  unfold unused
  congr 1
  apply List.map_congr_left
  intro b hb; omega

/-- Bytes of cleanup nodes. -/
def nodeBytes (bs : List Block) : Nat := (bs.map (fun b => b.size - b.limit)).sum

theorem readNodes_length {cells : Nat → Option Node} {off size : Nat} {l : List Node}
    (hle : off ≤ size) (h : readNodes cells off size = .ok l) : size - off = 16 * l.length := by
  generalize hk : size - off = k
  induction k using Nat.strongRecOn generalizing off l with
  | ind k ih =>
    rw [readNodes_eq] at h
    split at h
    · split at h
      · cases h
      · split at h
        · cases h
        · rw [bind_eq_ok] at h
          obtain ⟨r, h1, h2⟩ := h
          cases h2
          have := ih (size - (off + 16)) (by omega) (by omega) h1 rfl
          simp only [List.length_cons]
          omega
    · cases h
      simp; omega

theorem nodeBytes_eq {bs : List Block} {pend : List Pending} (hok : ∀ b ∈ bs, BlockOK A b)
    (hn : NodesOK bs pend) : nodeBytes bs = 16 * pend.length := by
  induction bs generalizing pend with
  | nil => rw [show pend = [] from hn]; rfl
  | cons b bs ih =>
    obtain ⟨l, r, rfl, h2, _, h4⟩ := hn
    have h5 := ih (fun c hc => hok c (by simp [hc])) h4
    have h6 := readNodes_length (hok b (by simp)).limit_le h2
    simp only [List.length_map] at h6
    have e : nodeBytes (b :: bs) = (b.size - b.limit) + nodeBytes bs := rfl
    rw [e, h5, h6, List.length_append]; omega

theorem card_cleanup (wf : WF A st regs pend) :
    (addrs st.blocks .blockCleanup).card = 16 * pend.length := by
  have hpos : ∀ b ∈ st.blocks, 32 ≤ b.pos ∧ b.pos ≤ b.limit ∧ b.limit ≤ b.size :=
    fun b hb => ⟨(wf.ok b hb).hdr, (wf.ok b hb).pos_le, (wf.ok b hb).limit_le⟩
  rw [addrs_eq (lo := fun b => b.base + b.limit) (hi := fun b => b.base + b.size) wf.ok
    (fun b hb => by simp)
    (fun x => (check_iff wf.ok wf.disj x).2.2.2.2)]
  rw [card_coverBy wf.disj (fun b hb => by simp), ← nodeBytes_eq wf.ok wf.nodes]
  unfold nodeBytes
  congr 1
  apply List.map_congr_left
  intro b hb; omega

/-- Space is partitioned into headers, user bytes, nodes and unused bytes. -/
theorem space_partition {bs : List Block} (hok : ∀ b ∈ bs, BlockOK A b) :
    (bs.map Block.size).sum = 32 * bs.length + usedBytes bs + nodeBytes bs + unused bs := by
  induction bs with
  | nil => rfl
  | cons b bs ih =>
    have h1 := ih (fun c hc => hok c (by simp [hc]))
    have hb := hok b (by simp)
    have := hb.hdr; have := hb.pos_le; have := hb.limit_le
    have e : nodeBytes (b :: bs) = (b.size - b.limit) + nodeBytes bs := rfl
    simp only [List.map_cons, List.sum_cons, usedBytes_cons, unused_cons, e, List.length_cons]
    omega

theorem cleanupsCount_ok {dbg : Bool} {bs : List Block} {pend : List Pending}
    (hok : ∀ b ∈ bs, BlockOK A b) (hn : NodesOK bs pend)
    (hs : (bs.map Block.size).sum < M64) :
    cleanupsCount dbg bs = .ok pend.length := by
  induction bs generalizing pend with
  | nil => rw [show pend = [] from hn]; rfl
  | cons b bs ih =>
    obtain ⟨l, r, rfl, h2, _, h4⟩ := hn
    simp only [List.map_cons, List.sum_cons] at hs
    have hok' : ∀ c ∈ bs, BlockOK A c := fun c hc => hok c (by simp [hc])
    have h5 := ih hok' h4 (by omega)
    have hb := hok b (by simp)
    have h6 := readNodes_length hb.limit_le h2
    have h7 := nodeBytes_eq hok' h4
    have h8 := space_partition hok'
    simp only [List.length_map] at h6
    have hlim := hb.limit_le
    unfold cleanupsCount Block.cleanups
    rw [sub64_of_le hlim (by omega), h6, h5]
    simp only [kCleanupNodeSize_eq, Nat.mul_mod_right, decide_true, assertDbg_true, ok_bind,
      pure_eq_ok, List.length_append]
    rw [Nat.mul_div_cancel_left _ (by omega), add64_of_lt (by omega)]

/-- `destroy` depends only on the geometry of the blocks and the nodes stored in them. -/
theorem freeAllBlocks_congr {dbg : Bool} {bs bs' : List Block} (rem : Nat) (tr : List Ev)
    (hg : bs'.map (fun b => (b.base, b.pos, b.limit, b.size))
      = bs.map (fun b => (b.base, b.pos, b.limit, b.size)))
    (hr : bs'.map Block.runCleanups = bs.map Block.runCleanups) :
    freeAllBlocks dbg bs' rem tr = freeAllBlocks dbg bs rem tr := by
  induction bs generalizing bs' rem tr with
  | nil =>
    have : bs' = [] := by simpa using hg
    rw [this]
  | cons b bs ih =>
    cases bs' with
    | nil => simp at hg
    | cons b' bs' =>
      simp only [List.map_cons, List.cons.injEq, Prod.mk.injEq] at hg hr
      obtain ⟨⟨h1, h2, h3, h4⟩, h5⟩ := hg
      obtain ⟨h6, h7⟩ := hr
      unfold freeAllBlocks
      rw [h6, h1]
      have : b'.remain dbg = b.remain dbg := by unfold Block.remain; rw [h2, h3]
      rw [this]
      congr 1
      funext r
      congr 1
      funext ns
      exact ih _ _ h5 h7

end Verif.Arena
