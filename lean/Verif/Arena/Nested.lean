import Verif.Arena.Props

/-!
C12 and C107: which memory is still allocated when the arena runs a destructor; and `Create` for constructors that
call the arena themselves.
-/

namespace Verif.Arena

variable {cfg : Cfg} {A : Nat} {st : St} {h : Hist}

/-! ### Specification -/

/-- In-contract calls other than `Reset` lead from the state `st1` after the history `h1` to `st` after `h`. -/
inductive Later (cfg : Cfg) (A : Nat) (h1 : Hist) (st1 : St) : Hist → St → Prop where
  | refl : Later cfg A h1 st1 h1 st1
  | step {h : Hist} {st st' : St} {op : Op} {r : Ret} :
      Later cfg A h1 st1 h st → Contract A h op → op ≠ .reset → Arena.step cfg st op = .ok (r, st') →
      Later cfg A h1 st1 (h ++ [(op, r)]) st'

/-- The protocol of tearing down, with the blocks held at each moment: `owe` lists the destructors to be run and,
for each, the blocks that are held when it runs. -/
inductive TeardownAt : List Region → List (Node × List Region) → List Ev → List Region → Prop where
  | done (held : List Region) : TeardownAt held [] [] held
  | cleanup {held rest : List Region} {n : Node} {owe : List (Node × List Region)} {evs : List Ev} :
      TeardownAt held owe evs rest → TeardownAt held ((n, held) :: owe) (.cleanup n :: evs) rest
  | dealloc {held rest : List Region} {b : Region} {owe : List (Node × List Region)} {evs : List Ev} :
      b ∈ held → TeardownAt (held.filter (fun r => r.start ≠ b.start)) owe evs rest →
      TeardownAt held owe (.dealloc b.start :: evs) rest
  | hook {held rest : List Region} {owe : List (Node × List Region)} {evs : List Ev} (u w : Nat) (c : Option Nat) :
      TeardownAt held owe evs rest → TeardownAt held owe (.reset u w c :: evs) rest

/-! ### The blocks below each node -/

/-- For each node, in the order they are run: its block and the older ones. -/
def nodeHolds : List Block → List (List Region)
  | [] => []
  | b :: bs => List.replicate ((b.size - b.limit) / 16) ((b :: bs).map Block.region) ++ nodeHolds bs

theorem nodeHolds_congr {bs bs' : List Block}
    (h : bs'.map (fun b => (b.base, b.size, b.limit)) = bs.map (fun b => (b.base, b.size, b.limit))) :
    nodeHolds bs' = nodeHolds bs ∧ bs'.map Block.region = bs.map Block.region := by
  induction bs generalizing bs' with
  | nil =>
    have : bs' = [] := by simpa using h
    subst this; exact ⟨rfl, rfl⟩
  | cons b bs ih =>
    cases bs' with
    | nil => cases h
    | cons b' bs' =>
      simp only [List.map_cons, List.cons.injEq, Prod.mk.injEq] at h
      obtain ⟨⟨h1, h2, h3⟩, h4⟩ := h
      obtain ⟨i1, i2⟩ := ih h4
      refine ⟨?_, ?_⟩
      · simp only [nodeHolds, List.map_cons, i1, i2, Block.region, h1, h2, h3]
      · simp only [List.map_cons, i2, Block.region, h1, h2]

theorem nodeHolds_new (p s : Nat) (bs : List Block) (pos : Nat) :
    nodeHolds ({ Block.mk' p s with pos := pos } :: bs) = nodeHolds bs := by
  simp [nodeHolds, Block.mk']

theorem allocateAligned_holds (hA : 8 ∣ A) (hc : GoodCfg cfg) (hs : Sane A cfg) {regs : List Region}
    {pend : List Pending} (wf : WF A st regs pend) {bytes a : Nat} (ha : GoodAlign A a) (hn : bytes ≤ 2 ^ 62)
    {r : Option Nat} {st' : St} (he : allocateAligned cfg st bytes a = .ok (r, st')) :
    nodeHolds st'.blocks = nodeHolds st.blocks := by
  by_cases hfit : ∃ b rest, st.blocks = b :: rest ∧ Fits b (round8 bytes) a
  · obtain ⟨b, rest, hb, hf⟩ := hfit
    rw [allocate_fit hA wf hb ha hn hf] at he
    cases he
    rw [hb]
    exact (nodeHolds_congr rfl).1
  · have hno : ∀ b rest, st.blocks = b :: rest → ¬ Fits b (round8 bytes) a :=
      fun b rest hb hf => hfit ⟨b, rest, hb, hf⟩
    cases h : cfg.blockAlloc st.trace (chosenSize cfg (round8 bytes) (!st.blocks.isEmpty)) with
    | none => rw [allocate_fail hc wf ha hn hno h] at he; cases he; rfl
    | some p => rw [allocate_fresh hA hc hs wf ha hn hno h] at he; cases he; exact nodeHolds_new _ _ _ _

theorem pushNode_holds {b : Block} (hb : BlockOK A b) (hf : NodeFits b) (n : Node) (bs : List Block) :
    nodeHolds (pushNode b n :: bs) = (pushNode b n :: bs).map Block.region :: nodeHolds (b :: bs) := by
  have h1 := hb.nodes16; have h2 := hb.limit_le; have h3 := hb.hdr; have h4 := hb.pos_le
  unfold NodeFits at hf
  have : (b.size - (b.limit - 16)) / 16 = (b.size - b.limit) / 16 + 1 := by omega
  simp only [nodeHolds, pushNode, this, List.replicate_succ, List.cons_append, Block.region, List.map_cons]

theorem addCleanup_holds (hA : 8 ∣ A) (hc : GoodCfg cfg) (hs : Sane A cfg) {regs : List Region}
    {pend : List Pending} (wf : WF A st regs pend) {n : Node}
    {r : Bool} {st' : St} (he : addCleanup cfg st n = .ok (r, st')) :
    nodeHolds st'.blocks = if r then st'.blocks.map Block.region :: nodeHolds st.blocks else nodeHolds st.blocks := by
  by_cases hfit : ∃ b rest, st.blocks = b :: rest ∧ NodeFits b
  · obtain ⟨b, rest, hb, hf⟩ := hfit
    rw [addCleanup_fit hA wf hb n hf] at he
    cases he
    rw [hb]
    exact pushNode_holds (head_ok wf hb) hf n rest
  · have hno : ∀ b rest, st.blocks = b :: rest → ¬ NodeFits b :=
      fun b rest hb hf => hfit ⟨b, rest, hb, hf⟩
    cases h : cfg.blockAlloc st.trace (chosenSize cfg 16 (!st.blocks.isEmpty)) with
    | none => rw [addCleanup_fail hA hc wf n hno h] at he; cases he; rfl
    | some p =>
      obtain ⟨h1, hf⟩ := addCleanup_fresh hA hc hs wf n hno h
      rw [h1] at he
      cases he
      have hwf := afterNewBlock_wf hc hs wf (m := 16) (by decide) h
      have hbk : BlockOK A (Block.mk' p (chosenSize cfg 16 (!st.blocks.isEmpty))) := hwf.ok _ (by simp [afterNewBlock])
      have := pushNode_holds hbk hf n st.blocks
      rw [if_pos rfl]
      refine this.trans ?_
      congr 1
      exact nodeHolds_new p _ st.blocks 32

theorem memWrite_holds {p n : Nat} {st' : St} (he : memWrite st p n = .ok st') :
    nodeHolds st'.blocks = nodeHolds st.blocks ∧ st'.blocks.map Block.region = st.blocks.map Block.region := by
  unfold memWrite at he
  split at he
  · cases he; exact ⟨rfl, rfl⟩
  · split at he
    · split at he
      · cases he
      · cases he
        exact nodeHolds_congr (by simp only [List.map_map]; rfl)
    · cases he

/-- A call adds at most one node, on top, and above the blocks held after the call. -/
theorem step_holds (hA : 8 ∣ A) (hc : GoodCfg cfg) (hs : Sane A cfg) (he : Exec cfg A h st) {op : Op}
    (hop : Contract A h op) (hne : op ≠ .reset) {r : Ret} {st' : St} (hst : step cfg st op = .ok (r, st')) :
    nodeHolds st'.blocks =
      (registeredBy (live h) (op, r)).map (fun _ => st'.blocks.map Block.region) ++ nodeHolds st.blocks := by
  obtain ⟨wf, _⟩ := exec_inv hA hc hs he
  cases op with
  | reset => exact absurd rfl hne
  | allocate b a =>
    simp only [step, AllocateAligned] at hst
    obtain ⟨x, h1, h2⟩ := bind_eq_ok.1 hst
    obtain ⟨⟨r1, s1⟩, h3, h4⟩ := bind_eq_ok.1 h1
    have h5 := allocateAligned_holds hA hc hs wf hop.2 hop.1 h3
    cases r1 <;> · cases h4; cases h2; exact h5
  | pmrAllocate b a =>
    simp only [step, Arena.pmrAllocate] at hst
    obtain ⟨⟨r1, s1⟩, h3, h4⟩ := bind_eq_ok.1 hst
    have h5 := allocateAligned_holds hA hc hs wf hop.2 hop.1 h3
    cases h4; cases r1 <;> exact h5
  | pmrDeallocate p b a => cases hst; rfl
  | write p n =>
    simp only [step] at hst
    obtain ⟨s1, h3, h4⟩ := bind_eq_ok.1 hst
    cases h4; exact (memWrite_holds h3).1
  | own o f =>
    simp only [step, Own] at hst
    obtain ⟨⟨r1, s1⟩, h3, h4⟩ := bind_eq_ok.1 hst
    have h5 := addCleanup_holds hA hc hs wf h3
    cases h4; cases r1 <;> exact h5
  | createBegin s =>
    simp only [step, createBegin] at hst
    obtain ⟨x, h1, h2⟩ := bind_eq_ok.1 hst
    obtain ⟨⟨r1, s1⟩, h3, h4⟩ := bind_eq_ok.1 h1
    have h5 := allocateAligned_holds hA hc hs wf (goodAlign8 hA) hop h3
    cases r1 with
    | none => cases h4; cases h2; exact h5
    | some p =>
      obtain ⟨s2, h6, h7⟩ := bind_eq_ok.1 h4
      cases h7; cases h2
      exact (memWrite_holds h6).1.trans h5
  | createEnd p s d =>
    simp only [step, createEnd] at hst
    obtain ⟨x, h1, h2⟩ := bind_eq_ok.1 hst
    cases d with
    | none => cases h1; cases h2; rfl
    | some f =>
      obtain ⟨⟨r1, s1⟩, h3, h4⟩ := bind_eq_ok.1 h1
      have h5 := addCleanup_holds hA hc hs wf h3
      cases r1 <;> · cases h4; cases h2; exact h5
  | createArray s n =>
    have hsn : mul64 s n = s * n := mul64_of_lt (by have := hop.2; omega)
    have hs0 : s ≠ 0 := by have := hop.1; omega
    have hno : ¬ n > (M64 - 1) / s := by
      rw [gt_iff_lt, Nat.not_lt, Nat.le_div_iff_mul_le hop.1, Nat.mul_comm]
      have := hop.2; omega
    simp only [step, CreateArray, if_neg hs0, if_neg hno, hsn] at hst
    obtain ⟨x, h1, h2⟩ := bind_eq_ok.1 hst
    obtain ⟨⟨r1, s1⟩, h3, h4⟩ := bind_eq_ok.1 h1
    have h5 := allocateAligned_holds hA hc hs wf (goodAlign8 hA) hop.2 h3
    cases r1 with
    | none => cases h4; cases h2; exact h5
    | some p =>
      obtain ⟨s2, h6, h7⟩ := bind_eq_ok.1 h4
      cases h7; cases h2
      exact (memWrite_holds h6).1.trans h5
  | create s d =>
    simp only [step, Create] at hst
    obtain ⟨x, h1, h2⟩ := bind_eq_ok.1 hst
    obtain ⟨⟨r1, s1⟩, h3, h4⟩ := bind_eq_ok.1 h1
    have h5 := allocateAligned_holds hA hc hs wf (goodAlign8 hA) hop h3
    cases r1 with
    | none => cases h4; cases h2; cases d <;> exact h5
    | some p =>
      obtain ⟨s2, h6, h7⟩ := bind_eq_ok.1 h4
      obtain ⟨h8, h9⟩ := memWrite_holds h6
      cases d with
      | none => cases h7; cases h2; exact h8.trans h5
      | some f =>
        obtain ⟨⟨ok, s3⟩, h10, h11⟩ := bind_eq_ok.1 h7
        rcases allocateAligned_spec hA hc hs wf (goodAlign8 hA) hop with ⟨_, _, e, _⟩ | ⟨_, _, e, _, _, _, wf1, _⟩
        · rw [kByteSize_eq] at h3; rw [h3] at e; cases e
        rw [kByteSize_eq] at h3; rw [h3] at e; cases e
        obtain ⟨s2', m1, wf2, _⟩ := memWrite_ok wf1 wf1.head_in
        simp only at m1 h6
        rw [h6] at m1; cases m1
        have h12 := addCleanup_holds hA hc hs wf2 h10
        rw [h8, h5] at h12
        cases ok <;> · cases h11; cases h2; exact h12
  | allocateCleanup b f e =>
    simp only [step, AllocateAlignedAndAddCleanup] at hst
    obtain ⟨x, h1, h2⟩ := bind_eq_ok.1 hst
    obtain ⟨⟨r1, s1⟩, h3, h4⟩ := bind_eq_ok.1 h1
    have h5 := allocateAligned_holds hA hc hs wf (goodAlign8 hA) hop h3
    cases r1 with
    | none => cases h4; cases h2; cases e <;> exact h5
    | some p =>
      obtain ⟨⟨ok, s3⟩, h10, h11⟩ := bind_eq_ok.1 h4
      rcases allocateAligned_spec hA hc hs wf (goodAlign8 hA) hop with ⟨_, _, e, _⟩ | ⟨_, _, e, _, _, _, wf1, _⟩
      · rw [kByteSize_eq] at h3; rw [h3] at e; cases e
      rw [kByteSize_eq] at h3; rw [h3] at e; cases e
      have h12 := addCleanup_holds hA hc hs wf1 h10
      rw [h5] at h12
      cases ok <;> · cases h11; cases h2; cases e <;> exact h12

/-! ### Tearing down -/

theorem TeardownAt.cleanups {hd rest : List Region} {owe : List (Node × List Region)} {evs : List Ev} (ns : List Node)
    (h : TeardownAt hd owe evs rest) :
    TeardownAt hd (ns.map (fun n => (n, hd)) ++ owe) (ns.map Ev.cleanup ++ evs) rest := by
  induction ns with
  | nil => exact h
  | cons n ns ih => exact .cleanup ih

theorem zip_replicate {α β : Type} (l : List α) (b : β) (n : Nat) (hn : n = l.length) :
    l.zip (List.replicate n b) = l.map (fun a => (a, b)) := by
  subst hn
  induction l with
  | nil => rfl
  | cons a l ih => simp only [List.length_cons, List.replicate_succ, List.zip_cons_cons, List.map_cons, ih]

/-- The destructors owed with the blocks held when they run. -/
def oweOf (bs : List Block) (pend : List Pending) : List (Node × List Region) :=
  (pend.map Pending.node).zip (nodeHolds bs)

theorem oweOf_cons {b : Block} {bs : List Block} {l r : List Pending} (hb : BlockOK A b)
    (h : readNodes b.cells b.limit b.size = .ok (l.map Pending.node)) :
    oweOf (b :: bs) (l ++ r) =
      (l.map Pending.node).map (fun n => (n, (b :: bs).map Block.region)) ++ oweOf bs r := by
  have h6 := readNodes_length hb.limit_le h
  have hlen : (b.size - b.limit) / 16 = (l.map Pending.node).length := by rw [h6]; omega
  unfold oweOf
  rw [nodeHolds, List.map_append, List.zip_append (by rw [List.length_replicate]; exact hlen.symm), zip_replicate _ _ _ hlen]

theorem freeAllBlocks_at {dbg : Bool} {bs : List Block} {pend : List Pending} {rem : Nat}
    {tr : List Ev} (hok : ∀ b ∈ bs, BlockOK A b) (hd : bs.Pairwise Apart) (hn : NodesOK bs pend)
    (hs : rem + (bs.map Block.size).sum < M64) :
    ∃ evs n, freeAllBlocks dbg bs rem tr = .ok (n, evs.reverse ++ tr) ∧
      TeardownAt (bs.map Block.region) (oweOf bs pend) evs [] := by
  induction bs generalizing pend rem tr with
  | nil =>
    refine ⟨[], rem, by simp [freeAllBlocks], ?_⟩
    rw [show pend = [] from hn]; exact .done _
  | cons b bs ih =>
    obtain ⟨l, r, rfl, h2, h3, h4⟩ := hn
    rw [List.pairwise_cons] at hd
    have hb := hok b (by simp)
    have hbs : ∀ c ∈ bs, BlockOK A c := fun c hc => hok c (by simp [hc])
    have := hb.limit_le
    simp only [List.map_cons, List.sum_cons] at hs
    obtain ⟨evs, n, he, ht⟩ := ih (pend := r) (rem := rem + (b.limit - b.pos))
      (tr := .dealloc b.base :: emitCleanups tr (l.map Pending.node)) hbs hd.2 h4 (by omega)
    refine ⟨(l.map Pending.node).map Ev.cleanup ++ .dealloc b.base :: evs, n, ?_, ?_⟩
    · unfold freeAllBlocks
      rw [remain_ok hb]
      simp only [ok_bind, Block.runCleanups, h2]
      rw [add64_of_lt (by omega), he, emitCleanups_eq]
      simp
    · rw [oweOf_cons hb h2]
      apply TeardownAt.cleanups
      apply TeardownAt.dealloc (b := b.region)
      · simp
      · rw [filter_region hb hbs hd.1]; exact ht

theorem freeBlocksExceptHead_at {dbg : Bool} {bs : List Block} {pend : List Pending} {rem : Nat}
    {tr : List Ev} (hne : bs ≠ []) (hok : ∀ b ∈ bs, BlockOK A b) (hd : bs.Pairwise Apart)
    (hn : NodesOK bs pend) (hs : rem + (bs.map Block.size).sum < M64) :
    ∃ evs n r, freeBlocksExceptHead dbg bs rem tr = .ok (n, bs.getLast hne, evs.reverse ++ tr) ∧
      NodesOK [bs.getLast hne] r ∧
      (∀ {es : List Ev} {rest : List Region},
        TeardownAt [(bs.getLast hne).region] (oweOf [bs.getLast hne] r) es rest →
        TeardownAt (bs.map Block.region) (oweOf bs pend) (evs ++ es) rest) := by
  induction bs generalizing pend rem tr with
  | nil => exact absurd rfl hne
  | cons b bs ih =>
    rw [List.pairwise_cons] at hd
    have hb := hok b (by simp)
    have hbs : ∀ c ∈ bs, BlockOK A c := fun c hc => hok c (by simp [hc])
    have hlim := hb.limit_le
    simp only [List.map_cons, List.sum_cons] at hs
    cases bs with
    | nil =>
      refine ⟨[], add64 rem (b.limit - b.pos), pend, ?_, hn, fun h => h⟩
      simp only [freeBlocksExceptHead, remain_ok hb, ok_bind, pure_eq_ok]
      simp
    | cons c bs =>
      obtain ⟨l, r, rfl, h2, h3, h4⟩ := hn
      obtain ⟨evs, n, r', he, hlast, ht⟩ := ih (pend := r) (rem := rem + (b.limit - b.pos))
        (tr := .dealloc b.base :: emitCleanups tr (l.map Pending.node)) (by simp) hbs hd.2 h4
        (by simp only [List.map_cons, List.sum_cons] at hs ⊢; omega)
      refine ⟨(l.map Pending.node).map Ev.cleanup ++ .dealloc b.base :: evs, n, r', ?_, ?_, ?_⟩
      · rw [freeBlocksExceptHead, remain_ok hb]
        · simp only [ok_bind, Block.runCleanups, h2]
          rw [add64_of_lt (by omega), he, emitCleanups_eq, List.getLast_cons (a := b) (List.cons_ne_nil c bs)]
          simp
        · simp
      · rw [List.getLast_cons (List.cons_ne_nil c bs)]; exact hlast
      · intro es rest h
        simp only [List.getLast_cons (List.cons_ne_nil c bs)] at h
        rw [List.append_assoc, oweOf_cons hb h2]
        apply TeardownAt.cleanups
        rw [List.cons_append]
        apply TeardownAt.dealloc (b := b.region)
        · simp
        · rw [filter_region hb hbs hd.1]; exact ht h

theorem destroy_at {regs : List Region} {pend : List Pending} (wf : WF A st regs pend) :
    ∃ evs u w, destroy cfg st = .ok (.destroyed u w st.cookie :: (evs.reverse ++ st.trace)) ∧
      TeardownAt (held st.trace) (oweOf st.blocks pend) evs [] := by
  have hsp := wf.space_lt
  rw [wf.space_eq] at hsp
  obtain ⟨evs, n, he, ht⟩ := freeAllBlocks_at (dbg := cfg.dbg) (rem := 0) (tr := st.trace) wf.ok wf.disj
    wf.nodes (by omega)
  refine ⟨evs, st.space, n, ?_, ?_⟩
  · unfold destroy
    rw [he]; simp
  · rw [wf.held_eq]; exact ht

theorem reset_at {regs : List Region} {pend : List Pending} (wf : WF A st regs pend) (hne : st.blocks ≠ []) :
    ∃ evs rest n st', Reset cfg st = .ok (n, st') ∧ st'.trace = evs.reverse ++ st.trace ∧
      TeardownAt (held st.trace) (oweOf st.blocks pend) evs rest := by
  have hsp := wf.space_lt
  rw [wf.space_eq] at hsp
  obtain ⟨evs, n, r, he, hlast, ht⟩ := freeBlocksExceptHead_at (dbg := cfg.dbg) (rem := 0)
    (tr := st.trace) hne wf.ok wf.disj wf.nodes (by omega)
  have hb := wf.ok _ (List.getLast_mem hne)
  generalize hbl : st.blocks.getLast hne = b at *
  obtain ⟨l2, r2, rfl, h2, h3, h4⟩ := hlast
  have hr2 : r2 = [] := h4
  subst hr2
  have htd : TeardownAt [b.region] (oweOf [b] (l2 ++ [])) (.reset st.space n st.cookie ::
      (l2.map Pending.node).map Ev.cleanup) [b.region] := by
    apply TeardownAt.hook
    rw [oweOf_cons hb h2]
    have := TeardownAt.cleanups (hd := [b.region]) (rest := [b.region]) (owe := []) (evs := []) (l2.map Pending.node)
      (.done _)
    have hnil : oweOf [] [] = [] := rfl
    rw [hnil]
    simp only [List.append_nil] at this ⊢
    exact this
  refine ⟨evs ++ .reset st.space n st.cookie :: (l2.map Pending.node).map Ev.cleanup, [b.region], st.space, ?_, ?_, ?_, ?_⟩
  rotate_left
  · unfold Reset
    rw [he]
    simp only [ok_bind, Block.reset, Block.runCleanups, h2, pure_eq_ok, emitCleanups_eq]
    rfl
  · simp
  · rw [wf.held_eq]; exact ht htd

/-- The moment a given destructor runs. -/
theorem TeardownAt.moment {hd rest : List Region} {owe1 owe2 : List (Node × List Region)} {n : Node} {H : List Region}
    {evs : List Ev} {tr : List Ev} (h : TeardownAt hd (owe1 ++ (n, H) :: owe2) evs rest) (htr : held tr = hd) :
    ∃ before after, evs.reverse ++ tr = before ++ .cleanup n :: after ∧ held after = H ∧
      ran after = ran tr ++ owe1.map Prod.fst := by
  generalize he : owe1 ++ (n, H) :: owe2 = owe at h
  induction h generalizing tr owe1 with
  | done _ => simp at he
  | @cleanup hd rest m owe evs h ih =>
    cases owe1 with
    | nil =>
      simp only [List.nil_append, List.cons.injEq, Prod.mk.injEq] at he
      obtain ⟨⟨rfl, rfl⟩, rfl⟩ := he
      exact ⟨evs.reverse, tr, by simp, htr, by simp⟩
    | cons x owe1 =>
      simp only [List.cons_append, List.cons.injEq] at he
      obtain ⟨rfl, he⟩ := he
      obtain ⟨before, after, h1, h2, h3⟩ := ih (tr := .cleanup m :: tr) htr he
      refine ⟨before, after, by simpa using h1, h2, ?_⟩
      rw [h3]; simp [ran]
  | dealloc _ _ ih =>
    obtain ⟨before, after, h1, h2, h3⟩ := ih (tr := .dealloc _ :: tr) (by rw [held_dealloc, htr]) he
    refine ⟨before, after, by simpa using h1, h2, ?_⟩
    rw [h3]; simp [ran]
  | hook u w c _ ih =>
    obtain ⟨before, after, h1, h2, h3⟩ := ih (tr := .reset u w c :: tr) (by rw [held_reset, htr]) he
    refine ⟨before, after, by simpa using h1, h2, ?_⟩
    rw [h3]; simp [ran]

/-! ### Properties -/

theorem Later.exec {h1 : Hist} {st1 : St} (he : Exec cfg A h1 st1) (hl : Later cfg A h1 st1 h st) : Exec cfg A h st := by
  induction hl with
  | refl => exact he
  | step _ hc _ hs ih => exact .step ih hc hs

theorem Later.holds (hA : 8 ∣ A) (hc : GoodCfg cfg) (hs : Sane A cfg) {h1 : Hist} {st1 : St} (he : Exec cfg A h1 st1)
    (hl : Later cfg A h1 st1 h st) :
    ∃ newer holds, pending h = newer ++ pending h1 ∧ nodeHolds st.blocks = holds ++ nodeHolds st1.blocks ∧
      newer.length = holds.length := by
  induction hl with
  | refl => exact ⟨[], [], rfl, rfl, rfl⟩
  | @step h st st' op r hl' hcon hne hst ih =>
    obtain ⟨newer, holds, i1, i2, i3⟩ := ih
    have := step_holds hA hc hs (hl'.exec he) hcon hne hst
    refine ⟨registeredBy (live h) (op, r) ++ newer,
      (registeredBy (live h) (op, r)).map (fun _ => st'.blocks.map Block.region) ++ holds, ?_, ?_, ?_⟩
    · rw [pending_append, if_neg hne, i1, List.append_assoc]
    · rw [this, i2, List.append_assoc]
    · simp [i3]

/-- C12 and C107, exactly: when the destructor registered by a call runs, the blocks held are those that were held right
after that call. This is so at destruction and at the next `Reset`, whatever other calls are made in between. `newer` are
the destructors registered after it; they have run, and no older one. -/
theorem c107_blocks (hA : 8 ∣ A) (hc : GoodCfg cfg) (hs : Sane A cfg) (he : Exec cfg A h st) {op : Op} {r : Ret}
    {st1 : St} (hop : Contract A h op) (hstep : step cfg st op = .ok (r, st1)) {x : Pending}
    (hreg : registeredBy (live h) (op, r) = [x]) {h' : Hist} {st' : St}
    (hl : Later cfg A (h ++ [(op, r)]) st1 h' st') :
    ∃ newer, pending h' = newer ++ x :: pending h ∧
      (∃ before after, destroy cfg st' = .ok (before ++ .cleanup x.node :: after) ∧
        ran after = ran st'.trace ++ newer.map Pending.node ∧ held after = held st1.trace) ∧
      (∀ r2 st2, step cfg st' .reset = .ok (r2, st2) →
        ∃ before after, st2.trace = before ++ .cleanup x.node :: after ∧
          ran after = ran st'.trace ++ newer.map Pending.node ∧ held after = held st1.trace) := by
  have hne : op ≠ .reset := by rintro rfl; cases hreg
  have he1 : Exec cfg A (h ++ [(op, r)]) st1 := .step he hop hstep
  have he' := hl.exec he1
  obtain ⟨wf1, hb1⟩ := exec_inv hA hc hs he1
  obtain ⟨wf, hb⟩ := exec_inv hA hc hs he'
  obtain ⟨newer, holds, e1, e2, e3⟩ := hl.holds hA hc hs he1
  have e4 := step_holds hA hc hs he hop hne hstep
  rw [hreg] at e4
  rw [pending_append, if_neg hne, hreg] at e1
  have howe : oweOf st'.blocks (pending h') =
      (newer.map Pending.node).zip holds ++ (x.node, held st1.trace) ::
        ((pending h).map Pending.node).zip (nodeHolds st.blocks) := by
    unfold oweOf
    rw [e1, e2, e4, wf1.held_eq, List.map_append, List.zip_append (by simpa using e3)]
    rfl
  have hfst : ((newer.map Pending.node).zip holds).map Prod.fst = newer.map Pending.node := by
    rw [List.map_fst_zip]; simp [e3]
  refine ⟨newer, e1, ?_, ?_⟩
  · obtain ⟨evs, u, w, h1, h2⟩ := destroy_at (cfg := cfg) wf
    rw [howe] at h2
    obtain ⟨before, after, h3, h4, h5⟩ := h2.moment rfl
    rw [hfst] at h5
    exact ⟨.destroyed u w st'.cookie :: before, after, by rw [h1, h3]; rfl, h5, h4⟩
  · intro r2 st2 hst
    have hne' : st'.blocks ≠ [] := by
      intro hnil
      rw [hnil] at e2
      have := congrArg List.length e2
      rw [e4] at this
      simp [nodeHolds] at this
    obtain ⟨evs, rest, n, st3, h1, h6, h2⟩ := reset_at (cfg := cfg) wf hne'
    simp only [step, h1, ok_bind, pure_eq_ok] at hst
    cases hst
    rw [howe] at h2
    obtain ⟨before, after, h3, h4, h5⟩ := h2.moment rfl
    rw [hfst] at h5
    exact ⟨before, after, by rw [h6, h3], h5, h4⟩

/-- The witness: an object with a destructor, then memory for it in a second block. -/
theorem two_blocks : ∃ st, Exec (exCfg false 32 []) 32 [(.create 24 (some 1), .ptr (some 64)),
      (.pmrAllocate 5000 8, .ptr (some 4192))] st ∧
    destroy (exCfg false 32 []) st = .ok [.destroyed 12288 7184 none, .dealloc 32, .cleanup ⟨64, 1⟩, .dealloc 4160,
      .newblock 1 8192 none, .blockAlloc 8192 (some 4160), .allocated 24 none, .newblock 0 4096 none,
      .blockAlloc 4096 (some 32), .init] ∧
    (step (exCfg false 32 []) st .reset).map (fun x => x.2.trace) = .ok [.cleanup ⟨64, 1⟩, .reset 12288 7184 none,
      .dealloc 4160, .newblock 1 8192 none, .blockAlloc 8192 (some 4160), .allocated 24 none, .newblock 0 4096 none,
      .blockAlloc 4096 (some 32), .init] :=
  exec_such (ops := [.create 24 (some 1), .pmrAllocate 5000 8]) (cookie := none) (by decide +kernel)

/-- The object of the witness: its destructor runs with its own block held only. -/
example : ∃ st st1 st', Exec (exCfg false 32 []) 32 [] st ∧
    step (exCfg false 32 []) st (.create 24 (some 1)) = .ok (.ptr (some 64), st1) ∧
    Later (exCfg false 32 []) 32 [(.create 24 (some 1), .ptr (some 64))] st1
      [(.create 24 (some 1), .ptr (some 64)), (.pmrAllocate 5000 8, .ptr (some 4192))] st' ∧
    ∃ before after, destroy (exCfg false 32 []) st' = .ok (before ++ .cleanup ⟨64, 1⟩ :: after) ∧
      held after = held st1.trace := by
  obtain ⟨st', he, _, _⟩ := two_blocks
  generalize hh : [((Op.create 24 (some 1), Ret.ptr (some 64)) : Op × Ret),
    (.pmrAllocate 5000 8, .ptr (some 4192))] = hist at he
  cases he with
  | init => cases hh
  | @step h1 st1 _ op r he1 hc1 hs1 =>
    have h2 := List.append_inj' (s₁ := [((Op.create 24 (some 1), Ret.ptr (some 64)) : Op × Ret)])
      (t₁ := [(.pmrAllocate 5000 8, .ptr (some 4192))]) hh rfl
    obtain ⟨rfl, h3⟩ := h2
    cases h3
    generalize hh2 : [((Op.create 24 (some 1), Ret.ptr (some 64)) : Op × Ret)] = hist1 at he1 hc1
    cases he1 with
    | init => cases hh2
    | @step h0 st0 _ op r he0 hc0 hs0 =>
      have h2 := List.append_inj' (s₁ := ([] : Hist)) (t₁ := [(Op.create 24 (some 1), Ret.ptr (some 64))]) hh2 rfl
      obtain ⟨rfl, h3⟩ := h2
      cases h3
      have hl : Later (exCfg false 32 []) 32 ([] ++ [(.create 24 (some 1), .ptr (some 64))]) st1
          ([] ++ [(.create 24 (some 1), .ptr (some 64))] ++ [(.pmrAllocate 5000 8, .ptr (some 4192))]) st' :=
        .step .refl hc1 (by decide) hs1
      obtain ⟨newer, _, ⟨b, a, h5, _, h6⟩, _⟩ := c107_blocks (by decide) (exCfg_good _ _ _)
        (exCfg_sane _ (by decide) _) he0 hc0 hs0 rfl hl
      exact ⟨st0, st1, st', he0, hs0, hl, b, a, h5, h6⟩

/-- C107, expected: while the arena runs a destructor, all memory handed out since the last `Reset` is still
allocated: the destructor of an object may use the memory the object got from the arena during its life. -/
def MemoryOutlivesDestructors : Prop :=
  ∀ (cfg : Cfg) (A : Nat) (h : Hist) (st : St), 8 ∣ A → GoodCfg cfg → Sane A cfg → Exec cfg A h st →
    ∀ before n after, destroy cfg st = .ok (before ++ .cleanup n :: after) →
      ∀ r ∈ live h, ∃ b ∈ held after, Region.Within r b

/-- C107, expected at `Reset`. -/
def MemoryOutlivesReset : Prop :=
  ∀ (cfg : Cfg) (A : Nat) (h : Hist) (st : St), 8 ∣ A → GoodCfg cfg → Sane A cfg → Exec cfg A h st →
    ∀ r2 st2 before n after, step cfg st .reset = .ok (r2, st2) →
      st2.trace = before ++ .cleanup n :: after → ran after = ran st.trace →
      ∀ r ∈ live h, ∃ b ∈ held after, Region.Within r b

/-- C107 is violated: an object with a destructor is created and later gets 5000 bytes from the arena's memory
resource, as a growing container does; these lie in a second block. Destruction and `Reset` deallocate the second
block first and then run the destructor, which uses freed memory. -/
theorem c107_violated : ¬ MemoryOutlivesDestructors ∧ ¬ MemoryOutlivesReset := by
  obtain ⟨st, he, hd, hr⟩ := two_blocks
  have hw : ¬ ∃ b ∈ [(⟨32, 4096⟩ : Region)], Region.Within ⟨4192, 5000⟩ b := by
    rintro ⟨b, hb, h1, h2⟩
    rw [List.mem_singleton] at hb
    subst hb
    revert h2; decide
  constructor
  · intro hall
    have := hall _ _ _ _ (by decide) (exCfg_good _ _ _) (exCfg_sane _ (by decide) _) he
      [.destroyed 12288 7184 none, .dealloc 32] ⟨64, 1⟩ _ hd ⟨4192, 5000⟩ (by decide)
    exact hw this
  · intro hall
    cases hst : step (exCfg false 32 []) st .reset with
    | error e => rw [hst] at hr; cases hr
    | ok x =>
      rw [hst] at hr
      simp only [Except.map, Except.ok.injEq] at hr
      have hran : ran st.trace = [] := by
        have := (exec_trace (by decide) (exCfg_good _ _ _) (exCfg_sane _ (by decide) _) he).ran
        rw [this]; decide
      have := hall _ _ _ _ (by decide) (exCfg_good _ _ _) (exCfg_sane _ (by decide) _) he
        x.1 x.2 [] ⟨64, 1⟩ _ hst hr (by rw [hran]; rfl) ⟨4192, 5000⟩ (by decide)
      exact hw this

/-- C107, what holds: when the destructor registered by a call runs, all memory handed out up to the end of that call
is still allocated; so are the blocks held at that time, with the later memory that lies in them. Missing: memory handed out later in newer
blocks (`c107_violated`). -/
theorem c107_partial (hA : 8 ∣ A) (hc : GoodCfg cfg) (hs : Sane A cfg) (he : Exec cfg A h st) {op : Op} {r : Ret}
    {st1 : St} (hop : Contract A h op) (hstep : step cfg st op = .ok (r, st1)) {x : Pending}
    (hreg : registeredBy (live h) (op, r) = [x]) {h' : Hist} {st' : St}
    (hl : Later cfg A (h ++ [(op, r)]) st1 h' st') :
    ∃ newer, pending h' = newer ++ x :: pending h ∧
      (∃ before after, destroy cfg st' = .ok (before ++ .cleanup x.node :: after) ∧
        ran after = ran st'.trace ++ newer.map Pending.node ∧
        (∀ y ∈ live (h ++ [(op, r)]), ∃ b ∈ held after, Region.Within y b) ∧
        (∀ b ∈ held st1.trace, b ∈ held after)) ∧
      (∀ r2 st2, step cfg st' .reset = .ok (r2, st2) →
        ∃ before after, st2.trace = before ++ .cleanup x.node :: after ∧
          ran after = ran st'.trace ++ newer.map Pending.node ∧
          (∀ y ∈ live (h ++ [(op, r)]), ∃ b ∈ held after, Region.Within y b) ∧
          (∀ b ∈ held st1.trace, b ∈ held after)) := by
  have hin := c05_in_bounds hA hc hs (.step he hop hstep)
  obtain ⟨newer, h1, ⟨be, af, h2, h3, h4⟩, h5⟩ := c107_blocks hA hc hs he hop hstep hreg hl
  refine ⟨newer, h1, ⟨be, af, h2, h3, by rw [h4]; exact hin, by rw [h4]; exact fun _ hb => hb⟩, ?_⟩
  intro r2 st2 hst
  obtain ⟨be, af, h2, h3, h4⟩ := h5 r2 st2 hst
  exact ⟨be, af, h2, h3, by rw [h4]; exact hin, by rw [h4]; exact fun _ hb => hb⟩

/-! ### Constructors that call the arena -/

/-- `Arena::Create<T>` (arena/arena.hpp:430-444) for a constructor that calls the arena itself: `Construct`
(lines 678-687) hands it the arena or its memory resource. `ctor p` makes the calls of the constructor of the object at
`p`. Returns also the calls made, in order. -/
def createWith {β : Type} (cfg : Cfg) (st : St) (size : Nat) (dtor : Option Nat)
    (ctor : Nat → St → Except Fault (β × Hist × St)) : Except Fault (Option Nat × Hist × St) := do
  let (r, st) ← createBegin cfg st size
  match r with
  | none => return (none, [(.createBegin size, .ptr none)], st)
  | some p =>
    let (_, hs, st) ← ctor p st
    let (ok, st) ← createEnd cfg st p size dtor
    return (if ok then some p else none,
      (.createBegin size, .ptr (some p)) :: hs ++ [(.createEnd p size dtor, .bool ok)], st)

/-- `Create` is `createWith` for a constructor that makes no calls. -/
theorem create_split (cfg : Cfg) (st : St) (size : Nat) (dtor : Option Nat) :
    Create cfg st size dtor = (createWith cfg st size dtor (fun _ st => .ok ((), [], st))).map (fun x => (x.1, x.2.2)) := by
  unfold createWith createBegin createEnd Create
  cases h1 : allocateAligned cfg st size kByteSize with
  | error e => rfl
  | ok x =>
    obtain ⟨r, st1⟩ := x
    cases r with
    | none => rfl
    | some p =>
      simp only [ok_bind]
      cases h2 : memWrite st1 p size with
      | error e => rfl
      | ok st2 =>
        simp only [ok_bind, pure_eq_ok]
        cases dtor with
        | none => rfl
        | some f =>
          simp only
          cases h3 : addCleanup cfg st2 { element := p, cleanup := f } with
          | error e => rfl
          | ok y =>
            obtain ⟨ok, st3⟩ := y
            cases ok <;> rfl

/-- `CreateArray` too, when the number of bytes fits 64 bits: then a constructor of the elements that calls the arena
is covered as well. -/
theorem createArray_split (cfg : Cfg) (st : St) (size num : Nat) (h0 : 0 < size) (hn : size * num < M64) :
    CreateArray cfg st size num =
      (createWith cfg st (size * num) none (fun _ st => .ok ((), [], st))).map (fun x => (x.1, x.2.2)) := by
  have hle : ¬ num > (M64 - 1) / size := by
    rw [Nat.not_lt, Nat.le_div_iff_mul_le h0, Nat.mul_comm]; omega
  have hm : mul64 size num = size * num := by unfold mul64; exact Nat.mod_eq_of_lt hn
  unfold createWith createBegin createEnd CreateArray
  rw [if_neg (by omega)]
  simp only [if_neg hle, hm]
  cases h1 : allocateAligned cfg st (size * num) kByteSize with
  | error e => rfl
  | ok x =>
    obtain ⟨r, st1⟩ := x
    cases r with
    | none => rfl
    | some p =>
      simp only [ok_bind]
      cases h2 : memWrite st1 p (size * num) with
      | error e => rfl
      | ok st2 => rfl

/-- Code that, wherever an in-contract execution has got to, makes in-contract calls other than `Reset` and returns;
`f` returns its result and the calls made. -/
def Runs (cfg : Cfg) (A : Nat) {β : Type} (f : St → Except Fault (β × Hist × St)) : Prop :=
  ∀ h st, Exec cfg A h st → ∃ b hs st', f st = .ok (b, hs, st') ∧ Later cfg A h st (h ++ hs) st'

theorem Later.trans {h1 h2 h3 : Hist} {s1 s2 s3 : St} (a : Later cfg A h1 s1 h2 s2) (b : Later cfg A h2 s2 h3 s3) :
    Later cfg A h1 s1 h3 s3 := by
  induction b with
  | refl => exact a
  | step _ hc hne hs ih => exact .step ih hc hne hs

theorem Later.live_sub {h1 h2 : Hist} {s1 s2 : St} (a : Later cfg A h1 s1 h2 s2) :
    ∃ more, live h2 = more ++ live h1 := by
  induction a with
  | refl => exact ⟨[], rfl⟩
  | @step h st st' op r _ _ hne _ ih =>
    obtain ⟨more, ih⟩ := ih
    refine ⟨regionsOf (op, r) ++ more, ?_⟩
    rw [live_append, if_neg hne, ih, List.append_assoc]

theorem Later.pending_sub {h1 h2 : Hist} {s1 s2 : St} (a : Later cfg A h1 s1 h2 s2) :
    ∃ more, pending h2 = more ++ pending h1 := by
  induction a with
  | refl => exact ⟨[], rfl⟩
  | @step h st st' op r _ _ hne _ ih =>
    obtain ⟨more, ih⟩ := ih
    refine ⟨registeredBy (live h) (op, r) ++ more, ?_⟩
    rw [pending_append, if_neg hne, ih, List.append_assoc]

theorem runs_step (hA : 8 ∣ A) (hc : GoodCfg cfg) (hs : Sane A cfg) (he : Exec cfg A h st) {op : Op}
    (hop : Contract A h op) : ∃ r st', step cfg st op = .ok (r, st') := by
  obtain ⟨wf, hne⟩ := exec_inv hA hc hs he
  obtain ⟨r, st', hok⟩ := step_ok hA hc hs wf (fun h => hne h) hop
  exact ⟨r, st', hok.eq⟩

/-- C108: a `Create` whose constructor calls the arena is an execution like any other: it goes through without fault
and whatever holds for the calls made one by one holds for it. It gives the constructors of such objects in turn, to any
depth. -/
theorem createWith_runs {β : Type} (hA : 8 ∣ A) (hc : GoodCfg cfg) (hs : Sane A cfg) {size : Nat} {dtor : Option Nat}
    {ctor : Nat → St → Except Fault (β × Hist × St)} (hsize : size ≤ 2 ^ 62) (hr : ∀ p, Runs cfg A (ctor p)) :
    Runs cfg A (fun st => createWith cfg st size dtor ctor) := by
  intro h st he
  have hop : Contract A h (.createBegin size) := hsize
  obtain ⟨r, st1, hstep⟩ := runs_step hA hc hs he hop
  have h0 := hstep
  simp only [step] at h0
  obtain ⟨⟨q, s⟩, h1, h2⟩ := bind_eq_ok.1 h0
  simp only [pure_eq_ok, Except.ok.injEq, Prod.mk.injEq] at h2
  obtain ⟨rfl, rfl⟩ := h2
  have he1 : Exec cfg A (h ++ [(.createBegin size, .ptr q)]) s := .step he hop hstep
  have hl1 : Later cfg A h st (h ++ [(.createBegin size, .ptr q)]) s := .step .refl hop (by simp) hstep
  cases q with
  | none =>
    refine ⟨none, _, s, ?_, hl1⟩
    simp only [createWith, h1, ok_bind, pure_eq_ok]
  | some p =>
    obtain ⟨b, hs2, st2, h3, hl2⟩ := hr p _ _ he1
    have hl12 := hl1.trans hl2
    have he2 := hl12.exec he
    have hop2 : Contract A (h ++ [(.createBegin size, .ptr (some p))] ++ hs2) (.createEnd p size dtor) := by
      obtain ⟨more, hm⟩ := hl2.live_sub
      show (⟨p, size⟩ : Region) ∈ live _
      rw [hm, live_append]
      simp [regionsOf]
    obtain ⟨r3, st3, hstep2⟩ := runs_step hA hc hs he2 hop2
    have h0 := hstep2
    simp only [step] at h0
    obtain ⟨⟨ok, s3⟩, h4, h5⟩ := bind_eq_ok.1 h0
    simp only [pure_eq_ok, Except.ok.injEq, Prod.mk.injEq] at h5
    obtain ⟨rfl, rfl⟩ := h5
    refine ⟨if ok then some p else none,
      (.createBegin size, .ptr (some p)) :: hs2 ++ [(.createEnd p size dtor, .bool ok)], s3, ?_, ?_⟩
    · simp only [createWith, h1, h3, h4, ok_bind, pure_eq_ok]
    · have := Later.step hl12 hop2 (by simp) hstep2
      simpa using this

/-- C108: of an object whose constructor calls the arena: its memory, what the constructor was handed (`inner`) and the
older memory are all live afterwards; its destructor is registered after those the constructor registered (`ds`), so it
runs before them (`c10_destroy`, `c11_reset`), and all of that memory is still allocated then (`c12_alive`). When null
is returned no destructor is registered for it. -/
theorem c108_nested {β : Type} (hA : 8 ∣ A) (hc : GoodCfg cfg) (hs : Sane A cfg) {size f : Nat}
    {ctor : Nat → St → Except Fault (β × Hist × St)} (hsize : size ≤ 2 ^ 62) (hr : ∀ p, Runs cfg A (ctor p))
    (he : Exec cfg A h st) :
    ∃ q hs' st', createWith cfg st size (some f) ctor = .ok (q, hs', st') ∧ Exec cfg A (h ++ hs') st' ∧
      (∀ p, q = some p → ∃ inner ds, live (h ++ hs') = inner ++ ⟨p, size⟩ :: live h ∧
        pending (h ++ hs') = ⟨⟨p, f⟩, inner ++ ⟨p, size⟩ :: live h⟩ :: ds ++ pending h) := by
  obtain ⟨q, hs', st', h1, h2⟩ := createWith_runs (dtor := some f) hA hc hs hsize hr h st he
  refine ⟨q, hs', st', h1, h2.exec he, ?_⟩
  rintro p rfl
  have hop : Contract A h (.createBegin size) := hsize
  simp only [createWith] at h1
  obtain ⟨⟨q, st1⟩, h3, h4⟩ := bind_eq_ok.1 h1
  have hstep : step cfg st (.createBegin size) = .ok (.ptr q, st1) := by simp only [step, h3, ok_bind, pure_eq_ok]
  have he1 : Exec cfg A (h ++ [(.createBegin size, .ptr q)]) st1 := .step he hop hstep
  cases q with
  | none => cases h4
  | some p' =>
    obtain ⟨b, hs2, st2, h5, hl2⟩ := hr p' _ _ he1
    simp only [h5, ok_bind] at h4
    obtain ⟨⟨ok, st3⟩, h6, h7⟩ := bind_eq_ok.1 h4
    cases ok with
    | false => cases h7
    | true =>
      simp only [pure_eq_ok, if_true, Except.ok.injEq, Prod.mk.injEq, Option.some.injEq] at h7
      obtain ⟨rfl, rfl, rfl⟩ := h7
      obtain ⟨more, hm⟩ := hl2.live_sub
      obtain ⟨ds, hd⟩ := hl2.pending_sub
      rw [live_append] at hm
      rw [pending_append] at hd
      have hh : h ++ ((Op.createBegin size, Ret.ptr (some p')) :: hs2 ++ [(.createEnd p' size (some f), .bool true)]) =
          (h ++ [(.createBegin size, .ptr (some p'))] ++ hs2) ++ [(.createEnd p' size (some f), .bool true)] := by simp
      refine ⟨more, ds, ?_, ?_⟩
      · rw [hh, live_append, hm]; rfl
      · rw [hh, pending_append, hd, hm]; rfl

/-- One call of the arena. -/
def callOp (cfg : Cfg) (op : Op) (st : St) : Except Fault (Ret × Hist × St) := do
  let (r, st) ← step cfg st op
  return (r, [(op, r)], st)

theorem callOp_runs (hA : 8 ∣ A) (hc : GoodCfg cfg) (hs : Sane A cfg) {op : Op} (hop : ∀ h, Contract A h op)
    (hne : op ≠ .reset) : Runs cfg A (callOp cfg op) := by
  intro h st he
  obtain ⟨r, st', h1⟩ := runs_step hA hc hs he (hop h)
  exact ⟨r, [(op, r)], st', by simp only [callOp, h1, ok_bind, pure_eq_ok], .step .refl (hop h) hne h1⟩

/-- Code that makes one call after another. -/
def andThen {β γ : Type} (f : St → Except Fault (β × Hist × St)) (g : β → St → Except Fault (γ × Hist × St)) (st : St) :
    Except Fault (γ × Hist × St) := do
  let (b, h1, st) ← f st
  let (c, h2, st) ← g b st
  return (c, h1 ++ h2, st)

theorem andThen_runs {β γ : Type} {f : St → Except Fault (β × Hist × St)} {g : β → St → Except Fault (γ × Hist × St)}
    (hf : Runs cfg A f) (hg : ∀ b, Runs cfg A (g b)) : Runs cfg A (andThen f g) := by
  intro h st he
  obtain ⟨b, h1, st1, e1, l1⟩ := hf h st he
  obtain ⟨c, h2, st2, e2, l2⟩ := hg b _ _ (l1.exec he)
  refine ⟨c, h1 ++ h2, st2, by simp only [andThen, e1, e2, ok_bind, pure_eq_ok], ?_⟩
  rw [← List.append_assoc]
  exact l1.trans l2

/-- An object of 100 bytes whose constructor creates one of 40 bytes with a destructor, whose constructor in turn gets
5000 bytes, and then gets 16 bytes itself. -/
def nestedCtor (cfg : Cfg) (st : St) : Except Fault (Option Nat × Hist × St) :=
  createWith cfg st 100 (some 1) (fun _ =>
    andThen (fun st => createWith cfg st 40 (some 2) (fun _ => callOp cfg (.pmrAllocate 5000 8)))
      (fun _ => callOp cfg (.allocate 16 8)))

theorem nestedCtor_runs (hA : 8 ∣ A) (hc : GoodCfg cfg) (hs : Sane A cfg) : Runs cfg A (nestedCtor cfg) :=
  createWith_runs hA hc hs (by decide) (fun _ => andThen_runs
    (createWith_runs hA hc hs (by decide) (fun _ => callOp_runs hA hc hs (fun _ => by
      show _ ∧ _; refine ⟨by decide, goodAlign8 hA⟩) (by decide)))
    (fun _ => callOp_runs hA hc hs (fun _ => ⟨by decide, goodAlign8 hA⟩) (by decide)))

/-- Its destructor runs first, then that of the inner object, with all the memory of both still allocated. -/
example : ∃ hs st, nestedCtor (exCfg true 32 []) (mkArena none) = .ok (some 64, hs, st) ∧ Exec (exCfg true 32 []) 32 hs st ∧
    pending hs = [⟨⟨64, 1⟩, [⟨9192, 16⟩, ⟨4192, 5000⟩, ⟨168, 40⟩, ⟨64, 100⟩]⟩,
      ⟨⟨168, 2⟩, [⟨4192, 5000⟩, ⟨168, 40⟩, ⟨64, 100⟩]⟩] := by
  obtain ⟨q, hs, st, h1, h2⟩ := nestedCtor_runs (A := 32) (by decide) (exCfg_good true 32 [])
    (exCfg_sane _ (by decide) _) [] (mkArena none) (.init none)
  have h3 : (nestedCtor (exCfg true 32 []) (mkArena none)).map (fun x => (x.1, pending x.2.1)) =
      .ok (some 64, [⟨⟨64, 1⟩, [⟨9192, 16⟩, ⟨4192, 5000⟩, ⟨168, 40⟩, ⟨64, 100⟩]⟩,
        ⟨⟨168, 2⟩, [⟨4192, 5000⟩, ⟨168, 40⟩, ⟨64, 100⟩]⟩]) := by decide +kernel
  rw [h1] at h3
  simp only [Except.map, Except.ok.injEq, Prod.mk.injEq] at h3
  obtain ⟨rfl, h4⟩ := h3
  exact ⟨hs, st, h1, h2.exec (.init none), h4⟩

end Verif.Arena
