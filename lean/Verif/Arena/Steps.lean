import Verif.Arena.Inv

/-!
`Reset`, the destructor, and preservation of the invariant by every API call.
-/

namespace Verif.Arena

variable {cfg : Cfg} {A : Nat} {st : St} {regs : List Region} {pend : List Pending}

theorem emitCleanups_eq (tr : List Ev) (ns : List Node) :
    emitCleanups tr ns = (ns.map Ev.cleanup).reverse ++ tr := by
  induction ns generalizing tr with
  | nil => rfl
  | cons n ns ih =>
    have : emitCleanups tr (n :: ns) = emitCleanups (.cleanup n :: tr) ns := rfl
    rw [this, ih]; simp

theorem Teardown.cleanups {hd rest : List Region} {l r : List Pending} {evs : List Ev}
    (hl : ∀ x ∈ l, ∀ y ∈ x.needs, ∃ b ∈ hd, Region.Within y b)
    (h : Teardown hd r evs rest) :
    Teardown hd (l ++ r) ((l.map Pending.node).map Ev.cleanup ++ evs) rest := by
  induction l with
  | nil => exact h
  | cons x l ih =>
    exact .cleanup (hl x (by simp)) (ih (fun y hy => hl y (by simp [hy])))

theorem filter_region {b : Block} {bs : List Block} (hb : BlockOK A b) (hbs : ∀ c ∈ bs, BlockOK A c)
    (h : ∀ c ∈ bs, Apart b c) :
    ((b :: bs).map Block.region).filter (fun r => r.start ≠ b.region.start) = bs.map Block.region := by
  have : ∀ c ∈ bs, c.base ≠ b.base := by
    intro c hc he
    have h1 := hbs c hc
    have := hb.hdr; have := hb.pos_le; have := hb.limit_le
    have := h1.hdr; have := h1.pos_le; have := h1.limit_le
    rcases h c hc with h2 | h2 <;> omega
  rw [List.map_cons, List.filter_cons_of_neg (by simp)]
  rw [List.filter_eq_self]
  intro r hr
  obtain ⟨c, hc, rfl⟩ := List.mem_map.1 hr
  exact decide_eq_true (this c hc)

theorem inside_within {bs : List Block} (hbs : ∀ c ∈ bs, BlockOK A c) {y : Region}
    (h : ∃ c ∈ bs, c.base + 32 ≤ y.start ∧ y.start + y.len ≤ c.base + c.pos) :
    ∃ r ∈ bs.map Block.region, Region.Within y r := by
  obtain ⟨c, hc, h1, h2⟩ := h
  have := (hbs c hc).pos_le; have := (hbs c hc).limit_le
  refine ⟨c.region, List.mem_map_of_mem hc, ?_, ?_⟩
  · simp [Block.region]; omega
  · simp [Block.region]; omega

/-- Unused bytes of a list of blocks. -/
def unused (bs : List Block) : Nat := (bs.map (fun b => b.limit - b.pos)).sum

@[simp] theorem unused_cons (b : Block) (bs : List Block) :
    unused (b :: bs) = (b.limit - b.pos) + unused bs := rfl
@[simp] theorem unused_nil : unused [] = 0 := rfl

theorem unused_le {bs : List Block} (hok : ∀ b ∈ bs, BlockOK A b) :
    unused bs ≤ (bs.map Block.size).sum := by
  induction bs with
  | nil => simp
  | cons b bs ih =>
    have h1 := hok b (by simp)
    have h2 := ih (fun c hc => hok c (by simp [hc]))
    have := h1.limit_le
    simp only [unused_cons, List.map_cons, List.sum_cons]
    omega

theorem freeAllBlocks_ok {dbg : Bool} {bs : List Block} {pend : List Pending} {rem : Nat}
    {tr : List Ev} (hok : ∀ b ∈ bs, BlockOK A b) (hd : bs.Pairwise Apart) (hn : NodesOK bs pend)
    (hs : rem + (bs.map Block.size).sum < M64) :
    ∃ evs, freeAllBlocks dbg bs rem tr = .ok (rem + unused bs, evs.reverse ++ tr) ∧
      Teardown (bs.map Block.region) pend evs [] := by
  induction bs generalizing pend rem tr with
  | nil =>
    refine ⟨[], by simp [freeAllBlocks], ?_⟩
    rw [hn]; exact .done _
  | cons b bs ih =>
    obtain ⟨l, r, rfl, h2, h3, h4⟩ := hn
    rw [List.pairwise_cons] at hd
    have hb := hok b (by simp)
    have hbs : ∀ c ∈ bs, BlockOK A c := fun c hc => hok c (by simp [hc])
    have := hb.limit_le
    simp only [List.map_cons, List.sum_cons] at hs
    obtain ⟨evs, he, ht⟩ := ih (pend := r) (rem := rem + (b.limit - b.pos))
      (tr := .dealloc b.base :: emitCleanups tr (l.map Pending.node)) hbs hd.2 h4 (by omega)
    refine ⟨(l.map Pending.node).map Ev.cleanup ++ .dealloc b.base :: evs, ?_, ?_⟩
    · unfold freeAllBlocks
      rw [remain_ok hb]
      simp only [ok_bind, Block.runCleanups, h2]
      rw [add64_of_lt (by omega), he, emitCleanups_eq]
      simp [Nat.add_assoc]
    · apply Teardown.cleanups
      · intro x hx len hl
        exact inside_within hok (h3 x hx len hl)
      · apply Teardown.dealloc (b := b.region)
        · simp
        · rw [filter_region hb hbs hd.1]; exact ht

theorem freeBlocksExceptHead_ok {dbg : Bool} {bs : List Block} {pend : List Pending} {rem : Nat}
    {tr : List Ev} (hne : bs ≠ []) (hok : ∀ b ∈ bs, BlockOK A b) (hd : bs.Pairwise Apart)
    (hn : NodesOK bs pend) (hs : rem + (bs.map Block.size).sum < M64) :
    ∃ evs l r, freeBlocksExceptHead dbg bs rem tr
        = .ok (rem + unused bs, bs.getLast hne, evs.reverse ++ tr) ∧
      pend = l ++ r ∧ NodesOK [bs.getLast hne] r ∧
      (∀ {es : List Ev} {rest : List Region},
        Teardown [(bs.getLast hne).region] r es rest →
        Teardown (bs.map Block.region) pend (evs ++ es) rest) ∧
      (∀ e ∈ evs, (∃ n, e = .cleanup n) ∨ ∃ b, e = .dealloc b) := by
  induction bs generalizing pend rem tr with
  | nil => exact absurd rfl hne
  | cons b bs ih =>
    rw [List.pairwise_cons] at hd
    have hb := hok b (by simp)
    have hbs : ∀ c ∈ bs, BlockOK A c := fun c hc => hok c (by simp [hc])
    have hlim := hb.limit_le
    simp only [List.map_cons, List.sum_cons] at hs
    cases bs with
    | nil =>
      refine ⟨[], [], pend, ?_, rfl, hn, fun h => h, by simp⟩
      simp only [freeBlocksExceptHead, remain_ok hb, ok_bind, pure_eq_ok]
      rw [add64_of_lt (by omega)]
      simp
    | cons c bs =>
      obtain ⟨l, r, rfl, h2, h3, h4⟩ := hn
      obtain ⟨evs, l', r', he, hr, hlast, ht, hev⟩ := ih (pend := r) (rem := rem + (b.limit - b.pos))
        (tr := .dealloc b.base :: emitCleanups tr (l.map Pending.node)) (by simp) hbs hd.2 h4
        (by simp only [List.map_cons, List.sum_cons] at hs ⊢; omega)
      refine ⟨(l.map Pending.node).map Ev.cleanup ++ .dealloc b.base :: evs, l ++ l', r', ?_,
        by rw [hr, List.append_assoc], ?_, ?_, ?_⟩
      · rw [freeBlocksExceptHead, remain_ok hb]
        · simp only [ok_bind, Block.runCleanups, h2]
          rw [add64_of_lt (by omega), he, emitCleanups_eq, List.getLast_cons (a := b) (List.cons_ne_nil c bs)]
          simp [Nat.add_assoc]
        · simp
      · rw [List.getLast_cons (List.cons_ne_nil c bs)]; exact hlast
      · intro es rest h
        rw [List.getLast_cons (List.cons_ne_nil c bs)] at h
        rw [List.append_assoc]
        apply Teardown.cleanups
        · intro x hx len hl
          exact inside_within hok (h3 x hx len hl)
        · rw [List.cons_append]
          apply Teardown.dealloc (b := b.region)
          · simp
          · rw [filter_region hb hbs hd.1]; exact ht h
      · intro e hmem
        rcases List.mem_append.1 hmem with h | h
        · obtain ⟨n, _, rfl⟩ := List.mem_map.1 h
          exact .inl ⟨n, rfl⟩
        · rcases List.mem_cons.1 h with rfl | h
          · exact .inr ⟨_, rfl⟩
          · exact hev e h

/-- The destructor. -/
theorem destroy_ok (wf : WF A st regs pend) :
    ∃ evs, destroy cfg st
        = .ok (.destroyed st.space (unused st.blocks) st.cookie :: (evs.reverse ++ st.trace)) ∧
      Teardown (held st.trace) pend evs [] := by
  have hsp := wf.space_lt
  rw [wf.space_eq] at hsp
  obtain ⟨evs, he, ht⟩ := freeAllBlocks_ok (dbg := cfg.dbg) (rem := 0) (tr := st.trace) wf.ok wf.disj
    wf.nodes (by omega)
  refine ⟨evs, ?_, ?_⟩
  · unfold destroy
    rw [he]; simp
  · rw [wf.held_eq]; exact ht

/-- A block after `Reset`. -/
def rewind (b : Block) : Block := { b with pos := 32, limit := b.size }

theorem Teardown.held {hd rest : List Region} {evs : List Ev} {tr : List Ev}
    (h : Teardown hd pend evs rest) (htr : held tr = hd) :
    Arena.held (evs.reverse ++ tr) = rest := by
  induction h generalizing tr with
  | done _ => exact htr
  | cleanup _ _ ih => simp only [List.reverse_cons, List.append_assoc]; exact ih htr
  | dealloc hb _ ih =>
    simp only [List.reverse_cons, List.append_assoc]
    apply ih
    simp [htr]
  | hook u w c _ ih => simp only [List.reverse_cons, List.append_assoc]; exact ih htr

/-- `Reset`. -/
theorem reset_ok (wf : WF A st regs pend) (hne : st.blocks ≠ []) :
    ∃ evs, Reset cfg st = .ok (st.space,
        { st with blocks := [rewind (st.blocks.getLast hne)],
                  space := (st.blocks.getLast hne).size, trace := evs.reverse ++ st.trace }) ∧
      Teardown (held st.trace) pend evs [(st.blocks.getLast hne).region] ∧
      (∃ pre post, evs = pre ++ .reset st.space (unused st.blocks) st.cookie :: post ∧
        ∀ e ∈ pre ++ post, (∃ n, e = .cleanup n) ∨ ∃ b, e = .dealloc b) := by
  have hsp := wf.space_lt
  rw [wf.space_eq] at hsp
  obtain ⟨evs, l, r, he, hp, hlast, ht, hev⟩ := freeBlocksExceptHead_ok (dbg := cfg.dbg) (rem := 0)
    (tr := st.trace) hne wf.ok wf.disj wf.nodes (by omega)
  have hb := wf.ok _ (List.getLast_mem hne)
  generalize hbl : st.blocks.getLast hne = b at *
  obtain ⟨l2, r2, h1, h2, h3, h4⟩ := hlast
  have hr2 : r2 = [] := h4
  subst hr2
  rw [List.append_nil] at h1
  subst h1
  have htd : Teardown [b.region] r (.reset st.space (unused st.blocks) st.cookie ::
      (r.map Pending.node).map Ev.cleanup) [b.region] := by
    apply Teardown.hook
    have := Teardown.cleanups (hd := [b.region]) (rest := [b.region]) (l := r) (r := []) (evs := [])
      (by
        intro x hx len hl
        exact inside_within (bs := [b]) (by simpa using hb) (h3 x hx len hl))
      (.done _)
    simpa using this
  refine ⟨evs ++ .reset st.space (unused st.blocks) st.cookie ::
    (r.map Pending.node).map Ev.cleanup, ?_, ?_, ?_⟩
  · unfold Reset
    rw [he]
    simp only [ok_bind, Nat.zero_add, Block.reset, Block.runCleanups, h2, pure_eq_ok, emitCleanups_eq]
    simp [rewind]
  · rw [wf.held_eq]; exact ht htd
  · refine ⟨evs, _, rfl, ?_⟩
    intro e hmem
    rcases List.mem_append.1 hmem with h | h
    · exact hev e h
    · rw [List.mem_map] at h
      obtain ⟨n, _, rfl⟩ := h
      exact .inl ⟨n, rfl⟩

theorem reset_wf (wf : WF A st regs pend) (hne : st.blocks ≠ []) {evs : List Ev}
    (ht : Teardown (held st.trace) pend evs [(st.blocks.getLast hne).region]) :
    WF A { st with blocks := [rewind (st.blocks.getLast hne)],
                   space := (st.blocks.getLast hne).size, trace := evs.reverse ++ st.trace } [] [] := by
  have hb := wf.ok _ (List.getLast_mem hne)
  have hh := ht.held rfl
  generalize st.blocks.getLast hne = b at *
  have := hb.hdr; have := hb.pos_le; have := hb.limit_le
  refine ⟨?_, by simp, ?_, ?_, ?_, by simp, by simp⟩
  · intro c hc
    simp only [List.mem_singleton] at hc
    subst hc
    exact ⟨hb.aligned, hb.base_pos, hb.fits, Nat.le_refl _, by show 32 ≤ b.size; omega, Nat.le_refl _,
      by show 8 ∣ 32; decide, hb.size8, by show 16 ∣ b.size - b.size; simp⟩
  · rw [hh]; rfl
  · simp [rewind]
  · exact ⟨[], [], rfl, by simp [rewind, readNodes_end], by simp, rfl⟩

/-! ### API calls -/

theorem WF.weaken {r : Region} (wf : WF A st (r :: regs) pend) : WF A st regs pend :=
  { ok := wf.ok, disj := wf.disj, held_eq := wf.held_eq, space_eq := wf.space_eq, nodes := wf.nodes
    regs_in := fun s hs => wf.regs_in s (by simp [hs])
    regs_disj := (List.pairwise_cons.1 wf.regs_disj).2 }

theorem WF.head_in {r : Region} (wf : WF A st (r :: regs) pend) : ∃ c ∈ st.blocks,
    c.base + 32 ≤ r.start ∧ r.start + r.len ≤ c.base + c.pos := wf.regs_in r (by simp)

theorem live_append (h : Hist) (x : Op × Ret) :
    live (h ++ [x]) = if x.1 = .reset then [] else regionsOf x ++ live h := by
  simp [live, List.foldl_append]

theorem history_live (h : Hist) : (h.foldl (fun acc x => if x.1 = .reset then ([], [])
    else (regionsOf x ++ acc.1, registeredBy acc.1 x ++ acc.2)) (([], []) : List Region × List Pending)).1 = live h := by
  induction h using List.reverseRecOn with
  | nil => rfl
  | append_singleton h x ih =>
    rw [List.foldl_append, live_append, ← ih]
    simp only [List.foldl_cons, List.foldl_nil]
    split <;> rfl

theorem pending_append (h : Hist) (x : Op × Ret) :
    pending (h ++ [x]) = if x.1 = .reset then [] else registeredBy (live h) x ++ pending h := by
  unfold pending
  rw [List.foldl_append]
  simp only [List.foldl_cons, List.foldl_nil, history_live]
  split <;> rfl

theorem goodAlign8 (hA : 8 ∣ A) : GoodAlign A 8 := ⟨.inl rfl, hA⟩

/-- What one in-contract call does to the invariant. -/
structure StepOK (cfg : Cfg) (A : Nat) (st : St) (op : Op) (h : Hist) (r : Ret) (st' : St) : Prop where
  eq : step cfg st op = .ok (r, st')
  wf : WF A st' (live (h ++ [(op, r)])) (pending (h ++ [(op, r)]))
  blocks : st.blocks ≠ [] → st'.blocks ≠ []
  succ : succeeded (op, r) = true → st'.blocks ≠ []
  cookie : st'.cookie = st.cookie
  al : AlignedRet (op, r)
  grow : op ≠ .reset → ∃ tr', Grow cfg st.cookie (requests op) st.trace tr' ∧
    st'.trace = ((hookOf (op, r)).map (fun b => Ev.allocated b st.cookie)).toList ++ tr'
  used : op ≠ .reset → usedBytes st.blocks + minBytes (op, r) ≤ usedBytes st'.blocks ∧
    usedBytes st'.blocks ≤ usedBytes st.blocks + maxBytes op

  fail : r = .ptr none ∨ r = .bool false →
    ∃ s tr, st'.trace = .blockAlloc s none :: tr ∧ cfg.blockAlloc tr s = none

theorem Grow.fail_inv {c : Option Nat} {ms : List Nat} {tr tr' : List Ev} {s : Nat}
    (h : Grow cfg c ms tr (.blockAlloc s none :: tr')) (hne : tr ≠ .blockAlloc s none :: tr') :
    cfg.blockAlloc tr' s = none := by
  cases h with
  | refl => exact absurd rfl hne
  | fail _ _ _ h => exact h

theorem Grow.fail_self {c : Option Nat} {ms : List Nat} {tr : List Ev} {s : Nat}
    (h : Grow cfg c ms tr (.blockAlloc s none :: tr)) : cfg.blockAlloc tr s = none :=
  h.fail_inv (fun e => by have := congrArg List.length e; simp at this)

theorem usedBytes_congr {bs bs' : List Block}
    (h : bs'.map (fun b => (b.base, b.pos, b.limit, b.size))
      = bs.map (fun b => (b.base, b.pos, b.limit, b.size))) : usedBytes bs' = usedBytes bs := by
  have := congrArg (List.map (fun t : Nat × Nat × Nat × Nat => t.2.1 - 32)) h
  simp only [List.map_map] at this
  exact congrArg List.sum this

theorem step_ok (hA : 8 ∣ A) (hc : GoodCfg cfg) (hs : Sane A cfg) {h : Hist}
    (wf : WF A st (live h) (pending h)) (hne : (∃ x ∈ h, succeeded x) → st.blocks ≠ [])
    {op : Op} (hop : Contract A h op) :
    ∃ r st', StepOK cfg A st op h r st' := by
  cases op with
  | allocate b a =>
    rcases allocateAligned_spec hA hc hs wf hop.2 hop.1 with
      ⟨size, h1, h2, h3⟩ | ⟨p, st', h1, h2, h3, h4, h5, h6, pad, h7, h8⟩
    · refine ⟨.ptr none, st.emit (.blockAlloc size none), ?_, ?_, fun h => h, by simp [succeeded], rfl,
        trivial, fun _ => ⟨_, h1, rfl⟩, fun _ => ⟨Nat.le_refl _, Nat.le_add_right _ _⟩,
        fun _ => ⟨_, _, rfl, h1.fail_self⟩⟩
      · simp only [step, AllocateAligned, h2, ok_bind, pure_eq_ok]
      · rw [live_append, pending_append]; simpa [regionsOf, registeredBy] using h3
    · refine ⟨.ptr (some p), st'.emit (.allocated b st'.cookie), ?_, ?_, fun _ => h3, fun _ => h3, h4,
        h2, fun _ => ⟨_, h6, by simp [hookOf, St.emit, h4]⟩, fun _ => ?_, by simp⟩
      · simp only [step, AllocateAligned, h1, ok_bind, pure_eq_ok]
      · rw [live_append, pending_append]; exact h5.of_trace _ rfl
      · simp only [minBytes, regionsOf, maxBytes, St.emit, h8, List.map_cons, List.map_nil,
          List.sum_cons, List.sum_nil]; omega
  | create s d =>
    have hreq : ∀ m ∈ [round8 s], m ∈ requests (.create s d) := by
      cases d <;> simp [requests]
    rcases allocateAligned_spec hA hc hs wf (goodAlign8 hA) hop with
      ⟨size, h1, h2, h3⟩ | ⟨p, st1, h1, h2, h3, h4, h5, h6, pad, h7, h8⟩
    · refine ⟨.ptr none, st.emit (.blockAlloc size none), ?_, ?_, fun h => h, by simp [succeeded], rfl,
        trivial, fun _ => ⟨_, h1.mono hreq, rfl⟩, fun _ => ⟨Nat.le_refl _, Nat.le_add_right _ _⟩,
        fun _ => ⟨_, _, rfl, h1.fail_self⟩⟩
      · simp only [step, Create, kByteSize_eq, h2, ok_bind, pure_eq_ok]
      · rw [live_append, pending_append]
        cases d <;> simpa [regionsOf, registeredBy] using h3
    · obtain ⟨st2, m1, m2, m3, m4, m5, m6, m7, _⟩ := memWrite_ok h5 h5.head_in
      have hu2 := usedBytes_congr m7
      cases d with
      | none =>
        refine ⟨.ptr (some p), st2.emit (.allocated s st2.cookie), ?_, ?_, fun _ => m5 h3,
          fun _ => m5 h3, by rw [← h4, ← m4]; rfl, h2,
          fun _ => ⟨_, h6, by simp [hookOf, St.emit, m3, m4, h4]⟩, fun _ => ?_, by simp⟩
        · simp only [step, Create, kByteSize_eq, h1, ok_bind, pure_eq_ok]
          simp [m1]
        · rw [live_append, pending_append]; exact m2.of_trace _ rfl
        · simp only [minBytes, regionsOf, maxBytes, St.emit, hu2, h8, List.map_cons, List.map_nil,
            List.sum_cons, List.sum_nil]; omega
      | some f =>
        rcases addCleanup_spec hA hc hs m2 (x := ⟨⟨p, f⟩, ⟨p, s⟩ :: live h⟩) m2.regs_in with
          ⟨size, a1, a2, a3⟩ | ⟨st3, a1, a2, a3, a4, a5, a6⟩
        · have a1' := a1.fail_self
          rw [m3, m4, h4] at a1
          refine ⟨.ptr none, st2.emit (.blockAlloc size none), ?_, ?_, fun _ => m5 h3,
            by simp [succeeded], ?_, trivial,
            fun _ => ⟨_, (h6.mono hreq).trans (a1.mono (by simp [requests])),
              by simp [hookOf, St.emit, m3]⟩, fun _ => ?_,
            fun _ => ⟨_, _, rfl, a1'⟩⟩
          rotate_left
          · rw [live_append, pending_append]; exact a3.weaken
          · rw [← h4, ← m4]; rfl
          · simp only [minBytes, regionsOf, maxBytes, St.emit, hu2, h8, List.map_nil,
              List.sum_nil]; omega
          · simp only [step, Create, kByteSize_eq, h1, ok_bind, pure_eq_ok, m1]
            simp only at a2
            rw [a2]; simp
        · rw [m3, m4, h4] at a5
          refine ⟨.ptr (some p), st3.emit (.allocated s st3.cookie), ?_, ?_, fun _ => a2, fun _ => a2, ?_,
            h2, fun _ => ⟨_, (h6.mono hreq).trans (a5.mono (by simp [requests])),
              by simp [hookOf, St.emit, a3, m4, h4]⟩, fun _ => ?_, by simp⟩
          · simp only [step, Create, kByteSize_eq, h1, ok_bind, pure_eq_ok, m1]
            simp only at a1
            rw [a1]; simp
          · rw [live_append, pending_append]; exact a4.of_trace _ rfl
          · rw [← h4, ← m4, ← a3]; rfl
          · simp only [minBytes, regionsOf, maxBytes, St.emit, a6, hu2, h8, List.map_cons, List.map_nil,
              List.sum_cons, List.sum_nil]; omega
  | createArray s n =>
    have hsn : mul64 s n = s * n := mul64_of_lt (by have := hop.2; omega)
    have hs0 : s ≠ 0 := by have := hop.1; omega
    have hno : ¬ n > (M64 - 1) / s := by
      rw [gt_iff_lt, Nat.not_lt, Nat.le_div_iff_mul_le hop.1, Nat.mul_comm]
      have := hop.2; omega
    rcases allocateAligned_spec hA hc hs wf (goodAlign8 hA) hop.2 with
      ⟨size, h1, h2, h3⟩ | ⟨p, st1, h1, h2, h3, h4, h5, h6, pad, h7, h8⟩
    · refine ⟨.ptr none, st.emit (.blockAlloc size none), ?_, ?_, fun h => h, by simp [succeeded], rfl,
        trivial, fun _ => ⟨_, h1, rfl⟩, fun _ => ⟨Nat.le_refl _, Nat.le_add_right _ _⟩,
        fun _ => ⟨_, _, rfl, h1.fail_self⟩⟩
      · simp only [step, CreateArray, hs0, hno, if_false, hsn, kByteSize_eq, h2, ok_bind, pure_eq_ok]
      · rw [live_append, pending_append]; simpa [regionsOf, registeredBy] using h3
    · obtain ⟨st2, m1, m2, m3, m4, m5, m6, m7, _⟩ := memWrite_ok h5 h5.head_in
      have hu2 := usedBytes_congr m7
      refine ⟨.ptr (some p), st2.emit (.allocated (s * n) st2.cookie), ?_, ?_, fun _ => m5 h3,
          fun _ => m5 h3, by rw [← h4, ← m4]; rfl, h2,
          fun _ => ⟨_, h6, by simp [hookOf, St.emit, m3, m4, h4]⟩, fun _ => ?_, by simp⟩
      · simp only [step, CreateArray, hs0, hno, if_false, hsn, kByteSize_eq, h1, ok_bind, pure_eq_ok]
        simp [m1]
      · rw [live_append, pending_append]; exact m2.of_trace _ rfl
      · simp only [minBytes, regionsOf, maxBytes, St.emit, hu2, h8, List.map_cons, List.map_nil,
          List.sum_cons, List.sum_nil]; omega
  | createBegin s =>
    rcases allocateAligned_spec hA hc hs wf (goodAlign8 hA) hop with
      ⟨size, h1, h2, h3⟩ | ⟨p, st1, h1, h2, h3, h4, h5, h6, pad, h7, h8⟩
    · refine ⟨.ptr none, st.emit (.blockAlloc size none), ?_, ?_, fun h => h, by simp [succeeded], rfl,
        trivial, fun _ => ⟨_, h1, rfl⟩, fun _ => ⟨Nat.le_refl _, Nat.le_add_right _ _⟩,
        fun _ => ⟨_, _, rfl, h1.fail_self⟩⟩
      · simp only [step, createBegin, kByteSize_eq, h2, ok_bind, pure_eq_ok]
      · rw [live_append, pending_append]; simpa [regionsOf, registeredBy] using h3
    · obtain ⟨st2, m1, m2, m3, m4, m5, m6, m7, _⟩ := memWrite_ok h5 h5.head_in
      have hu2 := usedBytes_congr m7
      refine ⟨.ptr (some p), st2, ?_, ?_, fun _ => m5 h3, fun _ => m5 h3, by rw [← h4, ← m4], h2,
          fun _ => ⟨_, h6, by simp [hookOf, m3]⟩, fun _ => ?_, by simp⟩
      · simp only [step, createBegin, kByteSize_eq, h1, ok_bind, pure_eq_ok]
        simp [m1]
      · rw [live_append, pending_append]; exact m2
      · simp only [minBytes, regionsOf, maxBytes, hu2, h8, List.map_cons, List.map_nil,
          List.sum_cons, List.sum_nil]; omega
  | createEnd p s d =>
    have hbl : st.blocks ≠ [] := by
      obtain ⟨c, hc', _⟩ := wf.regs_in _ hop
      exact List.ne_nil_of_mem hc'
    cases d with
    | none =>
      refine ⟨.bool true, st.emit (.allocated s st.cookie), rfl, ?_, id, fun _ => hbl, rfl, trivial,
        fun _ => ⟨_, .refl _, rfl⟩, fun _ => ⟨Nat.le_refl _, Nat.le_add_right _ _⟩, by simp⟩
      rw [live_append, pending_append]; exact wf.of_trace _ rfl
    | some f =>
      rcases addCleanup_spec hA hc hs wf (x := ⟨⟨p, f⟩, live h⟩) wf.regs_in with
        ⟨size, a1, a2, a3⟩ | ⟨st3, a1, a2, a3, a4, a5, a6⟩
      · refine ⟨.bool false, st.emit (.blockAlloc size none), ?_, ?_, fun h => h, by simp [succeeded], rfl,
          trivial, fun _ => ⟨_, a1, rfl⟩, fun _ => ⟨Nat.le_refl _, Nat.le_add_right _ _⟩,
          fun _ => ⟨_, _, rfl, a1.fail_self⟩⟩
        · simp only at a2
          simp only [step, createEnd, a2, ok_bind, pure_eq_ok]
          rfl
        · rw [live_append, pending_append]; exact a3
      · refine ⟨.bool true, st3.emit (.allocated s st3.cookie), ?_, ?_, fun _ => a2, fun _ => a2, a3, trivial,
          fun _ => ⟨_, a5, by simp [hookOf, St.emit, a3]⟩, fun _ => ?_, by simp⟩
        · simp only at a1
          simp only [step, createEnd, a1, ok_bind, pure_eq_ok]
          rfl
        · rw [live_append, pending_append]; exact a4.of_trace _ rfl
        · simp only [St.emit]
          rw [a6]; exact ⟨Nat.le_refl _, Nat.le_add_right _ _⟩
  | allocateCleanup b f e =>
    have hreq : ∀ m ∈ [round8 b], m ∈ requests (.allocateCleanup b f e) := by simp [requests]
    have hreq2 : ∀ m ∈ [16], m ∈ requests (.allocateCleanup b f e) := by simp [requests]
    rcases allocateAligned_spec hA hc hs wf (goodAlign8 hA) hop with
      ⟨size, h1, h2, h3⟩ | ⟨p, st1, h1, h2, h3, h4, h5, h6, pad, h7, h8⟩
    · refine ⟨.ptr none, st.emit (.blockAlloc size none), ?_, ?_, fun h => h, by simp [succeeded], rfl,
        trivial, fun _ => ⟨_, h1.mono hreq, rfl⟩, fun _ => ⟨Nat.le_refl _, Nat.le_add_right _ _⟩,
        fun _ => ⟨_, _, rfl, h1.fail_self⟩⟩
      · simp only [step, AllocateAlignedAndAddCleanup, kByteSize_eq, h2, ok_bind, pure_eq_ok]
      · rw [live_append, pending_append]
        cases e <;> simpa [regionsOf, registeredBy] using h3
    · obtain ⟨x, hx, hxin, hxr⟩ : ∃ x : Pending, x.node = ⟨e.getD p, f⟩ ∧
          (∀ y ∈ x.needs, ∃ c ∈ st1.blocks, c.base + 32 ≤ y.start ∧ y.start + y.len ≤ c.base + c.pos) ∧
          registeredBy (live h) (.allocateCleanup b f e, .ptr (some p)) = [x] := by
        refine ⟨⟨⟨e.getD p, f⟩, ⟨p, b⟩ :: live h⟩, rfl, h5.regs_in, ?_⟩
        cases e <;> rfl
      rcases addCleanup_spec hA hc hs h5 x hxin with
        ⟨size, a1, a2, a3⟩ | ⟨st3, a1, a2, a3, a4, a5, a6⟩
      · have a1' := a1.fail_self
        rw [h4] at a1
        refine ⟨.ptr none, st1.emit (.blockAlloc size none), ?_, ?_, fun _ => h3, by simp [succeeded], ?_,
          trivial, fun _ => ⟨_, (h6.mono hreq).trans (a1.mono hreq2), by simp [hookOf, St.emit]⟩,
          fun _ => ?_, fun _ => ⟨_, _, rfl, a1'⟩⟩
        rotate_left
        · rw [live_append, pending_append]
          cases e <;> exact a3.weaken
        · rw [← h4]; rfl
        · simp only [minBytes, regionsOf, maxBytes, St.emit, h8, List.map_nil,
            List.sum_nil]; omega
        · rw [hx] at a2
          simp only [step, AllocateAlignedAndAddCleanup, kByteSize_eq, h1, ok_bind, pure_eq_ok, a2]
          simp
      · rw [h4] at a5
        refine ⟨.ptr (some p), st3.emit (.allocated b st3.cookie), ?_, ?_, fun _ => a2, fun _ => a2, ?_,
          h2, fun _ => ⟨_, (h6.mono hreq).trans (a5.mono hreq2), by simp [hookOf, St.emit, a3, h4]⟩,
          fun _ => ?_, by simp⟩
        · rw [hx] at a1
          simp only [step, AllocateAlignedAndAddCleanup, kByteSize_eq, h1, ok_bind, pure_eq_ok, a1]
          simp
        · rw [live_append, pending_append, hxr]; exact a4.of_trace _ rfl
        · rw [← h4, ← a3]; rfl
        · simp only [minBytes, regionsOf, maxBytes, St.emit, a6, h8, List.map_cons, List.map_nil,
              List.sum_cons, List.sum_nil]; omega
  | own o f =>
    rcases addCleanup_spec hA hc hs wf (x := ⟨⟨o, f⟩, live h⟩) wf.regs_in with
      ⟨size, a1, a2, a3⟩ | ⟨st3, a1, a2, a3, a4, a5, a6⟩
    · refine ⟨.bool false, st.emit (.blockAlloc size none), ?_, ?_, fun h => h, by simp [succeeded], rfl,
        trivial, fun _ => ⟨_, a1, rfl⟩, fun _ => ⟨Nat.le_refl _, Nat.le_add_right _ _⟩,
        fun _ => ⟨_, _, rfl, a1.fail_self⟩⟩
      · simp only at a2
        simp only [step, Own, a2, ok_bind, pure_eq_ok]
      · rw [live_append, pending_append]; exact a3
    · refine ⟨.bool true, st3, ?_, ?_, fun _ => a2, fun _ => a2, a3, trivial,
        fun _ => ⟨_, a5, rfl⟩, fun _ => ?_, by simp⟩
      · simp only at a1
        simp only [step, Own, a1, ok_bind, pure_eq_ok]
      · rw [live_append, pending_append]; exact a4
      · rw [a6]; exact ⟨Nat.le_refl _, Nat.le_add_right _ _⟩
  | pmrAllocate b a =>
    rcases allocateAligned_spec hA hc hs wf hop.2 hop.1 with
      ⟨size, h1, h2, h3⟩ | ⟨p, st', h1, h2, h3, h4, h5, h6, pad, h7, h8⟩
    · refine ⟨.ptr none, st.emit (.blockAlloc size none), ?_, ?_, fun h => h, by simp [succeeded], rfl,
        trivial, fun _ => ⟨_, h1, rfl⟩, fun _ => ⟨Nat.le_refl _, Nat.le_add_right _ _⟩,
        fun _ => ⟨_, _, rfl, h1.fail_self⟩⟩
      · simp only [step, Arena.pmrAllocate, kByteSize_eq, h2, ok_bind, pure_eq_ok]
      · rw [live_append, pending_append]; simpa [regionsOf, registeredBy] using h3
    · refine ⟨.ptr (some p), st', ?_, ?_, fun _ => h3, fun _ => h3, h4, h2, fun _ => ⟨_, h6, rfl⟩,
        fun _ => ?_, by simp⟩
      · simp only [step, Arena.pmrAllocate, kByteSize_eq, h1, ok_bind, pure_eq_ok]
      · rw [live_append, pending_append]; exact h5
      · simp only [minBytes, regionsOf, maxBytes, h8, List.map_cons, List.map_nil,
          List.sum_cons, List.sum_nil]; omega
  | pmrDeallocate p b a =>
    exact ⟨.unit, st, rfl, by rw [live_append, pending_append]; exact wf, fun h => h,
      by simp [succeeded], rfl, trivial, fun _ => ⟨_, .refl _, rfl⟩,
      fun _ => ⟨Nat.le_refl _, Nat.le_add_right _ _⟩, by simp⟩
  | reset =>
    obtain ⟨evs, h1, h2, _⟩ := reset_ok (cfg := cfg) wf (hne hop)
    refine ⟨.num st.space, { st with
        blocks := [rewind (st.blocks.getLast (hne hop))],
        space := (st.blocks.getLast (hne hop)).size, trace := evs.reverse ++ st.trace },
      ?_, ?_, fun _ => by simp, by simp [succeeded], rfl, trivial, fun h => absurd rfl h,
      fun h => absurd rfl h, by simp⟩
    rotate_left
    · rw [live_append, pending_append]; exact reset_wf wf (hne hop) h2
    · simp only [step, h1, ok_bind, pure_eq_ok]
  | write p n =>
    obtain ⟨r, hr, h1, h2⟩ := hop
    obtain ⟨c, hc', h3, h4⟩ := wf.regs_in r hr
    obtain ⟨st2, m1, m2, m3, m4, m5, m6, m7, _⟩ :=
      memWrite_ok wf (p := p) (n := n) ⟨c, hc', by omega, by omega⟩
    refine ⟨.unit, st2, ?_, ?_, m5, by simp [succeeded], m4, trivial,
      fun _ => ⟨_, .refl _, by rw [m3]; rfl⟩, fun _ => ?_, by simp⟩
    · simp only [step, m1, ok_bind, pure_eq_ok]
    · rw [live_append, pending_append]; exact m2
    · rw [usedBytes_congr m7]; exact ⟨Nat.le_refl _, Nat.le_add_right _ _⟩

/-- The invariant holds in every in-contract execution. -/
theorem exec_inv (hA : 8 ∣ A) (hc : GoodCfg cfg) (hs : Sane A cfg) {h : Hist}
    (he : Exec cfg A h st) :
    WF A st (live h) (pending h) ∧ ((∃ x ∈ h, succeeded x) → st.blocks ≠ []) := by
  induction he with
  | init cookie =>
    refine ⟨⟨?_, ?_, ?_, ?_, ?_, ?_, ?_⟩, ?_⟩ <;> simp [mkArena, held, live, pending, NodesOK]
  | @step h st st' op r _ hop hstep ih =>
    obtain ⟨r2, st2, h1⟩ := step_ok hA hc hs ih.1 ih.2 hop
    have := h1.eq
    rw [hstep] at this
    cases this
    refine ⟨h1.wf, ?_⟩
    rintro ⟨x, hx, hsx⟩
    rcases List.mem_append.1 hx with hx | hx
    · exact h1.blocks (ih.2 ⟨x, hx, hsx⟩)
    · rw [List.mem_singleton] at hx
      subst hx
      exact h1.succ hsx

end Verif.Arena
