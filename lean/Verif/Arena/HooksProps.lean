import Verif.Arena.Hooks

/-!
C114: hooks of the arena that call the arena.
-/

namespace Verif.Arena

open Verif.Align

variable {cfg cfg2 : Cfg} {A : Nat} {st : St} {h : Hist} {T U : List Ev}

/-! ### Lemmas -/

theorem pending_nodes_append (h : Hist) {h2 : Hist} (hr : ∀ x ∈ h2, x.1 ≠ .reset) :
    (pending (h ++ h2)).map Pending.node = (pending h2).map Pending.node ++ (pending h).map Pending.node := by
  induction h2 using List.reverseRecOn with
  | nil => simp [pending]
  | append_singleton h2 x ih =>
    rw [← List.append_assoc, pending_append, pending_append, if_neg (hr x (by simp)), if_neg (hr x (by simp)),
      List.map_append, List.map_append, ih (fun y hy => hr y (by simp [hy])), List.append_assoc,
      registeredBy_node (live (h ++ h2)) (live h2)]

/-- Histories of registrations only. -/
def ownHist (ns : List Node) : Hist := ns.reverse.map (fun n => (.own n.element n.cleanup, .bool true))

theorem ownHist_live (ns : List Node) : live (ownHist ns) = [] := by
  induction ns with
  | nil => rfl
  | cons n ns ih =>
    have : ownHist (n :: ns) = ownHist ns ++ [(.own n.element n.cleanup, .bool true)] := by simp [ownHist]
    rw [this, live_append, ih]
    rfl

theorem ownHist_pending (ns : List Node) : pending (ownHist ns) = ns.map (fun n => ⟨n, []⟩) := by
  induction ns with
  | nil => rfl
  | cons n ns ih =>
    have : ownHist (n :: ns) = ownHist ns ++ [(.own n.element n.cleanup, .bool true)] := by simp [ownHist]
    rw [this, pending_append, ih, ownHist_live]
    rfl

/-- What a state with the invariant gives back and runs when it is destroyed. -/
theorem destroy_all {regs : List Region} {pend : List Pending} (wf : WF A st regs pend) :
    ∃ tr, destroy cfg st = .ok tr ∧ held tr = [] ∧ ran tr = ran st.trace ++ pend.map Pending.node := by
  obtain ⟨evs, e, ht⟩ := destroy_ok (cfg := cfg) wf
  refine ⟨_, e, ?_, ?_⟩
  · show held (evs.reverse ++ st.trace) = []
    exact ht.held rfl
  · have := ht.ran st.trace
    rw [← this]
    rfl

theorem held_nil_of_blocks {regs : List Region} {pend : List Pending} (wf : WF A st regs pend) :
    st.blocks ≠ [] ↔ held st.trace ≠ [] := by
  rw [wf.held_eq]
  simp

theorem Answered.grants {new : List Ev} (h1 : Answered cfg T new) (V : List Ev) :
    (grants (new ++ V)).length = (Arena.held new).length + (Arena.grants V).length := by
  induction new with
  | nil => simp [Arena.held]
  | cons e new ih =>
    cases e with
    | blockAlloc s r =>
      cases r with
      | none => simpa [Arena.held, Arena.grants] using ih h1.2
      | some p =>
        have := ih h1.2
        simp only [List.cons_append, Arena.grants, Arena.held, List.length_cons, this]
        omega
    | newblock a b c => simpa [Arena.held, Arena.grants] using ih h1
    | allocated a b => simpa [Arena.held, Arena.grants] using ih h1
    | _ => exact h1.elim

theorem held_cleanups (ns : List Node) (tr : List Ev) : held (ns.map Ev.cleanup ++ tr) = held tr := by
  induction ns with
  | nil => rfl
  | cons n ns ih => simpa [held] using ih

theorem grants_cleanups (ns : List Node) (tr : List Ev) : grants (ns.map Ev.cleanup ++ tr) = grants tr := by
  induction ns with
  | nil => rfl
  | cons n ns ih => simpa [grants] using ih

theorem ran_cleanups (ns : List Node) (tr : List Ev) : ran (ns.map Ev.cleanup ++ tr) = ran tr ++ ns.reverse := by
  induction ns with
  | nil => simp
  | cons n ns ih =>
    have : ran (.cleanup n :: (ns.map Ev.cleanup ++ tr)) = ran (ns.map Ev.cleanup ++ tr) ++ [n] := by simp [ran]
    simp only [List.map_cons, List.cons_append, this, ih, List.reverse_cons, List.append_assoc]

theorem atDestruction_ok {regs : List Region} {pend : List Pending} (wf : WF A st regs pend) :
    ∃ s, atDestruction cfg st = .ok s ∧ s.blocks = [] ∧ held s.trace = [] ∧
      ran s.trace = ran st.trace ++ pend.map Pending.node ∧ grants s.trace = grants st.trace := by
  have hsp := wf.space_lt
  rw [wf.space_eq] at hsp
  obtain ⟨evs, he, ht⟩ := freeAllBlocks_ok (dbg := cfg.dbg) (rem := 0) (tr := st.trace) wf.ok wf.disj wf.nodes (by omega)
  rw [← wf.held_eq] at ht
  refine ⟨{ st with blocks := [], trace := .destroyed st.space (0 + unused st.blocks) st.cookie :: (evs.reverse ++ st.trace) },
    ?_, rfl, ?_, ?_, ?_⟩
  · unfold atDestruction
    rw [he]; rfl
  · show held (evs.reverse ++ st.trace) = []
    exact ht.held rfl
  · have := ht.ran st.trace
    rw [← this]
    rfl
  · exact (ht.quiet st.trace).2.2.1

theorem wf_empty {s : St} (hb : s.blocks = []) (hh : held s.trace = []) (hsp : s.space = 0) : WF A s [] [] := by
  refine ⟨?_, ?_, ?_, ?_, ?_, ?_, ?_⟩ <;> simp [hb, hh, hsp, NodesOK]

/-- The destruction with its hook. -/
theorem destroyHook_ok (hA : 8 ∣ A) (hc : GoodCfg cfg) (hs : Sane A cfg) (he : Exec cfg A h st) {calls : List Op}
    (ho : ∀ s, atDestruction cfg st = .ok s → Obeys cfg A [] s calls) :
    ∃ h2 st', destroyHook cfg st calls = .ok (h2, st') ∧
      ((∃ x ∈ h2, succeeded x) → held st'.trace ≠ []) ∧
      ran st'.trace = ran st.trace ++ (pending h).map Pending.node ∧
      (grants st'.trace).length = (held st'.trace).length + (grants st.trace).length := by
  obtain ⟨s, e1, hb, hh, hran, hgr⟩ := atDestruction_ok (cfg := cfg) (exec_inv hA hc hs he).1
  have hlk : Like false s.trace s.trace s { s with space := 0 } :=
    ⟨rfl, rfl, ⟨[], rfl, rfl⟩, fun h => by cases h⟩
  obtain ⟨h2, s2, t2, new, e2, hlk2, wf2, hne2, _, _, hs2, ht2, hans, _⟩ :=
    hook_run (h := []) hA hc hs (LikeCfg.refl s.trace cfg) hlk (wf_empty hb hh rfl) (by simp) (ho s e1)
  refine ⟨h2, s2, ?_, ?_, ?_, ?_⟩
  · unfold destroyHook
    rw [e1, ok_bind, e2]
  · intro hsx
    have := (held_nil_of_blocks wf2).1 (hne2 (by simpa using hsx))
    rw [ht2] at this
    rw [hs2]
    exact this
  · rw [hs2, hans.ran, hran]
  · rw [hs2, hans.grants, hans.held, hh, hgr, List.append_nil]

/-! ### C114, the destruction hook -/

/-- C114, partial: when the calls of `on_arena_destruction` obtain no block, the destruction gives back every block and
runs every destructor owed; the calls meet no undefined behaviour in any case. Missing: a hook that does obtain a block
(`destruction_hook_violated`). -/
theorem destruction_hook_partial (hA : 8 ∣ A) (hc : GoodCfg cfg) (hs : Sane A cfg) (he : Exec cfg A h st)
    {calls : List Op} (ho : ∀ s, atDestruction cfg st = .ok s → Obeys cfg A [] s calls) :
    ∃ h2 st', destroyHook cfg st calls = .ok (h2, st') ∧
      ran st'.trace = ran st.trace ++ (pending h).map Pending.node ∧
      ((grants st'.trace).length = (grants st.trace).length → held st'.trace = []) := by
  obtain ⟨h2, st', e, _, h3, h4⟩ := destroyHook_ok hA hc hs he ho
  refine ⟨h2, st', e, h3, ?_⟩
  intro hg
  rw [hg] at h4
  exact List.eq_nil_of_length_eq_zero (by omega)

/-- C114 violated, for every arena: whenever a call of `on_arena_destruction` succeeds, a block stays allocated after
the destruction, and no destructor the hook registers is run: those run are the ones owed before. -/
theorem destruction_hook_violated (hA : 8 ∣ A) (hc : GoodCfg cfg) (hs : Sane A cfg) (he : Exec cfg A h st)
    {calls : List Op} (ho : ∀ s, atDestruction cfg st = .ok s → Obeys cfg A [] s calls) {h2 : Hist} {st' : St}
    (hd : destroyHook cfg st calls = .ok (h2, st')) (hx : ∃ x ∈ h2, succeeded x) :
    held st'.trace ≠ [] ∧ ran st'.trace = ran st.trace ++ (pending h).map Pending.node := by
  obtain ⟨h2', st2, e, h1, h3, _⟩ := destroyHook_ok hA hc hs he ho
  rw [hd] at e
  simp only [Except.ok.injEq, Prod.mk.injEq] at e
  obtain ⟨rfl, rfl⟩ := e
  exact ⟨h1 hx, h3⟩

/-! ### C114, the reset hook -/

theorem atReset_ok {pend : List Pending} {regs : List Region} (wf : WF A st regs pend) (hne : st.blocks ≠ []) :
    ∃ s l r, atReset cfg st = .ok s ∧ s.cookie = st.cookie ∧ s.blocks = [st.blocks.getLast hne] ∧ s.space = st.space ∧
      pend = l ++ r ∧ NodesOK s.blocks r ∧
      held s.trace = s.blocks.map Block.region ∧ ran s.trace = ran st.trace ++ l.map Pending.node ∧
      grants s.trace = grants st.trace := by
  have hsp := wf.space_lt
  rw [wf.space_eq] at hsp
  obtain ⟨evs, l, r, he, hp, hlast, ht, hev⟩ := freeBlocksExceptHead_ok (dbg := cfg.dbg) (rem := 0)
    (tr := st.trace) hne wf.ok wf.disj wf.nodes (by omega)
  have hb := wf.ok _ (List.getLast_mem hne)
  generalize hbl : st.blocks.getLast hne = b at *
  have hlast' := hlast
  obtain ⟨l2, r2, h1, h2, h3, h4⟩ := hlast'
  have hr2 : r2 = [] := h4
  subst hr2
  rw [List.append_nil] at h1
  subst h1
  have htd : Teardown [b.region] r ((r.map Pending.node).map Ev.cleanup) [b.region] := by
    have := Teardown.cleanups (hd := [b.region]) (rest := [b.region]) (l := r) (r := []) (evs := [])
      (by
        intro x hx len hl
        exact inside_within (bs := [b]) (by simpa using hb) (h3 x hx len hl))
      (.done _)
    simpa using this
  have ht := ht htd
  rw [← wf.held_eq] at ht
  refine ⟨{ st with blocks := [b], trace := .reset st.space (0 + unused st.blocks) st.cookie :: (evs.reverse ++ st.trace) },
    l, r, ?_, rfl, rfl, rfl, hp, hlast, ?_, ?_, ?_⟩
  · unfold atReset
    rw [he]; rfl
  · have := ht.held (tr := st.trace) rfl
    rw [List.reverse_append, List.append_assoc, ← List.map_reverse, held_cleanups] at this
    exact this
  · have := ht.ran st.trace
    rw [List.reverse_append, List.append_assoc, ← List.map_reverse, ran_cleanups, hp] at this
    rw [List.map_append, List.reverse_reverse, ← List.append_assoc] at this
    exact List.append_cancel_right this
  · have := (ht.quiet st.trace).2.2.1
    rw [List.reverse_append, List.append_assoc, ← List.map_reverse, grants_cleanups] at this
    exact this

/-- `Reset` with its hook. -/
theorem resetHook_ok (hA : 8 ∣ A) (hc : GoodCfg cfg) (hs : Sane A cfg) (he : Exec cfg A h st)
    (hok : ∃ x ∈ h, succeeded x) {calls : List Op} (ho : ∀ s, atReset cfg st = .ok s → Obeys cfg A [] s calls) :
    ∃ h2 n st' b rest l r ns m, resetHook cfg st calls = .ok (h2, n, st') ∧ st'.blocks = b :: rest ∧
      (∀ c ∈ st'.blocks, BlockOK A c) ∧ readNodes b.cells b.limit b.size = .ok [] ∧ b.pos = 32 ∧
      held st'.trace = st'.blocks.map Block.region ∧ st'.space = b.size ∧
      (grants st'.trace).length = (grants st.trace).length + rest.length ∧
      pending h = l ++ r ∧ (pending h2).map Pending.node ++ r.map Pending.node = ns ++ m ∧
      (rest = [] → m = []) ∧
      ran st'.trace = ran st.trace ++ l.map Pending.node ++ ns := by
  obtain ⟨wf, hne⟩ := exec_inv hA hc hs he
  have hne := hne hok
  obtain ⟨s, l, r, e1, hck, hbl, hsp, hp, hn, hh, hran, hgr⟩ := atReset_ok (cfg := cfg) wf hne
  have hb := wf.ok _ (List.getLast_mem hne)
  generalize st.blocks.getLast hne = b0 at *
  have hlk : Like false s.trace s.trace s { s with space := b0.size } :=
    ⟨rfl, rfl, ⟨[], rfl, rfl⟩, fun h => by cases h⟩
  have wf1 : WF A { s with space := b0.size } (live (ownHist (r.map Pending.node)))
      (pending (ownHist (r.map Pending.node))) := by
    rw [ownHist_live, ownHist_pending]
    refine ⟨?_, ?_, hh, ?_, ?_, by simp, by simp⟩
    · intro c hc
      have hc : c ∈ s.blocks := hc
      rw [hbl, List.mem_singleton] at hc
      exact hc ▸ hb
    · show s.blocks.Pairwise Apart
      rw [hbl]; simp
    · show b0.size = (s.blocks.map Block.size).sum
      rw [hbl]; simp
    · show NodesOK s.blocks _
      rw [hbl] at hn ⊢
      obtain ⟨l2, r2, h1, h2, h3, h4⟩ := hn
      have hr2 : r2 = [] := h4
      subst hr2
      rw [List.append_nil] at h1
      subst h1
      refine ⟨_, [], (List.append_nil _).symm, ?_, ?_, rfl⟩
      · rw [h2]
        simp
      · intro x hx y hy
        simp only [List.map_map, List.mem_map, Function.comp_apply] at hx
        obtain ⟨z, _, rfl⟩ := hx
        cases hy
  obtain ⟨h2, s2, t2, new, e2, hlk2, wf2, _, hbb, hck2, hs2, ht2, hans, hnr⟩ :=
    hook_run (h := ownHist (r.map Pending.node)) hA hc hs (LikeCfg.refl s.trace cfg) hlk wf1
      (fun _ => by show s.blocks ≠ []; rw [hbl]; simp)
      (obeys_congr (by rw [ownHist_live]; rfl) (ho s e1))
  have hbb := hbb (by show s.blocks ≠ []; rw [hbl]; simp)
  have hb2 := hlk2.blocks
  have hlen : t2.blocks.length = (held new).length + 1 := by
    have := congrArg List.length wf2.held_eq
    rw [ht2, hans.held] at this
    simp only [List.length_append, List.length_map] at this
    have h5 : (held s.trace).length = 1 := by rw [hh, hbl]; rfl
    show _ = _
    have h6 : held ({ s with space := b0.size } : St).trace = held s.trace := rfl
    rw [h6, h5] at this
    omega
  cases hbs : t2.blocks with
  | nil => exact absurd hbs hbb
  | cons b rest =>
    have hn2 := wf2.nodes
    rw [hbs] at hn2
    obtain ⟨l2, r2, hp2, hrd, _, hr⟩ := hn2
    have hpn := pending_nodes_append (ownHist (r.map Pending.node)) hnr
    rw [hp2, ownHist_pending] at hpn
    have hbok := wf2.ok b (by rw [hbs]; simp)
    have htr : held s2.trace = held t2.trace := by rw [hs2, ht2]
    have h7 := hbok.hdr; have h8 := hbok.pos_le; have h9 := hbok.limit_le
    refine ⟨h2, s2.space, ⟨rewind b :: rest, s2.cookie, b.size, emitCleanups s2.trace (l2.map Pending.node)⟩, rewind b, rest, l, r, l2.map Pending.node,
      r2.map Pending.node, ?_, rfl, ?_, readNodes_end _ _, rfl, ?_, rfl, ?_, hp, ?_, ?_, ?_⟩
    · unfold resetHook
      rw [e1, ok_bind, e2]
      simp only [ok_bind, hb2, hbs, Block.reset, Block.runCleanups, hrd, pure_eq_ok]
      rfl
    · intro c hc
      rcases List.mem_cons.1 hc with rfl | hc
      · exact ⟨hbok.aligned, hbok.base_pos, hbok.fits, Nat.le_refl _, by show 32 ≤ b.size; omega, Nat.le_refl _,
          by show 8 ∣ 32; decide, hbok.size8, by show 16 ∣ b.size - b.size; simp⟩
      · exact wf2.ok c (by rw [hbs]; simp [hc])
    · show held (emitCleanups s2.trace (l2.map Pending.node)) = _
      rw [emitCleanups_eq, ← List.map_reverse, held_cleanups, htr, wf2.held_eq, hbs]
      rfl
    · show (grants (emitCleanups s2.trace (l2.map Pending.node))).length = _
      rw [emitCleanups_eq, ← List.map_reverse, grants_cleanups, hs2, hans.grants, hgr]
      rw [hbs] at hlen
      simp only [List.length_cons] at hlen
      omega
    · rw [List.map_append] at hpn
      rw [hpn]
      simp
    · intro hrest
      subst hrest
      have : r2 = [] := hr
      rw [this]; rfl
    · show ran (emitCleanups s2.trace (l2.map Pending.node)) = _
      rw [emitCleanups_eq, ← List.map_reverse, ran_cleanups, hs2, hans.ran, hran]
      simp

/-- C114, partial: when the calls of `on_arena_reset` obtain no block, `Reset` runs exactly the destructors owed before
and those the hook registered, keeps one block, and leaves a usable arena with the right space counter, whose
destruction then gives everything back. Missing: a hook that obtains a block (`reset_hook_violated`). -/
theorem reset_hook_partial (hA : 8 ∣ A) (hc : GoodCfg cfg) (hs : Sane A cfg) (he : Exec cfg A h st)
    (hok : ∃ x ∈ h, succeeded x) {calls : List Op} (ho : ∀ s, atReset cfg st = .ok s → Obeys cfg A [] s calls) :
    ∃ h2 n st', resetHook cfg st calls = .ok (h2, n, st') ∧
      ((grants st'.trace).length = (grants st.trace).length →
        (ran st'.trace).Perm
          (ran st.trace ++ (pending h).map Pending.node ++ (pending h2).map Pending.node) ∧
        (held st'.trace).length = 1 ∧ st'.space = ((held st'.trace).map Region.len).sum ∧
        ∃ tr, destroy cfg st' = .ok tr ∧ held tr = [] ∧ ran tr = ran st'.trace) := by
  obtain ⟨h2, n, st', b, rest, l, r, ns, m, e, hb, hbo, hrd, hpos, hh, hsp, hgr, hp, hnm, hm, hran⟩ :=
    resetHook_ok hA hc hs he hok ho
  refine ⟨h2, n, st', e, ?_⟩
  intro hg
  have hrest : rest = [] := List.eq_nil_of_length_eq_zero (by omega)
  have hm2 := hm hrest
  subst hrest hm2
  rw [List.append_nil] at hnm
  refine ⟨?_, by rw [hh, hb]; rfl, by rw [hh, hb, hsp]; simp [Block.region], ?_⟩
  · rw [hran, hp, ← hnm, List.map_append]
    have : (ran st.trace ++ l.map Pending.node ++ ((pending h2).map Pending.node ++ r.map Pending.node)).Perm
        (ran st.trace ++ l.map Pending.node ++ (r.map Pending.node ++ (pending h2).map Pending.node)) :=
      List.Perm.append_left _ List.perm_append_comm
    simpa [List.append_assoc] using this
  · have wf : WF A st' [] [] := by
      refine ⟨hbo, by rw [hb]; simp, hh, by rw [hb, hsp]; simp, ?_, by simp, by simp⟩
      rw [hb]
      exact ⟨[], [], rfl, hrd, by simp, rfl⟩
    obtain ⟨tr, e2, h1, h3⟩ := destroy_all (cfg := cfg) wf
    exact ⟨tr, e2, h1, by simpa using h3⟩

/-- C114 violated, for every arena: whenever the calls of `on_arena_reset` obtain a block, `Reset` keeps more than one
block and the space counter is smaller than the memory held. -/
theorem reset_hook_violated (hA : 8 ∣ A) (hc : GoodCfg cfg) (hs : Sane A cfg) (he : Exec cfg A h st)
    (hok : ∃ x ∈ h, succeeded x) {calls : List Op} (ho : ∀ s, atReset cfg st = .ok s → Obeys cfg A [] s calls)
    {h2 : Hist} {n : Nat} {st' : St} (hr : resetHook cfg st calls = .ok (h2, n, st'))
    (hg : (grants st.trace).length < (grants st'.trace).length) :
    1 < (held st'.trace).length ∧ st'.space < ((held st'.trace).map Region.len).sum := by
  obtain ⟨h2', n', st2, b, rest, l, r, ns, m, e, hb, hbo, hrd, hpos, hh, hsp, hgr, hp, hnm, hm, hran⟩ :=
    resetHook_ok hA hc hs he hok ho
  rw [hr] at e
  simp only [Except.ok.injEq, Prod.mk.injEq] at e
  obtain ⟨rfl, rfl, rfl⟩ := e
  rw [hh, hb, hsp]
  cases rest with
  | nil => simp at hgr; omega
  | cons c rest =>
    have h7 := hbo c (by rw [hb]; simp)
    have := h7.hdr; have := h7.pos_le; have := h7.limit_le
    refine ⟨by simp, ?_⟩
    simp only [List.map_cons, List.sum_cons, Block.region]
    omega

/-! ### C114, the block hook -/

theorem newBlock_at (cfg : Cfg) (st : St) (n : Nat) :
    newBlock cfg st n = (atNewBlock cfg st n >>= fun x => match x.1 with
      | none => .ok (false, x.2)
      | some (z, p) => if z < kBlockHeaderSize then .error (.ub "block header written outside the block")
        else .ok (true, { x.2 with blocks := Block.mk' p z :: x.2.blocks, space := add64 x.2.space z })) := by
  unfold newBlock atNewBlock
  generalize (if n > M64 - 1 - kBlockHeaderSize then st.emit .log else st) = s
  simp only [bind_assoc]
  cases newBlockSize cfg n (!s.blocks.isEmpty) with
  | error e => rfl
  | ok z =>
    simp only [ok_bind]
    cases cfg.blockAlloc s.trace z with
    | none => rfl
    | some p => rfl

theorem atNewBlock_eq (hc : GoodCfg cfg) {m : Nat} (hm : m ≤ 2 ^ 62 + 8) :
    atNewBlock cfg st m = .ok (match cfg.blockAlloc st.trace (chosenSize cfg m (!st.blocks.isEmpty)) with
      | none => (none, st.emit (.blockAlloc (chosenSize cfg m (!st.blocks.isEmpty)) none))
      | some p => (some (chosenSize cfg m (!st.blocks.isEmpty), p),
          (st.emit (.blockAlloc (chosenSize cfg m (!st.blocks.isEmpty)) (some p))).emit
            (.newblock st.blocks.length (chosenSize cfg m (!st.blocks.isEmpty)) st.cookie))) := by
  unfold atNewBlock
  simp only [kBlockHeaderSize_eq]
  rw [if_neg (by show ¬ m > M64 - 1 - 32; have : M64 = 2 ^ 64 := rfl; omega), newBlockSize_ok hc hm]
  simp only [ok_bind]
  cases cfg.blockAlloc st.trace (chosenSize cfg m (!st.blocks.isEmpty)) with
  | none => rfl
  | some p => rfl

theorem finishAlloc_eq {bytes a : Nat} (hn : needCreateNewBlock cfg st (alignUpTo8 bytes) a = .ok false) :
    AllocateAligned cfg st bytes a = finishAlloc cfg st bytes a := by
  unfold AllocateAligned allocateAligned finishAlloc
  simp only [hn, ok_bind, Bool.false_eq_true, if_false, Bool.not_true]
  cases st.blocks with
  | nil => rfl
  | cons b rest =>
    simp only [bind_assoc]
    cases b.alloc cfg.dbg (alignUpTo8 bytes) a with
    | error e => rfl
    | ok x =>
      simp only [ok_bind]
      cases assertDbg cfg.dbg (decide (x.1 % 8 = 0)) "alloc result should aligned kByteSize" with
      | error e => rfl
      | ok u => rfl

/-- The arena after a new block was linked, the hook having obtained none. -/
theorem wf_linked {regs : List Region} {pend : List Pending} (hc : GoodCfg cfg) (hs : Sane A cfg)
    {t2 : St} (wf2 : WF A t2 regs pend) {m p : Nat} (h8 : 8 ∣ m)
    (hh : held t2.trace = held st.trace)
    (h : cfg.blockAlloc st.trace (chosenSize cfg m (!t2.blocks.isEmpty)) = some p) :
    WF A (afterNewBlock t2 p (chosenSize cfg m (!t2.blocks.isEmpty))) regs pend := by
  let cfg3 : Cfg := { cfg with blockAlloc := fun tr n =>
    if tr = t2.trace ∧ n = chosenSize cfg m (!t2.blocks.isEmpty) then some p else none }
  have key : ∀ tr n q, cfg3.blockAlloc tr n = some q →
      tr = t2.trace ∧ n = chosenSize cfg m (!t2.blocks.isEmpty) ∧ q = p := by
    intro tr n q h
    simp only [cfg3] at h
    split at h
    · rename_i hh
      exact ⟨hh.1, hh.2, (Option.some.inj h).symm⟩
    · cases h
  have hs3 : Sane A cfg3 := by
    constructor
    · intro tr n q h1
      obtain ⟨rfl, rfl, rfl⟩ := key _ _ _ h1
      exact hs.aligned _ _ _ h
    · intro tr n q h1
      obtain ⟨rfl, rfl, rfl⟩ := key _ _ _ h1
      exact hs.nonnull _ _ _ h
    · intro tr n q h1
      obtain ⟨rfl, rfl, rfl⟩ := key _ _ _ h1
      exact hs.fits _ _ _ h
    · intro tr n q h1 r hr
      obtain ⟨rfl, rfl, rfl⟩ := key _ _ _ h1
      rw [hh] at hr
      exact hs.fresh _ _ _ h r hr
  have hc3 : GoodCfg cfg3 := ⟨hc.normal_pos, hc.normal8, hc.huge8, hc.init8, hc.normal_le, hc.huge_le, hc.init_le⟩
  have hz : chosenSize cfg3 m (!t2.blocks.isEmpty) = chosenSize cfg m (!t2.blocks.isEmpty) := rfl
  have := afterNewBlock_wf (m := m) (p := p) hc3 hs3 wf2 h8 (by rw [hz]; simp [cfg3])
  rw [hz] at this
  exact this

/-- The request served from a block that was just made. -/
theorem finishAlloc_mk (hA : 8 ∣ A) {s : St} {p z b a : Nat} {rest : List Block} (hb : s.blocks = Block.mk' p z :: rest)
    (hok : BlockOK A (Block.mk' p z)) (ha : GoodAlign A a) (hn : b ≤ 2 ^ 62) (hz : round8 b + 32 ≤ z) :
    finishAlloc cfg s b a = .ok (some (p + 32),
      { s with blocks := { Block.mk' p z with pos := 32 + round8 b } :: rest }.emit (.allocated b s.cookie)) ∧
    Fits (Block.mk' p z) (round8 b) a := by
  obtain ⟨h8, h32, h8d, _⟩ := ha.bounds
  have hr : round8 b ≤ 2 ^ 62 + 8 := by unfold round8; omega
  have hAp : A ∣ p := hok.aligned
  obtain ⟨hpad, hfit⟩ := mk'_fits (size := z) (need := round8 b) ha hAp (by omega)
  have hal : (p + 32) % 8 = 0 := by
    have : 8 ∣ p := Nat.dvd_trans hA hAp
    omega
  have hall := alloc_ok (dbg := cfg.dbg) hok h8 h32 hr hfit
  have e1 : (Block.mk' p z).base = p := rfl
  have e2 : (Block.mk' p z).pos = 32 := by simp [Block.mk']
  rw [e1, e2, hpad] at hall
  simp only [Nat.add_zero] at hall
  refine ⟨?_, hfit⟩
  unfold finishAlloc
  rw [hb]
  simp only [alignUpTo8_round8 hn, hall, ok_bind, hal]
  simp [e1]

/-- `AllocateAligned` with a block hook: either the hook does not run, or it does and leaves the state described. -/
theorem allocateHook_ok (hA : 8 ∣ A) (hc : GoodCfg cfg) (hs : Sane A cfg) (he : Exec cfg A h st) {b a : Nat}
    (hop : Contract A h (.allocate b a)) {calls : List Op}
    (ho : ∀ z p s, atNewBlock cfg st (round8 b) = .ok (some (z, p), s) → Obeys cfg A h s calls) :
    (∃ r st', allocateHook cfg st b a calls = .ok ([], r, st') ∧ AllocateAligned cfg st b a = .ok (r, st') ∧
      grants st'.trace = grants st.trace) ∨
    ∃ h2 s2 t2 new p z st', allocateHook cfg st b a calls = .ok (h2, some (p + 32), st') ∧
      run cfg ((st.emit (.blockAlloc z (some p))).emit (.newblock st.blocks.length z st.cookie)) calls = .ok (h2, s2) ∧
      z = chosenSize cfg (round8 b) (!st.blocks.isEmpty) ∧ cfg.blockAlloc st.trace z = some p ∧
      Like true (.newblock st.blocks.length z st.cookie :: .blockAlloc z (some p) :: st.trace) st.trace s2 t2 ∧
      WF A t2 (live (h ++ h2)) (pending (h ++ h2)) ∧ ((∃ x ∈ h ++ h2, succeeded x) → t2.blocks ≠ []) ∧
      s2.trace = new ++ .newblock st.blocks.length z st.cookie :: .blockAlloc z (some p) :: st.trace ∧
      t2.trace = new ++ st.trace ∧
      Answered (shift (.newblock st.blocks.length z st.cookie :: .blockAlloc z (some p) :: st.trace) st.trace cfg)
        st.trace new ∧
      (∀ x ∈ h2, x.1 ≠ .reset) ∧
      finishAlloc cfg ⟨Block.mk' p z :: s2.blocks.drop (s2.blocks.length - st.blocks.length), s2.cookie,
        add64 s2.space z, s2.trace⟩ b a = .ok (some (p + 32), st') ∧
      st'.blocks.map Block.base = p :: (s2.blocks.drop (s2.blocks.length - st.blocks.length)).map Block.base ∧
      st'.trace = .allocated b s2.cookie :: s2.trace := by
  obtain ⟨wf, hne⟩ := exec_inv hA hc hs he
  have hn : b ≤ 2 ^ 62 := hop.1
  have ha : GoodAlign A a := hop.2
  have hr : round8 b ≤ 2 ^ 62 + 8 := by unfold round8; omega
  have h8 : 8 ∣ round8 b := Nat.dvd_mul_left 8 _
  obtain ⟨r0, st0, ok0⟩ := step_ok hA hc hs wf hne hop
  have ok3 := ok0.eq
  simp only [step] at ok3
  obtain ⟨⟨r1, st1⟩, ok1, ok2⟩ := bind_eq_ok.1 ok3
  clear ok3
  simp only [pure_eq_ok, Except.ok.injEq, Prod.mk.injEq] at ok2
  obtain ⟨rfl, rfl⟩ := ok2
  cases hneed : needCreateNewBlock cfg st (alignUpTo8 b) a with
  | error e =>
    unfold AllocateAligned allocateAligned at ok1
    simp only [hneed] at ok1
    cases ok1
  | ok need =>
    cases need with
    | false =>
      left
      refine ⟨r1, st1, ?_, ok1, ?_⟩
      · unfold allocateHook
        rw [finishAlloc_eq hneed] at ok1
        simp only [hneed, ok_bind, Bool.false_eq_true, if_false, Bool.not_true, ok1, pure_eq_ok]
      · rw [finishAlloc_eq hneed] at ok1
        unfold finishAlloc at ok1
        split at ok1
        · cases ok1
        · obtain ⟨⟨q, b'⟩, _, ok1⟩ := bind_eq_ok.1 ok1
          obtain ⟨_, _, ok1⟩ := bind_eq_ok.1 ok1
          simp only [pure_eq_ok, Except.ok.injEq, Prod.mk.injEq] at ok1
          rw [← ok1.2]
          rfl
    | true =>
      have hat := atNewBlock_eq (st := st) hc hr
      cases hm : cfg.blockAlloc st.trace (chosenSize cfg (round8 b) (!st.blocks.isEmpty)) with
      | none =>
        left
        rw [hm] at hat
        have hnb := newBlock_at cfg st (round8 b)
        rw [hat] at hnb
        simp only [ok_bind] at hnb
        refine ⟨none, st.emit (.blockAlloc (chosenSize cfg (round8 b) (!st.blocks.isEmpty)) none), ?_, ?_, rfl⟩
        · unfold allocateHook newBlockHook
          rw [alignUpTo8_round8 hn] at hneed ⊢
          simp only [hneed, hat, ok_bind, if_true, Bool.not_false, pure_eq_ok]
        · unfold AllocateAligned allocateAligned
          rw [alignUpTo8_round8 hn] at hneed ⊢
          simp only [hneed, hnb, ok_bind, if_true, Bool.not_false, pure_eq_ok]
      | some p =>
        right
        rw [hm] at hat
        simp only at hat
        have hwf := afterNewBlock_wf hc hs wf h8 hm
        have hge := chosenSize_ge cfg (round8 b) (!st.blocks.isEmpty)
        generalize hz : chosenSize cfg (round8 b) (!st.blocks.isEmpty) = z at *
        have hbk : BlockOK A (Block.mk' p z) := hwf.ok _ (by simp [afterNewBlock])
        have ho := ho z p _ hat
        have hlk : Like true (.newblock st.blocks.length z st.cookie :: .blockAlloc z (some p) :: st.trace) st.trace
            ((st.emit (.blockAlloc z (some p))).emit (.newblock st.blocks.length z st.cookie)) st :=
          ⟨rfl, rfl, ⟨[], rfl, rfl⟩, fun _ => rfl⟩
        obtain ⟨h2, s2, t2, new, e2, hlk2, wf2, hne2, hbb, hck2, hs2, ht2, hans, hnr⟩ :=
          hook_run hA (shift_good hc) (shift_sane hs (T := .newblock st.blocks.length z st.cookie ::
            .blockAlloc z (some p) :: st.trace) (U := st.trace) (fun r hr => List.mem_cons_of_mem _ hr))
            (shift_like _ _ cfg) hlk wf hne ho
        have hfin := (finishAlloc_mk (cfg := cfg) (b := b) (a := a) (p := p) (z := z) hA (s := ⟨Block.mk' p z ::
          s2.blocks.drop (s2.blocks.length - st.blocks.length), s2.cookie, add64 s2.space z, s2.trace⟩) rfl hbk ha hn hge).1
        refine ⟨h2, s2, t2, new, p, z, _, ?_, e2, rfl, hm, hlk2, wf2, hne2, hs2, ht2, hans, hnr, hfin, rfl, rfl⟩
        unfold allocateHook newBlockHook
        rw [alignUpTo8_round8 hn] at hneed ⊢
        simp only [hneed, hat, ok_bind, if_true, e2, pure_eq_ok]
        rw [if_neg (by simp only [kBlockHeaderSize_eq]; omega)]
        simp only [ok_bind, Bool.not_true, Bool.false_eq_true, if_false]
        have hsb : ((st.emit (.blockAlloc z (some p))).emit (.newblock st.blocks.length z st.cookie)).blocks = st.blocks := rfl
        rw [hsb, hfin]
        rfl

theorem atNewBlock_grants {p z : Nat} {tr : List Ev} {n : Nat} {c : Option Nat} :
    (grants (.newblock n z c :: .blockAlloc z (some p) :: tr)).length = (grants tr).length + 1 := rfl

/-- C114, partial: when the calls of `on_arena_newblock` obtain no block themselves, the request that needed the block
is served as if the calls had been made before it: the result is aligned and apart from everything handed out,
including what the hook got, and the destruction of the arena gives every block back and runs every destructor, those the
hook registered included. Missing: a hook that obtains a block (`newblock_hook_violated`). -/
theorem newblock_hook_partial (hA : 8 ∣ A) (hc : GoodCfg cfg) (hs : Sane A cfg) (he : Exec cfg A h st) {b a : Nat}
    (hop : Contract A h (.allocate b a)) {calls : List Op}
    (ho : ∀ z p s, atNewBlock cfg st (round8 b) = .ok (some (z, p), s) → Obeys cfg A h s calls) :
    ∃ h2 r st', allocateHook cfg st b a calls = .ok (h2, r, st') ∧
      ((grants st'.trace).length ≤ (grants st.trace).length + 1 →
        (∀ p, r = some p → a ∣ p ∧ ∀ x ∈ live (h ++ h2), Region.Disjoint ⟨p, b⟩ x) ∧
        ∃ tr, destroy cfg st' = .ok tr ∧ held tr = [] ∧
          ran tr = ran st.trace ++ (pending (h ++ h2)).map Pending.node) := by
  obtain ⟨wf, hne⟩ := exec_inv hA hc hs he
  have hn : b ≤ 2 ^ 62 := hop.1
  have hr : round8 b ≤ 2 ^ 62 + 8 := by unfold round8; omega
  have h8 : 8 ∣ round8 b := Nat.dvd_mul_left 8 _
  obtain ⟨hb8, hb32, _, _⟩ := hop.2.bounds
  have fin : ∀ {s : St} {h' : Hist} {r : Option Nat} {st' : St}, WF A s (live h') (pending h') →
      ((∃ x ∈ h', succeeded x) → s.blocks ≠ []) → ran s.trace = ran st.trace →
      AllocateAligned cfg s b a = .ok (r, st') →
      (∀ p, r = some p → a ∣ p ∧ ∀ x ∈ live h', Region.Disjoint ⟨p, b⟩ x) ∧
        ∃ tr, destroy cfg st' = .ok tr ∧ held tr = [] ∧ ran tr = ran st.trace ++ (pending h').map Pending.node := by
    intro s h' r st' wf hne hran heq
    obtain ⟨r0, st0, ok0⟩ := step_ok hA hc hs wf hne (op := .allocate b a) hop
    have e0 := ok0.eq
    simp only [step, heq, ok_bind, pure_eq_ok, Except.ok.injEq, Prod.mk.injEq] at e0
    obtain ⟨rfl, rfl⟩ := e0
    have wf' := ok0.wf
    rw [live_append, pending_append, if_neg (by simp), if_neg (by simp)] at wf'
    constructor
    · rintro p rfl
      refine ⟨ok0.al, ?_⟩
      intro x hx y hy
      have hd := wf'.regs_disj
      simp only [regionsOf, List.singleton_append, List.pairwise_cons] at hd
      have := hd.1 x hx
      obtain ⟨⟨y1, y2⟩, y3, y4⟩ := hy
      simp only at y1 y2 this
      omega
    · obtain ⟨tr, e2, h1, h3⟩ := destroy_all (cfg := cfg) wf'
      refine ⟨tr, e2, h1, ?_⟩
      obtain ⟨tr', hg, htr⟩ := ok0.grow (by simp)
      have hr1 : ran st'.trace = ran s.trace := by
        rw [htr, ← hg.hooks.2.2.1]
        cases hookOf (.allocate b a, .ptr r) with
        | none => rfl
        | some n => simp [ran]
      rw [h3, hr1, hran, List.map_append]
      rfl
  rcases allocateHook_ok hA hc hs he hop ho with ⟨r, st', e1, e2, _⟩ |
    ⟨h2, s2, t2, new, p, z, st', e1, e2, hz, hp, hlk, wf2, hne2, hs2, ht2, hans, hnr, hfin, hbase, htr⟩
  · refine ⟨[], r, st', e1, fun _ => ?_⟩
    rw [List.append_nil]
    exact fin wf hne rfl e2
  · refine ⟨h2, _, st', e1, fun hg => ?_⟩
    have hnew : held new = [] := by
      have h1 : grants st'.trace = grants s2.trace := by rw [htr]; rfl
      rw [h1, hs2, hans.grants, atNewBlock_grants] at hg
      exact List.eq_nil_of_length_eq_zero (by omega)
    have hh : held t2.trace = held st.trace := by rw [ht2, hans.held, hnew]; rfl
    have hlen : t2.blocks.length = st.blocks.length := by
      have h1 := wf2.held_eq
      rw [hh, wf.held_eq] at h1
      have := congrArg List.length h1
      simpa using this.symm
    have hem : t2.blocks.isEmpty = st.blocks.isEmpty := by
      cases h1 : t2.blocks <;> cases h2 : st.blocks <;> simp [h1, h2] at hlen ⊢
    have hdrop : s2.blocks.drop (s2.blocks.length - st.blocks.length) = t2.blocks := by
      rw [hlk.blocks, hlen, Nat.sub_self]; rfl
    rw [hdrop] at hfin
    have hz' : z = chosenSize cfg (round8 b) (!t2.blocks.isEmpty) := by rw [hem]; exact hz
    have wf3 := wf_linked (st := st) (m := round8 b) (p := p) hc hs wf2 h8 hh (by rw [← hz']; exact hp)
    rw [← hz'] at wf3
    have hsp3 := wf3.space_lt
    have wf4 : WF A ⟨Block.mk' p z :: t2.blocks, s2.cookie, add64 s2.space z, s2.trace⟩ (live (h ++ h2))
        (pending (h ++ h2)) := by
      refine ⟨wf3.ok, wf3.disj, ?_, ?_, wf3.nodes, wf3.regs_in, wf3.regs_disj⟩
      · have h1 := wf3.held_eq
        rw [← show _ = held (afterNewBlock t2 p z).trace from rfl] at h1
        show held s2.trace = _
        rw [hs2, hans.held, hnew]
        have h5 : held (afterNewBlock t2 p z).trace = ⟨p, z⟩ :: held t2.trace := rfl
        rw [h5, hh] at h1
        exact h1
      · show add64 s2.space z = _
        rw [hlk.space rfl, add64_of_lt (by
          have : (afterNewBlock t2 p z).space = t2.space + z := rfl
          rw [this] at hsp3
          have : M64 = 2 ^ 64 := rfl
          omega)]
        exact wf3.space_eq
    have hge := chosenSize_ge cfg (round8 b) (!st.blocks.isEmpty)
    rw [← hz] at hge
    have hfit := (finishAlloc_mk (cfg := cfg) (b := b) (a := a) (p := p) (z := z) hA
      (s := ⟨Block.mk' p z :: t2.blocks, s2.cookie, add64 s2.space z, s2.trace⟩) rfl
      (wf4.ok _ (by simp)) hop.2 hn hge).2
    have hneed := needCreate_cons (cfg := cfg) wf4 rfl hb8 hb32 hr
    rw [decide_eq_true hfit] at hneed
    rw [← alignUpTo8_round8 hn] at hneed
    rw [← finishAlloc_eq hneed] at hfin
    refine fin wf4 (by simp) ?_ hfin
    show ran s2.trace = _
    rw [hs2, hans.ran]
    simp [ran]

theorem freeAllBlocks_keeps {dbg : Bool} {bs : List Block} {rem w : Nat} {tr tr' : List Ev}
    (h : freeAllBlocks dbg bs rem tr = .ok (w, tr')) :
    ∀ r ∈ held tr, (∀ b ∈ bs, r.start ≠ b.base) → r ∈ held tr' := by
  induction bs generalizing rem tr with
  | nil =>
    simp only [freeAllBlocks, Except.ok.injEq, Prod.mk.injEq] at h
    obtain ⟨_, rfl⟩ := h
    exact fun r hr _ => hr
  | cons b bs ih =>
    unfold freeAllBlocks at h
    obtain ⟨x, _, h⟩ := bind_eq_ok.1 h
    obtain ⟨ns, _, h⟩ := bind_eq_ok.1 h
    intro r hr hb
    refine ih h r ?_ (fun c hc => hb c (by simp [hc]))
    simp only [held, List.mem_filter]
    refine ⟨?_, by simpa using hb b (by simp)⟩
    rw [emitCleanups_eq, ← List.map_reverse, held_cleanups]
    exact hr

/-- C114 violated, for every arena: whenever the calls of `on_arena_newblock` obtain a block themselves, that block
stays allocated after the arena is destroyed. -/
theorem newblock_hook_violated (hA : 8 ∣ A) (hc : GoodCfg cfg) (hs : Sane A cfg) (he : Exec cfg A h st) {b a : Nat}
    (hop : Contract A h (.allocate b a)) {calls : List Op}
    (ho : ∀ z p s, atNewBlock cfg st (round8 b) = .ok (some (z, p), s) → Obeys cfg A h s calls) {h2 : Hist}
    {r : Option Nat} {st' : St} (hh : allocateHook cfg st b a calls = .ok (h2, r, st'))
    (hg : (grants st.trace).length + 1 < (grants st'.trace).length) {tr : List Ev} (hd : destroy cfg st' = .ok tr) :
    held tr ≠ [] := by
  obtain ⟨wf, hne⟩ := exec_inv hA hc hs he
  rcases allocateHook_ok hA hc hs he hop ho with ⟨r', st2, e1, e2, e3⟩ |
    ⟨h2', s2, t2, new, p, z, st2, e1, e2, hz, hp, hlk, wf2, hne2, hs2, ht2, hans, hnr, hfin, hbase, htr⟩
  · rw [hh] at e1
    simp only [Except.ok.injEq, Prod.mk.injEq] at e1
    obtain ⟨rfl, rfl, rfl⟩ := e1
    rw [e3] at hg
    omega
  · rw [hh] at e1
    simp only [Except.ok.injEq, Prod.mk.injEq] at e1
    obtain ⟨rfl, rfl, rfl⟩ := e1
    have h1 : grants st'.trace = grants s2.trace := by rw [htr]; rfl
    rw [h1, hs2, hans.grants, atNewBlock_grants] at hg
    cases hnew : held new with
    | nil => rw [hnew] at hg; simp at hg
    | cons g gs =>
      have hge := chosenSize_ge cfg (round8 b) (!st.blocks.isEmpty)
      rw [← hz] at hge
      obtain ⟨hg32, hfr⟩ := hans.fresh (shift_like _ _ cfg) hs g (by rw [hnew]; simp)
      have hst : ∀ k : Region, k ∈ held (.newblock st.blocks.length z st.cookie :: .blockAlloc z (some p) :: st.trace) →
          0 < k.len → g.start ≠ k.start := by
        intro k hk hkl heq
        refine hfr k hk g.start ?_
        refine ⟨⟨Nat.le_refl _, by omega⟩, ?_, ?_⟩ <;> omega
      have hdrop : (s2.blocks.drop (s2.blocks.length - st.blocks.length)).map Block.region = st.blocks.map Block.region := by
        have h1 := wf2.held_eq
        rw [ht2, hans.held, wf.held_eq] at h1
        have h3 : t2.blocks.length = (held new).length + st.blocks.length := by
          have := congrArg List.length h1
          simpa using this.symm
        rw [hlk.blocks, List.map_drop, ← h1, h3, Nat.add_sub_cancel]
        simp
      have hin : g ∈ held st'.trace := by
        rw [htr]
        show g ∈ held s2.trace
        rw [hs2, hans.held, hnew]
        simp
      unfold destroy at hd
      obtain ⟨⟨w, tr1⟩, hf, hd⟩ := bind_eq_ok.1 hd
      simp only [pure_eq_ok, Except.ok.injEq] at hd
      have := freeAllBlocks_keeps hf g hin (by
        intro c hc heq
        have hcb : c.base ∈ st'.blocks.map Block.base := List.mem_map_of_mem hc
        rw [hbase] at hcb
        rcases List.mem_cons.1 hcb with hcb | hcb
        · exact hst ⟨p, z⟩ (by simp [held]) (by show 0 < z; omega) (by rw [heq, hcb])
        · obtain ⟨d, hd1, hd2⟩ := List.mem_map.1 hcb
          have hd3 : d.region ∈ st.blocks.map Block.region := by
            rw [← hdrop]; exact List.mem_map_of_mem hd1
          have hd4 := hd3
          rw [← wf.held_eq] at hd4
          obtain ⟨d', hd5, hd6⟩ := List.mem_map.1 hd3
          have hok := wf.ok d' hd5
          have := hok.hdr; have := hok.pos_le; have := hok.limit_le
          refine hst d.region ?_ ?_ ?_
          · simp only [held]
            exact List.mem_cons_of_mem _ hd4
          · rw [← hd6]; show 0 < d'.size; omega
          · rw [heq, ← hd2]; rfl)
      rw [← hd]
      show held tr1 ≠ []
      exact List.ne_nil_of_mem this

/-! ### C114, the init hook -/

/-- C114: calls of `on_arena_init` are like the first calls after the construction: with the calls made later, the
destruction gives everything back and runs every destructor registered. -/
theorem init_hook (hA : 8 ∣ A) (hc : GoodCfg cfg) (hs : Sane A cfg) (cookie : Option Nat) {calls later : List Op}
    (ho : Obeys cfg A [] (mkArena none) calls)
    (ho2 : ∀ h1 st1, initHook cfg cookie calls = .ok (h1, st1) → Obeys cfg A h1 st1 later) :
    ∃ h1 st1 h2 st2 tr, initHook cfg cookie calls = .ok (h1, st1) ∧ run cfg st1 later = .ok (h2, st2) ∧
      st2.cookie = cookie ∧ st2.space = ((held st2.trace).map Region.len).sum ∧
      destroy cfg st2 = .ok tr ∧ held tr = [] ∧ ran tr = (pending (h1 ++ h2)).map Pending.node := by
  have hlk0 : Like true [.init] [.init] (mkArena none) (mkArena none) := ⟨rfl, rfl, ⟨[], rfl, rfl⟩, fun _ => rfl⟩
  obtain ⟨h1, s1, t1, new1, e1, hlk1, wf1, hne1, _, _, hs1, ht1, hans1, _⟩ :=
    hook_run (h := []) hA hc hs (LikeCfg.refl [.init] cfg) hlk0 (wf_empty rfl rfl rfl) (by simp) ho
  have ei : initHook cfg cookie calls = .ok (h1, { s1 with cookie := cookie }) := by
    unfold initHook
    rw [e1]; rfl
  obtain ⟨w1, w2, w3, w4, w5, w6, w7⟩ := wf1
  have hsp := hlk1.space rfl
  have htt : s1.trace = t1.trace := by rw [hs1, ht1]
  have wf1' : WF A { s1 with cookie := cookie } (live h1) (pending h1) := by
    refine ⟨?_, ?_, ?_, ?_, ?_, ?_, ?_⟩
    · show ∀ b ∈ s1.blocks, _
      rw [hlk1.blocks]; exact w1
    · show s1.blocks.Pairwise Apart
      rw [hlk1.blocks]; exact w2
    · show held s1.trace = s1.blocks.map _
      rw [hlk1.blocks, htt]; exact w3
    · show s1.space = (s1.blocks.map _).sum
      rw [hlk1.blocks, hsp]; exact w4
    · show NodesOK s1.blocks _
      rw [hlk1.blocks]; exact w5
    · show ∀ r ∈ _, ∃ b ∈ s1.blocks, _
      rw [hlk1.blocks]; exact w6
    · exact w7
  have hlk2 : Like true s1.trace s1.trace ({ s1 with cookie := cookie } : St) { s1 with cookie := cookie } :=
    ⟨rfl, rfl, ⟨[], rfl, rfl⟩, fun _ => rfl⟩
  obtain ⟨h2, s2, t2, new2, e2, hlk3, wf2, _, _, hck, hs2, ht2, hans2, _⟩ :=
    hook_run hA hc hs (LikeCfg.refl s1.trace cfg) hlk2 wf1'
      (fun hx => by show s1.blocks ≠ []; rw [hlk1.blocks]; exact hne1 hx) (ho2 _ _ ei)
  have ht : t2 = s2 := by
    have b1 := hlk3.blocks; have b2 := hlk3.cookie; have b3 := hlk3.space rfl
    have b4 : s2.trace = t2.trace := by rw [hs2, ht2]
    cases t2; cases s2
    simp only at b1 b2 b3 b4
    rw [b1, b2, b3, b4]
  subst ht
  obtain ⟨tr, e3, h3, h4⟩ := destroy_all (cfg := cfg) wf2
  refine ⟨h1, _, h2, t2, tr, ei, e2, hck, ?_, e3, h3, ?_⟩
  · rw [wf2.space_eq, wf2.held_eq, List.map_map]
    rfl
  · have h5 : ran s1.trace = [] := by rw [hs1, hans1.ran]; rfl
    rw [h4, hs2, hans2.ran]
    show ran s1.trace ++ _ = _
    rw [h5]; rfl

/-! ### Concrete cases -/

/-- The calls of a hook are in their contracts and what it leaves satisfies `Q`. -/
def hookCase {α : Type} (cfg : Cfg) (A : Nat) (h : Hist) (s : Except Fault St) (calls : List Op)
    (x : Except Fault (List (Op × Ret) × α)) (Q : List (Op × Ret) → α → Bool) : Bool :=
  (match s with
    | .ok s => decide (Obeys cfg A h s calls)
    | .error _ => false) &&
  (match x with
    | .ok (h2, y) => Q h2 y
    | .error _ => false)

theorem hookCase_iff {α : Type} {s : Except Fault St} {calls : List Op}
    {x : Except Fault (List (Op × Ret) × α)} {Q : List (Op × Ret) → α → Bool} (hc : hookCase cfg A h s calls x Q = true) :
    (∀ s', s = .ok s' → Obeys cfg A h s' calls) ∧ ∃ h2 y, x = .ok (h2, y) ∧ Q h2 y = true := by
  unfold hookCase at hc
  cases s with
  | error e => simp at hc
  | ok s =>
    cases x with
    | error e => simp at hc
    | ok x =>
      simp only [Bool.and_eq_true, decide_eq_true_eq] at hc
      refine ⟨?_, x.1, x.2, rfl, hc.2⟩
      intro s' hs'
      cases hs'
      exact hc.1

/-- An arena with an object with a destructor in its first block and another in its second. -/
def hookOps : List Op := [.create 24 (some 1), .allocate 5000 8, .create 8 (some 2)]

/-- Its history. -/
def hookHist : Hist :=
  [(.create 24 (some 1), .ptr (some 64)), (.allocate 5000 8, .ptr (some 4192)), (.create 8 (some 2), .ptr (some 9192))]

theorem hook_such {P : St → Bool}
    (hr : (tryRun (exCfg true 32 []) 32 [] (mkArena none) hookOps).map (fun x => (x.1, P x.2)) = some (hookHist, true)) :
    ∃ st, Exec (exCfg true 32 []) 32 hookHist st ∧ P st = true := by
  refine exec_such (cookie := none) (ops := hookOps) ?_
  simpa using hr

/-- C114 violated: both destructors are run and both blocks given back, but the block got by the destruction hook is not, and the
destructor it registered is not run. -/
theorem destruction_hook_lost_violated : ∃ st h2 st', Exec (exCfg true 32 []) 32 hookHist st ∧
    (∀ s, atDestruction (exCfg true 32 []) st = .ok s → Obeys (exCfg true 32 []) 32 [] s [.create 8 (some 9)]) ∧
    destroyHook (exCfg true 32 []) st [.create 8 (some 9)] = .ok (h2, st') ∧ (∃ x ∈ h2, succeeded x) ∧
    held st'.trace = [⟨12384, 4096⟩] ∧ pending h2 = [⟨⟨12416, 9⟩, [⟨12416, 8⟩]⟩] ∧
    ran st'.trace = [⟨9192, 2⟩, ⟨64, 1⟩] := by
  obtain ⟨st, he, hp⟩ := hook_such (P := fun st => hookCase (exCfg true 32 []) 32 [] (atDestruction (exCfg true 32 []) st)
    [.create 8 (some 9)] (destroyHook (exCfg true 32 []) st [.create 8 (some 9)])
    (fun h2 s => decide ((∃ x ∈ h2, succeeded x) ∧ held s.trace = [⟨12384, 4096⟩] ∧
      pending h2 = [⟨⟨12416, 9⟩, [⟨12416, 8⟩]⟩] ∧ ran s.trace = [⟨9192, 2⟩, ⟨64, 1⟩]))) (by decide +kernel)
  obtain ⟨ho, h2, st', e, hq⟩ := hookCase_iff hp
  exact ⟨st, h2, st', he, ho, e, by simpa using hq⟩

/-- A destruction hook that makes a call needing no memory. -/
example : ∃ st h2 st', Exec (exCfg true 32 []) 32 hookHist st ∧
    (∀ s, atDestruction (exCfg true 32 []) st = .ok s → Obeys (exCfg true 32 []) 32 [] s [.pmrDeallocate 64 8 8]) ∧
    destroyHook (exCfg true 32 []) st [.pmrDeallocate 64 8 8] = .ok (h2, st') ∧
    (grants st'.trace).length = (grants st.trace).length ∧ ran st'.trace = [⟨9192, 2⟩, ⟨64, 1⟩] := by
  obtain ⟨st, he, hp⟩ := hook_such (P := fun st => hookCase (exCfg true 32 []) 32 [] (atDestruction (exCfg true 32 []) st)
    [.pmrDeallocate 64 8 8] (destroyHook (exCfg true 32 []) st [.pmrDeallocate 64 8 8])
    (fun h2 s => decide ((grants s.trace).length = (grants st.trace).length ∧ ran s.trace = [⟨9192, 2⟩, ⟨64, 1⟩])))
    (by decide +kernel)
  obtain ⟨ho, h2, st', e, hq⟩ := hookCase_iff hp
  exact ⟨st, h2, st', he, ho, e, by simpa using hq⟩

/-- C114 violated: a reset hook creates an object, which goes into the first block, and then needs a new block: `Reset`
rewinds the new block, runs neither the destructor of the object in the first block nor that of the object of the hook,
and says 8192 bytes are allocated while it holds 12288. -/
theorem reset_hook_lost_violated : ∃ st h2 n st', Exec (exCfg true 32 []) 32 hookHist st ∧
    (∀ s, atReset (exCfg true 32 []) st = .ok s →
      Obeys (exCfg true 32 []) 32 [] s [.create 8 (some 9), .allocate 5000 8]) ∧
    resetHook (exCfg true 32 []) st [.create 8 (some 9), .allocate 5000 8] = .ok (h2, n, st') ∧
    (grants st.trace).length < (grants st'.trace).length ∧
    ran st'.trace = [⟨9192, 2⟩] ∧ held st'.trace = [⟨12384, 8192⟩, ⟨32, 4096⟩] ∧ st'.space = 8192 := by
  obtain ⟨st, he, hp⟩ := hook_such (P := fun st => hookCase (exCfg true 32 []) 32 [] (atReset (exCfg true 32 []) st)
    [.create 8 (some 9), .allocate 5000 8] (resetHook (exCfg true 32 []) st [.create 8 (some 9), .allocate 5000 8])
    (fun h2 s => decide ((grants st.trace).length < (grants s.2.trace).length ∧
      ran s.2.trace = [⟨9192, 2⟩] ∧ held s.2.trace = [⟨12384, 8192⟩, ⟨32, 4096⟩] ∧ s.2.space = 8192))) (by decide +kernel)
  obtain ⟨ho, h2, ⟨n, st'⟩, e, hq⟩ := hookCase_iff hp
  exact ⟨st, h2, n, st', he, ho, e, by simpa using hq⟩

/-- A reset hook whose object fits into the first block. -/
example : ∃ st h2 n st', Exec (exCfg true 32 []) 32 hookHist st ∧ (∃ x ∈ hookHist, succeeded x) ∧
    (∀ s, atReset (exCfg true 32 []) st = .ok s → Obeys (exCfg true 32 []) 32 [] s [.create 8 (some 9)]) ∧
    resetHook (exCfg true 32 []) st [.create 8 (some 9)] = .ok (h2, n, st') ∧
    (grants st'.trace).length = (grants st.trace).length ∧
    ran st'.trace = [⟨9192, 2⟩, ⟨88, 9⟩, ⟨64, 1⟩] ∧ st'.space = 4096 := by
  obtain ⟨st, he, hp⟩ := hook_such (P := fun st => hookCase (exCfg true 32 []) 32 [] (atReset (exCfg true 32 []) st)
    [.create 8 (some 9)] (resetHook (exCfg true 32 []) st [.create 8 (some 9)])
    (fun h2 s => decide ((grants s.2.trace).length = (grants st.trace).length ∧
      ran s.2.trace = [⟨9192, 2⟩, ⟨88, 9⟩, ⟨64, 1⟩] ∧ s.2.space = 4096))) (by decide +kernel)
  obtain ⟨ho, h2, ⟨n, st'⟩, e, hq⟩ := hookCase_iff hp
  exact ⟨st, h2, n, st', he, by decide, ho, e, by simpa using hq⟩

/-- The state in which the block hook runs. -/
def hookState (x : Except Fault (Option (Nat × Nat) × St)) : Except Fault St := x.map Prod.snd

theorem hookState_obeys {x : Except Fault (Option (Nat × Nat) × St)} {calls : List Op}
    (ho : ∀ s, hookState x = .ok s → Obeys cfg A h s calls) (z p : Nat) (s : St) (hx : x = .ok (some (z, p), s)) :
    Obeys cfg A h s calls := by
  subst hx
  exact ho s rfl

/-- C114 violated: the block hook asks for memory that needs another block, with a destructor: that block is lost, so
the destruction of the arena gives back two blocks of three and does not run the destructor. -/
theorem newblock_hook_lost_violated : ∃ st h2 r st' tr, Exec (exCfg true 32 []) 32 hookHist st ∧
    Contract 32 hookHist (.allocate 9000 8) ∧
    (∀ z p s, atNewBlock (exCfg true 32 []) st (round8 9000) = .ok (some (z, p), s) →
      Obeys (exCfg true 32 []) 32 hookHist s [.allocateCleanup 5000 9 none]) ∧
    allocateHook (exCfg true 32 []) st 9000 8 [.allocateCleanup 5000 9 none] = .ok (h2, r, st') ∧
    (grants st.trace).length + 1 < (grants st'.trace).length ∧
    pending h2 = [⟨⟨24736, 9⟩, [⟨24736, 5000⟩]⟩] ∧ destroy (exCfg true 32 []) st' = .ok tr ∧
    ran tr = [⟨9192, 2⟩, ⟨64, 1⟩] ∧ held tr = [⟨24704, 8192⟩] := by
  obtain ⟨st, he, hp⟩ := hook_such (P := fun st => hookCase (exCfg true 32 []) 32 hookHist
    (hookState (atNewBlock (exCfg true 32 []) st (round8 9000))) [.allocateCleanup 5000 9 none]
    (allocateHook (exCfg true 32 []) st 9000 8 [.allocateCleanup 5000 9 none])
    (fun h2 s => decide ((grants st.trace).length + 1 < (grants s.2.trace).length ∧
      pending h2 = [⟨⟨24736, 9⟩, [⟨24736, 5000⟩]⟩]) &&
      match destroy (exCfg true 32 []) s.2 with
      | .ok tr => decide (ran tr = [⟨9192, 2⟩, ⟨64, 1⟩] ∧ held tr = [⟨24704, 8192⟩])
      | .error _ => false)) (by decide +kernel)
  obtain ⟨ho, h2, ⟨r, st'⟩, e, hq⟩ := hookCase_iff hp
  simp only [Bool.and_eq_true, decide_eq_true_eq] at hq
  obtain ⟨⟨q1, q2⟩, q3⟩ := hq
  split at q3
  · rename_i tr hd
    simp only [decide_eq_true_eq] at q3
    exact ⟨st, h2, r, st', tr, he, by decide, hookState_obeys ho, e, q1, q2, hd, q3⟩
  · cases q3

/-- A block hook whose object fits into the block the arena had. -/
example : ∃ st h2 r st', Exec (exCfg true 32 []) 32 hookHist st ∧ Contract 32 hookHist (.allocate 9000 8) ∧
    (∀ z p s, atNewBlock (exCfg true 32 []) st (round8 9000) = .ok (some (z, p), s) →
      Obeys (exCfg true 32 []) 32 hookHist s [.create 8 (some 9)]) ∧
    allocateHook (exCfg true 32 []) st 9000 8 [.create 8 (some 9)] = .ok (h2, r, st') ∧
    (grants st'.trace).length = (grants st.trace).length + 1 ∧ pending h2 = [⟨⟨9200, 9⟩, [⟨9200, 8⟩]⟩] := by
  obtain ⟨st, he, hp⟩ := hook_such (P := fun st => hookCase (exCfg true 32 []) 32 hookHist
    (hookState (atNewBlock (exCfg true 32 []) st (round8 9000))) [.create 8 (some 9)]
    (allocateHook (exCfg true 32 []) st 9000 8 [.create 8 (some 9)])
    (fun h2 s => decide ((grants s.2.trace).length = (grants st.trace).length + 1 ∧
      pending h2 = [⟨⟨9200, 9⟩, [⟨9200, 8⟩]⟩]))) (by decide +kernel)
  obtain ⟨ho, h2, ⟨r, st'⟩, e, hq⟩ := hookCase_iff hp
  exact ⟨st, h2, r, st', he, by decide, hookState_obeys ho, e, by simpa using hq⟩

/-- An init hook that creates an object, and calls after it. -/
example : Obeys (exCfg true 32 []) 32 [] (mkArena none) [.create 24 (some 1), .allocate 5000 8] ∧
    ∀ h1 st1, initHook (exCfg true 32 []) (some 7) [.create 24 (some 1), .allocate 5000 8] = .ok (h1, st1) →
      Obeys (exCfg true 32 []) 32 h1 st1 [.create 8 (some 2), .allocate 9000 16] := by
  refine ⟨by decide +kernel, ?_⟩
  intro h1 st1 e
  have : (match initHook (exCfg true 32 []) (some 7) [.create 24 (some 1), .allocate 5000 8] with
    | .ok (h1, st1) => decide (Obeys (exCfg true 32 []) 32 h1 st1 [.create 8 (some 2), .allocate 9000 16])
    | .error _ => false) = true := by decide +kernel
  rw [e] at this
  simpa using this

end Verif.Arena
