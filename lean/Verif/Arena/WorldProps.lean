import Verif.Arena.WorldInv

/-!
C24 (move construction), C25 (memory resources) and C72 (several arenas).
-/

namespace Verif.Arena

open Verif.Align

variable {env : Env} {A : Nat} {H : Nat → Hist} {w w' : World}

/-! ### Running programs with checked contracts, for the examples -/

/-- Check of `GoodOpts`. -/
def goodOptsB (o : Opts) : Bool :=
  decide (0 < o.normal ∧ 8 ∣ o.normal ∧ 8 ∣ o.huge ∧ 8 ∣ o.init ∧ o.normal ≤ 2 ^ 62 ∧
    o.huge ≤ 2 ^ 62 ∧ o.init ≤ 2 ^ 62)

/-- Check of `WContract`. -/
def wcheck (A : Nat) (H : Nat → Hist) (w : World) : WOp → Bool
  | .construct i opts _ => (match w.objs i with | .unused => true | _ => false) && goodOptsB opts
  | .call i op => (match w.objs i with | .alive _ => true | _ => false) && decide (Contract A (H i) op)
  | .resAllocate i b a =>
    match w.objs i with
    | .alive o =>
      match o.res with
      | some k => (match w.objs k with | .alive _ => true | _ => false) &&
          decide (Contract A (H k) (.pmrAllocate b a))
      | none => false
    | _ => false
  | .move src dst => (match w.objs src with | .alive _ => true | _ => false) &&
      (match w.objs dst with | .unused => true | _ => false)
  | .destroy i => (match w.objs i with | .alive _ => true | _ => false)

theorem wcheck_sound {op : WOp} (h : wcheck A H w op = true) : WContract A H w op := by
  cases op with
  | construct i opts c =>
    simp only [wcheck, Bool.and_eq_true] at h
    refine ⟨?_, ?_⟩
    · have := h.1; split at this <;> simp_all
    · have := h.2
      simp only [goodOptsB, decide_eq_true_eq] at this
      exact ⟨this.1, this.2.1, this.2.2.1, this.2.2.2.1, this.2.2.2.2.1, this.2.2.2.2.2.1,
        this.2.2.2.2.2.2⟩
  | call i op =>
    simp only [wcheck, Bool.and_eq_true, decide_eq_true_eq] at h
    refine ⟨?_, h.2⟩
    have := h.1; split at this
    · next o ho => exact ⟨o, ho⟩
    · cases this
  | resAllocate i b a =>
    simp only [wcheck] at h
    split at h
    · next o ho =>
      split at h
      · next k hk =>
        simp only [Bool.and_eq_true, decide_eq_true_eq] at h
        have h1 := h.1
        split at h1
        · next o' ho' => exact ⟨o, k, o', ho, hk, ho', h.2⟩
        · cases h1
      · cases h
    · cases h
  | move src dst =>
    simp only [wcheck, Bool.and_eq_true] at h
    refine ⟨?_, ?_⟩
    · have := h.1; split at this
      · next o ho => exact ⟨o, ho⟩
      · cases this
    · have := h.2; split at this <;> simp_all
  | destroy i =>
    simp only [wcheck] at h
    split at h
    · next o ho => exact ⟨o, ho⟩
    · cases h

/-- Run a program while checking the contracts; also returns the results. -/
def wtryRun (env : Env) (A : Nat) (H : Nat → Hist) (w : World) :
    List WOp → Option (List Ret × (Nat → Hist) × World)
  | [] => some ([], H, w)
  | op :: ops =>
    if wcheck A H w op then
      match wstep env w op with
      | .ok (r, w') => (wtryRun env A (histStep H w r op) w' ops).map (fun x => (r :: x.1, x.2))
      | .error _ => none
    else none

theorem wtryRun_exec {ops : List WOp} {rs : List Ret} {H' : Nat → Hist}
    (he : WExec env A H w) (hr : wtryRun env A H w ops = some (rs, H', w')) : WExec env A H' w' := by
  induction ops generalizing H w rs with
  | nil => simp only [wtryRun, Option.some.injEq, Prod.mk.injEq] at hr; rw [← hr.2.1, ← hr.2.2]; exact he
  | cons op ops ih =>
    simp only [wtryRun] at hr
    split at hr
    · split at hr
      · rename_i hc _ r w2 hs
        simp only [Option.map_eq_some_iff] at hr
        obtain ⟨⟨rs2, H2, w3⟩, h1, h2⟩ := hr
        cases h2
        exact ih (.step he (wcheck_sound hc) hs) h1
      · cases hr
    · cases hr

/-- A checked program with a decidable fact about its end. -/
theorem wexec_such {ops : List WOp} {P : List Ret → (Nat → Hist) → World → Bool}
    (hr : (wtryRun env A (fun _ => []) ⟨fun _ => .unused, []⟩ ops).map (fun x => P x.1 x.2.1 x.2.2)
      = some true) :
    ∃ rs H w, WExec env A H w ∧ P rs H w = true := by
  cases hx : wtryRun env A (fun _ => []) ⟨fun _ => .unused, []⟩ ops with
  | none => rw [hx] at hr; cases hr
  | some x =>
    rw [hx] at hr
    obtain ⟨rs, H, w⟩ := x
    simp only [Option.map_some, Option.some.injEq] at hr
    exact ⟨rs, H, w, wtryRun_exec .start hx, hr⟩

/-- A `block_alloc` for all arenas: bumps a pointer and never reuses memory. -/
def exEnv (dbg : Bool) (A : Nat) : Env :=
  { dbg := dbg, blockAlloc := fun W s => bumpAlloc A [] (W.map Prod.snd) s }

theorem exEnv_sane (dbg : Bool) {A : Nat} (hA : 0 < A) : WSane A (exEnv dbg A) := by
  have h := exCfg_sane dbg hA []
  exact ⟨fun W s p e => h.aligned (W.map Prod.snd) s p e, fun W s p e => h.nonnull (W.map Prod.snd) s p e,
    fun W s p e => h.fits (W.map Prod.snd) s p e, fun W s p e => h.fresh (W.map Prod.snd) s p e⟩

/-- Options for the examples. -/
def exOpts : Opts := ⟨128, 1024, 128⟩

/-! ### C72 -/

/-- C72: no operation of an in-contract program fails: no assertion, no undefined behaviour. -/
theorem c72_safe (hA : 8 ∣ A) (hw : WSane A env) (he : WExec env A H w) {op : WOp}
    (hop : WContract A H w op) : ∃ r w', wstep env w op = .ok (r, w') := by
  have hi := wexec_inv hA hw he
  cases op with
  | construct i opts cookie => exact ⟨_, _, by simp only [wstep, hop.1]; rfl⟩
  | call i op =>
    obtain ⟨⟨o, ho⟩, hc⟩ := hop
    obtain ⟨r2, st, evs, _, _, h3, _⟩ := call_ok hA hw hi ho hc
    exact ⟨_, _, h3⟩
  | resAllocate i b a =>
    obtain ⟨o, k, o', ho, hk, ho', hc⟩ := hop
    obtain ⟨r2, st, evs, _, _, h3, _⟩ := call_ok hA hw hi ho' hc
    exact ⟨_, _, by simp only [wstep, ho, hk]; exact h3⟩
  | move src dst =>
    obtain ⟨⟨o, ho⟩, hd⟩ := hop
    exact ⟨_, _, by simp only [wstep, ho, hd]; rfl⟩
  | destroy i =>
    obtain ⟨o, ho⟩ := hop
    obtain ⟨tr, evs, waste, h1, _, _, _⟩ := destroy_world hA hi ho
    exact ⟨_, _, by simp only [wstep, ho, h1, ok_bind, pure_eq_ok]; rfl⟩

/-- C72: each arena behaves as if it were alone: its state is that of a single-arena execution of
its own history, with its own options, under an admissible `block_alloc`.  So everything proved
about single arenas holds for it. -/
theorem c72_alone (hA : 8 ∣ A) (hw : WSane A env) (he : WExec env A H w) {i : Nat} {o : Obj}
    (ho : w.objs i = .alive o) :
    ∃ cfg : Cfg, cfg.normal = o.opts.normal ∧ cfg.huge = o.opts.huge ∧ cfg.init = o.opts.init ∧
      cfg.dbg = env.dbg ∧ GoodCfg cfg ∧ Sane A cfg ∧ Exec cfg A (H i) o.st := by
  obtain ⟨hg, cfg, h1, h2, h3, h4, h5, h6⟩ := (wexec_inv hA hw he).alone i o ho
  exact ⟨cfg, h1, h2, h3, h4, goodCfg_of hg h1 h2 h3, h5, h6⟩

/-- C72: memory handed out by different arenas never overlaps. -/
theorem c72_disjoint (hA : 8 ∣ A) (hw : WSane A env) (he : WExec env A H w) {i j : Nat} {o o' : Obj}
    (hij : i ≠ j) (ho : w.objs i = .alive o) (ho' : w.objs j = .alive o') :
    ∀ r ∈ live (H i), ∀ s ∈ live (H j), Region.Disjoint r s := by
  intro r hr s hs x ⟨hx, hy⟩
  obtain ⟨cfg, _, _, _, _, h1, h2, h3⟩ := c72_alone hA hw he ho
  obtain ⟨cfg', _, _, _, _, h1', h2', h3'⟩ := c72_alone hA hw he ho'
  obtain ⟨b, hb, hin⟩ := c05_in_bounds hA h1 h2 h3 r hr
  obtain ⟨c, hc, hin'⟩ := c05_in_bounds hA h1' h2' h3' s hs
  refine (wexec_inv hA hw he).apart i j o o' hij ho ho' b hb c hc x ⟨?_, ?_⟩
  · have := hin.1; have := hin.2; simp only [Region.Mem] at hx ⊢; omega
  · have := hin'.1; have := hin'.2; simp only [Region.Mem] at hy ⊢; omega

/-- C72: at every moment, the blocks obtained and not yet given back are exactly those of the living
arenas, every block is held by exactly one of them, and every address was given back as often as it
was obtained, except that it is obtained once more while it is held. -/
theorem c72_blocks (hA : 8 ∣ A) (hw : WSane A env) (he : WExec env A H w) :
    (∀ r, r ∈ held w.events ↔ ∃ i o, w.objs i = .alive o ∧ r ∈ held o.st.trace) ∧
    (∀ i j o o', w.objs i = .alive o → w.objs j = .alive o' →
      ∀ r, r ∈ held o.st.trace → r ∈ held o'.st.trace → i = j) ∧
    (∀ tr, tr <:+ w.events → ∀ p,
      allocs p tr = deallocs p tr + if p ∈ (held tr).map Region.start then 1 else 0) := by
  have hi := wexec_inv hA hw he
  refine ⟨hi.mem, ?_, ?_⟩
  · intro i j o o' ho ho' r hr hr'
    by_contra hne
    have hpos := hi.always.here.pos r ((hi.mem r).2 ⟨i, o, ho, hr⟩)
    exact disjoint_start (hi.apart i j o o' hne ho ho' r hr r hr') hpos hpos rfl
  · intro tr htr p
    have := hi.always tr htr
    rw [this.bal p]
    split
    · next h => rw [List.count_eq_one_of_mem this.nodup h]
    · next h => rw [List.count_eq_zero.2 h]

/-- C72: when every arena has been destroyed, every block obtained has been given back exactly
once. -/
theorem c72_end (hA : 8 ∣ A) (hw : WSane A env) (he : WExec env A H w)
    (hend : ∀ i o, w.objs i ≠ .alive o) : held w.events = [] ∧
    ∀ p, allocs p w.events = deallocs p w.events := by
  obtain ⟨h1, _, h3⟩ := c72_blocks hA hw he
  have hnil : held w.events = [] := by
    rw [List.eq_nil_iff_forall_not_mem]
    intro r hr
    obtain ⟨i, o, ho, _⟩ := (h1 r).1 hr
    exact hend i o ho
  refine ⟨hnil, fun p => ?_⟩
  have := h3 _ (List.suffix_refl _) p
  rw [hnil] at this
  simpa using this

theorem Teardown.deallocs_held {hd rest : List Region} {pend : List Pending} {evs : List Ev}
    (h : Teardown hd pend evs rest) : ∀ p, Ev.dealloc p ∈ evs → ∃ r ∈ hd, r.start = p := by
  induction h with
  | done _ => simp
  | cleanup _ _ ih =>
    intro p hp
    rcases List.mem_cons.1 hp with hp | hp
    · cases hp
    · exact ih p hp
  | @dealloc hd rest b pend evs hb _ ih =>
    intro p hp
    rcases List.mem_cons.1 hp with hp | hp
    · cases hp; exact ⟨b, hb, rfl⟩
    · obtain ⟨r, hr, e⟩ := ih p hp
      exact ⟨r, (List.mem_filter.1 hr).1, e⟩
  | hook u w c _ ih =>
    intro p hp
    rcases List.mem_cons.1 hp with hp | hp
    · cases hp
    · exact ih p hp

theorem Grow.no_dealloc {cfg : Cfg} {c : Option Nat} {ms : List Nat} {tr l : List Ev}
    (h : Grow cfg c ms tr (l ++ tr)) : ∀ p, Ev.dealloc p ∉ l := by
  have : ∀ {tr tr' : List Ev}, Grow cfg c ms tr tr' → ∃ l, tr' = l ++ tr ∧ ∀ p, Ev.dealloc p ∉ l := by
    intro tr tr' h
    induction h with
    | refl => exact ⟨[], rfl, by simp⟩
    | fail _ _ _ _ ih =>
      obtain ⟨l, h1, h2⟩ := ih
      exact ⟨_ :: l, by rw [h1]; rfl, by simpa using h2⟩
    | block _ _ _ _ ih =>
      obtain ⟨l, h1, h2⟩ := ih
      exact ⟨_ :: _ :: l, by rw [h1]; rfl, by simpa using h2⟩
  obtain ⟨l', h1, h2⟩ := this h
  rw [List.append_cancel_right h1]
  exact h2

/-- In a single-arena call, only blocks held before the call are given back. -/
theorem step_deallocs {cfg : Cfg} {h : Hist} {st st' : St} (hA : 8 ∣ A) (hc : GoodCfg cfg)
    (hs : Sane A cfg) (he : Exec cfg A h st) {op : Op} (hop : Contract A h op) {r : Ret}
    {evs : List Ev} (hstep : step cfg st op = .ok (r, st')) (hev : st'.trace = evs ++ st.trace) :
    ∀ p, Ev.dealloc p ∈ evs → ∃ b ∈ held st.trace, b.start = p := by
  obtain ⟨wf, hne⟩ := exec_inv hA hc hs he
  by_cases hr : op = .reset
  · subst hr
    obtain ⟨evs', e1, e2, _⟩ := reset_ok (cfg := cfg) wf (hne hop)
    simp only [step, e1, ok_bind, pure_eq_ok] at hstep
    cases hstep
    simp only at hev
    have := List.append_cancel_right hev
    intro p hp
    rw [← this] at hp
    exact e2.deallocs_held p (List.mem_reverse.1 hp)
  · obtain ⟨r2, st2, hok⟩ := step_ok hA hc hs wf hne hop
    have e := hok.eq
    rw [hstep] at e
    cases e
    obtain ⟨tr', h1, h2⟩ := hok.grow hr
    intro p hp
    exfalso
    have hsuf : ∃ l, tr' = l ++ st.trace := by
      obtain ⟨l, hl, _⟩ : ∃ l, tr' = l ++ st.trace ∧ True := by
        clear h2
        induction h1 with
        | refl => exact ⟨[], rfl, trivial⟩
        | fail _ _ _ _ ih => obtain ⟨l, h, _⟩ := ih; exact ⟨_ :: l, by rw [h]; rfl, trivial⟩
        | block _ _ _ _ ih => obtain ⟨l, h, _⟩ := ih; exact ⟨_ :: _ :: l, by rw [h]; rfl, trivial⟩
      exact ⟨l, hl⟩
    obtain ⟨l, rfl⟩ := hsuf
    rw [hev, ← List.append_assoc] at h2
    have := List.append_cancel_right h2
    rw [this] at hp
    rcases List.mem_append.1 hp with hp | hp
    · rcases hh : hookOf (op, r) with _ | b
      · rw [hh] at hp; simp at hp
      · rw [hh] at hp; simp at hp
    · exact h1.no_dealloc p hp

/-- C72: a block is only given back by the arena that owns it. -/
theorem c72_owner (hA : 8 ∣ A) (hw : WSane A env) (he : WExec env A H w) {op : WOp}
    (hop : WContract A H w op) {r : Ret} (hs : wstep env w op = .ok (r, w')) :
    ∃ new, w'.trace = new ++ w.trace ∧ ∀ k p, (k, Ev.dealloc p) ∈ new →
      ∃ o, w.objs k = .alive o ∧ ∃ b ∈ held o.st.trace, b.start = p := by
  have hi := wexec_inv hA hw he
  have hcall : ∀ {i o op r w'}, w.objs i = .alive o → Contract A (H i) op →
      callOn env w i op = .ok (r, w') → ∃ new, w'.trace = new ++ w.trace ∧
        ∀ k p, (k, Ev.dealloc p) ∈ new → ∃ o, w.objs k = .alive o ∧ ∃ b ∈ held o.st.trace, b.start = p := by
    intro i o op r w' ho hc hs
    obtain ⟨r2, st, evs, ⟨cfg, h1, h2, h3, h4⟩, h5, h6, _⟩ := call_ok hA hw hi ho hc
    rw [h6] at hs
    cases hs
    refine ⟨_, rfl, ?_⟩
    intro k p hp
    rw [h5, newEvents_append] at hp
    obtain ⟨e, he, heq⟩ := List.mem_map.1 hp
    cases heq
    exact ⟨o, ho, step_deallocs hA h1 h2 h3 hc h4 h5 p he⟩
  cases op with
  | construct i opts cookie =>
    simp only [wstep, hop.1] at hs
    cases hs
    refine ⟨_, rfl, ?_⟩
    intro k p hp
    simp at hp
  | call i op =>
    obtain ⟨⟨o, ho⟩, hc⟩ := hop
    exact hcall ho hc hs
  | resAllocate i b a =>
    obtain ⟨o, k, o', ho, hk, ho', hc⟩ := hop
    simp only [wstep, ho, hk] at hs
    exact hcall ho' hc hs
  | move src dst =>
    obtain ⟨⟨o, ho⟩, hd⟩ := hop
    simp only [wstep, ho, hd] at hs
    cases hs
    exact ⟨[], rfl, by simp⟩
  | destroy i =>
    obtain ⟨o, ho⟩ := hop
    obtain ⟨tr, evs, waste, h1, h2, h3, _⟩ := destroy_world hA hi ho
    simp only [wstep, ho, h1, ok_bind, pure_eq_ok] at hs
    cases hs
    refine ⟨_, rfl, ?_⟩
    intro k p hp
    rw [h2, ← List.cons_append, newEvents_append] at hp
    obtain ⟨e, he, heq⟩ := List.mem_map.1 hp
    cases heq
    rcases List.mem_cons.1 he with he | he
    · cases he
    · exact ⟨o, ho, h3.deallocs_held p (List.mem_reverse.1 he)⟩

/-- Three arenas with interleaved allocations, a reset, a move, and destruction of two of them. -/
def wsample : List WOp :=
  [.construct 0 exOpts (some 7), .construct 1 exOpts none, .call 0 (.create 40 (some 1)),
   .call 1 (.allocate 200 32), .call 0 (.allocate 300 8), .call 1 (.own 77 2), .call 0 (.own 78 3),
   .move 0 2, .call 2 (.allocate 16 16), .call 0 (.create 24 (some 4)), .call 1 .reset,
   .resAllocate 1 64 16, .destroy 0]

example : ∃ H w, WExec (exEnv true 32) 32 H w ∧ (live (H 1)).length = 1 ∧ (live (H 2)).length = 3 ∧
    (held w.events).length = 3 ∧
    (∀ r ∈ live (H 1), ∀ s ∈ live (H 2), Region.Disjoint r s) ∧
    ∃ r w', wstep (exEnv true 32) w (.destroy 2) = .ok (r, w') := by
  obtain ⟨rs, H, w, he, hp⟩ := wexec_such (env := exEnv true 32) (A := 32) (ops := wsample)
    (P := fun _ H w => decide ((live (H 1)).length = 1 ∧ (live (H 2)).length = 3 ∧
      (held w.events).length = 3) && wcheck 32 H w (.call 1 .reset) && wcheck 32 H w (.destroy 2))
    (by decide +kernel)
  simp only [Bool.and_eq_true, decide_eq_true_eq] at hp
  obtain ⟨⟨o1, h1⟩, _⟩ := wcheck_sound hp.1.2
  obtain ⟨o2, h2⟩ := wcheck_sound hp.2
  have hs : WSane 32 (exEnv true 32) := exEnv_sane _ (by decide)
  exact ⟨H, w, he, hp.1.1.1, hp.1.1.2.1, hp.1.1.2.2,
    c72_disjoint (by decide) hs he (by decide) h1 h2, c72_safe (by decide) hs he ⟨o2, h2⟩⟩

theorem callOn_above {n i : Nat} {op : Op} {r : Ret} (hn : ∀ j, n ≤ j → w.objs j = .unused)
    (hs : callOn env w i op = .ok (r, w')) : ∀ j, n ≤ j → w'.objs j = .unused := by
  intro j hj
  unfold callOn at hs
  split at hs
  · next o ho =>
    obtain ⟨⟨r2, st⟩, _, h2⟩ := bind_eq_ok.1 hs
    cases h2
    have : j ≠ i := by rintro rfl; rw [hn j hj] at ho; cases ho
    show (if j = i then _ else w.objs j) = _
    rw [if_neg this, hn j hj]
  · cases hs

/-- The operation creates only objects below `n`. -/
def createsBelow (n : Nat) : WOp → Bool
  | .construct i _ _ => decide (i < n)
  | .move _ d => decide (d < n)
  | _ => true

/-- Objects are only created by `construct` and `move`. -/
theorem wstep_above {n : Nat} {op : WOp} {r : Ret} (hn : ∀ j, n ≤ j → w.objs j = .unused)
    (hop : createsBelow n op = true)
    (hs : wstep env w op = .ok (r, w')) : ∀ j, n ≤ j → w'.objs j = .unused := by
  cases op with
  | construct i opts c =>
    simp only [wstep] at hs
    split at hs
    · cases hs
      intro j hj
      show (if j = i then _ else w.objs j) = _
      rw [if_neg (by simp [createsBelow] at hop; omega), hn j hj]
    · cases hs
  | call i op => exact callOn_above hn hs
  | resAllocate i b a =>
    simp only [wstep] at hs
    split at hs
    · split at hs
      · exact callOn_above hn hs
      · obtain ⟨_, _, h⟩ := bind_eq_ok.1 hs; cases h
    · cases hs
  | move src dst =>
    simp only [wstep] at hs
    split at hs
    · next o ho hd =>
      cases hs
      intro j hj
      have h1 : j ≠ src := by rintro rfl; rw [hn j hj] at ho; cases ho
      show (if j = src then _ else if j = dst then _ else w.objs j) = _
      rw [if_neg h1, if_neg (by simp [createsBelow] at hop; omega), hn j hj]
    · cases hs
  | destroy i =>
    simp only [wstep] at hs
    split at hs
    · next o ho =>
      obtain ⟨tr, _, h2⟩ := bind_eq_ok.1 hs
      cases h2
      intro j hj
      have : j ≠ i := by rintro rfl; rw [hn j hj] at ho; cases ho
      show (if j = i then _ else w.objs j) = _
      rw [if_neg this, hn j hj]
    · cases hs

theorem wtryRun_above {n : Nat} {ops : List WOp} {rs : List Ret} {H' : Nat → Hist}
    (hn : ∀ j, n ≤ j → w.objs j = .unused)
    (hops : ∀ op ∈ ops, createsBelow n op = true)
    (hr : wtryRun env A H w ops = some (rs, H', w')) : ∀ j, n ≤ j → w'.objs j = .unused := by
  induction ops generalizing H w rs with
  | nil => simp only [wtryRun, Option.some.injEq, Prod.mk.injEq] at hr; rw [← hr.2.2]; exact hn
  | cons op ops ih =>
    simp only [wtryRun] at hr
    split at hr
    · split at hr
      · rename_i hc _ r w2 hs
        simp only [Option.map_eq_some_iff] at hr
        obtain ⟨⟨rs2, H2, w3⟩, h1, h2⟩ := hr
        cases h2
        exact ih (wstep_above hn (hops _ List.mem_cons_self) hs)
          (fun o ho => hops o (List.mem_cons_of_mem _ ho)) h1
      · cases hr
    · cases hr

/-- Is object `i` not alive? -/
def notAlive (w : World) (i : Nat) : Bool := match w.objs i with | .alive _ => false | _ => true

example : ∃ H w, WExec (exEnv true 32) 32 H w ∧ (∀ i o, w.objs i ≠ .alive o) ∧
    allocs 448 w.events = 1 ∧ ∀ p, allocs p w.events = deallocs p w.events := by
  have key : (wtryRun (exEnv true 32) 32 (fun _ => []) ⟨fun _ => .unused, []⟩
      (wsample ++ [.destroy 1, .destroy 2])).map (fun x => decide (allocs 448 x.2.2.events = 1) &&
        notAlive x.2.2 0 && notAlive x.2.2 1 && notAlive x.2.2 2) = some true := by
    decide +kernel
  cases hx : wtryRun (exEnv true 32) 32 (fun _ => []) ⟨fun _ => .unused, []⟩
      (wsample ++ [.destroy 1, .destroy 2]) with
  | none => rw [hx] at key; cases key
  | some x =>
    obtain ⟨rs, H, w⟩ := x
    rw [hx] at key
    simp only [Option.map_some, Option.some.injEq, Bool.and_eq_true, decide_eq_true_eq] at key
    have hdead : ∀ i o, w.objs i ≠ .alive o := by
      intro i o ho
      by_cases h : 3 ≤ i
      · rw [wtryRun_above (n := 3) (by simp) (by decide) hx i h] at ho; cases ho
      · have h3 : i = 0 ∨ i = 1 ∨ i = 2 := by omega
        rcases h3 with rfl | rfl | rfl <;> simp [notAlive, ho] at key
    have he := wtryRun_exec .start hx
    exact ⟨H, w, he, hdead, key.1.1.1, (c72_end (by decide) (exEnv_sane _ (by decide)) he hdead).2⟩

/-! ### C24 -/

/-- What the user may expect of a memory resource: an arena's own resource hands out memory of that
arena. -/
def ResourceFollows (env : Env) (A : Nat) : Prop :=
  ∀ H w i o b a p w', WExec env A H w → w.objs i = .alive o →
    wstep env w (.resAllocate i b a) = .ok (.ptr (some p), w') →
    ∃ o', w'.objs i = .alive o' ∧ ∃ r ∈ held o'.st.trace, Region.Within ⟨p, b⟩ r

/-- C24, violated part: after a move the resource of the new arena still hands out memory of the
moved-from arena. -/
theorem c24_violated : ¬ ResourceFollows (exEnv true 32) 32 := by
  intro hf
  have key : (wtryRun (exEnv true 32) 32 (fun _ => []) ⟨fun _ => .unused, []⟩
      [.construct 0 exOpts none, .call 0 (.allocate 8 8), .move 0 1]).map (fun x =>
        match x.2.2.objs 1, wstep (exEnv true 32) x.2.2 (.resAllocate 1 16 8) with
        | .alive _, .ok (.ptr (some p), w') => decide (p = 224) &&
          (match w'.objs 1 with | .alive o' => decide (held o'.st.trace = [⟨32, 128⟩]) | _ => false)
        | _, _ => false) = some true := by decide +kernel
  cases hx : wtryRun (exEnv true 32) 32 (fun _ => []) ⟨fun _ => .unused, []⟩
      [.construct 0 exOpts none, .call 0 (.allocate 8 8), .move 0 1] with
  | none => rw [hx] at key; cases key
  | some x =>
    obtain ⟨rs, H, w⟩ := x
    rw [hx] at key
    simp only [Option.map_some, Option.some.injEq] at key
    split at key
    · next o p w' ho hs =>
      obtain ⟨o', ho', r, hr, hin⟩ := hf H w 1 o 16 8 p w' (wtryRun_exec .start hx) ho hs
      simp only [ho', Bool.and_eq_true, decide_eq_true_eq] at key
      rw [key.2] at hr
      simp only [List.mem_singleton] at hr
      subst hr
      have := hin.2
      simp only [key.1] at this
      omega
    · cases key

/-- C24, violated part: once the moved-from arena is destroyed, the resource of the new arena
dangles: using it is undefined behaviour, although the new arena is alive. -/
theorem c24_dangling : ∃ H w o m, WExec (exEnv true 32) 32 H w ∧ w.objs 1 = .alive o ∧
    wstep (exEnv true 32) w (.resAllocate 1 16 8) = .error (.ub m) := by
  have key : (wtryRun (exEnv true 32) 32 (fun _ => []) ⟨fun _ => .unused, []⟩
      [.construct 0 exOpts none, .call 0 (.allocate 8 8), .move 0 1, .destroy 0]).map (fun x =>
        match x.2.2.objs 1, wstep (exEnv true 32) x.2.2 (.resAllocate 1 16 8) with
        | .alive _, .error (.ub _) => true
        | _, _ => false) = some true := by decide +kernel
  cases hx : wtryRun (exEnv true 32) 32 (fun _ => []) ⟨fun _ => .unused, []⟩
      [.construct 0 exOpts none, .call 0 (.allocate 8 8), .move 0 1, .destroy 0] with
  | none => rw [hx] at key; cases key
  | some x =>
    obtain ⟨rs, H, w⟩ := x
    rw [hx] at key
    simp only [Option.map_some, Option.some.injEq] at key
    split at key
    · next o m ho hs => exact ⟨H, w, o, m, wtryRun_exec .start hx, ho, hs⟩
    · cases key

/-- C24 (all but the memory resource): a move runs no hook and calls neither `block_alloc` nor
`block_dealloc`; the new arena has the state the old one had (blocks, pending destructors, space,
cookie), and continues its history; destroying both, in either order, runs every pending destructor
exactly once, last registered first, gives back exactly the blocks of the moved arena, and never
gives back a block twice; the moved-from arena only reports `on_arena_destruction` with zero
sizes. Missing: the resource does not follow (`c24_violated`). -/
theorem c24_partial (hA : 8 ∣ A) (hw : WSane A env) (he : WExec env A H w) {src dst : Nat} {o : Obj}
    (ho : w.objs src = .alive o) (hd : w.objs dst = .unused) :
    ∃ w1, wstep env w (.move src dst) = .ok (.unit, w1) ∧ w1.trace = w.trace ∧
      w1.objs dst = .alive o ∧
      (∃ w2, wstep env w1 (.destroy src) = .ok (.unit, w2) ∧
        w2.trace = (src, .destroyed 0 0 none) :: w.trace) ∧
      ∀ a b, (a = src ∧ b = dst) ∨ (a = dst ∧ b = src) →
        ∃ w2 w3, wstep env w1 (.destroy a) = .ok (.unit, w2) ∧
          wstep env w2 (.destroy b) = .ok (.unit, w3) ∧
          ran w3.events = ran w.events ++ (pending (H src)).map Pending.node ∧
          (∀ r, r ∈ held w3.events ↔ r ∈ held w.events ∧ r ∉ held o.st.trace) ∧
          ∀ tr, tr <:+ w3.events → ∀ p, deallocs p tr ≤ allocs p tr := by
  have hi := wexec_inv hA hw he
  have hm : wstep env w (.move src dst) = .ok (.unit, moved w src dst o) := by
    simp only [wstep, ho, hd]; rfl
  have hsd : dst ≠ src := by rintro rfl; rw [ho] at hd; cases hd
  have hi1 := hi.move ho hd
  have hsrc1 : (moved w src dst o).objs src = .alive ⟨o.opts, mkArena none, none⟩ := by
    rw [moved_objs, if_pos rfl]
  have hdst1 : (moved w src dst o).objs dst = .alive o := by
    rw [moved_objs, if_neg hsd, if_pos rfl]
  -- destroying the moved-from arena, in any world
  have hsrc : ∀ u : World, u.objs src = .alive ⟨o.opts, mkArena none, none⟩ →
      wstep env u (.destroy src) = .ok (.unit, u.set src .dead [(src, .destroyed 0 0 none)]) := by
    intro u hu
    simp only [wstep, hu]
    rfl
  -- destroying the new arena, in any world
  have hdst : ∀ (u : World) (H' : Nat → Hist), WInv env A H' u → u.objs dst = .alive o →
      H' dst = H src → ∃ u', wstep env u (.destroy dst) = .ok (.unit, u') ∧
        u'.objs src = u.objs src ∧
        (∃ l, u'.events = l ++ u.events) ∧
        ran u'.events = ran u.events ++ (pending (H src)).map Pending.node ∧
        WInv env A (setH H' dst []) u' ∧ u'.objs dst = .dead ∧ (∀ j, j ≠ dst → u'.objs j = u.objs j) := by
    intro u H' hiu hu hH
    obtain ⟨tr, evs, waste, h1, h2, h3, h4⟩ := destroy_world hA hiu hu
    refine ⟨_, by simp only [wstep, hu, h1, ok_bind, pure_eq_ok], ?_, ?_, ?_, h4, ?_, ?_⟩
    · show (if src = dst then _ else _) = _
      rw [if_neg hsd.symm]
    · exact ⟨_, by unfold World.events World.set; rw [List.map_append]⟩
    · have hev : (u.set dst .dead (newEvents dst o.st.trace tr)).events
          = .destroyed o.st.space waste o.st.cookie :: (evs.reverse ++ u.events) := by
        unfold World.events World.set
        rw [h2, ← List.cons_append, List.map_append, newEvents_snd]; rfl
      rw [hev, ← hH, ← h3.ran]; rfl
    · show (if dst = dst then _ else _) = _
      rw [if_pos rfl]
    · intro j hj
      show (if j = dst then _ else _) = _
      rw [if_neg hj]
  have hfin : ∀ (u : World) (H' : Nat → Hist), WInv env A H' u → u.objs src = .dead → u.objs dst = .dead →
      (∀ j, j ≠ src → j ≠ dst → u.objs j = w.objs j) →
      (∀ r, r ∈ held u.events ↔ r ∈ held w.events ∧ r ∉ held o.st.trace) ∧
      ∀ tr, tr <:+ u.events → ∀ p, deallocs p tr ≤ allocs p tr := by
    intro u H' hiu h1 h2 h3
    refine ⟨?_, ?_⟩
    · intro r
      rw [hiu.mem, hi.mem]
      constructor
      · rintro ⟨j, o', hj, hr⟩
        have e1 : j ≠ src := by rintro rfl; rw [h1] at hj; cases hj
        have e2 : j ≠ dst := by rintro rfl; rw [h2] at hj; cases hj
        rw [h3 j e1 e2] at hj
        refine ⟨⟨j, o', hj, hr⟩, fun hr' => ?_⟩
        have hpos := hi.always.here.pos r ((hi.mem r).2 ⟨j, o', hj, hr⟩)
        exact disjoint_start (hi.apart j src o' o e1 hj ho r hr r hr') hpos hpos rfl
      · rintro ⟨⟨j, o', hj, hr⟩, hn⟩
        have e1 : j ≠ src := by rintro rfl; rw [ho] at hj; cases hj; exact hn hr
        have e2 : j ≠ dst := by rintro rfl; rw [hd] at hj; cases hj
        exact ⟨j, o', by rw [h3 j e1 e2, hj], hr⟩
    · intro tr htr p
      have := (hiu.always tr htr).bal p
      omega
  refine ⟨_, hm, rfl, hdst1, ⟨_, hsrc _ hsrc1, rfl⟩, ?_⟩
  -- the source destroyed in a world satisfying the invariant
  have hsrcInv : ∀ (u : World) (H' : Nat → Hist), WInv env A H' u →
      u.objs src = .alive ⟨o.opts, mkArena none, none⟩ →
      WInv env A (setH H' src []) (u.set src .dead [(src, .destroyed 0 0 none)]) := by
    intro u H' hiu hu
    obtain ⟨tr, evs, waste, h1, h2, h3, h4⟩ := destroy_world hA hiu hu
    have : tr = [.destroyed 0 0 none, .init] := by
      have : destroy (localCfg env u src ⟨o.opts, mkArena none, none⟩) (mkArena none)
        = .ok [.destroyed 0 0 none, .init] := rfl
      rw [this] at h1; cases h1; rfl
    rw [this] at h4
    exact h4
  rintro a b (⟨rfl, rfl⟩ | ⟨rfl, rfl⟩)
  · have hi2 := hsrcInv _ _ hi1 hsrc1
    obtain ⟨w3, h1, h2, ⟨l, h3⟩, h4, h5, h6, h7⟩ := hdst _ _ hi2
      (by show (if b = a then _ else _) = _; rw [if_neg hsd]; exact hdst1)
      (by simp [setH, hsd])
    refine ⟨_, w3, hsrc _ hsrc1, h1, ?_, ?_⟩
    · rw [h4]; rfl
    · refine hfin w3 _ h5 ?_ h6 ?_
      · rw [h2]; show (if a = a then _ else _) = _; rw [if_pos rfl]
      · intro j e1 e2
        rw [h7 j e2]
        show (if j = a then _ else _) = _
        rw [if_neg e1, moved_objs, if_neg e1, if_neg e2]
  · obtain ⟨w2, h1, h2, ⟨l, h3⟩, h4, h5, h6, h7⟩ := hdst _ _ hi1 hdst1
      (by simp [setH, hsd])
    rw [hsrc1] at h2
    refine ⟨w2, _, h1, hsrc _ h2, ?_, ?_⟩
    · have : (w2.set b .dead [(b, .destroyed 0 0 none)]).events = .destroyed 0 0 none :: w2.events := rfl
      rw [this]
      have : ran (.destroyed 0 0 none :: w2.events) = ran w2.events := by simp [ran]
      rw [this, h4]; rfl
    · refine hfin _ _ (hsrcInv _ _ h5 h2) ?_ ?_ ?_
      · show (if b = b then _ else _) = _; rw [if_pos rfl]
      · show (if a = b then _ else _) = _; rw [if_neg hsd, h6]
      · intro j e1 e2
        show (if j = b then _ else _) = _
        rw [if_neg e1, h7 j e2, moved_objs, if_neg e1, if_neg e2]

example : ∃ H w o, WExec (exEnv true 32) 32 H w ∧ w.objs 0 = .alive o ∧
    (pending (H 0)).map Pending.node = [⟨78, 3⟩, ⟨64, 1⟩] ∧
    ∃ w1, wstep (exEnv true 32) w (.move 0 5) = .ok (.unit, w1) ∧
      ∃ w2, wstep (exEnv true 32) w1 (.destroy 0) = .ok (.unit, w2) ∧
        w2.trace = (0, .destroyed 0 0 none) :: w.trace := by
  obtain ⟨rs, H, w, he, hp⟩ := wexec_such (env := exEnv true 32) (A := 32) (ops := wsample.take 7)
    (P := fun _ H w => decide ((pending (H 0)).map Pending.node = [⟨78, 3⟩, ⟨64, 1⟩]) &&
      wcheck 32 H w (.move 0 5))
    (by decide +kernel)
  simp only [Bool.and_eq_true, decide_eq_true_eq] at hp
  obtain ⟨⟨o, ho⟩, hd⟩ := wcheck_sound hp.2
  obtain ⟨w1, h1, h2, h3, ⟨w2, h4, h5⟩, _⟩ := c24_partial (by decide) (exEnv_sane _ (by decide)) he ho hd
  exact ⟨H, w, o, he, ho, hp.1, w1, h1, w2, h4, h5⟩

/-! ### C25 -/

/-- C25: allocating through the resource gives the very same pointer (or failure) and the same arena
as `AllocateAligned` with alignment `max(8, alignment)`; only the allocation hook is not called. -/
theorem c25_allocate (cfg : Cfg) (st : St) (b a : Nat) :
    step cfg st (.allocate b (max 8 a)) = (step cfg st (.pmrAllocate b a)).map (fun x =>
      match x with
      | (.ptr (some p), st') => (.ptr (some p), st'.emit (.allocated b st'.cookie))
      | y => y) := by
  unfold step AllocateAligned pmrAllocate
  show (allocateAligned cfg st b (max 8 a) >>= _) >>= _ = Except.map _ (allocateAligned cfg st b (max 8 a) >>= _)
  cases allocateAligned cfg st b (max 8 a) with
  | error e => rfl
  | ok x =>
    obtain ⟨r, s⟩ := x
    cases r <;> rfl

/-- C25: the guarantees of memory obtained through the resource. -/
theorem c25_guarantees {cfg : Cfg} {h : Hist} {st st' : St} (hA : 8 ∣ A) (hc : GoodCfg cfg)
    (hs : Sane A cfg) (he : Exec cfg A h st) {b a p : Nat} (hop : Contract A h (.pmrAllocate b a))
    (hstep : step cfg st (.pmrAllocate b a) = .ok (.ptr (some p), st')) :
    max 8 a ∣ p ∧ (∃ r ∈ held st'.trace, Region.Within ⟨p, b⟩ r) ∧
      ∀ r ∈ live h, Region.Disjoint ⟨p, b⟩ r := by
  have he' : Exec cfg A (h ++ [(.pmrAllocate b a, .ptr (some p))]) st' := .step he hop hstep
  have hl : live (h ++ [(.pmrAllocate b a, .ptr (some p))]) = ⟨p, b⟩ :: live h := by
    rw [live_append]; rfl
  refine ⟨?_, ?_, ?_⟩
  · exact c04_aligned hA hc hs he' _ (List.mem_append_right _ List.mem_cons_self)
  · exact c05_in_bounds hA hc hs he' ⟨p, b⟩ (by rw [hl]; exact List.mem_cons_self)
  · have := c06_disjoint hA hc hs he'
    rw [hl] at this
    exact (List.pairwise_cons.1 this).1

/-- Is a call a deallocation through the resource? -/
def isDealloc : Op → Bool
  | .pmrDeallocate _ _ _ => true
  | _ => false

theorem run_cons (cfg : Cfg) (st : St) (op : Op) (ops : List Op) :
    run cfg st (op :: ops) = step cfg st op >>= fun x => run cfg x.2 ops >>= fun y =>
      .ok ((op, x.1) :: y.1, y.2) := rfl

/-- C25: deallocating through the resource has no effect: leaving out all deallocations from a run
changes no result of the other calls and not the final state. -/
theorem c25_deallocate (cfg : Cfg) (st : St) (ops : List Op) :
    run cfg st (ops.filter (fun o => !isDealloc o)) =
      (run cfg st ops).map (fun x => (x.1.filter (fun y => !isDealloc y.1), x.2)) := by
  induction ops generalizing st with
  | nil => rfl
  | cons op ops ih =>
    by_cases hd : isDealloc op
    · have hst : step cfg st op = .ok (.unit, st) := by
        cases op <;> simp [isDealloc] at hd
        rfl
      rw [List.filter_cons, if_neg (by simp [hd]), ih]
      rw [run_cons, hst]
      simp only [ok_bind]
      cases run cfg st ops with
      | error e => rfl
      | ok x =>
        simp only [ok_bind, Except.map]
        rw [List.filter_cons, if_neg (by simp [hd])]
    · rw [List.filter_cons, if_pos (by simp [hd])]
      rw [run_cons, run_cons]
      cases step cfg st op with
      | error e => rfl
      | ok x =>
        obtain ⟨r, s⟩ := x
        simp only [ok_bind]
        rw [ih]
        cases run cfg s ops with
        | error e => rfl
        | ok x =>
          simp only [ok_bind, Except.map]
          rw [List.filter_cons, if_pos (by simp [hd])]

/-- A polymorphic memory resource: one of this library, pointing to an arena, or another type. -/
inductive Resource where
  | ofArena (target : Nat)
  | foreign (id : Nat)
  deriving DecidableEq, Repr

/-- `memory_resource::do_is_equal`, arena/arena.hpp:337-344: `dynamic_cast` of the other resource,
then comparison of the arena pointers; `false` if the cast throws. -/
def isEqual (target : Nat) (other : Resource) : Bool :=
  match other with
  | .ofArena k => decide (target = k)
  | .foreign _ => false

theorem res_inv (he : WExec env A H w) :
    (∀ i o k, w.objs i = .alive o → o.res = some k → w.objs k ≠ .unused) ∧
    (∀ i j o o' k, w.objs i = .alive o → w.objs j = .alive o' → o.res = some k → o'.res = some k →
      i = j) := by
  have hset : ∀ {w : World} {i : Nat} {o o' : Obj} {new}, w.objs i = .alive o → o'.res = o.res →
      ((∀ i o k, w.objs i = .alive o → o.res = some k → w.objs k ≠ .unused) ∧
       (∀ i j o o' k, w.objs i = .alive o → w.objs j = .alive o' → o.res = some k → o'.res = some k →
        i = j)) →
      ((∀ j o k, (w.set i (.alive o') new).objs j = .alive o → o.res = some k →
          (w.set i (.alive o') new).objs k ≠ .unused) ∧
       (∀ j l o o2 k, (w.set i (.alive o') new).objs j = .alive o → (w.set i (.alive o') new).objs l = .alive o2 →
        o.res = some k → o2.res = some k → j = l)) := by
    intro w i o o' new ho hres ⟨h1, h2⟩
    have hobj : ∀ j, (w.set i (.alive o') new).objs j = if j = i then .alive o' else w.objs j :=
      fun _ => rfl
    have hback : ∀ j p, (w.set i (.alive o') new).objs j = .alive p →
        ∃ p', w.objs j = .alive p' ∧ p'.res = p.res := by
      intro j p hj
      rw [hobj] at hj
      by_cases e : j = i
      · rw [if_pos e] at hj; cases hj; subst e; exact ⟨o, ho, hres.symm⟩
      · rw [if_neg e] at hj; exact ⟨p, hj, rfl⟩
    refine ⟨?_, ?_⟩
    · intro j p k hj hk
      obtain ⟨p', hp', e⟩ := hback j p hj
      rw [hobj]
      split
      · simp
      · exact h1 j p' k hp' (by rw [e, hk])
    · intro j l p p2 k hj hl hk hk2
      obtain ⟨p', hp', e⟩ := hback j p hj
      obtain ⟨p2', hp2', e2⟩ := hback l p2 hl
      exact h2 j l p' p2' k hp' hp2' (by rw [e, hk]) (by rw [e2, hk2])
  induction he with
  | start => exact ⟨by simp, by simp⟩
  | @step H w w' op r _ hop hs ih =>
    have hcall : ∀ {i op r w'}, callOn env w i op = .ok (r, w') →
        (∀ i o k, w'.objs i = .alive o → o.res = some k → w'.objs k ≠ .unused) ∧
        (∀ i j o o' k, w'.objs i = .alive o → w'.objs j = .alive o' → o.res = some k →
          o'.res = some k → i = j) := by
      intro i op r w' hc
      unfold callOn at hc
      split at hc
      · next o ho =>
        obtain ⟨⟨r2, st⟩, _, h2⟩ := bind_eq_ok.1 hc
        cases h2
        exact hset ho rfl ih
      · cases hc
    cases op with
    | construct i opts cookie =>
      have hu := hop.1
      simp only [wstep, hu] at hs
      cases hs
      have hobj : ∀ j, (w.set i (.alive ⟨opts, mkArena cookie, some i⟩) [(i, .init)]).objs j
          = if j = i then .alive ⟨opts, mkArena cookie, some i⟩ else w.objs j := fun _ => rfl
      refine ⟨?_, ?_⟩
      · intro j p k hj hk
        rw [hobj] at hj ⊢
        split
        · simp
        · next e =>
          by_cases e2 : j = i
          · rw [if_pos e2] at hj; cases hj; simp at hk; exact absurd hk.symm e
          · rw [if_neg e2] at hj; exact ih.1 j p k hj hk
      · intro j l p p2 k hj hl hk hk2
        rw [hobj] at hj hl
        by_cases e1 : j = i
        · by_cases e2 : l = i
          · rw [e1, e2]
          · rw [if_pos e1] at hj; cases hj; rw [if_neg e2] at hl
            simp at hk; subst hk
            exact absurd hu (ih.1 l p2 i hl hk2)
        · rw [if_neg e1] at hj
          by_cases e2 : l = i
          · rw [if_pos e2] at hl; cases hl
            simp at hk2; subst hk2
            exact absurd hu (ih.1 j p i hj hk)
          · rw [if_neg e2] at hl
            exact ih.2 j l p p2 k hj hl hk hk2
    | call i op => exact hcall hs
    | resAllocate i b a =>
      obtain ⟨o, k, o', ho, hk, ho', hc⟩ := hop
      simp only [wstep, ho, hk] at hs
      exact hcall hs
    | move src dst =>
      obtain ⟨⟨o, ho⟩, hd⟩ := hop
      simp only [wstep, ho, hd] at hs
      cases hs
      change (∀ i p k, (moved w src dst o).objs i = .alive p → p.res = some k →
          (moved w src dst o).objs k ≠ .unused) ∧ (∀ i j p p2 k, (moved w src dst o).objs i = .alive p →
          (moved w src dst o).objs j = .alive p2 → p.res = some k → p2.res = some k → i = j)
      have hback : ∀ j p k, (moved w src dst o).objs j = .alive p → p.res = some k →
          ∃ j', w.objs j' = .alive p ∧ (j' = src ↔ j = dst) ∧ (j ≠ dst → j' = j) := by
        intro j p k hj hk
        rw [moved_objs] at hj
        by_cases e : j = src
        · rw [if_pos e] at hj; cases hj; simp at hk
        · rw [if_neg e] at hj
          by_cases e2 : j = dst
          · rw [if_pos e2] at hj; cases hj; exact ⟨src, ho, by simp [e2], fun h => absurd e2 h⟩
          · rw [if_neg e2] at hj; exact ⟨j, hj, by simp [e, e2], fun _ => rfl⟩
      refine ⟨?_, ?_⟩
      · intro j p k hj hk
        obtain ⟨j', h1, _, _⟩ := hback j p k hj hk
        have := ih.1 j' p k h1 hk
        rw [moved_objs]
        split
        · simp
        · split
          · simp
          · exact this
      · intro j l p p2 k hj hl hk hk2
        obtain ⟨j', h1, h2, h3⟩ := hback j p k hj hk
        obtain ⟨l', h1', h2', h3'⟩ := hback l p2 k hl hk2
        have e := ih.2 j' l' p p2 k h1 h1' hk hk2
        by_cases ej : j = dst
        · rw [ej]; rw [← e] at h2'; exact (h2'.1 (h2.2 ej)).symm
        · by_cases el : l = dst
          · rw [e] at h2; exact absurd (h2.1 (h2'.2 el)) ej
          · rw [← h3 ej, ← h3' el, e]
    | destroy i =>
      obtain ⟨o, ho⟩ := hop
      simp only [wstep, ho] at hs
      obtain ⟨tr, _, h2⟩ := bind_eq_ok.1 hs
      cases h2
      have hobj : ∀ j, (w.set i .dead (newEvents i o.st.trace tr)).objs j
          = if j = i then .dead else w.objs j := fun _ => rfl
      have hback : ∀ j p, (w.set i .dead (newEvents i o.st.trace tr)).objs j = .alive p →
          w.objs j = .alive p := by
        intro j p hj
        rw [hobj] at hj
        by_cases e : j = i
        · rw [if_pos e] at hj; cases hj
        · rw [if_neg e] at hj; exact hj
      refine ⟨?_, ?_⟩
      · intro j p k hj hk
        rw [hobj]
        split
        · simp
        · exact ih.1 j p k (hback j p hj) hk
      · intro j l p p2 k hj hl hk hk2
        exact ih.2 j l p p2 k (hback j p hj) (hback l p2 hl) hk hk2

/-- C25: at any moment of any program, the resources of two living arenas compare equal exactly when
they are the resource of the same arena; a resource never equals one of another type.  (Hence
`is_equal` is an equivalence relation.) -/
theorem c25_equal (he : WExec env A H w) {i j k l : Nat} {o o' : Obj} (ho : w.objs i = .alive o)
    (ho' : w.objs j = .alive o') (hk : o.res = some k) (hl : o'.res = some l) :
    (isEqual k (.ofArena l) = true ↔ i = j) ∧ ∀ f, isEqual k (.foreign f) = false := by
  refine ⟨?_, fun f => rfl⟩
  unfold isEqual
  simp only [decide_eq_true_eq]
  constructor
  · intro e; subst e; exact (res_inv he).2 i j o o' k ho ho' hk hl
  · intro e; subst e; rw [ho] at ho'; cases ho'; rw [hk] at hl; cases hl; rfl

example : ∃ H w o o' k l, WExec (exEnv true 32) 32 H w ∧ w.objs 1 = .alive o ∧ w.objs 2 = .alive o' ∧
    o.res = some k ∧ o'.res = some l ∧ isEqual k (.ofArena l) = false := by
  obtain ⟨rs, H, w, he, hp⟩ := wexec_such (env := exEnv true 32) (A := 32) (ops := wsample)
    (P := fun _ H w => match w.objs 1, w.objs 2 with
      | .alive o, .alive o' => o.res.isSome && o'.res.isSome
      | _, _ => false) (by decide +kernel)
  split at hp
  · next o o' ho ho' =>
    simp only [Bool.and_eq_true, Option.isSome_iff_exists] at hp
    obtain ⟨⟨k, hk⟩, ⟨l, hl⟩⟩ := hp
    refine ⟨H, w, o, o', k, l, he, ho, ho', hk, hl, ?_⟩
    have := (c25_equal he ho ho' hk hl).1
    rcases hb : isEqual k (.ofArena l) with _ | _
    · rfl
    · have := this.1 hb; omega
  · cases hp

example : ∃ st st', Exec sampleCfg 32 (sampleHist.take 4) st ∧
    step sampleCfg st (.pmrAllocate 100 16) = .ok (.ptr (some 9216), st') ∧ 16 ∣ 9216 ∧
    ∀ r ∈ [⟨9192, 24⟩, ⟨4192, 5000⟩, ⟨64, 24⟩], Region.Disjoint ⟨9216, 100⟩ r := by
  obtain ⟨st, st', h1, h2, h3, _⟩ := sample_step 4 (by decide)
  obtain ⟨h4, h5, h6⟩ := c25_guarantees (by decide) sample_good sample_sane h1 h2 h3
  exact ⟨st, st', h1, h3, h4, h6⟩

end Verif.Arena
