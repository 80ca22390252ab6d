import Verif.Arena.World

/-!
The invariant of a program with several arenas.
-/

namespace Verif.Arena

open Verif.Align

variable {env : Env} {A : Nat} {H : Nat → Hist} {w w' : World}

theorem newEvents_append (i : Nat) (old l : List Ev) :
    newEvents i old (l ++ old) = l.map (fun e => (i, e)) := by
  unfold newEvents
  rw [List.length_append, Nat.add_sub_cancel, List.take_left]

theorem newEvents_snd (i : Nat) (old l : List Ev) :
    (newEvents i old (l ++ old)).map Prod.snd = l := by
  rw [newEvents_append, List.map_map]
  simp [Function.comp_def]

/-- The local view `t` of one arena and the view `w` of the world, with the blocks `O` of the
others. -/
structure Coh (O : Region → Prop) (t w : List Ev) : Prop where
  mem : ∀ r, r ∈ held w ↔ r ∈ held t ∨ O r
  apart : ∀ r s, O r → s ∈ held t → Region.Disjoint s r
  pos : ∀ r, O r → 0 < r.len

theorem disjoint_start {r s : Region} (h : Region.Disjoint r s) (hr : 0 < r.len) (hs : 0 < s.len) :
    r.start ≠ s.start := by
  intro e
  exact h r.start ⟨⟨Nat.le_refl _, by omega⟩, ⟨by omega, by omega⟩⟩

theorem TI.dealloc_held {p : Nat} {tr : List Ev} (h1 : TI tr) (h2 : TI (.dealloc p :: tr)) :
    ∃ b ∈ held tr, b.start = p := by
  have e1 := h1.bal p
  have e2 := h2.bal p
  rw [held_dealloc] at e2
  have h0 : (((held tr).filter (fun r => r.start ≠ p)).map Region.start).count p = 0 := by
    rw [List.count_eq_zero]
    intro hm
    obtain ⟨r, hr, e⟩ := List.mem_map.1 hm
    simpa [e] using (List.mem_filter.1 hr).2
  rw [h0] at e2
  simp only [allocs, deallocs, List.countP_cons, List.count_cons] at e1 e2
  have : 0 < ((held tr).map Region.start).count p := by simp at e2; omega
  obtain ⟨b, hb, e⟩ := List.mem_map.1 (List.count_pos_iff.1 this)
  exact ⟨b, hb, e⟩

/-- Weaving the events of one arena into the world keeps the views coherent. -/
theorem weave {O : Region → Prop} {T0 W0 evs : List Ev} (hl : Always TI (evs ++ T0))
    (hw : Always TI W0) (hc : Coh O T0 W0)
    (hf : ∀ l s p, (Ev.blockAlloc s (some p) :: l) <:+ evs → Coh O (l ++ T0) (l ++ W0) →
      ∀ r ∈ held (l ++ W0), Region.Disjoint ⟨p, s⟩ r) :
    Coh O (evs ++ T0) (evs ++ W0) ∧ Always TI (evs ++ W0) := by
  induction evs with
  | nil => exact ⟨hc, hw⟩
  | cons e evs ih =>
    obtain ⟨ih1, ih2⟩ := ih (fun s hs => hl s (hs.trans (List.suffix_cons _ _)))
      (fun l s p h => hf l s p (h.trans (List.suffix_cons _ _)))
    have hl0 : TI (evs ++ T0) := hl _ (List.suffix_cons _ _)
    have hl1 : TI (e :: (evs ++ T0)) := hl _ (List.suffix_refl _)
    have neutral : Neutral e → Coh O (e :: (evs ++ T0)) (e :: (evs ++ W0)) ∧
        Always TI (e :: (evs ++ W0)) := by
      intro he
      refine ⟨⟨?_, ?_, ih1.pos⟩, ih2.cons (TI.neutral he)⟩
      · intro r; rw [held_neutral he, held_neutral he]; exact ih1.mem r
      · intro r s; rw [held_neutral he]; exact ih1.apart r s
    cases e with
    | blockAlloc s a =>
      cases a with
      | none => exact neutral trivial
      | some p =>
        have hd := hf evs s p (List.suffix_refl _) ih1
        have hs : 0 < s := hl1.pos ⟨p, s⟩ (by rw [held_some]; exact List.mem_cons_self)
        refine ⟨⟨?_, ?_, ih1.pos⟩, ih2.cons (TI.block hs hd)⟩
        · intro r
          rw [List.cons_append, List.cons_append, held_some, held_some, List.mem_cons, List.mem_cons,
            ih1.mem r, or_assoc]
        · intro r s' hr hs'
          rw [List.cons_append, held_some, List.mem_cons] at hs'
          rcases hs' with rfl | hs'
          · exact hd r ((ih1.mem r).2 (.inr hr))
          · exact ih1.apart r s' hr hs'
    | dealloc p =>
      obtain ⟨b, hb, rfl⟩ := hl0.dealloc_held hl1
      have hbw : b ∈ held (evs ++ W0) := (ih1.mem b).2 (.inl hb)
      refine ⟨⟨?_, ?_, ih1.pos⟩, ih2.cons (TI.dealloc hbw)⟩
      · intro r
        rw [List.cons_append, List.cons_append, held_dealloc, held_dealloc, List.mem_filter,
          List.mem_filter, ih1.mem r]
        constructor
        · rintro ⟨h | h, h2⟩
          · exact .inl ⟨h, h2⟩
          · exact .inr h
        · rintro (⟨h, h2⟩ | h)
          · exact ⟨.inl h, h2⟩
          · refine ⟨.inr h, ?_⟩
            have := disjoint_start (ih1.apart r b h hb) (hl0.pos b hb) (ih1.pos r h)
            simpa using fun e => this e.symm
      · intro r s hr hs
        rw [List.cons_append, held_dealloc] at hs
        exact ih1.apart r s hr (List.mem_filter.1 hs).1
    | _ => exact neutral trivial

/-- An arena as it would run alone: an execution under some admissible strategy with the arena's
options. -/
def Alone (env : Env) (A : Nat) (h : Hist) (o : Obj) : Prop :=
  GoodOpts o.opts ∧ ∃ cfg : Cfg, cfg.normal = o.opts.normal ∧ cfg.huge = o.opts.huge ∧
    cfg.init = o.opts.init ∧ cfg.dbg = env.dbg ∧ Sane A cfg ∧ Exec cfg A h o.st

/-- The invariant. -/
structure WInv (env : Env) (A : Nat) (H : Nat → Hist) (w : World) : Prop where
  alone : ∀ i o, w.objs i = .alive o → Alone env A (H i) o
  mem : ∀ r, r ∈ held w.events ↔ ∃ i o, w.objs i = .alive o ∧ r ∈ held o.st.trace
  apart : ∀ i j o o', i ≠ j → w.objs i = .alive o → w.objs j = .alive o' →
    ∀ r ∈ held o.st.trace, ∀ s ∈ held o'.st.trace, Region.Disjoint r s
  always : Always TI w.events

/-- The blocks of the arenas other than `i`. -/
def others (w : World) (i : Nat) (r : Region) : Prop :=
  ∃ j o, j ≠ i ∧ w.objs j = .alive o ∧ r ∈ held o.st.trace

theorem WInv.coh (hi : WInv env A H w) {i : Nat} {o : Obj} (ho : w.objs i = .alive o) :
    Coh (others w i) o.st.trace w.events := by
  refine ⟨?_, ?_, ?_⟩
  · intro r
    rw [hi.mem]
    constructor
    · rintro ⟨j, o', hj, hr⟩
      by_cases e : j = i
      · subst e; rw [ho] at hj; cases hj; exact .inl hr
      · exact .inr ⟨j, o', e, hj, hr⟩
    · rintro (h | ⟨j, o', _, hj, hr⟩)
      · exact ⟨i, o, ho, h⟩
      · exact ⟨j, o', hj, hr⟩
  · rintro r s ⟨j, o', hne, hj, hr⟩ hs
    exact hi.apart i j o o' (Ne.symm hne) ho hj s hs r hr
  · rintro r ⟨j, o', _, hj, hr⟩
    exact hi.always.here.pos r ((hi.mem r).2 ⟨j, o', hj, hr⟩)

theorem disjoint_symm {r s : Region} (h : Region.Disjoint r s) : Region.Disjoint s r :=
  fun x hx => h x ⟨hx.2, hx.1⟩

/-- Replacing arena `i`, after weaving in its events. -/
theorem WInv.set (hi : WInv env A H w) {i : Nat} {o : Obj}
    {evs : List Ev} {slot : Slot} {h : Hist}
    (hc : Coh (others w i) (evs ++ o.st.trace) (evs ++ w.events))
    (hal : Always TI (evs ++ w.events))
    (hslot : (∃ o', slot = .alive o' ∧ o'.st.trace = evs ++ o.st.trace ∧ Alone env A h o') ∨
      (slot = .dead ∧ held (evs ++ o.st.trace) = [])) :
    WInv env A (setH H i h) (w.set i slot (newEvents i o.st.trace (evs ++ o.st.trace))) := by
  have hev : (w.set i slot (newEvents i o.st.trace (evs ++ o.st.trace))).events = evs ++ w.events := by
    unfold World.events World.set
    rw [List.map_append, newEvents_snd]
  have hobj : ∀ j, (w.set i slot (newEvents i o.st.trace (evs ++ o.st.trace))).objs j
      = if j = i then slot else w.objs j := fun j => rfl
  refine ⟨?_, ?_, ?_, ?_⟩
  · intro j o' hj
    rw [hobj] at hj
    unfold setH
    by_cases e : j = i
    · rw [if_pos e] at hj ⊢
      rcases hslot with ⟨o2, h1, _, h3⟩ | ⟨h1, _⟩
      · rw [h1] at hj; cases hj; exact h3
      · rw [h1] at hj; cases hj
    · rw [if_neg e] at hj ⊢
      exact hi.alone j o' hj
  · intro r
    rw [hev, hc.mem]
    constructor
    · rintro (h | ⟨j, o', hne, hj, hr⟩)
      · rcases hslot with ⟨o2, h1, h2, _⟩ | ⟨_, h2⟩
        · exact ⟨i, o2, by rw [hobj, if_pos rfl, h1], by rw [h2]; exact h⟩
        · rw [h2] at h; simp at h
      · exact ⟨j, o', by rw [hobj, if_neg hne, hj], hr⟩
    · rintro ⟨j, o', hj, hr⟩
      rw [hobj] at hj
      by_cases e : j = i
      · rw [if_pos e] at hj
        rcases hslot with ⟨o2, h1, h2, _⟩ | ⟨h1, _⟩
        · rw [h1] at hj; cases hj; rw [h2] at hr; exact .inl hr
        · rw [h1] at hj; cases hj
      · rw [if_neg e] at hj
        exact .inr ⟨j, o', e, hj, hr⟩
  · have key : ∀ j o1 o2, j ≠ i → slot = .alive o1 → w.objs j = .alive o2 →
        ∀ r ∈ held o1.st.trace, ∀ s ∈ held o2.st.trace, Region.Disjoint r s := by
      intro j o1 o2 hne h1 h2 r hr s hs
      rcases hslot with ⟨o3, h3, h4, _⟩ | ⟨h3, _⟩
      · rw [h1] at h3; cases h3
        rw [h4] at hr
        exact hc.apart s r ⟨j, o2, hne, h2, hs⟩ hr
      · rw [h1] at h3; cases h3
    intro j k o1 o2 hne hj hk r hr s hs
    rw [hobj] at hj hk
    by_cases e1 : j = i
    · have e2 : k ≠ i := fun e => hne (e1.trans e.symm)
      rw [if_pos e1] at hj; rw [if_neg e2] at hk
      exact key k o1 o2 e2 hj hk r hr s hs
    · rw [if_neg e1] at hj
      by_cases e2 : k = i
      · rw [if_pos e2] at hk
        exact disjoint_symm (key j o2 o1 e1 hk hj s hs r hr)
      · rw [if_neg e2] at hk
        exact hi.apart j k o1 o2 hne hj hk r hr s hs
  · rw [hev]; exact hal

theorem goodCfg_of {o : Opts} {cfg : Cfg} (h : GoodOpts o) (h1 : cfg.normal = o.normal)
    (h2 : cfg.huge = o.huge) (h3 : cfg.init = o.init) : GoodCfg cfg := by
  obtain ⟨a, b, c, d, e, f, g⟩ := h
  exact ⟨by rw [h1]; exact a, by rw [h1]; exact b, by rw [h2]; exact c, by rw [h3]; exact d,
    by rw [h1]; exact e, by rw [h2]; exact f, by rw [h3]; exact g⟩

/-- The strategy under which arena `i` runs alone: the recorded answers `cfg` up to now, from then on
the answers of the world, as long as the view is coherent. -/
noncomputable def soloCfg (env : Env) (w : World) (i : Nat) (o : Obj) (cfg : Cfg) : Cfg :=
  open Classical in
  { cfg with blockAlloc := fun tr s =>
      if o.st.trace <:+ tr then
        if ∀ r ∈ held tr, r ∈ held ((newEvents i o.st.trace tr ++ w.trace).map Prod.snd) then
          env.blockAlloc (newEvents i o.st.trace tr ++ w.trace) s
        else none
      else cfg.blockAlloc tr s }

theorem soloCfg_some {i : Nat} {o : Obj} {cfg : Cfg} {tr : List Ev} {s p : Nat}
    (h : (soloCfg env w i o cfg).blockAlloc tr s = some p) :
    (env.blockAlloc (newEvents i o.st.trace tr ++ w.trace) s = some p ∧
      ∀ r ∈ held tr, r ∈ held ((newEvents i o.st.trace tr ++ w.trace).map Prod.snd)) ∨
    cfg.blockAlloc tr s = some p := by
  unfold soloCfg at h
  simp only at h
  split at h
  · split at h
    · next h2 => exact .inl ⟨h, h2⟩
    · cases h
  · exact .inr h

theorem soloCfg_sane (hw : WSane A env) {i : Nat} {o : Obj} {cfg : Cfg} (hs : Sane A cfg) :
    Sane A (soloCfg env w i o cfg) := by
  refine ⟨?_, ?_, ?_, ?_⟩
  · intro tr s p h
    rcases soloCfg_some h with ⟨h, _⟩ | h
    · exact hw.aligned _ _ _ h
    · exact hs.aligned _ _ _ h
  · intro tr s p h
    rcases soloCfg_some h with ⟨h, _⟩ | h
    · exact hw.nonnull _ _ _ h
    · exact hs.nonnull _ _ _ h
  · intro tr s p h
    rcases soloCfg_some h with ⟨h, _⟩ | h
    · exact hw.fits _ _ _ h
    · exact hs.fits _ _ _ h
  · intro tr s p h r hr
    rcases soloCfg_some h with ⟨h, h2⟩ | h
    · exact hw.fresh _ _ _ h r (h2 r hr)
    · exact hs.fresh _ _ _ h r hr

/-- One call on arena `i`, in the world and alone. -/
theorem call_ok (hA : 8 ∣ A) (hw : WSane A env) (hi : WInv env A H w) {i : Nat} {o : Obj}
    (ho : w.objs i = .alive o) {op : Op} (hop : Contract A (H i) op) :
    ∃ r st evs, (∃ cfg, GoodCfg cfg ∧ Sane A cfg ∧ Exec cfg A (H i) o.st ∧
        step cfg o.st op = .ok (r, st)) ∧ st.trace = evs ++ o.st.trace ∧
      callOn env w i op = .ok (r, w.set i (.alive { o with st := st }) (newEvents i o.st.trace st.trace)) ∧
      WInv env A (setH H i (H i ++ [(op, r)]))
        (w.set i (.alive { o with st := st }) (newEvents i o.st.trace st.trace)) := by
  obtain ⟨hgo, cfg, hn, hh, hin, hd, hsane, hex⟩ := hi.alone i o ho
  have hs3 : Sane A (soloCfg env w i o cfg) := soloCfg_sane hw hsane
  have hg3 : GoodCfg (soloCfg env w i o cfg) := goodCfg_of hgo hn hh hin
  have hex3 : Exec (soloCfg env w i o cfg) A (H i) o.st := by
    refine exec_replay hex ⟨rfl, rfl, rfl, rfl⟩ ?_
    intro tr s a h1 h2
    have hnot : ¬ o.st.trace <:+ tr := by
      intro h
      have := h.length_le
      have := h2.length_le
      simp at this
      omega
    have := exec_honest hex tr s a h1 h2
    unfold soloCfg
    simp only [if_neg hnot]
    exact this
  obtain ⟨wf, hne⟩ := exec_inv hA hg3 hs3 hex3
  obtain ⟨r, st, hok⟩ := step_ok hA hg3 hs3 wf hne hop
  have hex4 : Exec (soloCfg env w i o cfg) A (H i ++ [(op, r)]) st := .step hex3 hop hok.eq
  have hopts : SameOpts (soloCfg env w i o cfg) (localCfg env w i o) :=
    ⟨hn.symm, hh.symm, hin.symm, hd.symm⟩
  obtain ⟨⟨evs, hev⟩, hhon, hloc⟩ := step_local hopts op r st hok.eq
  have hTI := (exec_trace hA hg3 hs3 hex4).always
  rw [← hev] at hTI
  have hnew : ∀ l, newEvents i o.st.trace (l ++ o.st.trace) ++ w.trace
      = l.map (fun e => (i, e)) ++ w.trace := fun l => by rw [newEvents_append]
  have hsnd : ∀ l : List Ev, ((newEvents i o.st.trace (l ++ o.st.trace)) ++ w.trace).map Prod.snd
      = l ++ w.events := by
    intro l; rw [List.map_append, newEvents_snd]; rfl
  have hans : ∀ l s a, (Ev.blockAlloc s a :: l) <:+ evs →
      a = (soloCfg env w i o cfg).blockAlloc (l ++ o.st.trace) s := by
    intro l s a h
    refine hhon _ s a (List.suffix_append _ _) ?_
    rw [← hev, ← List.cons_append]
    obtain ⟨pre, rfl⟩ := h
    exact ⟨pre, by simp⟩
  have hsolo : ∀ l s, (∀ r ∈ held (l ++ o.st.trace), r ∈ held (l ++ w.events)) →
      (soloCfg env w i o cfg).blockAlloc (l ++ o.st.trace) s
        = (localCfg env w i o).blockAlloc (l ++ o.st.trace) s := by
    intro l s h
    unfold soloCfg localCfg
    simp only [if_pos (List.suffix_append l o.st.trace), hsnd]
    rw [if_pos h]
  have hwv := weave (W0 := w.events) hTI hi.always (hi.coh ho) (by
    intro l s p h hcoh r hr
    have h1 := hans l s _ h
    have h2 := hsolo l s (fun r hr => (hcoh.mem r).2 (.inl hr))
    rw [h2] at h1
    exact hw.fresh _ _ _ h1.symm r (by rw [hsnd]; exact hr))
  have hlocal : Honest (localCfg env w i o) o.st.trace st.trace := by
    intro tr s a h1 h2
    obtain ⟨l, rfl⟩ := h1
    rw [← hev] at h2
    have h3 : (Ev.blockAlloc s a :: l) <:+ evs := by
      obtain ⟨pre, h⟩ := h2
      refine ⟨pre, ?_⟩
      rw [← List.cons_append, ← List.append_assoc] at h
      exact List.append_cancel_right h
    have h4 : l <:+ evs := (List.suffix_cons _ _).trans h3
    have hTI' : Always TI (l ++ o.st.trace) := by
      obtain ⟨pre, rfl⟩ := h4
      intro s hs
      exact hTI s (hs.trans ⟨pre, by simp⟩)
    have hcoh := (weave (W0 := w.events) hTI' hi.always (hi.coh ho) (by
      intro l' s p h hcoh r hr
      have h1 := hans l' s _ (h.trans h4)
      have h2 := hsolo l' s (fun r hr => (hcoh.mem r).2 (.inl hr))
      rw [h2] at h1
      exact hw.fresh _ _ _ h1.symm r (by rw [hsnd]; exact hr))).1
    rw [hans l s a h3]
    exact hsolo l s (fun r hr => (hcoh.mem r).2 (.inl hr))
  have hstep := hloc hlocal
  refine ⟨r, st, evs, ⟨_, hg3, hs3, hex3, hok.eq⟩, hev.symm, ?_, ?_⟩
  · unfold callOn
    rw [ho]
    simp only [hstep, ok_bind, pure_eq_ok]
  · have := hi.set (h := H i ++ [(op, r)]) (slot := .alive { o with st := st }) hwv.1 hwv.2
      (.inl ⟨_, rfl, hev.symm, hgo, soloCfg env w i o cfg, hn, hh, hin, hd, hs3, hex4⟩)
    rw [hev] at this
    exact this

/-- Destroying arena `i`. -/
theorem destroy_world (hA : 8 ∣ A) (hi : WInv env A H w) {i : Nat} {o : Obj}
    (ho : w.objs i = .alive o) :
    ∃ tr evs waste, destroy (localCfg env w i o) o.st = .ok tr ∧
      tr = .destroyed o.st.space waste o.st.cookie :: (evs.reverse ++ o.st.trace) ∧
      Teardown (held o.st.trace) (pending (H i)) evs [] ∧
      WInv env A (setH H i []) (w.set i .dead (newEvents i o.st.trace tr)) := by
  obtain ⟨hgo, cfg, hn, hh, hin, hd, hsane, hex⟩ := hi.alone i o ho
  have hg : GoodCfg cfg := goodCfg_of hgo hn hh hin
  obtain ⟨wf, hne⟩ := exec_inv hA hg hsane hex
  obtain ⟨evs, h1, h2⟩ := destroy_ok (cfg := localCfg env w i o) wf
  have hTI := (exec_trace hA hg hsane hex).always
  have hTI2 : Always TI (.destroyed o.st.space (unused o.st.blocks) o.st.cookie ::
      (evs.reverse ++ o.st.trace)) := (h2.always rfl hTI).cons (TI.neutral trivial)
  have hheld : held (.destroyed o.st.space (unused o.st.blocks) o.st.cookie ::
      (evs.reverse ++ o.st.trace)) = [] := h2.held rfl
  have hq : ∀ e ∈ evs, ∀ s a, e ≠ .blockAlloc s a := by
    have : ∀ {hd rest : List Region} {pend : List Pending} {evs : List Ev},
        Teardown hd pend evs rest → ∀ e ∈ evs, ∀ s a, e ≠ Ev.blockAlloc s a := by
      intro hd rest pend evs ht
      induction ht with
      | done _ => simp
      | cleanup _ _ ih => intro e he; rcases List.mem_cons.1 he with rfl | he; simp; exact ih e he
      | dealloc _ _ ih => intro e he; rcases List.mem_cons.1 he with rfl | he; simp; exact ih e he
      | hook u w c _ ih => intro e he; rcases List.mem_cons.1 he with rfl | he; simp; exact ih e he
    exact this h2
  rw [← List.cons_append] at hTI2 hheld
  have hwv := weave (W0 := w.events) hTI2 hi.always (hi.coh ho) (by
    intro l s p h
    exfalso
    have hm : Ev.blockAlloc s (some p) ∈ _ := h.subset List.mem_cons_self
    rcases List.mem_cons.1 hm with hm | hm
    · cases hm
    · exact hq _ (List.mem_reverse.1 hm) _ _ rfl)
  refine ⟨_, evs, _, h1, rfl, h2, ?_⟩
  have := hi.set (h := []) (slot := .dead) hwv.1 hwv.2 (.inr ⟨rfl, hheld⟩)
  exact this

/-- A new arena (or a moved-from one) is one that ran alone. -/
theorem alone_new {opts : Opts} (hg : GoodOpts opts) (cookie res : Option Nat) :
    Alone env A [] ⟨opts, mkArena cookie, res⟩ := by
  refine ⟨hg, ⟨opts.normal, opts.huge, opts.init, env.dbg, fun _ _ => none⟩, rfl, rfl, rfl, rfl, ?_, .init _⟩
  exact ⟨by simp, by simp, by simp, by simp⟩

theorem WInv.construct (hi : WInv env A H w) {i : Nat} (ho : w.objs i = .unused) {opts : Opts}
    (hg : GoodOpts opts) (cookie res : Option Nat) :
    WInv env A (setH H i []) (w.set i (.alive ⟨opts, mkArena cookie, res⟩) [(i, .init)]) := by
  have hobj : ∀ j, (w.set i (.alive ⟨opts, mkArena cookie, res⟩) [(i, .init)]).objs j
      = if j = i then .alive ⟨opts, mkArena cookie, res⟩ else w.objs j := fun j => rfl
  have hev : (w.set i (.alive ⟨opts, mkArena cookie, res⟩) [(i, .init)]).events = .init :: w.events := rfl
  have hnil : held (mkArena cookie).trace = [] := rfl
  refine ⟨?_, ?_, ?_, ?_⟩
  · intro j o hj
    rw [hobj] at hj
    unfold setH
    by_cases e : j = i
    · rw [if_pos e] at hj ⊢; cases hj; exact alone_new hg _ _
    · rw [if_neg e] at hj ⊢; exact hi.alone j o hj
  · intro r
    rw [hev, held_neutral (e := .init) trivial, hi.mem]
    constructor
    · rintro ⟨j, o, hj, hr⟩
      have e : j ≠ i := by rintro rfl; rw [ho] at hj; cases hj
      exact ⟨j, o, by rw [hobj, if_neg e, hj], hr⟩
    · rintro ⟨j, o, hj, hr⟩
      rw [hobj] at hj
      by_cases e : j = i
      · rw [if_pos e] at hj; cases hj; simp [hnil] at hr
      · rw [if_neg e] at hj; exact ⟨j, o, hj, hr⟩
  · intro j k o1 o2 hne hj hk r hr s hs
    rw [hobj] at hj hk
    by_cases e1 : j = i
    · rw [if_pos e1] at hj; cases hj; simp [hnil] at hr
    · by_cases e2 : k = i
      · rw [if_pos e2] at hk; cases hk; simp [hnil] at hs
      · rw [if_neg e1] at hj; rw [if_neg e2] at hk
        exact hi.apart j k o1 o2 hne hj hk r hr s hs
  · rw [hev]; exact hi.always.cons (TI.neutral trivial)

/-- The world after a move. -/
def moved (w : World) (src dst : Nat) (o : Obj) : World :=
  (w.set dst (.alive o) []).set src (.alive ⟨o.opts, mkArena none, none⟩) []

theorem moved_objs (src dst : Nat) (o : Obj) (j : Nat) : (moved w src dst o).objs j =
    if j = src then .alive ⟨o.opts, mkArena none, none⟩ else if j = dst then .alive o else w.objs j := rfl

theorem WInv.move (hi : WInv env A H w) {src dst : Nat} {o : Obj} (ho : w.objs src = .alive o)
    (hd : w.objs dst = .unused) :
    WInv env A (setH (setH H dst (H src)) src []) (moved w src dst o) := by
  have hsd : dst ≠ src := by rintro rfl; rw [ho] at hd; cases hd
  have hal := hi.alone src o ho
  have hnil : held (mkArena none).trace = [] := rfl
  -- where the blocks of an arena were before the move
  have back : ∀ j o', (moved w src dst o).objs j = .alive o' →
      (j = src ∧ o'.st.trace = (mkArena none).trace) ∨ (j = dst ∧ o' = o) ∨
      (j ≠ src ∧ j ≠ dst ∧ w.objs j = .alive o') := by
    intro j o' hj
    rw [moved_objs] at hj
    by_cases e : j = src
    · rw [if_pos e] at hj; cases hj; exact .inl ⟨e, rfl⟩
    · rw [if_neg e] at hj
      by_cases e2 : j = dst
      · rw [if_pos e2] at hj; cases hj; exact .inr (.inl ⟨e2, rfl⟩)
      · rw [if_neg e2] at hj; exact .inr (.inr ⟨e, e2, hj⟩)
  have hdst : (moved w src dst o).objs dst = .alive o := by
    rw [moved_objs, if_neg hsd, if_pos rfl]
  refine ⟨?_, ?_, ?_, hi.always⟩
  · intro j o' hj
    rw [moved_objs] at hj
    unfold setH
    by_cases e : j = src
    · rw [if_pos e] at hj ⊢; cases hj; exact alone_new hal.1 _ _
    · rw [if_neg e] at hj ⊢
      by_cases e2 : j = dst
      · rw [if_pos e2] at hj ⊢; cases hj; exact hal
      · rw [if_neg e2] at hj ⊢; exact hi.alone j o' hj
  · intro r
    show r ∈ held w.events ↔ _
    rw [hi.mem]
    constructor
    · rintro ⟨j, o', hj, hr⟩
      by_cases e : j = src
      · subst e; rw [ho] at hj; cases hj; exact ⟨dst, o, hdst, hr⟩
      · have e2 : j ≠ dst := by rintro rfl; rw [hd] at hj; cases hj
        exact ⟨j, o', by rw [moved_objs, if_neg e, if_neg e2, hj], hr⟩
    · rintro ⟨j, o', hj, hr⟩
      rcases back j o' hj with ⟨_, h⟩ | ⟨_, rfl⟩ | ⟨_, _, h⟩
      · rw [h, hnil] at hr; simp at hr
      · exact ⟨src, _, ho, hr⟩
      · exact ⟨j, o', h, hr⟩
  · intro j k o1 o2 hne hj hk r hr s hs
    rcases back j o1 hj with ⟨_, h1⟩ | ⟨e1, rfl⟩ | ⟨e1, e1', h1⟩
    · rw [h1, hnil] at hr; simp at hr
    · rcases back k o2 hk with ⟨_, h2⟩ | ⟨e2, rfl⟩ | ⟨e2, e2', h2⟩
      · rw [h2, hnil] at hs; simp at hs
      · exact absurd (e1.trans e2.symm) hne
      · exact hi.apart src k o1 o2 (Ne.symm e2) ho h2 r hr s hs
    · rcases back k o2 hk with ⟨_, h2⟩ | ⟨e2, rfl⟩ | ⟨e2, e2', h2⟩
      · rw [h2, hnil] at hs; simp at hs
      · exact hi.apart j src o1 o2 e1 h1 ho r hr s hs
      · exact hi.apart j k o1 o2 hne h1 h2 r hr s hs

theorem wexec_inv (hA : 8 ∣ A) (hw : WSane A env) (he : WExec env A H w) : WInv env A H w := by
  induction he with
  | start =>
    refine ⟨by simp, by simp [World.events, held], by simp, Always.nil TI.nil⟩
  | @step H w w' op r _ hop hs hi =>
    cases op with
    | construct i opts cookie =>
      simp only [wstep, hop.1] at hs
      cases hs
      exact hi.construct hop.1 hop.2 _ _
    | call i op =>
      obtain ⟨⟨o, ho⟩, hc⟩ := hop
      obtain ⟨r2, st, evs, _, _, h3, h4⟩ := call_ok hA hw hi ho hc
      simp only [wstep] at hs
      rw [h3] at hs
      cases hs
      exact h4
    | resAllocate i b a =>
      obtain ⟨o, k, o', ho, hk, ho', hc⟩ := hop
      obtain ⟨r2, st, evs, _, _, h3, h4⟩ := call_ok hA hw hi ho' hc
      simp only [wstep, ho, hk] at hs
      rw [h3] at hs
      cases hs
      simp only [histStep, ho, hk]
      exact h4
    | move src dst =>
      obtain ⟨⟨o, ho⟩, hd⟩ := hop
      simp only [wstep, ho, hd] at hs
      cases hs
      exact hi.move ho hd
    | destroy i =>
      obtain ⟨o, ho⟩ := hop
      obtain ⟨tr, evs, waste, h1, h2, h3, h4⟩ := destroy_world hA hi ho
      simp only [wstep, ho, h1, ok_bind, pure_eq_ok] at hs
      cases hs
      exact h4

end Verif.Arena
