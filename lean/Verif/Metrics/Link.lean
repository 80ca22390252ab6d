import Verif.Metrics.Threads
import Verif.Arena.WorldProps

/-!
C33 and C74: the metrics probes installed in a program with any number of arenas.
-/

namespace Verif.Metrics

open Verif.Arena

/-! ### The probes of a program -/

/-- A hook event of an arena as the probe sees it: cookies are resolved with `ck`, the clock shows
`now`.  Events that are not hooks give nothing.  arena/metrics.hpp:270-308. -/
def toProbe (ck : Nat → Cookie) (now : Nat) : Ev → Option Probe
  | .init => some .init
  | .newblock _ _ _ => some .newblock
  | .allocated s c => some (.allocated s (c.map ck))
  | .reset u w _ => some (.reset u w)
  | .destroyed u w c => some (.destroyed u w (c.map ck) now)
  | _ => none

/-- The probes run by a program, oldest first; the trace is newest first.  The clock may show anything
at each event. -/
def probesOf (ck : Nat → Cookie) (now : List (Nat × Ev) → Nat) : List (Nat × Ev) → List Probe
  | [] => []
  | (i, e) :: tr => probesOf ck now tr ++ (toProbe ck (now ((i, e) :: tr)) e).toList

/-- In-contract executions with the log of the operations and their results, oldest first. -/
inductive WLog (env : Env) (A : Nat) : List (WOp × Ret) → (Nat → Hist) → World → Prop where
  | start : WLog env A [] (fun _ => []) ⟨fun _ => .unused, []⟩
  | step {log : List (WOp × Ret)} {H : Nat → Hist} {w w' : World} {op : WOp} {r : Ret} :
      WLog env A log H w → WContract A H w op → wstep env w op = .ok (r, w') →
      WLog env A (log ++ [(op, r)]) (histStep H w r op) w'

/-- The arena call made by an operation. -/
def callOf : WOp × Ret → Option (Op × Ret)
  | (.call _ op, r) => some (op, r)
  | (.resAllocate _ b a, r) => some (.pmrAllocate b a, r)
  | _ => none

/-- The number a `Reset` returned. -/
def resetOf : Op × Ret → Option Nat
  | (.reset, .num n) => some n
  | _ => none

/-- The blocks obtained from `block_alloc`. -/
def obtained (evs : List Ev) : Nat :=
  evs.countP (fun e => match e with | .blockAlloc _ (some _) => true | _ => false)

variable {env : Env} {A : Nat} {H : Nat → Hist} {w w' : World} {log : List (WOp × Ret)}

theorem WLog.exec (h : WLog env A log H w) : WExec env A H w := by
  induction h with
  | start => exact .start
  | step _ h1 h2 ih => exact .step ih h1 h2

/-! ### What the events of an operation are -/

/-- Calls of `on_arena_newblock`. -/
def newblocks (evs : List Ev) : Nat :=
  evs.countP (fun e => match e with | .newblock _ _ _ => true | _ => false)
/-- Space reported to `on_arena_reset`, newest first. -/
def resetHooks (evs : List Ev) : List Nat :=
  evs.filterMap (fun e => match e with | .reset u _ _ => some u | _ => none)
/-- Calls of `on_arena_destruction`. -/
def destroys (evs : List Ev) : Nat :=
  evs.countP (fun e => match e with | .destroyed _ _ _ => true | _ => false)
/-- Calls of `on_arena_init`. -/
def inits (evs : List Ev) : Nat :=
  evs.countP (fun e => match e with | .init => true | _ => false)

/-- The hooks among some events. -/
structure Counts (evs : List Ev) (allocs resets : List Nat) (destr ini : Nat) (cookie : Option Nat) : Prop where
  alloc : allocHooks evs = allocs
  block : newblocks evs = obtained evs
  reset : resetHooks evs = resets
  destr : destroys evs = destr
  ini : inits evs = ini
  cookie : ∀ e ∈ evs, cookieOf e = none ∨ cookieOf e = some cookie

theorem Counts.append {a b : List Ev} {x x' y y' : List Nat} {z z' i i' : Nat} {c : Option Nat}
    (h1 : Counts a x y z i c) (h2 : Counts b x' y' z' i' c) :
    Counts (a ++ b) (x ++ x') (y ++ y') (z + z') (i + i') c := by
  obtain ⟨a1, a2, a3, a4, a5, a6⟩ := h1
  obtain ⟨b1, b2, b3, b4, b5, b6⟩ := h2
  refine ⟨?_, ?_, ?_, ?_, ?_, ?_⟩
  · unfold allocHooks at *; rw [List.filterMap_append, a1, b1]
  · unfold newblocks obtained at *; rw [List.countP_append, List.countP_append, a2, b2]
  · unfold resetHooks at *; rw [List.filterMap_append, a3, b3]
  · unfold destroys at *; rw [List.countP_append, a4, b4]
  · unfold inits at *; rw [List.countP_append, a5, b5]
  · intro e he
    rcases List.mem_append.1 he with he | he
    · exact a6 e he
    · exact b6 e he

theorem grow_counts {cfg : Cfg} {c : Option Nat} {ms : List Nat} {tr tr' : List Ev}
    (h : Grow cfg c ms tr tr') : ∃ l, tr' = l ++ tr ∧ Counts l [] [] 0 0 c := by
  induction h with
  | refl => exact ⟨[], rfl, rfl, rfl, rfl, rfl, rfl, by simp⟩
  | @fail tr' m s _ _ _ _ ih =>
    obtain ⟨l, rfl, hl⟩ := ih
    refine ⟨.blockAlloc s none :: l, rfl, ?_⟩
    have : Counts [Ev.blockAlloc s none] [] [] 0 0 c := ⟨rfl, rfl, rfl, rfl, rfl, by simp [cookieOf]⟩
    exact this.append hl
  | @block tr' m s p _ _ _ _ ih =>
    obtain ⟨l, rfl, hl⟩ := ih
    refine ⟨.newblock (held (l ++ tr)).length s c :: .blockAlloc s (some p) :: l, rfl, ?_⟩
    have : Counts [Ev.newblock (held (l ++ tr)).length s c, .blockAlloc s (some p)] [] [] 0 0 c :=
      ⟨rfl, rfl, rfl, rfl, rfl, by simp [cookieOf]⟩
    exact this.append hl

theorem quiet_counts {l : List Ev} (c : Option Nat)
    (h : ∀ e ∈ l, (∃ n, e = .cleanup n) ∨ ∃ b, e = .dealloc b) : Counts l [] [] 0 0 c := by
  induction l with
  | nil => exact ⟨rfl, rfl, rfl, rfl, rfl, by simp⟩
  | cons e l ih =>
    have h1 := ih (fun x hx => h x (List.mem_cons_of_mem _ hx))
    have h2 : Counts [e] [] [] 0 0 c := by
      rcases h e List.mem_cons_self with ⟨n, rfl⟩ | ⟨b, rfl⟩
      · exact ⟨rfl, rfl, rfl, rfl, rfl, by simp [cookieOf]⟩
      · exact ⟨rfl, rfl, rfl, rfl, rfl, by simp [cookieOf]⟩
    exact h2.append h1

/-- The hooks run by one call. -/
theorem call_counts (hA : 8 ∣ A) {cfg : Cfg} {h : Hist} {st st' : St} {op : Op} {r : Ret}
    (hg : GoodCfg cfg) (hs : Sane A cfg) (hex : Exec cfg A h st) (hop : Contract A h op)
    (hst : step cfg st op = .ok (r, st')) : st'.cookie = st.cookie ∧ ∃ evs, st'.trace = evs ++ st.trace ∧
      Counts evs (hookOf (op, r)).toList (resetOf (op, r)).toList 0 0 st.cookie := by
  obtain ⟨wf, hne⟩ := exec_inv hA hg hs hex
  obtain ⟨r2, st2, hok⟩ := step_ok hA hg hs wf hne hop
  have e := hok.eq
  rw [hst] at e
  cases e
  refine ⟨hok.cookie, ?_⟩
  by_cases hr : op = .reset
  · subst hr
    obtain ⟨evs, e1, _, pre, post, e3, e4⟩ := reset_ok (cfg := cfg) wf (hne hop)
    simp only [step, e1, ok_bind, pure_eq_ok] at hst
    cases hst
    refine ⟨evs.reverse, rfl, ?_⟩
    rw [e3, List.reverse_append, List.reverse_cons, List.append_assoc]
    have h1 : Counts post.reverse [] [] 0 0 st.cookie :=
      quiet_counts _ (fun x hx => e4 x (List.mem_append_right _ (List.mem_reverse.1 hx)))
    have h2 : Counts pre.reverse [] [] 0 0 st.cookie :=
      quiet_counts _ (fun x hx => e4 x (List.mem_append_left _ (List.mem_reverse.1 hx)))
    have h3 : Counts [Ev.reset st.space (unused st.blocks) st.cookie] [] [st.space] 0 0 st.cookie :=
      ⟨rfl, rfl, rfl, rfl, rfl, by simp [cookieOf]⟩
    exact h1.append (h3.append h2)
  · obtain ⟨tr', hgr, htr⟩ := hok.grow hr
    obtain ⟨l, rfl, hl⟩ := grow_counts hgr
    refine ⟨_, by rw [htr, ← List.append_assoc], ?_⟩
    have hro : resetOf (op, r) = none := by
      unfold resetOf
      split
      · next h => cases h; exact absurd rfl hr
      · rfl
    rw [hro]
    cases hh : hookOf (op, r) with
    | none => exact hl
    | some b =>
      have : Counts [Ev.allocated b st.cookie] [b] [] 0 0 st.cookie :=
        ⟨rfl, rfl, rfl, rfl, rfl, by simp [cookieOf]⟩
      exact this.append hl

theorem teardown_quiet {hd rest : List Region} {pend : List Pending} {evs : List Ev}
    (h : Teardown hd pend evs rest) : ∀ e ∈ evs, (∃ n, e = .cleanup n) ∨ (∃ b, e = .dealloc b) ∨
      ∃ u w c, e = .reset u w c := by
  induction h with
  | done _ => simp
  | cleanup _ _ ih =>
    intro e he
    rcases List.mem_cons.1 he with rfl | he
    · exact .inl ⟨_, rfl⟩
    · exact ih e he
  | dealloc _ _ ih =>
    intro e he
    rcases List.mem_cons.1 he with rfl | he
    · exact .inr (.inl ⟨_, rfl⟩)
    · exact ih e he
  | hook u w c _ ih =>
    intro e he
    rcases List.mem_cons.1 he with rfl | he
    · exact .inr (.inr ⟨_, _, _, rfl⟩)
    · exact ih e he

/-- The hooks run by a destruction. -/
theorem destroy_counts (hA : 8 ∣ A) (hi : WInv env A H w) {i : Nat} {o : Obj}
    (ho : w.objs i = .alive o) :
    ∃ evs waste, destroy (localCfg env w i o) o.st
        = .ok (.destroyed o.st.space waste o.st.cookie :: (evs ++ o.st.trace)) ∧
      Counts evs [] [] 0 0 o.st.cookie := by
  obtain ⟨hgo, cfg, hn, hh, hin, hd, hsane, hex⟩ := hi.alone i o ho
  have hg : GoodCfg cfg := goodCfg_of hgo hn hh hin
  obtain ⟨⟨evs, h1, h2⟩, _⟩ := c17_reset_destroy hA hg hsane hex
  have e : destroy (localCfg env w i o) o.st = destroy cfg o.st := by
    unfold destroy localCfg
    simp only [hd]
  rw [e, h1]
  exact ⟨evs.reverse, _, rfl, quiet_counts _ (fun x hx => h2 x (List.mem_reverse.1 hx))⟩

/-! ### The log and the trace -/

/-- The calls in a log. -/
def calls (log : List (WOp × Ret)) : List (Op × Ret) := log.filterMap callOf
/-- The constructions in a log. -/
def constructions (log : List (WOp × Ret)) : Nat :=
  log.countP (fun x => match x.1 with | .construct _ _ _ => true | _ => false)
/-- The destructions in a log. -/
def destructions (log : List (WOp × Ret)) : Nat :=
  log.countP (fun x => match x.1 with | .destroy _ => true | _ => false)

/-- The hooks of a program, by its log. -/
structure LogInv (log : List (WOp × Ret)) (w : World) : Prop where
  alloc : allocHooks w.events = ((calls log).filterMap hookOf).reverse
  block : newblocks w.events = obtained w.events
  reset : resetHooks w.events = ((calls log).filterMap resetOf).reverse
  destr : destroys w.events = destructions log
  ini : inits w.events = constructions log

theorem LogInv.extend (hi : LogInv log w) {evs : List Ev} {w' : World} (hw : w'.events = evs ++ w.events)
    {x : WOp × Ret} {c : Option Nat}
    (hc : Counts evs ((callOf x).bind hookOf).toList ((callOf x).bind resetOf).toList
      (destructions [x]) (constructions [x]) c) : LogInv (log ++ [x]) w' := by
  obtain ⟨a1, a2, a3, a4, a5, a6⟩ := hc
  obtain ⟨b1, b2, b3, b4, b5⟩ := hi
  have hcalls : ∀ f : Op × Ret → Option Nat, ((calls (log ++ [x])).filterMap f).reverse
      = ((callOf x).bind f).toList ++ ((calls log).filterMap f).reverse := by
    intro f
    unfold calls
    rw [List.filterMap_append, List.filterMap_append, List.reverse_append]
    congr 1
    cases h : callOf x with
    | none => simp [h]
    | some y =>
      cases h2 : f y <;> simp [h, h2]
  refine ⟨?_, ?_, ?_, ?_, ?_⟩
  · rw [hw, hcalls, ← a1, ← b1]; unfold allocHooks; rw [List.filterMap_append]
  · rw [hw]; unfold newblocks obtained at *; rw [List.countP_append, List.countP_append, a2, b2]
  · rw [hw, hcalls, ← a3, ← b3]; unfold resetHooks; rw [List.filterMap_append]
  · rw [hw]; unfold destroys destructions at *
    rw [List.countP_append, List.countP_append, a4, b4, Nat.add_comm]
  · rw [hw]; unfold inits constructions at *
    rw [List.countP_append, List.countP_append, a5, b5, Nat.add_comm]

theorem set_events (w : World) (i : Nat) (s : Slot) (new : List (Nat × Ev)) :
    (w.set i s new).events = new.map Prod.snd ++ w.events := by
  unfold World.events World.set; rw [List.map_append]

/-- One operation: the events it adds. -/
theorem step_counts (hA : 8 ∣ A) (hw : WSane A env) (hi : WInv env A H w) {op : WOp} {r : Ret}
    (hop : WContract A H w op) (hs : wstep env w op = .ok (r, w')) :
    ∃ evs c, w'.events = evs ++ w.events ∧
      Counts evs ((callOf (op, r)).bind hookOf).toList ((callOf (op, r)).bind resetOf).toList
        (destructions [(op, r)]) (constructions [(op, r)]) c ∧
      (evs = [] ∨ evs = [.init] ∨ ∃ i o, w.objs i = .alive o ∧ o.st.cookie = c) := by
  cases op with
  | construct i opts cookie =>
    simp only [wstep, hop.1] at hs
    cases hs
    exact ⟨[.init], none, rfl, ⟨rfl, rfl, rfl, rfl, rfl, by simp [cookieOf]⟩, .inr (.inl rfl)⟩
  | call i op =>
    obtain ⟨⟨o, ho⟩, hc⟩ := hop
    obtain ⟨r2, st, evs, ⟨cfg, g1, g2, g3, g4⟩, h2, h3, h4⟩ := call_ok hA hw hi ho hc
    simp only [wstep] at hs
    rw [h3] at hs
    cases hs
    obtain ⟨_, evs', e1, e2⟩ := call_counts hA g1 g2 g3 hc g4
    refine ⟨evs', o.st.cookie, ?_, e2, .inr (.inr ⟨i, o, ho, rfl⟩)⟩
    rw [set_events, e1, newEvents_snd]
  | resAllocate i b a =>
    obtain ⟨o, k, o', ho, hk, ho', hc⟩ := hop
    obtain ⟨r2, st, evs, ⟨cfg, g1, g2, g3, g4⟩, h2, h3, h4⟩ := call_ok hA hw hi ho' hc
    simp only [wstep, ho, hk] at hs
    rw [h3] at hs
    cases hs
    obtain ⟨_, evs', e1, e2⟩ := call_counts hA g1 g2 g3 hc g4
    refine ⟨evs', o'.st.cookie, ?_, e2, .inr (.inr ⟨k, o', ho', rfl⟩)⟩
    rw [set_events, e1, newEvents_snd]
  | move src dst =>
    obtain ⟨⟨o, ho⟩, hd⟩ := hop
    simp only [wstep, ho, hd] at hs
    cases hs
    exact ⟨[], none, rfl, ⟨rfl, rfl, rfl, rfl, rfl, by simp⟩, .inl rfl⟩
  | destroy i =>
    obtain ⟨o, ho⟩ := hop
    obtain ⟨evs, waste, h1, h2⟩ := destroy_counts hA hi ho
    simp only [wstep, ho, h1, ok_bind, pure_eq_ok] at hs
    cases hs
    refine ⟨.destroyed o.st.space waste o.st.cookie :: evs, o.st.cookie, ?_, ?_, .inr (.inr ⟨i, o, ho, rfl⟩)⟩
    · rw [set_events, ← List.cons_append, newEvents_snd]
    · have : Counts [Ev.destroyed o.st.space waste o.st.cookie] [] [] 1 0 o.st.cookie :=
        ⟨rfl, rfl, rfl, rfl, rfl, by simp [cookieOf]⟩
      exact this.append h2

theorem wlog_inv (hA : 8 ∣ A) (hw : WSane A env) (h : WLog env A log H w) : LogInv log w := by
  induction h with
  | start => exact ⟨rfl, rfl, rfl, rfl, rfl⟩
  | @step log H w w' op r hl hop hs ih =>
    obtain ⟨evs, c, h1, h2, _⟩ := step_counts hA hw (wexec_inv hA hw hl.exec) hop hs
    exact ih.extend h1 h2

/-! ### From the trace to the metrics -/

theorem probesOf_total (ck : Nat → Cookie) (now : List (Nat × Ev) → Nat) (tr : List (Nat × Ev)) :
    totalAdds (probesOf ck now tr) (.ctr .alloc) = (allocHooks (tr.map Prod.snd)).length ∧
    totalAdds (probesOf ck now tr) (.ctr .spaceAllocated) = (allocHooks (tr.map Prod.snd)).sum ∧
    totalAdds (probesOf ck now tr) (.ctr .newblock) = newblocks (tr.map Prod.snd) ∧
    totalAdds (probesOf ck now tr) (.ctr .reset) = (resetHooks (tr.map Prod.snd)).length ∧
    totalAdds (probesOf ck now tr) (.ctr .spaceResettled) = (resetHooks (tr.map Prod.snd)).sum ∧
    totalAdds (probesOf ck now tr) (.ctr .destruct) = destroys (tr.map Prod.snd) ∧
    totalAdds (probesOf ck now tr) (.ctr .init) = inits (tr.map Prod.snd) := by
  induction tr with
  | nil => exact ⟨rfl, rfl, rfl, rfl, rfl, rfl, rfl⟩
  | cons x tr ih =>
    obtain ⟨i, e⟩ := x
    obtain ⟨h1, h2, h3, h4, h5, h6, h7⟩ := ih
    have hap : ∀ c, totalAdds (probesOf ck now ((i, e) :: tr)) c = totalAdds (probesOf ck now tr) c
        + totalAdds (toProbe ck (now ((i, e) :: tr)) e).toList c := by
      intro c; simp only [probesOf]; rw [totalAdds_append]
    simp only [hap, h1, h2, h3, h4, h5, h6, h7]
    cases e <;> simp [toProbe, totalAdds, adds, allocHooks, newblocks, resetHooks, destroys, inits, Nat.add_comm]

theorem map_total (es : List Probe) (h : ∀ e ∈ es, HasCookie e) :
    ((es.flatMap mapDelta).map Prod.snd).sum = totalAdds es (.ctr .spaceAllocated) := by
  induction es with
  | nil => rfl
  | cons e es ih =>
    have h1 := ih (fun x hx => h x (List.mem_cons_of_mem _ hx))
    rw [List.flatMap_cons, List.map_append, List.sum_append, h1]
    unfold totalAdds
    rw [List.map_cons, List.sum_cons]
    congr 1
    cases e with
    | allocated s c =>
      cases c with
      | none => exact absurd rfl (h _ List.mem_cons_self)
      | some c => simp [mapDelta, adds]
    | _ => rfl

/-- C33: a program with any number of arenas, all reporting to the metrics probes of one thread.  If the
probes run without fault (see C74), then the counters are exactly what the calls of the program say:
allocations and their bytes, blocks obtained, `Reset`s and the bytes they returned, constructions and
destructions, and the per-location counters sum up to all allocated bytes. -/
theorem c33_metrics (hA : 8 ∣ A) (hw : WSane A env) (h : WLog env A log H w)
    (ck : Nat → Cookie) (now : List (Nat × Ev) → Nat) {m : Metrics}
    (hm : probes .zero (probesOf ck now w.trace) = .ok m) :
    m.ctr .alloc = ((calls log).filterMap hookOf).length % M64 ∧
    m.ctr .spaceAllocated = ((calls log).filterMap hookOf).sum % M64 ∧
    m.ctr .newblock = obtained w.events % M64 ∧
    m.ctr .reset = ((calls log).filterMap resetOf).length % M64 ∧
    m.ctr .spaceResettled = ((calls log).filterMap resetOf).sum % M64 ∧
    m.ctr .destruct = destructions log % M64 ∧
    m.ctr .init = constructions log % M64 ∧
    (m.map.map Prod.snd).sum % M64 = m.ctr .spaceAllocated := by
  have hck := (probes_ok_iff .zero _).1 ⟨m, hm⟩
  obtain ⟨m', h1, h2, h3, h4⟩ := probes_get Metrics.zero_fits hck
  rw [hm] at h1
  cases h1
  have z : ∀ c, m.ctr c = totalAdds (probesOf ck now w.trace) (.ctr c) % M64 := by
    intro c
    have := h3 (.ctr c)
    simpa [Metrics.get, Metrics.zero] using this
  have hl := wlog_inv hA hw h
  obtain ⟨t1, t2, t3, t4, t5, t6, t7⟩ := probesOf_total ck now w.trace
  have hev : w.trace.map Prod.snd = w.events := rfl
  rw [hev] at t1 t2 t3 t4 t5 t6 t7
  refine ⟨?_, ?_, ?_, ?_, ?_, ?_, ?_, ?_⟩
  · rw [z, t1, hl.alloc, List.length_reverse]
  · rw [z, t2, hl.alloc, List.sum_reverse]
  · rw [z, t3, hl.block]
  · rw [z, t4, hl.reset, List.length_reverse]
  · rw [z, t5, hl.reset, List.sum_reverse]
  · rw [z, t6, hl.destr]
  · rw [z, t7, hl.ini]
  · obtain ⟨m2, g1, _, _, g4⟩ := probes_safe (m := .zero) hck
    rw [hm] at g1
    cases g1
    rw [g4, foldl_mapAdd_sum, map_total _ hck, z]
    simp [Metrics.zero]

/-! ### C74: moved-from arenas -/

/-- The program moves an arena. -/
def moves (log : List (WOp × Ret)) : Prop := ∃ src dst r, (WOp.move src dst, r) ∈ log

/-- Every construction got a cookie, as `metrics_probe_on_arena_init` always provides one. -/
def cookies (log : List (WOp × Ret)) : Prop := ∀ i o c r, (WOp.construct i o c, r) ∈ log → c ≠ none

/-- An event that makes its probe dereference a null cookie. -/
def nullEv : Ev → Prop
  | .allocated _ none => True
  | .destroyed _ _ none => True
  | _ => False

theorem probesOf_cookie (ck : Nat → Cookie) (now : List (Nat × Ev) → Nat) (tr : List (Nat × Ev)) :
    (∀ e ∈ probesOf ck now tr, HasCookie e) ↔ ∀ e ∈ tr.map Prod.snd, ¬ nullEv e := by
  induction tr with
  | nil => simp [probesOf]
  | cons x tr ih =>
    obtain ⟨i, e⟩ := x
    simp only [probesOf, List.map_cons, List.forall_mem_append, List.forall_mem_cons, ih]
    rw [and_comm]
    refine and_congr ?_ Iff.rfl
    cases e with
    | allocated s c => cases c <;> simp [toProbe, nullEv, HasCookie]
    | destroyed u w c => cases c <;> simp [toProbe, nullEv, HasCookie]
    | _ => simp [toProbe, nullEv, HasCookie]

/-- Alive arenas of a program without moves have a cookie; so do all events. -/
structure CookieInv (w : World) : Prop where
  objs : ∀ i o, w.objs i = .alive o → o.st.cookie ≠ none
  evs : ∀ e ∈ w.events, ¬ nullEv e

theorem not_null {e : Ev} {c : Option Nat} (h : cookieOf e = none ∨ cookieOf e = some c) (hc : c ≠ none) :
    ¬ nullEv e := by
  intro hn
  cases e with
  | allocated s c' => cases c' <;> simp_all [nullEv, cookieOf]
  | destroyed u w c' => cases c' <;> simp_all [nullEv, cookieOf]
  | _ => exact hn

theorem cookie_inv (hA : 8 ∣ A) (hw : WSane A env) (h : WLog env A log H w) (hm : ¬ moves log)
    (hc : cookies log) : CookieInv w := by
  induction h with
  | start => exact ⟨by simp, by simp [World.events]⟩
  | @step log H w w' op r hl hop hs ih =>
    have hm' : ¬ moves log := fun ⟨s, d, r, h⟩ => hm ⟨s, d, r, List.mem_append_left _ h⟩
    have hc' : cookies log := fun i o c r h => hc i o c r (List.mem_append_left _ h)
    have hi := ih hm' hc'
    have hwi := wexec_inv hA hw hl.exec
    obtain ⟨evs, c, h1, h2, h3⟩ := step_counts hA hw hwi hop hs
    refine ⟨?_, ?_⟩
    · cases op with
      | construct i opts cookie =>
        simp only [wstep, hop.1] at hs
        cases hs
        intro j o hj
        by_cases e : j = i
        · simp only [World.set, if_pos e, Slot.alive.injEq] at hj
          subst hj
          exact hc i opts cookie _ (List.mem_append_right _ List.mem_cons_self)
        · simp only [World.set, if_neg e] at hj
          exact hi.objs j o hj
      | call i op =>
        obtain ⟨⟨o, ho⟩, hcn⟩ := hop
        obtain ⟨r2, st, evs, ⟨cfg, g1, g2, g3, g4⟩, _, h3, _⟩ := call_ok hA hw hwi ho hcn
        simp only [wstep] at hs
        rw [h3] at hs
        cases hs
        obtain ⟨e0, _⟩ := call_counts hA g1 g2 g3 hcn g4
        intro j o' hj
        by_cases e : j = i
        · simp only [World.set, if_pos e, Slot.alive.injEq] at hj
          subst hj
          show st.cookie ≠ none
          rw [e0]; exact hi.objs i o ho
        · simp only [World.set, if_neg e] at hj
          exact hi.objs j o' hj
      | resAllocate i b a =>
        obtain ⟨o, k, o', ho, hk, ho', hcn⟩ := hop
        obtain ⟨r2, st, evs, ⟨cfg, g1, g2, g3, g4⟩, _, h3, _⟩ := call_ok hA hw hwi ho' hcn
        simp only [wstep, ho, hk] at hs
        rw [h3] at hs
        cases hs
        obtain ⟨e0, _⟩ := call_counts hA g1 g2 g3 hcn g4
        intro j o2 hj
        by_cases e : j = k
        · simp only [World.set, if_pos e, Slot.alive.injEq] at hj
          subst hj
          show st.cookie ≠ none
          rw [e0]; exact hi.objs k o' ho'
        · simp only [World.set, if_neg e] at hj
          exact hi.objs j o2 hj
      | move src dst => exact absurd ⟨src, dst, r, List.mem_append_right _ List.mem_cons_self⟩ hm
      | destroy i =>
        obtain ⟨o, ho⟩ := hop
        obtain ⟨evs, waste, g1, _⟩ := destroy_counts hA hwi ho
        simp only [wstep, ho, g1, ok_bind, pure_eq_ok] at hs
        cases hs
        intro j o' hj
        by_cases e : j = i
        · simp [World.set, if_pos e] at hj
        · simp only [World.set, if_neg e] at hj
          exact hi.objs j o' hj
    · rw [h1]
      intro e he
      rcases List.mem_append.1 he with he | he
      · rcases h3 with h3 | h3 | ⟨i, o, ho, hco⟩
        · rw [h3] at he; simp at he
        · rw [h3] at he
          rw [List.mem_singleton] at he
          subst he; exact id
        · exact not_null (h2.cookie e he) (by rw [← hco]; exact hi.objs i o ho)
      · exact hi.evs e he

/-- C74 (what is missing: moves, see `c74_violated`): in a program that does not move arenas the probes
never dereference a null cookie, so the metrics are defined and `c33_metrics` applies. -/
theorem c74_partial (hA : 8 ∣ A) (hw : WSane A env) (h : WLog env A log H w) (hm : ¬ moves log)
    (hc : cookies log) (ck : Nat → Cookie) (now : List (Nat × Ev) → Nat) :
    ∃ m, probes .zero (probesOf ck now w.trace) = .ok m :=
  (probes_ok_iff .zero _).2 ((probesOf_cookie ck now w.trace).2 (cookie_inv hA hw h hm hc).evs)

/-- After a move there is an arena without cookie, until one is destroyed. -/
theorem null_inv (hA : 8 ∣ A) (hw : WSane A env) (h : WLog env A log H w) (hm : moves log) :
    (∃ i o, w.objs i = .alive o ∧ o.st.cookie = none) ∨ ∃ e ∈ w.events, nullEv e := by
  induction h with
  | start => obtain ⟨s, d, r, h⟩ := hm; simp at h
  | @step log H w w' op r hl hop hs ih =>
    have hwi := wexec_inv hA hw hl.exec
    obtain ⟨evs, c, h1, _, _⟩ := step_counts hA hw hwi hop hs
    by_cases hml : moves log
    · rcases ih hml with ⟨i, o, ho, hco⟩ | ⟨e, he, hne⟩
      · cases op with
        | construct j opts cookie =>
          simp only [wstep, hop.1] at hs
          cases hs
          have e : i ≠ j := by rintro rfl; rw [hop.1] at ho; cases ho
          exact .inl ⟨i, o, by simp only [World.set, if_neg e, ho], hco⟩
        | call j op =>
          obtain ⟨⟨o', ho'⟩, hcn⟩ := hop
          obtain ⟨r2, st, evs, ⟨cfg, g1, g2, g3, g4⟩, _, h3, _⟩ := call_ok hA hw hwi ho' hcn
          simp only [wstep] at hs
          rw [h3] at hs
          cases hs
          obtain ⟨e0, _⟩ := call_counts hA g1 g2 g3 hcn g4
          by_cases e : i = j
          · subst e
            rw [ho] at ho'
            cases ho'
            exact .inl ⟨i, { o with st := st }, by simp only [World.set, if_true], by rw [← hco]; exact e0⟩
          · exact .inl ⟨i, o, by simp only [World.set, if_neg e, ho], hco⟩
        | resAllocate j b a =>
          obtain ⟨o2, k, o', ho2, hk, ho', hcn⟩ := hop
          obtain ⟨r2, st, evs, ⟨cfg, g1, g2, g3, g4⟩, _, h3, _⟩ := call_ok hA hw hwi ho' hcn
          simp only [wstep, ho2, hk] at hs
          rw [h3] at hs
          cases hs
          obtain ⟨e0, _⟩ := call_counts hA g1 g2 g3 hcn g4
          by_cases e : i = k
          · subst e
            rw [ho] at ho'
            cases ho'
            exact .inl ⟨i, { o with st := st }, by simp only [World.set, if_true], by rw [← hco]; exact e0⟩
          · exact .inl ⟨i, o, by simp only [World.set, if_neg e, ho], hco⟩
        | move src dst =>
          obtain ⟨⟨o', ho'⟩, hd⟩ := hop
          simp only [wstep, ho', hd] at hs
          cases hs
          exact .inl ⟨src, _, by simp only [World.set, if_true]; rfl, rfl⟩
        | destroy j =>
          obtain ⟨o', ho'⟩ := hop
          obtain ⟨evs, waste, g1, _⟩ := destroy_counts hA hwi ho'
          simp only [wstep, ho', g1, ok_bind, pure_eq_ok] at hs
          cases hs
          by_cases e : i = j
          · subst e
            rw [ho] at ho'
            cases ho'
            refine .inr ⟨.destroyed o.st.space waste o.st.cookie, ?_, by rw [hco]; exact trivial⟩
            rw [set_events, ← List.cons_append, newEvents_snd]
            exact List.mem_cons_self
          · exact .inl ⟨i, o, by simp only [World.set, if_neg e, ho], hco⟩
      · exact .inr ⟨e, by rw [h1]; exact List.mem_append_right _ he, hne⟩
    · obtain ⟨src, dst, r', hmem⟩ := hm
      rcases List.mem_append.1 hmem with hmem | hmem
      · exact absurd ⟨src, dst, r', hmem⟩ hml
      · rw [List.mem_singleton] at hmem
        cases hmem
        obtain ⟨⟨o', ho'⟩, hd⟩ := hop
        simp only [wstep, ho', hd] at hs
        cases hs
        exact .inl ⟨src, _, by simp only [World.set, if_true]; rfl, rfl⟩

/-- C74 as claimed is violated: every program that moves an arena and then ends (all arenas destroyed)
makes the probes dereference a null cookie. -/
theorem c74_violated (hA : 8 ∣ A) (hw : WSane A env) (h : WLog env A log H w) (hm : moves log)
    (hend : ∀ i o, w.objs i ≠ .alive o) (ck : Nat → Cookie) (now : List (Nat × Ev) → Nat) :
    ∃ s, probes .zero (probesOf ck now w.trace) = .error (.ub s) := by
  rcases null_inv hA hw h hm with ⟨i, o, ho, _⟩ | ⟨e, he, hn⟩
  · exact absurd ho (hend i o)
  · refine probes_unsafe (fun hall => ?_) _
    exact (probesOf_cookie ck now w.trace).1 hall e he hn

/-! ### Examples -/

theorem wtryRun_log {ops : List WOp} {rs : List Ret} {H' : Nat → Hist}
    (he : WLog env A log H w) (hr : wtryRun env A H w ops = some (rs, H', w')) :
    WLog env A (log ++ ops.zip rs) H' w' := by
  induction ops generalizing H w rs log with
  | nil =>
    simp only [wtryRun, Option.some.injEq, Prod.mk.injEq] at hr
    rw [← hr.2.1, ← hr.2.2, List.zip_nil_left, List.append_nil]; exact he
  | cons op ops ih =>
    simp only [wtryRun] at hr
    split at hr
    · split at hr
      · rename_i hc _ r w2 hs
        simp only [Option.map_eq_some_iff] at hr
        obtain ⟨⟨rs2, H2, w3⟩, h1, h2⟩ := hr
        cases h2
        have := ih (.step he (wcheck_sound hc) hs) h1
        rw [List.append_assoc] at this
        exact this
      · cases hr
    · cases hr

/-- Two arenas, one of them growing, reset and destroyed. -/
def linkOps : List WOp :=
  [.construct 0 exOpts (some 7), .construct 1 exOpts (some 8), .call 0 (.allocate 10 8),
   .call 1 (.allocate 200 8), .resAllocate 0 24 8, .call 0 (.allocate 90 8), .call 0 .reset, .call 0 (.allocate 3 8),
   .destroy 0, .destroy 1]

/-- A program that moves an arena. -/
def moveOps : List WOp :=
  [.construct 0 exOpts (some 7), .call 0 (.allocate 10 8), .move 0 1, .call 1 (.allocate 10 8), .destroy 1,
   .destroy 0]

/-- Cookies for the examples. -/
def exCk (n : Nat) : Cookie := ⟨n, ⟨['a'], n⟩⟩

theorem wlog_such {ops : List WOp} {P : List (WOp × Ret) → World → Bool}
    (hr : (wtryRun env A (fun _ => []) ⟨fun _ => .unused, []⟩ ops).map (fun x => P (ops.zip x.1) x.2.2)
      = some true) :
    ∃ log H w, WLog env A log H w ∧ P log w = true := by
  cases hx : wtryRun env A (fun _ => []) ⟨fun _ => .unused, []⟩ ops with
  | none => rw [hx] at hr; cases hr
  | some x =>
    rw [hx] at hr
    obtain ⟨rs, H, w⟩ := x
    simp only [Option.map_some, Option.some.injEq] at hr
    exact ⟨ops.zip rs, H, w, wtryRun_log .start hx, hr⟩

example : ∃ log H w, WLog (exEnv true 32) 32 log H w ∧ ∃ m,
    probes .zero (probesOf exCk (fun tr => 1000000 * tr.length) w.trace) = .ok m ∧
    m.ctr .alloc = 4 ∧ m.ctr .spaceAllocated = 303 ∧ m.ctr .destruct = 2 ∧ m.ctr .reset = 1 := by
  obtain ⟨log, H, w, h, hp⟩ := wlog_such (env := exEnv true 32) (A := 32) (ops := linkOps)
    (P := fun log _ => decide (log.map Prod.fst = linkOps ∧ (calls log).filterMap hookOf = [10, 200, 90, 3] ∧
      ((calls log).filterMap resetOf).length = 1 ∧ destructions log = 2)) (by decide +kernel)
  simp only [decide_eq_true_eq] at hp
  have hmem : ∀ op r, (op, r) ∈ log → op ∈ linkOps := by
    intro op r hm; rw [← hp.1]; exact List.mem_map.2 ⟨_, hm, rfl⟩
  obtain ⟨m, hm⟩ := c74_partial (by decide) (exEnv_sane true (by decide)) h
    (fun ⟨s, d, r, hm⟩ => by have := hmem _ r hm; simp [linkOps] at this)
    (fun i o c r hm => by
      have := hmem _ r hm
      simp only [linkOps, List.mem_cons, WOp.construct.injEq, List.not_mem_nil, reduceCtorEq, or_false] at this
      rcases this with ⟨_, _, rfl⟩ | ⟨_, _, rfl⟩ <;> simp) exCk (fun tr => 1000000 * tr.length)
  have c := c33_metrics (by decide) (exEnv_sane true (by decide)) h _ _ hm
  refine ⟨log, H, w, h, m, hm, ?_, ?_, ?_, ?_⟩
  · rw [c.1, hp.2.1]; rfl
  · rw [c.2.1, hp.2.1]; rfl
  · rw [c.2.2.2.2.2.1, hp.2.2.2]
  · rw [c.2.2.2.1, hp.2.2.1]

/-- An unused or dead slot. -/
def Slot.gone : Slot → Bool
  | .alive _ => false
  | _ => true

/-- Only slots named by a construction or a move are ever in use. -/
theorem alive_named (hA : 8 ∣ A) (hw : WSane A env) (h : WLog env A log H w) :
    ∀ i o, w.objs i = .alive o →
      (∃ a b r, (WOp.construct i a b, r) ∈ log) ∨ ∃ j r, (WOp.move j i, r) ∈ log := by
  induction h with
  | start => intro i o ho; cases ho
  | @step log H w w' op r hl hop hs ih =>
    have hwi := wexec_inv hA hw hl.exec
    have old : ∀ i o, w.objs i = .alive o →
        (∃ a b r', (WOp.construct i a b, r') ∈ log ++ [(op, r)]) ∨
          ∃ j r', (WOp.move j i, r') ∈ log ++ [(op, r)] := by
      intro i o ho
      rcases ih i o ho with ⟨a, b, r', h⟩ | ⟨j, r', h⟩
      · exact .inl ⟨a, b, r', List.mem_append_left _ h⟩
      · exact .inr ⟨j, r', List.mem_append_left _ h⟩
    intro j o' hj
    cases op with
    | construct i opts cookie =>
      simp only [wstep, hop.1] at hs
      cases hs
      by_cases e : j = i
      · subst e; exact .inl ⟨opts, cookie, _, List.mem_append_right _ List.mem_cons_self⟩
      · simp only [World.set, if_neg e] at hj; exact old j o' hj
    | call i op =>
      obtain ⟨⟨o, ho⟩, hcn⟩ := hop
      obtain ⟨r2, st, evs, _, _, h3, _⟩ := call_ok hA hw hwi ho hcn
      simp only [wstep] at hs
      rw [h3] at hs
      cases hs
      by_cases e : j = i
      · subst e; exact old j o ho
      · simp only [World.set, if_neg e] at hj; exact old j o' hj
    | resAllocate i b a =>
      obtain ⟨o, k, o2, ho, hk, ho', hcn⟩ := hop
      obtain ⟨r2, st, evs, _, _, h3, _⟩ := call_ok hA hw hwi ho' hcn
      simp only [wstep, ho, hk] at hs
      rw [h3] at hs
      cases hs
      by_cases e : j = k
      · subst e; exact old j o2 ho'
      · simp only [World.set, if_neg e] at hj; exact old j o' hj
    | move src dst =>
      obtain ⟨⟨o, ho⟩, hd⟩ := hop
      simp only [wstep, ho, hd] at hs
      cases hs
      by_cases e : j = src
      · subst e; exact old j o ho
      by_cases e2 : j = dst
      · subst e2; exact .inr ⟨src, _, List.mem_append_right _ List.mem_cons_self⟩
      · simp only [World.set, if_neg e, if_neg e2] at hj; exact old j o' hj
    | destroy i =>
      obtain ⟨o, ho⟩ := hop
      obtain ⟨evs, waste, g1, _⟩ := destroy_counts hA hwi ho
      simp only [wstep, ho, g1, ok_bind, pure_eq_ok] at hs
      cases hs
      by_cases e : j = i
      · simp [World.set, if_pos e] at hj
      · simp only [World.set, if_neg e] at hj; exact old j o' hj

/-- `moveOps` meets every hypothesis of `c74_violated`. -/
example : ∃ log H w, WLog (exEnv false 32) 32 log H w ∧ moves log ∧ (∀ i o, w.objs i ≠ .alive o) := by
  obtain ⟨log, H, w, h, hp⟩ := wlog_such (env := exEnv false 32) (A := 32) (ops := moveOps)
    (P := fun log w => decide (log.map Prod.fst = moveOps) &&
      (Slot.gone (w.objs 0) && Slot.gone (w.objs 1)))
    (by decide +kernel)
  simp only [Bool.and_eq_true, decide_eq_true_eq] at hp
  obtain ⟨h1, h2, h3⟩ := hp
  have hmem : ∀ op, (∃ r, (op, r) ∈ log) ↔ op ∈ moveOps := by
    intro op; rw [← h1]; simp
  refine ⟨log, H, w, h, ?_, ?_⟩
  · obtain ⟨r, hr⟩ := (hmem (.move 0 1)).2 (by simp [moveOps])
    exact ⟨0, 1, r, hr⟩
  · intro i o ho
    have hi : i = 0 ∨ i = 1 := by
      rcases alive_named (by decide) (exEnv_sane false (by decide)) h i o ho with ⟨a, b, r, hr⟩ | ⟨j, r, hr⟩
      · have := (hmem _).1 ⟨r, hr⟩
        simp [moveOps] at this
        exact .inl this.1
      · have := (hmem _).1 ⟨r, hr⟩
        simp [moveOps] at this
        exact .inr this.2
    rcases hi with rfl | rfl
    · rw [ho] at h2; cases h2
    · rw [ho] at h3; cases h3

end Verif.Metrics
