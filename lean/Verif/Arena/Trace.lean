import Verif.Arena.Steps
import Mathlib.Data.List.Count

/-!
Facts about traces of events that hold in every in-contract execution.
-/

namespace Verif.Arena

variable {cfg : Cfg} {A : Nat} {st : St}

/-- How often `block_alloc` returned the block `p`. -/
def allocs (p : Nat) (tr : List Ev) : Nat :=
  tr.countP (fun e => match e with | .blockAlloc _ (some q) => q == p | _ => false)

/-- How often `block_dealloc(p)` was called. -/
def deallocs (p : Nat) (tr : List Ev) : Nat := tr.count (.dealloc p)

/-- The byte counts reported to `on_arena_allocation`, newest first. -/
def allocHooks (tr : List Ev) : List Nat :=
  tr.filterMap (fun e => match e with | .allocated s _ => some s | _ => none)

/-- The arguments of `on_arena_newblock`, newest first. -/
def newblockHooks (tr : List Ev) : List (Nat × Nat) :=
  tr.filterMap (fun e => match e with | .newblock n s _ => some (n, s) | _ => none)

/-- For every block ever obtained: how many blocks were held before it, and its size; newest
first. -/
def grants : List Ev → List (Nat × Nat)
  | [] => []
  | .blockAlloc s (some _) :: tr => ((held tr).length, s) :: grants tr
  | _ :: tr => grants tr

/-- The first block ever obtained. -/
def firstBlock : List Ev → Option Region
  | [] => none
  | .blockAlloc s (some p) :: tr => (firstBlock tr).or (some ⟨p, s⟩)
  | _ :: tr => firstBlock tr

/-- The cleanups run, oldest first. -/
def ran (tr : List Ev) : List Node :=
  (tr.filterMap (fun e => match e with | .cleanup n => some n | _ => none)).reverse

/-- The cookie an event passes to its hook, if it is a hook event. -/
def cookieOf : Ev → Option (Option Nat)
  | .newblock _ _ c => some c
  | .allocated _ c => some c
  | .reset _ _ c => some c
  | .destroyed _ _ c => some c
  | _ => none

/-- A property holds at every moment of a trace. -/
def Always (P : List Ev → Prop) (tr : List Ev) : Prop := ∀ s, s <:+ tr → P s

theorem Always.nil {P : List Ev → Prop} (h : P []) : Always P [] := by
  intro s hs; rw [List.suffix_nil] at hs; rw [hs]; exact h

theorem Always.cons {P : List Ev → Prop} {e : Ev} {tr : List Ev} (h : Always P tr)
    (he : P tr → P (e :: tr)) : Always P (e :: tr) := by
  intro s hs
  rcases List.suffix_cons_iff.1 hs with rfl | hs
  · exact he (h tr (List.suffix_refl _))
  · exact h s hs

theorem Always.here {P : List Ev → Prop} {tr : List Ev} (h : Always P tr) : P tr :=
  h tr (List.suffix_refl _)

/-- Events that neither obtain nor give back a block. -/
def Neutral : Ev → Prop
  | .blockAlloc _ (some _) => False
  | .dealloc _ => False
  | _ => True

/-- Bookkeeping of blocks at one moment. -/
structure TI (tr : List Ev) : Prop where
  nodup : ((held tr).map Region.start).Nodup
  pos : ∀ r ∈ held tr, 0 < r.len
  bal : ∀ p, allocs p tr = deallocs p tr + ((held tr).map Region.start).count p

theorem TI.nil : TI [] := ⟨by simp [held], by simp [held], by simp [held, allocs, deallocs]⟩

theorem held_neutral {e : Ev} (he : Neutral e) (tr : List Ev) : held (e :: tr) = held tr := by
  cases e with
  | blockAlloc s r => cases r with
    | none => rfl
    | some p => exact he.elim
  | dealloc p => exact he.elim
  | _ => rfl

theorem TI.neutral {e : Ev} {tr : List Ev} (he : Neutral e) (h : TI tr) : TI (e :: tr) := by
  have hh := held_neutral he tr
  refine ⟨by rw [hh]; exact h.nodup, by rw [hh]; exact h.pos, ?_⟩
  intro p
  rw [hh]
  have := h.bal p
  cases e with
  | blockAlloc s r => cases r with
    | none => simpa [allocs, deallocs] using this
    | some p => exact he.elim
  | dealloc p => exact he.elim
  | _ => simpa [allocs, deallocs] using this

theorem TI.block {s p : Nat} {tr : List Ev} (hs : 0 < s)
    (hf : ∀ r ∈ held tr, Region.Disjoint ⟨p, s⟩ r) (h : TI tr) :
    TI (.blockAlloc s (some p) :: tr) := by
  have hnot : p ∉ (held tr).map Region.start := by
    intro hm
    obtain ⟨r, hr, rfl⟩ := List.mem_map.1 hm
    have := h.pos r hr
    exact hf r hr r.start ⟨⟨Nat.le_refl _, by simp; omega⟩, ⟨Nat.le_refl _, by omega⟩⟩
  refine ⟨?_, ?_, ?_⟩
  · rw [held_some, List.map_cons, List.nodup_cons]; exact ⟨hnot, h.nodup⟩
  · intro r hr
    rw [held_some] at hr
    rcases List.mem_cons.1 hr with rfl | hr
    · exact hs
    · exact h.pos r hr
  · intro q
    have := h.bal q
    simp only [allocs, deallocs] at this
    simp only [allocs, deallocs, held_some, List.map_cons, List.countP_cons, List.count_cons]
    by_cases hq : p = q
    · subst hq; simp; omega
    · simp [hq]; omega

theorem TI.dealloc {b : Region} {tr : List Ev} (hb : b ∈ held tr) (h : TI tr) :
    TI (.dealloc b.start :: tr) := by
  have hf : ((held tr).filter (fun r => r.start ≠ b.start)).map Region.start
      = ((held tr).map Region.start).filter (fun x => x ≠ b.start) := by
    rw [List.filter_map]; rfl
  refine ⟨?_, ?_, ?_⟩
  · rw [held_dealloc, hf]; exact h.nodup.filter _
  · intro r hr
    rw [held_dealloc] at hr
    exact h.pos r (List.mem_filter.1 hr).1
  · intro q
    have := h.bal q
    simp only [allocs, deallocs] at this
    rw [held_dealloc, hf]
    simp only [allocs, deallocs, List.countP_cons, List.count_cons]
    by_cases hq : b.start = q
    · subst hq
      have h1 : ((held tr).map Region.start).count b.start = 1 :=
        List.count_eq_one_of_mem h.nodup (List.mem_map_of_mem hb)
      have h2 : (((held tr).map Region.start).filter (fun x => x ≠ b.start)).count b.start = 0 := by
        rw [List.count_eq_zero]
        intro hm
        simpa using (List.mem_filter.1 hm).2
      simp; simp at h2; omega
    · have h2 : (((held tr).map Region.start).filter (fun x => x ≠ b.start)).count q
          = ((held tr).map Region.start).count q := by
        rw [List.count_filter]
        simpa using fun h => hq h.symm
      rw [h2]
      have : (Ev.dealloc b.start == Ev.dealloc q) = false := by simpa using hq
      simp [this]; omega

theorem Grow.always (hs : Sane A cfg) {c : Option Nat} {ms : List Nat} {tr tr' : List Ev}
    (h : Grow cfg c ms tr tr') (ht : Always TI tr) : Always TI tr' := by
  induction h with
  | refl => exact ht
  | fail _ _ _ _ ih => exact ih.cons (TI.neutral trivial)
  | @block t m s p _ hm hs' ha ih =>
    refine (ih.cons ?_).cons (TI.neutral trivial)
    refine TI.block ?_ (hs.fresh _ _ _ ha)
    have := chosenSize_ge cfg m (!(held t).isEmpty)
    rw [chosenSize_eq_policy] at this
    omega

theorem Teardown.always {hd rest : List Region} {pend : List Pending} {evs tr : List Ev}
    (h : Teardown hd pend evs rest) (htr : Arena.held tr = hd) (ht : Always TI tr) :
    Always TI (evs.reverse ++ tr) := by
  induction h generalizing tr with
  | done _ => exact ht
  | cleanup _ _ ih =>
    simp only [List.reverse_cons, List.append_assoc]
    exact ih htr (ht.cons (TI.neutral trivial))
  | dealloc hb _ ih =>
    simp only [List.reverse_cons, List.append_assoc]
    exact ih (by simp [htr]) (ht.cons (TI.dealloc (by rw [htr]; exact hb)))
  | hook u w c _ ih =>
    simp only [List.reverse_cons, List.append_assoc]
    exact ih htr (ht.cons (TI.neutral trivial))

theorem Teardown.ran {hd rest : List Region} {pend : List Pending} {evs : List Ev}
    (h : Teardown hd pend evs rest) (tr : List Ev) :
    ran (evs.reverse ++ tr) = ran tr ++ pend.map Pending.node := by
  induction h generalizing tr with
  | done _ => simp
  | cleanup _ _ ih => simp only [List.reverse_cons, List.append_assoc]; rw [ih]; simp [Arena.ran]
  | dealloc _ _ ih => simp only [List.reverse_cons, List.append_assoc]; rw [ih]; simp [Arena.ran]
  | hook u w c _ ih => simp only [List.reverse_cons, List.append_assoc]; rw [ih]; simp [Arena.ran]

theorem Teardown.quiet {hd rest : List Region} {pend : List Pending} {evs : List Ev}
    (h : Teardown hd pend evs rest) (tr : List Ev) :
    allocHooks (evs.reverse ++ tr) = allocHooks tr ∧
    newblockHooks (evs.reverse ++ tr) = newblockHooks tr ∧
    grants (evs.reverse ++ tr) = grants tr ∧
    firstBlock (evs.reverse ++ tr) = firstBlock tr := by
  induction h generalizing tr with
  | done _ => simp
  | cleanup _ _ ih => simp only [List.reverse_cons, List.append_assoc]; exact ih _
  | dealloc _ _ ih => simp only [List.reverse_cons, List.append_assoc]; exact ih _
  | hook u w c _ ih => simp only [List.reverse_cons, List.append_assoc]; exact ih _

theorem Grow.hooks {c : Option Nat} {ms : List Nat} {tr tr' : List Ev}
    (h : Grow cfg c ms tr tr') :
    allocHooks tr' = allocHooks tr ∧
    (newblockHooks tr = grants tr → newblockHooks tr' = grants tr') ∧
    ran tr' = ran tr ∧ (∀ e ∈ tr', e ∈ tr ∨ cookieOf e = none ∨ cookieOf e = some c) := by
  induction h with
  | refl => exact ⟨rfl, id, rfl, fun e h => .inl h⟩
  | fail _ _ _ _ ih =>
    refine ⟨ih.1, ih.2.1, by rw [← ih.2.2.1]; simp [ran], ?_⟩
    intro e he
    rcases List.mem_cons.1 he with rfl | he
    · exact .inr (.inl rfl)
    · exact ih.2.2.2 e he
  | block _ _ _ _ ih =>
    refine ⟨ih.1, ?_, by rw [← ih.2.2.1]; simp [ran], ?_⟩
    · intro h
      have := ih.2.1 h
      simp only [newblockHooks] at this
      simp [newblockHooks, grants, this]
    · intro e he
      rcases List.mem_cons.1 he with rfl | he
      · exact .inr (.inr rfl)
      · rcases List.mem_cons.1 he with rfl | he
        · exact .inr (.inl rfl)
        · exact ih.2.2.2 e he

theorem Grow.first {c : Option Nat} {ms : List Nat} {tr tr' : List Ev}
    (h : Grow cfg c ms tr tr') (hf : (held tr).getLast? = firstBlock tr) :
    (held tr').getLast? = firstBlock tr' := by
  induction h with
  | refl => exact hf
  | fail _ _ _ _ ih => exact ih
  | @block t m s p _ _ _ _ ih =>
    show (⟨p, s⟩ :: held t).getLast? = (firstBlock t).or (some ⟨p, s⟩)
    rw [← ih]
    cases hh : held t with
    | nil => rfl
    | cons r rs => simp [List.getLast?_cons]

/-- Cleanups that must have run, oldest first, and those still pending, according to the API
history. -/
def owed (h : Hist) : List Node × List Node :=
  h.foldl (fun acc x => if x.1 = .reset then (acc.1 ++ acc.2, [])
    else (acc.1, (registeredBy [] x).map Pending.node ++ acc.2)) ([], [])

theorem registeredBy_node (regs regs' : List Region) (x : Op × Ret) :
    (registeredBy regs x).map Pending.node = (registeredBy regs' x).map Pending.node := by
  unfold registeredBy; split <;> rfl

theorem owed_append (h : Hist) (x : Op × Ret) :
    owed (h ++ [x]) = if x.1 = .reset then ((owed h).1 ++ (owed h).2, [])
      else ((owed h).1, (registeredBy [] x).map Pending.node ++ (owed h).2) := by
  simp [owed, List.foldl_append]

theorem owed_pending (h : Hist) : (owed h).2 = (pending h).map Pending.node := by
  induction h using List.reverseRecOn with
  | nil => rfl
  | append_singleton h x ih =>
    rw [owed_append, pending_append]
    split
    · rfl
    · rw [List.map_append, ← ih, registeredBy_node (live h) []]

theorem placedMin_append (h : Hist) (x : Op × Ret) :
    placedMin (h ++ [x]) = if x.1 = .reset then 0 else placedMin h + minBytes x := by
  simp [placedMin, List.foldl_append]

theorem placedMax_append (h : Hist) (x : Op × Ret) :
    placedMax (h ++ [x]) = if x.1 = .reset then 0 else placedMax h + maxBytes x.1 := by
  simp [placedMax, List.foldl_append]

/-- Everything known about the trace and the accounting of an execution. -/
structure ExecInv (h : Hist) (st : St) : Prop where
  always : Always TI st.trace
  hooks : newblockHooks st.trace = grants st.trace
  allocs : allocHooks st.trace = (h.filterMap hookOf).reverse
  cookies : ∀ e ∈ st.trace, cookieOf e = none ∨ cookieOf e = some st.cookie
  ran : ran st.trace = (owed h).1
  first : (held st.trace).getLast? = firstBlock st.trace
  al : ∀ x ∈ h, AlignedRet x
  usedMin : placedMin h ≤ usedBytes st.blocks
  usedMax : usedBytes st.blocks ≤ placedMax h

theorem reset_hook {op : Op} {r : Ret} (h : op = .reset) : hookOf (op, r) = none := by
  subst h; rfl

theorem exec_trace (hA : 8 ∣ A) (hc : GoodCfg cfg) (hs : Sane A cfg) {h : Hist}
    (he : Exec cfg A h st) : ExecInv h st := by
  induction he with
  | init cookie =>
    refine ⟨?_, rfl, rfl, ?_, rfl, rfl, by simp, Nat.le_refl _, Nat.le_refl _⟩
    · exact (Always.nil TI.nil).cons (TI.neutral trivial)
    · intro e he
      have : e = .init := by simpa [mkArena] using he
      subst this; exact .inl rfl
  | @step h st st' op r hex hop hstep ih =>
    obtain ⟨wf, hne⟩ := exec_inv hA hc hs hex
    obtain ⟨r2, st2, h1⟩ := step_ok hA hc hs wf hne hop
    have e := h1.eq
    rw [hstep] at e
    cases e
    have hal : ∀ x ∈ h ++ [(op, r)], AlignedRet x := by
      intro x hx
      rcases List.mem_append.1 hx with hx | hx
      · exact ih.al x hx
      · rw [List.mem_singleton] at hx; subst hx; exact h1.al
    by_cases hr : op = .reset
    · subst hr
      obtain ⟨evs, e1, e2, pre, post, e3, e4⟩ := reset_ok (cfg := cfg) wf (hne hop)
      simp only [step, e1, ok_bind, pure_eq_ok] at hstep
      cases hstep
      have hq := e2.quiet st.trace
      refine ⟨e2.always rfl ih.always, ?_, ?_, ?_, ?_, ?_, hal, ?_, ?_⟩
      · simp only; rw [hq.2.1, hq.2.2.1]; exact ih.hooks
      · simp only; rw [hq.1, ih.allocs, List.filterMap_append]; simp [hookOf]
      · intro e hm
        rcases List.mem_append.1 hm with hm | hm
        · rw [List.mem_reverse, e3] at hm
          rcases List.mem_append.1 hm with hm | hm
          · rcases e4 e (by simp [hm]) with ⟨n, rfl⟩ | ⟨b, rfl⟩ <;> exact .inl rfl
          · rcases List.mem_cons.1 hm with rfl | hm
            · exact .inr rfl
            · rcases e4 e (by simp [hm]) with ⟨n, rfl⟩ | ⟨b, rfl⟩ <;> exact .inl rfl
        · exact ih.cookies e hm
      · simp only
        rw [e2.ran, ih.ran, owed_append, if_pos rfl, owed_pending]
      · simp only
        rw [hq.2.2.2, ← ih.first, e2.held rfl, wf.held_eq, List.getLast?_map,
          List.getLast?_eq_getLast_of_ne_nil (hne hop)]
        rfl
      · rw [placedMin_append, if_pos rfl]; exact Nat.zero_le _
      · rw [placedMax_append, if_pos rfl]
        simp [usedBytes, rewind]
    · obtain ⟨tr', g1, g2⟩ := h1.grow hr
      have gh := g1.hooks
      have gf := g1.first ih.first
      have ga := g1.always hs ih.always
      have hu := h1.used hr
      have hu1 := ih.usedMin
      have hu2 := ih.usedMax
      have hnb := gh.2.1 ih.hooks
      have hck : ∀ e ∈ tr', cookieOf e = none ∨ cookieOf e = some st'.cookie := by
        intro e hm
        rw [h1.cookie]
        rcases gh.2.2.2 e hm with h | h
        · exact ih.cookies e h
        · exact h
      have hmin : placedMin (h ++ [(op, r)]) ≤ usedBytes st'.blocks := by
        rw [placedMin_append, if_neg hr]; omega
      have hmax : usedBytes st'.blocks ≤ placedMax (h ++ [(op, r)]) := by
        rw [placedMax_append, if_neg hr]
        show _ ≤ placedMax h + maxBytes op
        omega
      have how : (owed (h ++ [(op, r)])).1 = (owed h).1 := by rw [owed_append, if_neg hr]
      cases hk : hookOf (op, r) with
      | none =>
        rw [hk] at g2
        simp only [Option.map_none, Option.toList_none, List.nil_append] at g2
        refine ⟨by rw [g2]; exact ga, by rw [g2]; exact hnb, ?_, by rw [g2]; exact hck, ?_,
          by rw [g2]; exact gf, hal, hmin, hmax⟩
        · rw [g2, gh.1, ih.allocs]; simp [hk]
        · rw [g2, gh.2.2.1, ih.ran, how]
      | some b =>
        rw [hk] at g2
        simp only [Option.map_some, Option.toList_some, List.cons_append, List.nil_append] at g2
        refine ⟨by rw [g2]; exact ga.cons (TI.neutral trivial), by rw [g2]; exact hnb, ?_, ?_, ?_,
          by rw [g2]; exact gf, hal, hmin, hmax⟩
        · rw [g2]
          have := gh.1
          simp only [allocHooks] at this ⊢
          simp only [List.filterMap_cons, this]
          have h3 := ih.allocs
          simp only [allocHooks] at h3
          rw [h3]; simp [hk]
        · rw [g2]
          intro e hm
          rcases List.mem_cons.1 hm with rfl | hm
          · right; rw [h1.cookie]; rfl
          · exact hck e hm
        · rw [g2, how, ← ih.ran, ← gh.2.2.1]; simp [ran]

end Verif.Arena
