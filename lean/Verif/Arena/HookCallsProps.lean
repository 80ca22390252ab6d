import Verif.Arena.HookCalls

/-!
C114, for every call that obtains memory and for whole executions: what becomes of an arena whose block hook calls it.
-/

namespace Verif.Arena

open Verif.Align

variable {cfg : Cfg} {A : Nat} {st : St} {h : Hist}

/-- C114, partial: in every execution whose block hooks call the arena, obtaining no block themselves, every call is
served correctly: its result is aligned and apart from everything handed out, to hooks as well; `SpaceAllocated` is what
the arena holds; `Reset` and the destruction run every destructor registered, by hooks as well, and the destruction
gives every block back. Missing: a hook that obtains a block (`newblock_calls_violated`). -/
theorem newblock_calls_partial (hA : 8 ∣ A) (hc : GoodCfg cfg) (hs : Sane A cfg) (he : ExecH cfg A h st) {op : Op}
    {calls : List Op} (hop : Contract A h op)
    (ho : ∀ s, AtHook cfg st op s → Obeys cfg A h s calls ∧ NoBlock cfg s calls) :
    ∃ h2 r st' tr, stepHook cfg st calls op = .ok (h2, r, st') ∧ AlignedRet (op, r) ∧
      (∀ x ∈ regionsOf (op, r), ∀ y ∈ live (h ++ h2), Region.Disjoint x y) ∧
      st'.space = ((held st'.trace).map Region.len).sum ∧
      ran st'.trace = ran st.trace ++ (if op = .reset then (pending h).map Pending.node else []) ∧
      destroy cfg st' = .ok tr ∧ held tr = [] ∧
      ran tr = ran st'.trace ++ (pending (h ++ h2 ++ [(op, r)])).map Pending.node := by
  obtain ⟨h2, r, st', s, e, hg, hran, ok, hg', hrs⟩ := stepHook_good hA hc hs (execH_good hA hc hs he) hop ho
  obtain ⟨tr, e2, h1, h3⟩ := destroy_all (cfg := cfg) hg'.wf
  refine ⟨h2, r, st', tr, e, ok.al, ?_, ?_, ?_, e2, h1, h3⟩
  · intro x hx y hy z hz
    have hd := hg'.wf.regs_disj
    rw [live_append] at hd
    by_cases hr : op = .reset
    · subst hr
      cases r <;> cases hx
    · rw [if_neg hr, List.pairwise_append] at hd
      have := hd.2.2 x hx y hy
      obtain ⟨⟨y1, y2⟩, y3, y4⟩ := hz
      omega
  · rw [hg'.wf.space_eq, hg'.wf.held_eq, List.map_map]
    rfl
  · by_cases hr : op = .reset
    · subst hr
      have h0 := hrs rfl
      subst h0
      rw [if_pos rfl]
      have hb : s.blocks ≠ [] := hg.ne (by
        obtain ⟨x, hx, h1⟩ := hop
        exact ⟨x, by simpa using hx, h1⟩)
      obtain ⟨evs, e3, ht, _⟩ := reset_ok (cfg := cfg) hg.wf hb
      have e4 := ok.eq
      simp only [step, e3, ok_bind, pure_eq_ok, Except.ok.injEq, Prod.mk.injEq] at e4
      rw [← e4.2]
      show ran (evs.reverse ++ s.trace) = _
      rw [ht.ran, hran, List.append_nil]
    · rw [if_neg hr, List.append_nil]
      obtain ⟨tr', hgr, htr⟩ := ok.grow hr
      rw [htr, ← hran, ← hgr.hooks.2.2.1]
      cases hookOf (op, r) with
      | none => rfl
      | some n => simp [ran]

/-- C114 violated, for every such execution and every call that obtains memory: whenever the calls of its block hook
obtain a block themselves, a block stays allocated after the arena is destroyed. -/
theorem newblock_calls_violated (hA : 8 ∣ A) (hc : GoodCfg cfg) (hs : Sane A cfg) (he : ExecH cfg A h st) {op : Op}
    {calls : List Op} (hop : Contract A h op) {s : St} (hat : AtHook cfg st op s) (ho : Obeys cfg A h s calls)
    (hb : ¬ NoBlock cfg s calls) {h2 : Hist} {r : Ret} {st' : St} (hh : stepHook cfg st calls op = .ok (h2, r, st'))
    {tr : List Ev} (hd : destroy cfg st' = .ok tr) : held tr ≠ [] := by
  obtain ⟨m, a, z, p, hr, hn, hat⟩ := hat
  obtain ⟨h8, hm, ha⟩ := roomFor_ok hA hop hr
  rcases ensureHook_ok hA hc hs (execH_good hA hc hs he) h8 hm ha (calls := calls) (fun z p s' _ e2 => by
      rw [hat] at e2
      simp only [Except.ok.injEq, Prod.mk.injEq] at e2
      rw [← e2.2]; exact ho) with
    ⟨e1, _⟩ | ⟨st2, e1, e2, _⟩ | ⟨z', p', s', h2', s2, s4, e1, e2, e3, e4, e5, e6, e7, e8, e9, _, e11⟩
  · rw [hn] at e1
    simp at e1
  · have hnb := newBlock_at cfg st m
    rw [hat, e2] at hnb
    simp only [ok_bind] at hnb
    split at hnb <;> simp at hnb
  · rw [hat] at e2
    simp only [Except.ok.injEq, Prod.mk.injEq] at e2
    obtain ⟨_, rfl⟩ := e2
    have hlt : (grants s.trace).length < (grants s2.trace).length := by
      refine Nat.lt_of_le_of_ne e9 (fun e => hb ?_)
      intro h3 s3 e12
      rw [e3] at e12
      simp only [Except.ok.injEq, Prod.mk.injEq] at e12
      rw [← e12.2]
      exact e.symm
    have hl := e11 hlt
    rw [stepHook_room hop hr e4 e5] at hh
    cases hstep : step cfg s4 op with
    | error e => rw [hstep] at hh; cases hh
    | ok x =>
      rw [hstep] at hh
      simp only [Except.map, Except.ok.injEq, Prod.mk.injEq] at hh
      obtain ⟨x1, x2⟩ := x
      obtain ⟨_, rfl, rfl⟩ := hh
      obtain ⟨g1, g2⟩ := step_room_keeps hop hr e5 hstep
      exact (hl.of g1 g2).destroy hd

/-! ### Concrete cases -/

/-- One call with its checks, for the examples. -/
def tryHook (cfg : Cfg) (A : Nat) (h : Hist) (st : St) (calls : List Op) (op : Op) : Bool :=
  decide (Contract A h op) &&
  match roomFor op with
  | none => true
  | some (m, a) =>
    match needCreateNewBlock cfg st m a, atNewBlock cfg st m with
    | .ok true, .ok (some _, s) => decide (Obeys cfg A h s calls) &&
      match run cfg s calls with
      | .ok (_, s2) => decide ((grants s2.trace).length = (grants s.trace).length)
      | .error _ => true
    | _, _ => true

theorem tryHook_iff {op : Op} {calls : List Op} (ht : tryHook cfg A h st calls op = true) :
    Contract A h op ∧ ∀ s, AtHook cfg st op s → Obeys cfg A h s calls ∧ NoBlock cfg s calls := by
  unfold tryHook at ht
  rw [Bool.and_eq_true, decide_eq_true_eq] at ht
  refine ⟨ht.1, ?_⟩
  rintro s ⟨m, a, z, p, e1, e2, e3⟩
  have h2 := ht.2
  simp only [e1, e2, e3, Bool.and_eq_true, decide_eq_true_eq] at h2
  refine ⟨h2.1, ?_⟩
  intro h3 s3 e4
  have := h2.2
  rw [e4] at this
  simpa using this

/-- A run of calls with the calls of their block hooks. -/
def tryHooks (cfg : Cfg) (A : Nat) (h : Hist) (st : St) : List (Op × List Op) → Option (Hist × St)
  | [] => some (h, st)
  | (op, calls) :: ops =>
    if tryHook cfg A h st calls op then
      match stepHook cfg st calls op with
      | .ok (h2, r, st') => tryHooks cfg A (h ++ h2 ++ [(op, r)]) st' ops
      | .error _ => none
    else none

theorem tryHooks_exec {ops : List (Op × List Op)} {h' : Hist} {st' : St} (he : ExecH cfg A h st)
    (ht : tryHooks cfg A h st ops = some (h', st')) : ExecH cfg A h' st' := by
  induction ops generalizing h st with
  | nil =>
    simp only [tryHooks, Option.some.injEq, Prod.mk.injEq] at ht
    obtain ⟨rfl, rfl⟩ := ht
    exact he
  | cons x ops ih =>
    obtain ⟨op, calls⟩ := x
    simp only [tryHooks] at ht
    split at ht
    · next hc =>
      obtain ⟨h1, h2⟩ := tryHook_iff hc
      split at ht
      · next e => exact ih (.step he h1 h2 e) ht
      · cases ht
    · cases ht

/-- An arena whose second block was made with a hook that created an object in the first; 8 bytes are left in the
second. -/
def hookedOps : List (Op × List Op) :=
  [(.create 24 (some 1), []), (.allocate 5000 8, [.create 8 (some 9)]), (.createBegin 3152, [])]

/-- Its history. -/
def hookedHist : Hist :=
  [(.create 24 (some 1), .ptr (some 64)), (.create 8 (some 9), .ptr (some 88)), (.allocate 5000 8, .ptr (some 4192)),
   (.createBegin 3152, .ptr (some 9192))]

theorem hooked_such {P : St → Bool} (hr : (tryHooks (exCfg true 32 []) 32 [] (mkArena none) hookedOps).map
    (fun x => (x.1, P x.2)) = some (hookedHist, true)) :
    ∃ st, ExecH (exCfg true 32 []) 32 hookedHist st ∧ P st = true := by
  cases e : tryHooks (exCfg true 32 []) 32 [] (mkArena none) hookedOps with
  | none => rw [e] at hr; cases hr
  | some x =>
    rw [e] at hr
    simp only [Option.map_some, Option.some.injEq, Prod.mk.injEq] at hr
    obtain ⟨x1, x2⟩ := x
    obtain ⟨rfl, hp⟩ := hr
    exact ⟨x2, tryHooks_exec (.init none) e, hp⟩

/-- `Own` needs a block; its hook takes the last 8 bytes of the block before. -/
example : ∃ st, ExecH (exCfg true 32 []) 32 hookedHist st ∧ Contract 32 hookedHist (.own 7 3) ∧
    (∀ s, AtHook (exCfg true 32 []) st (.own 7 3) s →
      Obeys (exCfg true 32 []) 32 hookedHist s [.allocate 8 8] ∧ NoBlock (exCfg true 32 []) s [.allocate 8 8]) ∧
    ∃ st', stepHook (exCfg true 32 []) st [.allocate 8 8] (.own 7 3) =
      .ok ([(.allocate 8 8, .ptr (some 12344))], .bool true, st') := by
  obtain ⟨st, he, hp⟩ := hooked_such (P := fun st => tryHook (exCfg true 32 []) 32 hookedHist st [.allocate 8 8] (.own 7 3) &&
    match stepHook (exCfg true 32 []) st [.allocate 8 8] (.own 7 3) with
    | .ok (h2, r, _) => decide (h2 = [(.allocate 8 8, .ptr (some 12344))] ∧ r = .bool true)
    | .error _ => false) (by decide +kernel)
  rw [Bool.and_eq_true] at hp
  obtain ⟨h1, h2⟩ := tryHook_iff hp.1
  refine ⟨st, he, h1, h2, ?_⟩
  have h3 := hp.2
  split at h3
  · next h4 r st' e =>
    simp only [decide_eq_true_eq] at h3
    obtain ⟨rfl, rfl⟩ := h3
    exact ⟨st', e⟩
  · cases h3

/-- Is the hook called, with its calls in their contracts, and does it obtain a block? -/
def takesBlock (cfg : Cfg) (A : Nat) (h : Hist) (st : St) (calls : List Op) (op : Op) : Bool :=
  match roomFor op with
  | none => false
  | some (m, a) =>
    match needCreateNewBlock cfg st m a, atNewBlock cfg st m with
    | .ok true, .ok (some _, s) => decide (Obeys cfg A h s calls) &&
      match run cfg s calls with
      | .ok (_, s2) => decide ((grants s2.trace).length ≠ (grants s.trace).length)
      | .error _ => false
    | _, _ => false

theorem takesBlock_iff {op : Op} {calls : List Op} (ht : takesBlock cfg A h st calls op = true) :
    ∃ s, AtHook cfg st op s ∧ Obeys cfg A h s calls ∧ ¬ NoBlock cfg s calls := by
  unfold takesBlock at ht
  split at ht
  · cases ht
  · next m a e1 =>
    split at ht
    · next zp s e2 e3 =>
      rw [Bool.and_eq_true, decide_eq_true_eq] at ht
      refine ⟨s, ⟨m, a, zp.1, zp.2, e1, e2, e3⟩, ht.1, ?_⟩
      have h2 := ht.2
      split at h2
      · next e4 =>
        simp only [decide_eq_true_eq] at h2
        exact fun hn => h2 (hn _ _ e4)
      · cases h2
    · cases ht

/-- C114 violated: `Own` needs a block, and so does its hook: the destructor that the hook registered is not run, and its
block stays allocated. -/
theorem own_hook_lost_violated : ∃ st s st' tr, ExecH (exCfg true 32 []) 32 hookedHist st ∧
    Contract 32 hookedHist (.own 7 3) ∧ AtHook (exCfg true 32 []) st (.own 7 3) s ∧
    Obeys (exCfg true 32 []) 32 hookedHist s [.own 5 4] ∧ ¬ NoBlock (exCfg true 32 []) s [.own 5 4] ∧
    stepHook (exCfg true 32 []) st [.own 5 4] (.own 7 3) = .ok ([(.own 5 4, .bool true)], .bool true, st') ∧
    destroy (exCfg true 32 []) st' = .ok tr ∧ ran tr = [⟨7, 3⟩, ⟨88, 9⟩, ⟨64, 1⟩] ∧ held tr = [⟨16512, 4096⟩] := by
  obtain ⟨st, he, hp⟩ := hooked_such (P := fun st => takesBlock (exCfg true 32 []) 32 hookedHist st [.own 5 4] (.own 7 3) &&
    match stepHook (exCfg true 32 []) st [.own 5 4] (.own 7 3) with
    | .ok (h2, r, st') => decide (h2 = [(.own 5 4, .bool true)] ∧ r = .bool true) &&
      match destroy (exCfg true 32 []) st' with
      | .ok tr => decide (ran tr = [⟨7, 3⟩, ⟨88, 9⟩, ⟨64, 1⟩] ∧ held tr = [⟨16512, 4096⟩])
      | .error _ => false
    | .error _ => false) (by decide +kernel)
  rw [Bool.and_eq_true] at hp
  obtain ⟨s, h1, h2, h3⟩ := takesBlock_iff hp.1
  have h4 := hp.2
  split at h4
  · next h2' r st' e =>
    rw [Bool.and_eq_true, decide_eq_true_eq] at h4
    obtain ⟨⟨rfl, rfl⟩, h5⟩ := h4
    split at h5
    · next tr hd =>
      simp only [decide_eq_true_eq] at h5
      exact ⟨st, s, st', tr, he, trivial, h1, h2, h3, e, hd, h5⟩
    · cases h5
  · cases h4

end Verif.Arena
