import Verif.Arena.Callbacks
import Verif.Arena.Steps

/-!
C117, C118: which functions of `Options` may be left out.
-/

namespace Verif.Arena

open Verif.Align

variable {g : Given} {cfg : Cfg} {A : Nat}

theorem init_seen (hg : g.init = true ∨ cookie = none) :
    ∃ t, initG g true cookie = .ok t ∧ Seen g (mkArena cookie) t := by
  refine ⟨_, rfl, rfl, ?_, rfl, ?_⟩
  · show (if g.init = true then cookie else none) = cookie
    rcases hg with h | h
    · rw [if_pos h]
    · rw [h, ite_self]
  · show hook _ _ _ = g.seen [.init]
    rw [seen_cons]
    rfl

theorem run_seen (hi : Indifferent g cfg) (ha : g.alloc = true) (hd : g.dealloc = true) {ops : List Op}
    (hop : g.logger = true ∨ ∀ op ∈ ops, op.modest) :
    ∀ {s t : St}, Seen g s t → SeenOut g (run cfg s ops) (runG g cfg t ops) := by
  induction ops with
  | nil => intro s t h; exact .ok h
  | cons op ops ih =>
    intro s t h
    unfold run runG
    refine .bind (step_seen hi ha hd h (hop.imp_right fun hx => hx op (by simp))) ?_
    intro r s t h
    exact .bind (ih (hop.imp_right fun hx o ho => hx o (by simp [ho])) h) (fun r s t h => .ok h)

/-- C117: every one of the five hooks may be left out. Every program, from the construction of the arena to its
destruction, has the same results or ends with the same fault as with all hooks set, and the functions that are set are
called in the same order with the same arguments. Without `on_arena_init` the cookie is null. -/
theorem hooks_optional (hi : Indifferent g cfg) (ha : g.alloc = true) (hd : g.dealloc = true) (hl : g.logger = true)
    (cookie : Option Nat) (hk : g.init = true ∨ cookie = none) (ops : List Op) :
    ∃ t, initG g true cookie = .ok t ∧
      (∀ e, run cfg (mkArena cookie) ops = .error e → runG g cfg t ops = .error e) ∧
      ∀ h s', run cfg (mkArena cookie) ops = .ok (h, s') →
        ∃ t', runG g cfg t ops = .ok (h, t') ∧ t'.blocks = s'.blocks ∧ t'.space = s'.space ∧ t'.trace = g.seen s'.trace ∧
          destroyG g cfg t' = (destroy cfg s').map g.seen := by
  obtain ⟨t, e, h⟩ := init_seen hk
  refine ⟨t, e, ?_, ?_⟩
  · intro f hf
    rcases run_seen hi ha hd (Or.inl hl) h with ⟨e', h1, h2⟩ | ⟨a, s, t', h1, h2, h3⟩
    · rw [hf] at h1; cases h1; exact h2
    · rw [hf] at h1; cases h1
  · intro x s' hs
    rcases run_seen hi ha hd (Or.inl hl) h with ⟨e', h1, h2⟩ | ⟨a, s, t', h1, h2, h3⟩
    · rw [hs] at h1; cases h1
    · rw [hs] at h1; cases h1
      exact ⟨t', h2, h3.blocks, h3.space, h3.trace, destroy_seen hd h3⟩

theorem contract_modest {h : Hist} {op : Op} (hc : Contract A h op) : op.modest := by
  cases op with
  | allocate b a => exact Nat.lt_of_le_of_lt hc.1 (by decide)
  | create s d => exact Nat.lt_of_le_of_lt hc (by decide)
  | createArray s n => exact Nat.lt_of_le_of_lt hc.2 (by decide)
  | createBegin s => exact Nat.lt_of_le_of_lt hc (by decide)
  | allocateCleanup b f e => exact Nat.lt_of_le_of_lt hc (by decide)
  | pmrAllocate b a => exact Nat.lt_of_le_of_lt hc.1 (by decide)
  | _ => trivial

theorem runG_snoc {st st1 st2 : St} {ops : List Op} {h : Hist} {op : Op} {r : Ret} (h1 : runG g cfg st ops = .ok (h, st1))
    (h2 : stepG g cfg st1 op = .ok (r, st2)) : runG g cfg st (ops ++ [op]) = .ok (h ++ [(op, r)], st2) := by
  induction ops generalizing st h with
  | nil =>
    cases h1
    rw [List.nil_append, runG]
    rw [h2]
    rfl
  | cons o ops ih =>
    unfold runG at h1
    rw [List.cons_append, runG]
    cases hs : stepG g cfg st o with
    | error e => rw [hs] at h1; cases h1
    | ok x =>
      obtain ⟨a, s⟩ := x
      rw [hs] at h1
      simp only [ok_bind] at h1 ⊢
      cases hr : runG g cfg s ops with
      | error e => rw [hr] at h1; cases h1
      | ok y =>
        obtain ⟨b, s'⟩ := y
        rw [hr] at h1
        cases h1
        rw [ih hr]
        rfl

/-- C118, what holds: in executions that obey the contracts (no sizes near `2^64`) the logger may be left out too, if
there is memory for the `memory_resource`. Missing: larger sizes and the failing constructor (the violations below). -/
theorem logger_optional_partial (hA : 8 ∣ A) (hc : GoodCfg cfg) (hs : Sane A cfg) (hi : Indifferent g cfg) (ha : g.alloc = true) (hd : g.dealloc = true) {h : Hist} {s : St}
    (he : Exec cfg A h s) (hk : g.init = true ∨ s.cookie = none) :
    ∃ t t', initG g true s.cookie = .ok t ∧ runG g cfg t (h.map Prod.fst) = .ok (h, t') ∧ t'.blocks = s.blocks ∧
      t'.space = s.space ∧ t'.trace = g.seen s.trace ∧ destroyG g cfg t' = (destroy cfg s).map g.seen := by
  suffices hs : ∀ c, s.cookie = c → ∃ t t', initG g true c = .ok t ∧ runG g cfg t (h.map Prod.fst) = .ok (h, t') ∧ Seen g s t' by
    obtain ⟨t, t', e1, e2, e3⟩ := hs _ rfl
    exact ⟨t, t', e1, e2, e3.blocks, e3.space, e3.trace, destroy_seen hd e3⟩
  induction he with
  | init cookie =>
    intro c hc
    cases hc
    obtain ⟨t, e, h⟩ := init_seen hk
    exact ⟨t, t, e, rfl, h⟩
  | @step h s s' op r he hop hstep ih =>
    have hcook : s'.cookie = s.cookie := by
      obtain ⟨w1, w2⟩ := exec_inv hA hc hs he
      obtain ⟨r2, st2, h1⟩ := step_ok hA hc hs w1 w2 hop
      have := h1.eq
      rw [hstep] at this
      cases this
      exact h1.cookie
    rw [hcook] at hk ⊢
    intro c hc'
    obtain ⟨t, t', e1, e2, e3⟩ := ih hk c hc'
    rcases step_seen hi ha hd e3 (Or.inr (contract_modest hop)) with ⟨e', h1, h2⟩ | ⟨a, s2, t2, h1, h2, h3⟩
    · rw [hstep] at h1; cases h1
    · rw [hstep] at h1; cases h1
      refine ⟨t, t2, e1, ?_, h3⟩
      rw [List.map_append]
      exact runG_snoc e2 h2

/-- `bumpAlloc` looks only at the calls of `block_alloc`. -/
theorem exCfg_indifferent (dbg : Bool) (A : Nat) (bad : List Nat) (ha : g.alloc = true) : Indifferent g (exCfg dbg A bad) := by
  intro tr n
  have h1 : top (g.seen tr) = top tr := by
    induction tr with
    | nil => rfl
    | cons e tr ih =>
      rw [seen_cons]
      cases e with
      | blockAlloc s p =>
        rw [Given.sees, ha]
        cases p with
        | none => exact ih
        | some p => exact congrArg (max _) ih
      | _ => unfold hook; split <;> exact ih
  have h2 : ∀ p : Ev → Bool, (∀ e, p e = true → g.sees e = true) → (g.seen tr).countP p = tr.countP p := by
    intro p hp
    unfold Given.seen
    rw [List.countP_filter]
    refine List.countP_congr ?_
    intro e _
    rw [Bool.and_eq_true]
    exact ⟨fun h => h.1, fun h => ⟨h, hp e h⟩⟩
  show bumpAlloc A bad (g.seen tr) n = bumpAlloc A bad tr n
  unfold bumpAlloc
  rw [h1, h2 _ (by intro e he; cases e <;> first | exact ha | cases he)]

/-- `GetDefaultOptions`, arena/arena.hpp:208-217: no hook is set. -/
def defaultGiven : Given := ⟨true, true, true, false, false, false, false, false⟩

/-- Options with the two functions for blocks only. -/
def blocksOnly : Given := ⟨true, true, false, false, false, false, false, false⟩

/-- With the default options. -/
example : ∃ t h s' t', initG defaultGiven true none = .ok t ∧
    run (exCfg false 32 []) (mkArena none) [.create 24 (some 1), .allocate 5000 8, .reset] = .ok (h, s') ∧
    runG defaultGiven (exCfg false 32 []) t [.create 24 (some 1), .allocate 5000 8, .reset] = .ok (h, t') ∧
    t'.trace = [.cleanup ⟨64, 1⟩, .dealloc 4160, .blockAlloc 8192 (some 4160), .blockAlloc 4096 (some 32)] := by
  obtain ⟨t, e, -, h2⟩ := hooks_optional (g := defaultGiven) (exCfg_indifferent false 32 [] rfl) rfl rfl rfl none (Or.inr rfl)
    [.create 24 (some 1), .allocate 5000 8, .reset]
  have hr : (run (exCfg false 32 []) (mkArena none) [.create 24 (some 1), .allocate 5000 8, .reset]).toOption.map
      (fun x => defaultGiven.seen x.2.trace) =
    some [.cleanup ⟨64, 1⟩, .dealloc 4160, .blockAlloc 8192 (some 4160), .blockAlloc 4096 (some 32)] := by decide +kernel
  cases hx : run (exCfg false 32 []) (mkArena none) [.create 24 (some 1), .allocate 5000 8, .reset] with
  | error f => rw [hx] at hr; cases hr
  | ok x =>
    obtain ⟨h, s'⟩ := x
    rw [hx] at hr
    obtain ⟨t', h3, -, -, h4, -⟩ := h2 h s' hx
    exact ⟨t, h, s', t', e, rfl, h3, by rw [h4]; exact Option.some.inj hr⟩

/-- Without logger and hooks. -/
example : ∃ s t t', Exec (exCfg false 32 []) 32 [(.create 24 (some 1), .ptr (some 64)), (.allocate 5000 8, .ptr (some 4192))] s ∧
    initG blocksOnly true none = .ok t ∧
    runG blocksOnly (exCfg false 32 []) t [.create 24 (some 1), .allocate 5000 8] =
      .ok ([(.create 24 (some 1), .ptr (some 64)), (.allocate 5000 8, .ptr (some 4192))], t') ∧
    destroyG blocksOnly (exCfg false 32 []) t' = (destroy (exCfg false 32 []) s).map blocksOnly.seen := by
  obtain ⟨s, he, hk⟩ := exec_such (cfg := exCfg false 32 []) (A := 32) (cookie := none)
    (ops := [.create 24 (some 1), .allocate 5000 8])
    (h := [(.create 24 (some 1), .ptr (some 64)), (.allocate 5000 8, .ptr (some 4192))])
    (P := fun s => s.cookie = none) (by decide +kernel)
  obtain ⟨t, t', e1, e2, -, -, -, e3⟩ := logger_optional_partial (g := blocksOnly) (by decide) (exCfg_good _ _ _)
    (exCfg_sane _ (by decide) _) (exCfg_indifferent false 32 [] rfl) rfl rfl he (Or.inr hk)
  rw [hk] at e1
  exact ⟨s, t, t', he, e1, e2, e3⟩

/-! ### Violations -/

/-- C118, expected: a program that runs with a logger runs without one, with the same results. -/
def LoggerOptional : Prop :=
  ∀ (g : Given) (cfg : Cfg) (A : Nat) (ops : List Op) (h : Hist) (s : St), 8 ∣ A → GoodCfg cfg → Sane A cfg → Indifferent g cfg →
    g.alloc = true → g.dealloc = true → run cfg (mkArena none) ops = .ok (h, s) →
    ∃ t t', initG g true none = .ok t ∧ runG g cfg t ops = .ok (h, t')

/-- C118 is violated: `AllocateAligned(2^64 - 16)` calls the null pointer. -/
theorem logger_optional_violated : ¬ LoggerOptional := by
  intro hall
  have hr : (run (exCfg false 32 []) (mkArena none) [.allocate (2 ^ 64 - 16) 8]).toOption.isSome = true := by decide +kernel
  cases hx : run (exCfg false 32 []) (mkArena none) [.allocate (2 ^ 64 - 16) 8] with
  | error f => rw [hx] at hr; cases hr
  | ok x =>
    obtain ⟨t, t', e1, e2⟩ := hall blocksOnly (exCfg false 32 []) 32 _ x.1 x.2 (by decide) (exCfg_good _ _ _)
      (exCfg_sane _ (by decide) _) (exCfg_indifferent false 32 [] rfl) rfl rfl hx
    cases e1
    have h3 : (runG blocksOnly (exCfg false 32 []) { blocks := [], cookie := none, space := 0, trace := [] }
      [.allocate (2 ^ 64 - 16) 8]).toOption.isSome = false := by decide +kernel
    have h4 := congrArg (fun y => y.toOption.isSome) e2
    exact absurd (h3.symm.trans h4) (by simp [Except.toOption])

/-- C118 is violated in every state: `CreateArray` of too many elements calls the null pointer instead of the
logger. -/
theorem array_logger_violated {st : St} {size num : Nat} (hl : g.logger = false) (hz : 0 < size)
    (hbig : 2 ^ 64 ≤ num * size) : stepG g cfg st (.createArray size num) = .error (.ub "null function pointer called") := by
  have hn : num > (M64 - 1) / size := by
    rw [gt_iff_lt, Nat.div_lt_iff_lt_mul hz]
    show 18446744073709551616 - 1 < num * size
    omega
  have h1 : CreateArrayG g cfg st size num = .error (.ub "null function pointer called") := by
    unfold CreateArrayG
    rw [if_neg (by omega), logIf, if_pos hn, must, hl]
    rfl
  show (CreateArrayG g cfg st size num >>= _) = _
  rw [h1]
  rfl

example : stepG blocksOnly (exCfg true 32 []) (mkArena none) (.createArray 8 (2 ^ 61)) =
    .error (.ub "null function pointer called") :=
  array_logger_violated rfl (by decide) (by decide)

/-- C118 is violated: so does the constructor of an arena when there is no memory for its `memory_resource`. -/
theorem init_logger_violated (hl : g.logger = false) (cookie : Option Nat) :
    initG g false cookie = .error (.ub "null function pointer called") := by
  unfold initG logIf must
  rw [if_pos rfl, hl]
  rfl

/-- `block_alloc` must be set: without it the first request for memory calls a null pointer. -/
theorem block_alloc_required {t : St} {b a : Nat} (hb : b ≤ 2 ^ 62) (ha : g.alloc = false)
    (ht : initG g true cookie = .ok t) : stepG g cfg t (.allocate b a) = .error (.ub "null function pointer called") := by
  cases ht
  have hm := modest_aligned (n := b) (Nat.lt_of_le_of_lt hb (by decide))
  have hz : ∃ z, newBlockSize cfg (alignUpTo8 b) false = .ok z := ⟨_, rfl⟩
  obtain ⟨z, hz⟩ := hz
  show ((allocateAlignedG g cfg _ b a >>= _) >>= _) = _
  have h1 : ∀ s : St, s.blocks = [] → allocateAlignedG g cfg s b a = .error (.ub "null function pointer called") := by
    intro s hs
    have h2 : newBlockG g cfg s (alignUpTo8 b) = .error (.ub "null function pointer called") := by
      unfold newBlockG logIf
      rw [if_neg (Nat.not_lt.2 hm), hs]
      simp only [ok_bind, List.isEmpty_nil, Bool.not_true, hz, must, ha]
      rfl
    unfold allocateAlignedG needCreateNewBlock
    rw [hs]
    simp only [ok_bind, if_true, h2]
    rfl
  rw [h1 _ rfl]
  rfl

example : stepG { alloc := false } (exCfg true 32 []) { blocks := [], cookie := none, space := 0, trace := [.init] } (.allocate 24 8) =
    .error (.ub "null function pointer called") :=
  block_alloc_required (cookie := none) (by decide) rfl rfl

/-- `block_dealloc` must be set once the arena has memory: without it the destructor calls a null pointer. -/
theorem block_dealloc_required (hA : 8 ∣ A) (hc : GoodCfg cfg) (hs : Sane A cfg) {h : Hist} {s t : St} (he : Exec cfg A h s)
    (hb : s.blocks ≠ []) (hd : g.dealloc = false) (ht : t.blocks = s.blocks) :
    destroyG g cfg t = .error (.ub "null function pointer called") := by
  obtain ⟨evs, u, w, h1, -⟩ := destroy_at (cfg := cfg) (exec_inv hA hc hs he).1
  unfold destroy at h1
  unfold destroyG
  rw [ht]
  cases hbs : s.blocks with
  | nil => exact absurd hbs hb
  | cons b rest =>
    rw [hbs] at h1
    unfold freeAllBlocks at h1
    unfold freeAllBlocksG
    cases hr : b.remain cfg.dbg with
    | error e => rw [hr] at h1; cases h1
    | ok n =>
      cases hn : b.runCleanups with
      | error e => rw [hr, hn] at h1; cases h1
      | ok ns =>
        simp only [ok_bind, must, hd]
        rfl

example : ∃ s, Exec (exCfg false 32 []) 32 [(.create 24 (some 1), .ptr (some 64))] s ∧
    destroyG { dealloc := false } (exCfg false 32 []) s = .error (.ub "null function pointer called") := by
  obtain ⟨s, he, -⟩ := exec_such (cfg := exCfg false 32 []) (A := 32) (cookie := none)
    (ops := [.create 24 (some 1)]) (h := [(.create 24 (some 1), .ptr (some 64))]) (P := fun _ => True) (by decide +kernel)
  have hne : s.blocks ≠ [] := by
    obtain ⟨_, hb⟩ := exec_inv (by decide) (exCfg_good _ _ _) (exCfg_sane _ (by decide) _) he
    exact hb ⟨_, List.mem_cons_self, rfl⟩
  exact ⟨s, he, block_dealloc_required (by decide) (exCfg_good _ _ _) (exCfg_sane _ (by decide) _) he hne rfl rfl⟩

end Verif.Arena
