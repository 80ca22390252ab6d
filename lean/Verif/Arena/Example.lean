import Verif.Arena.Spec

/-!
A concrete `block_alloc` satisfying the contract `Sane`, and a checker producing concrete
in-contract executions, used by the examples beside the theorems.
-/

namespace Verif.Arena

/-- End of the highest block ever handed out. -/
def top : List Ev → Nat
  | [] => 0
  | .blockAlloc s (some p) :: tr => max (p + s) (top tr)
  | _ :: tr => top tr

/-- A `block_alloc` that hands out ever higher addresses aligned to `A` and fails on its
requests number `bad`. -/
def bumpAlloc (A : Nat) (bad : List Nat) (tr : List Ev) (s : Nat) : Option Nat :=
  let k := tr.countP (fun e => match e with | .blockAlloc _ _ => true | _ => false)
  let p := (top tr / A + 1) * A
  if k ∈ bad then none else if p + s ≤ 2 ^ 63 then some p else none

theorem held_top (tr : List Ev) : ∀ r ∈ held tr, r.start + r.len ≤ top tr := by
  induction tr with
  | nil => intro r hr; simp [held] at hr
  | cons e tr ih =>
    intro r hr
    cases e with
    | blockAlloc s q =>
      cases q with
      | none => exact ih r hr
      | some p =>
        rcases List.mem_cons.1 hr with rfl | hr
        · exact Nat.le_max_left _ _
        · exact Nat.le_trans (ih r hr) (Nat.le_max_right _ _)
    | dealloc p => exact ih r (List.mem_filter.1 hr).1
    | _ => exact ih r hr

/-- Sample options (the defaults of arena/arena.hpp:207-216). -/
def exCfg (dbg : Bool) (A : Nat) (bad : List Nat) : Cfg :=
  { normal := 4096, huge := 2097152, init := 4096, dbg := dbg, blockAlloc := bumpAlloc A bad }

theorem exCfg_good (dbg : Bool) (A : Nat) (bad : List Nat) : GoodCfg (exCfg dbg A bad) := by
  constructor <;> simp [exCfg]

theorem bumpAlloc_some {A : Nat} {bad : List Nat} {tr : List Ev} {s p : Nat}
    (h : bumpAlloc A bad tr s = some p) : p = (top tr / A + 1) * A ∧ p + s ≤ 2 ^ 63 := by
  simp only [bumpAlloc] at h
  split at h
  · cases h
  · split at h
    · cases h; constructor
      · rfl
      · assumption
    · cases h

theorem exCfg_sane (dbg : Bool) {A : Nat} (hA : 0 < A) (bad : List Nat) : Sane A (exCfg dbg A bad) := by
  have hlt : ∀ t, t < (t / A + 1) * A := by
    intro t
    rw [Nat.add_mul, Nat.one_mul]
    have := Nat.div_add_mod t A
    have := Nat.mod_lt t hA
    rw [Nat.mul_comm]; omega
  constructor
  · intro tr s p h
    obtain ⟨rfl, _⟩ := bumpAlloc_some h
    exact Nat.dvd_mul_left _ _
  · intro tr s p h
    obtain ⟨rfl, _⟩ := bumpAlloc_some h
    exact Nat.mul_pos (Nat.succ_pos _) hA
  · intro tr s p h
    exact (bumpAlloc_some h).2
  · intro tr s p h r hr x hx
    obtain ⟨hp, _⟩ := bumpAlloc_some h
    have h1 := held_top tr r hr
    have h2 := hlt (top tr)
    rw [← hp] at h2
    obtain ⟨⟨h3, _⟩, _, h4⟩ := hx
    simp only at h3
    omega

instance (A a : Nat) : Decidable (GoodAlign A a) := inferInstanceAs (Decidable (_ ∧ _))

instance (A : Nat) (h : Hist) (op : Op) : Decidable (Contract A h op) := by
  cases op <;> simp only [Contract] <;> infer_instance

/-- Run calls while checking their contracts. -/
def tryRun (cfg : Cfg) (A : Nat) (h : Hist) (st : St) : List Op → Option (Hist × St)
  | [] => some (h, st)
  | op :: ops =>
    if Contract A h op then
      match step cfg st op with
      | .ok (r, st') => tryRun cfg A (h ++ [(op, r)]) st' ops
      | .error _ => none
    else none

theorem tryRun_exec {cfg : Cfg} {A : Nat} {h h' : Hist} {st st' : St} {ops : List Op}
    (he : Exec cfg A h st) (hr : tryRun cfg A h st ops = some (h', st')) : Exec cfg A h' st' := by
  induction ops generalizing h st with
  | nil => simp only [tryRun, Option.some.injEq, Prod.mk.injEq] at hr; rw [← hr.1, ← hr.2]; exact he
  | cons op ops ih =>
    simp only [tryRun] at hr
    split at hr
    · split at hr
      · rename_i hc _ r st2 hs
        exact ih (.step he hc hs) hr
      · cases hr
    · cases hr

/-- If the checked run produces the history `h`, then `h` is the history of an execution. -/
theorem exec_of_hist {cfg : Cfg} {A : Nat} {cookie : Option Nat} {h : Hist} {ops : List Op}
    (hr : (tryRun cfg A [] (mkArena cookie) ops).map Prod.fst = some h) :
    ∃ st, Exec cfg A h st := by
  cases hx : tryRun cfg A [] (mkArena cookie) ops with
  | none => rw [hx] at hr; cases hr
  | some x =>
    rw [hx] at hr
    cases hr
    exact ⟨x.2, tryRun_exec (.init cookie) hx⟩

/-- The same, with a decidable fact about the state reached. -/
theorem exec_such {cfg : Cfg} {A : Nat} {cookie : Option Nat} {h : Hist} {ops : List Op}
    {P : St → Prop} [DecidablePred P]
    (hr : (tryRun cfg A [] (mkArena cookie) ops).map (fun x => (x.1, decide (P x.2))) = some (h, true)) :
    ∃ st, Exec cfg A h st ∧ P st := by
  cases hx : tryRun cfg A [] (mkArena cookie) ops with
  | none => rw [hx] at hr; cases hr
  | some x =>
    rw [hx] at hr
    simp only [Option.map_some, Option.some.injEq, Prod.mk.injEq, decide_eq_true_eq] at hr
    obtain ⟨rfl, hp⟩ := hr
    exact ⟨x.2, tryRun_exec (.init cookie) hx, hp⟩

/-- A sample session: objects with destructors, memory of several alignments, an array, external
ownership, memory-resource requests, client writes, a failing `block_alloc` and a `Reset`; several
blocks are used on the way. -/
def sampleOps : List Op :=
  [.create 24 (some 1), .allocate 5000 32, .own 77 2, .createArray 8 3, .pmrAllocate 100 16,
   .allocateCleanup 40 3 none, .write 4192 5000, .allocate 9000 8, .create 10 (some 4), .reset,
   .create 10 (some 5), .allocate 4040 16]

/-- What the sample session returns. -/
def sampleHist : Hist :=
  [(.create 24 (some 1), .ptr (some 64)), (.allocate 5000 32, .ptr (some 4192)),
   (.own 77 2, .bool true), (.createArray 8 3, .ptr (some 9192)),
   (.pmrAllocate 100 16, .ptr (some 9216)), (.allocateCleanup 40 3 none, .ptr (some 9320)),
   (.write 4192 5000, .unit), (.allocate 9000 8, .ptr none), (.create 10 (some 4), .ptr (some 9360)),
   (.reset, .num 12288), (.create 10 (some 5), .ptr (some 64)), (.allocate 4040 16, .ptr (some 12416))]

/-- The configuration of the sample session: its third request to `block_alloc` fails. -/
abbrev sampleCfg : Cfg := exCfg true 32 [2]

/-- The session is an in-contract execution. -/
theorem sample_exec : ∃ st, Exec sampleCfg 32 sampleHist st :=
  exec_of_hist (cookie := some 9) (ops := sampleOps) (by decide +kernel)

/-- Every call of an execution was made, within its contract, in a reachable state. -/
theorem exec_split {cfg : Cfg} {A : Nat} {h t : Hist} {x : Op × Ret} {st : St}
    (he : Exec cfg A (h ++ x :: t) st) :
    ∃ st1 st2, Exec cfg A h st1 ∧ Contract A h x.1 ∧ step cfg st1 x.1 = .ok (x.2, st2) ∧
      Exec cfg A (h ++ [x]) st2 := by
  generalize hl : h ++ x :: t = l at he
  induction he generalizing t with
  | init => simp at hl
  | step he' hc hs ih =>
    rcases List.eq_nil_or_concat t with rfl | ⟨t', y, rfl⟩
    · obtain ⟨h1, h2⟩ := List.append_inj' hl rfl
      cases h2; subst h1
      exact ⟨_, _, he', hc, hs, .step he' hc hs⟩
    · rw [List.concat_eq_append, ← List.cons_append, ← List.append_assoc] at hl
      have h1 := hl
      obtain ⟨h1, _⟩ := List.append_inj' h1 rfl
      exact ih h1

/-- The call number `n` of the sample session, with the states before and after. -/
theorem sample_step (n : Nat) (hn : n < sampleHist.length) :
    ∃ st1 st2, Exec sampleCfg 32 (sampleHist.take n) st1 ∧
      Contract 32 (sampleHist.take n) sampleHist[n].1 ∧
      step sampleCfg st1 sampleHist[n].1 = .ok (sampleHist[n].2, st2) ∧
      Exec sampleCfg 32 (sampleHist.take (n + 1)) st2 := by
  obtain ⟨st, he⟩ := sample_exec
  have h1 : sampleHist = sampleHist.take n ++ sampleHist[n] :: sampleHist.drop (n + 1) := by
    rw [List.getElem_cons_drop, List.take_append_drop]
  rw [h1] at he
  obtain ⟨a, b, c, d, e, f⟩ := exec_split he
  refine ⟨a, b, c, d, e, ?_⟩
  rw [List.take_succ_eq_append_getElem hn]; exact f

/-- The part before the `Reset` of the session. -/
theorem sample_exec9 : ∃ st, Exec sampleCfg 32 (sampleHist.take 9) st :=
  let ⟨st, _, h, _⟩ := sample_step 9 (by decide)
  ⟨st, h⟩

theorem sample_good : GoodCfg sampleCfg := exCfg_good _ _ _
theorem sample_sane : Sane 32 sampleCfg := exCfg_sane _ (by decide) _

end Verif.Arena
