import Verif.Str.ThreadProps

/-!
The checks of a debug build with `CROSS_THREAD_CHECKING`: strings remember a thread, and an `Assert` stops the program when
another thread copies or destroys them.  string.hpp:335-345, 366-371, 393-397, 432-439, 674-677, 1188-1212.

Modelled on top of the strings for the operations below; of those that swap with a temporary inside there are `pop_back`,
`reserve` and `shrink_to_fit`, the others (`replace` with a part of the string itself, the growth in `append` and the like)
are left out.  Arena strings have checks of their own, arena_string.hpp:100-109, 133-138, 172-175, which are not
modelled; with them `clone` does not compile, because a `std::thread::id` has no `swap`.
-/

namespace Verif.Str

open M

variable {cfg : Cfg}

/-! ### Model -/

/-- The strings and the `cpu_` of each, string.hpp:674-677. -/
structure Tagged where
  st : St
  cpu : Nat → Option Nat

/-- What a thread does to strings. -/
inductive CpuOp where
  | make (v : Nat) (xs : List Ch)
  | copy (v u : Nat)
  | move (v u : Nat)
  | clone (v u : Nat)
  | swap (v u : Nat)
  | setAt (v i : Nat) (c : Ch)
  | destroy (v : Nat)
  | moveAssign (v u : Nat)
  | popBack (v : Nat)
  | reserve (v n : Nat)
  | shrinkToFit (v : Nat)

/-- The operation on the strings. -/
def CpuOp.op : CpuOp → Op
  | .make v xs => .make v 0 (.lit xs)
  | .copy v u => .copy v u
  | .move v u => .move v u
  | .clone v u => .clone v u
  | .swap v u => .swap v u
  | .setAt v i c => .setAt v i c
  | .destroy v => .destroy v
  | .moveAssign v u => .assignMove v u
  | .popBack v => .popBack v
  | .reserve v n => .reserve v n
  | .shrinkToFit v => .shrinkToFit v

/-- The string that changes its core, and with it its `cpu_`, with that of a fresh temporary, which is then destroyed:
`shrinkLarge` of a shared string (string.hpp:465-473, 1007), `reserveMedium` beyond the medium size (lines 892-914) and
`shrink_to_fit` (lines 1284-1287). -/
def CpuOp.renewed (cfg : Cfg) (s : St) : CpuOp → Option Nat
  | .popBack v =>
    match s.vars (.user v) with
    | some ⟨.ml d _ _ true, _⟩ => if (refs d s).1.toOption = some 1 then none else some v
    | _ => none
  | .reserve v n =>
    match s.vars (.user v) with
    | some ⟨.ml _ _ cap false, _⟩ => if n ≤ cap ∨ n ≤ cfg.mm then none else some v
    | _ => none
  | .shrinkToFit v =>
    match (capacity cfg (.user v) s).1, (size cfg (.user v) s).1 with
    | .ok c, .ok k => if c < mul64 k 3 / 2 then none else some v
    | _, _ => none
  | _ => none

/-- The string whose `cpu_` the `Assert` looks at: string.hpp:339, 396 and, through the copy, 1196 and 1207; the old `cpu_` of a
renewed string is that of the temporary destroyed (396); a move assignment destroys first (1787). -/
def CpuOp.checked (cfg : Cfg) (s : St) : CpuOp → Option Nat
  | .copy _ u | .clone _ u => some u
  | .destroy v => some v
  | .moveAssign v u => if u = v then none else some v
  | op => op.renewed cfg s

/-- A renewed string has the `cpu_` of the temporary, none. -/
def untag (cpu : Nat → Option Nat) : Option Nat → Nat → Option Nat
  | some v => upd cpu v none
  | none => cpu

/-- `cpu_` afterwards, in thread `t`: string.hpp:341-344 (copy: only if the source has none), 369 (move: the source keeps its),
437 (swap, also with the temporary of a renewed string, which has none), 1200-1202 and 1208-1210 (clone: the source gets its own
back, the result none), 1789 (move assignment), 676 (others: none). -/
def CpuOp.tags (cfg : Cfg) (s : St) (t : Nat) (cpu : Nat → Option Nat) : CpuOp → Nat → Option Nat
  | .make v _ => upd cpu v none
  | .copy v u => if (cpu u).isNone then upd (upd cpu u (some t)) v (some t) else upd cpu v none
  | .move v u => upd cpu v (cpu u)
  | .clone v _ => upd cpu v none
  | .swap v u => upd (upd cpu v (cpu u)) u (cpu v)
  | .setAt _ _ _ => cpu
  | .destroy _ => cpu
  | .moveAssign v u => if u = v then cpu else upd cpu v (cpu u)
  | op => untag cpu (op.renewed cfg s)

/-- The `Assert`s. -/
def CpuOp.passes (cfg : Cfg) (t : Nat) (op : CpuOp) (x : Tagged) : Bool :=
  match op.checked cfg x.st with
  | some u => (x.cpu u).isNone || x.cpu u == some t
  | none => true

/-- Is the `Assert` the first thing done, or, for a renewed string, the last? -/
def CpuOp.first : CpuOp → Bool
  | .popBack _ | .reserve _ _ | .shrinkToFit _ => false
  | _ => true

/-- Thread `t` does `op`. -/
def cpuRun (cfg : Cfg) (t : Nat) (op : CpuOp) (x : Tagged) : Except Fault Unit × Tagged :=
  if op.first && !op.passes cfg t x then (.error (.assertFail "cross thread"), x)
  else
    match op.op.run cfg x.st with
    | (.ok _, s) =>
      if op.passes cfg t x then (.ok (), ⟨s, op.tags cfg x.st t x.cpu⟩)
      else (.error (.assertFail "cross thread"), x)
    | (.error e, s) => (.error e, ⟨s, x.cpu⟩)

/-- A program of several threads, up to the first failure. -/
def cpuAll (cfg : Cfg) : List (Nat × CpuOp) → Tagged → Except Fault Unit × Tagged
  | [], x => (.ok (), x)
  | (t, op) :: ops, x =>
    match cpuRun cfg t op x with
    | (.ok _, x) => cpuAll cfg ops x
    | r => r

/-- No strings. -/
def Tagged.init : Tagged := ⟨St.init, fun _ => none⟩

/-! ### Properties -/

theorem tags_own (s : St) (t : Nat) (op : CpuOp) {cpu : Nat → Option Nat} (h : ∀ v, cpu v = none ∨ cpu v = some t) :
    ∀ v, op.tags cfg s t cpu v = none ∨ op.tags cfg s t cpu v = some t := by
  intro i
  have hu : ∀ {f : Nat → Option Nat} {k : Nat} {x : Option Nat}, (∀ v, f v = none ∨ f v = some t) → x = none ∨ x = some t →
      ∀ v, upd f k x v = none ∨ upd f k x v = some t := by
    intro f k x hf hx v
    unfold upd
    split
    · exact hx
    · exact hf v
  cases op with
  | make v xs => exact hu h (Or.inl rfl) i
  | copy v u =>
    unfold CpuOp.tags
    simp only
    split
    · exact hu (hu h (Or.inr rfl)) (Or.inr rfl) i
    · exact hu h (Or.inl rfl) i
  | move v u => exact hu h (h u) i
  | clone v u => exact hu h (Or.inl rfl) i
  | swap v u => exact hu (hu h (h u)) (h v) i
  | setAt v i' c => exact h i
  | destroy v => exact h i
  | moveAssign v u =>
    unfold CpuOp.tags
    simp only
    split
    · exact h i
    · exact hu h (h u) i
  | popBack v =>
    simp only [CpuOp.tags]
    cases CpuOp.renewed cfg s (.popBack v) with
    | none => exact h i
    | some u => exact hu h (Or.inl rfl) i
  | reserve v n =>
    simp only [CpuOp.tags]
    cases CpuOp.renewed cfg s (.reserve v n) with
    | none => exact h i
    | some u => exact hu h (Or.inl rfl) i
  | shrinkToFit v =>
    simp only [CpuOp.tags]
    cases CpuOp.renewed cfg s (.shrinkToFit v) with
    | none => exact h i
    | some u => exact hu h (Or.inl rfl) i

theorem cpuAll_own (t : Nat) : ∀ (ops : List CpuOp) (x : Tagged), (∀ v, x.cpu v = none ∨ x.cpu v = some t) →
    (cpuAll cfg (ops.map fun op => (t, op)) x).1 = (runOk cfg (ops.map (·.op)) x.st).1 ∧
    (cpuAll cfg (ops.map fun op => (t, op)) x).2.st = (runOk cfg (ops.map (·.op)) x.st).2
  | [], x, _ => ⟨rfl, rfl⟩
  | op :: ops, x, h => by
    have hp : op.passes cfg t x = true := by
      unfold CpuOp.passes
      split
      · next u _ => rcases h u with h | h <;> simp [h]
      · rfl
    simp only [List.map_cons]
    unfold cpuAll runOk
    unfold cpuRun
    simp only [hp, if_true, Bool.not_true, Bool.and_false, Bool.false_eq_true, if_false]
    rw [bind_apply]
    rcases e : op.op.run cfg x.st with ⟨r, s⟩
    cases r with
    | ok _ => exact cpuAll_own t ops ⟨s, op.tags cfg x.st t x.cpu⟩ (tags_own x.st t op h)
    | error f => exact ⟨rfl, rfl⟩

/-- A program in one thread runs as without the checks: none of them ever stops it. -/
theorem one_thread_not_stopped (cfg : Cfg) (t : Nat) (ops : List CpuOp) :
    (cpuAll cfg (ops.map fun op => (t, op)) Tagged.init).1 = (runOk cfg (ops.map (·.op)) St.init).1 ∧
    (cpuAll cfg (ops.map fun op => (t, op)) Tagged.init).2.st = (runOk cfg (ops.map (·.op)) St.init).2 :=
  cpuAll_own t ops _ fun _ => Or.inl rfl

example : (cpuAll (heapCfg true) ([.make 0 (List.replicate 300 97), .copy 1 0, .copy 2 0, .move 3 0, .clone 4 3, .swap 1 4, .setAt 1 0 98,
    .popBack 2, .popBack 2, .reserve 2 400, .shrinkToFit 2, .moveAssign 1 2, .destroy 0, .destroy 1, .destroy 2].map fun op => (5, op)) Tagged.init).1 = .ok () := by
  decide +kernel

/-- The operation leaves the `cpu_` of `v` alone. -/
def CpuOp.spares (v : Nat) : CpuOp → Prop
  | .make w _ | .copy w _ | .move w _ | .clone w _ => w ≠ v
  | .swap w u => w ≠ v ∧ u ≠ v
  | .setAt _ _ _ | .destroy _ => True
  | .moveAssign w _ | .popBack w | .reserve w _ | .shrinkToFit w => w ≠ v

theorem renewed_target {s : St} {op : CpuOp} {v u : Nat} (h : op.renewed cfg s = some u) (ho : op.spares v) : u ≠ v := by
  cases op <;> simp only [CpuOp.renewed] at h <;> try exact absurd h (by simp)
  all_goals
    split at h
    · split at h
      · cases h
      · cases h; exact ho
    · cases h

theorem tags_kept (s : St) (v k t : Nat) (op : CpuOp) {cpu : Nat → Option Nat} (h : cpu v = some t) (ho : op.spares v) :
    op.tags cfg s k cpu v = some t := by
  cases op with
  | make w xs => simp only [CpuOp.tags, upd_other _ _ ho.symm, h]
  | copy w u =>
    simp only [CpuOp.tags]
    split
    · next hn =>
      have hu : u ≠ v := by rintro rfl; simp [h] at hn
      rw [upd_other _ _ (Ne.symm ho), upd_other _ _ hu.symm, h]
    · rw [upd_other _ _ (Ne.symm ho), h]
  | move w u => simp only [CpuOp.tags, upd_other _ _ ho.symm, h]
  | clone w u => simp only [CpuOp.tags, upd_other _ _ ho.symm, h]
  | swap w u => simp only [CpuOp.tags, upd_other _ _ ho.1.symm, upd_other _ _ ho.2.symm, h]
  | setAt w i c => exact h
  | destroy w => exact h
  | moveAssign w u =>
    simp only [CpuOp.tags]
    split
    · exact h
    · rw [upd_other _ _ (Ne.symm ho), h]
  | popBack w =>
    simp only [CpuOp.tags]
    cases hu : CpuOp.renewed cfg s (.popBack w) with
    | none => exact h
    | some u => simp only [untag, upd_other _ _ (renewed_target hu ho).symm, h]
  | reserve w n =>
    simp only [CpuOp.tags]
    cases hu : CpuOp.renewed cfg s (.reserve w n) with
    | none => exact h
    | some u => simp only [untag, upd_other _ _ (renewed_target hu ho).symm, h]
  | shrinkToFit w =>
    simp only [CpuOp.tags]
    cases hu : CpuOp.renewed cfg s (.shrinkToFit w) with
    | none => exact h
    | some u => simp only [untag, upd_other _ _ (renewed_target hu ho).symm, h]

theorem cpuRun_ok {t : Nat} {op : CpuOp} {x z : Tagged} {a : Unit} (h : cpuRun cfg t op x = (.ok a, z)) :
    op.passes cfg t x = true ∧ z.cpu = op.tags cfg x.st t x.cpu := by
  unfold cpuRun at h
  split at h
  · cases h
  · split at h
    · split at h
      · next hp => cases h; exact ⟨hp, rfl⟩
      · cases h
    · cases h

theorem cpuAll_kept (v t : Nat) : ∀ (ops : List (Nat × CpuOp)) (x y : Tagged), x.cpu v = some t → (∀ o ∈ ops, o.2.spares v) →
    cpuAll cfg ops x = (.ok (), y) → y.cpu v = some t
  | [], x, y, h, _, hr => by cases hr; exact h
  | (k, op) :: ops, x, y, h, ho, hr => by
    unfold cpuAll at hr
    split at hr
    · next z hz =>
      exact cpuAll_kept v t ops z y (by rw [(cpuRun_ok hz).2]; exact tags_kept x.st v k t op h (ho (k, op) List.mem_cons_self))
        (fun o hm => ho o (List.mem_cons_of_mem _ hm)) hr
    · next hne =>
      rw [hr] at hne
      exact (hne () y rfl).elim

/-- The calls that change the count of the buffer of `w`, if it has one, whatever the state: those that copy it and those that end
its life. -/
def CpuOp.Touches (w : Nat) (op : CpuOp) : Prop :=
  (∃ v, op = .copy v w) ∨ (∃ v, op = .clone v w) ∨ op = .destroy w ∨ ∃ u, u ≠ w ∧ op = .moveAssign w u

theorem guarded_of_checked {t t' u v w : Nat} {x y z : Tagged} {ops : List (Nat × CpuOp)} (h0 : x.cpu u = none)
    (h1 : cpuRun cfg t (.copy v u) x = (.ok (), y)) (h2 : cpuAll cfg ops y = (.ok (), z)) (hw : w = u ∨ w = v)
    (hs : ∀ o ∈ ops, o.2.spares w) (ht : t' ≠ t) {op : CpuOp} (ho : op.checked cfg z.st = some w) :
    (cpuRun cfg t' op z).1 ≠ .ok () ∧
    ((op.first = true ∨ (op.op.run cfg z.st).1 = .ok ()) → (cpuRun cfg t' op z).1 = .error (.assertFail "cross thread")) := by
  have hy : y.cpu w = some t := by
    rw [(cpuRun_ok h1).2]
    simp only [CpuOp.tags, h0, Option.isNone_none, if_true]
    unfold upd
    rcases hw with rfl | rfl <;> simp
  have hz := cpuAll_kept w t ops y z hy hs h2
  have hp : op.passes cfg t' z = false := by
    unfold CpuOp.passes
    rw [ho]
    simp [hz, Ne.symm ht]
  constructor
  · intro h
    have := (cpuRun_ok (a := ()) (z := (cpuRun cfg t' op z).2) (x := z) (op := op) (t := t') (cfg := cfg) (by rw [← h])).1
    rw [hp] at this
    cases this
  · intro h
    unfold cpuRun
    rw [hp]
    rcases h with h | h
    · simp [h]
    · rcases e : op.op.run cfg z.st with ⟨r, s⟩
      rw [e] at h
      cases h
      simp

/-- A thread copies the string `u`, which no thread had copied before, into `v`.  From then on, as long as neither of the two is swapped,
made anew or renewed, another thread that copies, clones, destroys or moves to `u` or `v` is stopped. -/
theorem first_copy_is_guarded_partial {t t' u v w : Nat} {x y z : Tagged} {ops : List (Nat × CpuOp)} (h0 : x.cpu u = none)
    (h1 : cpuRun cfg t (.copy v u) x = (.ok (), y)) (h2 : cpuAll cfg ops y = (.ok (), z)) (hw : w = u ∨ w = v)
    (hs : ∀ o ∈ ops, o.2.spares w) (ht : t' ≠ t) {op : CpuOp} (ho : op.Touches w) :
    (cpuRun cfg t' op z).1 = .error (.assertFail "cross thread") := by
  have hc : op.checked cfg z.st = some w ∧ op.first = true := by
    rcases ho with ⟨v, rfl⟩ | ⟨v, rfl⟩ | rfl | ⟨k, hk, rfl⟩
    · exact ⟨rfl, rfl⟩
    · exact ⟨rfl, rfl⟩
    · exact ⟨rfl, rfl⟩
    · exact ⟨if_neg hk, rfl⟩
  exact (guarded_of_checked h0 h1 h2 hw hs ht hc.1).2 (.inl hc.2)

/-- The same for `pop_back` of a string that shares its characters: the other thread does not succeed, and is stopped if there is memory
for the copy. -/
theorem pop_back_is_guarded_partial {t t' u v w : Nat} {x y z : Tagged} {ops : List (Nat × CpuOp)} (h0 : x.cpu u = none)
    (h1 : cpuRun cfg t (.copy v u) x = (.ok (), y)) (h2 : cpuAll cfg ops y = (.ok (), z)) (hw : w = u ∨ w = v)
    (hs : ∀ o ∈ ops, o.2.spares w) (ht : t' ≠ t) (hsh : (isShared (.user w) z.st).1 = .ok true) :
    (cpuRun cfg t' (.popBack w) z).1 ≠ .ok () ∧
    ((popBack cfg (.user w) z.st).1 = .ok () → (cpuRun cfg t' (.popBack w) z).1 = .error (.assertFail "cross thread")) := by
  have hc : (CpuOp.popBack w).checked cfg z.st = some w := by
    show (CpuOp.popBack w).renewed cfg z.st = some w
    unfold CpuOp.renewed
    unfold isShared at hsh
    rw [bind_apply] at hsh
    unfold getOb at hsh
    cases hv : z.st.vars (.user w) with
    | none => rw [hv] at hsh; cases hsh
    | some o =>
      rw [hv] at hsh
      obtain ⟨core, al⟩ := o
      cases core with
      | small cells => cases hsh
      | ml d k cap large =>
        cases large with
        | false => cases hsh
        | true =>
          simp only [bind_apply] at hsh ⊢
          rcases e : refs d z.st with ⟨r, s⟩
          rw [e] at hsh
          cases r with
          | error f => cases hsh
          | ok n =>
            have hn : decide (1 < n) = true := Except.ok.inj hsh
            have hn : 1 < n := of_decide_eq_true hn
            simp only [hv]
            refine if_neg fun hc => ?_
            rw [e] at hc
            have : n = 1 := Option.some.inj hc
            omega
  exact ⟨(guarded_of_checked h0 h1 h2 hw hs ht hc).1, fun h => (guarded_of_checked h0 h1 h2 hw hs ht hc).2 (.inr h)⟩

example : (cpuAll (heapCfg true) [(1, .make 0 (List.replicate 300 97)), (1, .copy 1 0), (1, .setAt 1 0 98), (2, .copy 2 1)] Tagged.init).1 =
    .error (.assertFail "cross thread") := by
  decide +kernel

-- `pop_back` of a shared string by another thread is stopped, and so is a move to it.
example : (cpuAll (heapCfg true) [(1, .make 0 (List.replicate 300 97)), (1, .copy 1 0), (2, .popBack 1)] Tagged.init).1 =
    .error (.assertFail "cross thread") ∧
    (cpuAll (heapCfg true) [(1, .make 0 (List.replicate 300 97)), (1, .copy 1 0), (2, .make 2 [97]), (2, .moveAssign 1 2)] Tagged.init).1 =
    .error (.assertFail "cross thread") := by
  decide +kernel

/-! ### Violations -/

/-- Copies of a string that was copied before are not guarded.  The strings 2 and 3 share their characters, one thread copies the first,
another one destroys the second, and no check stops them. -/
theorem later_copies_are_not_guarded_violated :
    (cpuAll (heapCfg true) [(1, .make 0 (List.replicate 300 97)), (1, .copy 1 0), (1, .copy 2 0), (1, .copy 3 0), (1, .destroy 0),
      (1, .destroy 1), (1, .copy 4 2), (2, .destroy 3)] Tagged.init).1 = .ok () ∧
    ((do let p ← dataPtr (.user 2); let q ← dataPtr (.user 3); pure (p.same q)) (cpuAll (heapCfg true) [(1, .make 0 (List.replicate 300 97)),
      (1, .copy 1 0), (1, .copy 2 0), (1, .copy 3 0), (1, .destroy 0), (1, .destroy 1)] Tagged.init).2.st).1 = .ok true := by
  decide +kernel

/-- A thread that writes to a string is not checked, though the count of the buffer changes: thread 2 writes to string 1, which shares
its characters with string 0 of thread 1. -/
theorem writes_are_not_guarded_violated :
    (cpuAll (heapCfg true) [(1, .make 0 (List.replicate 300 97)), (1, .copy 1 0), (2, .setAt 1 0 98)] Tagged.init).1 = .ok () ∧
    (refs 0 (cpuAll (heapCfg true) [(1, .make 0 (List.replicate 300 97)), (1, .copy 1 0)] Tagged.init).2.st).1 = .ok 2 ∧
    (refs 0 (cpuAll (heapCfg true) [(1, .make 0 (List.replicate 300 97)), (1, .copy 1 0), (2, .setAt 1 0 98)] Tagged.init).2.st).1 =
      .ok 1 := by
  decide +kernel

/-- Strings that share nothing are guarded all the same.  A string of two characters was copied by thread 1, the copy is
moved to thread 2, and thread 2 is stopped when it destroys it.  Its
buffer has no count (debug builds do not store short strings in the object). -/
theorem harmless_copy_is_stopped_violated :
    (cpuAll (heapCfg true) [(1, .make 0 [97, 98]), (1, .copy 1 0), (1, .move 2 1), (2, .destroy 2)] Tagged.init).1 =
      .error (.assertFail "cross thread") ∧
    (dataPtr (.user 2) (cpuAll (heapCfg true) [(1, .make 0 [97, 98]), (1, .copy 1 0), (1, .move 2 1)] Tagged.init).2.st).1 =
      .ok (.blk 1 0) ∧
    ((cpuAll (heapCfg true) [(1, .make 0 [97, 98]), (1, .copy 1 0), (1, .move 2 1)] Tagged.init).2.st.heap 1).map (·.rc) =
      some none := by
  decide +kernel

/-- Growing a string is stopped, though it shares nothing: a string of two characters was copied by thread 1, thread 2 reserves room for
300 characters in the copy. -/
theorem harmless_growth_is_stopped_violated :
    (cpuAll (heapCfg true) [(1, .make 0 [97, 98]), (1, .copy 1 0), (2, .reserve 1 300)] Tagged.init).1 =
      .error (.assertFail "cross thread") ∧
    (cpuAll (heapCfg true) [(1, .make 0 [97, 98]), (1, .copy 1 0), (2, .reserve 1 254)] Tagged.init).1 = .ok () ∧
    ((cpuAll (heapCfg true) [(1, .make 0 [97, 98]), (1, .copy 1 0)] Tagged.init).2.st.heap 1).map (·.rc) = some none := by
  decide +kernel

/-- The same for a long string that has become the only owner of its characters. -/
theorem sole_owner_is_stopped_violated :
    (cpuAll (heapCfg true) [(1, .make 0 (List.replicate 300 97)), (1, .copy 1 0), (1, .destroy 0), (2, .destroy 1)] Tagged.init).1 =
      .error (.assertFail "cross thread") ∧
    (refs 0 (cpuAll (heapCfg true) [(1, .make 0 (List.replicate 300 97)), (1, .copy 1 0), (1, .destroy 0)] Tagged.init).2.st).1 = .ok 1 := by
  decide +kernel

end Verif.Str
