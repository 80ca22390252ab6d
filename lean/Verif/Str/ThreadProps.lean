import Verif.Str.ThreadLemmas

/-!
What several threads can rely on: strings that are not shared, `clone`, functions that only read.
The theorems about threads that share nothing, `threads_apart` and `threads_do_not_interfere`, are in `Threads`.
-/

namespace Verif.Str

open M

variable {β γ : Type} {cfg : Cfg} {s s' : St} {a a' : Abs}

/-! ### Examples of threads -/

/-- A program of several threads is an execution of threads. -/
theorem threads_runOk (hc : cfg.Ok) {owner : Nat → Nat} : ∀ {ops : List (Nat × Op)} {a a' : Abs} {s s' : St}, Threads cfg owner a s →
    (∀ x ∈ ops, ∀ v ∈ x.2.vars, owner v = x.1) →
    specAll cfg.arena (ops.map (·.2)) a = some a' → runOk cfg (ops.map (·.2)) s = (.ok (), s') → Threads cfg owner a' s'
  | [], a, a', s, s', h, _, hs, hr => by cases hs; cases hr; exact h
  | (t, op) :: ops, a, a', s, s', h, ho, hs, hr => by
    simp only [List.map_cons, specAll] at hs
    simp only [List.map_cons] at hr
    unfold runOk at hr
    obtain ⟨_, s1, e, hr⟩ := bind_ok_inv hr
    split at hs
    · next a1 h1 =>
      exact threads_runOk hc (h.act t (ho (t, op) List.mem_cons_self) h1 e) (fun x hx => ho x (List.mem_cons_of_mem _ hx)) hs hr
    · next h1 =>
      have h2 := step_refines hc (reach_rel hc h.reach).1 h1
      simp only [Refines] at h2
      rw [h2] at e; cases e
    · cases hs

/-- Two threads, the even strings and the odd ones. -/
def demoThreads : List (Nat × Op) :=
  [(0, .makeFill 0 0 300 97), (1, .make 1 0 (.lit [98, 99])), (0, .copy 2 0), (1, .append 1 (.sub 1 0 1)), (0, .setAt 0 7 100),
   (1, .makeFill 3 0 300 101), (0, .destroy 2), (1, .assignStr 1 3), (1, .clear 3), (0, .popBack 0)]

theorem demoThreads_owned : ∀ x ∈ demoThreads, ∀ v ∈ x.2.vars, v % 2 = x.1 := by decide

example (dbg : Bool) : ∃ a s, Threads (heapCfg dbg) (· % 2) a s ∧ (contents (heapCfg dbg) 1 s).1 = .ok (List.replicate 300 101) := by
  have h1 : (specAll (heapCfg dbg).arena (demoThreads.map (·.2)) fun _ => none).isSome = true := by cases dbg <;> decide +kernel
  have h2 : (runOk (heapCfg dbg) (demoThreads.map (·.2)) St.init).1 = .ok () := by cases dbg <;> decide +kernel
  obtain ⟨a, ha⟩ := Option.isSome_iff_exists.1 h1
  refine ⟨a, _, threads_runOk (heapCfg_ok dbg) (.start _) demoThreads_owned ha (Prod.ext h2 rfl), ?_⟩
  cases dbg <;> decide +kernel

/-! ### Properties -/


/-- The string made by `clone` shares its characters with no other string, the one it was made from included.  Every
other string keeps its characters.  So the two may be given to different threads. -/
theorem clone_unshared (hc : cfg.Ok) (h : Reach cfg a s) {v u : Nat} {xs : List Ch} (hv : a v = none) (hu : a u = some xs)
    (hr : (Op.clone v u).run cfg s = (.ok (), s')) :
    (∀ i, i ≠ v → ¬ Shares s' i v) ∧ Reach cfg (fun i => if i = v then some xs else a i) s' := by
  have hrel := (reach_rel hc h).1
  have hne : v ≠ u := by rintro rfl; rw [hv] at hu; cases hu
  have h' : Reach cfg (fun i => if i = v then some xs else a i) s' :=
    h.done (op := .clone v u) (by simp [Op.spec, Abs.make, hv, hu]; rfl) hr
  exact ⟨Excl.unshared (reach_rel hc h').1.inv
    (clone_excl hc hrel.inv (hrel.absent v hv) (hrel.held u xs hu) hr), h'⟩

/-- A string of 300 characters and its copy share them; the clone is apart from both. -/
example : ∀ dbg ∈ [false, true],
    ((do let xs ← contents (heapCfg dbg) 2; let p ← dataPtr (.user 0); let q ← dataPtr (.user 1); let r ← dataPtr (.user 2)
         pure (xs.length, p.same q, p.same r)) (runOk (heapCfg dbg) [.makeFill 0 0 300 97, .copy 1 0, .clone 2 0] St.init).2).1 =
      .ok (300, true, false) := by
  decide +kernel

/-- The functions that are `const`, except those that make a copy or a clone, write nothing, whatever the memory holds and
whatever they return: any number of threads may call them on the same string at once.  Copies and clones are missing, see
`copies_race_violated`. -/
theorem const_functions_write_nothing_partial (cfg : Cfg) (s : St) (v : Obj) :
    (size cfg v s).2 = s ∧ (capacity cfg v s).2 = s ∧ (dataPtr v s).2 = s ∧ (∀ i, (getAt v i s).2 = s) ∧
    (∀ i, (atConst cfg v i s).2 = s) ∧ (front v s).2 = s ∧ (back cfg v s).2 = s ∧ (∀ n pos, (copyOut cfg v n pos s).2 = s) ∧
    (∀ t, (startsWith cfg v t s).2 = s) ∧ (∀ t, (endsWith cfg v t s).2 = s) ∧ (∀ H, (hash H cfg v s).2 = s) ∧
    (toStdString v s).2 = s ∧ ∀ os, (insertTo cfg v os s).2 = s :=
  ⟨size_still v s, capacity_still v s, dataPtr_still v s, fun i => getAt_still v i s, fun i => atConst_still v i s,
   front_still v s, back_still v s, fun n pos => copyOut_still v n pos s, fun t => startsWith_still v t s, fun t => endsWith_still v t s,
   fun H => hash_still H v s, toStdString_still v s, fun os => insertTo_still v os s⟩

example : ((do let n ← size (heapCfg true) (.user 0); let c ← getAt (.user 0) 299; let p ← startsWith (heapCfg true) (.user 0) [97, 97]
               pure (n, c, p)) (runOk (heapCfg true) [.makeFill 0 0 300 97, .copy 1 0] St.init).2).1 = .ok (300, 97, true) := by
  decide +kernel

/-- Copying a string `u` whose characters lie in the object itself or in a buffer that has no count changes no other string
and no buffer there was: it does not write to what `u` consists of. -/
theorem copy_writes_nothing_old_partial (hc : cfg.Ok) (h : Reach cfg a s) {v u : Nat}
    (hu : ∀ b k, (dataPtr (.user u) s).1 = .ok (.blk b k) → ∃ B, s.heap b = some B ∧ B.rc = none) (hua : a u ≠ none) :
    (∀ o, o ≠ .user v → ((Op.copy v u).run cfg s).2.vars o = s.vars o) ∧
    ∀ b, s.heap b ≠ none → ((Op.copy v u).run cfg s).2.heap b = s.heap b := by
  have hrel := (reach_rel hc h).1
  cases hx : a u with
  | none => exact (hua hx).elim
  | some xs =>
    obtain ⟨ob, l, n, hh, _⟩ := hrel.held u xs hx
    have hp : ob.core.plain := by
      obtain ⟨c, al⟩ := ob
      cases c with
      | small c => trivial
      | ml d m cap large =>
        cases large with
        | false => trivial
        | true =>
          obtain ⟨B, hB, _, _, _, hl, _⟩ := hrel.inv.core _ _ hh.var
          obtain ⟨B', hB', hn⟩ := hu d 0 (by rw [dataPtr_eq, hh.var]; rfl)
          rw [hB] at hB'
          cases hB'
          rw [hn] at hl
          simp at hl
    have hw := ctorCopy_writes (cfg := cfg) (v := .user v) (n0 := s.next) hh.var hp (Nat.le_refl _)
    refine ⟨hw.1, fun b hb => hw.2 b ?_⟩
    by_cases hlt : b < s.next
    · exact hlt
    · exact (hb (hrel.inv.fresh b (by omega))).elim

/-- A string of 40 characters is copied; it had a buffer without a count, block 0. -/
example : ∀ dbg ∈ [false, true], (dataPtr (.user 0) (runOk (heapCfg dbg) [.makeFill 0 0 40 97] St.init).2).1 = .ok (.blk 0 0) ∧
    ((runOk (heapCfg dbg) [.makeFill 0 0 40 97] St.init).2.heap 0).map (·.rc) = some none ∧
    (runOk (heapCfg dbg) [.makeFill 0 0 40 97, .copy 1 0] St.init).1 = .ok () := by
  decide +kernel

/-- The programs of several threads, each on its own strings, however their operations are interleaved: the strings of each
thread have the contents the operations of that thread give them, as if there were no other thread. -/
theorem threads_contents (hc : cfg.Ok) {owner : Nat → Nat} {ops : List (Nat × Op)} {a : Abs} (hown : ∀ x ∈ ops, ∀ v ∈ x.2.vars, owner v = x.1)
    (hs : specAll cfg.arena (ops.map (·.2)) (fun _ => none) = some a) (hr : runOk cfg (ops.map (·.2)) St.init = (.ok (), s)) (t : Nat) :
    ∃ a', specAll cfg.arena ((ops.filter (·.1 = t)).map (·.2)) (fun _ => none) = some a' ∧
      ∀ v, owner v = t → ∀ xs, a' v = some xs → (contents cfg v s).1 = .ok xs := by
  have key : ∀ (ops : List (Nat × Op)) (a0 b0 a : Abs), (∀ x ∈ ops, ∀ v ∈ x.2.vars, owner v = x.1) →
      (∀ v, owner v = t → a0 v = b0 v) → specAll cfg.arena (ops.map (·.2)) a0 = some a →
      ∃ a', specAll cfg.arena ((ops.filter (·.1 = t)).map (·.2)) b0 = some a' ∧ ∀ v, owner v = t → a v = a' v := by
    intro ops
    induction ops with
    | nil => intro a0 b0 a _ h0 h; cases h; exact ⟨b0, rfl, h0⟩
    | cons x ops ih =>
      obtain ⟨k, op⟩ := x
      intro a0 b0 a hw h0 h
      have hw' : ∀ x ∈ ops, ∀ v ∈ x.2.vars, owner v = x.1 := fun x hx => hw x (List.mem_cons_of_mem _ hx)
      have hk : ∀ v ∈ op.vars, owner v = k := hw (k, op) List.mem_cons_self
      simp only [List.map_cons, specAll] at h
      by_cases hkt : k = t
      · subst hkt
        have hl := spec_local (arena := cfg.arena) (op := op) (a := a0) (b := b0) (fun v hv => h0 v (hk v hv))
        simp only [List.filter_cons, decide_true, if_true, List.map_cons, specAll]
        cases h1 : op.spec cfg.arena a0 with
        | none => rw [h1] at h; cases h
        | some o1 =>
          rw [h1] at h hl
          cases h2 : op.spec cfg.arena b0 with
          | none => rw [h2] at hl; cases o1 <;> exact hl.elim
          | some o2 =>
            rw [h2] at hl
            cases o1 with
            | outOfRange =>
              cases o2 with
              | outOfRange => exact ih a0 b0 a hw' h0 h
              | done b1 => exact hl.elim
            | done a1 =>
              cases o2 with
              | outOfRange => exact hl.elim
              | done b1 =>
                refine ih a1 b1 a hw' (fun v hv => ?_) h
                by_cases hm : v ∈ op.vars
                · exact hl.1 v hm
                · rw [(hl.2 v hm).1, (hl.2 v hm).2, h0 v hv]
      · have e : (((k, op) :: ops).filter (·.1 = t)) = ops.filter (·.1 = t) := by simp [hkt]
        rw [e]
        have hl := spec_local (arena := cfg.arena) (op := op) (a := a0) (b := a0) (fun v _ => rfl)
        cases h1 : op.spec cfg.arena a0 with
        | none => rw [h1] at h; cases h
        | some o1 =>
          rw [h1] at h hl
          cases o1 with
          | outOfRange => exact ih a0 b0 a hw' h0 h
          | done a1 =>
            refine ih a1 b0 a hw' (fun v hv => ?_) h
            have hm : v ∉ op.vars := fun hm => hkt ((hk v hm).symm.trans hv)
            rw [(hl.2 v hm).1, h0 v hv]
  obtain ⟨a', h1, h2⟩ := key ops (fun _ => none) (fun _ => none) a hown (fun _ _ => rfl) hs
  refine ⟨a', h1, fun v hv xs hx => ?_⟩
  have hrel := (reach_rel hc (reach_runOk hc .start hs hr)).1
  rw [contents_ok hrel.inv (hrel.held v xs (by rw [h2 v hv, hx]))]

/-- The odd strings of the two threads above are what the operations on odd strings make them. -/
example (dbg : Bool) : ((specAll false ((demoThreads.filter (·.1 = 1)).map (·.2)) fun _ => none).bind (· 1)) = some (List.replicate 300 101) ∧
    (specAll (heapCfg dbg).arena (demoThreads.map (·.2)) fun _ => none).isSome = true ∧
    (runOk (heapCfg dbg) (demoThreads.map (·.2)) St.init).1 = .ok () := by
  cases dbg <;> decide +kernel

end Verif.Str
