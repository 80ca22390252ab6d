import Verif.Str.HomeLemmas

/-!
C138: a string on an arena needs that arena only.
-/

namespace Verif.Str

open M

variable {cfg : Cfg} {s s' : St} {a a' : Abs} {g : Allocs} {op : Op}

/-- What a program without failures should do to the allocators. -/
def allocsAll : List Op → Allocs → Allocs
  | [], g => g
  | op :: ops, g => allocsAll ops (op.allocs g)

/-- `Op.settled` for each operation of a program. -/
def settledAll : List Op → Allocs → Prop
  | [], _ => True
  | op :: ops, g => op.settled g ∧ settledAll ops (op.allocs g)

/-- A program without failures, for examples. -/
theorem life_runOk (hc : cfg.Ok) : ∀ {ops : List Op} {a a' : Abs} {g : Allocs} {s s' : St}, Life cfg a g s → settledAll ops g →
    specAll cfg.arena ops a = some a' → runOk cfg ops s = (.ok (), s') → Life cfg a' (allocsAll ops g) s'
  | [], a, a', g, s, s', h, _, hs, hr => by cases hs; cases hr; exact h
  | op :: ops, a, a', g, s, s', h, hq, hs, hr => by
    simp only [specAll] at hs
    unfold runOk at hr
    rw [bind_apply] at hr
    rcases e : op.run cfg s with ⟨r, s1⟩
    rw [e] at hr
    cases r with
    | error f => cases hr
    | ok _ =>
      split at hs
      · next a1 ho => exact life_runOk hc (ops := ops) (g := op.allocs g) (h.done hq.1 ho e) hq.2 hs hr
      · next ho =>
        have h1 := step_refines hc (life_rel hc h).1 ho
        simp only [Refines] at h1
        rw [h1] at e; cases e
      · cases hs

theorem runOk_pair {ops : List Op} (h : (runOk cfg ops s).1 = .ok ()) : runOk cfg ops s = (.ok (), (runOk cfg ops s).2) :=
  Prod.ext h rfl

theorem getAllocator_ok {v al : Nat} (hv : homeOf s v = some al) : getAllocator v s = (.ok al, s) := by
  unfold homeOf at hv
  cases ho : s.vars (.user v) with
  | none => simp [ho] at hv
  | some ob =>
    rw [ho] at hv
    cases hv
    have : getOb (.user v) s = (.ok ob, s) := by unfold getOb; rw [ho]
    unfold getAllocator
    rw [bind_ok this]; rfl

/-- C138, for programs that exchange only strings with the same allocator: after any operations, failures for want of memory and
ends of arenas that no string alive has as its allocator, every string reads as it should and has the allocator it should have.
What is missing: `swap` of strings on different arenas (`own_arena_violated`). -/
theorem own_arena_partial (hc : cfg.Ok) (h : Life cfg a g s) :
    (∀ v xs, a v = some xs → contents cfg v s = (.ok xs, s)) ∧
    (∀ v, (a v).isSome = (g v).isSome) ∧ (∀ v al, g v = some al → getAllocator v s = (.ok al, s)) := by
  obtain ⟨hr, _, _, _, hg⟩ := life_rel hc h
  refine ⟨fun v xs hv => contents_ok hr.inv (hr.held v xs hv), fun v => by rw [← hg v, hr.alive], fun v al hv => ?_⟩
  exact getAllocator_ok (by rw [hg v]; exact hv)

/-- C138: where the characters are: in the object, or in memory that the string's own allocator gave. -/
theorem own_arena_place_partial (hc : cfg.Ok) (h : Life cfg a g s) {v al : Nat} (hv : g v = some al) :
    ∃ p, dataPtr (.user v) s = (.ok p, s) ∧ (p = .inl (.user v) 0 ∨ ∃ b B, p = .blk b 0 ∧ s.heap b = some B ∧ B.src = al) := by
  obtain ⟨hr, _, _, hh, hg⟩ := life_rel hc h
  rw [← hg v] at hv
  unfold homeOf at hv
  cases ho : s.vars (.user v) with
  | none => simp [ho] at hv
  | some ob =>
    rw [ho] at hv
    cases hv
    obtain ⟨l, n, hh1, _⟩ := hr.inv.view ho
    refine ⟨_, hh1.dataM, ?_⟩
    have hh := hh (.user v) ob
    obtain ⟨core, al⟩ := ob
    cases core with
    | small l => exact Or.inl rfl
    | ml d n cap large =>
      obtain ⟨B, hB, hs⟩ := hh d ho rfl
      exact Or.inr ⟨d, B, rfl, hB, hs⟩

/-- C138: operations go on working after other arenas have ended: one whose preconditions hold does what it should or fails because
memory was refused; there is no undefined behaviour and no failed assertion, unless a `realloc` was refused. -/
theorem own_arena_ops_partial (hc : cfg.Ok) (h : Life cfg a g s) (hs : op.settled g) (ho : op.spec cfg.arena a = some (.done a')) :
    (∃ s', op.run cfg s = (.ok (), s') ∧ Life cfg a' (op.allocs g) s') ∨
    (∃ e s', op.run cfg s = (.error e, s') ∧ s.refused = false ∧ s'.refused = true ∧
      (e = .throw "bad_alloc" ∨ e = .throw "length_error" ∨ e = .throw "terminate" ∨ cfg.arena = false ∧ s'.lost = true)) := by
  obtain ⟨hr, hf, hl, _⟩ := life_rel hc h
  have h1 := step_refines hc hr ho
  have h2 := (op.run_quiet cfg).flags s
  simp only [Refines, Tri] at h1
  rcases e : op.run cfg s with ⟨r, s'⟩
  rw [e] at h1 h2
  cases r with
  | ok u => exact Or.inl ⟨s', rfl, h.done hs ho e⟩
  | error f =>
    refine Or.inr ⟨f, s', rfl, hf, ?_⟩
    rcases h1 with h1 | ⟨g1, g2, _⟩
    · refine ⟨?_, Or.inr (Or.inr (Or.inr h1))⟩
      rcases h2.2 h1.2 with g | g
      · rw [hl] at g; cases g
      · exact g
    · refine ⟨g1, ?_⟩
      rcases g2 with g | g | g
      · exact Or.inl g
      · exact Or.inr (Or.inl g)
      · exact Or.inr (Or.inr (Or.inl g))

/-- Strings on the arenas 1 and 2, that on arena 1 assigned from the other, which is then shared, moved, and destroyed. -/
def twoArenas : List Op :=
  [.makeFill 0 1 3 97, .makeFill 1 2 300 98, .copy 2 1, .assignStr 0 1, .append 0 (.sub 2 1 4), .move 3 2, .swap 2 3, .destroy 1, .destroy 3,
   .make 1 1 (.sub 2 5 100), .destroy 2]

-- after arena 2 has ended, what was copied from there is still there
example : ∃ a g s, Life (arenaCfg false) a g s ∧ g 0 = some 1 ∧ contents (arenaCfg false) 0 s = (.ok (List.replicate 304 98), s) ∧
    contents (arenaCfg false) 1 s = (.ok (List.replicate 100 98), s) ∧ getAllocator 0 s = (.ok 1, s) ∧ s.heap 0 = none := by
  obtain ⟨a, h1, h2⟩ := Option.bind_eq_some_iff.1
    (show ((specAll true twoArenas fun _ => none).bind fun a => (a 0).bind fun x => (a 1).bind fun y => some (x, y)) = some (List.replicate 304 98, List.replicate 100 98) by decide +kernel)
  obtain ⟨x, h2, h3⟩ := Option.bind_eq_some_iff.1 h2
  obtain ⟨y, h3, h4⟩ := Option.bind_eq_some_iff.1 h3
  cases h4
  have h := life_runOk (arenaCfg_ok false) (ops := twoArenas) .start (by simp [settledAll, twoArenas, Op.settled, Op.allocs, upd]) h1
    (runOk_pair (by decide +kernel))
  have hg : ∀ v, allocsAll twoArenas (fun _ => none) v = if v = 0 ∨ v = 1 then some 1 else none := by
    intro v
    match v with
    | 0 => rfl
    | 1 => rfl
    | 2 => rfl
    | 3 => rfl
    | n + 4 => simp [allocsAll, twoArenas, Op.allocs, upd]
  have ho := h.over 2 (fun v => by rw [hg]; split <;> simp)
  obtain ⟨k1, _, k2⟩ := own_arena_partial (arenaCfg_ok false) ho
  exact ⟨_, _, _, ho, by rw [hg]; rfl, k1 0 _ h2, k1 1 _ h3, k2 0 1 (by rw [hg]; rfl), by decide +kernel⟩

/-- C138, violated: after `swap` with a string on arena 2, which is then destroyed, a string with the allocator of arena 1 can no longer
be read when arena 2 ends. -/
theorem own_arena_violated : ∃ a s, Reach (arenaCfg false) a s ∧ (∀ v, (a v).isSome = true → v = 0) ∧ a 0 = some (List.replicate 100 98) ∧
    getAllocator 0 s = (.ok 1, s) ∧ contents (arenaCfg false) 0 s = (.ok (List.replicate 100 98), s) ∧
    ∃ w, (contents (arenaCfg false) 0 (endArena 2 s).2).1 = .error (.ub w) := by
  obtain ⟨a, h, e, hs⟩ := reached (arenaCfg_ok false) (v := 0) (xs := List.replicate 100 98)
    (ops := [.makeFill 0 1 100 97, .makeFill 1 2 100 98, .swap 0 1, .destroy 1]) (by decide +kernel) (by decide +kernel)
  refine ⟨a, _, h, fun v hv => ?_, e, getAllocator_ok ?_, contents_ok (reach_rel (arenaCfg_ok _) h).1.inv ((reach_rel (arenaCfg_ok _) h).1.held _ _ e), "read of a freed block", ?_⟩
  · have hs : some (upd (upd (upd (upd (upd (fun _ => none) 0 (some (List.replicate 100 97))) 1 (some (List.replicate 100 98)))
        0 (some (List.replicate 100 98))) 1 (some (List.replicate 100 97))) 1 none : Abs) = some a := hs
    cases hs
    by_cases e0 : v = 0
    · exact e0
    · by_cases e1 : v = 1 <;> simp [upd, e0, e1] at hv
  · decide +kernel
  · decide +kernel

end Verif.Str
