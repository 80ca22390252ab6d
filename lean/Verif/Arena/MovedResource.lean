import Verif.Arena.WorldProps

/-!
C24 in every state: the memory resource of an arena that was moved.
-/

namespace Verif.Arena

variable {env : Env} {A : Nat} {H : Nat → Hist} {w w' : World}

/-! ### Lemmas -/

/-- A memory resource belongs to an arena that was constructed at some time. -/
def ResKnown (w : World) : Prop := ∀ i o k, w.objs i = .alive o → o.res = some k → w.objs k ≠ .unused

theorem set_same (w : World) (i : Nat) (s : Slot) (ev : List (Nat × Ev)) : (w.set i s ev).objs i = s := by simp [World.set]
theorem set_other {i j : Nat} (h : j ≠ i) (s : Slot) (ev : List (Nat × Ev)) : (w.set i s ev).objs j = w.objs j := by
  simp [World.set, h]

/-- What a call on an arena changes. -/
theorem callOn_objs {k : Nat} {op : Op} {r : Ret} (h : callOn env w k op = .ok (r, w')) :
    ∃ o st, w.objs k = .alive o ∧ w'.objs k = .alive { o with st := st } ∧ ∀ j, j ≠ k → w'.objs j = w.objs j := by
  unfold callOn at h
  split at h
  · next o ho =>
    cases hs : step (localCfg env w k o) o.st op with
    | error e => rw [hs] at h; cases h
    | ok x =>
      rw [hs] at h
      cases h
      exact ⟨o, x.2, ho, set_same _ _ _ _, fun j hj => set_other hj _ _⟩
  · cases h

theorem ResKnown.callOn (hk : ResKnown w) {k : Nat} {op : Op} {r : Ret} (h : callOn env w k op = .ok (r, w')) : ResKnown w' := by
  obtain ⟨o, st, h1, h2, h3⟩ := callOn_objs h
  have hu : ∀ j, w.objs j ≠ .unused → w'.objs j ≠ .unused := fun j hj => by
    by_cases hjk : j = k
    · subst hjk; rw [h2]; simp
    · rw [h3 j hjk]; exact hj
  intro i o' m ho hr
  refine hu m ?_
  by_cases hik : i = k
  · subst hik
    rw [h2] at ho
    cases ho
    exact hk i o m h1 hr
  · rw [h3 i hik] at ho
    exact hk i o' m ho hr

/-- What a move changes. -/
theorem move_objs {i j : Nat} {r : Ret} (h : wstep env w (.move i j) = .ok (r, w')) :
    ∃ o, w.objs i = .alive o ∧ w.objs j = .unused ∧ i ≠ j ∧ w'.objs j = .alive o ∧
      w'.objs i = .alive ⟨o.opts, mkArena none, none⟩ ∧ ∀ k, k ≠ i → k ≠ j → w'.objs k = w.objs k := by
  simp only [wstep] at h
  split at h
  · next o ho hu =>
    cases h
    have hij : i ≠ j := by rintro rfl; rw [ho] at hu; cases hu
    exact ⟨o, ho, hu, hij, by rw [set_other (Ne.symm hij), set_same], set_same _ _ _ _,
      fun k h1 h2 => by rw [set_other h1, set_other h2]⟩
  · cases h

theorem WExec.resKnown (he : WExec env A H w) : ResKnown w := by
  induction he with
  | start => intro i o k ho; cases ho
  | @step H w w' op r he hc hs ih =>
    cases op with
    | construct i opts cookie =>
      simp only [wstep] at hs
      split at hs
      · next hu =>
        cases hs
        intro m o k ho hr
        have hne : ∀ k, w.objs k ≠ .unused → (w.set i (.alive ⟨opts, mkArena cookie, some i⟩) [(i, .init)]).objs k ≠ .unused := by
          intro k hk
          by_cases h : k = i
          · subst h; rw [set_same]; simp
          · rw [set_other h]; exact hk
        by_cases h : m = i
        · subst h
          rw [set_same] at ho
          cases ho
          cases hr
          rw [set_same]
          simp
        · rw [set_other h] at ho
          exact hne k (ih m o k ho hr)
      · cases hs
    | call i op => exact ih.callOn hs
    | resAllocate i b a =>
      simp only [wstep] at hs
      split at hs
      · split at hs
        · exact ih.callOn hs
        · cases hd : assertDbg env.dbg false "memory_resource should make sure _resource is not nullptr" <;> rw [hd] at hs <;> cases hs
      · cases hs
    | move i j =>
      obtain ⟨o, ho, hu, hij, h1, h2, h3⟩ := move_objs hs
      intro m o' k hm hr
      have hne : ∀ k, w.objs k ≠ .unused → w'.objs k ≠ .unused := by
        intro k hk
        by_cases hki : k = i
        · subst hki; rw [h2]; simp
        · by_cases hkj : k = j
          · subst hkj; rw [h1]; simp
          · rw [h3 k hki hkj]; exact hk
      refine hne k ?_
      by_cases hmj : m = j
      · subst hmj
        rw [h1] at hm
        cases hm
        exact ih i o k ho hr
      · by_cases hmi : m = i
        · subst hmi
          rw [h2] at hm
          cases hm
          cases hr
        · rw [h3 m hmi hmj] at hm
          exact ih m o' k hm hr
    | destroy i =>
      simp only [wstep] at hs
      split at hs
      · next o ho =>
        cases hd : destroy (localCfg env w i o) o.st with
        | error e => rw [hd] at hs; cases hs
        | ok tr =>
          rw [hd] at hs
          cases hs
          intro m o' k hm hr
          by_cases hmi : m = i
          · subst hmi; rw [set_same] at hm; cases hm
          · rw [set_other hmi] at hm
            by_cases hki : k = i
            · subst hki; rw [set_same]; simp
            · rw [set_other hki]; exact ih m o' k hm hr
      · cases hs

/-- A memory resource that belongs to an arena that is not alive. -/
theorem resAllocate_dead {j b a : Nat} {o : Obj} (hj : w.objs j = .alive o) (h : ∀ k, o.res = some k → ∀ o', w.objs k ≠ .alive o') :
    ∃ e, wstep env w (.resAllocate j b a) = .error e := by
  simp only [wstep, hj]
  cases hr : o.res with
  | none =>
    simp only
    cases hd : assertDbg env.dbg false "memory_resource should make sure _resource is not nullptr" with
    | error e => exact ⟨e, rfl⟩
    | ok x => exact ⟨_, rfl⟩
  | some k =>
    simp only [callOn]
    cases hk : w.objs k with
    | alive o' => exact absurd hk (h k hr o')
    | unused => exact ⟨_, rfl⟩
    | dead => exact ⟨_, rfl⟩

/-! ### C24 -/

/-- C24 is violated by every move, in every state: whatever the memory resource of the new arena hands out, it does not come from the
new arena, which stays as it is; once no other arena is alive the resource cannot be used at all; and the moved-from arena, which may be
used again, has no resource. -/
theorem moved_resource_violated {i j b a : Nat} {r : Ret} (he : WExec env A H w) (hm : wstep env w (.move i j) = .ok (r, w')) :
    (∀ r' w'', wstep env w' (.resAllocate j b a) = .ok (r', w'') → w''.objs j = w'.objs j) ∧
    (∀ r' w'', wstep env w' (.destroy i) = .ok (r', w'') → (∀ k o, k ≠ j → w''.objs k ≠ .alive o) →
      ∃ e, wstep env w'' (.resAllocate j b a) = .error e) ∧
    (∃ e, wstep env w' (.resAllocate i b a) = .error e) := by
  obtain ⟨o, ho, hu, hij, h1, h2, h3⟩ := move_objs hm
  have hres : ∀ k, o.res = some k → k ≠ j := by
    rintro k hk rfl
    exact he.resKnown i o k ho hk hu
  refine ⟨fun r' w'' hs => ?_, fun r' w'' hs hall => ?_, resAllocate_dead h2 (by simp)⟩
  · simp only [wstep, h1] at hs
    cases hr : o.res with
    | none =>
      rw [hr] at hs
      simp only at hs
      cases hd : assertDbg env.dbg false "memory_resource should make sure _resource is not nullptr" <;> rw [hd] at hs <;> cases hs
    | some k =>
      rw [hr] at hs
      obtain ⟨_, _, _, _, h⟩ := callOn_objs hs
      exact h j (Ne.symm (hres k hr))
  · have hj : w''.objs j = .alive o := by
      simp only [wstep, h2] at hs
      cases hd : destroy (localCfg env w' i ⟨o.opts, mkArena none, none⟩) (mkArena none) with
      | error e => rw [hd] at hs; cases hs
      | ok tr =>
        rw [hd] at hs
        cases hs
        rw [set_other (Ne.symm hij), h1]
    exact resAllocate_dead hj (fun k hk o' => hall k o' (hres k hk))

/-- The hypotheses are met, and every part speaks of a call that happens: after a move the resource of the new arena hands out memory,
and destroying the moved-from arena succeeds and leaves only the new one alive. -/
example : ∃ H w r w' p w1 r2 w2, WExec (exEnv true 32) 32 H w ∧ wstep (exEnv true 32) w (.move 0 1) = .ok (r, w') ∧
    wstep (exEnv true 32) w' (.resAllocate 1 16 8) = .ok (.ptr (some p), w1) ∧ wstep (exEnv true 32) w' (.destroy 0) = .ok (r2, w2) := by
  have key : (wtryRun (exEnv true 32) 32 (fun _ => []) ⟨fun _ => .unused, []⟩
      [.construct 0 exOpts none, .call 0 (.allocate 8 8)]).map (fun x =>
        match wstep (exEnv true 32) x.2.2 (.move 0 1) with
        | .ok (_, w') =>
          match wstep (exEnv true 32) w' (.resAllocate 1 16 8), wstep (exEnv true 32) w' (.destroy 0) with
          | .ok (.ptr (some _), _), .ok _ => true
          | _, _ => false
        | _ => false) = some true := by decide +kernel
  cases hx : wtryRun (exEnv true 32) 32 (fun _ => []) ⟨fun _ => .unused, []⟩
      [.construct 0 exOpts none, .call 0 (.allocate 8 8)] with
  | none => rw [hx] at key; cases key
  | some x =>
    obtain ⟨rs, H, w⟩ := x
    rw [hx] at key
    simp only [Option.map_some, Option.some.injEq] at key
    split at key
    · next hm =>
      split at key
      · next h1 h2 => exact ⟨H, w, _, _, _, _, _, _, wtryRun_exec .start hx, hm, h1, h2⟩
      · cases key
    · cases key

end Verif.Arena
