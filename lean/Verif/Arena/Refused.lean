import Verif.Arena.WorldProps

/-!
# Memory that is refused, and standard containers (C150)

`std::pmr::memory_resource::allocate` returns storage or throws; a standard container does not compare
its result with null.  The arena's resource (arena/arena.hpp:330-332) is `noexcept` and hands on the
null pointer of `allocateAligned`.
-/

namespace Verif.Arena
variable {A : Nat} {cfg : Cfg} {h : Hist} {st : St}

/-- What a standard container does to get room for elements of `b` bytes in all, aligned to `a`: it
asks its memory resource (`memory_resource::do_allocate`, arena/arena.hpp:330-332, through `step`) and
writes the elements where the resource says.  The container itself is not code of /repo; writing
through a null pointer is undefined behaviour. -/
def stdGrow (cfg : Cfg) (st : St) (b a : Nat) : Except Fault (Nat × St) := do
  let (r, st) ← step cfg st (.pmrAllocate b a)
  match r with
  | .ptr (some p) => do
    let (_, st) ← step cfg st (.write p b)
    return (p, st)
  | _ => .error (.ub "element written through a null pointer")

/-- C150, partial (holds only while `block_alloc` gives memory; missing: an exception when it refuses):
a standard container on the arena's resource gets aligned room, apart from all other, and can write
it, unless `block_alloc` refuses a request made by this very call. -/
theorem std_container_grows_partial (hA : 8 ∣ A) (hc : GoodCfg cfg) (hs : Sane A cfg)
    (he : Exec cfg A h st) {b a : Nat} (hop : Contract A h (.pmrAllocate b a)) :
    (∃ p st', stdGrow cfg st b a = .ok (p, st') ∧ max 8 a ∣ p ∧
      (∃ r ∈ held st'.trace, Region.Within ⟨p, b⟩ r) ∧ ∀ r ∈ live h, Region.Disjoint ⟨p, b⟩ r) ∨
    ∃ size st', step cfg st (.pmrAllocate b a) = .ok (.ptr none, st') ∧
      st'.trace = .blockAlloc size none :: st.trace ∧ cfg.blockAlloc st.trace size = none := by
  obtain ⟨wf, hne⟩ := exec_inv hA hc hs he
  rcases allocateAligned_spec (cfg := cfg) hA hc hs wf hop.2 hop.1 with
    ⟨size, h1, h2, _⟩ | ⟨p, st2, h1, _⟩
  · refine .inr ⟨size, st.emit (.blockAlloc size none), ?_, rfl, h1.fail_self⟩
    show (allocateAligned cfg st b (max 8 a) >>= _) = _
    rw [h2]; rfl
  · left
    have hstep : step cfg st (.pmrAllocate b a) = .ok (.ptr (some p), st2) := by
      show (allocateAligned cfg st b (max 8 a) >>= _) = _
      rw [h1]; rfl
    have he' : Exec cfg A (h ++ [(.pmrAllocate b a, .ptr (some p))]) st2 := .step he hop hstep
    have hl : live (h ++ [(.pmrAllocate b a, .ptr (some p))]) = ⟨p, b⟩ :: live h := by
      rw [live_append]; rfl
    have hw : Contract A (h ++ [(.pmrAllocate b a, .ptr (some p))]) (.write p b) :=
      ⟨⟨p, b⟩, by rw [hl]; exact List.mem_cons_self, Nat.le_refl _, Nat.le_refl _⟩
    obtain ⟨wf', hne'⟩ := exec_inv hA hc hs he'
    obtain ⟨r3, st3, h3⟩ := step_ok hA hc hs wf' hne' hw
    have e3 := h3.eq
    have hb : st3.trace = st2.trace := by
      simp only [step] at e3
      cases hm : memWrite st2 p b with
      | error e => rw [hm] at e3; cases e3
      | ok s =>
        rw [hm] at e3
        cases e3
        unfold memWrite at hm
        split at hm
        · cases hm; rfl
        · split at hm
          · split at hm
            · cases hm
            · cases hm; rfl
          · cases hm
    obtain ⟨g1, g2, g3⟩ := c25_guarantees hA hc hs he hop hstep
    refine ⟨p, st3, ?_, g1, by rw [hb]; exact g2, g3⟩
    unfold stdGrow
    rw [hstep]
    simp only [ok_bind, e3, pure_eq_ok]

-- In the sample session a container of 100 bytes gets its room at address 9360.
example : ∃ st st', Exec sampleCfg 32 (sampleHist.take 7) st ∧
    stdGrow sampleCfg st 100 16 = .ok (9360, st') ∧ ∀ r ∈ live (sampleHist.take 7),
      Region.Disjoint ⟨9360, 100⟩ r :=
  let ⟨st, he, hr⟩ := exec_such (cfg := sampleCfg) (A := 32) (cookie := some 9)
    (ops := sampleOps.take 7) (h := sampleHist.take 7)
    (P := fun st => (stdGrow sampleCfg st 100 16).toOption.map (·.1) = some 9360)
    (by decide +kernel)
  match std_container_grows_partial (by decide) sample_good sample_sane he
      (b := 100) (a := 16) (by decide) with
  | .inl ⟨p, st', h1, _, _, h4⟩ => by
    rw [h1] at hr
    have e : p = 9360 := Option.some.inj hr
    subst e
    exact ⟨st, st', he, h1, h4⟩
  | .inr ⟨size, st', h1, _⟩ => by
    unfold stdGrow at hr
    rw [h1] at hr
    cases hr

/-- C150, violated in every state: if the current block has no room and `block_alloc` refuses, the
resource returns null instead of throwing, and the container writes through it. -/
theorem refused_memory_violated (hA : 8 ∣ A) (hc : GoodCfg cfg) (hs : Sane A cfg)
    (he : Exec cfg A h st) {b a : Nat} (hop : Contract A h (.pmrAllocate b a))
    (hroom : ∀ n, SpaceRemains cfg st = .ok n → n < b)
    (hrefuses : ∀ size, cfg.blockAlloc st.trace size = none) :
    (∃ st', step cfg st (.pmrAllocate b a) = .ok (.ptr none, st')) ∧
      stdGrow cfg st b a = .error (.ub "element written through a null pointer") := by
  obtain ⟨wf, _⟩ := exec_inv hA hc hs he
  have hno : ∀ blk rest, st.blocks = blk :: rest → ¬ Fits blk (round8 b) (max 8 a) := by
    intro blk rest hb hf
    have hp := (head_ok wf hb).pos_le
    have := hroom (blk.limit - blk.pos) (by
      unfold SpaceRemains; rw [hb]; exact remain_ok (head_ok wf hb))
    have : b ≤ round8 b := by unfold round8; omega
    unfold Fits at hf
    omega
  have h1 := allocate_fail hc wf hop.2 hop.1 hno (hrefuses _)
  have hstep : step cfg st (.pmrAllocate b a) = .ok (.ptr none,
      st.emit (.blockAlloc (chosenSize cfg (round8 b) (!st.blocks.isEmpty)) none)) := by
    show (allocateAligned cfg st b (max 8 a) >>= _) = _
    rw [h1]; rfl
  refine ⟨⟨_, hstep⟩, ?_⟩
  unfold stdGrow
  rw [hstep]
  rfl

-- In the sample session the third request to `block_alloc` is refused.
example : ∃ st, Exec sampleCfg 32 (sampleHist.take 7) st ∧
    stdGrow sampleCfg st 9000 8 = .error (.ub "element written through a null pointer") :=
  let ⟨st, he, hr, ht⟩ := exec_such (cfg := sampleCfg) (A := 32) (cookie := some 9)
    (ops := sampleOps.take 7) (h := sampleHist.take 7)
    (P := fun st => (SpaceRemains sampleCfg st).toOption.all (decide <| · < 9000) = true ∧
      st.trace.countP (fun e => match e with | .blockAlloc _ _ => true | _ => false) = 2) (by decide +kernel)
  ⟨st, he, (refused_memory_violated (by decide) sample_good sample_sane he (by decide)
    (fun n hn => by rw [hn] at hr; exact of_decide_eq_true hr) (fun size => if_pos (List.mem_singleton.2 ht))).2⟩
end Verif.Arena
