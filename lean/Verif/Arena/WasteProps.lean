import Verif.Arena.Waste
import Verif.Arena.Props

/-!
C124: an arena holds about twice what was asked of it, at most.

`placedMax h` are the bytes asked for since the last `Reset` (sizes rounded up to 8, and up to
`alignment - 8` bytes of padding per request), `pending h` the destructors owed, `held` the blocks
obtained and not given back.
-/

namespace Verif.Arena

variable {cfg : Cfg} {A : Nat} {h : Hist} {st : St}

/-- C124: of the memory an arena holds, everything beyond twice the bytes asked for since the last
`Reset` (16 per owed destructor included) and 56 bytes per block can still be handed out
(`SpaceRemains`). -/
theorem memory_bounded (hA : 8 ∣ A) (hc : GoodCfg cfg) (hs : Sane A cfg) (he : Exec cfg A h st)
    {n : Nat} (hrem : SpaceRemains cfg st = .ok n) :
    ((held st.trace).map Region.len).sum
      ≤ 2 * (placedMax h + 16 * (pending h).length) + 56 * (held st.trace).length + n := by
  obtain ⟨wf, _⟩ := exec_inv hA hc hs he
  have hsn := exec_snug hA hc hs he
  have ht := (exec_trace hA hc hs he).usedMax
  have h2 := space_partition wf.ok
  have h3 := nodeBytes_eq wf.ok wf.nodes
  have h4 : (held st.trace).length = st.blocks.length := by rw [wf.held_eq]; simp
  have h5 : ((held st.trace).map Region.len).sum = (st.blocks.map Block.size).sum := by
    rw [wf.held_eq, List.map_map]; rfl
  unfold SpaceRemains at hrem
  cases hb : st.blocks with
  | nil => rw [hb] at hrem; cases hrem
  | cons b rest =>
    rw [hb] at hrem hsn
    simp only [remain_ok (head_ok wf hb)] at hrem
    cases hrem
    have h6 := idle_le hsn
    rw [hb] at h2 h3 h4 h5 ht
    rw [unused_cons] at h2
    rw [List.length_cons] at h2 h4
    omega

example : ∃ st n, Exec sampleCfg 32 (sampleHist.take 9) st ∧ SpaceRemains sampleCfg st = .ok n ∧
    placedMax (sampleHist.take 9) = 14240 ∧ (pending (sampleHist.take 9)).length = 4 ∧
    ((held st.trace).map Region.len).sum ≤ 2 * (14240 + 16 * 4) + 56 * (held st.trace).length + n :=
  let ⟨st, he⟩ := sample_exec9
  let ⟨n, hn⟩ := (c27_defined (by decide) sample_good sample_sane he
    ⟨(.create 24 (some 1), .ptr (some 64)), by decide, rfl⟩).1
  ⟨st, n, he, hn, by decide, by decide, memory_bounded (by decide) sample_good sample_sane he hn⟩

/-- C124: the number of blocks an arena holds: all but two are paid for, at the normal block size, by
twice the bytes asked for since the last `Reset`. -/
theorem blocks_bounded (hA : 8 ∣ A) (hc : GoodCfg cfg) (hs : Sane A cfg) (he : Exec cfg A h st) :
    cfg.normal * ((held st.trace).length - 2)
      ≤ 2 * (placedMax h + 16 * (pending h).length) + 56 * ((held st.trace).length - 1) := by
  obtain ⟨wf, _⟩ := exec_inv hA hc hs he
  have hsn := exec_snug hA hc hs he
  have ht := (exec_trace hA hc hs he).usedMax
  have h3 := nodeBytes_eq wf.ok wf.nodes
  have h4 : (held st.trace).length = st.blocks.length := by rw [wf.held_eq]; simp
  rw [h4]
  cases hb : st.blocks with
  | nil => simp
  | cons b rest =>
    rw [hb] at hsn h3 ht
    have h2 := space_partition (A := A) (bs := rest) (fun c hc => wf.ok c (by simp [hb, hc]))
    have h6 := idle_le hsn
    have h7 := normal_le hsn
    have e : nodeBytes (b :: rest) = (b.size - b.limit) + nodeBytes rest := rfl
    rw [usedBytes_cons] at h6 ht
    rw [e] at h6 h3
    simp only [List.length_cons] at h7 ⊢
    rw [show rest.length + 1 - 2 = rest.length - 1 by omega, show rest.length + 1 - 1 = rest.length by omega]
    omega

/-- Five requests of about half a block each: every one needs a block of its own, and the arena holds
exactly twice what was asked for. -/
def halfHist : Hist :=
  [(.allocate 2048 8, .ptr (some 64)), (.allocate 2048 8, .ptr (some 4192)),
   (.allocate 2048 8, .ptr (some 8320)), (.allocate 2048 8, .ptr (some 12448)),
   (.allocate 2048 8, .ptr (some 16576))]

example : ∃ st, Exec (exCfg true 32 []) 32 halfHist st ∧ placedMax halfHist = 10240 ∧
    ((held st.trace).map Region.len).sum = 20480 ∧ (held st.trace).length = 5 ∧
    (exCfg true 32 []).normal * (5 - 2) ≤ 2 * (10240 + 16 * 0) + 56 * (5 - 1) := by
  obtain ⟨st, he, h1, h2⟩ : ∃ st, Exec (exCfg true 32 []) 32 halfHist st ∧
      ((held st.trace).map Region.len).sum = 20480 ∧ (held st.trace).length = 5 :=
    exec_such (cookie := none) (ops := List.replicate 5 (.allocate 2048 8)) (by decide +kernel)
  refine ⟨st, he, by decide, h1, h2, ?_⟩
  have := blocks_bounded (by decide) (exCfg_good _ _ _) (exCfg_sane _ (by decide) _) he
  rwa [h2] at this

end Verif.Arena
