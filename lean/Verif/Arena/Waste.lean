import Verif.Arena.Trace
import Verif.Arena.Check

/-!
How much of the memory of an arena lies idle: helper lemmas for `Verif.Arena.WasteProps`.

A block is given up only for a request that did not fit into it, and that request is then placed into
the block that follows; so what is idle in the older block is less than what is in use in the newer one.
-/

namespace Verif.Arena

variable {cfg : Cfg} {A : Nat} {st : St} {regs : List Region} {pend : List Pending}

/-- Bytes of a block in use, without its header. -/
def fill (b : Block) : Nat := (b.pos - 32) + (b.size - b.limit)

/-- Every block but the newest has less idle than the next newer one has in use (up to the padding of
one aligned request), and every block but the oldest has at least the normal size. -/
def Snug (normal : Nat) : List Block → Prop
  | c :: b :: rest => b.limit - b.pos ≤ fill c + 24 ∧ normal ≤ c.size ∧ Snug normal (b :: rest)
  | _ => True

theorem Snug.head {n : Nat} {b b' : Block} {rest : List Block} (h : Snug n (b :: rest))
    (hf : fill b ≤ fill b') (hs : b'.size = b.size) : Snug n (b' :: rest) := by
  cases rest with
  | nil => trivial
  | cons c rest => exact ⟨by have := h.1; omega, by rw [hs]; exact h.2.1, h.2.2⟩

theorem Snug.push {n : Nat} {c : Block} {bs : List Block} (h : Snug n bs)
    (hc : ∀ b rest, bs = b :: rest → b.limit - b.pos ≤ fill c + 24 ∧ n ≤ c.size) : Snug n (c :: bs) := by
  cases bs with
  | nil => trivial
  | cons b rest => exact ⟨(hc b rest rfl).1, (hc b rest rfl).2, h⟩

theorem Snug.congr {n : Nat} {bs bs' : List Block}
    (h : bs'.map (fun b => (b.base, b.pos, b.limit, b.size))
      = bs.map (fun b => (b.base, b.pos, b.limit, b.size))) (hs : Snug n bs) : Snug n bs' := by
  induction bs generalizing bs' with
  | nil => cases bs' with
    | nil => exact hs
    | cons => simp at h
  | cons b bs ih =>
    cases bs' with
    | nil => simp at h
    | cons b' bs' =>
      simp only [List.map_cons, List.cons.injEq, Prod.mk.injEq] at h
      obtain ⟨⟨_, h1, h2, h3⟩, h4⟩ := h
      cases bs with
      | nil => cases bs' with
        | nil => trivial
        | cons => simp at h4
      | cons c rest =>
        cases bs' with
        | nil => simp at h4
        | cons c' rest' =>
          have h5 := ih h4 hs.2.2
          simp only [List.map_cons, List.cons.injEq, Prod.mk.injEq] at h4
          obtain ⟨⟨_, k1, k2, k3⟩, _⟩ := h4
          refine ⟨?_, by rw [h3]; exact hs.2.1, h5⟩
          have := hs.1
          unfold fill at *
          omega

theorem chosenSize_normal (cfg : Cfg) (m : Nat) : cfg.normal ≤ chosenSize cfg m true := by
  unfold chosenSize
  simp only [if_true]
  split
  · exact Nat.le_max_right _ _
  · exact Nat.le_trans (by omega) (Nat.le_max_left _ _)

theorem allocateAligned_snug (hA : 8 ∣ A) (hc : GoodCfg cfg) (hs : Sane A cfg)
    (wf : WF A st regs pend) {bytes a : Nat} (ha : GoodAlign A a) (hn : bytes ≤ 2 ^ 62)
    (hsn : Snug cfg.normal st.blocks) {r : Option Nat} {st' : St}
    (he : allocateAligned cfg st bytes a = .ok (r, st')) : Snug cfg.normal st'.blocks := by
  obtain ⟨h8, h32, h8d, hd32⟩ := ha.bounds
  by_cases hfit : ∃ b rest, st.blocks = b :: rest ∧ Fits b (round8 bytes) a
  · obtain ⟨b, rest, hb, hf⟩ := hfit
    rw [allocate_fit hA wf hb ha hn hf] at he
    cases he
    rw [hb] at hsn
    refine hsn.head ?_ rfl
    unfold fill bump
    simp only
    omega
  · have hno : ∀ b rest, st.blocks = b :: rest → ¬ Fits b (round8 bytes) a :=
      fun b rest hb hf => hfit ⟨b, rest, hb, hf⟩
    cases h : cfg.blockAlloc st.trace (chosenSize cfg (round8 bytes) (!st.blocks.isEmpty)) with
    | none => rw [allocate_fail hc wf ha hn hno h] at he; cases he; exact hsn
    | some p =>
      rw [allocate_fresh hA hc hs wf ha hn hno h] at he
      cases he
      refine hsn.push ?_
      intro b rest hb
      have hk := head_ok wf hb
      have hpad := (bump_aligned8 hA hk h8d (by omega)).1
      have hlt := padOf_lt (p := b.base + b.pos) (a := a) (by omega)
      have hnf := hno b rest hb
      refine ⟨?_, by rw [hb]; exact chosenSize_normal _ _⟩
      unfold Fits at hnf
      unfold fill Block.mk'
      simp only
      omega

theorem addCleanup_snug (hA : 8 ∣ A) (hc : GoodCfg cfg) (hs : Sane A cfg)
    (wf : WF A st regs pend) {n : Node} (hsn : Snug cfg.normal st.blocks) {r : Bool} {st' : St}
    (he : addCleanup cfg st n = .ok (r, st')) : Snug cfg.normal st'.blocks := by
  by_cases hfit : ∃ b rest, st.blocks = b :: rest ∧ NodeFits b
  · obtain ⟨b, rest, hb, hf⟩ := hfit
    rw [addCleanup_fit hA wf hb n hf] at he
    cases he
    rw [hb] at hsn
    refine hsn.head ?_ rfl
    unfold fill pushNode
    simp only
    omega
  · have hno : ∀ b rest, st.blocks = b :: rest → ¬ NodeFits b :=
      fun b rest hb hf => hfit ⟨b, rest, hb, hf⟩
    cases h : cfg.blockAlloc st.trace (chosenSize cfg 16 (!st.blocks.isEmpty)) with
    | none => rw [addCleanup_fail hA hc wf n hno h] at he; cases he; exact hsn
    | some p =>
      obtain ⟨h1, h2⟩ := addCleanup_fresh hA hc hs wf n hno h
      rw [h1] at he
      cases he
      refine hsn.push ?_
      intro b rest hb
      have hnf := hno b rest hb
      have hge := chosenSize_ge cfg 16 (!st.blocks.isEmpty)
      refine ⟨?_, by rw [hb]; exact chosenSize_normal _ _⟩
      unfold NodeFits at hnf
      unfold fill pushNode Block.mk'
      simp only
      omega

theorem step_snug (hA : 8 ∣ A) (hc : GoodCfg cfg) (hs : Sane A cfg) {h : Hist}
    (wf : WF A st (live h) (pending h)) (hne : (∃ x ∈ h, succeeded x) → st.blocks ≠ [])
    {op : Op} (hop : Contract A h op) (hsn : Snug cfg.normal st.blocks) {r : Ret} {st' : St}
    (he : step cfg st op = .ok (r, st')) : Snug cfg.normal st'.blocks := by
  cases op with
  | allocate b a =>
    rcases allocateAligned_spec hA hc hs wf hop.2 hop.1 with
      ⟨size, _, h2, _⟩ | ⟨p, st1, h1, _⟩
    · have := allocateAligned_snug hA hc hs wf hop.2 hop.1 hsn h2
      simp only [step, AllocateAligned, h2, ok_bind, pure_eq_ok] at he
      cases he; exact this
    · have := allocateAligned_snug hA hc hs wf hop.2 hop.1 hsn h1
      simp only [step, AllocateAligned, h1, ok_bind, pure_eq_ok] at he
      cases he; exact this
  | create s d =>
    rcases allocateAligned_spec hA hc hs wf (goodAlign8 hA) hop with
      ⟨size, _, h2, _⟩ | ⟨p, st1, h1, _, _, _, h5, _⟩
    · have := allocateAligned_snug hA hc hs wf (goodAlign8 hA) hop hsn h2
      simp only [step, Create, kByteSize_eq, h2, ok_bind, pure_eq_ok] at he
      cases he; exact this
    · have k1 := allocateAligned_snug hA hc hs wf (goodAlign8 hA) hop hsn h1
      obtain ⟨st2, m1, m2, m3, m4, m5, m6, m7, _⟩ := memWrite_ok h5 h5.head_in
      have k2 := Snug.congr m7 k1
      cases d with
      | none =>
        simp only [step, Create, kByteSize_eq, h1, ok_bind, pure_eq_ok, m1] at he
        cases he; exact k2
      | some f =>
        rcases addCleanup_spec hA hc hs m2 (x := ⟨⟨p, f⟩, ⟨p, s⟩ :: live h⟩) m2.regs_in with
          ⟨size, _, a2, _⟩ | ⟨st3, a1, _⟩
        · have k3 := addCleanup_snug hA hc hs m2 k2 a2
          simp only at a2
          simp only [step, Create, kByteSize_eq, h1, ok_bind, pure_eq_ok, m1, a2] at he
          cases he; exact k3
        · have k3 := addCleanup_snug hA hc hs m2 k2 a1
          simp only at a1
          simp only [step, Create, kByteSize_eq, h1, ok_bind, pure_eq_ok, m1, a1] at he
          cases he; exact k3
  | createArray s n =>
    have hsn' : mul64 s n = s * n := mul64_of_lt (by have := hop.2; omega)
    have hs0 : s ≠ 0 := by have := hop.1; omega
    have hno : ¬ n > (M64 - 1) / s := by
      rw [gt_iff_lt, Nat.not_lt, Nat.le_div_iff_mul_le hop.1, Nat.mul_comm]
      have := hop.2; omega
    rcases allocateAligned_spec hA hc hs wf (goodAlign8 hA) hop.2 with
      ⟨size, _, h2, _⟩ | ⟨p, st1, h1, _, _, _, h5, _⟩
    · have := allocateAligned_snug hA hc hs wf (goodAlign8 hA) hop.2 hsn h2
      simp only [step, CreateArray, hs0, hno, if_false, hsn', kByteSize_eq, h2, ok_bind, pure_eq_ok] at he
      cases he; exact this
    · have k1 := allocateAligned_snug hA hc hs wf (goodAlign8 hA) hop.2 hsn h1
      obtain ⟨st2, m1, m2, m3, m4, m5, m6, m7, _⟩ := memWrite_ok h5 h5.head_in
      have k2 := Snug.congr m7 k1
      simp only [step, CreateArray, hs0, hno, if_false, hsn', kByteSize_eq, h1, ok_bind, pure_eq_ok, m1] at he
      cases he; exact k2
  | createBegin s =>
    rcases allocateAligned_spec hA hc hs wf (goodAlign8 hA) hop with
      ⟨size, _, h2, _⟩ | ⟨p, st1, h1, _, _, _, h5, _⟩
    · have := allocateAligned_snug hA hc hs wf (goodAlign8 hA) hop hsn h2
      simp only [step, createBegin, kByteSize_eq, h2, ok_bind, pure_eq_ok] at he
      cases he; exact this
    · have k1 := allocateAligned_snug hA hc hs wf (goodAlign8 hA) hop hsn h1
      obtain ⟨st2, m1, m2, m3, m4, m5, m6, m7, _⟩ := memWrite_ok h5 h5.head_in
      have k2 := Snug.congr m7 k1
      simp only [step, createBegin, kByteSize_eq, h1, ok_bind, pure_eq_ok, m1] at he
      cases he; exact k2
  | createEnd p s d =>
    cases d with
    | none =>
      have he' : (Except.ok (Ret.bool true, st.emit (.allocated s st.cookie)) : Except Fault (Ret × St))
        = .ok (r, st') := he
      cases he'; exact hsn
    | some f =>
      rcases addCleanup_spec hA hc hs wf (x := ⟨⟨p, f⟩, live h⟩) wf.regs_in with
        ⟨size, _, a2, _⟩ | ⟨st3, a1, _⟩
      · have k := addCleanup_snug hA hc hs wf hsn a2
        simp only at a2
        simp only [step, createEnd, a2, ok_bind, pure_eq_ok] at he
        cases he; exact k
      · have k := addCleanup_snug hA hc hs wf hsn a1
        simp only at a1
        simp only [step, createEnd, a1, ok_bind, pure_eq_ok] at he
        cases he; exact k
  | allocateCleanup b f e =>
    rcases allocateAligned_spec hA hc hs wf (goodAlign8 hA) hop with
      ⟨size, _, h2, _⟩ | ⟨p, st1, h1, _, _, _, h5, _⟩
    · have := allocateAligned_snug hA hc hs wf (goodAlign8 hA) hop hsn h2
      simp only [step, AllocateAlignedAndAddCleanup, kByteSize_eq, h2, ok_bind, pure_eq_ok] at he
      cases he; exact this
    · have k1 := allocateAligned_snug hA hc hs wf (goodAlign8 hA) hop hsn h1
      rcases addCleanup_spec hA hc hs h5 (x := ⟨⟨e.getD p, f⟩, ⟨p, b⟩ :: live h⟩) h5.regs_in with
        ⟨size, _, a2, _⟩ | ⟨st3, a1, _⟩
      · have k3 := addCleanup_snug hA hc hs h5 k1 a2
        simp only at a2
        simp only [step, AllocateAlignedAndAddCleanup, kByteSize_eq, h1, ok_bind, pure_eq_ok, a2] at he
        cases he; exact k3
      · have k3 := addCleanup_snug hA hc hs h5 k1 a1
        simp only at a1
        simp only [step, AllocateAlignedAndAddCleanup, kByteSize_eq, h1, ok_bind, pure_eq_ok, a1] at he
        cases he; exact k3
  | own o f =>
    rcases addCleanup_spec hA hc hs wf (x := ⟨⟨o, f⟩, live h⟩) wf.regs_in with
      ⟨size, _, a2, _⟩ | ⟨st3, a1, _⟩
    · have k := addCleanup_snug hA hc hs wf hsn a2
      simp only at a2
      simp only [step, Own, a2, ok_bind, pure_eq_ok] at he
      cases he; exact k
    · have k := addCleanup_snug hA hc hs wf hsn a1
      simp only at a1
      simp only [step, Own, a1, ok_bind, pure_eq_ok] at he
      cases he; exact k
  | pmrAllocate b a =>
    rcases allocateAligned_spec hA hc hs wf hop.2 hop.1 with
      ⟨size, _, h2, _⟩ | ⟨p, st1, h1, _⟩
    · have := allocateAligned_snug hA hc hs wf hop.2 hop.1 hsn h2
      simp only [step, Arena.pmrAllocate, kByteSize_eq, h2, ok_bind, pure_eq_ok] at he
      cases he; exact this
    · have := allocateAligned_snug hA hc hs wf hop.2 hop.1 hsn h1
      simp only [step, Arena.pmrAllocate, kByteSize_eq, h1, ok_bind, pure_eq_ok] at he
      cases he; exact this
  | pmrDeallocate p b a =>
    have he' : (Except.ok (Ret.unit, st) : Except Fault (Ret × St)) = .ok (r, st') := he
    cases he'; exact hsn
  | reset =>
    obtain ⟨evs, h1, _⟩ := reset_ok (cfg := cfg) wf (hne hop)
    simp only [step, h1, ok_bind, pure_eq_ok] at he
    cases he; trivial
  | write p n =>
    obtain ⟨r, hr, h1, h2⟩ := hop
    obtain ⟨c, hc', h3, h4⟩ := wf.regs_in r hr
    obtain ⟨st2, m1, m2, m3, m4, m5, m6, m7, _⟩ :=
      memWrite_ok wf (p := p) (n := n) ⟨c, hc', by omega, by omega⟩
    simp only [step, m1, ok_bind, pure_eq_ok] at he
    cases he
    exact Snug.congr m7 hsn

theorem exec_snug (hA : 8 ∣ A) (hc : GoodCfg cfg) (hs : Sane A cfg) {h : Hist}
    (he : Exec cfg A h st) : Snug cfg.normal st.blocks := by
  induction he with
  | init cookie => trivial
  | @step h st st' op r hex hop hstep ih =>
    obtain ⟨wf, hne⟩ := exec_inv hA hc hs hex
    exact step_snug hA hc hs wf hne hop ih hstep

/-- Idle bytes of all blocks but the newest. -/
theorem idle_le {n : Nat} {b : Block} {rest : List Block} (h : Snug n (b :: rest)) :
    unused rest ≤ usedBytes (b :: rest) + nodeBytes (b :: rest) + 24 * rest.length := by
  have e : ∀ (c : Block) (l : List Block), nodeBytes (c :: l) = (c.size - c.limit) + nodeBytes l :=
    fun _ _ => rfl
  induction rest generalizing b with
  | nil => simp
  | cons c rest ih =>
    have h1 := ih h.2.2
    have h2 := h.1
    rw [e, usedBytes_cons, unused_cons, List.length_cons]
    unfold fill at h2
    omega

/-- Sizes of all blocks but the newest and the oldest. -/
theorem normal_le {n : Nat} {b : Block} {rest : List Block} (h : Snug n (b :: rest)) :
    n * (rest.length - 1) ≤ (rest.map Block.size).sum := by
  induction rest generalizing b with
  | nil => simp
  | cons c rest ih =>
    have h1 := ih h.2.2
    cases rest with
    | nil => simp
    | cons d rest =>
      have h2 := h.2.2.2.1
      simp only [List.length_cons, List.map_cons, List.sum_cons, Nat.add_sub_cancel] at h1 ⊢
      rw [Nat.mul_succ]
      omega

end Verif.Arena
