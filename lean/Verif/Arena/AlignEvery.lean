import Verif.Arena.EveryState
import Verif.Arena.Replay

/-!
C71 in every state: where the arena puts objects of over-aligned types.
-/

namespace Verif.Arena

open Verif.Align

variable {cfg : Cfg} {A : Nat} {h : Hist} {st : St}

/-! ### Lemmas -/

/-- `Create` in a block with room. -/
theorem create_here (hA : 8 ∣ A) {regs : List Region} {pend : List Pending} (wf : WF A st regs pend) {b : Block} {rest : List Block}
    (hb : st.blocks = b :: rest) {s : Nat} (hs : s ≤ 2 ^ 62) (hf : b.pos + round8 s ≤ b.limit) :
    ∃ st' regs' b' rest', step cfg st (.create s none) = .ok (.ptr (some (b.base + b.pos)), st') ∧ WF A st' regs' pend ∧
      st'.blocks = b' :: rest' ∧ b'.base = b.base ∧ b'.limit = b.limit ∧ b'.pos = b.pos + round8 s := by
  have hok := head_ok wf hb
  have hga : GoodAlign A 8 := ⟨.inl rfl, hA⟩
  have hp := pad8_zero hA hok
  have hfit : Fits b (round8 s) 8 := by unfold Fits; rw [hp]; omega
  have e1 := allocate_fit (cfg := cfg) hA wf hb hga hs hfit
  have wf1 := bump_wf hA wf hb hga hfit
  have hr : s ≤ round8 s := by unfold round8; omega
  have h32 := hok.hdr
  obtain ⟨st2, e2, wf2, _, _, _, _, hm, _⟩ := memWrite_ok wf1 (p := b.base + b.pos) (n := s)
    ⟨_, List.mem_cons_self .., by simp only [bump]; omega, by simp only [bump]; omega⟩
  rw [hp] at e1
  have e3 : step cfg st (.create s none) = .ok (.ptr (some (b.base + b.pos)), st2.emit (.allocated s st2.cookie)) := by
    simp only [step, Create, show kByteSize = 8 from rfl, e1, ok_bind, Nat.add_zero, e2]
    rfl
  cases hb2 : st2.blocks with
  | nil => rw [hb2] at hm; simp at hm
  | cons b' rest' =>
    rw [hb2] at hm
    simp only [List.map_cons, List.cons.injEq, Prod.mk.injEq, bump, hp] at hm
    exact ⟨_, _, b', rest', e3, wf2.of_trace _ rfl, hb2, hm.1.1, hm.1.2.2.1, by omega⟩

/-- `Create` that takes no new block found room in the current one. -/
theorem create_had_room (hA : 8 ∣ A) (hc : GoodCfg cfg) (hs : Sane A cfg) {regs : List Region} {pend : List Pending} (wf : WF A st regs pend)
    {s p : Nat} {st' : St} (hn : s ≤ 2 ^ 62) (hx : step cfg st (.create s none) = .ok (.ptr (some p), st'))
    (hh : held st'.trace = held st.trace) :
    ∃ b rest, st.blocks = b :: rest ∧ b.pos + round8 s ≤ b.limit := by
  have hga : GoodAlign A 8 := ⟨.inl rfl, hA⟩
  by_cases hfit : ∃ b rest, st.blocks = b :: rest ∧ Fits b (round8 s) 8
  · obtain ⟨b, rest, hb, hf⟩ := hfit
    refine ⟨b, rest, hb, ?_⟩
    unfold Fits at hf
    omega
  · exfalso
    have hno : ∀ b rest, st.blocks = b :: rest → ¬ Fits b (round8 s) 8 := fun b rest hb hf => hfit ⟨b, rest, hb, hf⟩
    simp only [step, Create, show kByteSize = 8 from rfl] at hx
    cases h : cfg.blockAlloc st.trace (chosenSize cfg (round8 s) (!st.blocks.isEmpty)) with
    | none => rw [allocate_fail hc wf hga hn hno h] at hx; cases hx
    | some q =>
      rw [allocate_fresh hA hc hs wf hga hn hno h] at hx
      simp only [ok_bind] at hx
      cases h2 : memWrite (afterFresh st q (chosenSize cfg (round8 s) (!st.blocks.isEmpty)) (round8 s)) (q + 32) s with
      | error e => rw [h2] at hx; cases hx
      | ok st2 =>
        rw [h2] at hx
        cases hx
        have e : held (st2.emit (.allocated s st2.cookie)).trace = ⟨q, chosenSize cfg (round8 s) (!st.blocks.isEmpty)⟩ :: held st.trace := by
          show held st2.trace = _
          rw [memWrite_trace h2]
          rfl
        have hl := congrArg List.length (e.symm.trans hh)
        simp at hl

/-! ### C71 -/

/-- C71 is violated in every state: where the current block has room for an object of any type and 8 bytes more (`Create` of so many bytes
would take no new block), `Create` puts the object at the next free address, and 8 bytes further on after `Create` of an 8-byte object.
So a type with alignment 16, or any multiple of that, is misaligned in one of the two programs. -/
theorem align16_everywhere_violated (hA : 8 ∣ A) (hc : GoodCfg cfg) (hs : Sane A cfg) (he : Exec cfg A h st) {s p : Nat} {st0 : St}
    (hn : s + 8 ≤ 2 ^ 62) (hx : step cfg st (.create (s + 8) none) = .ok (.ptr (some p), st0)) (hh : held st0.trace = held st.trace)
    {a : Nat} (ha : 16 ∣ a) :
    (∃ st', step cfg st (.create s none) = .ok (.ptr (some p), st')) ∧
    (∃ st1 st2, step cfg st (.create 8 none) = .ok (.ptr (some p), st1) ∧
      step cfg st1 (.create s none) = .ok (.ptr (some (p + 8)), st2)) ∧
    ¬ (a ∣ p ∧ a ∣ p + 8) := by
  obtain ⟨wf, _⟩ := exec_inv hA hc hs he
  obtain ⟨b, rest, hb, hf⟩ := create_had_room hA hc hs wf hn hx hh
  have hr : round8 (s + 8) = round8 s + 8 := by unfold round8; omega
  have h8 : round8 8 = 8 := by decide
  obtain ⟨_, _, _, _, e0, _⟩ := create_here (cfg := cfg) hA wf hb hn hf
  have hp : p = b.base + b.pos := by
    rw [hx] at e0
    cases e0
    rfl
  subst hp
  obtain ⟨st', _, _, _, e1, _⟩ := create_here (cfg := cfg) hA wf hb (s := s) (by omega) (by omega)
  obtain ⟨st1, _, b1, rest1, e2, wf1, hb1, g1, g2, g3⟩ := create_here (cfg := cfg) hA wf hb (s := 8) (by omega) (by omega)
  obtain ⟨st2, _, _, _, e3, _⟩ := create_here (cfg := cfg) hA wf1 hb1 (s := s) (by omega) (by omega)
  refine ⟨⟨st', e1⟩, ⟨st1, st2, e2, ?_⟩, fun hd => ?_⟩
  · rw [e3, g1, g3, h8, Nat.add_assoc]
  · have h1 := Nat.dvd_trans ha hd.1
    have h2 := Nat.dvd_trans ha hd.2
    omega

/-- The hypotheses are met after a first object, for a type of 32 bytes with alignment 32. -/
example (dbg : Bool) : ∃ st st0, Exec (exCfg dbg 32 []) 32 [(.create 24 none, .ptr (some 64))] st ∧
    step (exCfg dbg 32 []) st (.create (32 + 8) none) = .ok (.ptr (some 88), st0) ∧ held st0.trace = held st.trace := by
  obtain ⟨st, he, hp⟩ := exec_such (cfg := exCfg dbg 32 []) (A := 32) (cookie := none)
    (ops := [.create 24 none]) (h := [(.create 24 none, .ptr (some 64))])
    (P := fun st => (step (exCfg dbg 32 []) st (.create (32 + 8) none)).map (fun x => (x.1, held x.2.trace)) = .ok (.ptr (some 88), held st.trace))
    (by cases dbg <;> decide +kernel)
  cases hx : step (exCfg dbg 32 []) st (.create (32 + 8) none) with
  | error e => rw [hx] at hp; cases hp
  | ok x =>
    obtain ⟨r, st0⟩ := x
    rw [hx] at hp
    simp only [Except.map, Except.ok.injEq, Prod.mk.injEq] at hp
    obtain ⟨rfl, h2⟩ := hp
    exact ⟨st, st0, he, hx, h2⟩

end Verif.Arena
