import Verif.Vector.Owners

/-!
C145: vectors of elements that own something, such as strings.  Moved-from elements are never destroyed
(C41), which is harmless for types whose moved-from objects own nothing; what matters to such types is
that no element is lost while it still owns something, and none is released twice.
-/

namespace Verif.Vector

open V

variable {α : Type} {cfg : Cfg α} {w : World α} [DecidableEq α]

/-- C145: a program behaves the same when it is counted as a fault to destroy a moved-from element or to
assign to one: every destructor and every assignment meets an element with a value. -/
theorem shells_untouched (hg : Good cfg) {ops : List (WOp α)} (hops : Legal cfg World.empty [] ops) :
    ∃ rets w', run cfg.watched World.empty ops = (.ok rets, w') ∧ run cfg World.empty ops = (.ok rets, w') :=
  Owners.run_watched hg WInv.empty hops

/-- Watching is not idle: some program outside the contract destroys a moved-from element and is told. -/
example : (destroyPtr (exCfg .mov) ⟨some 0, 0⟩
      ⟨{ heap := fun b => if b = 0 then some ⟨1, fun _ => .moved⟩ else none, next := 1, ctors := 1, dtors := 0, moves := 1, relocs := 0 }, nullVec⟩).1.toOption.isSome = true ∧
    (destroyPtr (exCfg .mov).watched ⟨some 0, 0⟩
      ⟨{ heap := fun b => if b = 0 then some ⟨1, fun _ => .moved⟩ else none, next := 1, ctors := 1, dtors := 0, moves := 1, relocs := 0 }, nullVec⟩).1.toOption.isSome = false := by
  decide +kernel

example : ∃ rets w', run (exCfg .mov).watched World.empty exProg2 = (.ok rets, w') ∧
    run (exCfg .mov) World.empty exProg2 = (.ok rets, w') := shells_untouched exGood (exLegal2 _)

example : (run (exCfg .mov).watched World.empty exProg2).2.mem.moves = 10 := by decide +kernel

/-- C145: every value in storage is an element of exactly one vector: nothing that still owns something is
left behind outside the vectors. -/
theorem values_in_vectors (hg : Good cfg) (hk : cfg.kind = .mov ∨ cfg.kind = .cpy) (hr : Reachable cfg w)
    {b j : Nat} {B : Block α} {x : α} (hb : w.mem.heap b = some B) (hj : j < B.len) (hx : B.cell j = .live x) :
    ∃ i xs, w.data i = some b ∧ w.Reads i xs ∧ xs[j]? = some x ∧ ∀ k, w.data k = some b → k = i := by
  obtain ⟨i, hi, huniq⟩ := blocks_are_owned hg hr (by rw [hb]; simp)
  obtain ⟨ys, hr'⟩ := hr.reach
  have hw := hr'.winv hg
  obtain ⟨i', v, hv, hvb⟩ := hw.owned b (by rw [hb]; simp)
  have hii : i' = i := huniq i' (by rw [data_eq hv, hvb])
  subst hii
  obtain ⟨xs, hy, hok⟩ := hw.contents hv
  refine ⟨i', xs, hi, hw.reads_iff.2 hy, ?_, huniq⟩
  rcases hok with ⟨rfl, _⟩ | ⟨b', B', rfl, hB', hblk⟩
  · cases hvb
  · cases hvb
    rw [hb] at hB'
    cases hB'
    by_cases hlt : j < xs.length
    · have := hblk.live j hlt
      rw [hx] at this
      unfold cellOf at this
      rw [List.getElem?_eq_getElem hlt] at this ⊢
      simpa using this.symm
    · have ht := hblk.tail j (Nat.le_of_not_lt hlt) hj
      rw [hx] at ht
      rcases hk with hk | hk <;> rw [hk] at ht
      · exact (ht x rfl).elim
      · cases ht

example : ∃ B, (exWorld .mov).mem.heap 4 = some B ∧ 1 < B.len ∧ B.cell 1 = .live 1 := by
  have h : ((exWorld .mov).mem.heap 4).map (fun B => (decide (1 < B.len), B.cell 1)) = some (true, .live 1) := by decide +kernel
  cases hB : (exWorld .mov).mem.heap 4 with
  | none => rw [hB] at h; simp at h
  | some B => rw [hB] at h; simp at h; exact ⟨B, rfl, h.1, h.2⟩

/-- C145: at the end, when all vectors are destroyed, the elements made are those destroyed and those moved
from; by `shells_untouched` no element is both, so each owner has been released or handed on exactly once. -/
theorem owners_released (hg : Good cfg) (hk : cfg.kind ≠ .triv) (hr : Reachable cfg w) (hd : ∀ i, w.read i = none) :
    w.mem.ctors = w.mem.dtors + w.mem.moves ∧ ∀ b, w.mem.heap b = none := by
  have h := lifetimes_with_moves hg hk hr
  have : w.elements = 0 := by
    unfold World.elements
    refine sum_zero (fun x hx => ?_)
    obtain ⟨i, _, rfl⟩ := List.mem_map.1 hx
    have := hd i
    unfold World.read World.look at this
    unfold World.size
    split at this
    · simp at this
    · rfl
  refine ⟨by omega, fun b => ?_⟩
  obtain ⟨ys, hr'⟩ := hr.reach
  have hw := hr'.winv hg
  cases hb : w.mem.heap b with
  | none => rfl
  | some B =>
    obtain ⟨i, v, hv, _⟩ := hw.owned b (by rw [hb]; simp)
    have := hd i
    unfold World.read World.look at this
    rw [hv] at this
    cases this

example : (run (exCfg .mov) World.empty exProg2).2.mem.ctors = 15 ∧ (run (exCfg .mov) World.empty exProg2).2.mem.dtors = 5 ∧
    (run (exCfg .mov) World.empty exProg2).2.mem.moves = 10 := by decide +kernel

end Verif.Vector
