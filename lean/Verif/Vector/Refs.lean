import Verif.Vector.Props2

/-!
C115: references to elements of a vector.  A reference is the address of an element: the block of
memory and the position in it.  Blocks are never given the same name twice, so that a reference into
freed memory is told apart from one into memory obtained later.
-/

namespace Verif.Vector

open V

variable {α β : Type} {cfg : Cfg α} {w : World α} {i : Nat} {xs : List α}

/-- The reference `v[k]` (container/stdb_vector.hpp:697-704) returns for vector `i`. -/
def World.refTo (w : World α) (i k : Nat) : Ptr := ⟨w.data i, k⟩

/-- The value of the element a reference refers to. -/
def World.through (w : World α) (p : Ptr) : Except Fault α := (load p ⟨w.mem, nullVec⟩).1

theorem load_live {m : Mem α} {v : Vec} {b k : Nat} {B : Block α} {x : α} (hB : m.heap b = some B) (hk : k < B.len)
    (hx : B.cell k = .live x) : load ⟨some b, k⟩ ⟨m, v⟩ = (.ok x, ⟨m, v⟩) := by
  unfold load
  have : readCell ⟨some b, k⟩ (⟨m, v⟩ : S α) = (.ok (.live x), ⟨m, v⟩) := by
    simp only [readCell, hB, if_pos hk, hx]
  rw [bind_ok this]
  rfl

theorem load_dangling {m : Mem α} {v : Vec} {b k : Nat} (hB : m.heap b = none) :
    load ⟨some b, k⟩ ⟨m, v⟩ = (.error (.ub "dangling pointer dereferenced"), ⟨m, v⟩) := by
  unfold load
  have : readCell ⟨some b, k⟩ (⟨m, v⟩ : S α) = (.error (.ub "dangling pointer dereferenced"), ⟨m, v⟩) := by
    simp only [readCell, hB]
  show V.bind _ _ _ = _
  simp only [V.bind, this]

/-- An element of a vector is read through its address. -/
theorem VecOK.through {v : Vec} {k : Nat} (h : VecOK cfg w.mem v xs) (hk : k < xs.length) :
    w.through ⟨v.start, k⟩ = .ok xs[k] := by
  rcases h with ⟨rfl, rfl⟩ | ⟨b, B, rfl, hB, hok⟩
  · simp at hk
  · have hc : B.cell k = .live xs[k] := by rw [hok.live k hk, cellOf_lt hk]
    have := hok.le
    unfold World.through
    rw [load_live hB (by omega) hc]

/-- A reference to an element is good as long as nothing has happened. -/
theorem reference_reads {k : Nat} (hg : Good cfg) [DecidableEq α] (hr : Reachable cfg w) (hx : w.Reads i xs) (hk : k < xs.length) :
    w.through (w.refTo i k) = .ok xs[k] := by
  obtain ⟨v, hv, hok, hf⟩ := hr.vec hg hx
  unfold World.refTo
  rw [data_eq hv]
  exact hok.through hk

/-- C115: a call of a member function of a vector either leaves the elements where they are, and then
a reference to the element at a position taken before the call refers to the element at this position
after the call; or moves the elements, and then all references taken before dangle.  References to
elements of other vectors are as good as before. -/
theorem references_kept_or_dangle [DecidableEq α] {op : Op α} {ys : List α} (hg : Good cfg) (hr : Reachable cfg w) (hl : Lucky cfg w.mem)
    (hx : w.Reads i xs) (hc : InContract cfg (w.capacity i) xs op) (hys : ys = specStep cfg.dflt xs op) :
    ∃ r w', wstep cfg w (.call i op) = (.ok r, w') ∧ w'.Reads i ys ∧
      (w'.data i = w.data i → ∀ k, (h : k < ys.length) → w'.through (w.refTo i k) = .ok ys[k]) ∧
      (w'.data i ≠ w.data i → ∀ k, k < xs.length →
        w'.through (w.refTo i k) = .error (.ub "dangling pointer dereferenced")) ∧
      (∀ j zs, j ≠ i → w.Reads j zs → ∀ k, (h : k < zs.length) → w'.through (w.refTo j k) = .ok zs[k]) := by
  obtain ⟨r, w', e, hb, -⟩ := call_ok (op := op) hg hr hl hx hc
  obtain ⟨v, hv, hok, hf⟩ := hr.vec hg hx
  rw [capacity_eq hv] at hc
  obtain ⟨s', hq, rfl⟩ := call_more hv (step_ok (s := ⟨w.mem, v⟩) hg hf hl hok hc) e
  have hp := hq.post
  refine ⟨r, _, e, by rw [hys]; exact hb.reads, ?_, ?_, ?_⟩
  · intro hd k hk
    subst hys
    have := VecOK.through (w := ⟨s'.mem, w.vecs.set i (some s'.this)⟩) hp.ok hk
    unfold World.refTo
    rw [← hd, data_eq (set_vec hv)]
    exact this
  · intro hd k hk
    rw [data_eq hv, data_eq (set_vec hv)] at hd
    rcases hp.start with h | ⟨h, -⟩
    · exact absurd h hd
    · rcases hok with ⟨-, rfl⟩ | ⟨b, B, rfl, hB, -⟩
      · simp at hk
      · unfold World.refTo
        rw [data_eq hv]
        unfold World.through
        rw [load_dangling (h b rfl)]
  · intro j zs hj hz k hk
    obtain ⟨u, hu, hoku, -⟩ := hr.vec hg hz
    unfold World.refTo
    rw [data_eq hu]
    refine VecOK.through (w := ⟨s'.mem, w.vecs.set i (some s'.this)⟩) (xs := zs) (cfg := cfg) ?_ hk
    refine hoku.congr fun b hbu => ?_
    have h1 : v.start ≠ some b := fun h =>
      hj (storage_is_own hg hr (by rw [data_eq hu, hbu]) (by rw [data_eq hv, h]))
    have h2 : s'.this.start ≠ some b := by
      intro h
      rcases hp.start with g | ⟨-, g⟩
      · exact h1 (by rw [← g, h])
      · have h3 : w.mem.next ≤ b := (g b h).1
        have := hoku.start_lt hf hbu
        omega
    exact hp.frame b h1 h2

/-- Vector 2 is full: appending moves its elements. -/
example : ∃ r w', wstep (exCfg .mov) (exWorld .mov) (.call 2 (.pushBack true false (.ext 5))) = (.ok r, w') ∧
    w'.Reads 2 [0, 0, 5] ∧
    (w'.data 2 ≠ (exWorld .mov).data 2 → ∀ k, k < [0, 0].length →
      w'.through ((exWorld .mov).refTo 2 k) = .error (.ub "dangling pointer dereferenced")) ∧
    w'.through ((exWorld .mov).refTo 0 2) = .ok 9 := by
  obtain ⟨r, w', h1, h2, -, h4, h5⟩ := references_kept_or_dangle (op := .pushBack true false (.ext 5)) exGood exReach exLucky
    exReads.2.2 ⟨(fun h => by cases h), rfl, by unfold Fits exCfg; decide⟩ rfl
  exact ⟨r, w', h1, h2, h4, h5 0 _ (by decide) exReads.1 2 (by decide)⟩

/-- C115: references to the elements survive `push_back` and `emplace_back` exactly if there was room
for the new element. -/
theorem push_back_references [DecidableEq α] {x : α} {e : Bool} (hg : Good cfg) (hr : Reachable cfg w) (hl : Lucky cfg w.mem)
    (hx : w.Reads i xs) (he : cfg.kind = .reloc → e = true) (hfit : Fits cfg (xs.length + 1)) :
    ∃ w', wstep cfg w (.call i (.pushBack true e (.ext x))) = (.ok .unit, w') ∧
      (xs.length < w.capacity i → ∀ k, (h : k < xs.length) → w'.through (w.refTo i k) = .ok xs[k]) ∧
      (xs.length = w.capacity i → ∀ k, k < xs.length →
        w'.through (w.refTo i k) = .error (.ub "dangling pointer dereferenced")) := by
  obtain ⟨r, w', e', -, hkeep, hlose, -⟩ := references_kept_or_dangle (op := .pushBack true e (.ext x)) hg hr hl hx
    ⟨he, rfl, by simpa using hfit⟩ rfl
  obtain ⟨v, hv, hok, hf⟩ := hr.vec hg hx
  obtain ⟨s', hq, rfl⟩ := call_more (op := .pushBack true e (.ext x)) hv
    (noRet_ok (pushBack_ok (s := ⟨w.mem, v⟩) (a := .ext x) (x := x) (safe := true) (e := e) hg he hf hl hok rfl (by simpa using hfit))) e'
  obtain ⟨rfl, hpost, hq⟩ := hq
  rw [capacity_eq hv]
  rw [data_eq hv, data_eq (set_vec hv)] at hkeep hlose
  refine ⟨_, e', fun h k hk => ?_, fun h k hk => ?_⟩
  · rw [if_pos h] at hq
    have := hkeep hq.1 k (by simp [specStep, Arg.val]; omega)
    rw [this]
    simp [specStep, Arg.val, List.getElem_append_left hk]
  · rw [if_neg (by simp only; omega)] at hq
    refine hlose ?_ k hk
    rw [hq.2.2]
    intro hs
    have := hok.start_lt hf hs.symm
    simp at this

/-- Vector 0 has room for one more element, vector 2 is full. -/
example : (∃ w', wstep (exCfg .mov) (exWorld .mov) (.call 0 (.pushBack true false (.ext 5))) = (.ok .unit, w') ∧
      w'.through ((exWorld .mov).refTo 0 2) = .ok 9) ∧
    ∃ w', wstep (exCfg .mov) (exWorld .mov) (.call 2 (.pushBack true false (.ext 5))) = (.ok .unit, w') ∧
      w'.through ((exWorld .mov).refTo 2 0) = .error (.ub "dangling pointer dereferenced") := by
  obtain ⟨w1, e1, h1, -⟩ := push_back_references (x := 5) (e := false) exGood exReach exLucky exReads.1 (fun h => by cases h) (by unfold Fits exCfg; decide)
  obtain ⟨w2, e2, -, h2⟩ := push_back_references (x := 5) (e := false) exGood exReach exLucky exReads.2.2 (fun h => by cases h) (by unfold Fits exCfg; decide)
  exact ⟨⟨w1, e1, h1 (by decide +kernel) 2 (by decide)⟩, ⟨w2, e2, h2 (by decide +kernel) 0 (by decide)⟩⟩

end Verif.Vector
