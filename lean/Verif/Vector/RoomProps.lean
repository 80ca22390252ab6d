import Verif.Vector.Room

/-!
C119: calls whose result fits into the capacity neither move the elements nor need memory.
-/

namespace Verif.Vector

open V

variable {α : Type} [DecidableEq α] {cfg : Cfg α} {w : World α} {i : Nat} {xs : List α}

/-- A sequence of calls on a vector with contents `xs` and capacity `cap`: each within its contract, and
none needs more room than `cap`. -/
def Within (cfg : Cfg α) (cap : Nat) : List α → List (Op α) → Prop
  | _, [] => True
  | xs, op :: ops => InContract cfg cap xs op ∧ (∃ n, op.needs xs.length = some n ∧ n ≤ cap) ∧
      Within cfg cap (specStep cfg.dflt xs op) ops

/-- C119: a call whose result fits leaves the storage and the capacity as they are and does not call
`malloc`, in every state and whatever the call does, even if it is outside of its contract. -/
theorem fitting_in_place {op : Op α} {n : Nat} (hn : op.needs (w.size i) = some n) (h : n ≤ w.capacity i) :
    (wstep cfg w (.call i op)).2.data i = w.data i ∧ (wstep cfg w (.call i op)).2.capacity i = w.capacity i ∧
      (wstep cfg w (.call i op)).2.mem.next = w.mem.next := by
  show (w.member i (step cfg op)).2.data i = _ ∧ (w.member i (step cfg op)).2.capacity i = _ ∧ (w.member i (step cfg op)).2.mem.next = _
  unfold World.member
  split
  · next v hv =>
    rw [size_eq hv] at hn
    rw [capacity_eq hv] at h ⊢
    have := (quiet_step (cfg := cfg) (g := cfg.malloc) (s := ⟨w.mem, v⟩) hn h).2
    rw [data_eq hv, data_eq (set_vec hv), capacity_eq (set_vec hv)]
    exact ⟨this.start, this.edge, this.next⟩
  · exact ⟨rfl, rfl, rfl⟩

/-- The example: vector 0 has room for one more element. -/
example : (wstep (exCfg .mov) (exWorld .mov) (.call 0 (.pushBack true false (.own 2)))).2.data 0 = (exWorld .mov).data 0 :=
  (fitting_in_place (n := 6) (by decide +kernel) (by decide +kernel)).1

theorem run_room {ys : Contents α} {ops : List (Op α)} (hg : Good cfg) (hw : WInv cfg w ys) (hy : ys[i]? = some (some xs))
    (ho : Within cfg (w.capacity i) xs ops) :
    ∃ rs w', run cfg w (ops.map (.call i)) = (.ok rs, w') ∧ WInv cfg w' (ys.set i (some (ops.foldl (specStep cfg.dflt) xs))) ∧
      w'.data i = w.data i ∧ w'.capacity i = w.capacity i ∧ w'.mem.next = w.mem.next := by
  induction ops generalizing w xs ys with
  | nil => exact ⟨[], w, rfl, by rw [List.foldl_nil, set_self hy]; exact hw, rfl, rfl, rfl⟩
  | cons op ops ih =>
    obtain ⟨hc, ⟨n, hn, hle⟩, ho⟩ := ho
    obtain ⟨v, hv, hok⟩ := hw.vec hy
    rw [capacity_eq hv] at hc hle ho
    obtain ⟨r, s', e, hs, hst⟩ := step_room (s := ⟨w.mem, v⟩) hg hw.fresh hok hc hn hle
    have e1 : wstep cfg w (.call i op) = _ := member_eq hv e
    have hw' := hw.member hv hy hok hs.post
    have hcap : World.capacity ⟨s'.mem, w.vecs.set i (some s'.this)⟩ i = v.edge := by rw [capacity_eq (set_vec hv)]; exact hst.edge
    obtain ⟨rs, w', e2, h1, h2, h3, h4⟩ := ih (w := ⟨s'.mem, w.vecs.set i (some s'.this)⟩) hw'
      (List.getElem?_set_self (lt_of_getElem? hy)) (by rw [hcap]; exact ho)
    refine ⟨r :: rs, w', ?_, ?_, ?_, ?_, ?_⟩
    · rw [List.map_cons, run, e1]
      simp only [e2]
    · rw [List.set_set] at h1
      exact h1
    · rw [h2, data_eq hv, data_eq (set_vec hv)]
      exact hst.start
    · rw [h3, hcap, capacity_eq hv]
    · rw [h4]
      exact hst.next

/-- C119: a sequence of calls, each within its contract and none needing more room than there is, succeeds
whatever `malloc` would answer, moves no elements, keeps the capacity, and leaves references to the elements
good; the other vectors are not changed. -/
theorem reserved_in_place {ops : List (Op α)} {ys : List α} (hg : Good cfg) (hr : Reachable cfg w) (hx : w.Reads i xs)
    (ho : Within cfg (w.capacity i) xs ops) (hys : ys = ops.foldl (specStep cfg.dflt) xs) :
    ∃ rs w', run cfg w (ops.map (.call i)) = (.ok rs, w') ∧ w'.Reads i ys ∧ (∀ j, j ≠ i → w'.read j = w.read j) ∧
      w'.data i = w.data i ∧ w'.capacity i = w.capacity i ∧ w'.mem.next = w.mem.next ∧
      ∀ k, (h : k < ys.length) → w'.through (w.refTo i k) = .ok ys[k] := by
  obtain ⟨zs, hr⟩ := hr.reach
  have hw := hr.winv hg
  have hy := hw.reads_iff.1 hx
  obtain ⟨rs, w', e, h1, h2, h3, h4⟩ := run_room hg hw hy ho
  rw [← hys] at h1
  have hy' : (zs.set i (some ys))[i]? = some (some ys) := List.getElem?_set_self (lt_of_getElem? hy)
  refine ⟨rs, w', e, h1.reads_iff.2 hy', fun j hj => ?_, h2, h3, h4, fun k hk => ?_⟩
  · rw [h1.read, hw.read, join_set_ne hj]
  · obtain ⟨v, hv, hok⟩ := h1.vec hy'
    unfold World.refTo
    rw [← h2, data_eq hv]
    exact hok.through hk

/-- In vector 0 of the example (5 elements, room for 6) something is erased and two elements are put in. -/
example : ∃ rs w', run (exCfg .mov) (exWorld .mov) ([.erase 1, .pushBack true false (.ext 7), .insert true true 0 (.ext 8)].map (.call 0)) =
      (.ok rs, w') ∧ w'.Reads 0 [8, 3, 9, 2, 3, 7] ∧ w'.through ((exWorld .mov).refTo 0 5) = .ok 7 := by
  obtain ⟨rs, w', h1, h2, -, -, -, -, h3⟩ := reserved_in_place (ops := [.erase 1, .pushBack true false (.ext 7), .insert true true 0 (.ext 8)])
    (ys := [8, 3, 9, 2, 3, 7]) exGood exReach exReads.1 (by
      rw [exSizes.1]
      exact ⟨⟨trivial, (by decide : 1 < 5)⟩, ⟨5, rfl, by decide⟩, ⟨(fun h => by cases h), rfl, by unfold Fits exCfg; decide⟩, ⟨5, rfl, by decide⟩,
        ⟨(fun h => by cases h), by decide, rfl, by unfold Fits exCfg; decide⟩, ⟨6, rfl, by decide⟩, trivial⟩) (by decide)
  exact ⟨rs, w', h1, h2, h3 5 (by decide)⟩

/-- C119: after `reserve(n)`, calls that need room for at most `n` elements. -/
theorem reserve_then_in_place {ops : List (Op α)} {n : Nat} {ys : List α} (hg : Good cfg) (hr : Reachable cfg w) (hl : Lucky cfg w.mem)
    (hx : w.Reads i xs) (hfit : Fits cfg n) (ho : ∀ cap, n ≤ cap → Within cfg cap xs ops) (hys : ys = ops.foldl (specStep cfg.dflt) xs) :
    ∃ w1 rs w2, wstep cfg w (.call i (.reserve n)) = (.ok .unit, w1) ∧ run cfg w1 (ops.map (.call i)) = (.ok rs, w2) ∧
      w2.Reads i ys ∧ w2.data i = w1.data i ∧ w2.capacity i = w1.capacity i ∧ w2.mem.next = w1.mem.next ∧
      ∀ k, (h : k < ys.length) → w2.through (w1.refTo i k) = .ok ys[k] := by
  obtain ⟨w1, e1, hb, hcap, -⟩ := reserve_keeps hg hr hl hx hfit
  obtain ⟨rs, w2, h1, h2, -, h3, h4, h5, h6⟩ := reserved_in_place hg hb.goesOn hb.reads (ho _ (by rw [hcap]; exact Nat.le_max_left _ _)) hys
  exact ⟨w1, rs, w2, e1, h1, h2, h3, h4, h5, h6⟩

/-- Memory for one block only: with `reserve(3)` it lasts for three elements. -/
example : let cfg : Cfg Nat := (exCfg .mov).answers fun k _ => decide (k = 0)
    ∃ w1 rs w2, wstep cfg (run cfg World.empty [.ctor]).2 (.call 0 (.reserve 3)) = (.ok .unit, w1) ∧
      run cfg w1 ([.pushBack true false (.ext 1), .pushBack true false (.ext 2), .pushBack true true (.ext 3)].map (.call 0)) = (.ok rs, w2) ∧
      w2.Reads 0 [1, 2, 3] ∧ w2.data 0 = w1.data 0 := by
  intro cfg
  have hf : ∀ k, k ≤ 3 → Fits cfg k := fun k h => by
    show 2 * (k * 16) < 2 ^ 63
    omega
  have hr : Reachable cfg (run cfg World.empty [.ctor]).2 := by
    refine ⟨[.ctor], ?_, rfl⟩
    exact ⟨fun _ _ => rfl, trivial, trivial⟩
  obtain ⟨w1, rs, w2, h1, h2, h3, h4, -⟩ := reserve_then_in_place (cfg := cfg) (w := (run cfg World.empty [.ctor]).2) (i := 0) (xs := []) (n := 3) (ys := [1, 2, 3])
    (ops := [.pushBack true false (.ext 1), .pushBack true false (.ext 2), .pushBack true true (.ext 3)])
    exGood hr (fun _ _ => rfl) (by unfold World.Reads; decide +kernel) (hf 3 (by decide))
    (fun cap hc => ⟨⟨(fun h => by cases h), rfl, hf 1 (by decide)⟩, ⟨1, rfl, by omega⟩, ⟨(fun h => by cases h), rfl, hf 2 (by decide)⟩, ⟨2, rfl, by omega⟩,
      ⟨(fun h => by cases h), rfl, hf 3 (by decide)⟩, ⟨3, rfl, by omega⟩, trivial⟩) (by decide)
  exact ⟨w1, rs, w2, h1, h2, h3, h4⟩

/-- The state after some calls on vector 0 of the example. -/
private def after (ops : List (Op Nat)) : World Nat := (run (exCfg .mov) (exWorld .mov) (ops.map (.call 0))).2

/-- `shrink_to_fit` gives the room back: it moves the elements, and the next element moves them again. -/
theorem shrink_gives_room_back :
    (run (exCfg .mov) (exWorld .mov) [.call 0 .shrinkToFit, .call 0 (.pushBack true false (.ext 7))]).1 = .ok [.unit, .unit] ∧
    (after [.shrinkToFit]).capacity 0 = 5 ∧ (after [.shrinkToFit]).data 0 ≠ (exWorld .mov).data 0 ∧
    (after [.shrinkToFit, .pushBack true false (.ext 7)]).data 0 ≠ (after [.shrinkToFit]).data 0 :=
  ⟨by decide +kernel, by decide +kernel, by decide +kernel, by decide +kernel⟩

end Verif.Vector
