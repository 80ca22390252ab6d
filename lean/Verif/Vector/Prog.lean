import Verif.Vector.World

/-!
Programs: legal programs run without a fault and keep the invariant; what can be read in the states
they reach.
-/

namespace Verif.Vector

open V

variable {α β : Type} {cfg : Cfg α} {w w' : World α} {ys : Contents α} {i : Nat} {xs : List α}

/-- What `Reachable` says, with the contents the program should have produced. -/
def Reach [DecidableEq α] (cfg : Cfg α) (w : World α) (ys : Contents α) : Prop :=
  ∃ ops, Legal cfg World.empty [] ops ∧ (run cfg World.empty ops).2 = w ∧ ys = specRun cfg.dflt ops

theorem Reachable.reach [DecidableEq α] (h : Reachable cfg w) : ∃ ys, Reach cfg w ys := by
  obtain ⟨ops, h1, h2⟩ := h
  exact ⟨_, ops, h1, h2, rfl⟩

theorem Reach.reachable [DecidableEq α] (h : Reach cfg w ys) : Reachable cfg w := by
  obtain ⟨ops, h1, h2, _⟩ := h
  exact ⟨ops, h1, h2⟩

theorem legal_run [DecidableEq α] (hg : Good cfg) {ops : List (WOp α)} :
    ∀ {w : World α} {ys : Contents α}, WInv cfg w ys → Legal cfg w ys ops →
      ∃ rs w', run cfg w ops = (.ok rs, w') ∧ WInv cfg w' (ops.foldl (specWorld cfg.dflt) ys) ∧ rs.length = ops.length := by
  induction ops with
  | nil => exact fun {w ys} h _ => ⟨[], w, rfl, h, rfl⟩
  | cons op ops ih =>
    intro w ys h hl
    obtain ⟨h1, h2, h3⟩ := hl
    obtain ⟨r, w1, e, hw, _⟩ := wstep_ok hg h1 h h2
    rw [e] at h3
    obtain ⟨rs, w2, e2, hw2, hlen⟩ := ih hw h3
    refine ⟨r :: rs, w2, ?_, hw2, by simp [hlen]⟩
    simp only [run, e, e2]

theorem Reach.winv [DecidableEq α] (hg : Good cfg) (h : Reach cfg w ys) : WInv cfg w ys := by
  obtain ⟨ops, h1, rfl, rfl⟩ := h
  obtain ⟨rs, w', e, hw, _⟩ := legal_run hg WInv.empty h1
  rw [e]
  exact hw

theorem legal_append [DecidableEq α] (hg : Good cfg) {ops : List (WOp α)} {op : WOp α} :
    ∀ {w : World α} {ys : Contents α}, WInv cfg w ys → Legal cfg w ys ops →
      Lucky cfg (run cfg w ops).2.mem →
      WContract cfg (run cfg w ops).2.capacity (ops.foldl (specWorld cfg.dflt) ys) op →
      Legal cfg w ys (ops ++ [op]) ∧ (run cfg w (ops ++ [op])).2 = (wstep cfg (run cfg w ops).2 op).2 := by
  induction ops with
  | nil =>
    intro w ys h hl hm hc
    refine ⟨⟨hm, hc, trivial⟩, ?_⟩
    obtain ⟨r, w1, e, _⟩ := wstep_ok hg hm h hc
    have e' : wstep cfg w op = (.ok r, w1) := e
    simp only [List.nil_append, run, e']
  | cons o ops ih =>
    intro w ys h hl hm hc
    obtain ⟨h1, h2, h3⟩ := hl
    obtain ⟨r, w1, e, hw, _⟩ := wstep_ok hg h1 h h2
    rw [e] at h3
    obtain ⟨rs, w2, e2, hw2, _⟩ := legal_run hg hw h3
    have er : run cfg w (o :: ops) = (.ok (r :: rs), w2) := by simp only [run, e, e2]
    rw [er] at hm hc ⊢
    have := ih hw h3 (by rw [e2]; exact hm) (by rw [e2]; exact hc)
    rw [e2] at this
    refine ⟨⟨h1, h2, by rw [e]; exact this.1⟩, ?_⟩
    rw [← this.2]
    obtain ⟨r3, w3, e3, _⟩ := legal_run hg hw this.1
    simp only [List.cons_append, run, e, e3]

/-- One more operation of a program. -/
theorem Reach.step [DecidableEq α] {op : WOp α} (hg : Good cfg) (h : Reach cfg w ys) (hl : Lucky cfg w.mem)
    (hc : WContract cfg w.capacity ys op) :
    ∃ r w', wstep cfg w op = (.ok r, w') ∧ Reach cfg w' (specWorld cfg.dflt ys op) ∧
      (r = specWRet ys op ∨ ∃ i a b, op = .call i (.eraseRange a b) ∧ r = .num b) := by
  obtain ⟨r, w', e, hw, hr⟩ := wstep_ok hg hl (h.winv hg) hc
  refine ⟨r, w', e, ?_, hr⟩
  obtain ⟨ops, h1, rfl, rfl⟩ := h
  obtain ⟨h2, h3⟩ := legal_append hg WInv.empty h1 hl hc
  refine ⟨ops ++ [op], h2, by rw [h3, e], ?_⟩
  simp [specRun]

theorem VecOK.toList_ok {m : Mem α} {v : Vec} (h : VecOK cfg m v xs) : toList ⟨m, v⟩ = (.ok xs, ⟨m, v⟩) := by
  unfold toList
  rw [bind_ok (this_apply _)]
  rcases h with ⟨rfl, rfl⟩ | ⟨b, B, rfl, hB, hok⟩
  · rfl
  · exact iterate_ok (i := 0) hB (by have := hok.le; omega) (fun j hj => by simpa using hok.live j hj)

theorem WInv.read (h : WInv cfg w ys) (i : Nat) : w.read i = (ys[i]?).join.map Except.ok := by
  unfold World.read World.look
  have hr := h.rel i
  cases hv : w.vecs[i]? with
  | none =>
    rw [hv] at hr
    cases hy : ys[i]? with
    | none => rfl
    | some o => rw [hy] at hr; exact hr.elim
  | some o =>
    rw [hv] at hr
    cases o with
    | none =>
      cases hy : ys[i]? with
      | none => rfl
      | some o =>
        rw [hy] at hr
        cases o with
        | none => rfl
        | some _ => exact hr.elim
    | some v =>
      cases hy : ys[i]? with
      | none => rw [hy] at hr; exact hr.elim
      | some o =>
        rw [hy] at hr
        cases o with
        | none => exact hr.elim
        | some xs =>
          have : VecOK cfg w.mem v xs := hr
          simp only [this.toList_ok, Option.join_some, Option.map_some]

theorem WInv.reads_iff (h : WInv cfg w ys) : w.Reads i xs ↔ ys[i]? = some (some xs) := by
  unfold World.Reads
  rw [h.read]
  cases ys[i]? with
  | none => simp
  | some o => cases o <;> simp

theorem join_set_ne {l : Contents α} {i j : Nat} {o : Option (List α)} (h : j ≠ i) :
    ((l.set i o)[j]?).join = (l[j]?).join := by
  rw [List.getElem?_set_ne (Ne.symm h)]

/-- A call of a member function within its contract. -/
theorem call_ok [DecidableEq α] {op : Op α} (hg : Good cfg) (hr : Reachable cfg w) (hl : Lucky cfg w.mem)
    (hx : w.Reads i xs) (hc : InContract cfg (w.capacity i) xs op) :
    ∃ r w', wstep cfg w (.call i op) = (.ok r, w') ∧ Becomes cfg w w' i (specStep cfg.dflt xs op) ∧
      (r = specRet xs op ∨ ∃ a b, op = .eraseRange a b ∧ r = .num b) := by
  obtain ⟨ys, hr⟩ := hr.reach
  have hw := hr.winv hg
  have hy := hw.reads_iff.1 hx
  obtain ⟨r, w', e, hr', hret⟩ := hr.step hg hl (op := .call i op) ⟨xs, hy, hc⟩
  have hw' := hr'.winv hg
  refine ⟨r, w', e, ⟨?_, fun j hj => ?_, hr'.reachable⟩, ?_⟩
  · rw [hw'.reads_iff]
    simp only [specWorld, hy, Option.join_some, Option.map_some]
    rw [List.getElem?_set_self (lt_of_getElem? hy)]
  · rw [hw.read, hw'.read]
    simp only [specWorld]
    rw [join_set_ne hj]
  · rcases hret with hret | ⟨i', a, b, e1, e2⟩
    · left
      rw [hret]
      simp only [specWRet, hy]
    · right
      simp only [WOp.call.injEq] at e1
      exact ⟨a, b, e1.2, e2⟩

/-- A member function that is known to do more than the specification says. -/
theorem call_more [DecidableEq α] {op : Op α} {Q : Ret → S α → Prop} {v : Vec} (hv : w.vecs[i]? = some (some v))
    (hq : Ok (step cfg op) ⟨w.mem, v⟩ Q) {r : Ret} {w' : World α} (e : wstep cfg w (.call i op) = (.ok r, w')) :
    ∃ s', Q r s' ∧ w' = ⟨s'.mem, w.vecs.set i (some s'.this)⟩ := by
  obtain ⟨r', s', e', h⟩ := hq
  have := member_eq hv e'
  simp only [wstep] at e
  rw [this] at e
  simp only [Prod.mk.injEq, Except.ok.injEq] at e
  obtain ⟨rfl, rfl⟩ := e
  exact ⟨s', h, rfl⟩

/-- The vector behind what is read. -/
theorem Reachable.vec [DecidableEq α] (hg : Good cfg) (hr : Reachable cfg w) (hx : w.Reads i xs) :
    ∃ v, w.vecs[i]? = some (some v) ∧ VecOK cfg w.mem v xs ∧ Fresh w.mem := by
  obtain ⟨ys, hr⟩ := hr.reach
  have hw := hr.winv hg
  obtain ⟨v, hv, hok⟩ := hw.vec (hw.reads_iff.1 hx)
  exact ⟨v, hv, hok, hw.fresh⟩

theorem capacity_eq {v : Vec} (hv : w.vecs[i]? = some (some v)) : w.capacity i = v.edge := by
  simp only [World.capacity, hv]
theorem size_eq {v : Vec} (hv : w.vecs[i]? = some (some v)) : w.size i = v.fin := by
  simp only [World.size, hv]
theorem data_eq {v : Vec} (hv : w.vecs[i]? = some (some v)) : w.data i = v.start := by
  simp only [World.data, hv]
theorem look_eq {v : Vec} {x : V α β} (hv : w.vecs[i]? = some (some v)) : w.look i x = some (x ⟨w.mem, v⟩).1 := by
  simp only [World.look, hv]
theorem set_vec {l : List (Option Vec)} {v u : Vec} (hv : l[i]? = some (some v)) : (l.set i (some u))[i]? = some (some u) := by
  rw [List.getElem?_set_self (lt_of_getElem? hv)]

end Verif.Vector
