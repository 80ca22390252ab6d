import Verif.Vector.Violations

/-!
C76: element types declared `Relocatable` that are not trivially copyable. What holds for them is proved for all
programs; what does not is shown by programs, and for copying for all vectors.
-/

namespace Verif.Vector

open V

variable {α : Type} [DecidableEq α] {cfg : Cfg α} {w : World α} {i j : Nat} {xs : List α}

/-- C76 (partial): as long as vectors of `Relocatable` elements are not copied, nothing is filtered with `erase_if` or
`erase(value)`, elements are appended by `emplace_back` (not `push_back`), inserted at most as many places before the end as are inserted, and
ranges are not contiguous, a program does what is specified, every element is constructed once and destroyed once. Missing are the
other operations, for which it is false: see below. -/
theorem relocatable_partial (hg : Good cfg) (hk : cfg.kind = .reloc) {ops : List (WOp α)}
    (hops : Legal cfg World.empty [] ops) :
    ∃ rets w', run cfg World.empty ops = (.ok rets, w') ∧
      (∀ i, w'.read i = ((specRun cfg.dflt ops)[i]?).join.map Except.ok) ∧
      w'.mem.ctors = w'.mem.dtors + w'.elements := by
  obtain ⟨rets, w', e, _, h⟩ := legal_programs_run hg hops
  exact ⟨rets, w', e, h, lifetimes_balance_partial hg (.inr hk) ⟨ops, hops, by rw [e]⟩⟩

/-- A program within these limits. -/
def relocProg : List (WOp Nat) :=
  [.ctorRange (.forward [3, 1, 2]), .call 0 (.pushBack true true (.own 0)), .call 0 (.insert true true 3 (.ext 9)),
   .call 0 (.eraseRange 0 2), .ctorSized 2, .moveAssign 1 0, .call 1 (.resize 5), .call 1 (.insertN true 3 2 (.ext 7)), .call 1 (.erase 1)]

theorem relocLegal : Legal (exCfg .reloc) World.empty [] relocProg := by
  simp only [relocProg, Legal]
  exact ⟨fun _ _ => rfl, ⟨trivial, by unfold Fits exCfg; decide⟩, fun _ _ => rfl,
    ⟨_, rfl, fun _ => rfl, by decide, by unfold Fits exCfg; decide⟩, fun _ _ => rfl,
    ⟨[3, 1, 2, 3], rfl, fun _ => ⟨rfl, by decide⟩, by decide, by decide, by unfold Fits exCfg; decide⟩, fun _ _ => rfl,
    ⟨[3, 1, 2, 9, 3], rfl, trivial, by decide, by decide⟩, fun _ _ => rfl, by unfold WContract Fits exCfg; decide, fun _ _ => rfl,
    ⟨⟨_, rfl⟩, ⟨_, rfl⟩⟩, fun _ _ => rfl, ⟨[2, 9, 3], rfl, trivial, by show Fits _ _; unfold Fits exCfg; decide⟩, fun _ _ => rfl,
    ⟨[2, 9, 3, 0, 0], rfl, fun _ => by decide, by decide, by decide, by decide, by unfold Fits exCfg; decide⟩, fun _ _ => rfl,
    ⟨[2, 9, 3, 7, 7, 0, 0], rfl, trivial, show 1 < 7 by decide⟩, trivial⟩

example : ∃ rets w', run (exCfg .reloc) World.empty relocProg = (.ok rets, w') ∧
      (∀ i, w'.read i = ((specRun 0 relocProg)[i]?).join.map Except.ok) ∧ w'.mem.ctors = w'.mem.dtors + w'.elements :=
  relocatable_partial (by unfold Good exCfg; decide) rfl relocLegal

example : (run (exCfg .reloc) World.empty relocProg).2.read 1 = some (.ok [2, 3, 7, 7, 0, 0]) ∧
    (run (exCfg .reloc) World.empty relocProg).2.mem.ctors = 11 ∧
    (run (exCfg .reloc) World.empty relocProg).2.mem.dtors = 5 := by decide +kernel

/-! ### What is false -/

omit [DecidableEq α] in
theorem elements_append (m : Mem α) (l : List (Option Vec)) (v : Vec) :
    World.elements (⟨m, l ++ [some v]⟩ : World α) = World.elements (⟨m, l⟩ : World α) + v.fin := by
  have e : ∀ l : List (Option Vec), World.elements (⟨m, l⟩ : World α) = _ := fun l => sum_range_size l
  rw [e, e, List.map_append, List.sum_append]
  simp

omit [DecidableEq α] in
theorem elements_mem (m m' : Mem α) (l : List (Option Vec)) :
    World.elements (⟨m, l⟩ : World α) = World.elements (⟨m', l⟩ : World α) := rfl

/-- C76 is violated by every copy of a vector that is not empty: the copy has the right contents, but no element of
it has been constructed, so that the vectors now have more elements than live objects and will destroy
`xs.length` of them twice. -/
theorem relocatable_every_copy_violated (hg : Good cfg) (hk : cfg.kind = .reloc) (hr : Reachable cfg w) (hl : Lucky cfg w.mem)
    (hx : w.Reads j xs) (hne : xs ≠ []) :
    ∃ w', wstep cfg w (.copyCtor j) = (.ok .unit, w') ∧ w'.Reads w.vecs.length xs ∧ w'.mem.ctors = w.mem.ctors ∧
      w'.mem.ctors + xs.length = w'.mem.dtors + w'.elements := by
  have hbal := lifetimes_balance_partial hg (.inr hk) hr
  obtain ⟨u, hu, hok, hf⟩ := hr.vec hg hx
  have h0 : 0 < xs.length := List.length_pos_iff.2 hne
  have hfin := hok.fin_eq
  have hok' := hok
  rcases hok with ⟨rfl, rfl⟩ | ⟨b, B, rfl, hB, hbo⟩
  · exact absurd rfl hne
  · have hbn := hok'.start_lt hf (b := b) rfl
    have hn : xs.length * cfg.size < 2 ^ 63 := by
      have := hbo.bound
      have := Nat.mul_le_mul_right cfg.size hbo.le
      omega
    have hrel : cfg.kind.relocatable = true := by rw [hk]; rfl
    have hcopy : Ok (coreCopy cfg ⟨some b, xs.length, B.len⟩) ⟨w.mem, nullVec⟩ (fun _ s' => VecOK cfg s'.mem s'.this xs ∧
        s'.mem.ctors = w.mem.ctors ∧ s'.mem.dtors = w.mem.dtors) := by
      unfold coreCopy
      simp only
      rw [if_pos h0]
      refine Ok.step (allocate_ok (s := ⟨w.mem, nullVec⟩) hg hl hn h0) (Ok.step (this_apply _) ?_)
      simp only [Vec.startPtr]
      refine Ok.step (b := ()) (s' := { (S.mk w.mem nullVec).grown xs.length with this := ⟨some w.mem.next, 0, xs.length⟩ : S α }.put w.mem.next
        (over ⟨xs.length, fun _ => .raw⟩ 0 xs.length (cellOf xs)) 0 0 0) ?_ (Ok.intro (setThis_apply _ _) ?_)
      · unfold copyRange
        rw [bind_ok (assert_true (by rfl) _), bind_ok (assert_true (by simp; omega) _),
          bind_ok (assert_true (by simpa using h0) _), if_pos hrel]
        have := copyBytes_cross (ov := false) (s := ⟨((S.mk w.mem nullVec).grown xs.length).mem, ⟨some w.mem.next, 0, xs.length⟩⟩)
          (d := w.mem.next) (b := b) (dst := 0) (src := 0) (n := xs.length) (D := ⟨xs.length, fun _ => .raw⟩) (B := B) (by omega)
          (grown_heap (S.mk w.mem nullVec) _) (by simp only [S.grown, upd]; rw [if_neg (by omega), hB]) (by simp) (by simpa using hbo.le)
        rw [← over_live hbo]
        exact this
      · exact ⟨.inr ⟨w.mem.next, _, rfl, put_same _ _ _ _ _, BlockOK.fresh h0 hn (Nat.le_refl _)⟩, rfl, rfl⟩
    obtain ⟨_, s', e, hv, h1, h2⟩ := hcopy
    refine ⟨_, by simp only [wstep, hu]; exact construct_eq e, ?_, h1, ?_⟩
    · unfold World.Reads World.read World.look
      simp only [List.getElem?_concat_length]
      rw [hv.toList_ok]
    · rw [elements_append, elements_mem _ w.mem, h1, h2, hbal, hv.fin_eq]
      rw [Nat.add_assoc]

example : ∃ w', wstep (exCfg .reloc) (run (exCfg .reloc) World.empty relocProg).2 (.copyCtor 1) = (.ok .unit, w') ∧
      w'.Reads 2 [2, 3, 7, 7, 0, 0] ∧ w'.mem.ctors = (run (exCfg .reloc) World.empty relocProg).2.mem.ctors ∧
      w'.mem.ctors + [2, 3, 7, 7, 0, 0].length = w'.mem.dtors + w'.elements := by
  have := relocatable_every_copy_violated (w := (run (exCfg .reloc) World.empty relocProg).2) (j := 1) (xs := [2, 3, 7, 7, 0, 0])
    (by unfold Good exCfg; decide) rfl ⟨_, relocLegal, rfl⟩ (fun _ _ => rfl) (by unfold World.Reads; decide +kernel) (by decide)
  have hn : (run (exCfg .reloc) World.empty relocProg).2.vecs.length = 2 := by decide +kernel
  rwa [hn] at this

/-- C76 is violated: copy assignment duplicates the elements in the same way: five destructions of three objects. -/
theorem relocatable_copy_assign_violated :
    ∃ prog, prog = [.ctorValue 2 5, .ctorValue 1 6, .copyAssign 1 0, .destroy 0, .destroy 1] ∧
      vRet .reloc prog = .ok [.unit, .unit, .unit, .unit, .unit] ∧
      (vEnd .reloc prog).mem.ctors = 3 ∧ (vEnd .reloc prog).mem.dtors = 5 ∧
      (vEnd .cpy prog).mem.ctors = 5 ∧ (vEnd .cpy prog).mem.dtors = 5 :=
  ⟨_, rfl, by decide +kernel, by decide +kernel, by decide +kernel, by decide +kernel, by decide +kernel⟩

/-- C76 is violated: so do the constructor, `assign` and `insert` from a contiguous range: two destructions of elements that were
never constructed. -/
theorem relocatable_range_violated :
    ∃ prog, prog = [.ctorRange (.contiguous [5, 6]), .destroy 0] ∧
      vRet .reloc prog = .ok [.unit, .unit] ∧
      (vEnd .reloc prog).mem.ctors = 0 ∧ (vEnd .reloc prog).mem.dtors = 2 ∧
      (vEnd .cpy prog).mem.ctors = 2 ∧ (vEnd .cpy prog).mem.dtors = 2 :=
  ⟨_, rfl, by decide +kernel, by decide +kernel, by decide +kernel, by decide +kernel, by decide +kernel⟩

/-- C76 is violated: `erase_if` and `erase(value)` never destroy the elements they remove: one destruction of three
objects. -/
theorem relocatable_erase_if_violated :
    ∃ prog, prog = [.ctorValue 2 5, .call 0 (.pushBack true true (.ext 6)), .call 0 (.eraseValue (.ext 5)), .destroy 0] ∧
      vRet .reloc prog = .ok [.unit, .unit, .num 2, .unit] ∧
      (vEnd .reloc prog).mem.ctors = 3 ∧ (vEnd .reloc prog).mem.dtors = 1 :=
  ⟨_, rfl, by decide +kernel, by decide +kernel, by decide +kernel⟩

/-- C76 is violated: `insert` before more elements than are inserted moves them one by one, by assignment to memory that
holds no object. -/
theorem relocatable_insert_violated :
    ∃ prog, prog = [.ctorValue 3 5, .call 0 (.reserve 8), .call 0 (.insert true true 0 (.ext 6))] ∧
      vRet .reloc prog = .error (.ub "assignment to an element that does not live") ∧
      vRet .cpy prog = .ok [.unit, .unit, .num 0] :=
  ⟨_, rfl, by decide +kernel, by decide +kernel⟩

end Verif.Vector
