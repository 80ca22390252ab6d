import Verif.Vector.Ops4

/-!
One call of a member function, and the special member functions, against the specification.
-/

namespace Verif.Vector

open V

variable {α β : Type} {cfg : Cfg α} {s s' s'' s1 : S α} {xs ys zs : List α}

theorem noRet_ok {x : V α Unit} {Q : S α → Prop} (h : Ok x s (fun _ s' => Q s')) :
    Ok (noRet x) s (fun r s' => r = .unit ∧ Q s') := by
  obtain ⟨u, s', e, hq⟩ := h
  exact Ok.step e (Ok.ret ⟨rfl, hq⟩)

theorem numRet_ok {x : V α Nat} {n : Nat} {Q : S α → Prop} (h : Ok x s (fun r s' => r = n ∧ Q s')) :
    Ok (numRet x) s (fun r s' => r = .num n ∧ Q s') := by
  obtain ⟨r, s', e, rfl, hq⟩ := h
  exact Ok.step e (Ok.ret ⟨rfl, hq⟩)

/-- What a call of a member function does: the contents and the result are those of the
specification, except that `erase(first, last)` returns `last`. -/
structure StepOK [DecidableEq α] (cfg : Cfg α) (s : S α) (xs : List α) (op : Op α) (r : Ret) (s' : S α) : Prop where
  ret : r = specRet xs op ∨ ∃ a b, op = .eraseRange a b ∧ r = .num b
  post : Post cfg s s' xs (specStep cfg.dflt xs op)

theorem step_ok [DecidableEq α] {op : Op α} (hg : Good cfg) (hf : Fresh s.mem) (hl : Lucky cfg s.mem)
    (hx : VecOK cfg s.mem s.this xs) (hc : InContract cfg s.this.edge xs op) :
    Ok (step cfg op) s (StepOK cfg s xs op) := by
  obtain ⟨hp, hc⟩ := hc
  unfold step
  refine Ok.step (this_apply _) ?_
  cases op with
  | pushBack safe e a =>
    obtain ⟨h1, h2⟩ := hc
    obtain ⟨x, hv⟩ := Option.isSome_iff_exists.1 h1
    refine Ok.mono (noRet_ok (Ok.mono (pushBack_ok hg hp hf hl hx hv h2) (fun _ _ h => h.1))) ?_
    rintro r s' ⟨rfl, hp⟩
    exact ⟨.inl rfl, by simpa [specStep, hv] using hp⟩
  | insert safe e pos a =>
    obtain ⟨h1, h2, h3⟩ := hc
    obtain ⟨x, rfl⟩ := outside_val h2
    refine Ok.mono (numRet_ok (insertOne_ok hg hp hf hl hx h1 h3)) ?_
    rintro r s' ⟨rfl, hp⟩
    exact ⟨.inl rfl, hp⟩
  | insertN safe pos n a =>
    obtain ⟨h1, h2, h3, h4⟩ := hc
    obtain ⟨x, rfl⟩ := outside_val h3
    refine Ok.mono (numRet_ok (insertN_ok hg hp hf hl hx h1 h2 h4)) ?_
    rintro r s' ⟨rfl, hp⟩
    exact ⟨.inl rfl, by simpa [specStep, Arg.val] using hp⟩
  | insertRange safe pos src =>
    obtain ⟨h1, h2, h3⟩ := hc
    refine Ok.mono (numRet_ok (insertRange_ok hg hp hf hl hx h1 h2 h3)) ?_
    rintro r s' ⟨rfl, hp⟩
    exact ⟨.inl rfl, hp⟩
  | erase pos =>
    refine Ok.mono (numRet_ok (Ok.mono (erase_ok hg hx hc) (fun _ _ h => ⟨h.1, h.2.1⟩))) ?_
    rintro r s' ⟨rfl, hp⟩
    exact ⟨.inl rfl, hp⟩
  | eraseRange a b =>
    refine Ok.mono (numRet_ok (Ok.mono (eraseRange_ok hg hx hc.1 hc.2) (fun _ _ h => ⟨h.1, h.2.1⟩))) ?_
    rintro r s' ⟨rfl, hp⟩
    exact ⟨.inr ⟨a, b, rfl, rfl⟩, hp⟩
  | eraseValue a =>
    obtain ⟨x, rfl⟩ := outside_val hc
    refine Ok.mono (numRet_ok (Ok.mono (eraseValue_ok hp hx) (fun _ _ h => ⟨h.1, h.2.1⟩))) ?_
    rintro r s' ⟨rfl, hp⟩
    refine ⟨.inl ?_, ?_⟩
    · simp [specRet, Arg.val]
    · simpa [specStep, Arg.val] using hp
  | eraseIf p =>
    refine Ok.mono (numRet_ok (Ok.mono (eraseIf_ok hp hx) (fun _ _ h => ⟨h.1, h.2.1⟩))) ?_
    rintro r s' ⟨rfl, hp⟩
    exact ⟨.inl rfl, hp⟩
  | popBack =>
    refine Ok.mono (noRet_ok (Ok.mono (popBack_ok hx hc) (fun _ _ h => h.1))) ?_
    rintro r s' ⟨rfl, hp⟩
    exact ⟨.inl rfl, hp⟩
  | resize n =>
    refine Ok.mono (noRet_ok (resize_ok hg hf hl hx (Fits.lt hc))) ?_
    rintro r s' ⟨rfl, hp⟩
    exact ⟨.inl rfl, hp⟩
  | resizeValue n a =>
    obtain ⟨h1, h2⟩ := hc
    obtain ⟨x, rfl⟩ := outside_val h1
    refine Ok.mono (noRet_ok (resize_ok hg hf hl hx (Fits.lt h2))) ?_
    rintro r s' ⟨rfl, hp⟩
    exact ⟨.inl rfl, by simpa [specStep, Arg.val] using hp⟩
  | resizeRaw l =>
    refine Ok.mono (noRet_ok (resizeRaw_ok hg hf hl hx (Fits.lt hc))) ?_
    rintro r s' ⟨rfl, hp⟩
    exact ⟨.inl rfl, hp⟩
  | assignN n a =>
    obtain ⟨h1, h2, h3⟩ := hc
    obtain ⟨x, rfl⟩ := outside_val h2
    refine Ok.mono (noRet_ok (assignN_ok hg hl hx h3.lt h1)) ?_
    rintro r s' ⟨rfl, hp⟩
    exact ⟨.inl rfl, by simpa [specStep, Arg.val] using hp⟩
  | assignRange src =>
    obtain ⟨h1, h2, h3⟩ := hc
    refine Ok.mono (noRet_ok (assignRange_ok hg hl hx h3.lt h1 h2)) ?_
    rintro r s' ⟨rfl, hp⟩
    exact ⟨.inl rfl, hp⟩
  | clear =>
    refine Ok.mono (noRet_ok (Ok.mono (clear_ok hx) (fun _ _ h => h.1))) ?_
    rintro r s' ⟨rfl, hp⟩
    exact ⟨.inl rfl, hp⟩
  | reserve n =>
    refine Ok.mono (noRet_ok (Ok.mono (reserve_ok hg hf hl hx (Fits.lt hc)) (fun _ _ h => h.1))) ?_
    rintro r s' ⟨rfl, hp⟩
    exact ⟨.inl rfl, hp⟩
  | shrinkToFit =>
    refine Ok.mono (noRet_ok (Ok.mono (shrinkToFit_ok hg hf hl hx) (fun _ _ h => h.1))) ?_
    rintro r s' ⟨rfl, hp⟩
    exact ⟨.inl rfl, hp⟩
  | fill safe n l =>
    refine Ok.mono (noRet_ok (fill_ok hg hf hl hx hc.1 hc.2)) ?_
    rintro r s' ⟨rfl, hp⟩
    exact ⟨.inl rfl, hp⟩
  | writeBuffer safe l =>
    refine Ok.mono (noRet_ok (writeBuffer_ok hg hf hl hx hc.1 hc.2)) ?_
    rintro r s' ⟨rfl, hp⟩
    exact ⟨.inl rfl, hp⟩
  | set i x =>
    refine Ok.mono (noRet_ok (Ok.mono (setAt_ok hx hc) (fun _ _ h => h.1))) ?_
    rintro r s' ⟨rfl, hp⟩
    exact ⟨.inl rfl, hp⟩

/-! ### Constructors and assignment -/

theorem nullVecOK (m : Mem α) : VecOK cfg m nullVec [] := .inl ⟨rfl, rfl⟩

theorem ctorSized_ok {n : Nat} {x : α} (hg : Good cfg) (hl : Lucky cfg s.mem) (hv : s.this = nullVec)
    (hn : n * cfg.size < 2 ^ 63) :
    Ok (ctorSized cfg n (.ext x)) s (fun _ s' => Post cfg s s' [] (List.replicate n x)) := by
  unfold ctorSized coreSized
  by_cases h0 : 0 < n
  · have e : (do
        assert cfg (decide (n ≤ n)) "size should be smaller than cap"
        if 0 < n then do
          allocate cfg n
          let v ← this
          setThis { v with fin := n }
        else setThis nullVec : V α Unit) s = (.ok (), { s.grown n with this := ⟨some s.mem.next, n, n⟩ }) := by
      rw [bind_ok (assert_true (by simp) _), if_pos h0, bind_ok (allocate_ok hg hl hn h0), bind_ok (this_apply _)]
      rfl
    refine Ok.step e (Ok.step (this_apply _) ?_)
    rw [doIf_pos (decide_eq_true h0)]
    simp only [Vec.startPtr]
    refine Ok.intro (constructRange_ok (i := 0) (B := ⟨n, fun _ => .raw⟩) (by exact grown_heap s n) (by simp) h0 x) ?_
    have := (Freed.null (cfg := cfg) hv).renew (n := n) (c := n) (l := List.replicate n x) h0 hn (by simp) (fun _ => by simp)
    simpa [S.put, S.grown] using this
  · have e : (do
        assert cfg (decide (n ≤ n)) "size should be smaller than cap"
        if 0 < n then do
          allocate cfg n
          let v ← this
          setThis { v with fin := n }
        else setThis nullVec : V α Unit) s = (.ok (), s) := by
      rw [bind_ok (assert_true (by simp) _), if_neg h0, setThis_apply, ← hv]
    refine Ok.step e (Ok.step (this_apply _) ?_)
    rw [doIf_neg (decide_eq_false h0)]
    have : n = 0 := by omega
    subst this
    exact Ok.ret (Post.refl (by rw [hv]; exact nullVecOK _))

theorem ctorRange_ok {src : Source α} (hg : Good cfg) (hl : Lucky cfg s.mem) (hv : s.this = nullVec)
    (hn : src.list.length * cfg.size < 2 ^ 63) (hs : src.Copied cfg) :
    Ok (ctorRange cfg src) s (fun _ s' => Post cfg s s' [] src.list) := by
  have hmax : src.list.length ≤ maxSize cfg := by
    unfold maxSize
    rw [Nat.le_div_iff_mul_le hg.1]
    omega
  unfold ctorRange
  refine Ok.step (setThis_apply _ _) ?_
  rw [← hv]
  refine Ok.step (assert_true (by simpa using hmax) _) ?_
  by_cases h0 : 0 < src.list.length
  · rw [if_pos h0]
    refine Ok.step (allocate_ok (s := { s with this := s.this }) hg hl hn h0) ?_
    refine Ok.step (this_apply _) ?_
    simp only [Vec.startPtr]
    obtain ⟨c, hc, hcopy⟩ := copyFromIterator_ok (s := { s.grown src.list.length with
      this := ⟨some s.mem.next, s.this.fin, src.list.length⟩ }) (B := ⟨src.list.length, fun _ => .raw⟩)
      (b := s.mem.next) (i := 0) hg (grown_heap s _) (by simp) (fun h => by rw [h] at h0; simp at h0) hs
    refine Ok.step hcopy ?_
    refine Ok.intro (setThis_apply _ _) ?_
    exact (Freed.null (cfg := cfg) hv).renew h0 hn (Nat.le_refl _) hc
  · rw [if_neg h0]
    have : src.list = [] := List.length_eq_zero_iff.1 (by omega)
    rw [this]
    exact Ok.ret (Post.refl (s := s) (by rw [hv]; exact nullVecOK _))

theorem over_live {B D : Block α} (hok : BlockOK cfg B ys) :
    over D 0 ys.length B.cell = over D 0 ys.length (cellOf ys) := by
  refine Block.ext' rfl (fun j => ?_)
  simp only [over]
  split
  · rw [hok.live _ (by omega)]
  · rfl

theorem coreCopy_ok {u : Vec} (hg : Good cfg) (hk : cfg.kind ≠ .reloc) (hf : Fresh s.mem) (hl : Lucky cfg s.mem) (hv : s.this = nullVec)
    (hu : VecOK cfg s.mem u ys) :
    Ok (coreCopy cfg u) s (fun _ s' => Post cfg s s' [] ys) := by
  unfold coreCopy
  have hfin := hu.fin_eq
  rw [hfin]
  by_cases h0 : 0 < ys.length
  · have hu' := hu
    rcases hu with ⟨rfl, rfl⟩ | ⟨b, B, rfl, hB, hok⟩
    · simp at h0
    · have hbn := hu'.start_lt hf (b := b) rfl
      have hn : ys.length * cfg.size < 2 ^ 63 := by
        have := hok.bound
        have := Nat.mul_le_mul_right cfg.size hok.le
        omega
      rw [if_pos h0]
      refine Ok.step (allocate_ok hg hl hn h0) ?_
      refine Ok.step (this_apply _) ?_
      simp only [Vec.startPtr]
      obtain ⟨c, hc, hcopy⟩ := copyRange_ok (s := { s.grown ys.length with this := ⟨some s.mem.next, s.this.fin, ys.length⟩ })
        (d := s.mem.next) (b := b) (n := ys.length) (D := ⟨ys.length, fun _ => .raw⟩) (B := B) hk (by omega)
        (grown_heap s _) (by simp only [S.grown, upd]; rw [if_neg (by omega), hB]) h0 (Nat.le_refl _) hok.le (hok.liveOn (by omega))
      refine Ok.step hcopy ?_
      refine Ok.intro (setThis_apply _ _) ?_
      rw [over_live hok]
      exact (Freed.null (cfg := cfg) hv).renew h0 hn (Nat.le_refl _) hc
  · rw [if_neg h0]
    have : ys = [] := List.length_eq_zero_iff.1 (by omega)
    subst this
    refine Ok.intro (setThis_apply _ _) ?_
    rw [← hv]
    exact Post.refl (s := s) (by rw [hv]; exact nullVecOK _)

theorem coreCopyAssign_ok {u : Vec} (hg : Good cfg) (hk : cfg.kind ≠ .reloc) (hf : Fresh s.mem) (hl : Lucky cfg s.mem)
    (hx : VecOK cfg s.mem s.this xs) (hu : VecOK cfg s.mem u ys)
    (hsep : ∀ b, u.start = some b → s.this.start ≠ some b) :
    Ok (coreCopyAssign cfg u) s (fun _ s' => Post cfg s s' xs ys) := by
  unfold coreCopyAssign
  refine Ok.step (this_apply _) ?_
  have hfin := hu.fin_eq
  rw [hfin]
  by_cases hd : ys.length > s.this.edge
  · simp only [if_pos hd]
    obtain ⟨s0, s1, e0, e1, hF, -⟩ := destroyFree_ok hx
    refine Ok.step e0 (Ok.step e1 ?_)
    have hu' := hu
    rcases hu with ⟨rfl, rfl⟩ | ⟨b, B, rfl, hB, hok⟩
    · simp at hd
    · have h0 : 0 < ys.length := by omega
      have hbn := hu'.start_lt hf (b := b) rfl
      have hn : ys.length * cfg.size < 2 ^ 63 := by
        have := hok.bound
        have := Nat.mul_le_mul_right cfg.size hok.le
        omega
      refine Ok.step (allocate_ok hg (hF.lucky hl) hn h0) ?_
      refine Ok.step (this_apply _) ?_
      have hnx := hF.next
      have hB1 : s1.mem.heap b = some B := by rw [hF.other b (hsep b rfl), hB]
      simp only [Vec.startPtr]
      obtain ⟨c, hc, hcopy⟩ := copyRange_ok (s := { s1.grown ys.length with this := ⟨some s1.mem.next, s1.this.fin, ys.length⟩ })
        (d := s1.mem.next) (b := b) (n := ys.length) (D := ⟨ys.length, fun _ => .raw⟩) (B := B) hk (by omega)
        (grown_heap s1 _) (by simp only [S.grown, upd]; rw [if_neg (by omega), hB1]) h0 (Nat.le_refl _) hok.le (hok.liveOn (by omega))
      refine Ok.step hcopy ?_
      refine Ok.intro (setThis_apply _ _) ?_
      rw [over_live hok]
      exact hF.renew h0 hn (Nat.le_refl _) hc
  · simp only [if_neg hd]
    obtain ⟨s0, e0, h⟩ := destroyAll_ok hx
    have e0' : destroyRange cfg s.this.startPtr s.this.fin s = (.ok (), s0) := by
      unfold destroyAll at e0
      rw [bind_ok (this_apply _), bind_ok (assert_true (by have := hx.fin_le; rw [hx.fin_eq]; simpa using this) _)] at e0
      exact e0
    refine Ok.step e0' ?_
    by_cases h0 : 0 < ys.length
    · rw [if_pos h0]
      rcases h with ⟨rfl, hv, rfl⟩ | ⟨b', B', hv, hB', rfl⟩
      · rw [hv] at hd; exact absurd h0 hd
      · rcases hu with ⟨rfl, rfl⟩ | ⟨b, B, rfl, hB, hok⟩
        · simp at h0
        · have hne : b' ≠ b := fun e => hsep b rfl (by rw [hv, e])
          rw [hv] at hd ⊢
          simp only [Vec.startPtr] at hd ⊢
          obtain ⟨c, hc, hcopy⟩ := copyRange_ok (cfg := cfg) (n := ys.length) (D := B') (B := B) hk hne
            (put_same (s := s) b' B' 0 (dtorsOf cfg.kind xs.length) 0) (by rw [put_other (Ne.symm hne), hB]) h0 (by omega)
            hok.le (hok.liveOn (by omega))
          refine Ok.step hcopy ?_
          refine Ok.intro (setThis_apply _ _) ?_
          rw [over_live hok]
          exact Post.refill hv hB' (by omega) hc
    · rw [if_neg h0]
      have : ys = [] := List.length_eq_zero_iff.1 (by omega)
      subst this
      refine Ok.intro (setThis_apply _ _) ?_
      rcases h with ⟨rfl, hv, rfl⟩ | ⟨b', B', hv, hB', rfl⟩
      · have e : ({ s0 with this := { s0.this with fin := 0 } } : S α) = s0 := by
          cases s0; simp only at hv; subst hv; rfl
        rw [e]
        exact Post.refl hx
      · simp only [hv]
        exact Post.inplace (cfg := cfg) (s := s) (xs := xs) (ys := []) (b := b') (c := 0) (d := dtorsOf cfg.kind xs.length)
          (m := 0) (by rw [hv]) hB' (fun hk' => by rw [dtorsOf_eq hk']; simp) (fun _ => rfl)

end Verif.Vector
