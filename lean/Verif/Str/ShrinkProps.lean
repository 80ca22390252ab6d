import Verif.Str.GrowProps

/-!
C136: `shrink_to_fit` gives back the spare room.
-/

namespace Verif.Str

open M

variable {β γ : Type} {cfg : Cfg} {a : Abs} {s s' : St} {xs : List Ch} {v B : Nat} {o : Obj}

/-- The string `o` has room for at most `B` characters. -/
def CapLe (cfg : Cfg) (o : Obj) (B : Nat) (s : St) : Prop := ∃ ob, s.vars o = some ob ∧ ob.core.cap cfg ≤ B

/-- `x`, if it succeeds, gives the string `o` room for at most `B` characters if it had no more before. -/
def Tight (cfg : Cfg) (o : Obj) (B : Nat) (x : M β) : Prop :=
  ∀ s, CapLe cfg o B s → Tri x s (fun _ s' => CapLe cfg o B s') (fun _ _ => True)

theorem Tight.bind {x : M β} {f : β → M γ} (hx : Tight cfg o B x) (hf : ∀ b, Tight cfg o B (f b)) : Tight cfg o B (x >>= f) :=
  fun s hs => Tri.bind (hx s hs) fun b s1 h1 => hf b s1 h1

theorem Tight.ite {p : Prop} [Decidable p] {x y : M β} (hx : p → Tight cfg o B x) (hy : ¬ p → Tight cfg o B y) :
    Tight cfg o B (if p then x else y) := by
  split
  · next h => exact hx h
  · next h => exact hy h

theorem Still.tight {x : M β} (h : Still x) : Tight cfg o B x := by
  intro s hs
  have := h s
  unfold Tri
  rcases e : x s with ⟨r, s1⟩
  rw [e] at this
  cases this
  cases r
  · trivial
  · exact hs

theorem writeCells_tight (p : Ptr) (cs : List Cell) : Tight cfg o B (writeCells p cs) := by
  rintro s ⟨ob, h1, h2⟩
  refine (write_core (cfg := cfg) h1).mono ?_ (fun _ _ _ => trivial)
  rintro _ s1 ⟨ob', e1, _, e3, _⟩
  exact ⟨ob', e1, e3 ▸ h2⟩

theorem podCopy_tight (p : Ptr) (n : Nat) (q : Ptr) : Tight cfg o B (podCopy cfg p n q) := by
  unfold podCopy
  refine Tight.ite (fun _ => ?_) (fun _ => (readCells_still p n).tight.bind fun _ => writeCells_tight _ _)
  split
  · exact (Still.fail _).tight
  · exact (Still.ub _).tight

theorem doIf_tight {b : Bool} {x : M Unit} (hx : Tight cfg o B x) : Tight cfg o B (doIf b x) := by
  cases b
  · exact (Still.pure _).tight
  · exact hx

theorem setCore_tight {c : Core} (hc : c.cap cfg ≤ B) : Tight cfg o B (setCore o c) := by
  rintro s ⟨ob, h1, _⟩
  exact Tri.of_ok (setCore_ok h1) ⟨_, upd_same _ _ _, hc⟩

theorem alloc_tight (al : Nat) (hdr : Bool) (bytes : Nat) : Tight cfg o B (alloc cfg al hdr bytes) := by
  rintro s ⟨ob, h1, h2⟩
  unfold Tri alloc
  by_cases h3 : (cfg.arena && cfg.dbg && al == 0) = true
  · rw [if_pos h3]; trivial
  · rw [if_neg h3]
    by_cases h4 : cfg.malloc s.next bytes = true
    · rw [if_pos h4]; exact ⟨ob, h1, h2⟩
    · rw [if_neg h4]; trivial

theorem initData_tight (hc : cfg.Ok) (al : Nat) (p : Ptr) {n : Nat} (hm : cfg.ms ≤ B) (hn : n ≤ B) : Tight cfg o B (initData cfg o al p n) := by
  have hw := hc.wpos
  unfold initData
  refine Tight.ite (fun _ => ?_) fun _ => Tight.ite (fun h => ?_) fun _ => ?_
  · unfold initSmall setSmallSize
    refine (doIf_tight (podCopy_tight _ _ _)).bind fun _ => (assert_still _ _).tight.bind fun _ => ?_
    refine Tight.bind (Still.tight ?_) fun ob => Tight.ite (fun _ => setCore_tight hm) fun _ => (Still.ub _).tight
    intro s; unfold getOb; split <;> rfl
  · unfold initMedium
    refine (alloc_tight _ _ _).bind fun b => (doIf_tight (podCopy_tight _ _ _)).bind fun _ => ?_
    refine (setCore_tight ?_).bind fun _ => writeCells_tight _ _
    show mul64 (add64 1 n) cfg.w / cfg.w - 1 ≤ B
    have h1 : mul64 (add64 1 n) cfg.w ≤ (1 + n) * cfg.w :=
      Nat.le_trans (Nat.mod_le _ _) (Nat.mul_le_mul_right _ (Nat.mod_le _ _))
    have h2 := Nat.div_le_div_right (c := cfg.w) h1
    rw [Nat.mul_div_cancel _ hw] at h2
    omega
  · intro s hs
    unfold initLarge
    refine Tri.bind (R := fun r s' => CapLe cfg o B s' ∧ r.2 ≤ B) ?_ ?_
    · unfold create
      refine Tri.bind (R := fun b s' => CapLe cfg o B s' ∧ b = (n + 1) * cfg.w + 8) ?_ ?_
      · unfold largeBytes
        split
        · split
          · exact Tri.ret ⟨hs, rfl⟩
          · trivial
        · trivial
      · rintro _ s1 ⟨h1, rfl⟩
        refine Tri.bind (alloc_tight _ _ _ s1 h1) fun b s2 h2 => Tri.ret ⟨h2, ?_⟩
        show ((n + 1) * cfg.w + 8 - 8) / cfg.w - 1 ≤ B
        rw [Nat.add_sub_cancel, Nat.mul_div_cancel _ hw]
        omega
    · rintro ⟨b, cap⟩ s1 ⟨h1, h2⟩
      exact ((doIf_tight (podCopy_tight _ _ _)).bind fun _ => (setCore_tight h2).bind fun _ => writeCells_tight _ _) s1 h1

theorem initCheck_still (p : Ptr) (n : Nat) : Still (initCheck cfg o p n) := by
  unfold initCheck
  refine (size_still o).bind fun _ => (assert_still _ _).bind fun _ => Still.ite ?_ (Still.pure _)
  exact (dataPtr_still o).bind fun _ => (readCells_still _ _).bind fun _ => (readCells_still _ _).bind fun _ => assert_still _ _

theorem ctorData_cap (hc : cfg.Ok) (al : Nat) (p : Ptr) {n : Nat} :
    Tri (ctorData cfg o al p n) s (fun _ s' => CapLe cfg o (max cfg.ms n) s') (fun _ _ => True) := by
  unfold ctorData construct
  refine Tri.bind (R := fun _ s' => CapLe cfg o (max cfg.ms n) s') ?_ ?_
  · unfold Tri newOb
    cases s.vars o with
    | some _ => trivial
    | none =>
      by_cases h3 : (cfg.arena && cfg.dbg && al == 0) = true
      · simp only; rw [if_pos h3]; trivial
      · simp only; rw [if_neg h3]; exact ⟨_, upd_same _ _ _, Nat.le_max_left _ _⟩
  · intro _ s1 h1
    have := ((initData_tight (o := o) hc al p (Nat.le_max_left cfg.ms n) (Nat.le_max_right _ _)).bind fun _ => (initCheck_still (cfg := cfg) (o := o) p n).tight) s1 h1
    unfold Tri constructing at *
    revert this
    generalize (do initData cfg o al p n; initCheck cfg o p n : M Unit) s1 = r
    obtain ⟨r, s2⟩ := r
    intro this
    cases r with
    | ok _ => exact this
    | error f => cases f <;> trivial

/-- `swap` with a temporary gives the string the room of the temporary. -/
theorem swapTemp_cap {t u : Obj} {cs cs' : List Cell} (hw : WInv cfg s) (ht : Raw cfg s t cs) (hv : Raw cfg s u cs') (htv : t ≠ u)
    (h : CapLe cfg t B s) : Tri (withTemp cfg t (swap t u)) s (fun _ s' => CapLe cfg u B s') (fun _ _ => True) := by
  obtain ⟨ob, l, n, h1, rfl⟩ := ht
  obtain ⟨ob2, l2, n2, h2, rfl⟩ := hv
  obtain ⟨ob', g1, g2⟩ := h
  cases h1.var.symm.trans g1
  obtain ⟨s1, e1, e2, e3, e4, e5, e6, e7, e8, e9⟩ := swap_holds hw h1 h2 htv
  obtain ⟨s2, f1, f2, f3, f4, f5, f6, f7⟩ := destroy_ok e2 e4.var
  unfold withTemp
  refine Tri.of_ok (b := ()) (s' := s2) ?_ ⟨_, (f3.holds (Ne.symm htv) e5).var, g2⟩
  rw [e1]; simp only [f1]

/-- What `shrinkToFit` leaves. -/
theorem shrinkToFit_cap (hc : cfg.Ok) (ha : cfg.arena = false) (hw : WInv cfg s) (h5 : s.vars (.tmp 5) = none) {ob : Ob} {l : List Cell} {k : Nat}
    (h : Holds cfg s o ob l k) :
    Tri (shrinkToFit cfg o) s (fun _ s' => s' = s ∧ (∃ c, capacity cfg o s = (.ok c, s) ∧ c < k * 3 / 2) ∨ CapLe cfg o (max cfg.ms k) s') (fun _ _ => True) := by
  unfold shrinkToFit
  rw [if_neg (by simp [ha])]
  obtain ⟨c, d1, d2, _⟩ := h.capM hw
  refine Tri.step d1 (Tri.step h.sizeM ?_)
  have hv0 : Raw cfg s o (l.take k) := ⟨ob, l, k, h, rfl⟩
  have htv := hv0.ne_of_none h5
  have hb := h.bound hw
  split
  · next h3 => exact Tri.ret (Or.inl ⟨rfl, c, d1, Nat.lt_of_lt_of_le h3 (Nat.div_le_div_right (Nat.mod_le _ _))⟩)
  refine Tri.step h.dataM ?_
  have hrd := h.read0 (k := k) (by omega)
  refine Tri.bind (((ctorData_tri hc hw h5 (al := 0) (by simpa using ha) hrd).and (ctorData_cap (s := s) (o := .tmp 5) hc 0 _)).mono (fun _ _ h => h) (fun _ _ _ => trivial)) ?_
  rintro _ s1 ⟨⟨w1, f1, p, o1⟩, g1⟩
  exact (swapTemp_cap w1 o1.raw (f1.raw (Ne.symm htv) hv0) htv g1).mono (fun _ _ h => Or.inr h) (fun _ _ _ => trivial)

/-- C136: after `shrink_to_fit()` a `string` has room for at most half as many characters again as it has, or for what
the object itself holds. -/
theorem shrink_to_fit_partial (hc : cfg.Ok) (ha : cfg.arena = false) (h : Reach cfg a s) (hv : a v = some xs)
    (hr : (Op.shrinkToFit v).run cfg s = (.ok (), s')) :
    ∃ c, capacity cfg (.user v) s' = (.ok c, s') ∧ xs.length ≤ c ∧ c ≤ max cfg.ms (xs.length * 3 / 2) := by
  have hrel := (reach_rel hc h).1
  obtain ⟨ob, l, g, _⟩ := h.holds hc hv
  have h1 := shrinkToFit_cap hc ha hrel.inv (hrel.tmps 5) g
  have ho : (Op.shrinkToFit v).spec cfg.arena a = some (.done (upd a v (some xs))) := by
    have : xs.length < M64 := by
      have := g.short hc hrel.inv
      show _ < 18446744073709551616
      omega
    simp [Op.spec, hv, Abs.set, this]
  have hn := h.done ho hr
  have hrel' := (reach_rel hc hn).1
  obtain ⟨ob2, l2, g2, _⟩ := hn.holds hc (v := v) (upd_same _ _ _)
  obtain ⟨c, d1, d2, d3, _⟩ := g2.capM hrel'.inv
  simp only [Op.run] at hr
  simp only [Tri, hr] at h1
  refine ⟨c, d1, d2, ?_⟩
  rcases h1 with ⟨rfl, c', e1, e2⟩ | ⟨ob3, e1, e2⟩
  · rw [d1] at e1
    cases e1
    omega
  · cases g2.var.symm.trans e1
    omega

/-- `n` characters and room for `m`. -/
def spare (al n m : Nat) : List Op := [.make 0 al (.lit (List.replicate n 97)), .reserve 0 m]

-- two characters go back into the object (not so in debug builds, see `Cfg.sso`), more get exactly what they need;
-- where less than half is spare it stays
example : ∀ dbg ∈ [false, true], ∀ q ∈ [(2, if dbg then 2 else 23), (30, 30), (60, 60), (40, 40), (41, 60)],
    (capacity (heapCfg dbg) (.user 0) (runOk (heapCfg dbg) (spare 0 q.1 60) St.init).2).1 = .ok 60 ∧
    (capacity (heapCfg dbg) (.user 0) (runOk (heapCfg dbg) (spare 0 q.1 60 ++ [.shrinkToFit 0]) St.init).2).1 = .ok q.2 := by
  decide +kernel

/-- C136, the violation: on an `arena_string` `shrink_to_fit()` does nothing. -/
theorem shrink_to_fit_violated : ∀ dbg ∈ [false, true],
    (runOk (arenaCfg dbg) (spare 1 2 60 ++ [.shrinkToFit 0]) St.init).1 = .ok () ∧
    (size (arenaCfg dbg) (.user 0) (runOk (arenaCfg dbg) (spare 1 2 60 ++ [.shrinkToFit 0]) St.init).2).1 = .ok 2 ∧
    (capacity (arenaCfg dbg) (.user 0) (runOk (arenaCfg dbg) (spare 1 2 60 ++ [.shrinkToFit 0]) St.init).2).1 = .ok 60 := by
  decide +kernel

/-- C136, the violation in every state: an `arena_string` that was given room for `n` characters by `reserve(n)`, however
many it has, keeps it when told to `shrink_to_fit()`. -/
theorem shrink_to_fit_everywhere_violated (hc : cfg.Ok) (ha : cfg.arena = true) (h : Reach cfg a s) (hv : a v = some xs) {n : Nat}
    (hr : (Op.reserve v n).run cfg s = (.ok (), s')) :
    (Op.shrinkToFit v).run cfg s' = (.ok (), s') ∧
    ∃ c, capacity cfg (.user v) s' = (.ok c, s') ∧ n ≤ c := by
  refine ⟨?_, reserve_capacity hc h hv hr⟩
  simp only [Op.run, shrinkToFit, ha, if_true]
  rfl

example : ∀ dbg ∈ [false, true],
    (runOk (arenaCfg dbg) [.make 0 1 (.lit [97, 98]), .reserve 0 1000] St.init).1 = .ok () := by decide +kernel

end Verif.Str
