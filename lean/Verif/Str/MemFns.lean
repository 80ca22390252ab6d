import Verif.Str.CapsFns

/-!
How many blocks `expandNoinit` takes.
-/

namespace Verif.Str.Mem

open M Caps

variable {β γ : Type} {cfg : Cfg} {N K : Nat} {s s' : St} {v o : Obj}

/-- The object `o` has its characters in the block `N`, with room for at most `K`. -/
def Made (o : Obj) (N K : Nat) (s : St) : Prop :=
  ∃ k cap large al, s.vars o = some ⟨.ml N k cap large, al⟩ ∧ cap ≤ K

/-- No block has been taken since there were `N`, or one, in which `o` has its characters now. -/
def Took (o : Obj) (N K : Nat) (s : St) : Prop := s.next = N ∨ s.next = N + 1 ∧ Made o N K s

/-- An action that changes memory only. -/
def Plain (x : M β) : Prop := ∀ s, (x s).2.vars = s.vars ∧ (x s).2.next = s.next

theorem _root_.Verif.Str.Still.plain {x : M β} (h : Still x) : Plain x := fun s => by rw [h s]; exact ⟨rfl, rfl⟩

theorem Plain.bind {x : M β} {f : β → M γ} (hx : Plain x) (hf : ∀ b, Plain (f b)) : Plain (x >>= f) := by
  intro s
  have h1 := hx s
  rw [bind_apply]
  rcases e : x s with ⟨r, s1⟩
  rw [e] at h1
  cases r with
  | error _ => exact h1
  | ok b => exact ⟨(hf b s1).1.trans h1.1, (hf b s1).2.trans h1.2⟩

theorem Plain.ite {p : Prop} [Decidable p] {x y : M β} (hx : Plain x) (hy : Plain y) : Plain (if p then x else y) := by
  split
  · exact hx
  · exact hy

/-- An action that changes memory only, then another. -/
theorem Plain.then {x : M β} {f : β → M γ} {Q : γ → St → Prop} (h : Plain x)
    (hf : ∀ b s1, s1.vars = s.vars → s1.next = s.next → Ends (f b) s1 Q) : Ends (x >>= f) s Q := by
  refine Tri.bind (R := fun _ s1 => s1.vars = s.vars ∧ s1.next = s.next) (Ends.intro fun b s1 e => ?_) fun b s1 h1 => hf b s1 h1.1 h1.2
  have := h s
  rwa [e] at this

theorem Took.congr (h : Took o N K s) (h1 : s'.vars = s.vars) (h2 : s'.next = s.next) : Took o N K s' := by
  unfold Took Made at *
  rw [h1, h2]
  exact h

theorem Took.plain {x : M β} (h : Took o N K s) (hx : Plain x) : Ends x s fun _ s' => Took o N K s' :=
  Ends.intro fun b s1 e => by
    have := hx s
    rw [e] at this
    exact h.congr this.1 this.2

theorem writeCells_plain (d i : Nat) (cs : List Cell) : Plain (writeCells (.blk d i) cs) := by
  intro s
  unfold writeCells
  dsimp only
  split
  · split <;> exact ⟨rfl, rfl⟩
  · exact ⟨rfl, rfl⟩

theorem podCopy_plain (p : Ptr) (n d i : Nat) : Plain (podCopy cfg p n (.blk d i)) := by
  unfold podCopy
  refine Plain.ite ?_ ((readCells_still p n).plain.bind fun _ => writeCells_plain _ _ _)
  split
  · exact (Still.fail _).plain
  · exact (Still.ub _).plain

theorem copyBlk_plain (a b k : Nat) : Plain (copyBlk a b k) := (readCells_still _ _).plain.bind fun _ => writeCells_plain _ _ _

theorem dealloc_plain (al b : Nat) : Plain (dealloc cfg al b) := by
  intro s
  unfold dealloc
  repeat' split
  all_goals exact ⟨rfl, rfl⟩

theorem doIf_plain {x : M Unit} (b : Bool) (h : Plain x) : Plain (doIf b x) := by
  unfold doIf
  exact Plain.ite h (Still.pure _).plain

theorem setRefs_plain (b n : Nat) : Plain (setRefs b n) := by
  intro s
  unfold setRefs
  split <;> exact ⟨rfl, rfl⟩

theorem decrementRefs_plain (al b : Nat) : Plain (decrementRefs cfg al b) :=
  (refs_still b).plain.bind fun _ => (assert_still _ _).plain.bind fun _ => Plain.ite (Still.ub _).plain
    ((setRefs_plain _ _).bind fun _ => doIf_plain _ (dealloc_plain _ _))

theorem release_plain (t : Obj) : Plain (release cfg t) := by
  refine (getOb_still t).plain.bind fun ob => ?_
  cases ob.core with
  | small _ => exact (Still.pure _).plain
  | ml d k cap large => exact Plain.ite (Still.pure _).plain (Plain.ite (decrementRefs_plain _ _) (dealloc_plain _ _))

/-! ### Taking a block -/

/-- One block is taken. -/
def One (s : St) (b : Nat) (s' : St) : Prop := b = s.next ∧ s'.next = s.next + 1 ∧ s'.vars = s.vars

theorem alloc_one (al : Nat) (hdr : Bool) (bytes : Nat) : Ends (alloc cfg al hdr bytes) s fun b s' => One s b s' := by
  refine Ends.intro fun b s1 e => ?_
  unfold alloc at e
  repeat' split at e
  all_goals first
    | (cases e; exact ⟨rfl, rfl, rfl⟩)
    | cases e

theorem One.plain {b : Nat} {x : M β} (h : One s b s') (hx : Plain x) : Ends x s' fun _ s2 => One s b s2 :=
  Ends.intro fun _ s2 e => by
    have := hx s'
    rw [e] at this
    exact ⟨h.1, this.2.trans h.2.1, this.1.trans h.2.2⟩

theorem largeBytes_ends (n : Nat) : Ends (largeBytes cfg n) s fun _ s' => s' = s := by
  refine Ends.intro fun b s1 e => ?_
  unfold largeBytes at e
  repeat' split at e
  all_goals first
    | (cases e; rfl)
    | cases e

theorem create_one (hc : cfg.Ok) (al n : Nat) : Ends (create cfg al n) s fun r s' => One s r.1 s' ∧ r.2 = n := by
  have h : Ends (create cfg al n) s fun r s' => One s r.1 s' := by
    unfold create
    refine Tri.bind (largeBytes_ends n) ?_
    rintro bytes s1 rfl
    exact Tri.bind (alloc_one _ _ _) fun b s2 h2 => Tri.ret h2
  refine Ends.intro fun r s1 e => ⟨?_, create_cap hc e⟩
  unfold Ends Tri at h
  rw [e] at h
  exact h

theorem checkedRealloc_one (a : Nat) (hdr : Bool) (bytes : Nat) : Ends (checkedRealloc cfg a hdr bytes) s fun b s' => One s b s' := by
  refine Ends.intro fun b s1 e => ?_
  unfold checkedRealloc at e
  repeat' split at e
  all_goals first
    | (cases e; exact ⟨rfl, rfl, rfl⟩)
    | cases e

theorem smartRealloc_one (al a : Nat) (hdr : Bool) (cur cap new : Nat) :
    Ends (smartRealloc cfg al a hdr cur cap new) s fun b s' => One s b s' := by
  unfold smartRealloc
  refine Ends.look (assert_still _ _) fun _ _ => ?_
  split
  · exact Tri.bind (alloc_one _ _ _) fun b s1 h1 => Tri.bind (h1.plain (copyBlk_plain _ _ _)) fun _ s2 h2 =>
      Tri.bind (h2.plain (doIf_plain _ (dealloc_plain _ _))) fun _ s3 h3 => Tri.ret h3
  · split
    · exact Tri.bind (alloc_one _ _ _) fun b s1 h1 => Tri.bind (h1.plain (copyBlk_plain _ _ _)) fun _ s2 h2 =>
        Tri.bind (h2.plain (dealloc_plain _ _)) fun _ s3 h3 => Tri.ret h3
    · exact checkedRealloc_one _ _ _

theorem reallocate_one (hc : cfg.Ok) (al d k cap n : Nat) : Ends (reallocate cfg al d k cap n) s fun r s' => One s r.1 s' ∧ r.2 = n := by
  have h : Ends (reallocate cfg al d k cap n) s fun r s' => One s r.1 s' := by
    unfold reallocate
    refine Ends.look (assert_still _ _) fun _ _ => Tri.bind (largeBytes_ends n) ?_
    rintro bytes s1 rfl
    exact Ends.look (refs_still _) fun _ _ => Ends.look (assert_still _ _) fun _ _ => Tri.bind (smartRealloc_one _ _ _ _ _ _) fun b s2 h2 => Tri.ret h2
  refine Ends.intro fun r s1 e => ⟨?_, reallocate_cap hc e⟩
  unfold Ends Tri at h
  rw [e] at h
  exact h

/-- The object gets the block. -/
theorem One.core {b k cap : Nat} {large : Bool} (h : One s b s') (hcap : cap ≤ K) :
    Ends (setCore o (.ml b k cap large)) s' fun _ s2 => Took o s.next K s2 := by
  refine (setCore_ends _).imp ?_
  rintro _ s2 ⟨ob, _, rfl⟩
  obtain ⟨rfl, h1, _⟩ := h
  exact Or.inr ⟨h1, k, cap, large, ob.al, upd_same _ _ _, hcap⟩

theorem reserveSmall_took (hc : cfg.Ok) {n : Nat} (hn : n ≤ K) : Ends (reserveSmall cfg o n) s fun _ s' => Took o s.next K s' := by
  unfold reserveSmall
  refine Ends.obj fun ob hv => ?_
  by_cases h1 : (cfg.sso && decide (n ≤ cfg.ms)) = true
  · rw [if_pos h1]; exact Tri.ret (Or.inl rfl)
  rw [if_neg h1]
  by_cases h2 : n ≤ cfg.mm
  · rw [if_pos h2]
    refine Tri.bind (alloc_one _ _ _) fun b s1 o1 => Ends.look (size_still o) fun k _ => Tri.bind (o1.plain (podCopy_plain _ _ _ _)) fun _ s2 o2 => ?_
    exact o2.core (Nat.le_trans (cap_le hc n) hn)
  · rw [if_neg h2]
    refine Tri.bind (create_one hc _ _) ?_
    rintro ⟨b, cap⟩ s1 ⟨o1, rfl⟩
    refine Ends.look (size_still o) fun k _ => Tri.bind (o1.plain (podCopy_plain _ _ _ _)) fun _ s2 o2 => ?_
    exact Tri.bind (o2.core hn) fun _ s3 t3 => Ends.look (capacity_still o) fun _ _ => t3.plain (assert_still _ _).plain

theorem reserveLarge_took (hc : cfg.Ok) {n : Nat} (hn : n ≤ K) (hx : Excl s o) : Ends (reserveLarge cfg o n) s fun _ s' => Took o s.next K s' := by
  unfold reserveLarge
  refine Ends.obj fun ob hv => ?_
  obtain ⟨core, al⟩ := ob
  split
  · next d k cap hcore =>
    simp only at hcore; subst hcore
    obtain ⟨⟨rc, src, cells⟩, hB, hr⟩ := hx d k cap al hv
    have hr : rc = some 1 := hr
    subst hr
    refine Tri.step (show refs d s = (.ok 1, s) by simp only [refs, hB]) ?_
    rw [if_neg (by omega)]
    split
    · refine Tri.bind (reallocate_one hc _ _ _ _ _) ?_
      rintro ⟨b, cap'⟩ s1 ⟨o1, rfl⟩
      exact Tri.bind (o1.core hn) fun _ s2 t2 => Ends.look (capacity_still o) fun _ _ => t2.plain (assert_still _ _).plain
    · exact Ends.look (capacity_still o) fun _ _ => Took.plain (Or.inl rfl) (assert_still _ _).plain
  · split
    · exact Ends.fail _
    · exact Ends.ub _

theorem growNascent_took (hc : cfg.Ok) {t : Obj} {d k n : Nat} (hn : n ≤ K) (hne : t ≠ v) :
    Ends (growNascent cfg t v d k n) s fun _ s' => Took v s.next K s' := by
  unfold growNascent
  refine Tri.bind (reserveSmall_took hc hn) fun _ s1 t1 => Ends.obj fun ob hob => ?_
  obtain ⟨c1, al1⟩ := ob
  split
  · next b m cap large hcore =>
    simp only at hcore; subst hcore
    refine Tri.bind (setCore_ends _) ?_
    rintro _ s2 ⟨ob, _, rfl⟩
    refine (podCopy_plain _ _ _ _).then fun _ s3 e3 n3 => Tri.bind (swap_ends hne) ?_
    rintro _ s4 ⟨a, b', ha, hb, rfl⟩
    have t4 : Took v s.next K { s3 with vars := upd (upd s3.vars t (some ⟨b'.core, a.al⟩)) v (some ⟨a.core, b'.al⟩) } := by
      rcases t1 with t1 | ⟨t1, k', cap', large', al', h1, h2⟩
      · exact Or.inl (n3.trans t1)
      · rw [hob] at h1
        cases h1
        rw [e3] at ha
        simp only [upd_same] at ha
        cases ha
        exact Or.inr ⟨n3.trans t1, _, _, _, _, upd_same _ _ _, h2⟩
    exact Ends.look (capacity_still v) fun _ _ => t4.plain (assert_still _ _).plain
  · exact Ends.ub _

theorem reserveMedium_took (hc : cfg.Ok) {n : Nat} (hn : n ≤ K) : Ends (reserveMedium cfg v n) s fun _ s' => Took v s.next K s' := by
  unfold reserveMedium
  refine Ends.obj fun ob hv => ?_
  obtain ⟨core, al⟩ := ob
  split
  · next d k cap hcore =>
    simp only at hcore; subst hcore
    split
    · exact Tri.ret (Or.inl rfl)
    · split
      · exact Tri.bind (smartRealloc_one _ _ _ _ _ _) fun b s1 o1 => o1.core (Nat.le_trans (cap_le hc n) hn)
      · refine Tri.bind ctorEmpty_ends ?_
        rintro _ s1 ⟨h0, cells, rfl⟩
        have hne : Obj.tmp 0 ≠ v := by rintro rfl; rw [hv] at h0; cases h0
        refine Ends.withTemp ((growNascent_took hc hn hne).imp fun _ s2 t2 => ?_)
        unfold destroy
        refine (release_plain _).then fun _ s3 e3 n3 => ?_
        have t3 := t2.congr e3 n3
        rcases t3 with t3 | ⟨t3, k', cap', large', al', h1, h2⟩
        · exact Or.inl t3
        · exact Or.inr ⟨t3, k', cap', large', al', by show upd _ _ _ _ = _; rw [upd_other _ _ (Ne.symm hne)]; exact h1, h2⟩
  · split
    · exact Ends.fail _
    · exact Ends.ub _

theorem reserveCore_took (hc : cfg.Ok) {n : Nat} (hn : n ≤ K) (hx : Excl s v) : Ends (reserveCore cfg v n) s fun _ s' => Took v s.next K s' := by
  unfold reserveCore reserveBy
  refine Tri.bind (R := fun _ s' => Took v s.next K s') ?_ fun _ s1 t1 => Ends.look (capacity_still v) fun _ _ => t1.plain (assert_still _ _).plain
  refine Ends.obj fun ob _ => ?_
  split
  · exact reserveSmall_took hc hn
  · exact reserveMedium_took hc hn
  · exact reserveLarge_took hc hn hx

theorem expandTail_took (h : Took v N K s) {old new : Nat} : Ends (expandTail cfg v old new) s fun _ s' => Took v N K s' := by
  unfold expandTail
  refine Ends.look (capacity_still v) fun _ _ => Ends.look (assert_still _ _) fun _ _ => Ends.obj fun ob hv => ?_
  obtain ⟨core, al⟩ := ob
  split
  · next d k cap large hcore =>
    simp only at hcore; subst hcore
    refine Tri.bind (R := fun _ s1 => Took v N K s1) ((setCore_ends _).imp ?_) fun _ s1 t1 => Tri.bind (t1.plain (writeCells_plain _ _ _)) fun _ s2 t2 => Tri.ret t2
    rintro _ s1 ⟨ob, _, rfl⟩
    rcases h with h | ⟨h, k', cap', large', al', h1, h2⟩
    · exact Or.inl h
    · rw [hv] at h1
      cases h1
      exact Or.inr ⟨h, _, _, _, _, upd_same _ _ _, h2⟩
  · split
    · exact Ends.fail _
    · exact Ends.ub _

/-- `expandNoinit` takes at most one block, for the string, with room for at most half as much again as needed. -/
theorem expand_took (hc : cfg.Ok) (hx : Excl s v) {delta T : Nat} (hT : ∀ k, size cfg v s = (.ok k, s) → k + delta ≤ T) :
    Ends (expandNoinit cfg v delta true) s fun _ s' => Took v s.next (max (2 * cfg.ms) (1 + T * 3 / 2)) s' := by
  unfold expandNoinit
  refine Ends.look (capacity_still v) fun c hcap => Ends.look (size_still v) fun old hold => Ends.look (assert_still _ _) fun _ _ => Ends.obj fun ob hv => ?_
  obtain ⟨core, al⟩ := ob
  have hn : add64 old delta ≤ T := Nat.le_trans (add64_le _ _) (hT old hold)
  cases core with
  | small cells =>
    dsimp only
    by_cases hs : (cfg.sso && decide (add64 old delta ≤ cfg.ms)) = true
    · rw [if_pos hs]
      unfold setSmallSize
      refine Tri.bind (R := fun _ s1 => s1.next = s.next) ?_ fun _ s1 h1 => Tri.ret (Or.inl h1)
      refine Ends.look (assert_still _ _) fun _ _ => Ends.obj fun ob _ => ?_
      by_cases hn : add64 old delta ≤ cfg.ms
      · simp only [hn, if_true]
        refine (setCore_ends _).imp ?_
        rintro _ s1 ⟨_, _, rfl⟩
        rfl
      · simp only [hn, if_false]; exact Ends.ub _
    rw [if_neg hs]
    refine Tri.bind (reserveSmall_took hc ?_) fun _ s1 t1 => expandTail_took t1
    rw [if_pos rfl]
    omega
  | ml d m cap large =>
    dsimp only
    by_cases hlt : c < add64 old delta
    · rw [doIf_pos (by simpa using hlt)]
      refine Tri.bind (reserveCore_took hc ?_ hx) fun _ s1 t1 => expandTail_took t1
      have h3 := add64_le 1 (mul64 c 3 / 2)
      have h4 := mul64_le c 3
      rw [if_pos rfl]
      omega
    · rw [doIf_neg (by simpa using hlt)]
      exact Tri.step (pure_apply _ _) (expandTail_took (Or.inl rfl))

end Verif.Str.Mem
