import Verif.Str.Caps

/-!
How large the capacities of strings get: the functions that change objects.
-/

namespace Verif.Str.Caps

open M

variable {β γ : Type} {cfg : Cfg} {N K : Nat} {s s' : St} {v : Obj}

/-- An action, if it succeeds, leads to `Q`. -/
abbrev Ends (x : M β) (s : St) (Q : β → St → Prop) : Prop := Tri x s Q (fun _ _ => True)

theorem Ends.intro {x : M β} {Q : β → St → Prop} (h : ∀ b s', x s = (.ok b, s') → Q b s') : Ends x s Q := by
  unfold Ends Tri
  rcases e : x s with ⟨r, s1⟩
  cases r with
  | ok b => exact h b s1 e
  | error f => trivial

theorem Ends.fail {Q : β → St → Prop} (e : Fault) : Ends (M.fail e) s Q := trivial

theorem Ends.ub {Q : β → St → Prop} (w : String) : Ends (M.ub w) s Q := trivial

theorem Ends.imp {x : M β} {Q R : β → St → Prop} (h : Ends x s Q) (hr : ∀ b s', Q b s' → R b s') : Ends x s R :=
  h.mono hr fun _ _ _ => trivial

theorem Evenly.ends {x : M β} (h : Evenly N K x) : Ends x s fun _ s' => Even N K s s' :=
  Ends.intro fun b s' e => by have := h.keeps s; rwa [e] at this

/-- An even action, then another. -/
theorem Evenly.then {x : M β} {f : β → M γ} {Q : γ → St → Prop} (h : Evenly N K x)
    (hf : ∀ b s1, x s = (.ok b, s1) → Even N K s s1 → Ends (f b) s1 Q) : Ends (x >>= f) s Q := by
  refine Tri.bind (R := fun b s1 => x s = (.ok b, s1) ∧ Even N K s s1) (Ends.intro fun b s1 e => ⟨e, ?_⟩) fun b s1 h1 => hf b s1 h1.1 h1.2
  have := h.keeps s
  rwa [e] at this

/-- Reading, then another action. -/
theorem Ends.look {x : M β} {f : β → M γ} {Q : γ → St → Prop} (h : Still x) (hf : ∀ b, x s = (.ok b, s) → Ends (f b) s Q) :
    Ends (x >>= f) s Q := by
  refine Tri.bind (R := fun b s1 => x s = (.ok b, s1)) (Ends.intro fun b s1 e => e) fun b s1 h1 => ?_
  have := h s
  rw [h1] at this
  cases this
  exact hf b h1

theorem Ends.obj {f : Ob → M γ} {Q : γ → St → Prop} (hf : ∀ ob, s.vars v = some ob → Ends (f ob) s Q) : Ends (getOb v >>= f) s Q := by
  refine Ends.look (getOb_still v) fun ob e => hf ob ?_
  unfold getOb at e
  split at e
  · next h => cases e; exact h
  · cases e

theorem Ends.noexcept {x : M β} {Q : β → St → Prop} (h : Ends x s Q) : Ends (noexcept x) s Q := by
  unfold Ends Tri Str.noexcept at *
  rcases e : x s with ⟨r, s1⟩
  rw [e] at h
  cases r with
  | ok b => exact h
  | error f => cases f <;> trivial

theorem Ends.noexceptIf {c : Bool} {x : M β} {Q : β → St → Prop} (h : Ends x s Q) : Ends (noexceptIf c x) s Q := by
  unfold Str.noexceptIf
  split
  · exact h.noexcept
  · exact h

theorem Ends.constructing {x : M Unit} {Q : Unit → St → Prop} (h : Ends x s Q) : Ends (constructing v x) s Q := by
  unfold Ends Tri Str.constructing at *
  rcases e : x s with ⟨r, s1⟩
  rw [e] at h
  cases r with
  | ok b => exact h
  | error f => cases f <;> trivial

theorem Ends.building {x : M Unit} {Q : Unit → St → Prop} (h : Ends x s Q) : Ends (building cfg v x) s Q := by
  unfold Ends Tri Str.building at *
  rcases e : x s with ⟨r, s1⟩
  rw [e] at h
  cases r with
  | ok b => exact h
  | error f =>
    cases f with
    | throw w =>
      simp only
      rcases e1 : destroy cfg v s1 with ⟨r', s2⟩
      cases r' <;> trivial
    | _ => trivial

theorem Ends.withTemp {x : M β} {t : Obj} {Q : β → St → Prop}
    (h : Ends x s fun b s1 => Ends (destroy cfg t) s1 fun _ s2 => Q b s2) : Ends (withTemp cfg t x) s Q := by
  unfold Ends Tri Str.withTemp at *
  rcases e : x s with ⟨r, s1⟩
  rw [e] at h
  cases r with
  | ok b =>
    simp only at h ⊢
    rcases e1 : destroy cfg t s1 with ⟨r', s2⟩
    rw [e1] at h
    cases r' with
    | ok _ => exact h
    | error _ => trivial
  | error f =>
    cases f with
    | throw w =>
      simp only
      rcases e1 : destroy cfg t s1 with ⟨r', s2⟩
      cases r' <;> trivial
    | _ => trivial

theorem Ends.checker {x : M β} {Q : β → St → Prop} (h : Ends x s Q) : Ends (checker cfg v x) s Q := Tri.checked v h

/-! ### Numbers -/

theorem add64_le (a b : Nat) : add64 a b ≤ a + b := Nat.mod_le _ _

theorem mul64_le (a b : Nat) : mul64 a b ≤ a * b := Nat.mod_le _ _

theorem sub64_le {a b : Nat} (h : b ≤ a) : sub64 a b ≤ a - b := by
  unfold sub64
  rw [show a + M64 - b = a - b + M64 by omega, Nat.add_mod_right]
  exact Nat.mod_le _ _

theorem cap_le (hc : cfg.Ok) (n : Nat) : mul64 (add64 1 n) cfg.w / cfg.w - 1 ≤ n := by
  have h1 : mul64 (add64 1 n) cfg.w ≤ (1 + n) * cfg.w := Nat.le_trans (mul64_le _ _) (Nat.mul_le_mul_right _ (add64_le 1 n))
  have h2 := Nat.div_le_div_right (c := cfg.w) h1
  rw [Nat.mul_div_cancel _ hc.wpos] at h2
  omega

theorem largeBytes_cap (hc : cfg.Ok) {n bytes : Nat} (h : largeBytes cfg n s = (.ok bytes, s')) : (bytes - 8) / cfg.w - 1 = n := by
  unfold largeBytes at h
  repeat' split at h
  · cases h
    rw [Nat.add_sub_cancel, Nat.mul_div_cancel _ hc.wpos]
    rfl
  · cases h
  · cases h

theorem create_cap (hc : cfg.Ok) {al n : Nat} {r : Nat × Nat} (h : create cfg al n s = (.ok r, s')) : r.2 = n := by
  have : Ends (create cfg al n) s fun r _ => r.2 = n := by
    unfold create
    refine Evenly.then (N := 0) (K := 0) (largeBytes_even n) fun bytes s1 e _ => Evenly.then (N := 0) (K := 0) (alloc_even _ _ _) fun b s2 _ _ => ?_
    exact Tri.ret (largeBytes_cap hc e)
  unfold Ends Tri at this
  rw [h] at this
  exact this

theorem reallocate_cap (hc : cfg.Ok) {al d k cap n : Nat} {r : Nat × Nat} (h : reallocate cfg al d k cap n s = (.ok r, s')) : r.2 = n := by
  have : Ends (reallocate cfg al d k cap n) s fun r _ => r.2 = n := by
    unfold reallocate
    refine Evenly.then (N := 0) (K := 0) (Evenly.of_still (assert_still _ _)) fun _ s1 _ _ => ?_
    refine Evenly.then (N := 0) (K := 0) (largeBytes_even n) fun bytes s2 e _ => ?_
    refine Evenly.then (N := 0) (K := 0) (Evenly.of_still (refs_still _)) fun _ s3 _ _ => ?_
    refine Evenly.then (N := 0) (K := 0) (Evenly.of_still (assert_still _ _)) fun _ s4 _ _ => ?_
    exact Evenly.then (N := 0) (K := 0) (smartRealloc_even _ _ _ _ _ _) fun b s5 _ _ => Tri.ret (largeBytes_cap hc e)
  unfold Ends Tri at this
  rw [h] at this
  exact this

theorem size_low (hN : cfg.ms ≤ N) {k : Nat} (h : size cfg v s = (.ok k, s')) : k ≤ N ↔ Low N (s.vars v) := by
  have : Ends (size cfg v) s fun k _ => k ≤ N ↔ Low N (s.vars v) := by
    unfold size
    refine Ends.obj fun ob hv => ?_
    rw [hv]
    obtain ⟨core, al⟩ := ob
    cases core with
    | ml d m c large => exact Tri.ret Iff.rfl
    | small cells =>
      split
      · next k e =>
        simp only [Core.size?] at e
        refine Tri.ret ⟨fun _ => trivial, fun _ => ?_⟩
        repeat' split at e
        · cases e; omega
        · cases e
        · cases e
      · exact Ends.ub _
  unfold Ends Tri at this
  rw [h] at this
  exact this

/-! ### Changing one object -/

/-- A core of a capacity of at most `K`. -/
def ThinC (K : Nat) : Core → Prop
  | .ml _ _ c _ => c ≤ K
  | .small _ => True

/-- A core of a size of at most `N`, if it has a block. -/
def LowC (N : Nat) : Core → Prop
  | .ml _ k _ _ => k ≤ N
  | .small _ => True

theorem thin_some (c : Core) (al : Nat) : Thin K (some ⟨c, al⟩) ↔ ThinC K c := by cases c <;> exact Iff.rfl

theorem low_some (c : Core) (al : Nat) : Low N (some ⟨c, al⟩) ↔ LowC N c := by cases c <;> exact Iff.rfl

/-- The objects other than `t` are even. -/
def But (t : Obj) (N K : Nat) (s s' : St) : Prop :=
  ∀ o, o ≠ t → (Thin K (s.vars o) → Thin K (s'.vars o)) ∧ (Low N (s'.vars o) ↔ Low N (s.vars o))

theorem But.refl (t : Obj) (s : St) : But t N K s s := fun _ _ => ⟨id, Iff.rfl⟩

theorem Even.but {t : Obj} (h : Even N K s s') : But t N K s s' := fun o _ => h o

theorem But.trans {t : Obj} {s1 s2 s3 : St} (h : But t N K s1 s2) (h' : But t N K s2 s3) : But t N K s1 s3 :=
  fun o ho => ⟨fun t => (h' o ho).1 ((h o ho).1 t), (h' o ho).2.trans (h o ho).2⟩

theorem But.upd {t : Obj} {ob : Option Ob} : But t N K s { s with vars := upd s.vars t ob } := by
  intro o ho
  show (_ → Thin K (Str.upd s.vars t ob o)) ∧ (Low N (Str.upd s.vars t ob o) ↔ _)
  rw [upd_other _ _ ho]
  exact ⟨id, Iff.rfl⟩

theorem But.close {t : Obj} (h : But t N K s s') (h1 : Thin K (s.vars t) → Thin K (s'.vars t)) (h2 : Low N (s'.vars t) ↔ Low N (s.vars t)) :
    Even N K s s' := by
  intro o
  by_cases ho : o = t
  · subst ho; exact ⟨h1, h2⟩
  · exact h o ho

/-- What `setCore` does. -/
theorem setCore_ends (c : Core) : Ends (setCore v c) s fun _ s' => ∃ ob, s.vars v = some ob ∧ s' = { s with vars := upd s.vars v (some ⟨c, ob.al⟩) } := by
  unfold Ends Tri setCore
  cases h : s.vars v with
  | none => trivial
  | some ob => exact ⟨ob, rfl, rfl⟩

theorem Even.core {s1 : St} {c : Core} (h : Even N K s s1) (h1 : Thin K (s.vars v) → ThinC K c) (h2 : LowC N c ↔ Low N (s.vars v)) :
    Ends (setCore v c) s1 fun _ s' => Even N K s s' := by
  refine (setCore_ends c).imp ?_
  rintro _ s' ⟨ob, _, rfl⟩
  refine But.close (t := v) (h.but.trans But.upd) ?_ ?_ <;> simp only [upd_same]
  · rw [thin_some]; exact h1
  · rw [low_some]; exact h2

theorem Fit.core {c : Core} (h : Fit N K s) (h1 : ThinC K c) (h2 : LowC N c) : Ends (setCore v c) s fun _ s' => Fit N K s' := by
  refine (setCore_ends c).imp ?_
  rintro _ s' ⟨ob, _, rfl⟩
  exact h.upd ((thin_some c _).2 h1) ((low_some c _).2 h2)

/-- An even action that only reads after all. -/
theorem Even.after {x : M β} (h : Even N K s s') (hx : Evenly N K x) : Ends x s' fun _ s2 => Even N K s s2 :=
  hx.ends.imp fun _ _ h' => h.trans h'

theorem Fit.after {x : M β} (h : Fit N K s) (hx : Evenly N K x) : Ends x s fun _ s2 => Fit N K s2 :=
  hx.ends.imp fun _ _ h' => h'.fit h

theorem alloc_vars {al : Nat} {hdr : Bool} {bytes b : Nat} (h : alloc cfg al hdr bytes s = (.ok b, s')) : s'.vars = s.vars := by
  unfold alloc at h
  repeat' split at h
  all_goals first
    | (cases h; rfl)
    | cases h

theorem create_vars {al n : Nat} {r : Nat × Nat} (h : create cfg al n s = (.ok r, s')) : s'.vars = s.vars := by
  have : Ends (create cfg al n) s fun _ s' => s'.vars = s.vars := by
    unfold create
    refine Tri.bind (R := fun _ s1 => s1.vars = s.vars) (Ends.intro fun bytes s1 e => ?_) fun bytes s1 h1 => ?_
    · unfold largeBytes at e
      repeat' split at e
      all_goals first
        | (cases e; rfl)
        | cases e
    · exact Tri.bind (R := fun _ s2 => s2.vars = s1.vars) (Ends.intro fun b s2 e => alloc_vars e) fun b s2 h2 => Tri.ret (h2.trans h1)
  unfold Ends Tri at this
  rw [h] at this
  exact this

theorem reserveSmall_even (L : Lim cfg N K) {n : Nat} (hn : n ≤ K) : Ends (reserveSmall cfg v n) s fun _ s' => Even N K s s' := by
  unfold reserveSmall
  refine Ends.obj fun ob hv => ?_
  by_cases h1 : (cfg.sso && decide (n ≤ cfg.ms)) = true
  · rw [if_pos h1]; exact Tri.ret (Even.refl _)
  rw [if_neg h1]
  by_cases h2 : n ≤ cfg.mm
  · rw [if_pos h2]
    refine (alloc_even (N := N) (K := K) _ _ _).then fun b s1 e1 v1 => Ends.look (size_still v) fun k e2 => (podCopy_even (N := N) (K := K) _ _ _).then fun _ s2 _ v2 => ?_
    refine (v1.trans v2).core (fun _ => Nat.le_trans (cap_le L.ok n) hn) ?_
    rw [← alloc_vars e1]
    exact size_low (Nat.le_of_lt L.ms) e2
  · rw [if_neg h2]
    refine (create_even (N := N) (K := K) _ _).then fun r s1 e1 v1 => Ends.look (size_still v) fun k e2 => (podCopy_even (N := N) (K := K) _ _ _).then fun _ s2 _ v2 => ?_
    refine Tri.bind ((v1.trans v2).core (c := .ml r.1 k r.2 true) (fun _ => ?_) ?_) fun _ s3 v3 => ?_
    · exact Nat.le_trans (Nat.le_of_eq (create_cap L.ok e1)) hn
    · rw [← create_vars e1]
      exact size_low (Nat.le_of_lt L.ms) e2
    · exact Ends.look (capacity_still v) fun _ _ => v3.after (Evenly.of_still (assert_still _ _))

theorem unshare_even (L : Lim cfg N K) {n : Nat} (hn : n ≤ K) : Ends (unshare cfg v n) s fun _ s' => Even N K s s' := by
  unfold unshare
  refine Ends.obj fun ob hv => ?_
  obtain ⟨core, al⟩ := ob
  split
  · next d k cap hcore =>
    simp only at hcore; subst hcore
    refine (create_even (N := N) (K := K) _ _).then fun r s1 e1 v1 => Ends.look (assert_still _ _) fun _ _ => (podCopy_even (N := N) (K := K) _ _ _).then fun _ s2 _ v2 =>
      (decrementRefs_even (N := N) (K := K) _ _).then fun _ s3 _ v3 => ?_
    refine ((v1.trans v2).trans v3).core (fun h => ?_) ?_
    · rw [hv] at h
      have : cap ≤ K := h
      show r.2 ≤ K
      rw [create_cap L.ok e1]
      omega
    · rw [hv]; exact Iff.rfl
  · split
    · exact Ends.fail _
    · exact Ends.ub _

theorem reserveLarge_even (L : Lim cfg N K) {n : Nat} (hn : n ≤ K) : Ends (reserveLarge cfg v n) s fun _ s' => Even N K s s' := by
  unfold reserveLarge
  refine Ends.obj fun ob hv => ?_
  obtain ⟨core, al⟩ := ob
  split
  · next d k cap hcore =>
    simp only at hcore; subst hcore
    refine Ends.look (refs_still _) fun r _ => ?_
    split
    · exact unshare_even L hn
    · split
      · refine (reallocate_even (N := N) (K := K) _ _ _ _ _).then fun r s1 e1 v1 => ?_
        refine Tri.bind (v1.core (c := .ml r.1 k r.2 true) (fun _ => ?_) ?_) fun _ s2 v2 => ?_
        · show r.2 ≤ K
          rw [reallocate_cap L.ok e1]
          exact hn
        · rw [hv]; exact Iff.rfl
        · exact Ends.look (capacity_still v) fun _ _ => v2.after (Evenly.of_still (assert_still _ _))
      · exact Ends.look (capacity_still v) fun _ _ => (Evenly.of_still (assert_still _ _)).ends
  · split
    · exact Ends.fail _
    · exact Ends.ub _

/-- What the constructor of an empty string does. -/
theorem ctorEmpty_ends {al : Nat} : Ends (ctorEmpty cfg v al) s fun _ s' => s.vars v = none ∧
    ∃ cells, s' = { s with vars := upd s.vars v (some ⟨.small cells, al⟩) } := by
  unfold ctorEmpty construct
  refine Tri.bind (R := fun _ s1 => s.vars v = none ∧ ∃ cells, s1 = { s with vars := upd s.vars v (some ⟨.small cells, al⟩) }) ?_ ?_
  · unfold Tri newOb
    cases h : s.vars v with
    | some _ => trivial
    | none =>
      simp only
      split
      · next h' => split at h' <;> cases h'; exact ⟨trivial, _, rfl⟩
      · trivial
  · rintro _ s1 ⟨h1, cells, rfl⟩
    refine Ends.constructing ?_
    unfold initEmpty setSmallSize
    refine Ends.look (assert_still _ _) fun _ _ => Ends.obj fun ob hv => ?_
    simp only [upd_same, Option.some.injEq] at hv
    subst hv
    simp only [Nat.zero_le, if_true]
    refine (setCore_ends _).imp ?_
    rintro _ s2 ⟨ob, h2, rfl⟩
    simp only [upd_same, Option.some.injEq] at h2
    subst h2
    simp only [upd_upd]
    exact ⟨h1, _, rfl⟩

theorem swap_ends {t : Obj} (hne : t ≠ v) : Ends (swap t v) s fun _ s' => ∃ a b, s.vars t = some a ∧ s.vars v = some b ∧
    s' = { s with vars := upd (upd s.vars t (some ⟨b.core, a.al⟩)) v (some ⟨a.core, b.al⟩) } := by
  unfold swap
  refine Ends.obj fun a ha => Ends.obj fun b hb => Tri.bind (setCore_ends _) ?_
  rintro _ s1 ⟨a', ha', rfl⟩
  rw [ha] at ha'; cases ha'
  refine (setCore_ends _).imp ?_
  rintro _ s2 ⟨b', hb', rfl⟩
  simp only [upd_other _ _ (Ne.symm hne)] at hb'
  rw [hb] at hb'; cases hb'
  exact ⟨a, b, ha, hb, rfl⟩

theorem growNascent_but (L : Lim cfg N K) {t : Obj} {d k n : Nat} (hn : n ≤ K) (hne : t ≠ v) {s0 : St} {core : Core} {al : Nat}
    (hv : s0.vars v = some ⟨core, al⟩) (hk : LowC N core ↔ k ≤ N) (h0 : But t N K s0 s) (ht : Thin K (s.vars t)) :
    Ends (growNascent cfg t v d k n) s fun _ s' => But t N K s0 s' := by
  unfold growNascent
  refine Tri.bind (reserveSmall_even L hn) fun _ s1 v1 => Ends.obj fun ob hob => ?_
  obtain ⟨c1, al1⟩ := ob
  have ht1 := (v1 t).1 ht
  rw [hob] at ht1
  split
  · next b m cap large hcore =>
    simp only at hcore; subst hcore
    have hcap : cap ≤ K := ht1
    refine Tri.bind (setCore_ends _) ?_
    rintro _ s2 ⟨ob, _, rfl⟩
    refine (podCopy_even (N := N) (K := K) _ _ _).then fun _ s3 _ v3 => ?_
    have ht3 := v3 t
    simp only [upd_same] at ht3
    have b3 : But t N K s0 s3 := ((h0.trans v1.but).trans But.upd).trans v3.but
    refine Tri.bind (swap_ends hne) ?_
    rintro _ s4 ⟨a, b', ha, hb, rfl⟩
    rw [ha] at ht3
    have b4 : But t N K s0 { s3 with vars := upd (upd s3.vars t (some ⟨b'.core, a.al⟩)) v (some ⟨a.core, b'.al⟩) } := by
      intro o ho
      by_cases hov : o = v
      · subst hov
        simp only [upd_same]
        refine ⟨fun _ => ?_, ?_⟩
        · obtain ⟨ac, aal⟩ := a
          rw [thin_some]
          exact (thin_some _ _).1 (ht3.1 hcap)
        · obtain ⟨ac, aal⟩ := a
          rw [low_some, hv, low_some, hk]
          rw [low_some] at ht3
          exact ht3.2
      · show (_ → Thin K (upd (upd s3.vars t _) v _ o)) ∧ (Low N (upd (upd s3.vars t _) v _ o) ↔ _)
        rw [upd_other _ _ hov, upd_other _ _ ho]
        exact b3 o ho
    exact Ends.look (capacity_still v) fun _ _ => (Evenly.of_still (assert_still _ _)).ends.imp fun _ _ h => b4.trans h.but
  · exact Ends.ub _

theorem destroy_but (t : Obj) : Ends (destroy cfg t) s fun _ s' => But t N K s s' ∧ s'.vars t = none := by
  unfold destroy
  refine (release_even (N := N) (K := K) t).then fun _ s1 _ v1 => ?_
  exact ⟨v1.but.trans But.upd, upd_same _ _ _⟩

theorem reserveMedium_even (L : Lim cfg N K) {n : Nat} (hn : n ≤ K) : Ends (reserveMedium cfg v n) s fun _ s' => Even N K s s' := by
  unfold reserveMedium
  refine Ends.obj fun ob hv => ?_
  obtain ⟨core, al⟩ := ob
  split
  · next d k cap hcore =>
    simp only at hcore; subst hcore
    split
    · exact Tri.ret (Even.refl _)
    · split
      · refine (smartRealloc_even (N := N) (K := K) _ _ _ _ _ _).then fun b s1 _ v1 => v1.core (fun _ => Nat.le_trans (cap_le L.ok n) hn) ?_
        rw [hv]; exact Iff.rfl
      · refine Tri.bind ctorEmpty_ends ?_
        rintro _ s1 ⟨h0, cells, rfl⟩
        have hne : Obj.tmp 0 ≠ v := by rintro rfl; rw [hv] at h0; cases h0
        refine Ends.withTemp ((growNascent_but L hn hne hv Iff.rfl But.upd (by simp only [upd_same]; trivial)).imp fun _ s2 h2 => ?_)
        refine (destroy_but (N := N) (K := K) _).imp ?_
        rintro _ s3 ⟨h3, h4⟩
        refine (h2.trans h3).close ?_ ?_ <;> rw [h4, h0]
        exact id
  · split
    · exact Ends.fail _
    · exact Ends.ub _

theorem reserveCore_even (L : Lim cfg N K) {n : Nat} (hn : n ≤ K) : Ends (reserveCore cfg v n) s fun _ s' => Even N K s s' := by
  unfold reserveCore reserveBy
  refine Tri.bind (R := fun _ s' => Even N K s s') ?_ fun _ s1 v1 => Ends.look (capacity_still v) fun _ _ => v1.after (Evenly.of_still (assert_still _ _))
  refine Ends.obj fun ob _ => ?_
  split
  · exact reserveSmall_even L hn
  · exact reserveMedium_even L hn
  · exact reserveLarge_even L hn

/-! ### Growing and shrinking -/

theorem Fit.step {x : M β} {f : β → M γ} {Q : γ → St → Prop} (h : Fit N K s) (hx : Evenly N K x)
    (hf : ∀ b s1, x s = (.ok b, s1) → Fit N K s1 → Ends (f b) s1 Q) : Ends (x >>= f) s Q :=
  hx.then fun b s1 e v1 => hf b s1 e (v1.fit h)

theorem setSmallSize_fit (h : Fit N K s) (n : Nat) : Ends (setSmallSize cfg v n) s fun _ s' => Fit N K s' := by
  unfold setSmallSize
  refine Ends.look (assert_still _ _) fun _ _ => Ends.obj fun ob _ => ?_
  by_cases hn : n ≤ cfg.ms
  · simp only [hn, if_true]; exact h.core trivial trivial
  · simp only [hn, if_false]; exact Ends.ub _

theorem expandTail_fit (h : Fit N K s) {old new : Nat} (hn : new ≤ N) : Ends (expandTail cfg v old new) s fun _ s' => Fit N K s' := by
  unfold expandTail
  refine Ends.look (capacity_still v) fun _ _ => Ends.look (assert_still _ _) fun _ _ => Ends.obj fun ob hv => ?_
  obtain ⟨core, al⟩ := ob
  have ho := (h v).1
  rw [hv] at ho
  split
  · next d k cap large hcore =>
    simp only at hcore; subst hcore
    refine Tri.bind (h.core (c := .ml d new cap large) ho hn) fun _ s1 h1 => h1.step (writeCells_even _ _) fun _ s2 _ h2 => Tri.ret h2
  · split
    · exact Ends.fail _
    · exact Ends.ub _

theorem expandTail_over {old new : Nat} (hn : N < new) : Ends (expandTail cfg v old new) s fun _ s' => ¬ Short N s' := by
  unfold expandTail
  refine Ends.look (capacity_still v) fun _ _ => Ends.look (assert_still _ _) fun _ _ => Ends.obj fun ob hv => ?_
  split
  · next d k cap large hcore =>
    refine Tri.bind (setCore_ends _) ?_
    rintro _ s1 ⟨ob, _, rfl⟩
    refine (writeCells_even (N := N) (K := 0) _ _).then fun _ s2 _ v2 => Tri.ret fun hs => ?_
    have := (v2 v).2.1 (hs v)
    simp only [upd_same] at this
    exact absurd (show new ≤ N from this) (by omega)
  · split
    · exact Ends.fail _
    · exact Ends.ub _

/-- `expandNoinit` keeps to the bounds if the new size does. -/
theorem expand_fit (L : Lim cfg N K) (h : Fit N K s) (delta : Nat) (exp : Bool) : Ends (expandNoinit cfg v delta exp) s fun _ s' =>
    (∀ k, size cfg v s = (.ok k, s) → add64 k delta ≤ N) ∨ Short N s' → Fit N K s' := by
  unfold expandNoinit
  refine Ends.look (capacity_still v) fun c hcap => Ends.look (size_still v) fun old hold => Ends.look (assert_still _ _) fun _ _ => Ends.obj fun ob hv => ?_
  obtain ⟨core, al⟩ := ob
  by_cases hn : add64 old delta ≤ N
  · have hK : (if exp then max (add64 old delta) (2 * cfg.ms) else add64 old delta) ≤ K := by
      have := L.two
      have := L.le
      split <;> omega
    cases core with
    | small cells =>
      dsimp only
      by_cases hs : (cfg.sso && decide (add64 old delta ≤ cfg.ms)) = true
      · rw [if_pos hs]
        exact Tri.bind (setSmallSize_fit h _) fun _ s1 h1 => Tri.ret (Q := fun _ s' => _ → Fit N K s') fun _ => h1
      rw [if_neg hs]
      exact Tri.bind (reserveSmall_even L hK) fun _ s1 v1 => (expandTail_fit (v1.fit h) hn).imp fun _ _ h2 _ => h2
    | ml d m cap large =>
      dsimp only
      by_cases hlt : c < add64 old delta
      · rw [doIf_pos (by simpa using hlt)]
        have hK : (if exp then max (add64 old delta) (add64 1 (mul64 c 3 / 2)) else add64 old delta) ≤ K := by
          have h1 := L.half
          have h2 := L.le
          have h3 := add64_le 1 (mul64 c 3 / 2)
          have h4 := mul64_le c 3
          split <;> omega
        exact Tri.bind (reserveCore_even L hK) fun _ s1 v1 => (expandTail_fit (v1.fit h) hn).imp fun _ _ h2 _ => h2
      · rw [doIf_neg (by simpa using hlt)]
        exact Tri.step (pure_apply _ _) ((expandTail_fit h hn).imp fun _ _ h2 _ => h2)
  · have out : ∀ s1, Ends (expandTail cfg v old (add64 old delta)) s1 fun _ s' =>
        (∀ k, size cfg v s = (.ok k, s) → add64 k delta ≤ N) ∨ Short N s' → Fit N K s' := by
      intro s1
      refine (expandTail_over (N := N) (by omega)).imp ?_
      rintro _ s2 h2 (h3 | h3)
      · exact absurd (h3 old hold) hn
      · exact absurd h3 h2
    cases core with
    | small cells =>
      dsimp only
      by_cases hs : (cfg.sso && decide (add64 old delta ≤ cfg.ms)) = true
      · rw [if_pos hs]
        exact Tri.bind (setSmallSize_fit h _) fun _ s1 h1 => Tri.ret (Q := fun _ s' => _ → Fit N K s') fun _ => h1
      rw [if_neg hs]
      exact Tri.bind (R := fun _ _ => True) (Ends.intro fun _ _ _ => trivial) fun _ s1 _ => out s1
    | ml d m cap large => exact Tri.bind (R := fun _ _ => True) (Ends.intro fun _ _ _ => trivial) fun _ s1 _ => out s1

theorem newOb_fit (h : Fit N K s) (al : Nat) : Ends (newOb cfg v al) s fun _ s' => Fit N K s' ∧ ∃ cells, s'.vars v = some ⟨.small cells, al⟩ := by
  refine Ends.intro fun _ s1 e => ?_
  unfold newOb at e
  repeat' split at e
  all_goals cases e
  exact ⟨h.upd trivial trivial, _, upd_same _ _ _⟩

theorem initData_fit (L : Lim cfg N K) (h : Fit N K s) {al : Nat} {p : Ptr} {n : Nat} (hn : n ≤ N) :
    Ends (initData cfg v al p n) s fun _ s' => Fit N K s' := by
  have hK := Nat.le_trans hn L.le
  unfold initData
  split
  · unfold initSmall
    exact h.step (doIf_even _ (podCopy_even _ _ _)) fun _ s1 _ h1 => setSmallSize_fit h1 n
  · split
    · unfold initMedium
      refine h.step (alloc_even _ _ _) fun b s1 _ h1 => h1.step (doIf_even _ (podCopy_even _ _ _)) fun _ s2 _ h2 => ?_
      exact Tri.bind (h2.core (c := .ml b n (mul64 (add64 1 n) cfg.w / cfg.w - 1) false) (Nat.le_trans (cap_le L.ok n) hK) hn) fun _ s3 h3 =>
        h3.after (writeCells_even _ _)
    · unfold initLarge
      refine h.step (create_even _ _) fun r s1 e1 h1 => h1.step (doIf_even _ (podCopy_even _ _ _)) fun _ s2 _ h2 => ?_
      exact Tri.bind (h2.core (c := .ml r.1 n r.2 true) (Nat.le_trans (Nat.le_of_eq (create_cap L.ok e1)) hK) hn) fun _ s3 h3 =>
        h3.after (writeCells_even _ _)

theorem ctorData_fit (L : Lim cfg N K) (h : Fit N K s) {al : Nat} {p : Ptr} {n : Nat} (hn : n ≤ N) :
    Ends (ctorData cfg v al p n) s fun _ s' => Fit N K s' := by
  unfold ctorData construct
  refine Tri.bind (newOb_fit h al) fun _ s1 h1 => Ends.constructing ?_
  exact Tri.bind (initData_fit L h1.1 hn) fun _ s2 h2 => h2.after (initCheck_even _ _ _)

theorem ctorEmpty_fit (h : Fit N K s) {al : Nat} : Ends (ctorEmpty cfg v al) s fun _ s' => Fit N K s' := by
  unfold ctorEmpty construct
  exact Tri.bind (newOb_fit h al) fun _ s1 h1 => Ends.constructing (setSmallSize_fit h1.1 0)

theorem ctorFill_fit (L : Lim cfg N K) (h : Fit N K s) {al n : Nat} {c : Ch} :
    Ends (ctorFill cfg v al n c) s fun _ s' => n ≤ 1 ∨ Short N s' → Fit N K s' := by
  unfold ctorFill construct
  refine Tri.bind (newOb_fit h al) fun _ s1 h1 => Ends.constructing ?_
  refine Tri.bind (R := fun _ s2 => Fit N K s2 ∧ Low cfg.ms (s2.vars v)) ?_ fun _ s2 h2 => ?_
  · unfold initEmpty setSmallSize
    refine Ends.look (assert_still _ _) fun _ _ => Ends.obj fun ob _ => ?_
    simp only [Nat.zero_le, if_true]
    refine (setCore_ends _).imp ?_
    rintro _ s2 ⟨ob', _, rfl⟩
    refine ⟨h1.1.upd trivial trivial, ?_⟩
    simp only [upd_same]
    trivial
  · refine Tri.bind (expand_fit L h2.1 n false) fun p s3 h3 => (podFill_even (N := N) (K := K) _ _ _).ends.imp fun _ s4 v4 h4 => v4.fit (h3 ?_)
    rcases h4 with h4 | h4
    · left
      intro k hk
      have := (size_low (Nat.le_refl _) hk).2 h2.2
      have := add64_le k n
      have := L.ms
      omega
    · exact Or.inr (v4.short h4)

theorem swap_fit (h : Fit N K s) (t : Obj) : Ends (swap t v) s fun _ s' => Fit N K s' := by
  unfold swap
  refine Ends.obj fun a ha => Ends.obj fun b hb => ?_
  have h1 := h t
  have h2 := h v
  rw [ha] at h1
  rw [hb] at h2
  obtain ⟨ac, al⟩ := a
  obtain ⟨bc, bl⟩ := b
  exact Tri.bind (h.core ((thin_some _ _).1 h2.1) ((low_some _ _).1 h2.2)) fun _ s1 h3 => h3.core ((thin_some _ _).1 h1.1) ((low_some _ _).1 h1.2)

theorem destroy_fit (h : Fit N K s) (t : Obj) : Ends (destroy cfg t) s fun _ s' => Fit N K s' := by
  unfold destroy
  exact h.step (release_even t) fun _ s1 _ h1 => h1.upd trivial trivial

theorem tempSwap_fit (h : Fit N K s) (t : Obj) : Ends (withTemp cfg t (swap t v)) s fun _ s' => Fit N K s' :=
  Ends.withTemp ((swap_fit h t).imp fun _ _ h1 => destroy_fit h1 t)

theorem shrink_fit (L : Lim cfg N K) (h : Fit N K s) {k delta : Nat} (hk : size cfg v s = (.ok k, s)) (hd : delta ≤ k) :
    Ends (shrink cfg v delta) s fun _ s' => Fit N K s' := by
  have low := (size_low (Nat.le_of_lt L.ms) hk).2 (h v).2
  unfold shrink
  refine Ends.obj fun ob hv => ?_
  obtain ⟨core, al⟩ := ob
  have ho := (h v).1
  rw [hv] at ho
  have same : ∀ {d m cap large}, core = .ml d m cap large → m = k := by
    rintro d m cap large rfl
    unfold size at hk
    rw [bind_ok (getOb_ok hv)] at hk
    cases hk
    rfl
  split
  · unfold shrinkSmall
    exact Ends.look (size_still v) fun _ _ => Ends.look (assert_still _ _) fun _ _ => setSmallSize_fit h _
  · next d m cap hcore =>
    simp only at hcore
    have hm := same hcore
    subst hcore hm
    unfold shrinkMedium
    refine Ends.look (assert_still _ _) fun _ _ => Tri.bind (h.core (c := .ml d (sub64 m delta) cap false) ho ?_) fun _ s1 h1 => h1.after (writeCells_even _ _)
    exact Nat.le_trans (sub64_le hd) (by omega)
  · next d m cap hcore =>
    simp only at hcore
    have hm := same hcore
    subst hcore hm
    have hle : sub64 m delta ≤ N := Nat.le_trans (sub64_le hd) (by omega)
    refine Ends.look (refs_still _) fun r _ => ?_
    split
    · unfold shrinkMedium
      exact Ends.look (assert_still _ _) fun _ _ => Tri.bind (h.core (c := .ml d (sub64 m delta) cap true) ho hle) fun _ s1 h1 => h1.after (writeCells_even _ _)
    · unfold shrinkLarge
      refine Ends.look (assert_still _ _) fun _ _ => ?_
      split
      · exact Tri.ret h
      · exact Tri.bind (ctorData_fit L h hle) fun _ s1 h1 => tempSwap_fit h1 _

theorem mutableData_even (L : Lim cfg N K) : Ends (mutableData cfg v) s fun _ s' => Even N K s s' := by
  unfold mutableData
  refine Ends.noexceptIf (Ends.obj fun ob hv => ?_)
  split
  · refine Ends.look (refs_still _) fun r _ => ?_
    split
    · exact Tri.bind (unshare_even L (Nat.zero_le _)) fun _ s1 v1 => v1.after (Evenly.of_still (dataPtr_still v))
    · exact (Evenly.of_still (dataPtr_still v)).ends
  · exact (Evenly.of_still (dataPtr_still v)).ends

theorem begin_even (L : Lim cfg N K) : Ends (begin_ cfg v) s fun _ s' => Even N K s s' := (mutableData_even L).noexcept

theorem copyCore_fit (L : Lim cfg N K) (h : Fit N K s) {r : Ob} (h1 : ThinC K r.core) (h2 : LowC N r.core) :
    Ends (copyCore cfg v r) s fun _ s' => Fit N K s' := by
  unfold copyCore
  split
  · exact h.core trivial trivial
  · next d n cap hcore =>
    rw [hcore] at h1 h2
    have hn : n ≤ N := h2
    unfold copyMedium
    refine h.step (alloc_even _ _ _) fun b s1 _ g1 => g1.step (podCopy_even _ _ _) fun _ s2 _ g2 => g2.core ?_ hn
    exact Nat.le_trans (cap_le L.ok n) (Nat.le_trans hn L.le)
  · next d n cap hcore =>
    rw [hcore] at h1 h2
    exact Tri.bind (h.core (c := .ml d n cap true) h1 h2) fun _ s1 g1 => g1.after (incrementRefs_even _)

theorem ctorCopy_fit (L : Lim cfg N K) (h : Fit N K s) {u : Obj} : Ends (ctorCopy cfg v u) s fun _ s' => Fit N K s' := by
  unfold ctorCopy construct
  refine Ends.noexceptIf (Ends.obj fun r hr => Tri.bind (newOb_fit h _) fun _ s1 h1 => Ends.constructing ?_)
  have hu := h u
  rw [hr] at hu
  obtain ⟨core, al⟩ := r
  refine Tri.bind (copyCore_fit L h1.1 ((thin_some core al).1 hu.1) ((low_some core al).1 hu.2)) fun _ s2 h2 => h2.after (Evenly.of_still (copyCheck_still _ _))

theorem ctorMove_fit (h : Fit N K s) {u : Obj} : Ends (ctorMove cfg v u) s fun _ s' => Fit N K s' := by
  unfold ctorMove construct
  refine Ends.obj fun r hr => Tri.bind (newOb_fit h _) fun _ s1 h1 => Ends.constructing ?_
  have hu := h u
  rw [hr] at hu
  obtain ⟨core, al⟩ := r
  exact Tri.bind (h1.1.core ((thin_some core al).1 hu.1) ((low_some core al).1 hu.2)) fun _ s2 h2 => setSmallSize_fit h2 0

end Verif.Str.Caps
