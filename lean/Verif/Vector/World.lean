import Verif.Vector.Step

/-!
Programs with several vectors: the invariant that ties all vectors to their contents, and its
preservation by every operation.
-/

namespace Verif.Vector

open V

variable {α β : Type} {cfg : Cfg α} {w w' : World α} {ys : Contents α}

/-- A place of the list of vectors against a place of the list of contents. -/
def Rel (cfg : Cfg α) (m : Mem α) : Option (Option Vec) → Option (Option (List α)) → Prop
  | none, none => True
  | some none, some none => True
  | some (some v), some (some xs) => VecOK cfg m v xs
  | _, _ => False

/-- The number of elements of a vector, of all vectors. -/
def sizeOf' : Option (List α) → Nat
  | none => 0
  | some xs => xs.length
/-- All elements. -/
def total (ys : Contents α) : Nat := (ys.map sizeOf').sum

/-- All vectors hold their contents in storage of their own, and nothing else is allocated. -/
structure WInv (cfg : Cfg α) (w : World α) (ys : Contents α) : Prop where
  rel : ∀ i : Nat, Rel cfg w.mem w.vecs[i]? ys[i]?
  sep : ∀ (i j : Nat) (u v : Vec) (b : Nat), w.vecs[i]? = some (some u) → w.vecs[j]? = some (some v) → u.start = some b → v.start = some b → i = j
  owned : ∀ b, w.mem.heap b ≠ none → ∃ (i : Nat) (v : Vec), w.vecs[i]? = some (some v) ∧ v.start = some b
  fresh : Fresh w.mem
  bal : cfg.kind ≠ .triv → w.mem.ctors = w.mem.dtors + w.mem.moves + total ys
  cpy : cfg.kind ≠ .mov → w.mem.moves = 0

theorem WInv.len (h : WInv cfg w ys) : w.vecs.length = ys.length := by
  refine Nat.le_antisymm (Nat.le_of_not_lt fun hlt => ?_) (Nat.le_of_not_lt fun hlt => ?_)
  · have := h.rel ys.length
    rw [List.getElem?_eq_getElem hlt, List.getElem?_eq_none (Nat.le_refl _)] at this
    cases hc : w.vecs[ys.length] <;> rw [hc] at this <;> exact this
  · have := h.rel w.vecs.length
    rw [List.getElem?_eq_getElem hlt, List.getElem?_eq_none (Nat.le_refl _)] at this
    cases hc : ys[w.vecs.length] <;> rw [hc] at this <;> exact this

theorem WInv.vec (h : WInv cfg w ys) {i : Nat} {xs : List α} (hi : ys[i]? = some (some xs)) :
    ∃ v, w.vecs[i]? = some (some v) ∧ VecOK cfg w.mem v xs := by
  have := h.rel i
  rw [hi] at this
  cases hv : w.vecs[i]? with
  | none => rw [hv] at this; exact this.elim
  | some o =>
    cases o with
    | none => rw [hv] at this; exact this.elim
    | some v => rw [hv] at this; exact ⟨v, rfl, this⟩

theorem WInv.contents (h : WInv cfg w ys) {i : Nat} {v : Vec} (hi : w.vecs[i]? = some (some v)) :
    ∃ xs, ys[i]? = some (some xs) ∧ VecOK cfg w.mem v xs := by
  have := h.rel i
  rw [hi] at this
  cases hv : ys[i]? with
  | none => rw [hv] at this; exact this.elim
  | some o =>
    cases o with
    | none => rw [hv] at this; exact this.elim
    | some v => rw [hv] at this; exact ⟨v, rfl, this⟩

theorem lt_of_getElem? {l : List β} {i : Nat} {x : β} (h : l[i]? = some x) : i < l.length := by
  refine Nat.lt_of_not_le (fun hle => ?_)
  rw [List.getElem?_eq_none hle] at h
  simp at h

theorem total_set {i : Nat} {x y : Option (List α)} (h : ys[i]? = some x) :
    total (ys.set i y) + sizeOf' x = total ys + sizeOf' y := by
  induction ys generalizing i with
  | nil => simp at h
  | cons z ys ih =>
    cases i with
    | zero =>
      simp only [List.getElem?_cons_zero, Option.some.injEq] at h
      subst h
      simp only [total, List.set_cons_zero, List.map_cons, List.sum_cons]
      omega
    | succ i =>
      simp only [List.getElem?_cons_succ] at h
      have := ih h
      simp only [total, List.set_cons_succ, List.map_cons, List.sum_cons] at this ⊢
      omega

/-- One vector has changed as its member functions do. -/
theorem WInv.member {i : Nat} {v : Vec} {xs zs : List α} {s' : S α} (h : WInv cfg w ys)
    (hv : w.vecs[i]? = some (some v)) (hy : ys[i]? = some (some xs)) (hx : VecOK cfg w.mem v xs)
    (hp : Post cfg ⟨w.mem, v⟩ s' xs zs) :
    WInv cfg ⟨s'.mem, w.vecs.set i (some s'.this)⟩ (ys.set i (some zs)) := by
  have hil := lt_of_getElem? hv
  have hiy := lt_of_getElem? hy
  have hstart : ∀ j u b, j ≠ i → w.vecs[j]? = some (some u) → u.start = some b →
      v.start ≠ some b ∧ s'.this.start ≠ some b := by
    intro j u b hj hu hb
    have h1 : v.start ≠ some b := fun e => hj (h.sep j i u v b hu hv hb e)
    refine ⟨h1, fun e => ?_⟩
    rcases hp.start with hs | ⟨_, hs⟩
    · exact h1 (by rw [← e, hs])
    · obtain ⟨us, _, hok⟩ := h.contents hu
      have := hok.start_lt h.fresh hb
      have := (hs b e).1
      simp only at this
      omega
  refine ⟨fun j => ?_, fun j k u u' b h1 h2 h3 h4 => ?_, fun b hb => ?_, hp.fresh hx h.fresh, fun hk => ?_, fun hk => ?_⟩
  · by_cases hj : i = j
    · subst hj
      rw [List.getElem?_set_self hil, List.getElem?_set_self hiy]
      exact hp.ok
    · rw [List.getElem?_set_ne hj, List.getElem?_set_ne hj]
      have hr := h.rel j
      cases hu : w.vecs[j]? with
      | none =>
        rw [hu] at hr
        cases hz : ys[j]? with
        | none => trivial
        | some o => rw [hz] at hr; exact hr.elim
      | some o =>
        cases o with
        | none =>
          rw [hu] at hr
          cases hz : ys[j]? with
          | none => rw [hz] at hr; exact hr.elim
          | some o => rw [hz] at hr; cases o <;> trivial
        | some u =>
          obtain ⟨us, e, hok⟩ := h.contents hu
          rw [e]
          refine hok.congr (fun b hb => ?_)
          have := hstart j u b (Ne.symm hj) hu hb
          exact hp.frame b this.1 this.2
  · simp only at h1 h2
    by_cases hj : i = j
    · subst hj
      by_cases hk : i = k
      · exact hk
      · exfalso
        rw [List.getElem?_set_self hil] at h1
        rw [List.getElem?_set_ne hk] at h2
        simp only [Option.some.injEq] at h1
        subst h1
        exact (hstart k u' b (Ne.symm hk) h2 h4).2 h3
    · rw [List.getElem?_set_ne hj] at h1
      by_cases hk : i = k
      · subst hk
        exfalso
        rw [List.getElem?_set_self hil] at h2
        simp only [Option.some.injEq] at h2
        subst h2
        exact (hstart j u b (Ne.symm hj) h1 h3).2 h4
      · rw [List.getElem?_set_ne hk] at h2
        exact h.sep j k u u' b h1 h2 h3 h4
  · simp only at hb ⊢
    by_cases hs : s'.this.start = some b
    · exact ⟨i, s'.this, by rw [List.getElem?_set_self hil], hs⟩
    · by_cases hs' : v.start = some b
      · rcases hp.start with hq | ⟨hq, _⟩
        · exact absurd (by rw [hq]; exact hs') hs
        · exact absurd (hq b hs') hb
      · rw [hp.frame b hs' hs] at hb
        obtain ⟨j, u, hu, hub⟩ := h.owned b hb
        have hj : i ≠ j := by
          rintro rfl
          rw [hv] at hu
          simp only [Option.some.injEq] at hu
          subst hu
          exact hs' hub
        exact ⟨j, u, by rw [List.getElem?_set_ne hj, hu], hub⟩
  · have h1 := h.bal hk
    have h2 := hp.bal hk
    have h3 := total_set (y := some zs) hy
    simp only [sizeOf'] at h3
    simp only at h2 ⊢
    omega
  · have h1 := h.cpy hk
    have h2 := hp.cpy hk
    simp only at h2 ⊢
    omega

/-- A new empty vector. -/
theorem WInv.new (h : WInv cfg w ys) : WInv cfg ⟨w.mem, w.vecs ++ [some nullVec]⟩ (ys ++ [some []]) := by
  have hlen := h.len
  refine ⟨fun j => ?_, fun j k u u' b h1 h2 h3 h4 => ?_, fun b hb => ?_, h.fresh, fun hk => ?_, h.cpy⟩
  · simp only
    by_cases hj : j < w.vecs.length
    · rw [List.getElem?_append_left hj, List.getElem?_append_left (by omega)]
      exact h.rel j
    · rw [List.getElem?_append_right (by omega), List.getElem?_append_right (by omega), hlen]
      by_cases hj' : j - ys.length = 0
      · rw [hj']
        exact nullVecOK _
      · rw [List.getElem?_eq_none (by simp; omega), List.getElem?_eq_none (by simp; omega)]
        trivial
  · have key : ∀ (j : Nat) (u : Vec), (w.vecs ++ [some nullVec])[j]? = some (some u) → u.start = some b →
        w.vecs[j]? = some (some u) := by
      intro j u h1 h3
      by_cases hj : j < w.vecs.length
      · rwa [List.getElem?_append_left hj] at h1
      · rw [List.getElem?_append_right (by omega)] at h1
        have := lt_of_getElem? h1
        simp only [List.length_singleton] at this
        rw [show j - w.vecs.length = 0 by omega] at h1
        simp only [List.getElem?_cons_zero, Option.some.injEq] at h1
        subst h1
        simp [nullVec] at h3
    exact h.sep j k u u' b (key j u h1 h3) (key k u' h2 h4) h3 h4
  · obtain ⟨i, v, hv, hb'⟩ := h.owned b hb
    exact ⟨i, v, by simp only; rw [List.getElem?_append_left (lt_of_getElem? hv), hv], hb'⟩
  · have := h.bal hk
    have e : total (ys ++ [some []]) = total ys := by simp [total, sizeOf']
    rw [e]
    exact this

/-- A constructor has run. -/
theorem WInv.construct {zs : List α} {s' : S α} (h : WInv cfg w ys) (hp : Post cfg ⟨w.mem, nullVec⟩ s' [] zs) :
    WInv cfg ⟨s'.mem, w.vecs ++ [some s'.this]⟩ (ys ++ [some zs]) := by
  have hlen := h.len
  have := h.new.member (i := w.vecs.length) (v := nullVec) (xs := []) (s' := s') (zs := zs) (by simp)
    (by rw [hlen]; simp) (nullVecOK _) hp
  simp only at this
  rw [List.set_append_right _ _ (Nat.le_refl _), hlen, List.set_append_right _ _ (Nat.le_refl _)] at this
  simpa using this

/-- The storage of two vectors has been exchanged. -/
theorem WInv.swap {i j : Nat} {u v : Vec} {xs zs : List α} (h : WInv cfg w ys)
    (hi : w.vecs[i]? = some (some u)) (hj : w.vecs[j]? = some (some v))
    (hyi : ys[i]? = some (some xs)) (hyj : ys[j]? = some (some zs)) :
    WInv cfg ((w.setVec i (some v)).setVec j (some u)) ((ys.set i (some zs)).set j (some xs)) := by
  have hil := lt_of_getElem? hi
  have hjl := lt_of_getElem? hj
  have hiy := lt_of_getElem? hyi
  have hjy := lt_of_getElem? hyj
  -- the vector at a place is the one that was at `σ k`
  have look : ∀ k, ((w.vecs.set i (some v)).set j (some u))[k]? = if k = j then some (some u) else if k = i then some (some v) else w.vecs[k]? := by
    intro k
    by_cases h1 : k = j
    · subst h1
      rw [if_pos rfl, List.getElem?_set_self (by rw [List.length_set]; exact hjl)]
    · rw [if_neg h1, List.getElem?_set_ne (Ne.symm h1)]
      by_cases h2 : k = i
      · subst h2
        rw [if_pos rfl, List.getElem?_set_self hil]
      · rw [if_neg h2, List.getElem?_set_ne (Ne.symm h2)]
  have looky : ∀ k, ((ys.set i (some zs)).set j (some xs))[k]? = if k = j then some (some xs) else if k = i then some (some zs) else ys[k]? := by
    intro k
    by_cases h1 : k = j
    · subst h1
      rw [if_pos rfl, List.getElem?_set_self (by rw [List.length_set]; exact hjy)]
    · rw [if_neg h1, List.getElem?_set_ne (Ne.symm h1)]
      by_cases h2 : k = i
      · subst h2
        rw [if_pos rfl, List.getElem?_set_self hiy]
      · rw [if_neg h2, List.getElem?_set_ne (Ne.symm h2)]
  let σ : Nat → Nat := fun k => if k = j then i else if k = i then j else k
  have look' : ∀ k, ((w.vecs.set i (some v)).set j (some u))[k]? = w.vecs[σ k]? := by
    intro k
    rw [look]
    simp only [σ]
    split
    · exact hi.symm
    · split
      · exact hj.symm
      · rfl
  have hσ : ∀ k k', σ k = σ k' → k = k' := by
    intro k k' e
    simp only [σ] at e
    split at e <;> split at e <;> (try split at e) <;> (try split at e) <;> omega
  refine ⟨fun k => ?_, fun a b u' v' c h1 h2 h3 h4 => ?_, fun b hb => ?_, h.fresh, fun hk => ?_, h.cpy⟩
  · simp only [World.setVec]
    rw [look, looky]
    have h1 := h.rel i
    have h2 := h.rel j
    rw [hi, hyi] at h1
    rw [hj, hyj] at h2
    split
    · exact h1
    · split
      · exact h2
      · exact h.rel k
  · simp only [World.setVec] at h1 h2
    rw [look'] at h1 h2
    exact hσ _ _ (h.sep _ _ u' v' c h1 h2 h3 h4)
  · obtain ⟨k, x, hx, hxb⟩ := h.owned b hb
    refine ⟨σ k, x, ?_, hxb⟩
    simp only [World.setVec]
    rw [look']
    have : σ (σ k) = k := by
      simp only [σ]
      split <;> split <;> (try split) <;> omega
    rw [this, hx]
  · have h1 := h.bal hk
    have h2 := total_set (y := some zs) hyi
    have : ∃ o, (ys.set i (some zs))[j]? = some o ∧ sizeOf' o = zs.length := by
      by_cases e : i = j
      · subst e
        exact ⟨some zs, by rw [List.getElem?_set_self hiy], rfl⟩
      · exact ⟨some zs, by rw [List.getElem?_set_ne e, hyj], rfl⟩
    obtain ⟨o, ho, hos⟩ := this
    have h3 := total_set (y := some xs) ho
    rw [hos] at h3
    simp only [sizeOf'] at h2 h3
    simp only [World.setVec]
    omega

/-- An empty vector without storage has been destroyed. -/
theorem WInv.kill {i : Nat} (h : WInv cfg w ys) (hi : w.vecs[i]? = some (some nullVec)) (hyi : ys[i]? = some (some [])) :
    WInv cfg (w.setVec i none) (ys.set i none) := by
  have hil := lt_of_getElem? hi
  have hiy := lt_of_getElem? hyi
  have key : ∀ (j : Nat) (u : Vec), (w.vecs.set i none)[j]? = some (some u) → w.vecs[j]? = some (some u) ∧ j ≠ i := by
    intro j u h1
    by_cases hj : i = j
    · subst hj
      rw [List.getElem?_set_self hil] at h1
      simp at h1
    · rw [List.getElem?_set_ne hj] at h1
      exact ⟨h1, Ne.symm hj⟩
  refine ⟨fun k => ?_, fun a b u' v' c h1 h2 h3 h4 => ?_, fun b hb => ?_, h.fresh, fun hk => ?_, h.cpy⟩
  · simp only [World.setVec]
    by_cases hk : i = k
    · subst hk
      rw [List.getElem?_set_self hil, List.getElem?_set_self hiy]
      trivial
    · rw [List.getElem?_set_ne hk, List.getElem?_set_ne hk]
      exact h.rel k
  · exact h.sep a b u' v' c (key _ _ h1).1 (key _ _ h2).1 h3 h4
  · obtain ⟨k, x, hx, hxb⟩ := h.owned b hb
    have hk : i ≠ k := by
      rintro rfl
      rw [hi] at hx
      simp only [Option.some.injEq] at hx
      subst hx
      simp [nullVec] at hxb
    exact ⟨k, x, by simp only [World.setVec]; rw [List.getElem?_set_ne hk, hx], hxb⟩
  · have := h.bal hk
    have h2 := total_set (y := none) hyi
    simp only [sizeOf', List.length_nil] at h2
    simp only [World.setVec]
    omega

theorem WInv.empty : WInv cfg World.empty [] :=
  ⟨fun i => by simp [World.empty, Rel], by simp [World.empty], by simp [World.empty], fun _ _ => rfl,
    fun _ => rfl, fun _ => rfl⟩

/-- Emptying a vector, as destruction and move assignment do first. -/
theorem Post.emptied {s s1 : S α} {xs : List α} (hF : Freed cfg s s1 xs) : Post cfg s { s1 with this := nullVec } xs [] := by
  refine ⟨nullVecOK _, fun b h _ => hF.other b h, .inr ⟨hF.gone, fun b hb => by simp [nullVec] at hb⟩, ?_, fun hk => ?_, fun _ => hF.moves⟩
  · simp only [hF.next, Nat.le_refl]
  · have := hF.dtors hk
    have := hF.ctors
    have := hF.moves
    simp only [List.length_nil] at *
    omega

theorem member_eq {i : Nat} {v : Vec} {x : V α Ret} {r : Ret} {s' : S α} (hv : w.vecs[i]? = some (some v))
    (h : x ⟨w.mem, v⟩ = (.ok r, s')) : w.member i x = (.ok r, ⟨s'.mem, w.vecs.set i (some s'.this)⟩) := by
  simp only [World.member, hv, h]

theorem construct_eq {x : V α Unit} {u : Unit} {s' : S α} (h : x ⟨w.mem, nullVec⟩ = (.ok u, s')) :
    w.construct x = (.ok .unit, ⟨s'.mem, w.vecs ++ [some s'.this]⟩) := by
  simp only [World.construct, h]

theorem set_self {l : List β} {i : Nat} {x : β} (h : l[i]? = some x) : l.set i x = l := by
  refine List.ext_getElem? (fun j => ?_)
  by_cases hj : i = j
  · subst hj; rw [List.getElem?_set_self (lt_of_getElem? h), h]
  · rw [List.getElem?_set_ne hj]

/-- Every operation called within the contract succeeds and acts on the contents as specified. -/
theorem wstep_ok [DecidableEq α] {op : WOp α} (hg : Good cfg) (hl : Lucky cfg w.mem) (h : WInv cfg w ys)
    (hc : WContract cfg w.capacity ys op) :
    ∃ r w', wstep cfg w op = (.ok r, w') ∧ WInv cfg w' (specWorld cfg.dflt ys op) ∧
      (r = specWRet ys op ∨ ∃ i a b, op = .call i (.eraseRange a b) ∧ r = .num b) := by
  have hnew : ∀ {x : V α Unit} {zs : List α}, Ok x ⟨w.mem, nullVec⟩ (fun _ s' => Post cfg ⟨w.mem, nullVec⟩ s' [] zs) →
      ∃ w', w.construct x = (.ok .unit, w') ∧ WInv cfg w' (ys ++ [some zs]) := by
    rintro x zs ⟨u, s', e, hp⟩
    exact ⟨_, construct_eq e, h.construct hp⟩
  cases op with
  | ctor =>
    obtain ⟨w', e, hw⟩ := hnew (x := setThis nullVec) (zs := []) (Ok.intro (setThis_apply _ _) (Post.refl (nullVecOK _)))
    exact ⟨_, _, e, hw, .inl rfl⟩
  | ctorSized n =>
    obtain ⟨w', e, hw⟩ := hnew (ctorSized_ok (s := ⟨w.mem, nullVec⟩) (x := cfg.dflt) hg hl rfl (Fits.lt hc))
    exact ⟨_, _, e, hw, .inl rfl⟩
  | ctorValue n x =>
    obtain ⟨w', e, hw⟩ := hnew (ctorSized_ok (s := ⟨w.mem, nullVec⟩) (x := x) hg hl rfl (Fits.lt hc))
    exact ⟨_, _, e, hw, .inl rfl⟩
  | ctorRange src =>
    obtain ⟨w', e, hw⟩ := hnew (ctorRange_ok (s := ⟨w.mem, nullVec⟩) hg hl rfl (Fits.lt hc.2) hc.1)
    exact ⟨_, _, e, hw, .inl rfl⟩
  | copyCtor j =>
    obtain ⟨⟨zs, hz⟩, hk⟩ := hc
    obtain ⟨u, hu, hok⟩ := h.vec hz
    obtain ⟨w', e, hw⟩ := hnew (coreCopy_ok (s := ⟨w.mem, nullVec⟩) hg hk h.fresh hl rfl hok)
    refine ⟨.unit, w', ?_, ?_, .inl rfl⟩
    · simp only [wstep, hu]; exact e
    · simpa [specWorld, hz] using hw
  | moveCtor j =>
    obtain ⟨zs, hz⟩ := hc
    obtain ⟨u, hu, hok⟩ := h.vec hz
    have hlen := h.len
    have hjl := lt_of_getElem? hu
    have hjy := lt_of_getElem? hz
    refine ⟨.unit, ⟨w.mem, w.vecs.set j (some nullVec) ++ [some u]⟩, ?_, ?_, .inl rfl⟩
    · simp only [wstep, hu]
    · have := h.new.swap (i := j) (j := w.vecs.length) (u := u) (v := nullVec) (xs := zs) (zs := [])
        (by simp only; rw [List.getElem?_append_left hjl, hu]) (by simp)
        (by rw [List.getElem?_append_left hjy, hz]) (by rw [hlen]; simp)
      simp only [World.setVec] at this
      rw [List.set_append_left _ _ hjl, List.set_append_right _ _ (by simp), List.set_append_left _ _ hjy,
        List.set_append_right _ _ (by simp [hlen])] at this
      simpa [specWorld, hz, hlen] using this
  | copyAssign i j =>
    obtain ⟨⟨xs, hx⟩, ⟨zs, hz⟩, hk⟩ := hc
    obtain ⟨u, hu, huok⟩ := h.vec hz
    obtain ⟨v, hv, hvok⟩ := h.vec hx
    by_cases hij : i = j
    · subst hij
      rw [hv] at hu
      obtain rfl : v = u := by simpa using hu
      refine ⟨.unit, w, ?_, ?_, .inl rfl⟩
      · simp only [wstep, hv, if_true]
        rw [member_eq (x := pure Ret.unit) (s' := ⟨w.mem, v⟩) hv (by rfl)]
        simp only [set_self hv]
      · simp only [specWorld, hx, Option.join_some]
        rw [set_self hx]
        exact h
    · obtain ⟨r, s', e, rfl, hp⟩ := noRet_ok (coreCopyAssign_ok (s := ⟨w.mem, v⟩) hg hk h.fresh hl hvok huok
        (fun b hb e => hij (h.sep i j v u b hv hu e hb)))
      refine ⟨.unit, ⟨s'.mem, w.vecs.set i (some s'.this)⟩, ?_, ?_, .inl rfl⟩
      · simp only [wstep, hu, if_neg hij]
        exact member_eq hv e
      · have := h.member hv hx hvok hp
        simpa [specWorld, hz] using this
  | moveAssign i j =>
    obtain ⟨⟨xs, hx⟩, ⟨zs, hz⟩⟩ := hc
    obtain ⟨u, hu, huok⟩ := h.vec hz
    obtain ⟨v, hv, hvok⟩ := h.vec hx
    by_cases hij : i = j
    · subst hij
      refine ⟨.unit, w, ?_, ?_, .inl rfl⟩
      · simp only [wstep, hv, if_true]
        rw [member_eq (x := pure Ret.unit) (s' := ⟨w.mem, v⟩) hv (by rfl)]
        simp only [set_self hv]
      · simp only [specWorld, if_true]
        exact h
    · obtain ⟨_, s1, e1, hF⟩ := coreDestroy_ok (s := ⟨w.mem, v⟩) hvok
      have em : noRet (coreMoveAssign cfg u) ⟨w.mem, v⟩ = (.ok .unit, { s1 with this := u }) := by
        unfold noRet coreMoveAssign
        rw [bind_apply, bind_ok e1]
        rfl
      have hil := lt_of_getElem? hv
      have hjl := lt_of_getElem? hu
      have hiy := lt_of_getElem? hx
      have hjy := lt_of_getElem? hz
      refine ⟨.unit, ⟨s1.mem, (w.vecs.set i (some u)).set j (some nullVec)⟩, ?_, ?_, .inl rfl⟩
      · simp only [wstep, hu, if_neg hij, member_eq hv em, World.setVec]
      · have h1 := h.member hv hx hvok (Post.emptied hF)
        have h2 := h1.swap (i := i) (j := j) (u := nullVec) (v := u) (xs := []) (zs := zs)
          (by simp only; rw [List.getElem?_set_self hil]) (by simp only; rw [List.getElem?_set_ne hij, hu])
          (by rw [List.getElem?_set_self hiy]) (by rw [List.getElem?_set_ne hij, hz])
        simp only [World.setVec, List.set_set] at h2
        simpa [specWorld, hz, hij, World.setVec] using h2
  | swap i j =>
    obtain ⟨⟨xs, hx⟩, ⟨zs, hz⟩⟩ := hc
    obtain ⟨u, hu, huok⟩ := h.vec hz
    obtain ⟨v, hv, hvok⟩ := h.vec hx
    refine ⟨.unit, (w.setVec i (some u)).setVec j (some v), ?_, ?_, .inl rfl⟩
    · simp only [wstep, hu, hv]
    · have := h.swap hv hu hx hz
      simpa [specWorld, hx, hz] using this
  | call i op =>
    obtain ⟨xs, hx, hc⟩ := hc
    obtain ⟨v, hv, hvok⟩ := h.vec hx
    have hcap : w.capacity i = v.edge := by simp only [World.capacity, hv]
    rw [hcap] at hc
    obtain ⟨r, s', e, hret, hp⟩ := step_ok (s := ⟨w.mem, v⟩) hg h.fresh hl hvok hc
    refine ⟨r, _, member_eq hv e, ?_, ?_⟩
    · have := h.member hv hx hvok hp
      simpa [specWorld, hx] using this
    · rcases hret with hret | ⟨a, b, rfl, hr⟩
      · left
        simp only [specWRet, hx]
        exact hret
      · exact .inr ⟨i, a, b, rfl, hr⟩
  | destroy i =>
    obtain ⟨xs, hx⟩ := hc
    obtain ⟨v, hv, hvok⟩ := h.vec hx
    obtain ⟨_, s1, e1, hF⟩ := coreDestroy_ok (s := ⟨w.mem, v⟩) hvok
    have em : noRet (coreDestroy cfg) ⟨w.mem, v⟩ = (.ok .unit, s1) := by
      unfold noRet
      rw [bind_ok e1]
      rfl
    have hil := lt_of_getElem? hv
    have hiy := lt_of_getElem? hx
    refine ⟨.unit, ⟨s1.mem, w.vecs.set i none⟩, ?_, ?_, .inl rfl⟩
    · simp only [wstep, member_eq hv em, World.setVec, List.set_set]
    · have h1 := h.member hv hx hvok (Post.emptied hF)
      have h2 := h1.kill (i := i) (by simp only; rw [List.getElem?_set_self hil]) (by rw [List.getElem?_set_self hiy])
      simp only [World.setVec, List.set_set] at h2
      simpa [specWorld, World.setVec] using h2

end Verif.Vector
