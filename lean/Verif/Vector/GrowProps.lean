import Verif.Vector.RoomProps
import Verif.Vector.Props2

/-!
C133: how many elements are moved in all while a vector is built.
-/

namespace Verif.Vector

open V

variable {α β γ : Type} {cfg : Cfg α} {s s' : S α} {w : World α} {i : Nat} {xs : List α}

/-! ### Specification -/

/-- The members that build up a vector or take elements away: `push_back`, `emplace_back`, `insert`, `emplace`,
`fill` with a filler that writes what it promises, `get_writebuffer`, and `erase`, `erase_if`, `pop_back`, `clear`,
`v[i] = x`. -/
def Op.builds : Op α → Bool
  | .pushBack _ _ _ | .insert _ _ _ _ | .insertN _ _ _ _ | .insertRange _ _ _ | .writeBuffer _ _
  | .erase _ | .eraseRange _ _ | .eraseValue _ | .eraseIf _ | .popBack | .clear | .set _ _ => true
  | .fill _ k l => k == l.length
  | _ => false

/-- How many elements calls add to a vector with the contents `xs`. -/
def added [DecidableEq α] (dflt : α) : List α → List (Op α) → Nat
  | _, [] => 0
  | xs, op :: ops => ((specStep dflt xs op).length - xs.length) + added dflt (specStep dflt xs op) ops

/-- Calls on vector `i` with the contents `xs`, each within its contract. -/
def Calls [DecidableEq α] (cfg : Cfg α) (i : Nat) : World α → List α → List (Op α) → Prop
  | _, _, [] => True
  | w, xs, op :: ops => InContract cfg (w.capacity i) xs op ∧
      Calls cfg i (wstep cfg w (.call i op)).2 (specStep cfg.dflt xs op) ops

/-- How many elements of vector `i` have to be moved to other storage in a sequence of calls: all that there are
whenever `data()` changes. -/
def moved [DecidableEq α] (cfg : Cfg α) (i : Nat) : World α → List (Op α) → Nat
  | _, [] => 0
  | w, op :: ops => (if (wstep cfg w (.call i op)).2.data i = w.data i then 0 else w.size i) +
      moved cfg i (wstep cfg w (.call i op)).2 ops

/-! ### Lemmas -/

/-- If `x` succeeds, `P` holds of the storage of the vector and the room in it. -/
def Ends (P : Option Nat → Nat → Prop) (x : V α β) (s : S α) : Prop :=
  ∀ b s', x s = (.ok b, s') → P s'.this.start s'.this.edge

variable {P : Option Nat → Nat → Prop}

theorem ends_bind {x : V α β} {f : β → V α γ} (hx : Ends P x s) (hf : ∀ b s', P s'.this.start s'.this.edge → Ends P (f b) s') :
    Ends P (x >>= f) s := by
  intro c s2 e
  change V.bind x f s = _ at e
  unfold V.bind at e
  rcases hr : x s with ⟨r, s1⟩
  rw [hr] at e
  cases r with
  | error e' => cases e
  | ok b => exact hf b s1 (hx b s1 hr) c s2 e

/-- What comes last counts. -/
theorem ends_after {x : V α β} {f : β → V α γ} (hf : ∀ b s', Ends P (f b) s') : Ends P (x >>= f) s := by
  intro c s2 e
  change V.bind x f s = _ at e
  unfold V.bind at e
  rcases hr : x s with ⟨r, s1⟩
  rw [hr] at e
  cases r with
  | error e' => cases e
  | ok b => exact hf b s1 c s2 e

theorem ends_elem {x : V α β} (hx : Elem x) (h : P s.this.start s.this.edge) : Ends P x s := by
  intro b s1 e
  have := (hx s).2
  rw [e] at this
  rw [this]
  exact h

theorem ends_bind_elem {x : V α β} {f : β → V α γ} (hx : Elem x)
    (hf : ∀ b s', s'.this = s.this → Ends P (f b) s') : Ends P (x >>= f) s := by
  intro c s2 e
  have := (hx s).2
  change V.bind x f s = _ at e
  unfold V.bind at e
  rcases hr : x s with ⟨r, s1⟩
  rw [hr] at e this
  cases r with
  | error e' => cases e
  | ok b => exact hf b s1 this c s2 e

theorem ends_bind_still {x : V α β} {f : β → V α γ} (hx : Elem x)
    (hf : ∀ b s', Still s s' → Ends P (f b) s') : Ends P (x >>= f) s := by
  intro c s2 e
  have := (hx s).1
  change V.bind x f s = _ at e
  unfold V.bind at e
  rcases hr : x s with ⟨r, s1⟩
  rw [hr] at e this
  cases r with
  | error e' => cases e
  | ok b => exact hf b s1 this c s2 e

theorem ends_this {f : Vec → V α γ} (hf : Ends P (f s.this) s) : Ends P (this >>= f) s := hf

theorem ends_set {v : Vec} (h : P v.start v.edge) : Ends P (setThis v) s := by
  intro b s1 e
  cases e
  exact h

theorem ends_bind_set {v : Vec} {f : Unit → V α γ} (hf : ∀ s', s'.this = v → Ends P (f ()) s') : Ends P (setThis v >>= f) s :=
  hf { s with this := v } rfl

theorem ends_pure {b : β} (h : P s.this.start s.this.edge) : Ends P (Pure.pure b) s := by
  intro c s1 e
  cases e
  exact h

theorem ends_doIf {c : Bool} {x : V α Unit} (h : P s.this.start s.this.edge) (hx : Ends P x s) : Ends P (doIf c x) s := by
  cases c
  · exact ends_pure h
  · exact hx

theorem ends_noRet {x : V α Unit} (h : Ends P x s) : Ends P (noRet x) s := ends_bind h fun _ _ h => ends_pure h

theorem ends_numRet {x : V α Nat} (h : Ends P x s) : Ends P (numRet x) s := ends_bind h fun _ _ h => ends_pure h

theorem elem_moveRangeNoOverlap (d p : Ptr) (n : Nat) : Elem (moveRangeNoOverlap cfg d p n) := by
  unfold moveRangeNoOverlap
  exact .bind (elem_assert _ _) fun _ => .bind (elem_assert _ _) fun _ => .bind (elem_count _ _ _ _) fun _ =>
    .ite (elem_copyBytes _ _ _ _) (elem_moveLoopFwd _ _ _)

theorem ends_free {p : Option Nat} (h : P s.this.start s.this.edge) : Ends P (free p) s := by
  intro b s1 e
  unfold free at e
  split at e
  · cases e; exact h
  · split at e
    · cases e
    · cases e; exact h

theorem ends_realloc {c : Nat} (h : ∀ b, P b c) : Ends P (reallocWithOldData cfg c) s := by
  unfold reallocWithOldData
  refine ends_this (ends_after fun _ s1 => ?_)
  split
  · exact ends_after fun _ _ => ends_after fun _ _ => ends_set (h _)
  · refine ends_after fun _ _ => ends_after fun p _ => ?_
    split
    · intro b s1 e; cases e
    · exact ends_after fun _ _ => ends_after fun _ _ => ends_set (h _)

theorem ends_reserve {c : Nat} (h0 : P s.this.start s.this.edge) (h : ∀ b, P b c) : Ends P (reserve cfg c) s :=
  ends_this (ends_doIf h0 (ends_realloc h))

theorem ends_emplace {c : Nat} {a : Ref α} (h : ∀ b, P b c) : Ends P (reallocAndEmplaceBack cfg c a) s := by
  unfold reallocAndEmplaceBack
  refine ends_this (ends_after fun _ s1 => ends_bind (P := P) ?_ fun _ s2 h2 => ends_this (ends_bind_set fun s3 h3 =>
    ends_bind_elem (elem_deref _) fun x s4 h4 => ends_bind_elem (elem_constructAt _ _) fun _ s5 h5 => ends_bind_elem ?_ fun _ s6 h6 => ?_))
  · unfold allocate
    refine ends_after fun _ _ => ends_after fun p s2 => ends_this ?_
    split
    · exact ends_set (h _)
    · exact ends_after fun _ _ => by intro b s1 e; cases e
  · unfold doIf
    exact .ite (elem_moveRangeNoOverlap _ _ _) (.pure _)
  · refine ends_free ?_
    rw [h6, h5, h4, h3]
    exact h2

/-- The storage is the same, or there is as much room as `compute_next_capacity` says. -/
def Grown (cfg : Cfg α) (v : Vec) (b : Option Nat) (e : Nat) : Prop := (b = v.start ∧ e = v.edge) ∨ nextCapacity cfg v.edge ≤ e

theorem Grown.refl {v : Vec} : Grown cfg v v.start v.edge := .inl ⟨rfl, rfl⟩

theorem compute_ge {n c : Nat} (e : computeNewCapacity cfg n s = (.ok c, s')) : s'.this = s.this ∧ nextCapacity cfg s.this.edge ≤ c := by
  unfold computeNewCapacity assert at e
  change V.bind this _ s = _ at e
  unfold V.bind at e
  simp only [this] at e
  split at e
  · cases e
  · cases e
    refine ⟨rfl, ?_⟩
    split <;> omega

theorem ends_compute {n : Nat} {f : Nat → V α γ} (hf : ∀ c s', s'.this = s.this → nextCapacity cfg s.this.edge ≤ c → Ends P (f c) s') :
    Ends P (computeNewCapacity cfg n >>= f) s := by
  intro b s2 e
  change V.bind _ f s = _ at e
  unfold V.bind at e
  rcases hr : computeNewCapacity cfg n s with ⟨r, s1⟩
  rw [hr] at e
  cases r with
  | error e' => cases e
  | ok c => exact hf c s1 (compute_ge hr).1 (compute_ge hr).2 b s2 e

theorem grown_makeRoom {safe : Bool} {pos n : Nat} {v : Vec} (hv : s.this = v) : Ends (Grown cfg v) (makeRoom cfg safe pos n) s := by
  subst hv
  unfold makeRoom
  refine ends_this (ends_bind (ends_doIf .refl (ends_compute fun c s1 h1 hc => ends_reserve (by rw [h1]; exact .refl) fun _ => .inr hc))
    fun _ s2 h2 => ends_this (ends_bind_elem (elem_assert _ _) fun _ s3 h3 => ends_elem (.ite (elem_moveForward _ _) (elem_moveBackward _ _)) ?_))
  rw [h3]
  exact h2

theorem ends_quiet {x y : V α β} (h : Quiet s x y s) : Ends (Grown cfg s.this) x s := by
  intro b s1 e
  have := h.2
  rw [e] at this
  exact .inl ⟨this.start, this.edge⟩

/-- A call of one of these members that moves the elements makes room for as many as `compute_next_capacity` says. -/
theorem grown_step [DecidableEq α] {op : Op α} (ho : op.builds = true) : Ends (Grown cfg s.this) (step cfg op) s := by
  unfold step
  refine ends_this ?_
  cases op with
  | pushBack sf e a =>
    refine ends_noRet ?_
    unfold pushBack
    refine ends_bind_elem elem_full fun f s1 h1 => ends_this ?_
    have put : ∀ {s2 : S α}, s2.this = s.this → Ends (Grown cfg s.this) (setThis { s1.this with fin := s1.this.fin + 1 } >>= fun _ =>
        putAt cfg e s1.this.finPtr (a.ref s.this)) s2 := fun h2 =>
      ends_bind_set fun s3 h3 => ends_elem (elem_putAt _ _ _) (by rw [h3, h1]; exact .refl)
    split
    · split
      · exact ends_emplace fun _ => .inr (by rw [h1]; exact Nat.le_refl _)
      · exact put h1
    · exact ends_bind_elem (elem_assert _ _) fun _ s2 h2 => put (h2.trans h1)
  | insert sf e pos a =>
    refine ends_numRet ?_
    unfold insertOne
    refine ends_this (ends_bind_elem (elem_assert _ _) fun _ s1 h1 => ends_bind (ends_doIf (by rw [h1]; exact .refl) (ends_bind_elem elem_full
      fun f s2 h2 => ends_doIf (by rw [h2, h1]; exact .refl) (ends_reserve (by rw [h2, h1]; exact .refl) fun _ => .inr (Nat.le_refl _))))
      fun _ s2 h2 => ends_bind_elem elem_full fun f s3 h3 => ends_bind_elem (elem_assert _ _) fun _ s4 h4 => ends_this ?_)
    have h4 : Grown cfg s.this s4.this.start s4.this.edge := by rw [h4, h3]; exact h2
    split
    · exact ends_bind_set fun s5 h5 => ends_bind_elem (elem_putAt _ _ _) fun _ s6 h6 => ends_pure (by rw [h6, h5]; exact h4)
    · exact ends_bind_elem (.ite (elem_moveBackward _ _) (elem_moveForward _ _)) fun _ s5 _ => ends_bind_elem (elem_putAt _ _ _) fun _ s6 _ =>
        ends_bind_set fun s7 h7 => ends_pure (by rw [h7]; exact h4)
  | insertN sf pos k a =>
    refine ends_numRet ?_
    unfold insertN
    exact ends_bind_elem (elem_assert _ _) fun _ s1 h1 => ends_this (ends_bind_elem (elem_assert _ _) fun _ s2 h2 =>
      ends_bind (grown_makeRoom (h2.trans h1)) fun _ s3 h3 => ends_this (ends_bind_elem (elem_constructRange _ _ _) fun _ s4 _ =>
        ends_bind_set fun s5 h5 => ends_pure (by rw [h5]; exact h3)))
  | insertRange sf pos src =>
    refine ends_numRet ?_
    unfold insertRange
    simp only
    split
    · exact ends_pure .refl
    · exact ends_bind (grown_makeRoom rfl) fun _ s3 h3 => ends_this (ends_bind_elem (elem_copyFromIterator _ _) fun _ s4 _ =>
        ends_bind_set fun s5 h5 => ends_pure (by rw [h5]; exact h3))
  | fill sf k l =>
    refine ends_noRet ?_
    unfold fill
    exact ends_this (ends_bind (ends_doIf .refl (ends_compute fun c s1 h1 hc => ends_realloc fun _ => .inr hc))
      fun _ s2 h2 => ends_this (ends_bind_elem (elem_constructList _ _) fun _ s3 _ => ends_set h2))
  | writeBuffer sf l =>
    refine ends_noRet ?_
    refine ends_bind (P := Grown cfg s.this) ?_ fun _ s1 h1 => ends_this (ends_elem (elem_constructList _ _) h1)
    unfold getWritebuffer
    exact ends_this (ends_bind (ends_doIf .refl (ends_compute fun c s1 h1 hc => ends_realloc fun _ => .inr hc))
      fun _ s2 h2 => ends_this (ends_bind_set fun s3 h3 => ends_pure (by rw [h3]; exact h2)))
  | erase _ => exact ends_numRet (ends_quiet (quiet_erase (g := cfg.malloc)))
  | eraseRange _ _ => exact ends_numRet (ends_quiet (quiet_eraseRange (g := cfg.malloc)))
  | eraseValue _ => exact ends_numRet (ends_quiet (quiet_eraseValue (g := cfg.malloc)))
  | eraseIf _ => exact ends_numRet (ends_quiet (quiet_eraseIf (g := cfg.malloc)))
  | popBack => exact ends_noRet (ends_quiet (quiet_popBack (g := cfg.malloc)))
  | clear => exact ends_noRet (ends_quiet (quiet_clear (g := cfg.malloc)))
  | set _ _ => exact ends_noRet (ends_elem (elem_setAt _ _) .refl)
  | resize _ | resizeValue _ _ | resizeRaw _ | assignN _ _ | assignRange _ | reserve _ | shrinkToFit => cases ho

/-- What these members need room for is what there is in the end, or there is no more than before. -/
theorem builds_needs [DecidableEq α] {op : Op α} {cap : Nat} {d : α} (ho : op.builds = true) (hc : InContract cfg cap xs op) :
    ∃ n, op.needs xs.length = some n ∧ ((n = (specStep d xs op).length ∧ (cap < n → Fits cfg n)) ∨ n = xs.length) := by
  obtain ⟨-, hc⟩ := hc
  have one : ∀ {a : Arg α}, (a.val xs).isSome → (a.val xs).toList.length = 1 := by
    intro a h
    cases ha : a.val xs with
    | none => rw [ha] at h; cases h
    | some x => rfl
  have safe : ∀ {sf : Bool} {n k : Nat}, (if sf then Fits cfg n else n ≤ cap) → k = n → cap < k → Fits cfg k := by
    intro sf n k h hk hlt
    subst hk
    cases sf
    · exact absurd hlt (Nat.not_lt.2 h)
    · exact h
  have outside : ∀ {a : Arg α}, a.outside = true → (a.val xs).isSome := by
    intro a h
    cases a with
    | ext x => rfl
    | own k => cases h
  have cut : ∀ {l : List α} {pos : Nat}, pos ≤ xs.length → (xs.take pos ++ l ++ xs.drop pos).length = xs.length + l.length := by
    intro l pos h
    simp only [List.length_append, List.length_take, List.length_drop]
    omega
  cases op with
  | pushBack sf e a => exact ⟨_, rfl, .inl ⟨by simp only [specStep, List.length_append]; rw [one hc.1], safe hc.2 rfl⟩⟩
  | insert sf e pos a => exact ⟨_, rfl, .inl ⟨by simp only [specStep]; rw [cut hc.1, one (outside hc.2.1)], safe hc.2.2 rfl⟩⟩
  | insertN sf pos k a =>
    refine ⟨_, rfl, .inl ⟨?_, safe hc.2.2.2 rfl⟩⟩
    simp only [specStep]
    rw [cut hc.1]
    have := outside hc.2.2.1
    cases ha : a.val xs with
    | none => rw [ha] at this; cases this
    | some x => simp
  | insertRange sf pos src => exact ⟨_, rfl, .inl ⟨by simp only [specStep]; rw [cut hc.1], safe hc.2.2 rfl⟩⟩
  | fill sf k l =>
    have : k = l.length := by simpa [Op.builds] using ho
    exact ⟨_, rfl, .inl ⟨by simp only [specStep, List.length_append]; omega, safe hc.2 rfl⟩⟩
  | writeBuffer sf l => exact ⟨_, rfl, .inl ⟨by simp only [specStep, List.length_append], fun _ => hc.1⟩⟩
  | erase _ | eraseRange _ _ | eraseValue _ | eraseIf _ | popBack | clear | set _ _ => exact ⟨_, rfl, .inr rfl⟩
  | resize _ | resizeValue _ _ | resizeRaw _ | assignN _ _ | assignRange _ | reserve _ | shrinkToFit => cases ho

/-- One call: the elements stay where they are, or what there is in the end did not fit and there is more room now. -/
theorem builds_step [DecidableEq α] {op : Op α} (hg : Good cfg) (hr : Reachable cfg w) (hl : Lucky cfg w.mem) (hx : w.Reads i xs)
    (ho : op.builds = true) (hc : InContract cfg (w.capacity i) xs op) :
    ∃ r w', wstep cfg w (.call i op) = (.ok r, w') ∧ Becomes cfg w w' i (specStep cfg.dflt xs op) ∧
      ((w'.data i = w.data i ∧ w'.capacity i = w.capacity i) ∨
        (w.capacity i < (specStep cfg.dflt xs op).length ∧ Fits cfg (w.capacity i) ∧ nextCapacity cfg (w.capacity i) ≤ w'.capacity i)) := by
  obtain ⟨r, w', e, hb, -⟩ := call_ok hg hr hl hx hc
  refine ⟨r, w', e, hb, ?_⟩
  obtain ⟨n, hn, hs⟩ := builds_needs (d := cfg.dflt) ho hc
  have hsz := size_le_capacity hg hr hx
  by_cases hle : n ≤ w.capacity i
  · have := fitting_in_place (cfg := cfg) (w := w) (i := i) (op := op) (by rw [hsz.1]; exact hn) hle
    rw [e] at this
    exact .inl ⟨this.1, this.2.1⟩
  · have hn : n = (specStep cfg.dflt xs op).length ∧ (w.capacity i < n → Fits cfg n) := by
      rcases hs with hs | hs
      · exact hs
      · rw [hsz.1] at hsz; omega
    obtain ⟨hn, hfit⟩ := hn
    have hfit := hfit (by omega)
    have hfit : Fits cfg (w.capacity i) := by
      unfold Fits at hfit ⊢
      have := Nat.mul_le_mul_right cfg.size (show w.capacity i ≤ n by omega)
      omega
    obtain ⟨v, hv, hok, hf⟩ := hr.vec hg hx
    change w.member i (step cfg op) = _ at e
    unfold World.member at e
    rw [hv] at e
    simp only at e
    rcases hst : step cfg op ⟨w.mem, v⟩ with ⟨r1, s1⟩
    rw [hst] at e
    simp only [Prod.mk.injEq] at e
    obtain ⟨rfl, rfl⟩ := e
    have := grown_step (cfg := cfg) ho r s1 hst
    rw [capacity_eq hv] at hfit
    rw [data_eq hv, capacity_eq hv, data_eq (set_vec hv), capacity_eq (set_vec hv)]
    rcases this with h | h
    · exact .inl h
    · refine .inr ⟨?_, hfit, h⟩
      rw [← hn]
      rw [capacity_eq hv] at hle
      omega

theorem building [DecidableEq α] (hg : Good cfg) (hl : ∀ k n, n < 2 ^ 63 → cfg.malloc k n = true) (ops : List (Op α)) :
    ∀ (w : World α) (xs : List α) (M T : Nat), Reachable cfg w → w.Reads i xs → (∀ op ∈ ops, op.builds = true) → Calls cfg i w xs ops →
      M ≤ 2 * w.capacity i → (w.capacity i < initCapacity cfg → M = 0) → M ≤ 3 * T → xs.length ≤ T →
      ∃ rs w', run cfg w (ops.map (.call i)) = (.ok rs, w') ∧ w'.Reads i (ops.foldl (specStep cfg.dflt) xs) ∧
        M + moved cfg i w ops ≤ 3 * (T + added cfg.dflt xs ops) := by
  induction ops with
  | nil =>
    intro w xs M T hr hx _ _ _ _ h3 _
    exact ⟨[], w, rfl, hx, by simpa [moved, added] using h3⟩
  | cons op ops ih =>
    intro w xs M T hr hx ho hc h1 h2 h3 h4
    obtain ⟨hc, hcs⟩ := hc
    obtain ⟨r, w1, e, hb, hcase⟩ := builds_step hg hr (fun n hn => hl _ n hn) hx (ho op (by simp)) hc
    rw [e] at hcs
    have hsz := size_le_capacity hg hr hx
    have hsz' := hsz.2.1
    rw [hsz.1] at hsz'
    have key : let k := if w1.data i = w.data i then 0 else w.size i
        M + k ≤ 2 * w1.capacity i ∧ (w1.capacity i < initCapacity cfg → M + k = 0) ∧
        M + k ≤ 3 * (T + ((specStep cfg.dflt xs op).length - xs.length)) := by
      intro k
      have hk : k ≤ xs.length := by
        show (if _ then _ else _) ≤ _
        split
        · exact Nat.zero_le _
        · rw [hsz.1]
          exact Nat.le_refl _
      rcases hcase with ⟨g1, g2⟩ | ⟨g1, hfc, g2⟩
      · have : k = 0 := if_pos g1
        rw [this, g2]
        exact ⟨h1, h2, by omega⟩
      · obtain ⟨f1, f2, _, _⟩ := nextCapacity_grows hg hfc
        have f3 := (nextCapacity_ok hg hfc).1
        refine ⟨?_, fun h => by omega, by omega⟩
        by_cases hi : initCapacity cfg ≤ w.capacity i
        · have := f1 hi
          omega
        · have := h2 (by omega)
          omega
    obtain ⟨rs, w2, e2, hx2, hm⟩ := ih w1 (specStep cfg.dflt xs op) _ _ hb.goesOn hb.reads (fun o h => ho o (by simp [h])) hcs key.1 key.2.1 key.2.2 (by omega)
    refine ⟨r :: rs, w2, ?_, hx2, ?_⟩
    · simp only [List.map_cons, run, e, e2]
    · simp only [moved, added, e]
      omega

/-- C133: however a vector is built by calls of these members, each within its contract, the elements moved to other
storage are in all at most three for each element there was or was added. Partial: `resize` is left out, see
`resize_moves_violated`. -/
theorem building_moves_partial [DecidableEq α] {ops : List (Op α)} (hg : Good cfg) (hl : ∀ k n, n < 2 ^ 63 → cfg.malloc k n = true)
    (hr : Reachable cfg w) (hx : w.Reads i xs) (ho : ∀ op ∈ ops, op.builds = true) (hc : Calls cfg i w xs ops) :
    (∃ rs w', run cfg w (ops.map (.call i)) = (.ok rs, w') ∧ w'.Reads i (ops.foldl (specStep cfg.dflt) xs)) ∧
      moved cfg i w ops ≤ 3 * (xs.length + added cfg.dflt xs ops) := by
  obtain ⟨rs, w', h1, h2, h3⟩ := building hg hl ops w xs 0 xs.length hr hx ho hc (by omega) (fun _ => rfl) (by omega) (Nat.le_refl _)
  exact ⟨⟨rs, w', h1, h2⟩, by omega⟩

/-- Vector 0 of the example: an element is put in front of it, others in the middle and at the end, some taken away. -/
example : let ops : List (Op Nat) := [.insert true false 0 (.ext 8), .pushBack true true (.own 1), .erase 2, .insertN true 1 9 (.ext 4), .eraseValue (.ext 4),
      .insertRange true 3 (.forward [1, 2, 3, 4, 5, 6, 7]), .fill true 2 [5, 5], .popBack]
    (∃ rs w', run (exCfg .mov) (exWorld .mov) (ops.map (.call 0)) = (.ok rs, w') ∧ w'.Reads 0 [8, 3, 9, 1, 2, 3, 4, 5, 6, 7, 2, 3, 3, 5]) ∧
      moved (exCfg .mov) 0 (exWorld .mov) ops = 12 ∧ added (exCfg .mov).dflt [3, 1, 9, 2, 3] ops = 20 := by
  intro ops
  refine ⟨?_, by decide +kernel, by decide +kernel⟩
  refine (building_moves_partial (cfg := exCfg .mov) (ops := ops) exGood (fun _ _ _ => rfl) exReach exReads.1 (by decide) ?_).1
  have hf : ∀ n, n ≤ 30 → Fits (exCfg .mov) n := fun n h => by
    show 2 * (n * 16) < 2 ^ 63
    omega
  exact ⟨⟨fun h => (by cases h), by decide, rfl, hf 6 (by decide)⟩, ⟨fun h => (by cases h), by decide, hf 7 (by decide)⟩, ⟨trivial, (show 2 < 7 by decide)⟩,
    ⟨fun h => (by cases h), by decide, by decide, rfl, hf 15 (by decide)⟩, ⟨fun h => (by cases h), rfl⟩,
    ⟨fun h => (by cases h), by decide, trivial, hf 13 (by decide)⟩, ⟨trivial, by decide, hf 15 (by decide)⟩, ⟨trivial, (show [8, 3, 9, 1, 2, 3, 4, 5, 6, 7, 2, 3, 3, 5, 5] ≠ [] by decide)⟩, trivial⟩

/-- Growing a full vector by one with `resize`. -/
theorem resize_step [DecidableEq α] (hg : Good cfg) (hl : Lucky cfg w.mem) (hr : Reachable cfg w) (hx : w.Reads i xs)
    (hfull : w.capacity i = xs.length) (hfit : Fits cfg (xs.length + 1)) :
    ∃ r w', wstep cfg w (.call i (.resize (xs.length + 1))) = (.ok r, w') ∧ Becomes cfg w w' i (xs ++ [cfg.dflt]) ∧
      w'.capacity i = xs.length + 1 ∧ (xs ≠ [] → w'.data i ≠ w.data i) := by
  obtain ⟨r, w', e, hb, -⟩ := call_ok (op := .resize (xs.length + 1)) hg hr hl hx ⟨trivial, hfit⟩
  have hs : specStep cfg.dflt xs (.resize (xs.length + 1)) = xs ++ [cfg.dflt] := by
    simp only [specStep]
    rw [List.take_of_length_le (by omega), show xs.length + 1 - xs.length = 1 by omega]
    rfl
  rw [hs] at hb
  refine ⟨r, w', e, hb, ?_⟩
  obtain ⟨v, hv, hok, hf⟩ := hr.vec hg hx
  change w.member i (step cfg (.resize (xs.length + 1))) = _ at e
  unfold World.member at e
  rw [hv] at e
  simp only at e
  rcases hst : step cfg (.resize (xs.length + 1)) ⟨w.mem, v⟩ with ⟨r1, s1⟩
  rw [hst] at e
  simp only [Prod.mk.injEq] at e
  obtain ⟨rfl, rfl⟩ := e
  rw [capacity_eq hv] at hfull
  rw [data_eq hv, data_eq (set_vec hv), capacity_eq (set_vec hv)]
  have hfin := hok.fin_eq
  refine ends_noRet (P := fun b e => e = xs.length + 1 ∧ (xs ≠ [] → b ≠ v.start)) ?_ r s1 hst
  unfold resize
  refine ends_this ?_
  rw [if_pos (by show xs.length + 1 > v.fin; omega)]
  refine ends_bind (P := fun b e => e = xs.length + 1 ∧ (xs ≠ [] → b ≠ v.start)) ?_ fun _ s2 h2 => ends_this (ends_bind_set fun s3 h3 =>
    ends_elem (.ite (elem_constructRange _ _ _) (.pure _)) (by rw [h3]; exact h2))
  unfold doIf
  rw [if_pos (decide_eq_true (by show xs.length + 1 > v.edge; omega))]
  unfold reallocWithOldData
  refine ends_this (ends_bind_still (elem_assert _ _) fun _ s2 h2 => ?_)
  rcases hok with ⟨rfl, rfl⟩ | ⟨b, B, rfl, hB, hb⟩
  · exact ends_after fun _ _ => ends_after fun _ _ => ends_set ⟨rfl, fun h => absurd rfl h⟩
  · have hlt : b < w.mem.next := by
      refine Nat.lt_of_not_le fun h => ?_
      rw [hf b h] at hB
      cases hB
    refine ends_bind_still (elem_assert _ _) fun _ s3 h3 => ?_
    have hn : s3.mem.next = w.mem.next := h3.next.trans h2.next
    intro c s6 e6
    change V.bind _ _ _ = _ at e6
    unfold V.bind malloc at e6
    simp only at e6
    have hok : cfg.malloc s3.mem.next (mul64 (xs.length + 1) cfg.size) = true := by
      rw [hn]
      refine hl _ ?_
      unfold Fits at hfit
      rw [mul64_of_lt (by omega)]
      omega
    rw [if_pos hok] at e6
    refine ends_after (P := fun b' e => e = xs.length + 1 ∧ (xs ≠ [] → b' ≠ some b)) (fun _ s4 => ends_after fun _ s5 => ends_set ⟨rfl, fun _ => ?_⟩) c s6 e6
    show some s3.mem.next ≠ some b
    rw [hn]
    intro h
    cases h
    omega

/-- C133 violated: `resize` makes just the room needed. Growing a full vector of `m` elements with `resize`, by one
element at a time and `n` times, moves `m + (m + 1) + ... + (m + n - 1)` elements, for every `n`. -/
theorem resize_moves_violated [DecidableEq α] (hg : Good cfg) (hl : ∀ k n, n < 2 ^ 63 → cfg.malloc k n = true) (n : Nat) :
    ∀ (w : World α) (xs : List α), Reachable cfg w → w.Reads i xs → w.capacity i = xs.length → Fits cfg (xs.length + n) →
      2 * moved cfg i w ((List.range n).map fun k => .resize (xs.length + k + 1)) + n = n * (2 * xs.length + n) := by
  induction n with
  | zero => intros; simp [moved]
  | succ n ih =>
    intro w xs hr hx hc hfit
    have hfit1 : Fits cfg (xs.length + 1) := by
      unfold Fits at hfit ⊢
      have : (xs.length + 1) * cfg.size ≤ (xs.length + (n + 1)) * cfg.size := Nat.mul_le_mul_right _ (by omega)
      omega
    obtain ⟨r, w1, e, hb, hc1, hd⟩ := resize_step hg (fun n hn => hl _ n hn) hr hx hc hfit1
    have hlen : (xs ++ [cfg.dflt]).length = xs.length + 1 := by simp
    have := ih w1 (xs ++ [cfg.dflt]) hb.goesOn hb.reads (by rw [hc1, hlen]) (by rw [hlen]; simpa [Nat.add_assoc, Nat.add_comm 1] using hfit)
    rw [hlen] at this
    rw [List.range_succ_eq_map, List.map_cons, List.map_map]
    have hsz := (size_le_capacity hg hr hx).1
    have hk : (if w1.data i = w.data i then 0 else w.size i) = xs.length := by
      by_cases h : xs = []
      · subst h; rw [hsz]; split <;> rfl
      · rw [if_neg (hd h), hsz]
    have hf : ((fun k => Op.resize (xs.length + k + 1)) ∘ Nat.succ : Nat → Op α) = fun k => .resize (xs.length + 1 + k + 1) := by
      funext k
      show Op.resize (xs.length + (k + 1) + 1) = _
      rw [show xs.length + (k + 1) + 1 = xs.length + 1 + k + 1 by omega]
    rw [hf]
    simp only [moved, Nat.add_zero, e, hk]
    have h1 : (n + 1) * (2 * xs.length + (n + 1)) = n * (2 * (xs.length + 1) + n) + 2 * xs.length + 1 := by
      simp only [Nat.add_mul, Nat.mul_add, Nat.one_mul, Nat.mul_one, Nat.mul_comm 2]
      omega
    omega

/-- Vector 2 of the example is full and has 2 elements; 100 calls move 5150. -/
example : moved (exCfg .mov) 2 (exWorld .mov) ((List.range 100).map fun k => .resize (2 + k + 1)) = 5150 := by
  have := resize_moves_violated (cfg := exCfg .mov) (i := 2) exGood (fun _ _ _ => rfl) 100 (exWorld .mov) _ exReach exReads.2.2 (by decide +kernel)
    (by unfold Fits exCfg; decide)
  simp only [List.length_cons, List.length_nil, Nat.zero_add, Nat.reduceAdd, Nat.reduceMul] at this ⊢
  omega

end Verif.Vector
