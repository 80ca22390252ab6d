import Verif.Vector.GrowProps

/-!
C135: how much room the vectors of a program have at most.
-/

namespace Verif.Vector

open V

variable {α β γ : Type} {cfg : Cfg α} {s s' : S α} {w w' : World α} {i : Nat} {xs : List α} {ys : Contents α}

/-! ### Specification -/

/-- The number of elements an operation of a program asks room for: what a constructor or a copy has to hold, what is in
the vector after a call, what `reserve` is given, what `fill` is promised. -/
def WOp.asks (ys : Contents α) : WOp α → Nat
  | .ctorSized n | .ctorValue n _ => n
  | .ctorRange src => src.list.length
  | .copyCtor j | .copyAssign _ j =>
    match ys[j]? with
    | some (some xs) => xs.length
    | _ => 0
  | .call i op =>
    match ys[i]? with
    | some (some xs) =>
      match op.needs xs.length with
      | some n => n
      | none => 0
    | _ => 0
  | .ctor | .moveCtor _ | .moveAssign _ _ | .swap _ _ | .destroy _ => 0

/-- The largest number of elements an operation of a program asks room for. -/
def mostAsked [DecidableEq α] (dflt : α) : Contents α → List (WOp α) → Nat
  | _, [] => 0
  | ys, op :: ops => max (op.asks ys) (mostAsked dflt (specWorld dflt ys op) ops)

/-! ### Lemmas -/

/-- Every vector has room for at most `B` elements. -/
def Capped (B : Nat) (w : World α) : Prop := ∀ i, w.capacity i ≤ B

theorem initCapacity_eq : initCapacity cfg ≤ max 1 (64 / cfg.size) := by
  unfold initCapacity
  split <;> omega

theorem nextCapacity_le (c : Nat) : nextCapacity cfg c ≤ max (initCapacity cfg) (2 * c) := by
  unfold nextCapacity
  split
  · have h1 : mul64 c 3 ≤ c * 3 := Nat.mod_le _ _
    have h2 : add64 (mul64 c 3) 1 ≤ mul64 c 3 + 1 := Nat.mod_le _ _
    next h =>
      by_cases hc : c = 0
      · subst hc
        have := h.2
        have : add64 (mul64 0 3) 1 ≤ 1 := Nat.le_trans h2 (by omega)
        omega
      · omega
  · split
    · have : mul64 c 2 ≤ c * 2 := Nat.mod_le _ _
      omega
    · omega

section
variable {B : Nat}

theorem compute_le {n c : Nat} (e : computeNewCapacity cfg n s = (.ok c, s')) (h1 : nextCapacity cfg s.this.edge ≤ B) (h2 : n ≤ B) : c ≤ B := by
  unfold computeNewCapacity assert at e
  change V.bind this _ s = _ at e
  unfold V.bind at e
  simp only [this] at e
  split at e
  · cases e
  · cases e
    split <;> omega

theorem cap_compute {n : Nat} {f : Nat → V α γ} (h1 : nextCapacity cfg s.this.edge ≤ B) (h2 : n ≤ B)
    (hf : ∀ c s', s'.this = s.this → c ≤ B → Ends (fun _ e => e ≤ B) (f c) s') :
    Ends (fun _ e => e ≤ B) (computeNewCapacity cfg n >>= f) s := by
  intro b s2 e
  change V.bind _ f s = _ at e
  unfold V.bind at e
  rcases hr : computeNewCapacity cfg n s with ⟨r, s1⟩
  rw [hr] at e
  cases r with
  | error e' => cases e
  | ok c => exact hf c s1 (compute_ge hr).1 (compute_le hr h1 h2) b s2 e

theorem cap_makeRoom {safe : Bool} {pos n : Nat} (h0 : s.this.edge ≤ B) (h1 : nextCapacity cfg s.this.edge ≤ B) (h2 : s.this.fin + n ≤ B) :
    Ends (fun _ e => e ≤ B) (makeRoom cfg safe pos n) s := by
  unfold makeRoom
  refine ends_this (ends_bind (P := fun _ e => e ≤ B) (ends_doIf h0 (cap_compute h1 (Nat.le_trans (Nat.mod_le _ _) h2) fun c s1 he hc => ends_reserve (by rw [he]; exact h0) fun _ => hc))
    fun _ s2 h2 => ends_this (ends_bind_elem (elem_assert _ _) fun _ s3 h3 => ends_elem (.ite (elem_moveForward _ _) (elem_moveBackward _ _)) ?_))
  rw [h3]
  exact h2

theorem cap_allocate {c : Nat} (h : c ≤ B) : Ends (fun _ e => e ≤ B) (allocate cfg c) s := by
  unfold allocate
  refine ends_after fun _ _ => ends_after fun p s2 => ends_this ?_
  split
  · exact ends_set h
  · exact ends_after fun _ _ => by intro b s1 e; cases e

theorem cap_drop {c : Nat} (h : c ≤ B) : Ends (fun _ e => e ≤ B) (reallocDropOldData cfg c) s := by
  unfold reallocDropOldData
  exact ends_after fun _ _ => cap_allocate h

theorem cap_quiet {x y : V α β} (h : Quiet s x y s) (h0 : s.this.edge ≤ B) : Ends (fun _ e => e ≤ B) x s := by
  intro b s1 e
  have := h.2
  rw [e] at this
  change s1.this.edge ≤ B
  rw [this.edge]
  exact h0

theorem cap_resize {b : Bool} {n : Nat} {a : Ref α} (h0 : s.this.edge ≤ B) (hn : n ≤ B) : Ends (fun _ e => e ≤ B) (resize cfg b n a) s := by
  unfold resize
  refine ends_this ?_
  split
  · exact ends_bind (P := fun _ e => e ≤ B) (ends_doIf h0 (ends_realloc fun _ => hn)) fun _ s1 h1 => ends_this (ends_bind_set fun s2 h2 =>
      ends_doIf (by rw [h2]; exact h1) (ends_elem (elem_constructRange _ _ _) (by rw [h2]; exact h1)))
  · exact ends_bind_set fun s2 h2 => ends_elem (elem_destroyRange _ _) (by rw [h2]; exact h0)

/-- A call that succeeds leaves room for at most `B` elements, if that is enough for what there was, for what
`compute_next_capacity` says, and for what is asked. -/
theorem cap_step [DecidableEq α] {op : Op α} (h0 : s.this.edge ≤ B) (hf : s.this.fin ≤ s.this.edge)
    (hn : ∀ n, op.needs s.this.fin = some n → n ≤ B ∧ nextCapacity cfg s.this.edge ≤ B) :
    Ends (fun _ e => e ≤ B) (step cfg op) s := by
  unfold step
  refine ends_this ?_
  cases op with
  | pushBack sf e a =>
    have hn := (hn _ rfl).2
    refine ends_noRet ?_
    unfold pushBack
    refine ends_bind_elem elem_full fun f s1 h1 => ends_this ?_
    have put : ∀ {s2 : S α}, s2.this = s.this → Ends (fun _ e => e ≤ B) (setThis { s1.this with fin := s1.this.fin + 1 } >>= fun _ =>
        putAt cfg e s1.this.finPtr (a.ref s.this)) s2 := fun h2 =>
      ends_bind_set fun s3 h3 => ends_elem (elem_putAt _ _ _) (by rw [h3, h1]; exact h0)
    split
    · split
      · exact ends_emplace fun _ => by rw [h1]; exact hn
      · exact put h1
    · exact ends_bind_elem (elem_assert _ _) fun _ s2 h2 => put (h2.trans h1)
  | insert sf e pos a =>
    have hn := (hn _ rfl).2
    refine ends_numRet ?_
    unfold insertOne
    refine ends_this (ends_bind_elem (elem_assert _ _) fun _ s1 h1 => ends_bind (P := fun _ e => e ≤ B) (ends_doIf (by rw [h1]; exact h0) (ends_bind_elem elem_full
      fun f s2 h2 => ends_doIf (by rw [h2, h1]; exact h0) (ends_reserve (by rw [h2, h1]; exact h0) fun _ => hn)))
      fun _ s2 h2 => ends_bind_elem elem_full fun f s3 h3 => ends_bind_elem (elem_assert _ _) fun _ s4 h4 => ends_this ?_)
    have h4 : s4.this.edge ≤ B := by rw [h4, h3]; exact h2
    split
    · exact ends_bind_set fun s5 h5 => ends_bind_elem (elem_putAt _ _ _) fun _ s6 h6 => ends_pure (by rw [h6, h5]; exact h4)
    · exact ends_bind_elem (.ite (elem_moveBackward _ _) (elem_moveForward _ _)) fun _ s5 _ => ends_bind_elem (elem_putAt _ _ _) fun _ s6 _ =>
        ends_bind_set fun s7 h7 => ends_pure (by rw [h7]; exact h4)
  | insertN sf pos k a =>
    obtain ⟨h2, h1⟩ := hn _ rfl
    refine ends_numRet ?_
    unfold insertN
    exact ends_bind_elem (elem_assert _ _) fun _ s1 e1 => ends_this (ends_bind_elem (elem_assert _ _) fun _ s2 e2 =>
      ends_bind (P := fun _ e => e ≤ B) (cap_makeRoom (by rw [e2, e1]; exact h0) (by rw [e2, e1]; exact h1) (by rw [e2, e1]; exact h2))
        fun _ s3 h3 => ends_this (ends_bind_elem (elem_constructRange _ _ _) fun _ s4 _ =>
        ends_bind_set fun s5 h5 => ends_pure (by rw [h5]; exact h3)))
  | insertRange sf pos src =>
    obtain ⟨h2, h1⟩ := hn _ rfl
    refine ends_numRet ?_
    unfold insertRange
    simp only
    split
    · exact ends_pure h0
    · exact ends_bind (P := fun _ e => e ≤ B) (cap_makeRoom h0 h1 h2) fun _ s3 h3 => ends_this (ends_bind_elem (elem_copyFromIterator _ _) fun _ s4 _ =>
        ends_bind_set fun s5 h5 => ends_pure (by rw [h5]; exact h3))
  | fill sf k l =>
    obtain ⟨h2, h1⟩ := hn _ rfl
    refine ends_noRet ?_
    unfold fill
    exact ends_this (ends_bind (P := fun _ e => e ≤ B) (ends_doIf h0 (cap_compute h1 (Nat.le_trans (Nat.mod_le _ _) (by omega)) fun c s1 _ hc => ends_realloc fun _ => hc))
      fun _ s2 h2 => ends_this (ends_bind_elem (elem_constructList _ _) fun _ s3 _ => ends_set h2))
  | writeBuffer sf l =>
    obtain ⟨h2, h1⟩ := hn _ rfl
    refine ends_noRet ?_
    refine ends_bind (P := fun _ e => e ≤ B) ?_ fun _ s1 h1 => ends_this (ends_elem (elem_constructList _ _) h1)
    unfold getWritebuffer
    exact ends_this (ends_bind (P := fun _ e => e ≤ B) (ends_doIf h0 (cap_compute h1 (by omega) fun c s1 _ hc => ends_realloc fun _ => hc))
      fun _ s2 h2 => ends_this (ends_bind_set fun s3 h3 => ends_pure (by rw [h3]; exact h2)))
  | erase _ => exact ends_numRet (cap_quiet (quiet_erase (g := cfg.malloc)) h0)
  | eraseRange _ _ => exact ends_numRet (cap_quiet (quiet_eraseRange (g := cfg.malloc)) h0)
  | eraseValue _ => exact ends_numRet (cap_quiet (quiet_eraseValue (g := cfg.malloc)) h0)
  | eraseIf _ => exact ends_numRet (cap_quiet (quiet_eraseIf (g := cfg.malloc)) h0)
  | popBack => exact ends_noRet (cap_quiet (quiet_popBack (g := cfg.malloc)) h0)
  | clear => exact ends_noRet (cap_quiet (quiet_clear (g := cfg.malloc)) h0)
  | set _ _ => exact ends_noRet (ends_elem (elem_setAt _ _) h0)
  | resize n => exact ends_noRet (cap_resize h0 (hn _ rfl).1)
  | resizeValue n _ => exact ends_noRet (cap_resize h0 (hn _ rfl).1)
  | resizeRaw l =>
    exact ends_noRet (ends_bind (P := fun _ e => e ≤ B) (cap_resize h0 (hn _ rfl).1) fun _ s1 h1 =>
      ends_this (ends_elem (elem_constructList _ _) h1))
  | assignN n a =>
    have hn := (hn _ rfl).1
    refine ends_noRet ?_
    unfold assignN
    refine ends_this (ends_bind (P := fun _ e => e ≤ B) ?_ fun _ s1 h1 => ends_this (ends_bind_set fun s2 h2 =>
      ends_elem (elem_constructRange _ _ _) (by rw [h2]; exact h1)))
    split
    · exact cap_drop hn
    · exact ends_elem elem_destroyAll h0
  | assignRange src =>
    have hn := (hn _ rfl).1
    refine ends_noRet ?_
    unfold assignRange
    refine ends_this ?_
    simp only
    split
    · exact ends_bind (P := fun _ e => e ≤ B) (cap_drop hn) fun _ s1 h1 => ends_this (ends_bind_elem (elem_copyFromIterator _ _) fun _ s2 _ => ends_set h1)
    · refine ends_bind_elem elem_destroyAll fun _ s1 e1 => ?_
      split
      · exact ends_bind_elem (elem_copyFromIterator _ _) fun _ s2 _ => ends_set h0
      · exact ends_pure (by rw [e1]; exact h0)
  | reserve n => exact ends_noRet (ends_reserve h0 fun _ => (hn _ rfl).1)
  | shrinkToFit =>
    refine ends_noRet ?_
    unfold shrinkToFit
    refine ends_this ?_
    split
    · exact ends_pure h0
    · split
      · exact ends_after fun _ _ => ends_set (Nat.zero_le _)
      · exact ends_realloc fun _ => Nat.le_trans hf h0

theorem Capped.construct {x : V α Unit} {r : Ret} (h : Capped B w) (hx : Ends (fun _ e => e ≤ B) x ⟨w.mem, nullVec⟩)
    (e : w.construct x = (.ok r, w')) : Capped B w' := by
  unfold World.construct at e
  rcases hr : x ⟨w.mem, nullVec⟩ with ⟨q, s1⟩
  rw [hr] at e
  cases q with
  | error f => cases e
  | ok u =>
    cases e
    intro i
    have hi := h i
    have := hx u s1 hr
    unfold World.capacity at *
    simp only [List.getElem?_append]
    split
    · next hv =>
      split at hv
      · rw [hv] at hi; exact hi
      · cases hk : i - w.vecs.length with
        | zero => rw [hk] at hv; cases hv; exact this
        | succ k => rw [hk] at hv; cases hv
    · exact Nat.zero_le _

theorem Capped.set {v : Option Vec} {m : Mem α} (h : Capped B w) (hv : ∀ u, v = some u → u.edge ≤ B) (i : Nat) :
    Capped B ⟨m, w.vecs.set i v⟩ := by
  intro j
  have hj := h j
  unfold World.capacity at *
  simp only
  split
  · next u hu =>
    rw [List.getElem?_set] at hu
    split at hu
    · split at hu
      · cases hu; exact hv u rfl
      · cases hu
    · rw [hu] at hj; exact hj
  · exact Nat.zero_le _

theorem Capped.get {v : Vec} (h : Capped B w) (hv : w.vecs[i]? = some (some v)) : v.edge ≤ B := by
  have := h i
  rw [capacity_eq hv] at this
  exact this

theorem Capped.member {x : V α Ret} {r : Ret} (h : Capped B w)
    (hx : ∀ v, w.vecs[i]? = some (some v) → Ends (fun _ e => e ≤ B) x ⟨w.mem, v⟩) (e : w.member i x = (.ok r, w')) : Capped B w' := by
  unfold World.member at e
  split at e
  · next v hv =>
    rcases hr : x ⟨w.mem, v⟩ with ⟨q, s1⟩
    rw [hr] at e
    simp only [Prod.mk.injEq] at e
    obtain ⟨rfl, rfl⟩ := e
    exact h.set (fun u hu => by cases hu; exact hx v hv r s1 hr) i
  · cases e

theorem capped_step [DecidableEq α] {op : WOp α} (hg : Good cfg) (hl : Lucky cfg w.mem) (hw : WInv cfg w ys)
    (hc : WContract cfg w.capacity ys op) (h : Capped B w) (hi : initCapacity cfg ≤ B) (ha : 2 * op.asks ys ≤ B) :
    Capped B (wstep cfg w op).2 := by
  obtain ⟨r, w', e, -, -⟩ := wstep_ok hg hl hw hc
  rw [e]
  simp only
  cases op with
  | ctor => exact h.construct (ends_set (Nat.zero_le _)) e
  | ctorSized n | ctorValue n x =>
    simp only [WOp.asks] at ha
    refine h.construct ?_ e
    unfold ctorSized coreSized
    refine ends_bind (P := fun _ e => e ≤ B) (ends_after fun _ s1 => ?_) fun _ s1 h1 => ends_this (ends_doIf h1 (ends_elem (elem_constructRange _ _ _) h1))
    split
    · exact ends_bind (P := fun _ e => e ≤ B) (cap_allocate (by omega)) fun _ s2 h2 => ends_this (ends_set h2)
    · exact ends_set (Nat.zero_le _)
  | ctorRange src =>
    simp only [WOp.asks] at ha
    refine h.construct ?_ e
    unfold ctorRange
    refine ends_bind_set fun s1 h1 => ends_bind_elem (elem_assert _ _) fun _ s2 h2 => ?_
    split
    · exact ends_bind (P := fun _ e => e ≤ B) (cap_allocate (by omega)) fun _ s3 h3 => ends_this (ends_bind_elem (elem_copyFromIterator _ _) fun _ _ _ => ends_set h3)
    · exact ends_pure (by rw [h2, h1]; exact Nat.zero_le _)
  | copyCtor j =>
    obtain ⟨⟨xs, hy⟩, -⟩ := hc
    simp only [WOp.asks, hy] at ha
    obtain ⟨u, hu, hok⟩ := hw.vec hy
    simp only [wstep, hu] at e
    have hfin : u.fin = xs.length := hok.fin_eq
    refine h.construct ?_ e
    unfold coreCopy
    split
    · exact ends_bind (P := fun _ e => e ≤ B) (cap_allocate (by omega)) fun _ s3 h3 => ends_this (ends_after fun _ _ => ends_set h3)
    · exact ends_set (Nat.zero_le _)
  | moveCtor j =>
    obtain ⟨xs, hy⟩ := hc
    obtain ⟨u, hu, hok⟩ := hw.vec hy
    simp only [wstep, hu] at e
    cases e
    have h1 : Capped B ⟨w.mem, w.vecs.set j (some nullVec)⟩ := h.set (fun _ hv => by cases hv; exact Nat.zero_le _) j
    refine Capped.construct (x := setThis u) h1 (ends_set (h.get hu)) (r := .unit) rfl
  | copyAssign i j =>
    obtain ⟨-, ⟨xs, hy⟩, -⟩ := hc
    simp only [WOp.asks, hy] at ha
    obtain ⟨u, hu, hok⟩ := hw.vec hy
    simp only [wstep, hu] at e
    have hfin : u.fin = xs.length := hok.fin_eq
    refine h.member (fun v hv => ?_) e
    have hvB := h.get hv
    split
    · exact ends_pure hvB
    · refine ends_noRet ?_
      unfold coreCopyAssign
      simp only
      refine ends_this ?_
      split
      · exact ends_after fun _ _ => ends_after fun _ _ => ends_bind (P := fun _ e => e ≤ B) (cap_allocate (by omega)) fun _ s3 h3 => ends_this (ends_after fun _ _ => ends_set h3)
      · refine ends_after fun _ _ => ?_
        split
        · exact ends_after fun _ _ => ends_set hvB
        · exact ends_set hvB
  | moveAssign i j =>
    obtain ⟨-, xs, hy⟩ := hc
    obtain ⟨u, hu, hok⟩ := hw.vec hy
    simp only [wstep, hu] at e
    split at e
    · exact h.member (fun v hv => ends_pure (h.get hv)) e
    · split at e
      · next r1 w1 hm =>
        cases e
        refine Capped.set (Capped.member h (fun v hv => ends_noRet ?_) hm) (fun _ hv => by cases hv; exact Nat.zero_le _) j
        unfold coreMoveAssign
        exact ends_after fun _ _ => ends_set (h.get hu)
      · cases e
  | swap i j =>
    obtain ⟨⟨xs, hx⟩, zs, hz⟩ := hc
    obtain ⟨u, hu, -⟩ := hw.vec hx
    obtain ⟨v, hv, -⟩ := hw.vec hz
    simp only [wstep, hu, hv] at e
    cases e
    exact Capped.set (Capped.set h (fun _ he => by cases he; exact h.get hv) i) (fun _ he => by cases he; exact h.get hu) j
  | call i op =>
    obtain ⟨xs, hy, -⟩ := hc
    obtain ⟨v, hv, hok⟩ := hw.vec hy
    have hfin : v.fin = xs.length := hok.fin_eq
    have hvB := h.get hv
    simp only [WOp.asks, hy] at ha
    refine h.member (i := i) (x := step cfg op) (fun v' hv' => ?_) e
    rw [hv] at hv'
    cases hv'
    cases hn : op.needs v.fin with
    | none => exact cap_step hvB (by show v.fin ≤ v.edge; rw [hfin]; exact hok.fin_le) (fun n h => by rw [hn] at h; cases h)
    | some n =>
      rw [← hfin, hn] at ha
      simp only at ha
      by_cases hle : n ≤ v.edge
      · exact cap_quiet (quiet_step (cfg := cfg) (g := cfg.malloc) (s := ⟨w.mem, v⟩) hn hle) hvB
      · refine cap_step hvB (by show v.fin ≤ v.edge; rw [hfin]; exact hok.fin_le) (fun m h => ?_)
        rw [hn] at h
        cases h
        have := nextCapacity_le (cfg := cfg) v.edge
        exact ⟨by omega, by show nextCapacity cfg v.edge ≤ B; omega⟩
  | destroy i =>
    simp only [wstep] at e
    split at e
    · next r1 w1 hm =>
      cases e
      refine Capped.set (Capped.member h (fun v hv => ends_noRet ?_) hm) (fun _ hv => by cases hv) i
      unfold coreDestroy
      exact ends_this (ends_bind_elem (elem_destroyRange _ _) fun _ s1 h1 => ends_free (by rw [h1]; exact h.get hv))
    · cases e

theorem capped_run [DecidableEq α] (hg : Good cfg) {ops : List (WOp α)} (hi : initCapacity cfg ≤ B) :
    ∀ {w : World α} {ys : Contents α}, WInv cfg w ys → Legal cfg w ys ops → Capped B w → 2 * mostAsked cfg.dflt ys ops ≤ B →
      Capped B (run cfg w ops).2 := by
  induction ops with
  | nil => exact fun {w ys} _ _ h _ => h
  | cons op ops ih =>
    intro w ys hw hl h hm
    obtain ⟨h1, h2, h3⟩ := hl
    unfold mostAsked at hm
    have hc := capped_step hg h1 hw h2 h hi (by omega)
    obtain ⟨r, w1, e, hw1, -⟩ := wstep_ok hg h1 hw h2
    rw [e] at h3 hc
    have := ih hw1 h3 hc (by omega)
    unfold run
    rw [e]
    simp only
    generalize run cfg w1 ops = x at this
    obtain ⟨q, w2⟩ := x
    cases q <;> exact this

end

/-! ### C135 -/

/-- Whatever a program does with its vectors, each has room for at most 64 bytes (or one element), or for twice as many
elements as the program ever asked room for. -/
theorem capacity_bounded [DecidableEq α] (hg : Good cfg) {ops : List (WOp α)} (hl : Legal cfg World.empty [] ops) (i : Nat) :
    (run cfg World.empty ops).2.capacity i ≤ max (max 1 (64 / cfg.size)) (2 * mostAsked cfg.dflt [] ops) := by
  have h := initCapacity_eq (cfg := cfg)
  exact capped_run hg (by omega) WInv.empty hl (fun i => by simp [World.capacity, World.empty]) (by omega) i

example : mostAsked 0 [] exProg = 5 ∧ ∀ i, (run (exCfg .mov) World.empty exProg).2.capacity i ≤ 10 :=
  ⟨by decide, fun i => by
    have h := capacity_bounded exGood exLegal i
    have e : max (max 1 (64 / (exCfg .mov).size)) (2 * mostAsked (exCfg .mov).dflt [] exProg) = 10 := by decide
    rw [e] at h
    exact h⟩

end Verif.Vector
