import Verif.Arena.Props

/-!
A call only depends on the answers that `block_alloc` actually gave: if another strategy gives the
same answers at the requests recorded in the trace, every call has the same outcome.
-/

namespace Verif.Arena

open Verif.Align

variable {cfg cfg2 : Cfg} {A : Nat} {T T0 T1 T2 : List Ev} {st st' : St}

/-- Same sizes and build mode. -/
def SameOpts (cfg cfg2 : Cfg) : Prop :=
  cfg2.normal = cfg.normal ∧ cfg2.huge = cfg.huge ∧ cfg2.init = cfg.init ∧ cfg2.dbg = cfg.dbg

/-- Every answer recorded in `T` after `T0` is the answer of `cfg`. -/
def Honest (cfg : Cfg) (T0 T : List Ev) : Prop :=
  ∀ tr s a, T0 <:+ tr → (Ev.blockAlloc s a :: tr) <:+ T → a = cfg.blockAlloc tr s

theorem suffix_split {α : Type} {e : α} {tr a b : List α} (h1 : e :: tr <:+ b) (h2 : a <:+ b) :
    e :: tr <:+ a ∨ a <:+ tr := by
  rcases List.suffix_or_suffix_of_suffix h1 h2 with h | h
  · exact .inl h
  · rcases List.suffix_cons_iff.1 h with rfl | h
    · exact .inl (List.suffix_refl _)
    · exact .inr h

theorem Honest.refl : Honest cfg T T := by
  intro tr s a h1 h2
  have := h1.length_le
  have := h2.length_le
  simp at this
  omega

theorem Honest.trans (h1 : Honest cfg T0 T1) (h2 : Honest cfg T1 T2) (h12 : T1 <:+ T2) :
    Honest cfg T0 T2 := by
  intro tr s a h3 h4
  rcases suffix_split h4 h12 with h | h
  · exact h1 tr s a h3 h
  · exact h2 tr s a h h4

theorem Honest.mono (h : Honest cfg T0 T) (h1 : T0 <:+ T1) (h2 : T2 <:+ T) : Honest cfg T1 T2 :=
  fun tr s a h3 h4 => h tr s a (h1.trans h3) (h4.trans h2)

theorem Honest.emit {e : Ev} (he : ∀ s a, e ≠ .blockAlloc s a) : Honest cfg T (e :: T) := by
  intro tr s a h1 h2
  rcases List.suffix_cons_iff.1 h2 with h | h
  · exact absurd (List.cons.inj h).1.symm (he s a)
  · exact Honest.refl tr s a h1 h

theorem Honest.answer {s : Nat} : Honest cfg T (.blockAlloc s (cfg.blockAlloc T s) :: T) := by
  intro tr s' a h1 h2
  rcases List.suffix_cons_iff.1 h2 with h | h
  · obtain ⟨h3, h4⟩ := List.cons.inj h
    cases h3; rw [h4]
  · exact Honest.refl tr s' a h1 h

theorem Honest.quiet {l : List Ev} (he : ∀ e ∈ l, ∀ s a, e ≠ .blockAlloc s a) :
    Honest cfg T (l ++ T) := by
  induction l with
  | nil => exact Honest.refl
  | cons e l ih =>
    exact (ih (fun x hx => he x (List.mem_cons_of_mem _ hx))).trans
      (Honest.emit (he e List.mem_cons_self)) (List.suffix_cons _ _)

/-- A successful computation only extends the trace, by honest answers, and is the same under every
strategy `cfg2` that would have given the same answers. -/
def Local {α : Type} (cfg cfg2 : Cfg) (st : St) (f g : Except Fault (α × St)) : Prop :=
  ∀ r st', f = .ok (r, st') → st.trace <:+ st'.trace ∧ Honest cfg st.trace st'.trace ∧
    (Honest cfg2 st.trace st'.trace → g = .ok (r, st'))

theorem Local.bind {α β : Type} {x y : Except Fault (α × St)} {f g : α × St → Except Fault (β × St)}
    (h : Local cfg cfg2 st x y)
    (hf : ∀ a st1, Local cfg cfg2 st1 (f (a, st1)) (g (a, st1))) :
    Local cfg cfg2 st (x >>= f) (y >>= g) := by
  intro r st' heq
  obtain ⟨⟨a, st1⟩, h1, h2⟩ := bind_eq_ok.1 heq
  obtain ⟨h3, h3', h4⟩ := h a st1 h1
  obtain ⟨h5, h5', h6⟩ := hf a st1 r st' h2
  refine ⟨h3.trans h5, h3'.trans h5' h5, fun hag => ?_⟩
  rw [h4 (hag.mono (List.suffix_refl _) h5), ok_bind, h6 (hag.mono h3 (List.suffix_refl _))]

theorem Local.bindPure {α β : Type} {x : Except Fault α} {f g : α → Except Fault (β × St)}
    (hf : ∀ a, Local cfg cfg2 st (f a) (g a)) : Local cfg cfg2 st (x >>= f) (x >>= g) := by
  intro r st' heq
  obtain ⟨a, h1, h2⟩ := bind_eq_ok.1 heq
  obtain ⟨h3, h4, h5⟩ := hf a r st' h2
  exact ⟨h3, h4, fun hag => by rw [h1, ok_bind, h5 hag]⟩

theorem Local.ok {α : Type} {a : α} (h : st'.trace = st.trace) :
    Local cfg cfg2 st (.ok (a, st')) (.ok (a, st')) := by
  intro r s heq
  cases heq
  rw [h]
  exact ⟨List.suffix_refl _, Honest.refl, fun _ => rfl⟩

theorem Local.okEmit {α : Type} {a : α} {e : Ev} (he : ∀ s a, e ≠ .blockAlloc s a)
    (h : st'.trace = e :: st.trace) :
    Local cfg cfg2 st (.ok (a, st')) (.ok (a, st')) := by
  intro r s heq
  cases heq
  rw [h]
  exact ⟨List.suffix_cons _ _, Honest.emit he, fun _ => rfl⟩

theorem Local.error {α : Type} {e : Fault} {g : Except Fault (α × St)} :
    Local cfg cfg2 st (.error e) g := by
  intro r s heq; cases heq

/-- A possible log message first. -/
theorem Local.log {α : Type} {c : Prop} [Decidable c] {x y : Except Fault (α × St)}
    (h : Local cfg cfg2 (if c then st.emit .log else st) x y) : Local cfg cfg2 st x y := by
  split at h
  · intro r s heq
    obtain ⟨h1, h2, h3⟩ := h r s heq
    have hs : st.trace <:+ (st.emit .log).trace := List.suffix_cons _ _
    refine ⟨hs.trans h1, Honest.trans (Honest.emit (by simp)) h2 h1, fun hag => h3 ?_⟩
    exact hag.mono hs (List.suffix_refl _)
  · exact h

theorem newBlock_local (hp : SameOpts cfg cfg2) (n : Nat) :
    Local cfg cfg2 st (newBlock cfg st n) (newBlock cfg2 st n) := by
  unfold newBlock
  refine Local.log (c := n > M64 - 1 - kBlockHeaderSize) ?_
  generalize (if n > M64 - 1 - kBlockHeaderSize then st.emit .log else st) = s
  have hz : newBlockSize cfg2 n (!s.blocks.isEmpty) = newBlockSize cfg n (!s.blocks.isEmpty) := by
    unfold newBlockSize; simp only [hp.1, hp.2.1, hp.2.2.1]
  simp only [hz]
  refine .bindPure ?_
  intro z r st' heq
  have hq : (Ev.blockAlloc z (cfg.blockAlloc s.trace z) :: s.trace) <:+ st'.trace ∧
      Honest cfg (Ev.blockAlloc z (cfg.blockAlloc s.trace z) :: s.trace) st'.trace := by
    cases hm : cfg.blockAlloc s.trace z with
    | none => rw [hm] at heq; cases heq; exact ⟨List.suffix_refl _, Honest.refl⟩
    | some p =>
      rw [hm] at heq
      simp only at heq
      split at heq
      · cases heq
      · cases heq; exact ⟨List.suffix_cons _ _, Honest.emit (by simp)⟩
  refine ⟨(List.suffix_cons _ _).trans hq.1, Honest.answer.trans hq.2 hq.1, ?_⟩
  intro hag
  have := hag s.trace z _ (List.suffix_refl _) hq.1
  rw [← heq]
  simp only [← this]

theorem bind_ite {γ δ : Type} (b : Bool) (x y : Except Fault γ) (f : γ → Except Fault δ) :
    (if b = true then x >>= f else y >>= f) = ((if b = true then x else y) >>= f) := by
  cases b <;> rfl

theorem grow_local (hp : SameOpts cfg cfg2) (need : Bool) (n : Nat) :
    Local cfg cfg2 st (if need then newBlock cfg st n else .ok (true, st))
      (if need then newBlock cfg2 st n else .ok (true, st)) := by
  cases need
  · exact .ok rfl
  · exact newBlock_local hp _

theorem allocateAligned_local (hp : SameOpts cfg cfg2) (n a : Nat) :
    Local cfg cfg2 st (allocateAligned cfg st n a) (allocateAligned cfg2 st n a) := by
  have hd := hp.2.2.2
  unfold allocateAligned
  have hn : needCreateNewBlock cfg2 st (alignUpTo8 n) a = needCreateNewBlock cfg st (alignUpTo8 n) a := by
    unfold needCreateNewBlock; simp only [hd]
  simp only [hn]
  refine .bindPure ?_
  intro need
  simp only [bind_ite]
  refine (grow_local hp need _).bind ?_
  intro ok s
  cases ok with
  | false => exact .ok rfl
  | true =>
    simp only [Bool.not_true, Bool.false_eq_true, if_false, hd]
    cases hs : s.blocks with
    | nil => exact .error
    | cons b rest =>
      refine .bindPure ?_
      intro x
      refine .bindPure ?_
      intro _
      exact .ok rfl

theorem addCleanup_local (hp : SameOpts cfg cfg2) (n : Node) :
    Local cfg cfg2 st (addCleanup cfg st n) (addCleanup cfg2 st n) := by
  have hd := hp.2.2.2
  unfold addCleanup
  have hn : needCreateNewBlock cfg2 st kCleanupNodeSize kByteSize
      = needCreateNewBlock cfg st kCleanupNodeSize kByteSize := by
    unfold needCreateNewBlock; simp only [hd]
  simp only [hn]
  refine .bindPure ?_
  intro need
  simp only [bind_ite]
  refine (grow_local hp need _).bind ?_
  intro ok s
  cases ok with
  | false => exact .ok rfl
  | true =>
    simp only [Bool.not_true, Bool.false_eq_true, if_false, hd]
    cases hs : s.blocks with
    | nil => exact .error
    | cons b rest =>
      refine .bindPure ?_
      intro x
      exact .ok rfl

theorem memWrite_trace {s : St} {p n : Nat} (h1 : memWrite st p n = .ok s) : s.trace = st.trace := by
  unfold memWrite at h1
  split at h1
  · cases h1; rfl
  · split at h1
    · split at h1
      · cases h1
      · cases h1; rfl
    · cases h1

theorem memWrite_local {α : Type} (p n : Nat) {f g : St → Except Fault (α × St)}
    (hf : ∀ s, Local cfg cfg2 s (f s) (g s)) :
    Local cfg cfg2 st (memWrite st p n >>= f) (memWrite st p n >>= g) := by
  intro r st' heq
  obtain ⟨s, h1, h2⟩ := bind_eq_ok.1 heq
  obtain ⟨h3, h4, h5⟩ := hf s r st' h2
  rw [memWrite_trace h1] at h3 h4 h5
  exact ⟨h3, h4, fun hag => by rw [h1, ok_bind, h5 hag]⟩

theorem freeExcept_quiet {dbg : Bool} {bs : List Block} {rem n : Nat} {b : Block} {tr tr' : List Ev}
    (h : freeBlocksExceptHead dbg bs rem tr = .ok (n, b, tr')) :
    ∃ l, tr' = l ++ tr ∧ ∀ e ∈ l, ∀ s a, e ≠ .blockAlloc s a := by
  induction bs generalizing rem tr with
  | nil =>
    unfold freeBlocksExceptHead at h
    obtain ⟨_, _, h2⟩ := bind_eq_ok.1 h
    cases h2
  | cons c cs ih =>
    cases cs with
    | nil =>
      unfold freeBlocksExceptHead at h
      obtain ⟨_, _, h2⟩ := bind_eq_ok.1 h
      cases h2; exact ⟨[], rfl, by simp⟩
    | cons d ds =>
      unfold freeBlocksExceptHead at h
      obtain ⟨_, _, h2⟩ := bind_eq_ok.1 h
      obtain ⟨ns, _, h3⟩ := bind_eq_ok.1 h2
      obtain ⟨l, h4, h5⟩ := ih h3
      rw [emitCleanups_eq] at h4
      refine ⟨l ++ .dealloc c.base :: (ns.map Ev.cleanup).reverse, by simp [h4], ?_⟩
      intro e he
      simp only [List.mem_append, List.mem_cons, List.mem_reverse, List.mem_map] at he
      rcases he with he | rfl | ⟨n, _, rfl⟩
      · exact h5 e he
      · simp
      · simp

theorem reset_local (hd : cfg2.dbg = cfg.dbg) : Local cfg cfg2 st (Reset cfg st) (Reset cfg2 st) := by
  intro r st' heq
  have key : ∃ l, st'.trace = l ++ st.trace ∧ ∀ e ∈ l, ∀ s a, e ≠ .blockAlloc s a := by
    unfold Reset at heq
    obtain ⟨⟨w, b, tr⟩, h1, h2⟩ := bind_eq_ok.1 heq
    obtain ⟨⟨ns, b'⟩, _, h3⟩ := bind_eq_ok.1 h2
    cases h3
    simp only [emitCleanups_eq]
    obtain ⟨l, h4, h5⟩ := freeExcept_quiet h1
    refine ⟨(ns.map Ev.cleanup).reverse ++ .reset st.space w st.cookie :: l, by simp [h4], ?_⟩
    intro e he
    simp only [List.mem_append, List.mem_cons, List.mem_reverse, List.mem_map] at he
    rcases he with ⟨n, _, rfl⟩ | rfl | he
    · simp
    · simp
    · exact h5 e he
  obtain ⟨l, h1, h2⟩ := key
  rw [h1]
  exact ⟨List.suffix_append _ _, Honest.quiet h2, fun _ => by rw [← heq]; unfold Reset; rw [hd]⟩

/-- Every call only depends on the recorded answers. -/
theorem step_local (hp : SameOpts cfg cfg2) (op : Op) :
    Local cfg cfg2 st (step cfg st op) (step cfg2 st op) := by
  have hret : ∀ {α : Type} (f : α → Ret) (x : α × St),
      Local cfg cfg2 x.2 (Except.ok (f x.1, x.2)) (Except.ok (f x.1, x.2)) :=
    fun f x => .ok rfl
  cases op with
  | allocate b a =>
    unfold step AllocateAligned
    refine .bind ?_ (fun r s => hret Ret.ptr (r, s))
    refine .bind (allocateAligned_local hp b a) ?_
    intro r s
    cases r with
    | none => exact .ok rfl
    | some p => exact .okEmit (e := .allocated b s.cookie) (by simp) rfl
  | create sz d =>
    unfold step Create
    refine .bind ?_ (fun r s => hret Ret.ptr (r, s))
    refine .bind (allocateAligned_local hp sz _) ?_
    intro r s
    cases r with
    | none => exact .ok rfl
    | some p =>
      refine memWrite_local _ _ ?_
      intro s
      cases d with
      | none => exact .okEmit (e := .allocated sz s.cookie) (by simp) rfl
      | some f =>
        refine .bind (addCleanup_local hp _) ?_
        intro ok s
        cases ok with
        | false => exact .ok rfl
        | true => exact .okEmit (e := .allocated sz s.cookie) (by simp) rfl
  | createArray sz n =>
    unfold step CreateArray
    refine .bind ?_ (fun r s => hret Ret.ptr (r, s))
    split
    · exact .error
    · refine Local.log (c := n > (M64 - 1) / sz) ?_
      generalize (if n > (M64 - 1) / sz then st.emit .log else st) = s
      refine .bind (allocateAligned_local hp _ _) ?_
      intro r s
      cases r with
      | none => exact .ok rfl
      | some p =>
        refine memWrite_local _ _ ?_
        intro s
        exact .okEmit (e := .allocated (mul64 sz n) s.cookie) (by simp) rfl
  | createBegin sz =>
    unfold step createBegin
    refine .bind ?_ (fun r s => hret Ret.ptr (r, s))
    refine .bind (allocateAligned_local hp sz _) ?_
    intro r s
    cases r with
    | none => exact .ok rfl
    | some p => exact memWrite_local _ _ (fun s => .ok rfl)
  | createEnd p sz d =>
    unfold step createEnd
    refine .bind ?_ (fun r s => hret Ret.bool (r, s))
    cases d with
    | none => exact .okEmit (e := .allocated sz st.cookie) (by simp) rfl
    | some f =>
      refine .bind (addCleanup_local hp _) ?_
      intro ok s
      cases ok with
      | false => exact .ok rfl
      | true => exact .okEmit (e := .allocated sz s.cookie) (by simp) rfl
  | allocateCleanup b f e =>
    unfold step AllocateAlignedAndAddCleanup
    refine .bind ?_ (fun r s => hret Ret.ptr (r, s))
    refine .bind (allocateAligned_local hp b _) ?_
    intro r s
    cases r with
    | none => exact .ok rfl
    | some p =>
      refine .bind (addCleanup_local hp _) ?_
      intro ok s
      cases ok with
      | false => exact .ok rfl
      | true => exact .okEmit (e := .allocated b s.cookie) (by simp) rfl
  | own o f =>
    unfold step Own
    exact .bind (addCleanup_local hp _) (fun r s => hret Ret.bool (r, s))
  | pmrAllocate b a =>
    unfold step pmrAllocate
    exact .bind (allocateAligned_local hp _ _) (fun r s => hret Ret.ptr (r, s))
  | pmrDeallocate p b a => exact .ok rfl
  | reset => exact .bind (reset_local hp.2.2.2) (fun r s => hret Ret.num (r, s))
  | write p n =>
    unfold step
    exact memWrite_local _ _ (fun s => .ok rfl)

/-- In an execution every recorded answer is the strategy's. -/
theorem exec_honest {h : Hist} (he : Exec cfg A h st) : Honest cfg [] st.trace := by
  induction he with
  | init cookie => exact Honest.trans Honest.refl (Honest.emit (by simp)) (List.suffix_cons _ _)
  | step _ _ hs ih =>
    obtain ⟨h1, h2, _⟩ := step_local (cfg2 := cfg) ⟨rfl, rfl, rfl, rfl⟩ _ _ _ hs
    exact Honest.trans ih (h2.mono (List.suffix_refl _) (List.suffix_refl _)) h1

/-- An execution is one under every strategy that would have given the same answers. -/
theorem exec_replay {h : Hist} (he : Exec cfg A h st) (hp : SameOpts cfg cfg2)
    (hag : Honest cfg2 [] st.trace) : Exec cfg2 A h st := by
  induction he with
  | init cookie => exact .init cookie
  | step _ hop hs ih =>
    obtain ⟨h1, _, h3⟩ := step_local hp _ _ _ hs
    exact .step (ih (hag.mono (List.suffix_refl _) h1)) hop
      (h3 (hag.mono (List.nil_suffix) (List.suffix_refl _)))

end Verif.Arena
