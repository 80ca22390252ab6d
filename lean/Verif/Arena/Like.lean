import Verif.Arena.Nested

/-!
Simulation between two runs with the same blocks whose traces differ by a common past and whose space counters may
differ (for C114).
-/

namespace Verif.Arena

open Verif.Align

/-- Two states with the same blocks and cookie, after the pasts `T`, `U`; with `sp`, also with the same space
counter. -/
structure Like (sp : Bool) (T U : List Ev) (s t : St) : Prop where
  blocks : s.blocks = t.blocks
  cookie : s.cookie = t.cookie
  trace : ∃ new, s.trace = new ++ T ∧ t.trace = new ++ U
  space : sp = true → s.space = t.space

/-- The same outcome: the same fault, or the same result and related states. -/
def LikeOut {α : Type} (sp : Bool) (T U : List Ev) (x y : Except Fault (α × St)) : Prop :=
  (∃ e, x = .error e ∧ y = .error e) ∨
    ∃ a s t, x = .ok (a, s) ∧ y = .ok (a, t) ∧ Like sp T U s t

/-- Options that agree, with the same answers of `block_alloc` after the two pasts. -/
structure LikeCfg (T U : List Ev) (cfg cfg2 : Cfg) : Prop where
  normal : cfg.normal = cfg2.normal
  huge : cfg.huge = cfg2.huge
  init : cfg.init = cfg2.init
  dbg : cfg.dbg = cfg2.dbg
  alloc : ∀ new n, cfg2.blockAlloc (new ++ U) n = cfg.blockAlloc (new ++ T) n

variable {sp : Bool} {T U : List Ev} {s t : St} {cfg cfg2 : Cfg}

theorem LikeOut.ok {α : Type} {a : α} (h : Like sp T U s t) : LikeOut sp T U (.ok (a, s)) (.ok (a, t)) :=
  Or.inr ⟨a, s, t, rfl, rfl, h⟩

theorem LikeOut.bind {α β : Type} {x y : Except Fault (α × St)} {f g : α × St → Except Fault (β × St)}
    (h : LikeOut sp T U x y) (hf : ∀ a s t, Like sp T U s t → LikeOut sp T U (f (a, s)) (g (a, t))) :
    LikeOut sp T U (x >>= f) (y >>= g) := by
  rcases h with ⟨e, rfl, rfl⟩ | ⟨a, s, t, rfl, rfl, h⟩
  · exact Or.inl ⟨e, rfl, rfl⟩
  · exact hf a s t h

theorem LikeOut.bindPure {α β : Type} {x y : Except Fault α} {f g : α → Except Fault (β × St)} (h : x = y)
    (hf : ∀ a, LikeOut sp T U (f a) (g a)) : LikeOut sp T U (x >>= f) (y >>= g) := by
  subst h
  cases x with
  | error e => exact Or.inl ⟨e, rfl, rfl⟩
  | ok a => exact hf a

theorem Like.emit (h : Like sp T U s t) (e : Ev) : Like sp T U (s.emit e) (t.emit e) := by
  obtain ⟨new, h1, h2⟩ := h.trace
  exact ⟨h.blocks, h.cookie, ⟨e :: new, by simp [St.emit, h1], by simp [St.emit, h2]⟩, h.space⟩

theorem need_like (hc : LikeCfg T U cfg cfg2) (h : Like sp T U s t) (n a : Nat) :
    needCreateNewBlock cfg s n a = needCreateNewBlock cfg2 t n a := by
  unfold needCreateNewBlock
  rw [h.blocks]
  cases t.blocks with
  | nil => rfl
  | cons b bs => simp only [hc.dbg]

theorem newBlock_like (hc : LikeCfg T U cfg cfg2) (h : Like sp T U s t) (n : Nat) :
    LikeOut sp T U (newBlock cfg s n) (newBlock cfg2 t n) := by
  unfold newBlock
  have h' : Like sp T U (if n > M64 - 1 - kBlockHeaderSize then s.emit .log else s)
      (if n > M64 - 1 - kBlockHeaderSize then t.emit .log else t) := by
    split
    · exact h.emit _
    · exact h
  generalize (if n > M64 - 1 - kBlockHeaderSize then s.emit .log else s) = s' at h'
  generalize (if n > M64 - 1 - kBlockHeaderSize then t.emit .log else t) = t' at h'
  simp only [h'.blocks]
  have hz : newBlockSize cfg n (!t'.blocks.isEmpty) = newBlockSize cfg2 n (!t'.blocks.isEmpty) := by
    unfold newBlockSize; simp only [hc.normal, hc.huge, hc.init]
  rw [hz]
  refine .bindPure rfl ?_
  intro z
  have ha : cfg.blockAlloc s'.trace z = cfg2.blockAlloc t'.trace z := by
    obtain ⟨new, h1, h2⟩ := h'.trace
    rw [h1, h2, hc.alloc]
  simp only [ha]
  cases hm : cfg2.blockAlloc t'.trace z with
  | none => exact .ok (h'.emit _)
  | some p =>
    simp only
    split
    · exact Or.inl ⟨_, rfl, rfl⟩
    · have h2 := (h'.emit (.blockAlloc z (some p))).emit (.newblock t'.blocks.length z t'.cookie)
      obtain ⟨new, h3, h4⟩ := h2.trace
      refine Or.inr ⟨_, _, _, rfl, rfl, ?_, h'.cookie, ⟨new, ?_, h4⟩, ?_⟩
      · simp only [St.emit, h'.blocks]
      · rw [← h3]
        simp only [St.emit, h'.blocks, h'.cookie]
      · intro hsp
        simp only [St.emit, h'.space hsp]

theorem grow_like (hc : LikeCfg T U cfg cfg2) (h : Like sp T U s t) (need : Bool) (n : Nat) :
    LikeOut sp T U (if need then newBlock cfg s n else .ok (true, s)) (if need then newBlock cfg2 t n else .ok (true, t)) := by
  cases need
  · exact .ok h
  · exact newBlock_like hc h _

theorem like_bind_ite {γ δ : Type} (b : Bool) (x y : Except Fault γ) (f : γ → Except Fault δ) :
    (if b = true then x >>= f else y >>= f) = ((if b = true then x else y) >>= f) := by
  cases b <;> rfl

theorem allocateAligned_like (hc : LikeCfg T U cfg cfg2) (h : Like sp T U s t) (n a : Nat) :
    LikeOut sp T U (allocateAligned cfg s n a) (allocateAligned cfg2 t n a) := by
  unfold allocateAligned
  refine .bindPure (need_like hc h _ _) ?_
  intro need
  simp only [like_bind_ite]
  refine (grow_like hc h need _).bind ?_
  intro ok s t h
  cases ok with
  | false => exact .ok h
  | true =>
    simp only [Bool.not_true, Bool.false_eq_true, if_false, h.blocks, hc.dbg]
    cases t.blocks with
    | nil => exact Or.inl ⟨_, rfl, rfl⟩
    | cons b bs =>
      refine .bindPure rfl ?_
      rintro ⟨p, b'⟩
      refine .bindPure rfl ?_
      intro _
      exact .ok ⟨rfl, h.cookie, h.trace, h.space⟩

theorem addCleanup_like (hc : LikeCfg T U cfg cfg2) (h : Like sp T U s t) (n : Node) :
    LikeOut sp T U (addCleanup cfg s n) (addCleanup cfg2 t n) := by
  unfold addCleanup
  refine .bindPure (need_like hc h _ _) ?_
  intro need
  simp only [like_bind_ite]
  refine (grow_like hc h need _).bind ?_
  intro ok s t h
  cases ok with
  | false => exact .ok h
  | true =>
    simp only [Bool.not_true, Bool.false_eq_true, if_false, h.blocks, hc.dbg]
    cases t.blocks with
    | nil => exact Or.inl ⟨_, rfl, rfl⟩
    | cons b bs =>
      refine .bindPure rfl ?_
      intro b'
      exact .ok ⟨rfl, h.cookie, h.trace, h.space⟩

theorem memWrite_like (h : Like sp T U s t) (p n : Nat) :
    (∃ e, memWrite s p n = .error e ∧ memWrite t p n = .error e) ∨
    ∃ s' t', memWrite s p n = .ok s' ∧ memWrite t p n = .ok t' ∧ Like sp T U s' t' := by
  unfold memWrite
  rw [h.blocks]
  split
  · exact Or.inr ⟨_, _, rfl, rfl, h⟩
  · split
    · split
      · exact Or.inl ⟨_, rfl, rfl⟩
      · exact Or.inr ⟨_, _, rfl, rfl, rfl, h.cookie, h.trace, h.space⟩
    · exact Or.inl ⟨_, rfl, rfl⟩

theorem step_like (hc : LikeCfg T U cfg cfg2) (h : Like sp T U s t) {op : Op} (hr : op ≠ .reset) :
    LikeOut sp T U (step cfg s op) (step cfg2 t op) := by
  have hc' : ∀ {s t : St}, Like sp T U s t → s.cookie = t.cookie := fun h => h.cookie
  cases op with
  | allocate b a =>
    unfold step AllocateAligned
    refine .bind ?_ (fun r s t h => .ok h)
    refine .bind (allocateAligned_like hc h b a) ?_
    intro r s t h
    cases r with
    | none => exact .ok h
    | some p => simp only [hc' h]; exact .ok (h.emit _)
  | create sz d =>
    unfold step Create
    refine .bind ?_ (fun r s t h => .ok h)
    refine .bind (allocateAligned_like hc h sz _) ?_
    intro r s t h
    cases r with
    | none => exact .ok h
    | some p =>
      simp only
      rcases memWrite_like h p sz with ⟨e, e1, e2⟩ | ⟨s', t', e1, e2, h'⟩
      · rw [e1, e2]; exact Or.inl ⟨e, rfl, rfl⟩
      · rw [e1, e2]
        simp only [ok_bind]
        cases d with
        | none => simp only [hc' h']; exact .ok (h'.emit _)
        | some f =>
          refine .bind (addCleanup_like hc h' _) ?_
          intro ok s t h
          cases ok with
          | false => exact .ok h
          | true => simp only [hc' h]; exact .ok (h.emit _)
  | createArray sz n =>
    unfold step CreateArray
    refine .bind ?_ (fun r s t h => .ok h)
    split
    · exact Or.inl ⟨_, rfl, rfl⟩
    · have h' : Like sp T U (if n > (M64 - 1) / sz then s.emit .log else s)
          (if n > (M64 - 1) / sz then t.emit .log else t) := by
        split
        · exact h.emit _
        · exact h
      refine .bind (allocateAligned_like hc h' _ _) ?_
      intro r s t h
      cases r with
      | none => exact .ok h
      | some p =>
        simp only
        rcases memWrite_like h p (sz * n) with ⟨e, e1, e2⟩ | ⟨s', t', e1, e2, h'⟩
        · rw [e1, e2]; exact Or.inl ⟨e, rfl, rfl⟩
        · rw [e1, e2]
          simp only [ok_bind, hc' h']
          exact .ok (h'.emit _)
  | createBegin sz =>
    unfold step createBegin
    refine .bind ?_ (fun r s t h => .ok h)
    refine .bind (allocateAligned_like hc h sz _) ?_
    intro r s t h
    cases r with
    | none => exact .ok h
    | some p =>
      simp only
      rcases memWrite_like h p sz with ⟨e, e1, e2⟩ | ⟨s', t', e1, e2, h'⟩
      · rw [e1, e2]; exact Or.inl ⟨e, rfl, rfl⟩
      · rw [e1, e2]; exact .ok h'
  | createEnd p sz d =>
    unfold step createEnd
    refine .bind ?_ (fun r s t h => .ok h)
    cases d with
    | none =>
      have := h.emit (.allocated sz s.cookie)
      refine .ok (a := true) (s := s.emit (.allocated sz s.cookie)) (t := t.emit (.allocated sz t.cookie)) ?_
      rw [← hc' h]; exact this
    | some f =>
      refine .bind (addCleanup_like hc h _) ?_
      intro ok s t h
      cases ok with
      | false => exact .ok h
      | true => simp only [hc' h]; exact .ok (h.emit _)
  | allocateCleanup b f e =>
    unfold step AllocateAlignedAndAddCleanup
    refine .bind ?_ (fun r s t h => .ok h)
    refine .bind (allocateAligned_like hc h b _) ?_
    intro r s t h
    cases r with
    | none => exact .ok h
    | some p =>
      refine .bind (addCleanup_like hc h _) ?_
      intro ok s t h
      cases ok with
      | false => exact .ok h
      | true => simp only [hc' h]; exact .ok (h.emit _)
  | own o f =>
    unfold step Own
    exact .bind (addCleanup_like hc h _) (fun r s t h => .ok h)
  | pmrAllocate b a =>
    unfold step pmrAllocate
    exact .bind (allocateAligned_like hc h _ _) (fun r s t h => .ok h)
  | pmrDeallocate p b a => exact .ok h
  | reset => exact absurd rfl hr
  | write p n =>
    unfold step
    simp only
    rcases memWrite_like h p n with ⟨e, e1, e2⟩ | ⟨s', t', e1, e2, h'⟩
    · rw [e1, e2]; exact Or.inl ⟨e, rfl, rfl⟩
    · rw [e1, e2]; exact .ok h'

theorem run_like (hc : LikeCfg T U cfg cfg2) {ops : List Op} (hr : ∀ op ∈ ops, op ≠ .reset) :
    ∀ {s t : St}, Like sp T U s t → LikeOut sp T U (run cfg s ops) (run cfg2 t ops) := by
  induction ops with
  | nil => intro s t h; exact .ok h
  | cons op ops ih =>
    intro s t h
    unfold run
    refine .bind (step_like hc h (hr op (by simp))) ?_
    intro r s t h
    exact .bind (ih (fun o ho => hr o (by simp [ho])) h) (fun r s t h => .ok h)

end Verif.Arena
