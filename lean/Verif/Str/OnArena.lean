import Verif.Arena.Props
import Verif.Str.HomeLemmas
import Verif.Str.Track

/-!
Strings on an arena that the program uses for other things as well: the model of strings and the model of the arena side by side,
with each block of a string being a piece of memory that the arena gave out.
-/

namespace Verif.Str

open M
open Arena (Region Hist)

/-- For whom the arena gave out a piece of memory. -/
inductive Who where
  | program
  | string (b : Nat)
  deriving DecidableEq, Repr

/-- The pieces given out since the last `Reset`, newest first. -/
abbrev Pieces := List (Who × Region)

/-- The number a string asks of its allocator for a block, arena_string.hpp:332-342, 538-540: `calc_large_by_size`,
`calc_medium_by_size`. -/
def Blk.bytes (w : Nat) (B : Blk) : Nat := B.cells.length * w + hdrBytes B.rc.isSome

/-- The blocks from the allocator `al` among those a call of a string has made, with the number asked for, in the order of the
requests.  `deallocate` on an arena does nothing (arena.hpp:334-335), so they are all still there. -/
def newBlocks (w al lo hi : Nat) (s : St) : List (Nat × Nat) :=
  (List.range' lo (hi - lo)).filterMap fun b =>
    match s.heap b with
    | some B => if B.src = al then some (b, B.bytes w) else none
    | none => none

/-- The arena gives out these blocks: `polymorphic_allocator<Char>::allocate(n)` (arena_string.hpp:388, 503) calls
`memory_resource::do_allocate(n * sizeof(Char), alignof(Char))` (arena.hpp:330-332).  Requests that were refused change nothing
(C09) and are left out. -/
inductive Serve (acfg : Arena.Cfg) (A w : Nat) : Hist → Arena.St → Pieces → List (Nat × Nat) → Hist → Arena.St → Pieces → Prop
  | nil {h st t} : Serve acfg A w h st t [] h st t
  | cons {h st t b n p bs st1 h2 st2 t2} :
      Arena.Contract A h (.pmrAllocate (n * w) w) →
      Arena.step acfg st (.pmrAllocate (n * w) w) = .ok (.ptr (some p), st1) →
      Serve acfg A w (h ++ [(.pmrAllocate (n * w) w, .ptr (some p))]) st1 ((.string b, ⟨p, n * w⟩) :: t) bs h2 st2 t2 →
      Serve acfg A w h st t ((b, n) :: bs) h2 st2 t2

/-- One call of a string that respects the preconditions, successful or out of memory, as in `Reach`. -/
inductive Did (cfg : Cfg) (a : Abs) (s : St) : Abs → St → Prop
  | done {a' : Abs} {s' : St} {op : Op} : op.spec cfg.arena a = some (.done a') → op.run cfg s = (.ok (), s') → Did cfg a s a' s'
  | caught {a' a1 : Abs} {s' : St} {op : Op} {w : String} : op.spec cfg.arena a = some (.done a1) →
      op.run cfg s = (.error (.throw w), s') → s'.lost = false →
      (∀ i, a' i = if op.weak = some i then (contents cfg i s').1.toOption else a i) →
      Did cfg a s a' { s' with refused := false }

/-- The program uses only what it was given itself. -/
def mine (t : Pieces) : Arena.Op → Prop
  | .write p n => ∃ x ∈ t, x.1 = .program ∧ x.2.start ≤ p ∧ p + n ≤ x.2.start + x.2.len
  | .createEnd p n _ => (.program, ⟨p, n⟩) ∈ t
  | _ => True

/-- No string alive has its characters in memory of the allocator `al`. -/
def Unused (al : Nat) (s : St) : Prop :=
  ∀ v b, dataPtr (.user v) s = (.ok (.blk b 0), s) → ∀ B, s.heap b = some B → B.src ≠ al

/-- What a program can do with an arena, the allocator `al` of strings, and with strings of any allocators: call the arena; call
strings, for which the arena gives out memory; and `Reset` the arena when no string has its characters there. -/
inductive OnArena (cfg : Cfg) (acfg : Arena.Cfg) (A al : Nat) : Hist → Arena.St → Pieces → Abs → St → Prop
  | start (cookie : Option Nat) : OnArena cfg acfg A al [] (Arena.mkArena cookie) [] (fun _ => none) St.init
  | call {h st t a s op r st'} : OnArena cfg acfg A al h st t a s → Arena.Contract A h op → mine t op → op ≠ .reset →
      Arena.step acfg st op = .ok (r, st') →
      OnArena cfg acfg A al (h ++ [(op, r)]) st' ((Arena.regionsOf (op, r)).map (fun x => (.program, x)) ++ t) a s
  | string {h st t a s h' st' t' a' s'} : OnArena cfg acfg A al h st t a s → Did cfg a s a' s' →
      Serve acfg A cfg.w h st t (newBlocks cfg.w al s.next s'.next s') h' st' t' → OnArena cfg acfg A al h' st' t' a' s'
  | reset {h st t a s r st'} : OnArena cfg acfg A al h st t a s → Arena.Contract A h .reset → Unused al s →
      Arena.step acfg st .reset = .ok (r, st') →
      OnArena cfg acfg A al (h ++ [(.reset, r)]) st' [] a (endArena al s).2

/-! ### Blocks keep their size -/

/-- Blocks are never replaced by blocks of another size or from elsewhere. -/
structure Same (s s' : St) : Prop where
  next : s.next ≤ s'.next
  old : ∀ b, b < s.next → ∀ B', s'.heap b = some B' → ∃ B, s.heap b = some B ∧ B'.src = B.src ∧ ∀ w, B'.bytes w = B.bytes w

theorem Same.of_heap {s s' : St} (hn : s.next ≤ s'.next) (h : ∀ b, b < s.next → s'.heap b = s.heap b) : Same s s' :=
  ⟨hn, fun b hb B' hB => ⟨B', by rw [← h b hb]; exact hB, rfl, fun _ => rfl⟩⟩

theorem Same.of_upd {s : St} {b : Nat} {B B1 : Blk} (hB : s.heap b = some B) (h1 : B1.src = B.src) (h2 : ∀ w, B1.bytes w = B.bytes w) :
    Same s { s with heap := upd s.heap b (some B1) } := by
  refine ⟨Nat.le_refl _, fun c hc B' h => ?_⟩
  by_cases e : c = b
  · subst e
    simp only [upd_same] at h
    cases h
    exact ⟨B, hB, h1, h2⟩
  · simp only [upd_other _ _ e] at h
    exact ⟨B', h, rfl, fun _ => rfl⟩

theorem same_law (cfg : Cfg) : Law cfg Same where
  refl s := .of_heap (Nat.le_refl _) fun _ _ => rfl
  trans := fun {s1 s2 s3} h1 h2 => ⟨Nat.le_trans h1.next h2.next, fun b hb B3 h3 => by
    obtain ⟨B2, e2, i2, j2⟩ := h2.old b (Nat.lt_of_lt_of_le hb h1.next) B3 h3
    obtain ⟨B1, e1, i1, j1⟩ := h1.old b hb B2 e2
    exact ⟨B1, e1, i2.trans i1, fun w => (j2 w).trans (j1 w)⟩⟩
  vars s f := .of_heap (Nat.le_refl _) fun _ _ => rfl
  flags s b c := .of_heap (Nat.le_refl _) fun _ _ => rfl
  write s b B i cs hB hl := by
    refine Same.of_upd hB rfl fun w => ?_
    have : (put B.cells i cs).length = B.cells.length := by
      simp only [put, List.length_append, List.length_take, List.length_drop]; omega
    simp only [Blk.bytes, this]
  count s b m src cells n hB := Same.of_upd hB rfl fun w => rfl
  alloc s al hdr bytes := .of_heap (Nat.le_succ _) fun b hb => upd_other _ _ (Nat.ne_of_lt hb)
  refuse s := .of_heap (Nat.le_succ _) fun _ _ => rfl
  free s b B hB _ := by
    refine ⟨Nat.le_refl _, fun c hc B' h => ?_⟩
    by_cases e : c = b
    · subst e; simp only [upd_same] at h; cases h
    · simp only [upd_other _ _ e] at h
      exact ⟨B', h, rfl, fun _ => rfl⟩
  realloc _ s a A B hA := by
    refine ⟨Nat.le_succ _, fun c hc B' h => ?_⟩
    simp only [upd_other _ _ (Nat.ne_of_lt hc)] at h
    by_cases e : c = a
    · subst e; simp only [upd_same] at h; cases h
    · simp only [upd_other _ _ e] at h
      exact ⟨B', h, rfl, fun _ => rfl⟩

/-! ### The invariant -/

variable {cfg : Cfg} {acfg : Arena.Cfg} {A al : Nat} {h h' : Hist} {st st' : Arena.St} {t t' : Pieces} {a a' : Abs} {s s' : St}

theorem Did.same (d : Did cfg a s a' s') : Same s s' := by
  cases d with
  | @done _ op _ hr =>
    have := (Op.run_track (R := Same) cfg op).keeps (same_law cfg) s
    rw [hr] at this; exact this
  | @caught a1 s' op w _ hr =>
    have := (Op.run_track (R := Same) cfg op).keeps (same_law cfg) s
    rw [hr] at this
    exact ⟨this.next, this.old⟩

theorem Did.rel (hc : cfg.Ok) (hr : Rel cfg a s) (d : Did cfg a s a' s') : Rel cfg a' s' := by
  cases d with
  | @done _ op ho hr' =>
    have h1 := step_refines hc hr ho
    simp only [Refines, Tri] at h1
    rw [hr'] at h1
    exact h1.1
  | @caught a1 s' op w ho hr' hl ha =>
    have h1 := step_refines hc hr ho
    simp only [Refines, Tri] at h1
    rw [hr'] at h1
    rcases h1 with h1 | ⟨_, _, a2, h2, h3, h4⟩
    · rw [hl] at h1; simp at h1
    · have e : a' = a2 := by
        funext i
        rw [ha i]
        split
        · next hw =>
          cases e2 : a2 i with
          | some xs => rw [contents_ok h2.inv (h2.held i xs e2)]; rfl
          | none =>
            have : (contents cfg i s').1 = .error (.ub "use of a dead string") := by
              unfold contents size
              have : getOb (.user i) s' = (.error (.ub "use of a dead string"), s') := by
                unfold getOb; rw [h2.absent i e2]
              rw [bind_apply, bind_apply, this]
            rw [this]; rfl
        · next hw => exact (h3 i hw).symm
      rw [e]
      exact h2.calm

theorem mem_newBlocks {w al lo hi b n : Nat} : (b, n) ∈ newBlocks w al lo hi s ↔
    lo ≤ b ∧ b < hi ∧ ∃ B, s.heap b = some B ∧ B.src = al ∧ B.bytes w = n := by
  unfold newBlocks
  rw [List.mem_filterMap]
  constructor
  · rintro ⟨c, hc, e⟩
    rw [List.mem_range'_1] at hc
    cases hB : s.heap c with
    | none => rw [hB] at e; cases e
    | some B =>
      rw [hB] at e
      simp only at e
      split at e
      · next hs => cases e; exact ⟨hc.1, by omega, B, hB, hs, rfl⟩
      · cases e
  · rintro ⟨h1, h2, B, hB, hs, rfl⟩
    refine ⟨b, ?_, ?_⟩
    · rw [List.mem_range'_1]; omega
    · rw [hB]; simp only [hs, if_true]

/-- What the arena did for strings is in contract, the pieces are what is live, and every block got its piece. -/
theorem serve_exec {w : Nat} {bs : List (Nat × Nat)} (hs : Serve acfg A w h st t bs h' st' t') (he : Arena.Exec acfg A h st)
    (ht : t.map Prod.snd = Arena.live h) :
    Arena.Exec acfg A h' st' ∧ t'.map Prod.snd = Arena.live h' ∧ (∀ x ∈ t, x ∈ t') ∧
    (∀ b n, (b, n) ∈ bs → ∃ p, (.string b, ⟨p, n * w⟩) ∈ t') ∧ (∀ x ∈ t', x ∈ t ∨ ∃ b n, (b, n) ∈ bs ∧ x.1 = .string b ∧ x.2.len = n * w) ∧
    (∀ y ∈ h, y ∈ h') ∧
    (∀ b r, (.string b, r) ∈ t' → (.string b, r) ∈ t ∨ (.pmrAllocate r.len w, .ptr (some r.start)) ∈ h') := by
  induction hs with
  | nil => exact ⟨he, ht, fun _ h => h, (fun b n h => by cases h), fun x h => Or.inl h, fun _ h => h, fun b r h => Or.inl h⟩
  | @cons h st t b n p bs st1 h2 st2 t2 hk hp _ ih =>
    obtain ⟨i1, i2, i3, i4, i5, i6, i7⟩ := ih (he.step hk hp) (by
      rw [Arena.live_append, if_neg (by simp), List.map_cons, ht]; rfl)
    refine ⟨i1, i2, fun x hx => i3 x (List.mem_cons_of_mem _ hx), fun c m hc => ?_, fun x hx => ?_,
      fun y hy => i6 y (List.mem_append_left _ hy), fun c r hc => ?_⟩
    · rcases List.mem_cons.1 hc with e | hc
      · cases e; exact ⟨p, i3 _ List.mem_cons_self⟩
      · exact i4 c m hc
    · rcases i5 x hx with h1 | ⟨c, m, h1, h2⟩
      · rcases List.mem_cons.1 h1 with rfl | h1
        · exact Or.inr ⟨b, n, List.mem_cons_self, rfl, rfl⟩
        · exact Or.inl h1
      · exact Or.inr ⟨c, m, List.mem_cons_of_mem _ h1, h2⟩
    · rcases i7 c r hc with h1 | h1
      · rcases List.mem_cons.1 h1 with e | h1
        · cases e
          exact Or.inr (i6 _ (List.mem_append_right _ List.mem_cons_self))
        · exact Or.inl h1
      · exact Or.inr h1

/-- The invariant. -/
structure OnInv (cfg : Cfg) (acfg : Arena.Cfg) (A al : Nat) (h : Hist) (st : Arena.St) (t : Pieces) (a : Abs) (s : St) : Prop where
  exec : Arena.Exec acfg A h st
  rel : Rel cfg a s
  live : t.map Prod.snd = Arena.live h
  placed : ∀ b B, s.heap b = some B → B.src = al → ∃ p, (.string b, ⟨p, B.bytes cfg.w * cfg.w⟩) ∈ t
  old : ∀ b r, (.string b, r) ∈ t → b < s.next
  sized : ∀ b r B, (.string b, r) ∈ t → s.heap b = some B → r.len = B.bytes cfg.w * cfg.w
  aligned : ∀ b r, (.string b, r) ∈ t → (.pmrAllocate r.len cfg.w, .ptr (some r.start)) ∈ h

theorem onArena_inv (hc : cfg.Ok) (o : OnArena cfg acfg A al h st t a s) : OnInv cfg acfg A al h st t a s := by
  induction o with
  | start cookie =>
    exact ⟨.init cookie, rel_init cfg, rfl, (fun b B h => by cases h), (fun b r h => by cases h), (fun b r B h => by cases h),
      (fun b r h => by cases h)⟩
  | @call h st t a s op r st' _ hk hm hn hp ih =>
    refine ⟨ih.exec.step hk hp, ih.rel, ?_, fun b B hB hs => ?_, fun b r hb => ?_, fun b r B hb => ?_, fun b r hb => ?_⟩
    · rw [Arena.live_append, if_neg (by simpa using hn), List.map_append, ih.live, List.map_map]
      simp [Function.comp_def]
    · obtain ⟨p, hp⟩ := ih.placed b B hB hs
      exact ⟨p, List.mem_append_right _ hp⟩
    · rcases List.mem_append.1 hb with hb | hb
      · simp at hb
      · exact ih.old b r hb
    · rcases List.mem_append.1 hb with hb | hb
      · simp at hb
      · exact ih.sized b r B hb
    · rcases List.mem_append.1 hb with hb | hb
      · simp at hb
      · exact List.mem_append_left _ (ih.aligned b r hb)
  | @string h st t a s h' st' t' a' s' _ hd hs ih =>
    obtain ⟨i1, i2, i3, i4, i5, i6, i7⟩ := serve_exec hs ih.exec ih.live
    have hsame := hd.same
    have hrel := hd.rel hc ih.rel
    refine ⟨i1, hrel, i2, fun b B hB hsrc => ?_, fun b r hb => ?_, fun b r B hb hB => ?_, fun b r hb => ?_⟩
    · by_cases hb : b < s.next
      · obtain ⟨B0, e1, e2, e3⟩ := hsame.old b hb B hB
        obtain ⟨p, hp⟩ := ih.placed b B0 e1 (e2 ▸ hsrc)
        exact ⟨p, i3 _ (by rw [e3]; exact hp)⟩
      · have hlt : b < s'.next := by
          by_contra hge
          rw [hrel.inv.fresh b (by omega)] at hB; cases hB
        exact i4 b _ (mem_newBlocks.2 ⟨by omega, hlt, B, hB, hsrc, rfl⟩)
    · rcases i5 _ hb with h1 | ⟨c, m, h1, h2⟩
      · exact Nat.lt_of_lt_of_le (ih.old b r h1) hsame.next
      · cases h2.1
        exact (mem_newBlocks.1 h1).2.1
    · rcases i5 _ hb with h1 | ⟨c, m, h1, h2, h3⟩
      · obtain ⟨B0, e1, _, e3⟩ := hsame.old b (ih.old b r h1) B hB
        rw [e3, ih.sized b r B0 h1 e1]
      · cases h2
        obtain ⟨_, _, B1, e1, _, e3⟩ := mem_newBlocks.1 h1
        rw [hB] at e1; cases e1
        rw [h3, e3]
    · rcases i7 b r hb with h1 | h1
      · exact i6 _ (ih.aligned b r h1)
      · exact h1
  | @reset h st t a s r st' _ hk hu hp ih =>
    refine ⟨ih.exec.step hk hp, endArena_keep ih.rel fun o ob d B ho hd hB => ?_, ?_, fun b B hB hs => ?_,
      (fun b r h => by cases h), (fun b r B h => by cases h), (fun b r h => by cases h)⟩
    · cases o with
      | tmp i => rw [ih.rel.tmps i] at ho; cases ho
      | user i =>
        obtain ⟨l, n, hh, _⟩ := ih.rel.inv.view ho
        have := hh.dataM
        obtain ⟨core, al'⟩ := ob
        cases core with
        | small l => cases hd
        | ml d' n cap large =>
          cases hd
          exact hu i d this B hB
    · rw [Arena.live_append, if_pos rfl]; rfl
    · simp only [endArena] at hB
      split at hB
      · next B' e =>
        split at hB
        · cases hB
        · next hne => cases hB; exact absurd hs hne
      · cases hB

end Verif.Str
