import Verif.Str.MemFns
import Verif.Str.OnArena

/-!
C142: how much memory building a string takes from an arena.
-/

namespace Verif.Str

open M Caps Mem

variable {β γ : Type} {cfg : Cfg} {a a' : Abs} {s s' : St} {xs : List Ch} {op : Op} {P : Ptr} {c k v N K al : Nat} {o : Obj}

/-! ### Specification -/

/-- The bytes asked of the allocator `al` between two states of a program. -/
def bytesTaken (w al : Nat) (s s' : St) : Nat := ((newBlocks w al s.next s'.next s').map Prod.snd).sum

/-- The greatest length the string `v` ever has in a program of calls that build it up or take characters away; nothing if
a call is none of them or has no defined result. -/
def peak (arena : Bool) (v : Nat) : List Op → Abs → Option Nat
  | [], a => (a v).map List.length
  | op :: ops, a =>
    if op.builds v then
      match op.spec arena a with
      | some (.done a') => do
        let xs ← a v
        let n ← peak arena v ops a'
        pure (max xs.length n)
      | _ => none
    else none

namespace Mem

/-! ### Calls that take nothing -/

/-- `x`, if it succeeds, leaves the characters of `o` where they are and takes no block. -/
def Stays (cfg : Cfg) (o : Obj) (x : M β) : Prop :=
  ∀ P c s, Lies cfg o P c s → Ends x s fun _ s' => Lies cfg o P c s' ∧ s'.next = s.next

/-- `x` takes no block. -/
def Rests (x : M β) : Prop := ∀ s, (x s).2.next = s.next

theorem _root_.Verif.Str.Leaves.stays {x : M β} (h : Leaves cfg o x) (hr : ∀ s, Excl s o → (x s).2.next = s.next) : Stays cfg o x := by
  intro P c s hs
  have h1 := h P c s hs
  have h2 := hr s hs.1
  unfold Ends Tri at *
  rcases e : x s with ⟨r, s1⟩
  rw [e] at h1 h2
  cases r
  · trivial
  · exact ⟨h1, h2⟩

theorem _root_.Verif.Str.Still.stays {x : M β} (h : Still x) : Stays cfg o x := h.leaves.stays fun s _ => by rw [h s]

theorem Stays.bind {x : M β} {f : β → M γ} (hx : Stays cfg o x) (hf : ∀ b, Stays cfg o (f b)) : Stays cfg o (x >>= f) :=
  fun P c s hs => Tri.bind (hx P c s hs) fun b s1 h1 => (hf b P c s1 h1.1).imp fun _ _ h2 => ⟨h2.1, h2.2.trans h1.2⟩

theorem Stays.ite {p : Prop} [Decidable p] {x y : M β} (hx : Stays cfg o x) (hy : Stays cfg o y) :
    Stays cfg o (if p then x else y) := by
  split
  · exact hx
  · exact hy

theorem writeCells_rests (p : Ptr) (cs : List Cell) : Rests (writeCells p cs) := by
  intro s
  unfold writeCells
  repeat' split
  all_goals rfl

theorem writeCells_stays (p : Ptr) (cs : List Cell) : Stays cfg o (writeCells p cs) :=
  (writeCells_leaves p cs).stays fun s _ => writeCells_rests p cs s

theorem podMove_stays (p : Ptr) (n : Nat) (q : Ptr) : Stays cfg o (podMove p n q) :=
  (readCells_still p n).stays.bind fun _ => writeCells_stays _ _

theorem podCopy_stays (p : Ptr) (n : Nat) (q : Ptr) : Stays cfg o (podCopy cfg p n q) := by
  unfold podCopy
  refine Stays.ite ?_ ((readCells_still p n).stays.bind fun _ => writeCells_stays _ _)
  split
  · exact (Still.fail _).stays
  · exact (Still.ub _).stays

theorem podFill_stays (p : Ptr) (n : Nat) (ch : Ch) : Stays cfg o (podFill p n ch) := by
  unfold podFill
  exact (room_calm p).still.stays.bind fun _ => Stays.ite (writeCells_stays _ _) (Still.ub _).stays

theorem begin_stays : Stays cfg o (begin_ cfg o) := begin_leaves.stays fun s hx => by rw [begin_same hx]

theorem setCore_rests (c : Core) : Rests (setCore o c) := by
  intro s
  unfold setCore
  split <;> rfl

theorem Rests.bind {x : M β} {f : β → M γ} (hx : Rests x) (hf : ∀ b, Rests (f b)) : Rests (x >>= f) := by
  intro s
  have h1 := hx s
  rw [bind_apply]
  rcases e : x s with ⟨r, s1⟩
  rw [e] at h1
  cases r with
  | error _ => exact h1
  | ok b => exact (hf b s1).trans h1

theorem _root_.Verif.Str.Still.rests {x : M β} (h : Still x) : Rests x := fun s => by rw [h s]

theorem setSmallSize_rests (n : Nat) : Rests (setSmallSize cfg o n) := by
  unfold setSmallSize
  refine (assert_still _ _).rests.bind fun _ => (getOb_still o).rests.bind fun ob => ?_
  dsimp only
  split
  · exact setCore_rests _
  · exact (Still.ub _).rests

theorem shrinkMedium_rests (d m cap : Nat) (large : Bool) (n : Nat) : Rests (shrinkMedium cfg o d m cap large n) :=
  (assert_still _ _).rests.bind fun _ => (setCore_rests _).bind fun _ => writeCells_rests _ _

theorem shrink_stays {n : Nat} : Stays cfg o (shrink cfg o n) := by
  refine shrink_leaves.stays fun s hx => ?_
  unfold shrink
  rw [bind_apply]
  unfold getOb
  cases hv : s.vars o with
  | none => rfl
  | some ob =>
    obtain ⟨core, al⟩ := ob
    cases core with
    | small l => exact ((size_still o).rests.bind fun _ => (assert_still _ _).rests.bind fun _ => setSmallSize_rests _) s
    | ml d m cap large =>
      cases large with
      | false => exact shrinkMedium_rests _ _ _ _ _ s
      | true =>
        obtain ⟨⟨rc, src, cells⟩, hB, hr⟩ := hx d m cap al hv
        have hr : rc = some 1 := hr
        subst hr
        dsimp only
        rw [bind_ok (show refs d s = (.ok 1, s) by simp only [refs, hB]), if_pos rfl]
        exact shrinkMedium_rests _ _ _ _ _ s

theorem noexcept_stays {x : M β} (h : Stays cfg o x) : Stays cfg o (noexcept x) := fun P c s hs => (h P c s hs).noexcept

theorem resize_stays {n k : Nat} {ch : Ch} (hk : size cfg o s = (.ok k, s)) (hn : n ≤ k) (h : Lies cfg o P c s) :
    Ends (resize cfg o n ch) s fun _ s' => Lies cfg o P c s' ∧ s'.next = s.next := by
  unfold resize
  refine Tri.checked o (Tri.step hk ?_)
  rw [if_pos hn]
  exact shrink_stays P c s h

theorem erase_stays (h : Here cfg o P c k s) {pos n : Nat} (hp : pos ≤ k) :
    Ends (erase cfg o pos n) s fun _ s' => Lies cfg o P c s' ∧ s'.next = s.next := by
  obtain ⟨cs, ho, rfl⟩ := h.own
  have hw := h.inv
  unfold erase
  refine Tri.checked o (Tri.step (ho.raw.sizeM hw) (Tri.step (enforce_ok (by simpa using hp)) ?_))
  simp only
  refine Tri.step (begin_own hw ho) ?_
  obtain ⟨s1, e1, e2, e3, e4, _⟩ := ho.move hw (i := pos + min n (cs.length - pos)) (j := pos) (k := cs.length - (pos + min n (cs.length - pos))) (by omega) (by omega)
  have hl : (put cs pos ((cs.drop (pos + min n (cs.length - pos))).take (cs.length - (pos + min n (cs.length - pos))))).length = cs.length :=
    put_length (by simp; omega)
  have hs1 := podMove_stays (P.add (pos + min n (cs.length - pos))) (cs.length - (pos + min n (cs.length - pos))) (P.add pos) P c s h.lies
  simp only [Ends, Tri, e1] at hs1
  have hz := e4.raw.sizeM e2
  rw [hl] at hz
  exact Tri.step e1 ((resize_stays hz (by omega) hs1.1).imp fun _ _ h2 => ⟨h2.1, h2.2.trans hs1.2⟩)

/-! ### Calls that take a block -/

/-- The string shares nothing, and no block was taken, or one that it is in now. -/
def Grew (cfg : Cfg) (o : Obj) (N K : Nat) (s : St) : Prop :=
  ∃ P c, Lies cfg o P c s ∧ (s.next = N ∨ s.next = N + 1 ∧ P = .blk N 0 ∧ c ≤ K)

theorem Grew.after {x : M β} (hx : Stays cfg o x) (h : Grew cfg o N K s) : Ends x s fun _ s' => Grew cfg o N K s' := by
  obtain ⟨P, c, h1, h2⟩ := h
  exact (hx P c s h1).imp fun _ s' h => ⟨P, c, h.1, by rw [h.2]; exact h2⟩

/-- The bound of the room a string gets whose contents have at most `T` characters. -/
def most (cfg : Cfg) (T : Nat) : Nat := max (2 * cfg.ms) (1 + T * 3 / 2)

theorem expand_grew (hc : cfg.Ok) (h : Here cfg o P c k s) {n : Nat} (hn : k + n < M64) :
    Ends (expandNoinit cfg o n true) s fun _ s' => Grew cfg o s.next (most cfg (k + n)) s' := by
  have h1 := expand_moved hc h hn
  have h2 := expand_took (cfg := cfg) (v := o) (s := s) (delta := n) (T := k + n) hc h.lies.1 fun k' e => by
    obtain ⟨ob, l, hh⟩ := h.holds
    rw [hh.sizeM] at e
    cases e
    omega
  refine Ends.intro fun r s1 e => ?_
  simp only [Ends, Tri, e] at h1 h2
  obtain ⟨P', c', ⟨hx, ob, hv, rfl, rfl⟩, _⟩ := h1
  refine ⟨_, _, ⟨hx, ob, hv, rfl, rfl⟩, ?_⟩
  rcases h2 with h2 | ⟨h2, k', cap', large', al', h3, h4⟩
  · exact Or.inl h2
  · rw [hv] at h3
    cases h3
    exact Or.inr ⟨h2, rfl, h4⟩

theorem append_grew (hc : cfg.Ok) (h : Here cfg o P c k s) {p : Ptr} {n : Nat} (hn : k + n < M64) :
    Ends (append cfg o p n) s fun _ s' => Grew cfg o s.next (most cfg (k + n)) s' := by
  unfold append
  refine Tri.checked o ?_
  split
  · exact Tri.ret ⟨P, c, h.lies, Or.inl rfl⟩
  refine Tri.look (size_still o s) fun old => Tri.look (dataPtr_still o s) fun q => Tri.bind (expand_grew hc h hn) fun r s1 h1 => ?_
  refine Grew.after (Stays.bind ?_ fun _ => (size_still o).stays.bind fun _ => (assert_still _ _).stays) h1
  unfold appendCopy
  exact Stays.ite ((assert_still _ _).stays.bind fun _ => (dataPtr_still o).stays.bind fun _ => podMove_stays _ _ _) (podCopy_stays _ _ _)

theorem appendFill_grew (hc : cfg.Ok) (h : Here cfg o P c k s) {ch : Ch} {n : Nat} (hn : k + n < M64) :
    Ends (appendFill cfg o n ch) s fun _ s' => Grew cfg o s.next (most cfg (k + n)) s' := by
  unfold appendFill
  exact Tri.checked o (Tri.bind (expand_grew hc h hn) fun _ _ h1 => h1.after (podFill_stays _ _ _))

theorem pushBack_grew (hc : cfg.Ok) (h : Here cfg o P c k s) {ch : Ch} (hn : k + 1 < M64) :
    Ends (pushBack cfg o ch) s fun _ s' => Grew cfg o s.next (most cfg (k + 1)) s' := by
  unfold pushBack
  exact Tri.bind (expand_grew hc h hn) fun _ _ h1 => h1.after (writeCells_stays _ _)

theorem insertFillAt_grew (hc : cfg.Ok) (h : Here cfg o P c k s) {i : Ptr} {ch : Ch} {n : Nat} (hn : k + n < M64) :
    Ends (insertFillAt cfg o i n ch) s fun _ s' => Grew cfg o s.next (most cfg (k + n)) s' := by
  unfold insertFillAt
  refine Tri.checked o (Tri.look (posOf_still i s) fun pos => Tri.look (size_still o s) fun old => Tri.bind (expand_grew hc h hn) fun _ _ h1 => ?_)
  exact h1.after (begin_stays.bind fun _ => (podMove_stays _ _ _).bind fun _ => podFill_stays _ _ _)

theorem insertRangeAt_grew (hc : cfg.Ok) (h : Here cfg o P c k s) {i p : Ptr} {n : Nat} (hn : k + n < M64) :
    Ends (insertRangeAt cfg o i p n) s fun _ s' => Grew cfg o s.next (most cfg (k + n)) s' := by
  unfold insertRangeAt
  refine Tri.checked o (Tri.look (posOf_still i s) fun pos => Tri.look (size_still o s) fun old => Tri.bind (expand_grew hc h hn) fun _ _ h1 => ?_)
  exact h1.after (begin_stays.bind fun _ => (podMove_stays _ _ _).bind fun _ => podMove_stays _ _ _)

theorem most_mono {T T' : Nat} (h : T ≤ T') : most cfg T ≤ most cfg T' := by
  unfold most
  have : 1 + T * 3 / 2 ≤ 1 + T' * 3 / 2 := by omega
  omega

end Mem

theorem Reach.here (hc : cfg.Ok) (h : Reach cfg a s) (hx : a v = some xs) (hst : (storage cfg v s).1 = .ok (P, c, false)) :
    Here cfg (.user v) P c xs.length s := by
  have hrel := (reach_rel hc h).1
  obtain ⟨ob, l, g, _⟩ := h.holds hc hx
  obtain ⟨c', hcap, _, _, h3, _⟩ := g.capM hrel.inv
  obtain ⟨b, hsh, hex⟩ := isShared_ok hrel.inv (hrel.held v xs hx)
  unfold storage at hst
  rw [bind_ok g.dataM, bind_ok hcap, bind_ok hsh] at hst
  cases hst
  exact ⟨hrel.inv, hrel.tmps 0, ⟨hex rfl, ob, g.var, rfl, (h3 (hex rfl)).symm⟩, ob, l, g⟩

/-- One call takes at most one block, that of the string. -/
theorem builds_took (hc : cfg.Ok) (h : Reach cfg a s) (hv : op.builds v = true) (ho : op.spec cfg.arena a = some (.done a'))
    (hx : a v = some xs) (hst : (storage cfg v s).1 = .ok (P, c, false)) (hr : op.run cfg s = (.ok (), s')) :
    ∃ ys, a' v = some ys ∧ Grew cfg (.user v) s.next (most cfg (max xs.length ys.length)) s' := by
  have hrel := (reach_rel hc h).1
  have hh := h.here hc hx hst
  have big : ∀ ys n, a.set v ys = some (.done a') → ys.length = xs.length + n →
      (xs.length + n < M64 → Ends (op.run cfg) s fun _ s' => Grew cfg (.user v) s.next (most cfg (xs.length + n)) s') →
      ∃ ys, a' v = some ys ∧ Grew cfg (.user v) s.next (most cfg (max xs.length ys.length)) s' := by
    intro ys n hs hl ht
    have hy := set_done hs
    have hlt : ys.length < M64 := by
      unfold Abs.set at hs
      split at hs
      · assumption
      · cases hs
    have := ht (by omega)
    simp only [Ends, Tri, hr] at this
    exact ⟨ys, hy, by rw [hl, Nat.max_eq_right (by omega)]; exact this⟩
  have less : ∀ ys, a.set v ys = some (.done a') → (Ends (op.run cfg) s fun _ s' => Lies cfg (.user v) P c s' ∧ s'.next = s.next) →
      ∃ ys, a' v = some ys ∧ Grew cfg (.user v) s.next (most cfg (max xs.length ys.length)) s' := by
    intro ys hs ht
    simp only [Ends, Tri, hr] at ht
    exact ⟨ys, set_done hs, P, c, ht.1, Or.inl ht.2⟩
  have hsz := (hrel.held v xs hx).sizeM hrel.inv
  rw [List.length_map] at hsz
  cases op with
  | append v' src =>
    have hv := beq_iff_eq.1 hv; subst hv
    simp only [Op.spec, hx, Option.bind_eq_bind, Option.bind_some, Option.bind_eq_some_iff] at ho
    obtain ⟨ys, hy, ho⟩ := ho
    obtain ⟨p, hp, -⟩ := resolve_ok hc hrel hy v'
    refine big _ ys.length ho (by simp) fun hl => Tri.step hp ?_
    simp only [List.length_map]
    exact append_grew hc hh hl
  | appendStr v' u =>
    have hv := beq_iff_eq.1 hv; subst hv
    simp only [Op.spec, hx, Option.bind_eq_bind, Option.bind_some, Option.bind_eq_some_iff] at ho
    obtain ⟨ys, hy, ho⟩ := ho
    obtain ⟨q, hq, _⟩ := (hrel.held u ys hy).dataM
    have hsu := (hrel.held u ys hy).sizeM hrel.inv
    rw [List.length_map] at hsu
    refine big _ ys.length ho (by simp) fun hl => Tri.step hsz (Tri.step hsu (Tri.step hq (Tri.bind (append_grew hc hh hl) fun _ _ h1 => ?_)))
    exact h1.after ((size_still _).stays.bind fun _ => (assert_still _ _).stays)
  | appendFill v' n ch =>
    have hv := beq_iff_eq.1 hv; subst hv
    simp only [Op.spec, hx, Option.bind_eq_bind, Option.bind_some] at ho
    exact big _ n ho (by simp) fun hl => appendFill_grew hc hh hl
  | appendRange v' src =>
    have hv := beq_iff_eq.1 hv; subst hv
    simp only [Op.spec, hx, Option.bind_eq_bind, Option.bind_some, Option.bind_eq_some_iff] at ho
    obtain ⟨ys, hy, ho⟩ := ho
    split at ho
    case isTrue => cases ho
    obtain ⟨p, hp, -⟩ := resolve_ok hc hrel hy v'
    refine big _ ys.length ho (by simp) fun hl => Tri.step hp ?_
    simp only [List.length_map]
    unfold appendRange
    exact Tri.look (begin_same hh.lies.1) fun _ => Tri.look (size_still _ s) fun _ => insertRangeAt_grew hc hh hl
  | pushBack v' ch =>
    have hv := beq_iff_eq.1 hv; subst hv
    simp only [Op.spec, hx, Option.bind_eq_bind, Option.bind_some] at ho
    exact big _ 1 ho (by simp) fun hl => pushBack_grew hc hh hl
  | insert v' pos src =>
    have hv := beq_iff_eq.1 hv; subst hv
    simp only [Op.spec, hx, Option.bind_eq_bind, Option.bind_some, Option.bind_eq_some_iff] at ho
    obtain ⟨ys, hy, ho⟩ := ho
    split at ho
    case isTrue => cases ho
    split at ho
    case isFalse => cases ho
    rename_i hpos
    obtain ⟨p, hp, -⟩ := resolve_ok hc hrel hy v'
    refine big _ ys.length ho (by rw [splice_length hpos]; simp) fun hl => Tri.step hp ?_
    simp only [List.length_map]
    unfold insert
    exact Tri.look (size_still _ s) fun _ => Tri.look (enforce_still _ s) fun _ => Tri.look (begin_same hh.lies.1) fun _ => insertRangeAt_grew hc hh hl
  | insertFill v' pos n ch =>
    have hv := beq_iff_eq.1 hv; subst hv
    simp only [Op.spec, hx, Option.bind_eq_bind, Option.bind_some] at ho
    split at ho
    case isFalse => cases ho
    rename_i hpos
    refine big _ n ho (by rw [splice_length hpos]; simp) fun hl => ?_
    simp only [Op.run, insertFill]
    exact Tri.look (size_still _ s) fun _ => Tri.look (enforce_still _ s) fun _ => Tri.look (begin_same hh.lies.1) fun _ => insertFillAt_grew hc hh hl
  | popBack v' =>
    have hv := beq_iff_eq.1 hv; subst hv
    simp only [Op.spec, hx, Option.bind_eq_bind, Option.bind_some] at ho
    split at ho
    case isTrue => cases ho
    exact less _ ho (noexcept_stays ((size_still _).stays.bind fun _ => (assert_still _ _).stays.bind fun _ => shrink_stays) P c s hh.lies)
  | clear v' =>
    have hv := beq_iff_eq.1 hv; subst hv
    simp only [Op.spec, hx, Option.bind_eq_bind, Option.bind_some] at ho
    exact less _ ho (resize_stays hsz (Nat.zero_le _) hh.lies)
  | setAt v' i ch =>
    have hv := beq_iff_eq.1 hv; subst hv
    simp only [Op.spec, hx, Option.bind_eq_bind, Option.bind_some] at ho
    split at ho
    case isFalse => cases ho
    exact less _ ho ((begin_stays.bind fun _ => writeCells_stays _ _) P c s hh.lies)
  | erase v' pos n =>
    have hv := beq_iff_eq.1 hv; subst hv
    simp only [Op.spec, hx, Option.bind_eq_bind, Option.bind_some] at ho
    split at ho
    case isFalse => cases ho
    rename_i hpos
    exact less _ ho (erase_stays hh hpos)
  | _ => cases hv

/-! ### Sums -/

/-- What a block costs. -/
def cost (w al : Nat) (s : St) (b : Nat) : Nat :=
  match s.heap b with
  | some B => if B.src = al then B.bytes w else 0
  | none => 0

theorem bytesTaken_eq (w al : Nat) (s s' : St) :
    bytesTaken w al s s' = ((List.range' s.next (s'.next - s.next)).map (cost w al s')).sum := by
  unfold bytesTaken newBlocks
  generalize List.range' s.next (s'.next - s.next) = l
  induction l with
  | nil => rfl
  | cons b l ih =>
    rw [List.filterMap_cons, List.map_cons, List.sum_cons, ← ih]
    unfold cost
    cases s'.heap b with
    | none => simp
    | some B =>
      dsimp only
      by_cases h : B.src = al
      · rw [if_pos h, if_pos h]; rfl
      · rw [if_neg h, if_neg h, Nat.zero_add]

theorem Same.cost {w b : Nat} (h : Same s s') (hb : b < s.next) : cost w al s' b ≤ cost w al s b := by
  unfold Str.cost
  cases e : s'.heap b with
  | none => exact Nat.zero_le _
  | some B' =>
    obtain ⟨B, h1, h2, h3⟩ := h.old b hb B' e
    rw [h1]
    dsimp only
    rw [h2, h3]

theorem sum_le {f g : Nat → Nat} : ∀ {l : List Nat}, (∀ b ∈ l, f b ≤ g b) → (l.map f).sum ≤ (l.map g).sum
  | [], _ => Nat.le_refl _
  | b :: l, h => by
    rw [List.map_cons, List.map_cons, List.sum_cons, List.sum_cons]
    exact Nat.add_le_add (h b (by simp)) (sum_le fun x hx => h x (by simp [hx]))

theorem bytesTaken_same {s0 : St} {w : Nat} (h0 : s0.next ≤ s.next) (h : Same s s') (hn : s'.next = s.next) :
    bytesTaken w al s0 s' ≤ bytesTaken w al s0 s := by
  rw [bytesTaken_eq, bytesTaken_eq, hn]
  refine sum_le fun b hb => h.cost ?_
  simp at hb
  omega

theorem bytesTaken_more {s0 : St} {w : Nat} (h0 : s0.next ≤ s.next) (h : Same s s') (hn : s'.next = s.next + 1) :
    bytesTaken w al s0 s' ≤ bytesTaken w al s0 s + cost w al s' s.next := by
  rw [bytesTaken_eq, bytesTaken_eq, hn, show s.next + 1 - s0.next = s.next - s0.next + 1 by omega, List.range'_concat, List.map_append, List.sum_append]
  refine Nat.add_le_add (sum_le fun b hb => h.cost ?_) ?_
  · simp at hb
    omega
  · simp only [Nat.one_mul, List.map_cons, List.map_nil, List.sum_cons, List.sum_nil, Nat.add_zero]
    rw [show s0.next + (s.next - s0.next) = s.next by omega]

/-- What is left to be covered by the constant while the capacity is still tiny. -/
def slack (w c : Nat) : Nat := 7 * (16 - w * (c + 1))

theorem peak_cons {arena : Bool} {ops : List Op} {n : Nat} (h : peak arena v (op :: ops) a = some n) (hx : a v = some xs) :
    op.builds v = true ∧ ∃ a' m, op.spec arena a = some (.done a') ∧ peak arena v ops a' = some m ∧ n = max xs.length m := by
  unfold peak at h
  split at h
  case isFalse => cases h
  refine ⟨‹_›, ?_⟩
  split at h
  · rename_i a1 e
    simp only [hx, Option.bind_eq_bind, Option.bind_some, Option.bind_eq_some_iff] at h
    obtain ⟨m, hm, h⟩ := h
    cases h
    exact ⟨a1, m, e, hm, rfl⟩
  · cases h

theorem peak_ge {arena : Bool} {ops : List Op} {n : Nat} (h : peak arena v ops a = some n) (hx : a v = some xs) : xs.length ≤ n := by
  cases ops with
  | nil =>
    simp only [peak, hx, Option.map_some, Option.some.injEq] at h
    exact Nat.le_of_eq h
  | cons op ops =>
    obtain ⟨_, _, _, _, _, rfl⟩ := peak_cons h hx
    omega

/-- What has been taken is covered by the room there is. -/
def Covered (cfg : Cfg) (taken c K : Nat) : Prop :=
  taken = 0 ∨ ∃ c1, c1 ≤ c ∧ c1 ≤ K ∧ taken + slack cfg.w c ≤ 4 * (cfg.w * (c1 + 1)) + 105

theorem slack_mono {w c c' : Nat} (h : c ≤ c') : slack w c' ≤ slack w c := by
  unfold slack
  have := Nat.mul_le_mul_left w (show c + 1 ≤ c' + 1 by omega)
  omega

theorem Covered.keep {t t' c' : Nat} (h : Covered cfg t c K) (ht : t' ≤ t) (hc : c ≤ c') : Covered cfg t' c' K := by
  rcases h with h | ⟨c1, h1, h2, h3⟩
  · exact Or.inl (by omega)
  · have := slack_mono (w := cfg.w) hc
    exact Or.inr ⟨c1, by omega, h2, by omega⟩

theorem Covered.more {t t' c' : Nat} (hc : cfg.Ok) (h : Covered cfg t c K) (hg : 1 + c * 3 / 2 ≤ c') (hK : c' ≤ K)
    (ht : t' ≤ t + ((c' + 1) * cfg.w + 8)) : Covered cfg t' c' K := by
  refine Or.inr ⟨c', Nat.le_refl _, hK, ?_⟩
  unfold Covered slack at *
  rcases Nat.lt_or_ge c 16 with hl | hl
  · have : c = 0 ∨ c = 1 ∨ c = 2 ∨ c = 3 ∨ c = 4 ∨ c = 5 ∨ c = 6 ∨ c = 7 ∨ c = 8 ∨ c = 9 ∨ c = 10 ∨ c = 11 ∨ c = 12 ∨ c = 13 ∨
        c = 14 ∨ c = 15 := by omega
    rcases hc.w with e | e | e <;> rw [e] at h ht ⊢ <;> rcases h with h | ⟨c1, h1, h2, h3⟩ <;>
      rcases this with rfl | rfl | rfl | rfl | rfl | rfl | rfl | rfl | rfl | rfl | rfl | rfl | rfl | rfl | rfl | rfl <;> omega
  · rcases hc.w with e | e | e <;> rw [e] at h ht ⊢ <;> rcases h with h | ⟨c1, h1, h2, h3⟩ <;> omega

/-- One call that succeeds. -/
theorem memory_step (hc : cfg.Ok) {s0 s1 : St} {a1 : Abs} (h : Reach cfg a s) (hb : op.builds v = true)
    (ho : op.spec cfg.arena a = some (.done a1)) (hx : a v = some xs) (hst : (storage cfg v s).1 = .ok (P, c, false))
    (hr : op.run cfg s = (.ok (), s1)) (hN : ∀ ys, a1 v = some ys → max xs.length ys.length ≤ N) (h0 : s0.next ≤ s.next)
    (hcov : Covered cfg (bytesTaken cfg.w al s0 s) c (most cfg N)) :
    ∃ c', Covered cfg (bytesTaken cfg.w al s0 s1) c' (most cfg N) ∧ ∃ ys P', a1 v = some ys ∧
      (storage cfg v s1).1 = .ok (P', c', false) ∧ s0.next ≤ s1.next ∧ Reach cfg a1 s1 := by
  obtain ⟨ys, P', c', hy, hst', hstep⟩ := builds_step hc h hb ho hx hst hr
  obtain ⟨ys', hy', P2, c2, hl2, hg⟩ := builds_took hc h hb ho hx hst hr
  rw [hy] at hy'; cases hy'
  have hn' := h.done ho hr
  have hh' := hn'.here hc hy (by rw [hst'])
  have hpc : P2 = P' ∧ c2 = c' := by
    obtain ⟨_, ob1, f1, f2, f3⟩ := hl2
    obtain ⟨_, ob2, g1, g2, g3⟩ := hh'.lies
    rw [f1] at g1; cases g1
    exact ⟨f2.symm.trans g2, f3.symm.trans g3⟩
  obtain ⟨rfl, rfl⟩ := hpc
  have hsame : Same s s1 := (Did.done (a := a) ho hr).same
  have hys := hN ys hy
  refine ⟨c2, ?_, ys, P2, hy, by rw [hst'], Nat.le_trans h0 hsame.next, hn'⟩
  rcases hg with hg | ⟨hg1, rfl, hg2⟩
  · exact hcov.keep (bytesTaken_same h0 hsame hg) (by rcases hstep with ⟨_, e⟩ | ⟨_, e⟩ <;> omega)
  · have hne : Ptr.blk s.next 0 ≠ P := by
      rintro rfl
      obtain ⟨_, ob, f1, f2, f3⟩ := (h.here hc hx hst).lies
      obtain ⟨core, al'⟩ := ob
      cases core with
      | small l => cases f2
      | ml d k cap large =>
        cases f2
        obtain ⟨B, hB, _⟩ := (reach_rel hc h).1.inv.core _ _ f1
        rw [(reach_rel hc h).1.inv.fresh _ (Nat.le_refl _)] at hB
        cases hB
    have hgr : 1 + c * 3 / 2 ≤ c2 := by
      rcases hstep with ⟨e, _⟩ | ⟨_, e⟩
      · exact absurd e hne
      · exact e
    refine hcov.more hc hgr (Nat.le_trans hg2 (most_mono (by omega))) (Nat.le_trans (bytesTaken_more h0 hsame hg1) (Nat.add_le_add_left ?_ _))
    obtain ⟨_, ob, f1, f2, f3⟩ := hh'.lies
    obtain ⟨core, al'⟩ := ob
    cases core with
    | small l => cases f2
    | ml d k cap large =>
      cases f2
      cases f3
      obtain ⟨B, hB, hlen, _⟩ := (reach_rel hc hn').1.inv.core _ _ f1
      unfold cost
      rw [hB]
      dsimp only
      split
      · unfold Blk.bytes
        rw [hlen]
        refine Nat.add_le_add_left ?_ _
        unfold hdrBytes
        split <;> omega
      · exact Nat.zero_le _

theorem memory_bound (hc : cfg.Ok) {s0 : St} {ops : List Op} :
    ∀ {a : Abs} {s s' : St} {xs : List Ch} {P : Ptr} {c n : Nat}, Reach cfg a s → a v = some xs →
    (storage cfg v s).1 = .ok (P, c, false) → peak cfg.arena v ops a = some n → n ≤ N → s0.next ≤ s.next →
    Covered cfg (bytesTaken cfg.w al s0 s) c (most cfg N) → runOk cfg ops s = (.ok (), s') →
    ∃ c', Covered cfg (bytesTaken cfg.w al s0 s') c' (most cfg N) := by
  induction ops with
  | nil =>
    intro a s s' xs P c n h hx hst hn hN h0 hcov hr
    cases hr
    exact ⟨c, hcov⟩
  | cons op ops ih =>
    intro a s s' xs P c n h hx hst hn hN h0 hcov hr
    obtain ⟨hb, a1, m, ho, hm, rfl⟩ := peak_cons hn hx
    unfold runOk at hr
    rw [bind_apply] at hr
    rcases e1 : op.run cfg s with ⟨r1, s1⟩
    rw [e1] at hr
    cases r1 with
    | error e => cases hr
    | ok w =>
      simp only at hr
      obtain ⟨c1, hc1, ys, P1, hy, hst1, hnx, hreach⟩ := memory_step (al := al) (N := N) hc h hb ho hx hst e1
        (fun ys hy => by have := peak_ge hm hy; omega) h0 hcov
      exact ih hreach hy hst1 hm (by omega) hnx hc1 hr

/-! ### C142 -/

/-- C142: however a string that shares nothing is built by `append`, `+=`, `push_back` and `insert`, mixed with `pop_back`,
`erase`, `clear` and `s[i] = c`, and however many such calls there are, it takes from its arena in all at most six times the
bytes of its contents when they were longest, and 312 more.  For `resize` this is false. -/
theorem building_memory_partial {n : Nat} {ops : List Op} (hc : cfg.Ok) (h : Reach cfg a s) (hx : a v = some xs)
    (hst : (storage cfg v s).1 = .ok (P, c, false)) (hn : peak cfg.arena v ops a = some n) (hr : runOk cfg ops s = (.ok (), s')) :
    bytesTaken cfg.w al s s' ≤ 6 * (n * cfg.w) + 312 := by
  obtain ⟨c', hcov⟩ := memory_bound (al := al) (s0 := s) (N := n) hc h hx hst hn (Nat.le_refl _) (Nat.le_refl _)
    (Or.inl (by unfold bytesTaken newBlocks; simp)) hr
  rcases hcov with h1 | ⟨c1, _, h2, h3⟩
  · omega
  · unfold most Cfg.ms at h2
    rcases hc.w with e | e | e <;> rw [e] at h2 h3 ⊢ <;> omega

-- twenty characters and then `pieces`: 885 characters at most, and 2035 bytes are taken
example : ∃ a s, Reach (arenaCfg false) a s ∧ a 0 = some (List.replicate 20 97) ∧
    (storage (arenaCfg false) 0 s).1 = .ok (.inl (.user 0) 0, 23, false) ∧ peak true 0 pieces a = some 885 ∧
    (runOk (arenaCfg false) pieces s).1 = .ok () ∧ bytesTaken 1 1 s (runOk (arenaCfg false) pieces s).2 = 2035 := by
  obtain ⟨a, h, ha, hs⟩ := reached (arenaCfg_ok false) (ops := [.makeFill 0 1 20 97]) (v := 0) (xs := List.replicate 20 97)
    (by decide +kernel) (by decide +kernel)
  refine ⟨a, _, h, ha, by decide +kernel, ?_, by decide +kernel, by decide +kernel⟩
  have : (specAll true [.makeFill 0 1 20 97] fun _ => none).bind (peak true 0 pieces) = some 885 := by decide +kernel
  rw [show specAll true [.makeFill 0 1 20 97] (fun _ => none) = some a from hs] at this
  exact this

/-- C142 violated: `resize` makes just the room needed, so making a string longer by one character at a time with `resize`
takes a new block every time; thirty times from 300 characters takes 9735 bytes, for the 330 there are in the end. -/
theorem resize_memory_violated : ∀ dbg ∈ [false, true],
    let s := (runOk (arenaCfg dbg) [.makeFill 0 1 300 97] St.init).2
    let s' := (runOk (arenaCfg dbg) ((List.range 30).map fun i => .resize 0 (301 + i) 98) s).2
    (storage (arenaCfg dbg) 0 s).1 = .ok (.blk 0 0, 300, false) ∧
    (runOk (arenaCfg dbg) ((List.range 30).map fun i => .resize 0 (301 + i) 98) s).1 = .ok () ∧
    (contents (arenaCfg dbg) 0 s').1 = .ok (List.replicate 300 97 ++ List.replicate 30 98) ∧
    bytesTaken 1 1 s s' = 9735 := by
  decide +kernel

end Verif.Str
