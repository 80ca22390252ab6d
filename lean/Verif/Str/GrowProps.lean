import Verif.Str.RoomProps

/-!
C125: how many characters are moved in all while a string is built.
-/

namespace Verif.Str

open M

variable {β γ : Type} {cfg : Cfg} {a a' : Abs} {s s' : St} {xs : List Ch} {op : Op} {P : Ptr} {c k v : Nat} {o : Obj}

/-! ### Specification -/

/-- The members that build up the string `v` or take characters away: `append`, `+=`, `push_back`, `insert`, and
`pop_back`, `erase`, `clear`, `s[i] = c`. -/
def Op.builds (v : Nat) : Op → Bool
  | .append u _ | .appendStr u _ | .appendFill u _ _ | .appendRange u _ | .pushBack u _ | .insert u _ _ | .insertFill u _ _ _
  | .popBack u | .erase u _ _ | .clear u | .setAt u _ _ => u == v
  | _ => false

/-- How many characters a program of such calls adds to the string; nothing if a call is none of them or has no
defined result. -/
def added (arena : Bool) (v : Nat) : List Op → Abs → Option Nat
  | [], _ => some 0
  | op :: ops, a =>
    if op.builds v then
      match op.spec arena a with
      | some (.done a') => do
        let xs ← a v
        let ys ← a' v
        let n ← added arena v ops a'
        pure (n + (ys.length - xs.length))
      | _ => none
    else none

/-- Run the calls one after the other, counting the characters that had to be moved: all that there were whenever
`data()` changes. -/
def moving (cfg : Cfg) (v : Nat) : List Op → M Nat
  | [] => pure 0
  | op :: ops => do
    let p ← dataPtr (.user v)
    let k ← size cfg (.user v)
    op.run cfg
    let q ← dataPtr (.user v)
    let m ← moving cfg v ops
    pure (m + if p = q then 0 else k)

/-! ### Lemmas -/

/-- The string `o` shares nothing, and where its characters are. -/
def Lies (cfg : Cfg) (o : Obj) (P : Ptr) (c : Nat) (s : St) : Prop :=
  Excl s o ∧ ∃ ob, s.vars o = some ob ∧ ob.core.ptr o = P ∧ ob.core.cap cfg = c

/-- `x`, if it succeeds, leaves the characters of `o` where they are. -/
def Leaves (cfg : Cfg) (o : Obj) (x : M β) : Prop :=
  ∀ P c s, Lies cfg o P c s → Tri x s (fun _ s' => Lies cfg o P c s') (fun _ _ => True)

theorem Still.leaves {x : M β} (h : Still x) : Leaves cfg o x := by
  intro P c s hs
  have := h s
  unfold Tri
  rcases e : x s with ⟨r, s1⟩
  rw [e] at this
  cases this
  cases r
  · trivial
  · exact hs

theorem Leaves.bind {x : M β} {f : β → M γ} (hx : Leaves cfg o x) (hf : ∀ b, Leaves cfg o (f b)) : Leaves cfg o (x >>= f) :=
  fun P c s hs => Tri.bind (hx P c s hs) fun b s1 h1 => hf b P c s1 h1

theorem Leaves.ite {p : Prop} [Decidable p] {x y : M β} (hx : Leaves cfg o x) (hy : Leaves cfg o y) :
    Leaves cfg o (if p then x else y) := by
  split
  · exact hx
  · exact hy

theorem writeCells_leaves (p : Ptr) (cs : List Cell) : Leaves cfg o (writeCells p cs) := by
  rintro P c s ⟨hx, ob, h1, h2, h3⟩
  refine (write_core (cfg := cfg) h1).mono ?_ (fun _ _ _ => trivial)
  rintro _ s1 ⟨ob', e1, e2, e3, e4⟩
  exact ⟨e4 hx, ob', e1, e2.trans h2, e3.trans h3⟩

theorem podMove_leaves (p : Ptr) (n : Nat) (q : Ptr) : Leaves cfg o (podMove p n q) :=
  (readCells_still p n).leaves.bind fun _ => writeCells_leaves _ _

theorem podCopy_leaves (p : Ptr) (n : Nat) (q : Ptr) : Leaves cfg o (podCopy cfg p n q) := by
  unfold podCopy
  refine Leaves.ite ?_ ((readCells_still p n).leaves.bind fun _ => writeCells_leaves _ _)
  split
  · exact (Still.fail _).leaves
  · exact (Still.ub _).leaves

theorem podFill_leaves (p : Ptr) (n : Nat) (ch : Ch) : Leaves cfg o (podFill p n ch) := by
  unfold podFill
  exact (room_calm p).still.leaves.bind fun _ => Leaves.ite (writeCells_leaves _ _) (Still.ub _).leaves

/-- `begin()` of a string that shares nothing changes nothing. -/
theorem begin_same (hx : Excl s o) : (begin_ cfg o s).2 = s := by
  have key : ∀ (b : Bool) (x : M Ptr), (x s).2 = s → (noexceptIf b x s).2 = s := by
    intro b x h
    have hn : (noexcept x s).2 = s := by
      unfold noexcept
      rcases e : x s with ⟨r, s1⟩
      rw [e] at h
      cases r with
      | ok _ => exact h
      | error f => cases f <;> exact h
    cases b
    · exact h
    · exact hn
  have key2 : ∀ x : M Ptr, (x s).2 = s → (noexcept x s).2 = s := fun x h => key true x h
  unfold begin_ mutableData
  refine key2 _ (key _ _ ?_)
  rw [bind_apply]
  unfold getOb
  cases hv : s.vars o with
  | none => rfl
  | some ob =>
    obtain ⟨core, al⟩ := ob
    cases core with
    | small l => exact dataPtr_still o s
    | ml d n cap large =>
      cases large with
      | false => exact dataPtr_still o s
      | true =>
        obtain ⟨⟨rc, src, cells⟩, hB, hr⟩ := hx d n cap al hv
        have hr : rc = some 1 := hr
        subst hr
        simp only
        rw [bind_apply]
        unfold refs
        simp only [hB]
        exact dataPtr_still o s

theorem begin_leaves : Leaves cfg o (begin_ cfg o) := by
  intro P c s hs
  have := begin_same (cfg := cfg) hs.1
  unfold Tri
  rcases e : begin_ cfg o s with ⟨r, s1⟩
  rw [e] at this
  cases this
  cases r
  · trivial
  · exact hs

/-- An action that changes nothing, then another. -/
theorem Tri.look {x : M β} {f : β → M γ} {Q : γ → St → Prop} (hx : (x s).2 = s) (hf : ∀ b, Tri (f b) s Q (fun _ _ => True)) :
    Tri (x >>= f) s Q (fun _ _ => True) := by
  refine Tri.bind (R := fun _ s' => s' = s) ?_ (fun b s' h => by subst h; exact hf b)
  unfold Tri
  rcases e : x s with ⟨r, s1⟩
  rw [e] at hx
  cases r
  · trivial
  · exact hx

theorem Tri.checked {x : M β} {Q : β → St → Prop} (u : Obj) (h : Tri x s Q (fun _ _ => True)) :
    Tri (checker cfg u x) s Q (fun _ _ => True) := by
  unfold checker
  refine Tri.look ((sane_calm u).still s) fun _ => ?_
  unfold Tri checking at *
  rcases e : x s with ⟨r, s1⟩
  rw [e] at h
  cases r with
  | ok b =>
    simp only
    have := (sane_calm (cfg := cfg) u).still s1
    rcases e1 : sane cfg u s1 with ⟨r', s2⟩
    rw [e1] at this
    cases this
    cases r' with
    | ok _ => exact h
    | error f => trivial
  | error f =>
    cases f with
    | throw w =>
      simp only
      rcases e1 : sane cfg u s1 with ⟨r', s2⟩
      cases r' <;> trivial
    | _ => trivial

/-- Where the characters are after `n` of them have been added. -/
def Moved (cfg : Cfg) (o : Obj) (P : Ptr) (c k n : Nat) (s' : St) : Prop :=
  ∃ P' c', Lies cfg o P' c' s' ∧ (P' = P ∧ c' = c ∨ (c < k + n ∨ k = 0) ∧ 1 + c * 3 / 2 ≤ c')

theorem Moved.same {n : Nat} (h : Lies cfg o P c s) : Moved cfg o P c k n s := ⟨P, c, h, Or.inl ⟨rfl, rfl⟩⟩

theorem Moved.after {n : Nat} {x : M β} (hx : Leaves cfg o x) (h : Moved cfg o P c k n s) :
    Tri x s (fun _ s' => Moved cfg o P c k n s') (fun _ _ => True) := by
  obtain ⟨P', c', h1, h2⟩ := h
  exact (hx P' c' s h1).mono (fun _ s' h => ⟨P', c', h, h2⟩) (fun _ _ _ => trivial)

/-- A string that shares nothing. -/
structure Here (cfg : Cfg) (o : Obj) (P : Ptr) (c k : Nat) (s : St) : Prop where
  inv : WInv cfg s
  free : s.vars (.tmp 0) = none
  lies : Lies cfg o P c s
  holds : ∃ ob l, Holds cfg s o ob l k

theorem expand_moved (hc : cfg.Ok) (h : Here cfg o P c k s) {n : Nat} (hn : k + n < M64) :
    Tri (expandNoinit cfg o n true) s (fun _ s' => Moved cfg o P c k n s') (fun _ _ => True) := by
  obtain ⟨hw, h0, ⟨hx, ob', h1, rfl, rfl⟩, ob, l, hh⟩ := h
  have e := Option.some.inj (hh.var.symm.trans h1)
  subst e
  obtain ⟨c, d1, d2, d3, d4, d5⟩ := hh.capM hw
  obtain rfl := d4 hx
  refine (expand_core hc hw hh h0 hn d1).mono ?_ (fun _ _ _ => trivial)
  rintro _ s1 ⟨ob1, e1, e2, e3⟩
  refine ⟨_, _, ⟨e3 hx, ob1, e1, rfl, rfl⟩, ?_⟩
  rcases e2 with ⟨f1, f2, _⟩ | ⟨f1, f2⟩
  · exact Or.inl ⟨f1, f2⟩
  · exact Or.inr ⟨f1, f2⟩

theorem append_moved (hc : cfg.Ok) (h : Here cfg o P c k s) {p : Ptr} {n : Nat} (hn : k + n < M64) :
    Tri (append cfg o p n) s (fun _ s' => Moved cfg o P c k n s') (fun _ _ => True) := by
  unfold append
  refine Tri.checked o ?_
  split
  · exact Tri.ret (Moved.same h.lies)
  refine Tri.look (size_still o s) fun old => Tri.look (dataPtr_still o s) fun q => Tri.bind (expand_moved hc h hn) fun r s1 h1 => ?_
  refine Moved.after (Leaves.bind ?_ fun _ => (size_still o).leaves.bind fun _ => (assert_still _ _).leaves) h1
  unfold appendCopy
  exact Leaves.ite ((assert_still _ _).leaves.bind fun _ => (dataPtr_still o).leaves.bind fun _ => podMove_leaves _ _ _) (podCopy_leaves _ _ _)

theorem appendFill_moved (hc : cfg.Ok) (h : Here cfg o P c k s) {ch : Ch} {n : Nat} (hn : k + n < M64) :
    Tri (appendFill cfg o n ch) s (fun _ s' => Moved cfg o P c k n s') (fun _ _ => True) := by
  unfold appendFill
  exact Tri.checked o (Tri.bind (expand_moved hc h hn) fun _ _ h1 => h1.after (podFill_leaves _ _ _))

theorem pushBack_moved (hc : cfg.Ok) (h : Here cfg o P c k s) {ch : Ch} (hn : k + 1 < M64) :
    Tri (pushBack cfg o ch) s (fun _ s' => Moved cfg o P c k 1 s') (fun _ _ => True) := by
  unfold pushBack
  exact Tri.bind (expand_moved hc h hn) fun _ _ h1 => h1.after (writeCells_leaves _ _)

theorem posOf_still (i : Ptr) : Still (posOf cfg o i) := by
  unfold posOf
  refine (dataPtr_still o).bind fun _ => (size_still o).bind fun _ => Still.ite (Still.pure _) ?_
  split
  · exact Still.fail _
  · exact Still.ub _

theorem insertFillAt_moved (hc : cfg.Ok) (h : Here cfg o P c k s) {i : Ptr} {ch : Ch} {n : Nat} (hn : k + n < M64) :
    Tri (insertFillAt cfg o i n ch) s (fun _ s' => Moved cfg o P c k n s') (fun _ _ => True) := by
  unfold insertFillAt
  refine Tri.checked o (Tri.look (posOf_still i s) fun pos => Tri.look (size_still o s) fun old => Tri.bind (expand_moved hc h hn) fun _ _ h1 => ?_)
  exact h1.after (begin_leaves.bind fun _ => (podMove_leaves _ _ _).bind fun _ => podFill_leaves _ _ _)

theorem insertRangeAt_moved (hc : cfg.Ok) (h : Here cfg o P c k s) {i p : Ptr} {n : Nat} (hn : k + n < M64) :
    Tri (insertRangeAt cfg o i p n) s (fun _ s' => Moved cfg o P c k n s') (fun _ _ => True) := by
  unfold insertRangeAt
  refine Tri.checked o (Tri.look (posOf_still i s) fun pos => Tri.look (size_still o s) fun old => Tri.bind (expand_moved hc h hn) fun _ _ h1 => ?_)
  exact h1.after (begin_leaves.bind fun _ => (podMove_leaves _ _ _).bind fun _ => podMove_leaves _ _ _)

theorem shrink_leaves {n : Nat} : Leaves cfg o (shrink cfg o n) := by
  rintro P c s ⟨hx, ob, h1, h2, h3⟩
  unfold shrink
  refine Tri.step (getOb_ok h1) ?_
  obtain ⟨core, al⟩ := ob
  have med : ∀ {d m cap : Nat} {large : Bool}, (⟨core, al⟩ : Ob) = ⟨.ml d m cap large, al⟩ →
      Tri (shrinkMedium cfg o d m cap large n) s (fun _ s' => Lies cfg o P c s') (fun _ _ => True) := by
    rintro d m cap large e
    cases e
    have h2 : Ptr.blk d 0 = P := h2
    have h3 : cap = c := h3
    unfold shrinkMedium
    generalize sub64 m n = z
    refine Tri.look (assert_still _ _ s) fun _ => Tri.step (setCore_ok h1) (writeCells_leaves _ _ P c _ ⟨?_, _, upd_same _ _ _, h2, h3⟩)
    intro d' n' cap' al' he
    simp at he
    obtain ⟨⟨rfl, rfl, rfl, rfl⟩, rfl⟩ := he
    exact hx d m cap al h1
  cases core with
  | small l =>
    simp only
    have h2 : Ptr.inl o 0 = P := h2
    have h3 : cfg.ms = c := h3
    unfold shrinkSmall setSmallSize
    refine Tri.look (size_still o s) fun m => ?_
    generalize sub64 m n = z
    refine Tri.look (assert_still _ _ s) fun _ => Tri.look (assert_still _ _ s) fun _ => Tri.step (getOb_ok h1) ?_
    simp only
    split
    · refine Tri.of_ok (setCore_ok h1) ⟨?_, _, upd_same _ _ _, h2, h3⟩
      intro d' n' cap' al' he
      simp at he
    · trivial
  | ml d m cap large =>
    cases large with
    | false => exact med rfl
    | true =>
      obtain ⟨⟨rc, src, cells⟩, hB, hr⟩ := hx d m cap al h1
      have hr : rc = some 1 := hr
      subst hr
      simp only
      have : refs d s = (.ok 1, s) := by
        unfold refs
        simp only [hB]
      exact Tri.step this (by rw [if_pos rfl]; exact med rfl)

theorem noexcept_leaves {x : M β} (h : Leaves cfg o x) : Leaves cfg o (noexcept x) :=
  fun P c s hs => noexcept_tri (h P c s hs) (fun _ _ _ => trivial) (fun _ _ _ _ => trivial)

theorem resize_less {n k : Nat} {ch : Ch} (hk : size cfg o s = (.ok k, s)) (hn : n ≤ k) (h : Lies cfg o P c s) :
    Tri (resize cfg o n ch) s (fun _ s' => Lies cfg o P c s') (fun _ _ => True) := by
  unfold resize
  refine Tri.checked o (Tri.step hk ?_)
  rw [if_pos hn]
  exact shrink_leaves P c s h

theorem Here.own (h : Here cfg o P c k s) : ∃ cs, Own cfg s o P cs ∧ cs.length = k := by
  obtain ⟨hw, _, ⟨hx, ob', h1, rfl, rfl⟩, ob, l, hh⟩ := h
  have e := Option.some.inj (hh.var.symm.trans h1)
  subst e
  exact ⟨l.take k, ⟨ob, l, k, hh, hx, rfl, rfl⟩, Raw.length_take hw hh⟩

theorem erase_leaves (h : Here cfg o P c k s) {pos n : Nat} (hp : pos ≤ k) :
    Tri (erase cfg o pos n) s (fun _ s' => Lies cfg o P c s') (fun _ _ => True) := by
  obtain ⟨cs, ho, rfl⟩ := h.own
  have hw := h.inv
  unfold erase
  refine Tri.checked o (Tri.step (ho.raw.sizeM hw) (Tri.step (enforce_ok (by simpa using hp)) ?_))
  simp only
  refine Tri.step (begin_own hw ho) ?_
  obtain ⟨s1, e1, e2, e3, e4, _⟩ := ho.move hw (i := pos + min n (cs.length - pos)) (j := pos) (k := cs.length - (pos + min n (cs.length - pos))) (by omega) (by omega)
  have hl : (put cs pos ((cs.drop (pos + min n (cs.length - pos))).take (cs.length - (pos + min n (cs.length - pos))))).length = cs.length :=
    put_length (by simp; omega)
  have hs1 := podMove_leaves (P.add (pos + min n (cs.length - pos))) (cs.length - (pos + min n (cs.length - pos))) (P.add pos) P c s h.lies
  simp only [Tri, e1] at hs1
  have hz := e4.raw.sizeM e2
  rw [hl] at hz
  exact Tri.step e1 (resize_less hz (by omega) hs1)

/-- What one call does to the storage. -/
theorem builds_step (hc : cfg.Ok) (h : Reach cfg a s) (hv : op.builds v = true) (ho : op.spec cfg.arena a = some (.done a'))
    (hx : a v = some xs) (hst : (storage cfg v s).1 = .ok (P, c, false)) (hr : op.run cfg s = (.ok (), s')) :
    ∃ ys P' c', a' v = some ys ∧ storage cfg v s' = (.ok (P', c', false), s') ∧
      (P' = P ∧ c' = c ∨ (c < ys.length ∨ xs.length = 0) ∧ 1 + c * 3 / 2 ≤ c') := by
  have hrel := (reach_rel hc h).1
  have hh : Here cfg (.user v) P c xs.length s := by
    obtain ⟨ob, l, g, _⟩ := h.holds hc hx
    obtain ⟨c', hcap, _, _, h3, _⟩ := g.capM hrel.inv
    obtain ⟨b, hsh, hex⟩ := isShared_ok hrel.inv (hrel.held v xs hx)
    unfold storage at hst
    rw [bind_ok g.dataM, bind_ok hcap, bind_ok hsh] at hst
    cases hst
    exact ⟨hrel.inv, hrel.tmps 0, ⟨hex rfl, ob, g.var, rfl, (h3 (hex rfl)).symm⟩, ob, l, g⟩
  have hn := h.done ho hr
  have fin : ∀ ys P' c', a' v = some ys → Lies cfg (.user v) P' c' s' → storage cfg v s' = (.ok (P', c', false), s') := by
    rintro ys P' c' hy ⟨hx', ob, e1, rfl, rfl⟩
    obtain ⟨ob2, l2, g2, _⟩ := hn.holds hc hy
    have e3 := Option.some.inj (g2.var.symm.trans e1)
    subst e3
    exact held_storage (reach_rel hc hn).1.inv g2 hx'
  have big : ∀ ys n, a.set v ys = some (.done a') → ys.length = xs.length + n →
      (xs.length + n < M64 → Tri (op.run cfg) s (fun _ s' => Moved cfg (.user v) P c xs.length n s') (fun _ _ => True)) →
      ∃ ys P' c', a' v = some ys ∧ storage cfg v s' = (.ok (P', c', false), s') ∧
        (P' = P ∧ c' = c ∨ (c < ys.length ∨ xs.length = 0) ∧ 1 + c * 3 / 2 ≤ c') := by
    intro ys n hs hl ht
    have hy := set_done hs
    have hlt : ys.length < M64 := by
      unfold Abs.set at hs
      split at hs
      · assumption
      · cases hs
    have := ht (by omega)
    simp only [Tri, hr] at this
    obtain ⟨P', c', h1, h2⟩ := this
    exact ⟨ys, P', c', hy, fin ys P' c' hy h1, by rw [hl]; exact h2⟩
  have less : ∀ ys, a.set v ys = some (.done a') → Tri (op.run cfg) s (fun _ s' => Lies cfg (.user v) P c s') (fun _ _ => True) →
      ∃ ys P' c', a' v = some ys ∧ storage cfg v s' = (.ok (P', c', false), s') ∧
        (P' = P ∧ c' = c ∨ (c < ys.length ∨ xs.length = 0) ∧ 1 + c * 3 / 2 ≤ c') := by
    intro ys hs ht
    have hy := set_done hs
    simp only [Tri, hr] at ht
    exact ⟨ys, P, c, hy, fin ys P c hy ht, Or.inl ⟨rfl, rfl⟩⟩
  have hsz := (hrel.held v xs hx).sizeM hrel.inv
  rw [List.length_map] at hsz
  cases op with
  | append v' src =>
    have hv := beq_iff_eq.1 hv; subst hv
    simp only [Op.spec, hx, Option.bind_eq_bind, Option.bind_some, Option.bind_eq_some_iff] at ho
    obtain ⟨ys, hy, ho⟩ := ho
    obtain ⟨p, hp, -⟩ := resolve_ok hc hrel hy v'
    refine big _ ys.length ho (by simp) fun hl => Tri.step hp ?_
    simp only [List.length_map]
    exact append_moved hc hh hl
  | appendStr v' u =>
    have hv := beq_iff_eq.1 hv; subst hv
    simp only [Op.spec, hx, Option.bind_eq_bind, Option.bind_some, Option.bind_eq_some_iff] at ho
    obtain ⟨ys, hy, ho⟩ := ho
    obtain ⟨q, hq, _⟩ := (hrel.held u ys hy).dataM
    have hsu := (hrel.held u ys hy).sizeM hrel.inv
    rw [List.length_map] at hsu
    refine big _ ys.length ho (by simp) fun hl => Tri.step hsz (Tri.step hsu (Tri.step hq (Tri.bind (append_moved hc hh hl) fun _ _ h1 => ?_)))
    exact h1.after ((size_still _).leaves.bind fun _ => (assert_still _ _).leaves)
  | appendFill v' n ch =>
    have hv := beq_iff_eq.1 hv; subst hv
    simp only [Op.spec, hx, Option.bind_eq_bind, Option.bind_some] at ho
    exact big _ n ho (by simp) fun hl => appendFill_moved hc hh hl
  | appendRange v' src =>
    have hv := beq_iff_eq.1 hv; subst hv
    simp only [Op.spec, hx, Option.bind_eq_bind, Option.bind_some, Option.bind_eq_some_iff] at ho
    obtain ⟨ys, hy, ho⟩ := ho
    split at ho
    case isTrue => cases ho
    obtain ⟨p, hp, -⟩ := resolve_ok hc hrel hy v'
    refine big _ ys.length ho (by simp) fun hl => Tri.step hp ?_
    simp only [List.length_map]
    unfold appendRange
    exact Tri.look (begin_same hh.lies.1) fun _ => Tri.look (size_still _ s) fun _ => insertRangeAt_moved hc hh hl
  | pushBack v' ch =>
    have hv := beq_iff_eq.1 hv; subst hv
    simp only [Op.spec, hx, Option.bind_eq_bind, Option.bind_some] at ho
    exact big _ 1 ho (by simp) fun hl => pushBack_moved hc hh hl
  | insert v' pos src =>
    have hv := beq_iff_eq.1 hv; subst hv
    simp only [Op.spec, hx, Option.bind_eq_bind, Option.bind_some, Option.bind_eq_some_iff] at ho
    obtain ⟨ys, hy, ho⟩ := ho
    split at ho
    case isTrue => cases ho
    split at ho
    case isFalse => cases ho
    rename_i hpos
    obtain ⟨p, hp, -⟩ := resolve_ok hc hrel hy v'
    refine big _ ys.length ho (by rw [splice_length hpos]; simp) fun hl => Tri.step hp ?_
    simp only [List.length_map]
    unfold insert
    exact Tri.look (size_still _ s) fun _ => Tri.look (enforce_still _ s) fun _ => Tri.look (begin_same hh.lies.1) fun _ => insertRangeAt_moved hc hh hl
  | insertFill v' pos n ch =>
    have hv := beq_iff_eq.1 hv; subst hv
    simp only [Op.spec, hx, Option.bind_eq_bind, Option.bind_some] at ho
    split at ho
    case isFalse => cases ho
    rename_i hpos
    refine big _ n ho (by rw [splice_length hpos]; simp) fun hl => ?_
    simp only [Op.run, insertFill]
    exact Tri.look (size_still _ s) fun _ => Tri.look (enforce_still _ s) fun _ => Tri.look (begin_same hh.lies.1) fun _ => insertFillAt_moved hc hh hl
  | popBack v' =>
    have hv := beq_iff_eq.1 hv; subst hv
    simp only [Op.spec, hx, Option.bind_eq_bind, Option.bind_some] at ho
    split at ho
    case isTrue => cases ho
    exact less _ ho (noexcept_leaves ((size_still _).leaves.bind fun _ => (assert_still _ _).leaves.bind fun _ => shrink_leaves) P c s hh.lies)
  | clear v' =>
    have hv := beq_iff_eq.1 hv; subst hv
    simp only [Op.spec, hx, Option.bind_eq_bind, Option.bind_some] at ho
    exact less _ ho (resize_less hsz (Nat.zero_le _) hh.lies)
  | setAt v' i ch =>
    have hv := beq_iff_eq.1 hv; subst hv
    simp only [Op.spec, hx, Option.bind_eq_bind, Option.bind_some] at ho
    split at ho
    case isFalse => cases ho
    exact less _ ho ((begin_leaves.bind fun _ => writeCells_leaves _ _) P c s hh.lies)
  | erase v' pos n =>
    have hv := beq_iff_eq.1 hv; subst hv
    simp only [Op.spec, hx, Option.bind_eq_bind, Option.bind_some] at ho
    split at ho
    case isFalse => cases ho
    rename_i hpos
    exact less _ ho (erase_leaves hh hpos)
  | _ => cases hv

theorem added_cons {arena : Bool} {ops : List Op} {n : Nat} (h : added arena v (op :: ops) a = some n) (hx : a v = some xs) :
    op.builds v = true ∧ ∃ a' ys m, op.spec arena a = some (.done a') ∧ a' v = some ys ∧ added arena v ops a' = some m ∧
      n = m + (ys.length - xs.length) := by
  unfold added at h
  split at h
  case isFalse => cases h
  refine ⟨‹_›, ?_⟩
  split at h
  · rename_i a1 e
    simp only [hx, Option.bind_eq_bind, Option.bind_some, Option.bind_eq_some_iff] at h
    obtain ⟨ys, hy, m, hm, h⟩ := h
    cases h
    exact ⟨a1, ys, m, e, hy, hm, rfl⟩
  · cases h

theorem moving_bound (hc : cfg.Ok) {ops : List Op} :
    ∀ {a : Abs} {s s' : St} {xs : List Ch} {P : Ptr} {c M T n m : Nat}, Reach cfg a s → a v = some xs →
    (storage cfg v s).1 = .ok (P, c, false) → added cfg.arena v ops a = some n → M ≤ 2 * c → M ≤ 3 * T → xs.length ≤ T →
    moving cfg v ops s = (.ok m, s') → M + m ≤ 3 * (T + n) ∧ ∃ a', Reach cfg a' s' := by
  induction ops with
  | nil =>
    intro a s s' xs P c M T n m h hx hst hn h1 h2 h3 hr
    cases hr
    cases hn
    exact ⟨by omega, a, h⟩
  | cons op ops ih =>
    intro a s s' xs P c M T n m h hx hst hn h1 h2 h3 hr
    obtain ⟨hb, a1, ys, n1, ho, hy, hn1, rfl⟩ := added_cons hn hx
    obtain ⟨hsz, ⟨c0, hcap, hle⟩, p, hp, _⟩ := storage_ok hc h hx
    have hpc : p = P ∧ c0 = c := by
      obtain ⟨b, hsh, _⟩ := isShared_ok (reach_rel hc h).1.inv ((reach_rel hc h).1.held v xs hx)
      unfold storage at hst
      rw [bind_ok hp, bind_ok hcap, bind_ok hsh] at hst
      cases hst
      exact ⟨rfl, rfl⟩
    obtain ⟨rfl, rfl⟩ := hpc
    unfold moving at hr
    rw [bind_ok hp, bind_ok hsz, bind_apply] at hr
    rcases e1 : op.run cfg s with ⟨r1, s1⟩
    rw [e1] at hr
    cases r1 with
    | error e => cases hr
    | ok w =>
      simp only at hr
      obtain ⟨ys', P', c', hy', hst', hstep⟩ := builds_step hc h hb ho hx hst e1
      rw [hy] at hy'; cases hy'
      have hn' := h.done ho e1
      obtain ⟨_, ⟨c1, hcap', hle'⟩, q, hq, _⟩ := storage_ok hc hn' hy
      have hqc : q = P' ∧ c1 = c' := by
        obtain ⟨b, hsh, _⟩ := isShared_ok (reach_rel hc hn').1.inv ((reach_rel hc hn').1.held v ys hy)
        unfold storage at hst'
        rw [bind_ok hq, bind_ok hcap', bind_ok hsh] at hst'
        cases hst'
        exact ⟨rfl, rfl⟩
      obtain ⟨rfl, rfl⟩ := hqc
      rw [bind_ok hq, bind_apply] at hr
      rcases e2 : moving cfg v ops s1 with ⟨r2, s2⟩
      rw [e2] at hr
      cases r2 with
      | error e => cases hr
      | ok m2 =>
        cases hr
        have hb : (M + if p = q then 0 else xs.length) ≤ 2 * c1 ∧
            (M + if p = q then 0 else xs.length) ≤ 3 * (T + (ys.length - xs.length)) := by
          rcases hstep with ⟨g1, g2⟩ | ⟨g1, g2⟩
          · rw [if_pos g1.symm]; omega
          · split <;> rcases g1 with g1 | g1 <;> omega
        obtain ⟨k1, k2⟩ := ih hn' hy (by rw [hst']) hn1 hb.1 hb.2 (by omega) e2
        exact ⟨by omega, k2⟩

/-! ### C125 -/

/-- C125: however a string that shares nothing is built by `append`, `+=`, `push_back` and `insert`, mixed with `pop_back`,
`erase`, `clear` and `s[i] = c`, the characters moved in all, counting every character whenever `data()` changes, are at most
three for each one there was or was added.  For `resize` this is false. -/
theorem building_moves_partial {n m : Nat} {ops : List Op} (hc : cfg.Ok) (h : Reach cfg a s) (hx : a v = some xs)
    (hst : (storage cfg v s).1 = .ok (P, c, false)) (hn : added cfg.arena v ops a = some n) (hr : moving cfg v ops s = (.ok m, s')) :
    m ≤ 3 * (xs.length + n) := by
  have := (moving_bound hc h hx hst hn (M := 0) (T := xs.length) (by omega) (by omega) (Nat.le_refl _) hr).1
  omega

/-- Twenty characters; then some are added at both ends and in the middle, some taken away, and pieces added that get
longer and longer. -/
def pieces : List Op :=
  .append 0 (.lit [1, 2, 3]) :: .popBack 0 :: .insertFill 0 1 400 5 :: .erase 0 3 2 ::
    (List.range 30).map fun i => .append 0 (.lit (List.replicate (i + 1) 98))

-- 868 characters are added and 1073 moved
example : ∃ a s, Reach (heapCfg false) a s ∧ a 0 = some (List.replicate 20 97) ∧
    (storage (heapCfg false) 0 s).1 = .ok (.inl (.user 0) 0, 23, false) ∧ added false 0 pieces a = some 868 ∧
    (moving (heapCfg false) 0 pieces s).1 = .ok 1073 := by
  obtain ⟨a, h, ha, hs⟩ := reached (heapCfg_ok false) (ops := [.makeFill 0 0 20 97]) (v := 0) (xs := List.replicate 20 97)
    (by decide +kernel) (by decide +kernel)
  refine ⟨a, _, h, ha, by decide +kernel, ?_, by decide +kernel⟩
  have : (specAll false [.makeFill 0 0 20 97] fun _ => none).bind (added false 0 pieces) = some 868 := by decide +kernel
  rw [show specAll false [.makeFill 0 0 20 97] (fun _ => none) = some a from hs] at this
  exact this

/-- C125 violated: `resize` makes just the room needed, so making a string longer by one character at a time with `resize`
moves all of it every time; thirty times from 300 characters is 9435 characters, for the 330 there are in the end. -/
theorem resize_moves_violated : ∀ dbg ∈ [false, true],
    let s := (runOk (arenaCfg dbg) [.makeFill 0 1 300 97] St.init).2
    (storage (arenaCfg dbg) 0 s).1 = .ok (.blk 0 0, 300, false) ∧
    (moving (arenaCfg dbg) 0 ((List.range 30).map fun i => .resize 0 (301 + i) 98) s).1 = .ok 9435 := by
  decide +kernel

end Verif.Str
