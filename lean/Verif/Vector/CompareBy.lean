import Verif.Vector.Compare

/-! Comparison of vectors whose elements come with any comparison operators of their own (C146): floating point numbers with their
NaN, keys that ignore case, and so on.  `Verif.Vector.Compare` is about elements with a total order. -/

namespace Verif.Vector

open V

variable {α : Type} {cfg : Cfg α} {w : World α} {i j k : Nat} {xs ys zs : List α}

/-- The operators `<`, `>` and `!=` of the element type; nothing is assumed about them. -/
structure Comparing (α : Type) where
  lt : α → α → Bool
  gt : α → α → Bool
  ne : α → α → Bool

/-- The loop of `operator==`, container/stdb_vector.hpp:1402-1406, from index `i` for `n` elements, with the elements' own `!=`. -/
def eqLoopBy (E : Comparing α) (a b : Vec) (i : Nat) : Nat → V α Bool
  | 0 => pure true
  | n + 1 => do
    let x ← load (a.ptr i)
    let y ← load (b.ptr i)
    if E.ne x y then return false else eqLoopBy E a b (i + 1) n

/-- `operator==`, container/stdb_vector.hpp:1397-1408. -/
def vecEqBy (E : Comparing α) (a b : Vec) : V α Bool :=
  if a.fin ≠ b.fin then pure false else eqLoopBy E a b 0 a.fin

/-- The loop of `operator<=>`, container/stdb_vector.hpp:1412-1419, with the elements' own `<` and `>`; `none` if it runs to its
end. -/
def cmpLoopBy (E : Comparing α) (a b : Vec) (i : Nat) : Nat → V α (Option Ordering)
  | 0 => pure none
  | n + 1 => do
    let x ← load (a.ptr i)
    let y ← load (b.ptr i)
    if E.lt x y then return some .lt
    else if E.gt x y then return some .gt
    else cmpLoopBy E a b (i + 1) n

/-- `operator<=>`, container/stdb_vector.hpp:1410-1427. -/
def vecCmpBy (E : Comparing α) (a b : Vec) : V α Ordering := do
  match ← cmpLoopBy E a b 0 (min a.fin b.fin) with
  | some o => return o
  | none => return if a.fin < b.fin then .lt else if b.fin < a.fin then .gt else .eq

/-- `vectors[i] == vectors[j]`. -/
def World.equalBy (E : Comparing α) (w : World α) (i j : Nat) : Option (Except Fault Bool) :=
  match w.vecs[i]?, w.vecs[j]? with
  | some (some u), some (some v) => some (vecEqBy E u v ⟨w.mem, u⟩).1
  | _, _ => none

/-- `vectors[i] <=> vectors[j]`; by the rules of C++20 `a < b` is `(a <=> b) < 0`, and so for `>`, `<=` and `>=`. -/
def World.compareBy (E : Comparing α) (w : World α) (i j : Nat) : Option (Except Fault Ordering) :=
  match w.vecs[i]?, w.vecs[j]? with
  | some (some u), some (some v) => some (vecCmpBy E u v ⟨w.mem, u⟩).1
  | _, _ => none

/-- The comparison of `Verif.Vector.Model` is the case in which `>` is `<` turned round. -/
theorem vecCmp_eq_by (lt : α → α → Bool) (ne : α → α → Bool) (a b : Vec) :
    vecCmp lt a b = vecCmpBy ⟨lt, fun x y => lt y x, ne⟩ a b := by
  have h : ∀ n i, cmpLoop lt a b i n = cmpLoopBy ⟨lt, fun x y => lt y x, ne⟩ a b i n := by
    intro n
    induction n with
    | zero => intro i; rfl
    | succ n ih => intro i; simp only [cmpLoop, cmpLoopBy, ih]
  unfold vecCmp vecCmpBy
  rw [h]
  congr 1

/-- The equality of `Verif.Vector.Model` is the case in which `!=` says whether the elements differ. -/
theorem vecEq_eq_by [DecidableEq α] (lt gt : α → α → Bool) (a b : Vec) :
    vecEq a b = vecEqBy ⟨lt, gt, fun x y => decide (x ≠ y)⟩ a b := by
  have h : ∀ n i, eqLoop a b i n = eqLoopBy ⟨lt, gt, fun x y => decide (x ≠ y)⟩ a b i n := by
    intro n
    induction n with
    | zero => intro i; rfl
    | succ n ih => intro i; simp only [eqLoop, eqLoopBy, ih, decide_eq_true_eq]
  simp only [vecEq, vecEqBy, h]

/-! ### What the comparisons should give -/

/-- The dictionary order with these operators: the first place where one of `<` and `>` holds decides, and if there is none, the
length. -/
def dictionary (E : Comparing α) : List α → List α → Ordering
  | [], [] => .eq
  | [], _ :: _ => .lt
  | _ :: _, [] => .gt
  | x :: xs, y :: ys => if E.lt x y then .lt else if E.gt x y then .gt else dictionary E xs ys

/-- The operators `<` and `>` belong together, and give the elements an order up to equivalence (a strict weak order). -/
structure Comparing.Weak (E : Comparing α) : Prop where
  gt_lt : ∀ x y, E.gt x y = E.lt y x
  asymm : ∀ x y, E.lt x y = true → E.lt y x = false
  trans : ∀ x y z, E.lt x y = false → E.lt y z = false → E.lt x z = false

/-- Elements are different exactly if one of them is less. -/
def Comparing.Agrees (E : Comparing α) : Prop := ∀ x y, E.ne x y = true ↔ (E.lt x y = true ∨ E.lt y x = true)

theorem dictionary_swap {E : Comparing α} (hE : E.Weak) : ∀ xs ys : List α, dictionary E ys xs = (dictionary E xs ys).swap
  | [], [] => rfl
  | [], _ :: _ => rfl
  | _ :: _, [] => rfl
  | x :: xs, y :: ys => by
    simp only [dictionary, hE.gt_lt]
    have ih := dictionary_swap hE xs ys
    cases h1 : E.lt x y with
    | true => simp [hE.asymm x y h1]
    | false =>
      cases h2 : E.lt y x with
      | true => simp
      | false => simpa using ih

theorem dictionary_trans {E : Comparing α} (hE : E.Weak) : ∀ xs ys zs : List α, dictionary E xs ys ≠ .gt →
    dictionary E ys zs ≠ .gt → dictionary E xs zs ≠ .gt
  | [], _, [], _, _ => by simp [dictionary]
  | [], _, _ :: _, _, _ => by simp [dictionary]
  | _ :: _, [], _, h, _ => by simp [dictionary] at h
  | _ :: _, _ :: _, [], _, h => by simp [dictionary] at h
  | x :: xs, y :: ys, z :: zs, h1, h2 => by
    have ih := dictionary_trans hE xs ys zs
    simp only [dictionary, hE.gt_lt] at h1 h2 ⊢
    have hxyz := hE.trans
    cases axy : E.lt x y with
    | true =>
      have ayx := hE.asymm _ _ axy
      have : E.lt z y = false := by
        cases azy : E.lt z y with
        | false => rfl
        | true => simp [hE.asymm _ _ azy, azy] at h2
      have : E.lt x z = true := by
        cases axz : E.lt x z with
        | true => rfl
        | false => rw [hxyz x z y axz this] at axy; exact absurd axy (by simp)
      simp [this]
    | false =>
      cases ayx : E.lt y x with
      | true => simp [axy, ayx] at h1
      | false =>
        cases ayz : E.lt y z with
        | true =>
          have : E.lt x z = true := by
            cases axz : E.lt x z with
            | true => rfl
            | false => rw [hxyz y x z ayx axz] at ayz; exact absurd ayz (by simp)
          simp [this]
        | false =>
          cases azy : E.lt z y with
          | true => simp [ayz, azy] at h2
          | false =>
            simp only [hxyz x y z axy ayz, hxyz z y x azy ayx]
            simp only [axy, ayx] at h1
            simp only [ayz, azy] at h2
            exact ih h1 h2

theorem dictionary_eq {E : Comparing α} (hE : E.Weak) (ha : E.Agrees) : ∀ xs ys : List α,
    dictionary E xs ys = .eq ↔ xs.length = ys.length ∧ ∀ (k : Nat) x y, xs[k]? = some x → ys[k]? = some y → E.ne x y = false
  | [], [] => by simp [dictionary]
  | [], _ :: _ => by simp [dictionary]
  | _ :: _, [] => by simp [dictionary]
  | x :: xs, y :: ys => by
    have ih := dictionary_eq hE ha xs ys
    have hn : E.ne x y = false ↔ (E.lt x y = false ∧ E.lt y x = false) := by
      have := ha x y
      cases h1 : E.ne x y <;> cases h2 : E.lt x y <;> cases h3 : E.lt y x <;> simp_all
    have hr : (∀ (k : Nat) a b, (x :: xs)[k]? = some a → (y :: ys)[k]? = some b → E.ne a b = false) ↔
        E.ne x y = false ∧ ∀ (k : Nat) a b, xs[k]? = some a → ys[k]? = some b → E.ne a b = false := by
      constructor
      · intro h
        exact ⟨h 0 x y rfl rfl, fun k a b h1 h2 => h (k + 1) a b (by simpa using h1) (by simpa using h2)⟩
      · rintro ⟨h0, h⟩ k a b h1 h2
        cases k with
        | zero => simp only [List.getElem?_cons_zero, Option.some.injEq] at h1 h2; rw [← h1, ← h2]; exact h0
        | succ k => exact h k a b (by simpa using h1) (by simpa using h2)
    rw [hr, hn]
    simp only [dictionary, hE.gt_lt, List.length_cons, Nat.add_right_cancel_iff]
    cases h1 : E.lt x y <;> cases h2 : E.lt y x <;> simp
    simpa using ih

/-! ### The loops -/

theorem eqLoopBy_ok {E : Comparing α} {s : S α} {u v : Vec} (hu : VecOK cfg s.mem u xs) (hv : VecOK cfg s.mem v zs) (n : Nat) :
    ∀ k, k + n = xs.length → k + n = zs.length →
      ∃ b, eqLoopBy E u v k n s = (.ok b, s) ∧
        (b = true ↔ ∀ (m : Nat) x y, (xs.drop k)[m]? = some x → (zs.drop k)[m]? = some y → E.ne x y = false) := by
  induction n with
  | zero =>
    intro k h1 h2
    refine ⟨true, rfl, ?_⟩
    rw [List.drop_eq_nil_of_le (by omega)]
    simp
  | succ n ih =>
    intro k h1 h2
    have e1 : xs[k]? = some (xs[k]'(by omega)) := List.getElem?_eq_getElem _
    have e2 : zs[k]? = some (zs[k]'(by omega)) := List.getElem?_eq_getElem _
    rw [eqLoopBy, bind_ok (load_ptr hu e1), bind_ok (load_ptr hv e2), drop_cons e1, drop_cons e2]
    generalize xs[k]'(by omega) = a
    generalize zs[k]'(by omega) = b
    cases h : E.ne a b with
    | true =>
      refine ⟨false, rfl, by simp, fun hh => ?_⟩
      have := hh 0 a b rfl rfl
      rw [h] at this
      exact absurd this (by simp)
    | false =>
      obtain ⟨r, hr, hb⟩ := ih (k + 1) (by omega) (by omega)
      refine ⟨r, hr, hb.trans ⟨?_, ?_⟩⟩
      · rintro hh m x y h1 h2
        cases m with
        | zero => simp only [List.getElem?_cons_zero, Option.some.injEq] at h1 h2; rw [← h1, ← h2]; exact h
        | succ m => exact hh m x y (by simpa using h1) (by simpa using h2)
      · intro hh m x y h1 h2
        exact hh (m + 1) x y (by simpa using h1) (by simpa using h2)

theorem cmpLoopBy_ok {E : Comparing α} {s : S α} {u v : Vec} (hu : VecOK cfg s.mem u xs) (hv : VecOK cfg s.mem v zs) (n : Nat) :
    ∀ k, k + n = min xs.length zs.length →
      ∃ o, cmpLoopBy E u v k n s = (.ok o, s) ∧
        dictionary E (xs.drop k) (zs.drop k) =
          o.getD (if xs.length < zs.length then .lt else if zs.length < xs.length then .gt else .eq) := by
  induction n with
  | zero =>
    intro k hk
    refine ⟨none, rfl, ?_⟩
    by_cases h : xs.length ≤ zs.length
    · rw [List.drop_eq_nil_of_le (as := xs) (by omega)]
      by_cases h2 : zs.length ≤ xs.length
      · rw [List.drop_eq_nil_of_le (as := zs) (by omega)]
        have : xs.length = zs.length := by omega
        simp [dictionary, this]
      · have e2 : zs[k]? = some (zs[k]'(by omega)) := List.getElem?_eq_getElem _
        rw [drop_cons e2]
        simp [dictionary, Nat.lt_of_not_le h2]
    · rw [List.drop_eq_nil_of_le (as := zs) (by omega)]
      have e1 : xs[k]? = some (xs[k]'(by omega)) := List.getElem?_eq_getElem _
      rw [drop_cons e1]
      have : ¬ xs.length < zs.length := by omega
      simp [dictionary, this, Nat.lt_of_not_le h]
  | succ n ih =>
    intro k hk
    have e1 : xs[k]? = some (xs[k]'(by omega)) := List.getElem?_eq_getElem _
    have e2 : zs[k]? = some (zs[k]'(by omega)) := List.getElem?_eq_getElem _
    rw [cmpLoopBy, bind_ok (load_ptr hu e1), bind_ok (load_ptr hv e2), drop_cons e1, drop_cons e2]
    generalize xs[k]'(by omega) = a
    generalize zs[k]'(by omega) = b
    simp only [dictionary]
    cases E.lt a b with
    | true => exact ⟨some .lt, rfl, rfl⟩
    | false =>
      cases E.gt a b with
      | true => exact ⟨some .gt, rfl, rfl⟩
      | false =>
        obtain ⟨o, ho, h⟩ := ih (k + 1) (by omega)
        exact ⟨o, ho, h⟩

/-! ### The property -/

/-- C146: whatever the operators of the elements are, `==` asks whether the lengths are the same and no two elements at the same
place differ; it never fails. -/
theorem equality_any [DecidableEq α] (E : Comparing α) (hg : Good cfg) (hr : Reachable cfg w) (hx : w.Reads i xs) (hz : w.Reads j zs) :
    ∃ b, w.equalBy E i j = some (.ok b) ∧
      (b = true ↔ xs.length = zs.length ∧ ∀ (k : Nat) x y, xs[k]? = some x → zs[k]? = some y → E.ne x y = false) := by
  obtain ⟨u, hu, huok, _⟩ := hr.vec hg hx
  obtain ⟨v, hv, hvok, _⟩ := hr.vec hg hz
  unfold World.equalBy
  simp only [hu, hv]
  unfold vecEqBy
  rw [huok.fin_eq, hvok.fin_eq]
  by_cases h : xs.length = zs.length
  · obtain ⟨b, hb, hh⟩ := eqLoopBy_ok (E := E) (s := ⟨w.mem, u⟩) huok hvok xs.length 0 (by omega) (by omega)
    rw [if_neg (by simpa using h), hb]
    exact ⟨b, rfl, by simpa [h] using hh⟩
  · rw [if_pos h]
    exact ⟨false, rfl, by simp [h]⟩

/-- C146: whatever the operators of the elements are, `<=>` gives the dictionary order they make; it never fails. -/
theorem comparison_any [DecidableEq α] (E : Comparing α) (hg : Good cfg) (hr : Reachable cfg w) (hx : w.Reads i xs) (hz : w.Reads j zs) :
    w.compareBy E i j = some (.ok (dictionary E xs zs)) := by
  obtain ⟨u, hu, huok, _⟩ := hr.vec hg hx
  obtain ⟨v, hv, hvok, _⟩ := hr.vec hg hz
  unfold World.compareBy
  simp only [hu, hv]
  unfold vecCmpBy
  rw [huok.fin_eq, hvok.fin_eq]
  obtain ⟨o, ho, h⟩ := cmpLoopBy_ok (E := E) (s := ⟨w.mem, u⟩) huok hvok (min xs.length zs.length) 0 (by omega)
  rw [bind_ok ho]
  simp only [List.drop_zero] at h
  rw [h]
  cases o <;> rfl

/-- C146: if the elements have an order up to equivalence, then so have vectors: `b <=> a` is the opposite of `a <=> b`, and `a <= b`
and `b <= c` give `a <= c`.  If moreover elements differ exactly if one of them is less, then `a == b` exactly if `a <=> b` is equal.
Partial: elements some of which are not ordered at all, see `comparison_violated`. -/
theorem comparison_partial [DecidableEq α] {E : Comparing α} (hE : E.Weak) (hg : Good cfg) (hr : Reachable cfg w)
    (hx : w.Reads i xs) (hy : w.Reads j ys) (hz : w.Reads k zs) :
    ∃ ab ba bc ac e, w.compareBy E i j = some (.ok ab) ∧ w.compareBy E j i = some (.ok ba) ∧
      w.compareBy E j k = some (.ok bc) ∧ w.compareBy E i k = some (.ok ac) ∧ w.equalBy E i j = some (.ok e) ∧
      ba = ab.swap ∧ (ab ≠ .gt → bc ≠ .gt → ac ≠ .gt) ∧ (E.Agrees → (e = true ↔ ab = .eq)) := by
  obtain ⟨e, he, hb⟩ := equality_any E hg hr hx hy
  exact ⟨_, _, _, _, e, comparison_any E hg hr hx hy, comparison_any E hg hr hy hx, comparison_any E hg hr hy hz,
    comparison_any E hg hr hx hz, he, dictionary_swap hE xs ys, dictionary_trans hE xs ys zs,
    fun ha => hb.trans (dictionary_eq hE ha xs ys).symm⟩

namespace CompareByEx

/-- Numbers compared by their last digit: `3` and `13` are equivalent. -/
def lastDigit : Comparing Nat := ⟨fun x y => decide (x % 10 < y % 10), fun x y => decide (y % 10 < x % 10), fun x y => decide (x % 10 ≠ y % 10)⟩

theorem lastDigit_weak : lastDigit.Weak :=
  ⟨fun _ _ => rfl, fun x y h => by simp [lastDigit] at h ⊢; omega, fun x y z h1 h2 => by simp [lastDigit] at h1 h2 ⊢; omega⟩

theorem lastDigit_agrees : lastDigit.Agrees := fun x y => by simp [lastDigit]

example : ∃ b, (exWorld .mov).equalBy lastDigit 0 2 = some (.ok b) ∧ (b = true ↔ 5 = 2 ∧ ∀ (k : Nat) x y,
    [3, 1, 9, 2, 3][k]? = some x → [0, 0][k]? = some y → lastDigit.ne x y = false) :=
  equality_any lastDigit exGood exReach exReads.1 exReads.2.2

example : (exWorld .mov).compareBy lastDigit 0 2 = some (.ok .gt) :=
  comparison_any lastDigit exGood exReach exReads.1 exReads.2.2

example : dictionary lastDigit [3, 11, 9] [13, 1, 10] = .gt ∧ dictionary lastDigit [3, 11] [13, 1, 10] = .lt ∧
    dictionary lastDigit [3, 11] [13, 1] = .eq := by decide

example : ∃ ab ba bc ac e, (exWorld .mov).compareBy lastDigit 0 1 = some (.ok ab) ∧ (exWorld .mov).compareBy lastDigit 1 0 = some (.ok ba) ∧
    (exWorld .mov).compareBy lastDigit 1 2 = some (.ok bc) ∧ (exWorld .mov).compareBy lastDigit 0 2 = some (.ok ac) ∧
    (exWorld .mov).equalBy lastDigit 0 1 = some (.ok e) ∧
    ba = ab.swap ∧ (ab ≠ .gt → bc ≠ .gt → ac ≠ .gt) ∧ (lastDigit.Agrees → (e = true ↔ ab = .eq)) :=
  comparison_partial lastDigit_weak exGood exReach exReads.1 exReads.2.1 exReads.2.2

/-- Numbers and a NaN, which is neither less nor greater than anything and differs from itself. -/
def nan : Comparing (Option Nat) where
  lt a b := match a, b with
    | some x, some y => decide (x < y)
    | _, _ => false
  gt a b := match a, b with
    | some x, some y => decide (y < x)
    | _, _ => false
  ne a b := match a, b with
    | some x, some y => decide (x ≠ y)
    | _, _ => true

/-- Trivially copyable elements of 8 bytes; memory lasts. -/
def cfgN : Cfg (Option Nat) := ⟨.triv, 8, true, fun _ _ => true, some 0, false⟩

/-- `{2.0}`, `{NaN}` and `{1.0}`. -/
def prog : List (WOp (Option Nat)) := [.ctorRange (.contiguous [some 2]), .ctorRange (.contiguous [none]), .ctorRange (.contiguous [some 1])]

end CompareByEx

open CompareByEx in
/-- C146 violated, by elements some of which are not ordered: with `a = {2.0}`, `b = {NaN}`, `c = {1.0}` it is said that `a <= b` and
`b <= c`, but `a > c`; and `a <=> b` is equal although `a == b` is false.  So a `std::map` or `std::sort` of vectors of floating point
numbers goes wrong, without any sign of it: the result type is `std::strong_ordering`. -/
theorem comparison_violated : ∃ w : World (Option Nat), Reachable cfgN w ∧
    w.Reads 0 [some 2] ∧ w.Reads 1 [none] ∧ w.Reads 2 [some 1] ∧
    w.compareBy nan 0 1 = some (.ok .eq) ∧ w.compareBy nan 1 2 = some (.ok .eq) ∧ w.compareBy nan 0 2 = some (.ok .gt) ∧
    w.equalBy nan 0 1 = some (.ok false) := by
  refine ⟨(run cfgN World.empty prog).2, ⟨prog, ?_, rfl⟩, ?_⟩
  · simp only [prog, Legal]
    exact ⟨fun _ _ => rfl, ⟨by simp [Source.Copied, cfgN], by unfold Fits cfgN; decide⟩, fun _ _ => rfl, ⟨by simp [Source.Copied, cfgN], by unfold Fits cfgN; decide⟩,
      fun _ _ => rfl, ⟨by simp [Source.Copied, cfgN], by unfold Fits cfgN; decide⟩, trivial⟩
  · unfold World.Reads
    decide +kernel

end Verif.Vector
