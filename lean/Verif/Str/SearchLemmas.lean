import Verif.Str.Search
import Mathlib.Tactic.SplitIfs
import Mathlib.Tactic.Conv
import Mathlib.Tactic.ByContra

/-!
Specification of the searches, and the loop invariants behind them.
-/

namespace Verif.Str

/-! ### Specification -/

/-- `needle` occurs in `hay` at index `i`. -/
def OccursAt (hay needle : List Ch) (i : Nat) : Prop :=
  ∃ pre post, hay = pre ++ needle ++ post ∧ pre.length = i

/-- The answer of an upward search from `pos` for indices with property `P`:
the least such index, `npos` if there is none. -/
def LeastFrom (P : Nat → Prop) (pos r : Nat) : Prop :=
  (pos ≤ r ∧ P r ∧ ∀ i, pos ≤ i → P i → r ≤ i) ∨ (r = npos ∧ ∀ i, pos ≤ i → ¬ P i)

/-- The answer of a downward search from `pos`: the greatest index up to `pos`
with property `P`, `npos` if there is none. -/
def GreatestUpTo (P : Nat → Prop) (pos r : Nat) : Prop :=
  (r ≤ pos ∧ P r ∧ ∀ i, i ≤ pos → P i → i ≤ r) ∨ (r = npos ∧ ∀ i, i ≤ pos → ¬ P i)

/-! ### Reads -/

theorem rd_ok {l : List Ch} {i : Nat} (h : i < l.length) : rd l i = .ok l[i] := by
  unfold rd; simp [h]

theorem rd_some {l : List Ch} {i : Nat} {c : Ch} (h : l[i]? = some c) : rd l i = .ok c := by
  unfold rd; simp [h]

theorem ok_bind {α β : Type} (a : α) (f : α → Except Fault β) : (Except.ok a >>= f) = f a := rfl

theorem err_bind {α β : Type} (e : Fault) (f : α → Except Fault β) : (Except.error e >>= f) = .error e := rfl

/-- Occurrence, element by element. -/
theorem occursAt_iff {hay needle : List Ch} {i : Nat} :
    OccursAt hay needle i ↔ i + needle.length ≤ hay.length ∧ ∀ j, j < needle.length → hay[i + j]? = needle[j]? := by
  constructor
  · rintro ⟨pre, post, rfl, rfl⟩
    refine ⟨by simp, fun j hj => ?_⟩
    rw [List.append_assoc, List.getElem?_append_right (by omega), List.getElem?_append_left (by omega)]
    congr 1; omega
  · rintro ⟨h1, h2⟩
    refine ⟨hay.take i, hay.drop (i + needle.length), ?_, by simp; omega⟩
    have : needle = (hay.drop i).take needle.length := by
      apply List.ext_getElem?
      intro j
      rw [List.getElem?_take]
      split_ifs with hj
      · rw [List.getElem?_drop, h2 j hj]
      · exact List.getElem?_eq_none (by omega)
    have h3 : hay.drop i = needle ++ hay.drop (i + needle.length) := by
      rw [← List.drop_drop]
      exact (List.take_append_drop needle.length (hay.drop i)).symm.trans (by rw [← this])
    rw [List.append_assoc, ← h3, List.take_append_drop]

/-! ### find -/

theorem scanLast_spec {hay : List Ch} {last : Ch} {n1 iEnd : Nat} (he : iEnd + n1 = hay.length) :
    ∀ (d i : Nat), iEnd - i = d → i < iEnd →
    (scanLast hay last n1 iEnd i = .ok none ∧ ∀ k, i ≤ k → k < iEnd → hay[k + n1]? ≠ some last) ∨
    ∃ k, scanLast hay last n1 iEnd i = .ok (some k) ∧ i ≤ k ∧ k < iEnd ∧ hay[k + n1]? = some last ∧
      ∀ m, i ≤ m → m < k → hay[m + n1]? ≠ some last := by
  intro d
  induction d with
  | zero => intro i h1 h2; omega
  | succ d ih =>
    intro i h1 h2
    rw [scanLast, if_pos h2, rd_ok (by omega), ok_bind]
    by_cases hc : hay[i + n1]'(by omega) ≠ last
    · rw [if_pos hc]
      have hne : hay[i + n1]? ≠ some last := by rw [List.getElem?_eq_getElem (by omega)]; simpa using hc
      by_cases hl : i + 1 = iEnd
      · rw [if_pos hl]
        left
        refine ⟨rfl, fun k hk1 hk2 => ?_⟩
        have : k = i := by omega
        subst this; exact hne
      · rw [if_neg hl]
        rcases ih (i + 1) (by omega) (by omega) with ⟨h3, h4⟩ | ⟨k, h3, h4, h5, h6, h7⟩
        · left
          refine ⟨h3, fun k hk1 hk2 => ?_⟩
          by_cases hk : k = i
          · subst hk; exact hne
          · exact h4 k (by omega) hk2
        · right
          refine ⟨k, h3, by omega, h5, h6, fun m hm1 hm2 => ?_⟩
          by_cases hm : m = i
          · subst hm; exact hne
          · exact h7 m (by omega) hm2
    · rw [if_neg hc]
      right
      refine ⟨i, rfl, Nat.le_refl _, h2, ?_, fun m hm1 hm2 => by omega⟩
      rw [List.getElem?_eq_getElem (by omega)]
      simpa using hc

theorem matchFrom_spec {hay needle : List Ch} {i : Nat} (hb : i + needle.length ≤ hay.length) :
    ∀ (d j : Nat), needle.length - j = d → j < needle.length → (∀ m, m < j → hay[i + m]? = needle[m]?) →
    (matchFrom hay needle i j = .ok true ∧ OccursAt hay needle i) ∨
    (matchFrom hay needle i j = .ok false ∧ ¬ OccursAt hay needle i) := by
  intro d
  induction d with
  | zero => intro j h1 h2; omega
  | succ d ih =>
    intro j h1 h2 h3
    rw [matchFrom, if_pos h2, rd_ok (by omega), ok_bind, rd_ok h2, ok_bind]
    by_cases hc : hay[i + j]'(by omega) ≠ needle[j]
    · rw [if_pos hc]
      right
      refine ⟨rfl, fun ho => hc ?_⟩
      have := (occursAt_iff.1 ho).2 j h2
      rw [List.getElem?_eq_getElem (by omega), List.getElem?_eq_getElem h2] at this
      simpa using this
    · rw [if_neg hc]
      have heq : hay[i + j]? = needle[j]? := by
        rw [List.getElem?_eq_getElem (by omega), List.getElem?_eq_getElem h2]
        simpa using hc
      have hnext : ∀ m, m < j + 1 → hay[i + m]? = needle[m]? := by
        intro m hm
        by_cases hmj : m = j
        · subst hmj; exact heq
        · exact h3 m (by omega)
      by_cases hl : j + 1 = needle.length
      · rw [if_pos hl]
        left
        exact ⟨rfl, occursAt_iff.2 ⟨hb, fun m hm => hnext m (by omega)⟩⟩
      · rw [if_neg hl]
        exact ih (j + 1) (by omega) (by omega) hnext

/-- A safe jump: no copy of the last character among the `sk - 1` characters
before it. -/
def SafeSkip (needle : List Ch) (last : Ch) (n1 sk : Nat) : Prop :=
  1 ≤ sk ∧ sk ≤ n1 + 1 ∧ ∀ t, 1 ≤ t → t < sk → needle[n1 - t]? ≠ some last

theorem computeSkip_spec {needle : List Ch} {last : Ch} {n1 : Nat} (hn : n1 < needle.length) :
    ∀ (d sk : Nat), n1 + 1 - sk = d → 1 ≤ sk → sk ≤ n1 + 1 →
    (∀ t, 1 ≤ t → t < sk → needle[n1 - t]? ≠ some last) →
    ∃ r, computeSkip needle last n1 sk = .ok r ∧ SafeSkip needle last n1 r := by
  intro d
  induction d with
  | zero =>
    intro sk h1 h2 h3 h4
    rw [computeSkip, if_neg (by omega)]
    exact ⟨sk, rfl, h2, by omega, h4⟩
  | succ d ih =>
    intro sk h1 h2 h3 h4
    rw [computeSkip, if_pos (by omega), rd_ok (by omega), ok_bind]
    by_cases hc : needle[n1 - sk]'(by omega) ≠ last
    · rw [if_pos hc]
      refine ih (sk + 1) (by omega) (by omega) (by omega) ?_
      intro t ht1 ht2
      by_cases hts : t = sk
      · subst hts
        rw [List.getElem?_eq_getElem (by omega)]
        simpa using hc
      · exact h4 t ht1 (by omega)
    · rw [if_neg hc]
      exact ⟨sk, rfl, h2, by omega, h4⟩

/-- Jumping by a safe skip from a mismatch at `k` passes over no occurrence. -/
theorem skip_sound {hay needle : List Ch} {last : Ch} {n1 k sk m : Nat} (hn : n1 + 1 = needle.length)
    (hlast : hay[k + n1]? = some last) (hs : SafeSkip needle last n1 sk) (h1 : k < m) (h2 : m < k + sk) :
    ¬ OccursAt hay needle m := by
  intro ho
  obtain ⟨_, hs2, hs3⟩ := hs
  have h := (occursAt_iff.1 ho).2 (n1 - (m - k)) (by omega)
  have : m + (n1 - (m - k)) = k + n1 := by omega
  rw [this, hlast] at h
  exact hs3 (m - k) (by omega) (by omega) h.symm

theorem last_of_occurs {hay needle : List Ch} {last : Ch} {n1 m : Nat} (hn : n1 + 1 = needle.length)
    (hl : needle[n1]? = some last) (ho : OccursAt hay needle m) : hay[m + n1]? = some last := by
  rw [(occursAt_iff.1 ho).2 n1 (by omega), hl]

theorem findLoop_spec {hay needle : List Ch} {last : Ch} {n1 iEnd : Nat} (hn : n1 + 1 = needle.length)
    (hl : needle[n1]? = some last) (he : iEnd + n1 = hay.length) :
    ∀ (d i skip : Nat), iEnd - i ≤ d → (skip = 0 ∨ SafeSkip needle last n1 skip) →
    ∃ r, findLoop hay needle last n1 iEnd i skip = .ok r ∧ LeastFrom (OccursAt hay needle) i r := by
  have hnone : ∀ i, iEnd ≤ i → ∀ m, i ≤ m → ¬ OccursAt hay needle m := by
    intro i hi m hm ho
    have := (occursAt_iff.1 ho).1
    omega
  intro d
  induction d with
  | zero =>
    intro i skip h1 _
    rw [findLoop, dif_neg (by omega)]
    exact ⟨npos, rfl, .inr ⟨rfl, hnone i (by omega)⟩⟩
  | succ d ih =>
    intro i skip h1 h2
    rw [findLoop]
    by_cases hi : i < iEnd
    · rw [dif_pos hi]
      rcases scanLast_spec (last := last) he (iEnd - i) i rfl hi with ⟨h3, h4⟩ | ⟨k, h3, h4, h5, h6, h7⟩
      · rw [h3]
        refine ⟨npos, rfl, .inr ⟨rfl, fun m hm ho => ?_⟩⟩
        by_cases hme : m < iEnd
        · exact h4 m hm hme (last_of_occurs hn hl ho)
        · exact hnone m (by omega) m (Nat.le_refl _) ho
      · rw [h3]
        simp only
        have hpre : ∀ m, i ≤ m → m < k → ¬ OccursAt hay needle m := fun m hm1 hm2 ho =>
          h7 m hm1 hm2 (last_of_occurs hn hl ho)
        rcases matchFrom_spec (hay := hay) (needle := needle) (i := k) (by omega) needle.length 0 rfl (by omega)
          (fun m hm => by omega) with ⟨h8, h9⟩ | ⟨h8, h9⟩
        · rw [h8]
          refine ⟨k, rfl, .inl ⟨h4, h9, fun m hm ho => ?_⟩⟩
          by_contra hlt
          exact hpre m hm (by omega) ho
        · rw [h8]
          simp only
          obtain ⟨sk, h10, h11⟩ : ∃ sk, (if skip = 0 then computeSkip needle last n1 1 else .ok skip) = .ok sk ∧
              SafeSkip needle last n1 sk := by
            rcases h2 with h2 | h2
            · rw [if_pos h2]
              exact computeSkip_spec (by omega) (n1 + 1 - 1) 1 rfl (Nat.le_refl _) (by omega)
                (fun t ht1 ht2 => by omega)
            · rw [if_neg (by have := h2.1; omega)]
              exact ⟨skip, rfl, h2⟩
          rw [h10]
          simp only
          have := h11.1
          rw [dif_pos (by omega)]
          obtain ⟨r, h12, h13⟩ := ih (k + sk) sk (by omega) (.inr h11)
          refine ⟨r, h12, ?_⟩
          have hgap : ∀ m, i ≤ m → m < k + sk → ¬ OccursAt hay needle m := by
            intro m hm1 hm2 ho
            rcases Nat.lt_trichotomy m k with hlt | heq | hgt
            · exact hpre m hm1 hlt ho
            · subst heq; exact h9 ho
            · exact skip_sound hn h6 h11 hgt hm2 ho
          rcases h13 with ⟨ha, hb, hc⟩ | ⟨ha, hb⟩
          · refine .inl ⟨by omega, hb, fun m hm ho => ?_⟩
            by_cases hms : m < k + sk
            · exact absurd ho (hgap m hm hms)
            · exact hc m (by omega) ho
          · refine .inr ⟨ha, fun m hm ho => ?_⟩
            by_cases hms : m < k + sk
            · exact hgap m hm hms ho
            · exact hb m (by omega) ho
    · rw [dif_neg hi]
      exact ⟨npos, rfl, .inr ⟨rfl, hnone i (by omega)⟩⟩

theorem find_spec {hay needle : List Ch} {pos : Nat} (hh : hay.length < npos) (hn : needle.length < M64)
    (hp : pos < M64) :
    ∃ r, find hay needle pos = .ok r ∧ LeastFrom (OccursAt hay needle) pos r := by
  have hlt : hay.length < M64 := Nat.lt_trans hh (by unfold npos; omega)
  unfold find
  simp only
  split_ifs with h1 h2
  · refine ⟨npos, rfl, .inr ⟨rfl, fun i hi ho => ?_⟩⟩
    have hb := (occursAt_iff.1 ho).1
    rw [add64_of_lt (by omega)] at h1
    omega
  · refine ⟨pos, rfl, .inl ⟨Nat.le_refl _, ?_, fun i hi _ => hi⟩⟩
    have : needle = [] := List.length_eq_zero_iff.1 h2
    subst this
    rw [add64_of_lt (by simpa using hp)] at h1
    rw [occursAt_iff]
    refine ⟨by simpa using h1, fun j hj => by simp at hj⟩
  · have hnw : needle.length + pos < M64 := by
      by_contra hge
      have : add64 needle.length pos = needle.length + pos - M64 := by unfold add64; omega
      omega
    rw [add64_of_lt hnw] at h1
    rw [rd_ok (by omega), ok_bind]
    exact findLoop_spec (n1 := needle.length - 1) (by omega) (List.getElem?_eq_getElem (by omega)) (by omega)
      _ pos 0 (Nat.le_refl _) (.inl rfl)

/-! ### strlen -/

theorem strlen_spec {mem : List Ch} : ∀ (pre rest : List Ch) (i : Nat), (∀ c ∈ pre, c ≠ 0) →
    mem.drop i = pre ++ 0 :: rest → strlen mem i = .ok (i + pre.length)
  | [], rest, i, _, h => by
    have hi : i < mem.length := by
      by_contra hge
      rw [List.drop_eq_nil_of_le (by omega)] at h; simp at h
    have : mem[i]? = some 0 := by rw [← List.head?_drop, h]; rfl
    rw [strlen, if_pos hi, rd_some this, ok_bind, if_pos rfl]
    rfl
  | c :: pre, rest, i, hp, h => by
    have hi : i < mem.length := by
      by_contra hge
      rw [List.drop_eq_nil_of_le (by omega)] at h; simp at h
    have : mem[i]? = some c := by rw [← List.head?_drop, h]; rfl
    rw [strlen, if_pos hi, rd_some this, ok_bind, if_neg (hp c (by simp))]
    rw [strlen_spec pre rest (i + 1) (fun x hx => hp x (by simp [hx])) (by
      rw [← List.drop_drop, h]; rfl)]
    simp; omega

/-! ### rfind -/

theorem eqN_spec {hay : List Ch} : ∀ (t : List Ch) (i : Nat), i + t.length ≤ hay.length →
    (eqN hay t i t.length = .ok true ∧ OccursAt hay t i) ∨ (eqN hay t i t.length = .ok false ∧ ¬ OccursAt hay t i)
  | [], i, h => .inl ⟨rfl, occursAt_iff.2 ⟨by simpa using h, fun j hj => by simp at hj⟩⟩
  | b :: t, i, h => by
    simp only [List.length_cons] at h
    have hb : hay[i]? = some (hay[i]'(by omega)) := List.getElem?_eq_getElem _
    simp only [List.length_cons, eqN]
    rw [rd_ok (by omega), ok_bind]
    by_cases hc : hay[i]'(by omega) = b
    · simp only [hc, if_true]
      have key : OccursAt hay (b :: t) i ↔ OccursAt hay t (i + 1) := by
        rw [occursAt_iff, occursAt_iff]
        constructor
        · rintro ⟨_, h2⟩
          refine ⟨by omega, fun j hj => ?_⟩
          have := h2 (j + 1) (by simpa using hj)
          rw [show i + 1 + j = i + (j + 1) by omega, this]; rfl
        · rintro ⟨_, h2⟩
          refine ⟨by simpa using h, fun j hj => ?_⟩
          cases j with
          | zero => rw [Nat.add_zero, hb, hc]; rfl
          | succ j =>
            rw [show i + (j + 1) = i + 1 + j by omega, h2 j (by simpa using hj)]; rfl
      rw [key]
      exact eqN_spec t (i + 1) (by omega)
    · simp only [hc, if_false]
      right
      refine ⟨rfl, fun ho => hc ?_⟩
      have := (occursAt_iff.1 ho).2 0 (by simp)
      rw [Nat.add_zero, hb] at this
      simpa using this

theorem rfindLoop_spec {hay needle : List Ch} (hn : needle ≠ []) : ∀ (i : Nat), i + needle.length ≤ hay.length →
    ∃ r, rfindLoop hay needle i = .ok r ∧ GreatestUpTo (OccursAt hay needle) i r := by
  have hnl : 0 < needle.length := List.length_pos_iff.2 hn
  intro i
  induction i with
  | zero =>
    intro h
    rw [rfindLoop, rd_ok (by omega), ok_bind, rd_ok hnl, ok_bind]
    by_cases hc : hay[0]'(by omega) = needle[0]
    · rw [if_pos hc]
      rcases eqN_spec needle 0 h with ⟨h1, h2⟩ | ⟨h1, h2⟩
      · rw [h1, ok_bind]
        exact ⟨0, rfl, .inl ⟨Nat.le_refl _, h2, fun i hi _ => hi⟩⟩
      · rw [h1, ok_bind]
        refine ⟨npos, rfl, .inr ⟨rfl, fun i hi ho => ?_⟩⟩
        have : i = 0 := by omega
        subst this; exact h2 ho
    · rw [if_neg hc]
      refine ⟨npos, rfl, .inr ⟨rfl, fun i hi ho => hc ?_⟩⟩
      have : i = 0 := by omega
      subst this
      have := (occursAt_iff.1 ho).2 0 hnl
      rw [Nat.add_zero, List.getElem?_eq_getElem (by omega), List.getElem?_eq_getElem hnl] at this
      simpa using this
  | succ k ih =>
    intro h
    have no : ¬ OccursAt hay needle (k + 1) →
        ∃ r, rfindLoop hay needle k = .ok r ∧ GreatestUpTo (OccursAt hay needle) (k + 1) r := by
      intro hno
      obtain ⟨r, h1, h2⟩ := ih (by omega)
      refine ⟨r, h1, ?_⟩
      rcases h2 with ⟨ha, hb, hc⟩ | ⟨ha, hb⟩
      · refine .inl ⟨by omega, hb, fun i hi ho => ?_⟩
        by_cases hik : i = k + 1
        · subst hik; exact absurd ho hno
        · exact hc i (by omega) ho
      · refine .inr ⟨ha, fun i hi ho => ?_⟩
        by_cases hik : i = k + 1
        · subst hik; exact hno ho
        · exact hb i (by omega) ho
    rw [rfindLoop, rd_ok (by omega), ok_bind, rd_ok hnl, ok_bind]
    by_cases hc : hay[k + 1]'(by omega) = needle[0]
    · rw [if_pos hc]
      rcases eqN_spec needle (k + 1) h with ⟨h1, h2⟩ | ⟨h1, h2⟩
      · rw [h1, ok_bind]
        exact ⟨k + 1, rfl, .inl ⟨Nat.le_refl _, h2, fun i hi _ => hi⟩⟩
      · rw [h1, ok_bind]
        exact no h2
    · rw [if_neg hc]
      refine no (fun ho => hc ?_)
      have := (occursAt_iff.1 ho).2 0 hnl
      rw [Nat.add_zero, List.getElem?_eq_getElem (by omega), List.getElem?_eq_getElem hnl] at this
      simpa using this

/-! ### Character sets -/

theorem inSet_iff {set : List Ch} {c : Ch} : inSet set c = true ↔ c ∈ set := by
  unfold inSet; simp

/-- The character at `i` exists and belongs (or not) to the set. -/
def CharAt (hay : List Ch) (p : Ch → Prop) (i : Nat) : Prop := ∃ c, hay[i]? = some c ∧ p c

theorem charAt_iff {hay set : List Ch} {want : Bool} {i : Nat} (h : i < hay.length) :
    CharAt hay (fun c => inSet set c = want) i ↔ inSet set hay[i] = want := by
  unfold CharAt
  rw [List.getElem?_eq_getElem h]
  simp

theorem upLoop_spec {hay set : List Ch} {want : Bool} : ∀ (d i : Nat), hay.length - i = d → i ≤ hay.length →
    ∃ r, upLoop hay set want i = .ok r ∧ LeastFrom (CharAt hay (fun c => inSet set c = want)) i r := by
  intro d
  induction d with
  | zero =>
    intro i h1 h2
    rw [upLoop, if_neg (by omega)]
    refine ⟨npos, rfl, .inr ⟨rfl, fun k hk ⟨c, hc, _⟩ => ?_⟩⟩
    rw [List.getElem?_eq_none (by omega)] at hc; cases hc
  | succ d ih =>
    intro i h1 h2
    rw [upLoop, if_pos (by omega), if_pos (by omega), rd_ok (by omega), ok_bind]
    by_cases hc : inSet set (hay[i]'(by omega)) = want
    · rw [if_pos hc]
      exact ⟨i, rfl, .inl ⟨Nat.le_refl _, (charAt_iff (by omega)).2 hc, fun k hk _ => hk⟩⟩
    · rw [if_neg hc]
      obtain ⟨r, h3, h4⟩ := ih (i + 1) (by omega) (by omega)
      have hno : ¬ CharAt hay (fun c => inSet set c = want) i := fun h => hc ((charAt_iff (by omega)).1 h)
      refine ⟨r, h3, ?_⟩
      rcases h4 with ⟨ha, hb, hcc⟩ | ⟨ha, hb⟩
      · refine .inl ⟨by omega, hb, fun k hk ho => ?_⟩
        by_cases hki : k = i
        · subst hki; exact absurd ho hno
        · exact hcc k (by omega) ho
      · refine .inr ⟨ha, fun k hk ho => ?_⟩
        by_cases hki : k = i
        · subst hki; exact hno ho
        · exact hb k (by omega) ho

theorem downLoop_spec {hay set : List Ch} {want : Bool} : ∀ (i : Nat), i < hay.length →
    ∃ r, downLoop hay set want i = .ok r ∧ GreatestUpTo (CharAt hay (fun c => inSet set c = want)) i r := by
  intro i
  induction i with
  | zero =>
    intro h
    rw [downLoop, rd_ok h, ok_bind]
    by_cases hc : inSet set hay[0] = want
    · rw [if_pos hc]
      exact ⟨0, rfl, .inl ⟨Nat.le_refl _, (charAt_iff h).2 hc, fun k hk _ => hk⟩⟩
    · rw [if_neg hc]
      refine ⟨npos, rfl, .inr ⟨rfl, fun k hk ho => ?_⟩⟩
      have : k = 0 := by omega
      subst this; exact hc ((charAt_iff h).1 ho)
  | succ j ih =>
    intro h
    rw [downLoop, rd_ok h, ok_bind]
    by_cases hc : inSet set hay[j + 1] = want
    · rw [if_pos hc]
      exact ⟨j + 1, rfl, .inl ⟨Nat.le_refl _, (charAt_iff h).2 hc, fun k hk _ => hk⟩⟩
    · rw [if_neg hc]
      obtain ⟨r, h1, h2⟩ := ih (by omega)
      have hno : ¬ CharAt hay (fun c => inSet set c = want) (j + 1) := fun h' => hc ((charAt_iff h).1 h')
      refine ⟨r, h1, ?_⟩
      rcases h2 with ⟨ha, hb, hcc⟩ | ⟨ha, hb⟩
      · refine .inl ⟨by omega, hb, fun k hk ho => ?_⟩
        by_cases hki : k = j + 1
        · subst hki; exact absurd ho hno
        · exact hcc k (by omega) ho
      · refine .inr ⟨ha, fun k hk ho => ?_⟩
        by_cases hki : k = j + 1
        · subst hki; exact hno ho
        · exact hb k (by omega) ho

end Verif.Str
