import Verif.Opt.Model
import Mathlib.Data.List.Basic

/-!
Lemmas on the string functions of the option parser: searching, trimming and splitting.
-/

namespace Verif.Opt

/-! ## Searching -/

theorem startsWith_iff {d t : Text} : startsWith d t = true ↔ d <+: t := by
  unfold startsWith; exact List.isPrefixOf_iff_prefix

theorem startsWithChar_iff {c : Char} {t : Text} :
    startsWithChar c t = true ↔ t.head? = some c := by
  cases t <;> simp [startsWithChar]

theorem find_none {d : Text} : ∀ {t : Text}, find d t = none → ∀ a b, t ≠ a ++ d ++ b := by
  intro t
  induction t with
  | nil =>
    intro h a b e
    have : d = [] := by
      have := congrArg List.length e
      simp at this
      exact List.eq_nil_of_length_eq_zero (by omega)
    subst this; simp [find] at h
  | cons c t ih =>
    intro h a b e
    unfold find at h
    split at h
    · cases h
    · rename_i hs
      cases a with
      | nil =>
        apply hs
        rw [startsWith_iff, e]
        exact ⟨b, by simp⟩
      | cons x a =>
        simp only [List.cons_append, List.cons.injEq] at e
        exact ih (by simpa using h) a b (by simpa using e.2)

/-- The position found is one of an occurrence, and there is no earlier one. -/
theorem find_some {d : Text} : ∀ {t : Text} {i : Nat}, find d t = some i →
    i ≤ t.length ∧ t = t.take i ++ d ++ t.drop (i + d.length) ∧
      ∀ a b, t = a ++ d ++ b → i ≤ a.length := by
  intro t
  induction t with
  | nil =>
    intro i h
    unfold find at h
    split at h
    · rename_i hd
      cases h
      have : d = [] := by simpa using hd
      subst this
      exact ⟨Nat.le_refl _, by simp, fun _ _ _ => Nat.zero_le _⟩
    · cases h
  | cons c t ih =>
    intro i h
    unfold find at h
    split at h
    · rename_i hs
      cases h
      rw [startsWith_iff] at hs
      obtain ⟨r, hr⟩ := hs
      refine ⟨Nat.zero_le _, ?_, fun _ _ _ => Nat.zero_le _⟩
      rw [← hr]; simp
    · rename_i hs
      cases hf : find d t with
      | none => rw [hf] at h; cases h
      | some j =>
        rw [hf] at h
        simp only [Option.map_some, Option.some.injEq] at h
        subst h
        obtain ⟨h1, h2, h3⟩ := ih hf
        refine ⟨by simp; omega, ?_, ?_⟩
        · have e : j + 1 + d.length = (j + d.length) + 1 := by omega
          rw [e]
          simpa using h2
        · intro a b e
          cases a with
          | nil =>
            exact absurd (startsWith_iff.2 ⟨b, by simpa using e.symm⟩) hs
          | cons x a =>
            simp only [List.cons_append, List.cons.injEq] at e
            have := h3 a b e.2
            simp; omega

theorem find_single {c : Char} {t : Text} :
    find [c] t = none ↔ c ∉ t := by
  constructor
  · intro h hm
    obtain ⟨a, b, e⟩ := List.append_of_mem hm
    exact find_none h a b (by simpa using e)
  · intro h
    cases hf : find [c] t with
    | none => rfl
    | some i =>
      have := (find_some hf).2.1
      exact absurd (by rw [this]; simp) h

/-- The first occurrence of a character. -/
theorem find_single_some {c : Char} {t : Text} {i : Nat} (h : find [c] t = some i) :
    t = t.take i ++ c :: t.drop (i + 1) ∧ c ∉ t.take i ∧ i < t.length := by
  obtain ⟨h1, h2, h3⟩ := find_some h
  have h2' : t = t.take i ++ c :: t.drop (i + 1) := by simpa using h2
  refine ⟨h2', ?_, ?_⟩
  · intro hm
    obtain ⟨a, b, e⟩ := List.append_of_mem hm
    have hl : (t.take i).length = i := by rw [List.length_take]; omega
    have := h3 a (b ++ c :: t.drop (i + 1)) (by
      rw [e] at h2'
      exact h2'.trans (by simp))
    rw [e] at hl
    simp at hl
    omega
  · have := congrArg List.length h2'
    simp at this
    omega

theorem hasChar_iff {c : Char} {t : Text} : hasChar c t = true ↔ c ∈ t := by
  simp [hasChar]

theorem extractName_of_none {t : Text} (h : '=' ∉ t) : extractName t = t := by
  unfold extractName
  rw [find_single.2 h]

theorem extractValue_of_none {t : Text} (h : '=' ∉ t) : extractValue t = [] := by
  unfold extractValue
  rw [find_single.2 h]

/-- Splitting at the first `'='`. -/
theorem extract_of_eq {a b : Text} (h : '=' ∉ a) :
    extractName (a ++ '=' :: b) = a ∧ extractValue (a ++ '=' :: b) = b := by
  cases hf : find ['='] (a ++ '=' :: b) with
  | none =>
    exact absurd (find_single.1 hf) (by simp)
  | some i =>
    obtain ⟨e, hn, hi⟩ := find_single_some hf
    have hia : i = a.length := by
      have h3 := (find_some hf).2.2 a b (by simp)
      by_contra hne
      have hlt : i < a.length := by omega
      have : (a ++ '=' :: b)[i]? = some '=' := by
        rw [e]
        have hl : ((a ++ '=' :: b).take i).length = i := by
          rw [List.length_take]; omega
        rw [List.getElem?_append_right (by omega)]
        simp [hl]
      rw [List.getElem?_append_left hlt] at this
      exact h (List.mem_of_getElem? this)
    subst hia
    unfold extractName extractValue
    rw [hf]
    simp [substr]

/-! ## Trimming -/

/-- `t` without leading and trailing white space is `u`. -/
structure Trimmed (t u : Text) : Prop where
  split : ∃ a b, t = a ++ u ++ b ∧ (∀ c ∈ a, ws c = true) ∧ (∀ c ∈ b, ws c = true)
  first : ∀ c, u.head? = some c → ws c = false
  last : ∀ c, u.getLast? = some c → ws c = false

theorem findFirstNot_none {p : Char → Bool} : ∀ {t : Text},
    findFirstNot p t = none ↔ ∀ c ∈ t, p c = true := by
  intro t
  induction t with
  | nil => simp [findFirstNot]
  | cons c t ih =>
    unfold findFirstNot
    by_cases h : p c = true
    · simp [h, ih]
    · simp [h]

theorem findFirstNot_some {p : Char → Bool} : ∀ {t : Text} {i : Nat},
    findFirstNot p t = some i →
    (∀ c ∈ t.take i, p c = true) ∧ ∃ c, t[i]? = some c ∧ p c = false := by
  intro t
  induction t with
  | nil => intro i h; simp [findFirstNot] at h
  | cons c t ih =>
    intro i h
    unfold findFirstNot at h
    by_cases hp : p c = true
    · rw [if_pos hp] at h
      cases hf : findFirstNot p t with
      | none => rw [hf] at h; cases h
      | some j =>
        rw [hf] at h
        simp only [Option.map_some, Option.some.injEq] at h
        subst h
        obtain ⟨h1, h2⟩ := ih hf
        exact ⟨by simpa [hp] using h1, by simpa using h2⟩
    · rw [if_neg hp] at h
      cases h
      exact ⟨by simp, c, by simp, by simpa using hp⟩

theorem findLastNot_none {p : Char → Bool} : ∀ {t : Text},
    findLastNot p t = none ↔ ∀ c ∈ t, p c = true := by
  intro t
  induction t with
  | nil => simp [findLastNot]
  | cons c t ih =>
    unfold findLastNot
    cases hf : findLastNot p t with
    | some j =>
      simp only [reduceCtorEq, false_iff]
      intro h
      rw [ih.2 (fun x hx => h x (by simp [hx]))] at hf
      cases hf
    | none =>
      have := ih.1 hf
      by_cases h : p c = true
      · simpa [h] using this
      · simp [h]

theorem findLastNot_some {p : Char → Bool} : ∀ {t : Text} {i : Nat},
    findLastNot p t = some i →
    (∀ c ∈ t.drop (i + 1), p c = true) ∧ ∃ c, t[i]? = some c ∧ p c = false := by
  intro t
  induction t with
  | nil => intro i h; simp [findLastNot] at h
  | cons c t ih =>
    intro i h
    unfold findLastNot at h
    cases hf : findLastNot p t with
    | some j =>
      rw [hf] at h
      cases h
      obtain ⟨h1, h2⟩ := ih hf
      exact ⟨by simpa using h1, by simpa using h2⟩
    | none =>
      rw [hf] at h
      by_cases hp : p c = true
      · simp [hp] at h
      · simp only [hp] at h
        cases h
        exact ⟨by simpa using findLastNot_none.1 hf, c, by simp, by simpa using hp⟩

theorem trimString_trimmed (t : Text) : Trimmed t (trimString t) := by
  unfold trimString
  cases hl : findLastNot ws t with
  | none =>
    exact ⟨⟨t, [], by simp, findLastNot_none.1 hl, by simp⟩, by simp, by simp⟩
  | some e =>
    cases hf : findFirstNot ws t with
    | none =>
      exact ⟨⟨t, [], by simp, findFirstNot_none.1 hf, by simp⟩, by simp, by simp⟩
    | some s =>
      obtain ⟨l1, cl, l2, l3⟩ := findLastNot_some hl
      obtain ⟨f1, cf, f2, f3⟩ := findFirstNot_some hf
      have hse : s ≤ e := by
        by_contra hh
        have hlt : e < s := by omega
        have : cl ∈ t.take s := by
          have h := List.getElem?_take_of_lt (l := t) hlt
          rw [l2] at h
          exact List.mem_of_getElem? h
        rw [f1 _ this] at l3; cases l3
      have he : e < t.length := by
        have := (List.getElem?_eq_some_iff.1 l2).1; exact this
      simp only [substr]
      refine ⟨⟨t.take s, t.drop (e + 1), ?_, f1, l1⟩, ?_, ?_⟩
      · have h1 : t.drop (e + 1) = (t.drop s).drop (e - s + 1) := by
          rw [List.drop_drop]; congr 1; omega
        rw [h1, List.append_assoc, List.take_append_drop, List.take_append_drop]
      · intro c hc
        rw [List.head?_take] at hc
        simp only [Nat.add_eq_zero_iff, Nat.succ_ne_self, and_false, if_false,
          List.head?_drop] at hc
        rw [f2] at hc; cases hc; exact f3
      · intro c hc
        rw [List.getLast?_eq_getElem?] at hc
        have hlen : ((t.drop s).take (e - s + 1)).length = e - s + 1 := by
          rw [List.length_take, List.length_drop]; omega
        rw [hlen, List.getElem?_take_of_lt (by omega), List.getElem?_drop] at hc
        have : s + (e - s + 1 - 1) = e := by omega
        rw [this, l2] at hc; cases hc; exact l3

/-- There is only one way to trim. -/
theorem trimmed_unique {t u v : Text} (hu : Trimmed t u) (hv : Trimmed t v) : u = v := by
  have key : ∀ {t u : Text}, Trimmed t u → u = ((t.dropWhile ws).reverse.dropWhile ws).reverse := by
    intro t u h
    obtain ⟨⟨a, b, e, ha, hb⟩, h1, h2⟩ := h
    subst e
    rw [List.append_assoc, List.dropWhile_append_of_pos ha]
    cases u with
    | nil =>
      simp only [List.nil_append]
      have : b.dropWhile ws = [] := by
        have := List.dropWhile_append_of_pos (l₂ := []) hb
        simpa using this
      rw [this]; simp
    | cons c u =>
      have hc := h1 c (by simp)
      rw [List.cons_append, List.dropWhile_cons_of_neg (by simp [hc])]
      rw [← List.cons_append, List.reverse_append,
        List.dropWhile_append_of_pos (by simpa using hb)]
      cases hr : (c :: u).reverse with
      | nil => simp at hr
      | cons x xs =>
        have hx : ws x = false := by
          apply h2
          rw [List.getLast?_eq_head?_reverse, hr]; rfl
        rw [List.dropWhile_cons_of_neg (by simp [hx]), ← hr]
        simp
  rw [key hu, key hv]

/-- A text without white space at its ends is not changed by trimming. -/
theorem trimString_eq_self {t : Text} (h1 : ∀ c, t.head? = some c → ws c = false)
    (h2 : ∀ c, t.getLast? = some c → ws c = false) : trimString t = t :=
  trimmed_unique (trimString_trimmed t) ⟨⟨[], [], by simp, by simp, by simp⟩, h1, h2⟩

/-! ## Splitting -/

/-- `ps` are the pieces of `t` between successive leftmost occurrences of `d`. -/
inductive Pieces (d : Text) : Text → List Text → Prop where
  | last {t : Text} : (∀ a b, t ≠ a ++ d ++ b) → Pieces d t [t]
  | more {p t : Text} {ps : List Text} :
      (∀ a b, p ++ d ++ t = a ++ d ++ b → p.length ≤ a.length) → Pieces d t ps →
      Pieces d (p ++ d ++ t) (p :: ps)

/-- The pieces `split` keeps, trimmed. -/
def kept (skip : Bool) (ps : List Text) : List Text :=
  ((if skip then ps.filter (fun p => !p.isEmpty) else ps)).map trimString

theorem kept_cons {skip : Bool} {p : Text} {ps : List Text} :
    kept skip (p :: ps) =
      (if !skip || p.length != 0 then [trimString p] else []) ++ kept skip ps := by
  cases skip <;> cases p <;> simp [kept]

theorem splitLoop_spec {str d : Text} {skip : Bool} (hd : d ≠ []) :
    ∀ (fuel last : Nat) (toks : List Text), last ≤ str.length → str.length - last < fuel →
      ∃ ps, Pieces d (str.drop last) ps ∧
        splitLoop str d skip fuel last toks = some (toks ++ kept skip ps) := by
  intro fuel
  induction fuel with
  | zero => intro last toks _ h; omega
  | succ fuel ih =>
    intro last toks hl hf
    have hdl : 0 < d.length := List.length_pos_iff.2 hd
    unfold splitLoop findFrom
    cases hfd : find d (str.drop last) with
    | none =>
      refine ⟨[str.drop last], .last (find_none hfd), ?_⟩
      simp only [Option.map_none, Option.getD_none]
      have e : (substr str last (str.length - last)) = str.drop last := by
        unfold substr
        rw [List.take_of_length_le]; simp
      rw [e, kept_cons, if_pos trivial]
      have hk : kept skip [] = [] := by cases skip <;> rfl
      rw [hk, List.append_nil, List.length_drop]
      split <;> simp
    | some i =>
      obtain ⟨h1, h2, h3⟩ := find_some hfd
      have hlen := congrArg List.length h2
      simp only [List.length_append, List.length_take, List.length_drop] at hlen h1
      have hi : i + d.length ≤ str.length - last := by omega
      have e2 : (str.drop last).drop (i + d.length) = str.drop (i + last + d.length) := by
        rw [List.drop_drop]; congr 1; omega
      obtain ⟨ps, hp, hs⟩ := ih (i + last + d.length)
        (if !skip || (i + last - last) != 0 then
          toks ++ [trimString (substr str last (i + last - last))] else toks)
        (by omega) (by omega)
      refine ⟨(str.drop last).take i :: ps, ?_, ?_⟩
      · rw [h2]
        have hti : ((str.drop last).take i ++ d ++ (str.drop last).drop (i + d.length)).take i
            = (str.drop last).take i := by rw [← h2]
        rw [hti, e2]
        refine .more ?_ hp
        intro a b e
        rw [← e2, ← h2] at e
        have := h3 a b e
        rw [List.length_take]; omega
      · simp only [Option.map_some, Option.getD_some]
        rw [if_neg (by omega), hs, kept_cons]
        have e3 : i + last - last = i := by omega
        rw [e3]
        have e4 : substr str last i = (str.drop last).take i := rfl
        have e5 : ((str.drop last).take i).length = i := by
          rw [List.length_take, List.length_drop]; omega
        rw [e4, e5]
        split <;> simp

theorem pieces_join {d t : Text} {ps : List Text} (h : Pieces d t ps) :
    (List.intersperse d ps).flatten = t := by
  induction h with
  | last _ => simp
  | @more p t ps hl hp ih =>
    cases ps with
    | nil => cases hp
    | cons q ps =>
      rw [List.intersperse_cons_cons]
      simp only [List.flatten_cons, ih, List.append_assoc]

theorem pieces_unique {d t : Text} {ps qs : List Text} (h : Pieces d t ps)
    (h' : Pieces d t qs) : ps = qs := by
  induction h generalizing qs with
  | last hn =>
    cases h' with
    | last _ => rfl
    | more => exact absurd rfl (hn _ _)
  | @more p t ps hl hp ih =>
    generalize e : p ++ d ++ t = u at h'
    cases h' with
    | last hn => exact absurd e.symm (hn _ _)
    | @more q t' qs hl' hp' =>
      have e1 : p.length = q.length := by
        have a := hl _ _ e
        have b := hl' _ _ e.symm
        omega
      rw [List.append_assoc, List.append_assoc] at e
      obtain ⟨rfl, e2⟩ := List.append_inj e e1
      obtain ⟨_, rfl⟩ := List.append_inj e2 rfl
      rw [ih hp']

/-- For a single character delimiter: the pieces are those without the delimiter. -/
theorem pieces_single {c : Char} {t : Text} {ps : List Text} (h : Pieces [c] t ps) :
    ∀ p ∈ ps, c ∉ p := by
  induction h with
  | last hn =>
    intro p hp hm
    simp only [List.mem_singleton] at hp
    subst hp
    obtain ⟨a, b, e⟩ := List.append_of_mem hm
    exact hn a b (by simpa using e)
  | @more q t ps hl hp ih =>
    intro p hp'
    rcases List.mem_cons.1 hp' with rfl | h
    · intro hm
      obtain ⟨a, b, e⟩ := List.append_of_mem hm
      have := hl a (b ++ [c] ++ t) (by rw [e]; simp)
      have hlen := congrArg List.length e
      simp at hlen
      omega
    · exact ih p h

theorem splitLoop_stuck {str : Text} {skip : Bool} (h : str ≠ []) :
    ∀ (fuel : Nat) (toks : List Text), splitLoop str [] skip fuel 0 toks = none := by
  intro fuel
  induction fuel with
  | zero => intro toks; rfl
  | succ n ih =>
    intro toks
    unfold splitLoop
    have e : findFrom [] str 0 = some 0 := by
      unfold findFrom
      cases str with
      | nil => exact absurd rfl h
      | cons c t => simp [find, startsWith]
    simp only [e, Option.getD_some]
    have : ¬ (0 = str.length) := by
      intro hh; exact h (List.eq_nil_of_length_eq_zero hh.symm)
    rw [if_neg this]
    exact ih _

end Verif.Opt
