import Verif.Str.StreamViolations

/-!
C97 in every state: `width()` after `is >> str`, and wide characters.
-/

namespace Verif.Str

open M

variable {cfg : Cfg} {s s' : St} {a a' : Abs} {u v : Nat} {xs ys : List Ch} {is : IStream}

/-- C97, violated in every state, whatever the string: when a word ends before the end of the input - white space
follows, or `width()` characters have been read -, `width()` is not reset, so the next word is cut as well. -/
theorem extract_width_everywhere_violated (hc : cfg.Ok) (h : Reach cfg a s) (hv : a v = some xs) (hg : is.calm = true)
    {ws w rest : List Ch} {c : Ch} (hi : is.inp = ws ++ w ++ c :: rest) (hn : ∀ c ∈ is.inp, c < 256) (hl : is.inp.length < M64)
    (hws : ∀ x ∈ ws, isSpace x = true) (hsk : ws ≠ [] → is.skipws = true) (hw0 : w ≠ []) (hw : ∀ x ∈ w, isSpace x = false)
    (hpos : 0 < is.width) (hfit : w.length ≤ is.width) (hend : isSpace c = true ∨ w.length = is.width) :
    Gives cfg s (extract cfg (.user v) is)
      (fun r a' => r = { is with inp := c :: rest } ∧ r.width ≠ 0 ∧ a' = upd a v (some w)) := by
  have hrel := (reach_rel hc h).1
  have hg' := hg
  simp only [IStream.calm, Bool.and_eq_true, Bool.not_eq_true'] at hg'
  obtain ⟨b, w', rfl⟩ : ∃ b w', w = b :: w' := by
    cases w with
    | nil => exact absurd rfl hw0
    | cons b w' => exact ⟨b, w', rfl⟩
  have hready : is.ready = b :: w' ++ c :: rest := by
    unfold IStream.ready
    by_cases hs : is.skipws = true
    · rw [if_pos hs, hi, List.append_assoc, List.dropWhile_append_of_pos hws]
      rw [List.cons_append, List.dropWhile_cons, hw b (by simp)]
      simp
    · rw [if_neg hs, hi]
      cases ws with
      | nil => rfl
      | cons x t => exact absurd (hsk (by simp)) hs
  have hlim : is.limit = is.width := by unfold IStream.limit; rw [if_neg (by omega)]
  have hword : wordOf is.limit is.ready = b :: w' := by
    have hp : ∀ x ∈ b :: w', (!isSpace x) = true := fun x hx => by rw [hw x hx]; rfl
    rw [hlim, hready, wordOf, List.takeWhile_append_of_pos hp]
    rcases hend with hend | hend
    · rw [List.takeWhile_cons, hend]
      simp only [Bool.not_true, Bool.false_eq_true, if_false, List.append_nil]
      exact List.take_of_length_le hfit
    · rw [List.take_append_of_le_length (by omega)]
      exact List.take_of_length_le hfit
  have hblank : is.blank = false := by
    unfold IStream.blank
    rw [hready]
    simp
  have heof : is.wordEof = false := by
    unfold IStream.wordEof
    rw [hblank, hready, hlim]
    rcases hend with hend | hend
    · simp [hend]
    · simp only [Bool.false_or, Bool.and_eq_false_iff, decide_eq_false_iff_not]
      right
      simp only [List.length_append, List.length_cons] at hend ⊢
      omega
  have hw1 : is.word xs = b :: w' := by unfold IStream.word; rw [hblank]; exact hword
  have hafter : { is.afterWord with width := if is.wordEof && !is.blank then 0 else is.width } = { is with inp := c :: rest } := by
    unfold IStream.afterWord
    rw [hword, heof, hready]
    have hgood := hg'.1.1
    simp only [IStream.good, Bool.and_eq_true, Bool.not_eq_true'] at hgood
    simp [hgood.1.1, hgood.1.2]
  have ht := extract_tri hc hrel.inv hrel.free (hrel.held v xs hv) hg'.1.1 ⟨hg'.1.2, hg'.2⟩ hn
  rw [hafter] at ht
  refine (Gives.of_op (op := .extract v is) (a' := upd a v (some (b :: w'))) hc h rfl ?_ ht).mono ?_
  · simp only [Op.spec, hv, Option.bind_eq_bind, Option.bind_some, Abs.set]
    rw [if_pos ⟨hg, hn⟩, hw1, if_pos]
    rw [hi] at hl
    simp only [List.length_append, List.length_cons] at hl ⊢
    omega
  · rintro r a' ⟨rfl, h2⟩
    exact ⟨rfl, Nat.pos_iff_ne_zero.mp hpos, h2⟩

-- "ab cd" with setw(2)
example : ∃ a s, Reach (heapCfg true) a s ∧ a 0 = some (List.replicate 300 97) ∧
    (IStream.calm { inp := [97, 98, 32, 99, 100], width := 2 } = true) := by
  obtain ⟨a, h, e, _⟩ := reached (heapCfg_ok true) (v := 0) (xs := List.replicate 300 97)
    (ops := [.makeFill 0 0 300 97]) (by decide +kernel) (by decide +kernel)
  exact ⟨a, _, h, e, by decide +kernel⟩

theorem extractLoop_wide (hc : cfg.Ok) {o : Obj} (is : IStream) {c : Ch} {rest : List Ch} (hwide : 256 ≤ c) :
    ∀ (w xs : List Ch) (room : Nat) (s : St), WInv cfg s → Free s → Raw cfg s o (xs.map some) →
      (∀ x ∈ w, x < 256 ∧ isSpace x = false) → w.length < room →
      Tri (extractLoop cfg o is room (w ++ c :: rest) xs.length) s (fun _ _ => False)
        (fun e s' => e = .ub "isspace of a wide character" ∨ ErrB cfg o s e s') := by
  intro w
  induction w with
  | nil =>
    intro xs room s _ _ _ _ hr
    rw [List.length_nil] at hr
    have hsp : ctypeSpace c s = (.error (.ub "isspace of a wide character"), s) := by
      unfold ctypeSpace
      rw [if_neg (Nat.not_lt.mpr hwide)]; rfl
    unfold extractLoop
    rw [if_neg (by omega)]
    simp only [List.nil_append]
    unfold Tri
    rw [bind_apply, hsp]
    exact Or.inl rfl
  | cons b w ih =>
    intro xs room s hw hf hv hn hr
    rw [List.length_cons] at hr
    have hsp : ctypeSpace b s = (.ok (isSpace b), s) := by
      unfold ctypeSpace
      rw [if_pos (hn b (by simp)).1]; rfl
    unfold extractLoop
    rw [if_neg (by omega)]
    simp only [List.cons_append]
    refine Tri.step hsp ?_
    rw [(hn b (by simp)).2]
    simp only [Bool.false_eq_true, if_false]
    have hsh := hv.short hc hw
    refine Tri.bind (((pushBack_tri hc hw hf hv (c := b) (by omega)).basic ⟨xs, rfl⟩).mono (fun _ _ h => h)
      (fun _ _ h => Or.inr h)) ?_
    rintro _ s1 ⟨w1, f1, r1⟩
    have hx : xs.map some ++ [some b] = (xs ++ [b]).map some := by simp
    rw [hx] at r1
    have := ih (xs ++ [b]) (room - 1) s1 w1 (hf.frame hv f1) r1 (fun x h' => hn x (by simp [h'])) (by omega)
    rw [List.length_append, List.length_singleton] at this
    exact this.mono (fun _ _ h => h) (fun _ _ h => h.imp id (fun h => h.after f1))

/-- C97, violated in every state, whatever the string: a character beyond 255 that is met in the input, after white
space that is skipped and any start `w` of a word, is passed to `isspace` of `<cctype>`, which is not defined for it;
unless memory is refused before. -/
theorem extract_wide_everywhere_violated (hc : cfg.Ok) (h : Reach cfg a s) (hv : a v = some xs) (hg : is.good = true)
    (hsk : is.skipws = true) {ws w rest : List Ch} {c : Ch} (hi : is.inp = ws ++ w ++ c :: rest)
    (hws : ∀ x ∈ ws, isSpace x = true) (hw : ∀ x ∈ w, x < 256 ∧ isSpace x = false) (hwide : 256 ≤ c)
    (hroom : w.length < if is.width = 0 then M64 - 1 else is.width) :
    ∃ e s', extract cfg (.user v) is s = (.error e, s') ∧
      (e = .ub "isspace of a wide character" ∨ s'.refused = true ∧ AllocThrow e ∨ cfg.arena = false ∧ s'.lost = true) := by
  have hrel := (reach_rel hc h).1
  have hraw := hrel.held v xs hv
  have hcs : isSpace c = false := by
    have h1 : ¬ (c : Nat) = 32 := by intro h0; rw [h0] at hwide; exact absurd hwide (by decide)
    have h2 : ¬ (c : Nat) ≤ 13 := Nat.not_le.mpr (Nat.lt_of_lt_of_le (by decide) hwide)
    simp [isSpace, h1, h2]
  have hdrop : is.inp.dropWhile isSpace = w ++ c :: rest := by
    rw [hi, List.append_assoc, List.dropWhile_append_of_pos hws]
    cases w with
    | nil => simp [hcs]
    | cons b w => simp [(hw b (by simp)).2]
  have hse : sentry is s = (.ok ({ is with inp := w ++ c :: rest }, true), s) := by
    unfold sentry
    rw [if_pos hg, if_pos hsk]
    simp only [hdrop]
    rw [if_neg (by simp)]
    rfl
  have key : Tri (extract cfg (.user v) is) s (fun _ _ => False)
      (fun e s' => e = .ub "isspace of a wide character" ∨ ErrB cfg (.user v) s e s') := by
    unfold extract
    refine Tri.step hse ?_
    simp only [if_true]
    have herase := erase_tri hc hrel.inv hraw (pos := 0) (n := M64 - 1) (by omega)
    refine Tri.bind ((herase.basic ⟨xs, rfl⟩).mono (fun _ _ h => h) (fun _ _ h => Or.inr h)) ?_
    rintro _ s1 ⟨w1, f1, p, o1⟩
    have hsh := hraw.short hc hrel.inv
    have hnil : (xs.map some).take 0 ++ (xs.map some).drop (0 + min (M64 - 1) ((xs.map some).length - 0)) = ([] : List Ch).map some := by
      rw [Nat.min_eq_right (by omega)]
      simp
    rw [hnil] at o1
    have := extractLoop_wide hc { is with inp := w ++ c :: rest } (rest := rest) hwide w [] _ s1 w1 (hrel.free.frame hraw f1) o1.raw hw hroom
    exact Tri.bind (this.mono (fun _ _ h => h) (fun _ _ h => h.imp id (fun h => h.after f1))) (fun _ _ h => h.elim)
  unfold Tri at key
  rcases e : extract cfg (.user v) is s with ⟨r, s1⟩
  rw [e] at key
  cases r with
  | ok r => exact key.elim
  | error f =>
    refine ⟨f, s1, rfl, ?_⟩
    rcases key with key | key | key
    · exact Or.inl key
    · exact Or.inr (Or.inr key)
    · exact Or.inr (Or.inl ⟨key.1, key.2.1⟩)

-- L" aи"
example : ∃ a s, Reach (heapCfg false 2) a s ∧ a 0 = some (List.replicate 300 1078) ∧
    (extract (heapCfg false 2) (.user 0) { inp := [32, 97, 1080, 32] } s).1 = .error (.ub "isspace of a wide character") := by
  obtain ⟨a, h, e, _⟩ := reached (heapCfg_ok2 false) (v := 0) (xs := List.replicate 300 1078)
    (ops := [.makeFill 0 0 300 1078]) (by decide +kernel) (by decide +kernel)
  exact ⟨a, _, h, e, by decide +kernel⟩

end Verif.Str
