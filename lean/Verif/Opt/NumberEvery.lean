import Verif.Opt.OptMore

/-!
# The violation of C87 for every text
-/

namespace Verif.Opt

/-- C87, violated for every text: an option that takes a number, a truth value or a floating point
number makes a value of every text with anything but white space in it; none is refused. -/
theorem any_number_everywhere_violated {env : Env} {o : Opt} {t : Text} (hn : o.type.numeric = true) (ht : ¬ Blank t) :
    ∃ v, parseValue env t o = .ok (some v) := by
  cases hc : toConvert t with
  | error f => exact absurd (toConvert_blank hc) ht
  | ok u =>
    unfold parseValue
    cases h : o.type <;> rw [h] at hn <;> first | (simp only [hc]; exact ⟨_, rfl⟩) | exact absurd hn (by decide)

/-- C87, violated for every text that is not a number: if the first character after white space is
neither a digit nor a sign the option is given 0 or false, as if that had been written. -/
theorem malformed_number_everywhere_violated {env : Env} {o : Opt} {w : Text} {c : Char} {rest : Text}
    (hw : ∀ x ∈ w, ws x = true) (hws : ws c = false) (h0 : c ≠ '\x00') (hd : c.isDigit = false)
    (hm : c ≠ '-') (hp : c ≠ '+') :
    (o.type = .int → parseValue env (w ++ c :: rest) o = .ok (some (.int 0))) ∧
    (o.type = .long → parseValue env (w ++ c :: rest) o = .ok (some (.long 0))) ∧
    (o.type = .bool → parseValue env (w ++ c :: rest) o = .ok (some (.bool false))) := by
  have hw0 : ∀ x ∈ w, x ≠ '\x00' := by
    rintro x hx rfl
    exact absurd (hw _ hx) (by decide)
  have e1 : cstr (w ++ c :: rest) = w ++ c :: cstr rest := by
    unfold cstr
    rw [List.takeWhile_append_of_pos (fun x hx => by simpa using hw0 x hx), List.takeWhile_cons]
    simp [h0]
  have e2 : toConvert (w ++ c :: rest) = .ok (c :: cstr rest) := by
    unfold toConvert
    simp only
    rw [e1, List.dropWhile_append_of_pos hw, List.dropWhile_cons]
    simp [hws]
  have e3 : decimal (c :: cstr rest) = none := by
    unfold decimal
    split
    rename_i neg t heq
    have ht : t = c :: cstr rest := by
      clear e1 e2
      split at heq
      · simp_all
      · simp_all
      · cases heq; rfl
    subst ht
    simp [hd]
  have e4 : ∀ lo hi, getInt lo hi (c :: cstr rest) = 0 := by
    intro lo hi
    unfold getInt
    rw [e3]
  refine ⟨fun h => ?_, fun h => ?_, fun h => ?_⟩ <;>
  · unfold parseValue
    simp only [h, e2, bind, Except.bind, e4]
    rfl

/-- The hypotheses are met by `" abc"`. -/
example : ¬ Blank (Sample.t " abc") ∧ (∀ x ∈ Sample.t " ", ws x = true) ∧ Sample.t " abc" = Sample.t " " ++ 'a' :: Sample.t "bc" ∧
    ws 'a' = false ∧ 'a' ≠ '\x00' ∧ 'a'.isDigit = false ∧ 'a' ≠ '-' ∧ 'a' ≠ '+' := by
  decide +kernel

end Verif.Opt
