import Verif.Literals.Model
import Mathlib.Data.Nat.Digits.Defs

/-!
Property theorems C03.
-/

namespace Verif.Literals

/-- The character of a decimal digit (specification side). -/
def digitChar (d : Nat) : Char := Char.ofNat (48 + d)

/-- The spelling of a list of decimal digits, most significant first. -/
def spell (ds : List Nat) : List Char := ds.map digitChar

/-- The number a list of decimal digits denotes, most significant first. -/
def value (ds : List Nat) : Nat := Nat.ofDigits 10 ds.reverse

theorem isDigit_digitChar {d : Nat} (h : d < 10) :
    isDigit (digitChar d) = true ∧ (digitChar d).toNat - 48 = d := by
  have : d = 0 ∨ d = 1 ∨ d = 2 ∨ d = 3 ∨ d = 4 ∨ d = 5 ∨ d = 6 ∨ d = 7 ∨ d = 8 ∨ d = 9 := by omega
  rcases this with h | h | h | h | h | h | h | h | h | h <;> subst h <;> decide

theorem isDigit_iff {c : Char} : isDigit c = true ↔ ∃ d, d < 10 ∧ c = digitChar d := by
  constructor
  · intro h
    simp only [isDigit, Bool.and_eq_true, decide_eq_true_eq] at h
    have h1 : c.toNat ≤ 57 := h.1
    have h2 : 48 ≤ c.toNat := h.2
    refine ⟨c.toNat - 48, by omega, ?_⟩
    have h3 : 48 + (c.toNat - 48) = c.toNat := by omega
    rw [digitChar, h3, Char.ofNat_toNat]
  · rintro ⟨d, hd, rfl⟩; exact (isDigit_digitChar hd).1

theorem stoiImpl_digits {ds : List Nat} (h : ∀ d ∈ ds, d < 10) (v : Nat) :
    stoiImpl (spell ds) (v % M64) = .ok ((v * 10 ^ ds.length + value ds) % M64) := by
  induction ds generalizing v with
  | nil => simp [spell, stoiImpl, value]
  | cons d ds ih =>
    have hd := isDigit_digitChar (h d (by simp))
    simp only [spell, List.map_cons, stoiImpl, hd.1, hd.2, if_true]
    have hstep : add64 d (mul64 (v % M64) 10) = (v * 10 + d) % M64 := by
      unfold add64 mul64
      rw [Nat.mod_mul_mod, Nat.add_mod_mod, Nat.add_comm]
    rw [hstep]
    have := ih (fun x hx => h x (by simp [hx])) (v * 10 + d)
    rw [spell] at this
    rw [this]
    congr 2
    simp only [value, List.reverse_cons, Nat.ofDigits_append, List.length_reverse, List.length_cons,
      Nat.ofDigits_singleton, Nat.pow_succ, Nat.add_mul]
    have e1 : v * 10 * 10 ^ ds.length = v * (10 ^ ds.length * 10) := by
      rw [Nat.mul_assoc, Nat.mul_comm 10]
    rw [e1, Nat.mul_comm d]
    omega

theorem stoi_digits {ds : List Nat} (h : ∀ d ∈ ds, d < 10) :
    stoi (spell ds) = .ok (value ds % M64) := by
  have := stoiImpl_digits h 0
  simpa [stoi] using this

theorem stoiImpl_bad {s : List Char} (h : ∃ c ∈ s, isDigit c = false) (v : Nat) :
    ∃ w, stoiImpl s v = .error (.throw w) := by
  induction s generalizing v with
  | nil => simp at h
  | cons c s ih =>
    unfold stoiImpl
    by_cases hc : isDigit c = true
    · simp only [hc, if_true]
      apply ih
      obtain ⟨x, hx, hx2⟩ := h
      rcases List.mem_cons.1 hx with rfl | hx
      · simp [hc] at hx2
      · exact ⟨x, hx, hx2⟩
    · exact ⟨"compile-time-error: not a digit", by simp [hc]⟩

/-- **C03.**  For every decimal digit string the literal is its value times the unit, reduced
modulo `2^64`. -/
theorem c03_literals {ds : List Nat} (h : ∀ d ∈ ds, d < 10) :
    litKB (spell ds) = .ok (value ds * 2 ^ 10 % 2 ^ 64) ∧
    litMB (spell ds) = .ok (value ds * 2 ^ 20 % 2 ^ 64) ∧
    litGB (spell ds) = .ok (value ds * 2 ^ 30 % 2 ^ 64) := by
  have e := stoi_digits h
  simp only [litKB, litMB, litGB, e, mul64, kilo]
  refine ⟨?_, ?_, ?_⟩ <;> simp [bind, Except.bind, pure, Except.pure, Nat.mul_assoc]

/-- **C03**, exactness: when the product fits in 64 bits the literal is exactly `N * unit`. -/
theorem c03_exact {ds : List Nat} (h : ∀ d ∈ ds, d < 10) :
    (value ds * 2 ^ 10 < 2 ^ 64 → litKB (spell ds) = .ok (value ds * 2 ^ 10)) ∧
    (value ds * 2 ^ 20 < 2 ^ 64 → litMB (spell ds) = .ok (value ds * 2 ^ 20)) ∧
    (value ds * 2 ^ 30 < 2 ^ 64 → litGB (spell ds) = .ok (value ds * 2 ^ 30)) := by
  obtain ⟨a, b, c⟩ := c03_literals h
  refine ⟨fun hf => ?_, fun hf => ?_, fun hf => ?_⟩
  · rw [a, Nat.mod_eq_of_lt hf]
  · rw [b, Nat.mod_eq_of_lt hf]
  · rw [c, Nat.mod_eq_of_lt hf]

/-- **C03**, rejection: a spelling with any character that is not a decimal digit is rejected. -/
theorem c03_rejects {s : List Char} (h : ∃ c ∈ s, ¬ ∃ d, d < 10 ∧ c = digitChar d) :
    (∃ w, litKB s = .error (.throw w)) ∧ (∃ w, litMB s = .error (.throw w)) ∧
    (∃ w, litGB s = .error (.throw w)) := by
  have hb : ∃ c ∈ s, isDigit c = false := by
    obtain ⟨c, hc, hn⟩ := h
    refine ⟨c, hc, ?_⟩
    rw [← isDigit_iff] at hn
    simpa using hn
  obtain ⟨w, hw⟩ := stoiImpl_bad hb 0
  simp only [litKB, litMB, litGB, stoi, hw]
  exact ⟨⟨w, rfl⟩, ⟨w, rfl⟩, ⟨w, rfl⟩⟩

/-- **C03**, the literal is not overflow-checked: `17179869185_GB` (= 2^34 + 1) is `1_GB`. -/
theorem c03_wraps_silently :
    value [1, 7, 1, 7, 9, 8, 6, 9, 1, 8, 5] * 2 ^ 30 ≥ 2 ^ 64 ∧
    litGB "17179869185".toList = .ok (2 ^ 30) := by
  constructor <;> decide

example : litKB "4".toList = .ok 4096 ∧ spell [4] = "4".toList ∧ value [4] = 4 := by decide
example : litMB "0x10".toList = .error (.throw "compile-time-error: not a digit") := by decide

end Verif.Literals
