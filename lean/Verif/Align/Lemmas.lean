import Verif.Align.Model

namespace Verif.Align

theorem and_neg_twoPow (a : BitVec 64) {k : Nat} (hk : k < 64) :
    a &&& -(BitVec.twoPow 64 k) = (a >>> k) <<< k := by
  apply BitVec.eq_of_getLsbD_eq
  intro i hi
  rw [BitVec.getLsbD_and, BitVec.getLsbD_neg, BitVec.getLsbD_shiftLeft, BitVec.getLsbD_ushiftRight]
  simp only [BitVec.getLsbD_twoPow]
  by_cases h : i < k
  · have h1 : ¬ ∃ j, j < i ∧ (decide (j < 64) && decide (k = j)) = true := by
      rintro ⟨j, hj, h2⟩
      simp at h2; omega
    have h3 : ¬ k = i := by omega
    simp [h, h3]
    intro _ x hx; omega
  · by_cases h2 : k = i
    · subst h2
      simp [hi]
    · have h1 : ∃ j, j < i ∧ (decide (j < 64) && decide (k = j)) = true := ⟨k, by omega, by simp [hk]⟩
      have h3 : k + (i - k) = i := by omega
      simp [h, h2, hi, h3]
      intro _; omega

theorem toNat_and_neg_twoPow (a : BitVec 64) {k : Nat} (hk : k < 64) :
    (a &&& -(BitVec.twoPow 64 k)).toNat = a.toNat / 2 ^ k * 2 ^ k := by
  rw [and_neg_twoPow a hk, BitVec.toNat_shiftLeft, BitVec.toNat_ushiftRight, Nat.shiftRight_eq_div_pow,
    Nat.shiftLeft_eq]
  apply Nat.mod_eq_of_lt
  exact Nat.lt_of_le_of_lt (Nat.div_mul_le_self _ _) a.isLt

theorem instantiable_iff {N : BitVec 64} :
    Instantiable N ↔ ∃ k, 3 ≤ k ∧ k < 64 ∧ N = BitVec.twoPow 64 k := by
  constructor
  · rintro ⟨h1, h2⟩
    have h8 : 8 ≤ N.toNat := by simpa [BitVec.le_def] using h2
    have h3 : N.toNat &&& (N.toNat - 1) = 0 := by
      have h4 : (N - 1#64).toNat = N.toNat - 1 := by
        rw [BitVec.toNat_sub]; have := N.isLt; simp; omega
      have h5 := congrArg BitVec.toNat h1
      rw [BitVec.toNat_and, h4] at h5
      simpa using h5
    obtain ⟨k, hk⟩ := (Nat.and_sub_one_eq_zero_iff_isPowerOfTwo (by omega)).1 h3
    have hk64 : k < 64 := by
      have : 2 ^ k < 2 ^ 64 := by rw [← hk]; exact N.isLt
      exact (Nat.pow_lt_pow_iff_right (by decide)).1 this
    have hk3 : 3 ≤ k := by
      have : 2 ^ 3 ≤ 2 ^ k := by rw [← hk]; exact h8
      exact (Nat.pow_le_pow_iff_right (by decide)).1 this
    refine ⟨k, hk3, hk64, ?_⟩
    apply BitVec.eq_of_toNat_eq
    rw [BitVec.toNat_twoPow, hk]
    rw [Nat.mod_eq_of_lt]
    exact Nat.pow_lt_pow_right (by decide) hk64
  · rintro ⟨k, hk3, hk, rfl⟩
    have hlt : 2 ^ k < 2 ^ 64 := Nat.pow_lt_pow_right (by decide) hk
    have h8 : 2 ^ 3 ≤ 2 ^ k := Nat.pow_le_pow_right (by decide) hk3
    have ht : (BitVec.twoPow 64 k).toNat = 2 ^ k := by
      rw [BitVec.toNat_twoPow, Nat.mod_eq_of_lt hlt]
    constructor
    · apply BitVec.eq_of_toNat_eq
      rw [BitVec.toNat_and, BitVec.toNat_sub, ht]
      have : (2 ^ 64 - (1#64).toNat + 2 ^ k) % 2 ^ 64 = 2 ^ k - 1 := by simp at *; omega
      rw [this, Nat.and_two_pow_sub_one_eq_mod]
      simp
    · rw [BitVec.le_def, ht]; simpa using h8

/-- `AlignUpTo` computed on numbers: the sum wraps first, then is rounded down. -/
theorem toNat_alignUpTo {k : Nat} (hk : k < 64) (n : BitVec 64) :
    (alignUpTo (BitVec.twoPow 64 k) n).toNat
      = (n.toNat + 2 ^ k - 1) % 2 ^ 64 / 2 ^ k * 2 ^ k := by
  have hlt : 2 ^ k < 2 ^ 64 := Nat.pow_lt_pow_right (by decide) hk
  have hpos : 0 < 2 ^ k := Nat.pow_pos (by decide)
  have ht : (BitVec.twoPow 64 k).toNat = 2 ^ k := by
    rw [BitVec.toNat_twoPow, Nat.mod_eq_of_lt hlt]
  unfold alignUpTo
  rw [toNat_and_neg_twoPow _ hk]
  congr 2
  rw [BitVec.toNat_sub, BitVec.toNat_add, ht]
  simp
  omega

theorem alignUpTo8_eq {n : Nat} (h : n + 7 < M64) : alignUpTo8 n = (n + 7) / 8 * 8 := by
  have h2 : (8#64) = BitVec.twoPow 64 3 := by decide
  unfold alignUpTo8
  rw [h2, toNat_alignUpTo (by decide)]
  simp at *
  omega

theorem alignUpTo8_lt (n : Nat) : alignUpTo8 n < M64 := BitVec.isLt _

theorem alignUpTo8_dvd (n : Nat) : 8 ∣ alignUpTo8 n := by
  have h2 : (8#64) = BitVec.twoPow 64 3 := by decide
  unfold alignUpTo8
  rw [h2, toNat_alignUpTo (by decide)]
  exact ⟨_, Nat.mul_comm _ _⟩

end Verif.Align
