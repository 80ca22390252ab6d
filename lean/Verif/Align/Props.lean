import Verif.Align.Lemmas

/-!
Property theorems C01 and C02.
-/

namespace Verif.Align

/-- Specification: `r` is the least multiple of `b` that is at least `n`. -/
def LeastMultiple (b n r : Nat) : Prop := b ∣ r ∧ n ≤ r ∧ ∀ m, b ∣ m → n ≤ m → r ≤ m

theorem leastMultiple_unique {b n r s : Nat} (h1 : LeastMultiple b n r) (h2 : LeastMultiple b n s) :
    r = s := Nat.le_antisymm (h1.2.2 s h2.1 h2.2.1) (h2.2.2 r h1.1 h1.2.1)

theorem leastMultiple_ceil {b n : Nat} (hb : 0 < b) : LeastMultiple b n ((n + b - 1) / b * b) := by
  refine ⟨⟨_, Nat.mul_comm _ _⟩, ?_, ?_⟩
  · have h1 := Nat.div_add_mod (n + b - 1) b
    have h2 := Nat.mod_lt (n + b - 1) hb
    rw [Nat.mul_comm] at h1; omega
  · rintro m ⟨c, rfl⟩ h
    rw [Nat.mul_comm b c]
    apply Nat.mul_le_mul_right
    rw [Nat.div_le_iff_le_mul_add_pred hb]
    omega

/-- **C01.**  For every `N` for which `AlignUpTo<N>` compiles and every 64-bit `n`, if `m` is the
least multiple of `N` that is at least `n` then the result is `m` when `m` fits in 64 bits and `0`
when it does not. -/
theorem c01_alignUpTo {N : BitVec 64} (hN : Instantiable N) (n : BitVec 64) (m : Nat)
    (hm : LeastMultiple N.toNat n.toNat m) :
    (m < 2 ^ 64 → (alignUpTo N n).toNat = m) ∧ (2 ^ 64 ≤ m → (alignUpTo N n).toNat = 0) := by
  obtain ⟨k, hk3, hk, rfl⟩ := instantiable_iff.1 hN
  have hlt : 2 ^ k < 2 ^ 64 := Nat.pow_lt_pow_right (by decide) hk
  have hpos : 0 < 2 ^ k := Nat.pow_pos (by decide)
  have ht : (BitVec.twoPow 64 k).toNat = 2 ^ k := by
    rw [BitVec.toNat_twoPow, Nat.mod_eq_of_lt hlt]
  rw [ht] at hm
  have hmc := leastMultiple_unique hm (leastMultiple_ceil (n := n.toNat) hpos)
  rw [toNat_alignUpTo hk]
  have hn := n.isLt
  have hdiv : (2 : Nat) ^ 64 = 2 ^ k * 2 ^ (64 - k) := by rw [← Nat.pow_add]; congr 1; omega
  by_cases hov : n.toNat + 2 ^ k - 1 < 2 ^ 64
  · rw [Nat.mod_eq_of_lt hov, ← hmc]
    refine ⟨fun _ => rfl, fun h => ?_⟩
    have : m ≤ n.toNat + 2 ^ k - 1 := by rw [hmc]; exact Nat.div_mul_le_self _ _
    omega
  · have h1 : (n.toNat + 2 ^ k - 1) % 2 ^ 64 = n.toNat + 2 ^ k - 1 - 2 ^ 64 := by
      rw [Nat.mod_eq_sub_mod (by omega), Nat.mod_eq_of_lt (by omega)]
    rw [h1, Nat.div_eq_of_lt (by omega)]
    refine ⟨fun h => ?_, fun _ => by simp⟩
    exfalso
    have : 2 ^ 64 ≤ m := by
      rw [hmc, hdiv, Nat.mul_comm]
      apply Nat.mul_le_mul_right
      rw [Nat.le_div_iff_mul_le hpos, Nat.mul_comm, ← hdiv]
      omega
    omega

/-- The specification is not vacuous: the least multiple always exists. -/
theorem c01_exists {N : BitVec 64} (hN : Instantiable N) (n : BitVec 64) :
    ∃ m, LeastMultiple N.toNat n.toNat m := by
  refine ⟨_, leastMultiple_ceil ?_⟩
  have : 8 ≤ N.toNat := by simpa [BitVec.le_def] using hN.2
  omega

-- A concrete instance of each branch: 8-alignment of 13, and of `2^64 - 3` (wraps to 0).
example : Instantiable 8#64 ∧ (alignUpTo 8#64 13#64).toNat = 16 ∧
    (alignUpTo 8#64 18446744073709551613#64).toNat = 0 := by
  refine ⟨⟨by decide, by decide⟩, by decide, by decide⟩

/-- **C02.**  `AlignUp(n, b)` with `b ≠ 0`: the result is the least multiple of `b` that is at least
`n`, minus `2^64` if that does not fit. -/
theorem c02_alignUp {n b m : Nat} (hn : n < M64) (hb : 0 < b) (hb2 : b < M64)
    (hm : LeastMultiple b n m) :
    alignUp n b = .ok (if m < M64 then m else m - M64) := by
  have hmc := leastMultiple_unique hm (leastMultiple_ceil (n := n) hb)
  have hb0 : b ≠ 0 := by omega
  have h1 := Nat.div_add_mod n b
  have h2 := Nat.mod_lt n hb
  have hle : n % b ≤ n := Nat.mod_le _ _
  have hmval : m = n - n % b + (if n % b ≠ 0 then 1 else 0) * b := by
    have : LeastMultiple b n (n - n % b + (if n % b ≠ 0 then 1 else 0) * b) := by
      refine ⟨?_, ?_, ?_⟩
      · apply Nat.dvd_add (Nat.dvd_sub_mod n); exact ⟨_, Nat.mul_comm _ _⟩
      · split <;> omega
      · rintro c ⟨d, rfl⟩ hc
        split
        · have : n / b < d := by
            rw [Nat.div_lt_iff_lt_mul hb]
            rcases Nat.lt_or_eq_of_le hc with h | h
            · rw [Nat.mul_comm]; exact h
            · rename_i hr; exfalso; apply hr; rw [h]; simp
          have h3 : b * (n / b + 1) ≤ b * d := Nat.mul_le_mul_left b this
          rw [Nat.mul_add] at h3
          omega
        · omega
    exact leastMultiple_unique hm this
  simp only [alignUp, hb0, if_false]
  congr 1
  have hs : sub64 n (n % b) = n - n % b := sub64_of_le hle hn
  rw [hs, hmval]
  by_cases hr : n % b = 0
  · have h0 : mul64 0 b = 0 := by unfold mul64; simp
    have h3 : add64 n 0 = n := add64_of_lt (by omega)
    simp [hr, h0, h3, hn]
  · have h0 : mul64 1 b = b := by rw [mul64_of_lt (by omega)]; omega
    simp only [hr, ne_eq, not_false_eq_true, if_true, h0, Nat.one_mul]
    split
    · rw [add64_of_lt (by assumption)]
    · rename_i h3
      unfold add64
      rw [Nat.mod_eq_sub_mod (by omega), Nat.mod_eq_of_lt (by omega)]

/-- **C02**, division by zero is undefined behaviour. -/
theorem c02_alignUp_zero (n : Nat) : ∃ w, alignUp n 0 = .error (.ub w) := ⟨_, rfl⟩

example : alignUp 10000 4096 = .ok 12288 ∧ alignUp 7 3 = .ok 9 ∧
    alignUp 18446744073709551615 4096 = .ok 0 := by decide

end Verif.Align
