import Verif.Str.Layout
import Mathlib.Tactic.SplitIfs
import Mathlib.Tactic.IntervalCases
import Mathlib.Data.Nat.Bitwise

/-!
C48: the 24-byte representation decodes to what was stored.
-/

namespace Verif.Str.Layout

/-! ### Bytes and integers -/

theorem leBytes_length (v n : Nat) : (leBytes v n).length = n := by
  induction n generalizing v with
  | zero => rfl
  | succ n ih => simp [leBytes, ih]

theorem leNat_leBytes (v n : Nat) : leNat (leBytes v n) = v % 256 ^ n := by
  induction n generalizing v with
  | zero => simp [leBytes, leNat, Nat.mod_one]
  | succ n ih =>
    simp only [leBytes, leNat, ih]
    rw [Nat.pow_succ', Nat.mod_mul]

theorem enc_length (be : Bool) (v n : Nat) : (enc be v n).length = n := by
  unfold enc; split_ifs <;> simp [leBytes_length]

theorem dec_enc (be : Bool) (v n : Nat) : dec be (enc be v n) = v % 256 ^ n := by
  unfold dec enc; cases be <;> simp [leNat_leBytes]

/-! ### Slices -/

theorem put_length {l bs : List Nat} {off : Nat} (h : off + bs.length ≤ l.length) :
    (put l off bs).length = l.length := by
  unfold put; simp; omega

theorem slice_put_in {l bs : List Nat} {off off' n : Nat} (h0 : off ≤ l.length) (h1 : off ≤ off')
    (h2 : off' + n ≤ off + bs.length) : slice (put l off bs) off' n = slice bs (off' - off) n := by
  unfold slice put
  rw [List.append_assoc, List.drop_append, List.length_take, Nat.min_eq_left h0,
    List.drop_eq_nil_of_le (by simp; omega), List.nil_append, List.drop_append,
    List.take_append_of_le_length (by simp; omega)]

theorem slice_put_same {l bs : List Nat} {off : Nat} (h0 : off ≤ l.length) :
    slice (put l off bs) off bs.length = bs := by
  rw [slice_put_in h0 (Nat.le_refl _) (Nat.le_refl _)]; simp [slice]

theorem slice_put_before {l bs : List Nat} {off off' n : Nat} (h0 : off ≤ l.length) (h : off' + n ≤ off) :
    slice (put l off bs) off' n = slice l off' n := by
  unfold slice put
  rw [List.append_assoc, List.drop_append_of_le_length (by simp; omega),
    List.take_append_of_le_length (by simp; omega), List.drop_take, List.take_take]
  congr 1; omega

theorem slice_put_after {l bs : List Nat} {off off' n : Nat} (h0 : off ≤ l.length) (h : off + bs.length ≤ off') :
    slice (put l off bs) off' n = slice l off' n := by
  unfold slice put
  rw [List.drop_append, List.length_append, List.length_take, Nat.min_eq_left h0,
    List.drop_eq_nil_of_le (by simp; omega), List.nil_append, List.drop_drop]
  congr 2; omega

theorem getD_put_in {l bs : List Nat} {off i : Nat} (h0 : off ≤ l.length) (h1 : off ≤ i) (h2 : i < off + bs.length) :
    (put l off bs).getD i 0 = bs.getD (i - off) 0 := by
  unfold put
  rw [List.getD_eq_getElem?_getD, List.getD_eq_getElem?_getD, List.append_assoc,
    List.getElem?_append_right (by simp; omega), List.getElem?_append_left (by simp; omega)]
  congr 2; simp; omega

theorem getD_put_before {l bs : List Nat} {off i : Nat} (h0 : off ≤ l.length) (h1 : off + bs.length ≤ i) :
    (put l off bs).getD i 0 = l.getD i 0 := by
  unfold put
  rw [List.getD_eq_getElem?_getD, List.getD_eq_getElem?_getD,
    List.getElem?_append_right (by simp; omega), List.getElem?_drop]
  congr 2; simp; omega

variable {p : Plat} {l : List Nat}

theorem w_facts (hp : p.Ok) : p.w * p.maxSmall + p.w = 24 ∧ 1 ≤ p.w ∧ p.w ≤ 4 ∧ 5 ≤ p.maxSmall ∧
    p.maxSmall ≤ 23 := by
  unfold Plat.maxSmall lastChar
  rcases hp with h | h | h <;> rw [h] <;> decide

theorem char_end (hp : p.Ok) {i : Nat} (hi : i ≤ p.maxSmall) : p.w * i + p.w ≤ 24 := by
  obtain ⟨h1, _⟩ := w_facts hp
  have := Nat.mul_le_mul_left p.w hi
  omega

theorem wrChar_length (hp : p.Ok) (hl : l.length = 24) {i v : Nat} (hi : i ≤ p.maxSmall) :
    (wrChar p l i v).length = 24 := by
  have := char_end hp hi
  unfold wrChar
  rw [put_length (by rw [enc_length]; omega), hl]

theorem rdChar_wrChar (hp : p.Ok) (hl : l.length = 24) {i v : Nat} (hi : i ≤ p.maxSmall) :
    rdChar p (wrChar p l i v) i = v % 256 ^ p.w := by
  have := char_end hp hi
  unfold rdChar wrChar
  have h := slice_put_same (l := l) (bs := enc p.be v p.w) (off := p.w * i) (by omega)
  rw [enc_length] at h
  rw [h, dec_enc]

theorem rdChar_wrChar_ne (hp : p.Ok) (hl : l.length = 24) {i j v : Nat} (hi : i ≤ p.maxSmall)
    (hne : i ≠ j) : rdChar p (wrChar p l i v) j = rdChar p l j := by
  have := char_end hp hi
  unfold rdChar wrChar
  rcases Nat.lt_or_gt_of_ne hne with h | h
  · have h' := Nat.mul_le_mul_left p.w (Nat.succ_le_of_lt h)
    rw [Nat.mul_succ] at h'
    rw [slice_put_after (by omega) (by rw [enc_length]; omega)]
  · have h' := Nat.mul_le_mul_left p.w (Nat.succ_le_of_lt h)
    rw [Nat.mul_succ] at h'
    rw [slice_put_before (by omega) (by omega)]

/-- The last byte after storing a small number in the last character. -/
theorem last_wrChar (hp : p.Ok) (hl : l.length = 24) {v : Nat} (hv : v < 256) :
    (wrChar p l p.maxSmall v).getD 23 0 = if p.be ∨ p.w = 1 then v else 0 := by
  obtain ⟨h1, h2, h3, _⟩ := w_facts hp
  unfold wrChar
  rw [getD_put_in (by omega) (by omega) (by rw [enc_length]; omega)]
  have hoff : 23 - p.w * p.maxSmall = p.w - 1 := by omega
  rw [hoff]
  unfold enc
  rcases hp with h | h | h <;> rw [h] <;> cases p.be <;>
    simp [leBytes, Nat.mod_eq_of_lt hv, Nat.div_eq_of_lt hv]

/-- The last byte is not touched by storing another character. -/
theorem last_wrChar_ne (hp : p.Ok) (hl : l.length = 24) {i v : Nat} (hi : i < p.maxSmall) :
    (wrChar p l i v).getD 23 0 = l.getD 23 0 := by
  obtain ⟨h1, h2, _⟩ := w_facts hp
  have h' := Nat.mul_le_mul_left p.w (Nat.succ_le_of_lt hi)
  rw [Nat.mul_succ] at h'
  unfold wrChar
  rw [getD_put_before (by omega) (by rw [enc_length]; omega)]

/-! ### The small representation -/

/-- The number stored in the last character of a small string of size `n`. -/
theorem tag_lt (hp : p.Ok) (n : Nat) : (p.maxSmall - n) <<< (if p.be then 2 else 0) < 256 := by
  obtain ⟨_, _, _, _, h⟩ := w_facts hp
  rw [Nat.shiftLeft_eq]
  split_ifs <;> omega

theorem pow_w (hp : p.Ok) : 256 ≤ 256 ^ p.w := by
  rcases hp with h | h | h <;> rw [h] <;> decide

theorem tag_read (hp : p.Ok) (hl : l.length = 24) {n : Nat} (hn : n ≤ p.maxSmall) :
    rdChar p (setSmallSize p l n) p.maxSmall = (p.maxSmall - n) <<< (if p.be then 2 else 0) := by
  unfold setSmallSize
  by_cases h : n = p.maxSmall
  · rw [← h, rdChar_wrChar hp (wrChar_length hp hl hn) hn]
    simp
  · rw [rdChar_wrChar_ne hp (wrChar_length hp hl (Nat.le_refl _)) hn h, rdChar_wrChar hp hl (Nat.le_refl _),
      Nat.mod_eq_of_lt (Nat.lt_of_lt_of_le (tag_lt hp n) (pow_w hp))]

theorem small_length (hp : p.Ok) (hl : l.length = 24) {n : Nat} (hn : n ≤ p.maxSmall) :
    (setSmallSize p l n).length = 24 :=
  wrChar_length hp (wrChar_length hp hl (Nat.le_refl _)) hn

theorem small_last (hp : p.Ok) (hl : l.length = 24) {n : Nat} (hn : n ≤ p.maxSmall) :
    (setSmallSize p l n).getD 23 0 = if p.be ∨ p.w = 1 then (p.maxSmall - n) <<< (if p.be then 2 else 0) else 0 := by
  have hl' := wrChar_length hp hl (v := (p.maxSmall - n) <<< (if p.be then 2 else 0)) (Nat.le_refl p.maxSmall)
  unfold setSmallSize
  by_cases h : n = p.maxSmall
  · subst h
    rw [last_wrChar hp hl' (by decide)]
    simp
  · rw [last_wrChar_ne hp hl' (by omega), last_wrChar hp hl (tag_lt hp n)]

/-- C48, small strings: after `setSmallSize(n)`, whatever the bytes were before,
the category is small, `size()` and `smallSize()` are `n`, the characters below
`n` are those that were there, and the element after them is the terminator
(also for the largest `n`, where the size byte doubles as terminator). -/
theorem small_round_trip (hp : p.Ok) (hl : l.length = 24) {n : Nat} (hn : n ≤ p.maxSmall) :
    category p (setSmallSize p l n) = catCode p.be .small ∧ size p (setSmallSize p l n) = n ∧
    smallSize p (setSmallSize p l n) = n ∧ rdChar p (setSmallSize p l n) n = 0 ∧
    ∀ i, i < n → rdChar p (setSmallSize p l n) i = rdChar p l i := by
  obtain ⟨_, _, _, h5, h23⟩ := w_facts hp
  have hcat : category p (setSmallSize p l n) = catCode p.be .small := by
    unfold category lastChar catMask catCode
    rw [small_last hp hl hn]
    have : p.maxSmall - n ≤ 23 := by omega
    generalize p.maxSmall - n = d at this ⊢
    cases p.be <;> simp only [Bool.false_eq_true, false_or, true_or, if_true, if_false] <;> (try split_ifs) <;>
      first | rfl | (interval_cases d <;> decide)
  have hss : smallSize p (setSmallSize p l n) = n := by
    unfold smallSize
    rw [tag_read hp hl hn, Nat.shiftLeft_shiftRight, sub64_of_le (by omega) (by omega)]
    omega
  have hsz : size p (setSmallSize p l n) = n := by
    unfold size
    rw [if_pos hcat]
    split_ifs with hb
    · exact hss
    · simp only
      rw [tag_read hp hl hn, if_neg hb, Nat.shiftLeft_zero, sub64_of_le (by omega) (by omega), if_pos (by omega)]
      omega
  refine ⟨hcat, hsz, hss, ?_, fun i hi => ?_⟩
  · unfold setSmallSize
    rw [rdChar_wrChar hp (wrChar_length hp hl (Nat.le_refl _)) hn, Nat.zero_mod]
  · unfold setSmallSize
    rw [rdChar_wrChar_ne hp (wrChar_length hp hl (Nat.le_refl _)) hn (by omega),
      rdChar_wrChar_ne hp hl (Nat.le_refl _) (by omega)]

/-- A 23-character string in 24 bytes of rubbish. -/
example : size ⟨false, 1⟩ (setSmallSize ⟨false, 1⟩ (List.replicate 24 255) 23) = 23 ∧
    category ⟨false, 1⟩ (setSmallSize ⟨false, 1⟩ (List.replicate 24 255) 23) = 0 := by decide +kernel

/-! ### The medium and large representations -/

theorem wrWord_length (hl : l.length = 24) {k v : Nat} (hk : k < 3) : (wrWord p l k v).length = 24 := by
  unfold wrWord
  rw [put_length (by rw [enc_length]; omega), hl]

theorem rdWord_wrWord (hl : l.length = 24) {k v : Nat} (hk : k < 3) (hv : v < M64) :
    rdWord p (wrWord p l k v) k = v := by
  unfold rdWord wrWord
  have h := slice_put_same (l := l) (bs := enc p.be v 8) (off := 8 * k) (by omega)
  rw [enc_length] at h
  rw [h, dec_enc]
  exact Nat.mod_eq_of_lt hv

theorem rdWord_wrWord_ne (hl : l.length = 24) {k j v : Nat} (hk : k < 3) (hne : k ≠ j) :
    rdWord p (wrWord p l k v) j = rdWord p l j := by
  unfold rdWord wrWord
  rcases Nat.lt_or_gt_of_ne hne with h | h
  · rw [slice_put_after (by omega) (by rw [enc_length]; omega)]
  · rw [slice_put_before (by omega) (by omega)]

/-- The word `setCapacity` stores. -/
theorem capWord_le {cap : Nat} {c : Cat} (hc : c ≠ .small) (hcap : cap < 2 ^ 62) :
    cap ||| (catCode false c <<< catShift) = cap + (if c = .medium then 2 ^ 63 else 2 ^ 62) := by
  have key : ∀ k, 62 ≤ k → cap ||| 2 ^ k = cap + 2 ^ k := by
    intro k hk
    have h := Nat.two_pow_add_eq_or_of_lt (b := cap) (i := k) (Nat.lt_of_lt_of_le hcap
      (Nat.pow_le_pow_right (by decide) hk)) 1
    rw [Nat.mul_one] at h
    rw [Nat.or_comm, ← h, Nat.add_comm]
  cases c with
  | small => exact absurd rfl hc
  | medium => exact key 63 (by decide)
  | large => exact key 62 (by decide)

theorem capWord_be {cap : Nat} {c : Cat} (hcap : cap < 2 ^ 62) :
    w64 (cap <<< 2) ||| catCode true c = 4 * cap + catCode true c := by
  have h1 : w64 (cap <<< 2) = 4 * cap := by
    unfold w64
    rw [Nat.shiftLeft_eq, Nat.mod_eq_of_lt (by omega)]; omega
  have h2 : catCode true c < 2 ^ 2 := by cases c <;> decide
  rw [h1]
  exact (Nat.two_pow_add_eq_or_of_lt h2 cap).symm

/-- The bytes of a stored word, on a little-endian machine. -/
theorem enc_le (v : Nat) : enc false v 8 = [v % 256, v / 256 % 256, v / 256 / 256 % 256, v / 256 / 256 / 256 % 256,
    v / 256 / 256 / 256 / 256 % 256, v / 256 / 256 / 256 / 256 / 256 % 256,
    v / 256 / 256 / 256 / 256 / 256 / 256 % 256, v / 256 / 256 / 256 / 256 / 256 / 256 / 256 % 256] := rfl

theorem last_wrWord_le (hb : p.be = false) (hl : l.length = 24) (v : Nat) :
    (wrWord p l 2 v).getD 23 0 = v / 2 ^ 56 % 256 := by
  unfold wrWord
  rw [hb, getD_put_in (by omega) (by omega) (by rw [enc_length]; omega), enc_le]
  simp only [List.getD_cons_succ, List.getD_cons_zero, Nat.div_div_eq_div_mul]
  rfl

theorem last_wrWord_be (hb : p.be = true) (hl : l.length = 24) (v : Nat) :
    (wrWord p l 2 v).getD 23 0 = v % 256 := by
  unfold wrWord
  rw [hb, getD_put_in (by omega) (by omega) (by rw [enc_length]; omega)]
  rfl

/-- The last character of a medium or large string is far beyond any tag. -/
theorem lastChar_wrWord_le (hp : p.Ok) (hb : p.be = false) (hl : l.length = 24) (v : Nat)
    (hv : 64 ≤ v / 2 ^ 56 % 256) :
    64 ≤ rdChar p (wrWord p l 2 v) p.maxSmall ∧ rdChar p (wrWord p l 2 v) p.maxSmall < 2 ^ 32 := by
  obtain ⟨h1, h2, h3, _⟩ := w_facts hp
  unfold rdChar wrWord
  rw [slice_put_in (by omega) (by omega) (by rw [enc_length]; omega), hb, enc_le]
  have hoff : p.w * p.maxSmall - 8 * 2 = 8 - p.w := by omega
  rw [hoff]
  simp only [Nat.div_div_eq_div_mul]
  rcases hp with h | h | h <;> rw [h] <;> simp [slice, dec, leNat] <;> omega

/-- C48, medium and large strings: category, `size()`, `capacity()` and the data
pointer are those stored, for every size and every capacity below `2^62`. -/
theorem ml_round_trip (hp : p.Ok) (hl : l.length = 24) {data sz cap : Nat} {c : Cat} (hc : c ≠ .small)
    (hd : data < M64) (hs : sz < M64) (hcap : cap < 2 ^ 62) :
    category p (setML p l data sz cap c) = catCode p.be c ∧ size p (setML p l data sz cap c) = sz ∧
    mlCapacity p (setML p l data sz cap c) = cap ∧ rdWord p (setML p l data sz cap c) 0 = data := by
  have hl1 := wrWord_length (p := p) (v := data) hl (k := 0) (by decide)
  have hl2 := wrWord_length (p := p) (v := sz) hl1 (k := 1) (by decide)
  have hsz : ∀ v, rdWord p (wrWord p (wrWord p (wrWord p l 0 data) 1 sz) 2 v) 1 = sz := fun v => by
    rw [rdWord_wrWord_ne hl2 (by decide) (by decide), rdWord_wrWord hl1 (by decide) hs]
  have hdt : ∀ v, rdWord p (wrWord p (wrWord p (wrWord p l 0 data) 1 sz) 2 v) 0 = data := fun v => by
    rw [rdWord_wrWord_ne hl2 (by decide) (by decide), rdWord_wrWord_ne hl1 (by decide) (by decide),
      rdWord_wrWord hl (by decide) hd]
  unfold setML setCapacity
  cases hb : p.be with
  | false =>
    simp only [Bool.false_eq_true, if_false]
    rw [capWord_le hc hcap]
    generalize hl3 : wrWord p (wrWord p l 0 data) 1 sz = l2 at *
    have hv64 : cap + (if c = .medium then 2 ^ 63 else 2 ^ 62) < M64 := by split_ifs <;> omega
    have hbyte : (cap + (if c = .medium then 2 ^ 63 else 2 ^ 62)) / 2 ^ 56 % 256 =
        cap / 2 ^ 56 + catCode false c := by
      have : cap / 2 ^ 56 < 64 := by omega
      cases c with
      | small => exact absurd rfl hc
      | medium => simp [catCode]; omega
      | large => simp [catCode]; omega
    have hcat : category p (wrWord p l2 2 (cap + (if c = .medium then 2 ^ 63 else 2 ^ 62))) = catCode false c := by
      unfold category lastChar catMask
      rw [last_wrWord_le hb hl2, hbyte, hb]
      have h64 : cap / 2 ^ 56 < 64 := by omega
      generalize cap / 2 ^ 56 = d at h64
      cases c with
      | small => exact absurd rfl hc
      | medium => simp only [catCode, Bool.false_eq_true, if_false]; interval_cases d <;> decide
      | large => simp only [catCode, Bool.false_eq_true, if_false]; interval_cases d <;> decide
    refine ⟨hcat, ?_, ?_, hdt _⟩
    · unfold size
      rw [hb]
      simp only [Bool.false_eq_true, if_false]
      obtain ⟨_, _, _, _, h23⟩ := w_facts hp
      have hge : 64 ≤ (cap + (if c = .medium then 2 ^ 63 else 2 ^ 62)) / 2 ^ 56 % 256 := by
        rw [hbyte]
        cases c with
        | small => exact absurd rfl hc
        | medium => simp [catCode]
        | large => simp [catCode]
      obtain ⟨h1, h2⟩ := lastChar_wrWord_le hp hb hl2 _ hge
      rw [if_neg, hsz]
      unfold sub64
      omega
    · unfold mlCapacity
      rw [hb, rdWord_wrWord hl2 (by decide) hv64]
      simp only [Bool.false_eq_true, if_false]
      have : M64 - 1 - (catMask false <<< catShift) = 2 ^ 62 - 1 := by decide
      rw [this, Nat.and_two_pow_sub_one_eq_mod]
      split_ifs <;> omega
  | true =>
    simp only [if_true]
    rw [capWord_be hcap]
    generalize hl3 : wrWord p (wrWord p l 0 data) 1 sz = l2 at *
    have hc4 : catCode true c < 4 := by cases c <;> decide
    have hcne : catCode true c ≠ 0 := by
      cases c with
      | small => exact absurd rfl hc
      | medium => decide
      | large => decide
    have hcat : category p (wrWord p l2 2 (4 * cap + catCode true c)) = catCode true c := by
      unfold category lastChar catMask
      rw [last_wrWord_be hb hl2, hb]
      have : ∀ x, x &&& (if true = true then 3 else 192) = x % 2 ^ 2 := fun x =>
        Nat.and_two_pow_sub_one_eq_mod x 2
      rw [this]; omega
    refine ⟨hcat, ?_, ?_, hdt _⟩
    · unfold size
      rw [hcat, hb, if_pos rfl, if_neg (by simpa [catCode] using hcne), hsz]
    · unfold mlCapacity
      rw [hb, rdWord_wrWord hl2 (by decide) (by omega)]
      simp only [if_true]
      rw [Nat.shiftRight_eq_div_pow]; omega

example : category ⟨false, 2⟩ (setML ⟨false, 2⟩ (List.replicate 24 7) 4096 300 (2 ^ 62 - 1) .large) = 0x40 ∧
    mlCapacity ⟨false, 2⟩ (setML ⟨false, 2⟩ (List.replicate 24 7) 4096 300 (2 ^ 62 - 1) .large) = 2 ^ 62 - 1 := by
  decide +kernel

/-- C48: the three categories have three codes, so none is taken for another. -/
theorem categories_distinct (be : Bool) (c d : Cat) (h : catCode be c = catCode be d) : c = d := by
  cases be <;> cases c <;> cases d <;> first | rfl | (exact absurd h (by decide))

/-- The bound on the capacity is needed: from `2^62` on, the capacity's own bits
reach the category bits and a medium string is read back as neither. -/
theorem capacity_bound_needed :
    category ⟨false, 1⟩ (setML ⟨false, 1⟩ (List.replicate 24 0) 4096 300 (2 ^ 62) .medium) = 0xC0 := by
  decide +kernel

/-! ### The word-wise copy -/

/-- C48, the word-wise copy of short strings in release builds: whatever bytes
follow the source, the string gets the source's characters and size. -/
theorem word_copy_round_trip (hp : p.Ok) (hl : l.length = 24) {src : List Nat} {n : Nat} (hn : n ≤ p.maxSmall)
    (hsrc : initSmallReads p n ≤ src.length) :
    category p (initSmallWords p l src n) = catCode p.be .small ∧ size p (initSmallWords p l src n) = n ∧
    rdChar p (initSmallWords p l src n) n = 0 ∧
    ∀ i, i < n → rdChar p (initSmallWords p l src n) i = dec p.be (slice src (p.w * i) p.w) := by
  obtain ⟨h1, h2, h3, h5, h23⟩ := w_facts hp
  unfold initSmallReads at hsrc
  have hnw : n * p.w + p.w ≤ 24 := by have := char_end hp hn; rw [Nat.mul_comm]; exact this
  have hwords : 8 * ((n * p.w + 7) / 8) ≤ 24 := by omega
  have hlen : (src.take (8 * ((n * p.w + 7) / 8))).length = 8 * ((n * p.w + 7) / 8) := by simp; omega
  have hl' : (put l 0 (src.take (8 * ((n * p.w + 7) / 8)))).length = 24 := by
    rw [put_length (by rw [hlen]; omega), hl]
  obtain ⟨g1, g2, _, g4, g5⟩ := small_round_trip hp hl' hn
  refine ⟨g1, g2, g4, fun i hi => ?_⟩
  unfold initSmallWords
  rw [g5 i hi]
  unfold rdChar
  have hi' := Nat.mul_le_mul_left p.w (Nat.succ_le_of_lt hi)
  rw [Nat.mul_succ] at hi'
  have hc : p.w * n = n * p.w := Nat.mul_comm _ _
  rw [slice_put_in (by omega) (by omega) (by rw [hlen]; omega), Nat.sub_zero]
  unfold slice
  rw [List.drop_take, List.take_take]
  congr 2; omega

/-- The word-wise copy reads past the source: constructing from 17 aligned
one-byte characters reads 24 bytes of the source's memory. (C51's bound on reads
does not hold for this path; the extra bytes never become visible, by
`word_copy_round_trip`.) -/
theorem word_copy_reads_past_violated : ∃ (p : Plat) (n : Nat), p.Ok ∧ n ≤ p.maxSmall ∧
    n * p.w < initSmallReads p n := ⟨⟨false, 1⟩, 17, .inl rfl, by decide, by decide⟩

end Verif.Str.Layout
