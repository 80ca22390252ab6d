import Verif.Str.SearchLemmas

/-!
C53, C54, C55 and C59: what the searching and comparing members of
`basic_string` answer.
-/

namespace Verif.Str

/-! ### C53: find -/

/-- C53. `find(needle, pos)` answers the least index from `pos` on at which the
needle occurs, `npos` iff there is none, for all strings, needles and starting
positions; no read falls outside either array (it would be a fault). -/
theorem find_least (hay needle : List Ch) (pos : Nat) (hh : hay.length < npos) (hn : needle.length < M64)
    (hp : pos < M64) :
    ∃ r, find hay needle pos = .ok r ∧ LeastFrom (OccursAt hay needle) pos r := find_spec hh hn hp

/-- C53, the empty needle: found at `pos` iff `pos ≤ size()`. -/
theorem find_empty (hay : List Ch) (pos : Nat) (hh : hay.length < npos) (hp : pos < M64) :
    find hay [] pos = .ok (if pos ≤ hay.length then pos else npos) := by
  obtain ⟨r, h1, h2⟩ := find_least hay [] pos hh (by simp) hp
  have occ : ∀ i, OccursAt hay [] i ↔ i ≤ hay.length := fun i => by
    rw [occursAt_iff]; simp
  rw [h1]
  split_ifs with h
  · rcases h2 with ⟨ha, hb, hc⟩ | ⟨ha, hb⟩
    · have := hc pos (Nat.le_refl _) ((occ pos).2 h)
      have : r = pos := by omega
      rw [this]
    · exact absurd ((occ pos).2 h) (hb pos (Nat.le_refl _))
  · rcases h2 with ⟨ha, hb, hc⟩ | ⟨ha, hb⟩
    · have := (occ r).1 hb
      omega
    · rw [ha]

/-- C53, one character: `find(c, pos)` answers the least index from `pos` on
that holds `c`. -/
theorem findChar_least (hay : List Ch) (c : Ch) (pos : Nat) (hh : hay.length < npos) (hp : pos < M64) :
    ∃ r, findChar hay c pos = .ok r ∧ LeastFrom (fun i => hay[i]? = some c) pos r := by
  obtain ⟨r, h1, h2⟩ := find_least hay [c] pos hh (by simp) hp
  have occ : ∀ i, OccursAt hay [c] i ↔ hay[i]? = some c := fun i => by
    rw [occursAt_iff]
    constructor
    · rintro ⟨_, h⟩
      exact h 0 (by simp)
    · intro h
      refine ⟨?_, fun j hj => ?_⟩
      · by_contra hge
        rw [List.getElem?_eq_none (by simp at hge; omega)] at h
        cases h
      · have : j = 0 := by simp at hj; omega
        subst this
        exact h
  refine ⟨r, h1, ?_⟩
  rw [show OccursAt hay [c] = fun i => hay[i]? = some c from funext fun i => propext (occ i)] at h2
  exact h2

/-- C53, a C string: the needle is what precedes the first NUL. -/
theorem findCStr_least (hay needle rest : List Ch) (pos : Nat) (hh : hay.length < npos) (hn : needle.length < M64)
    (hp : pos < M64) (h0 : 0 ∉ needle) :
    ∃ r, findCStr hay (needle ++ 0 :: rest) pos = .ok r ∧ LeastFrom (OccursAt hay needle) pos r := by
  unfold findCStr
  rw [strlen_spec needle rest 0 (fun c hc h => h0 (h ▸ hc)) rfl, ok_bind, Nat.zero_add, List.take_left]
  exact find_least hay needle pos hh hn hp

/-- The repeated prefix forces the skip: "aab" in "aaab" is at 1. -/
example : find [97, 97, 97, 98] [97, 97, 98] 0 = .ok 1 := by decide +kernel
/-- Mismatch with a skip longer than one, then a hit: "abcab" in "abcbabcab". -/
example : find [97, 98, 99, 98, 97, 98, 99, 97, 98] [97, 98, 99, 97, 98] 0 = .ok 4 := by decide +kernel
/-- `pos` that would wrap the sum with the needle's length. -/
example : find [97, 98] [97] npos = .ok npos := by decide +kernel

/-! ### C54: rfind and the character sets -/

/-- C54. `rfind(needle, pos)` answers the greatest index up to `pos` at which
the needle occurs, `npos` iff there is none. -/
theorem rfind_greatest (hay needle : List Ch) (pos : Nat) :
    ∃ r, rfind hay needle pos = .ok r ∧ GreatestUpTo (OccursAt hay needle) pos r := by
  unfold rfind
  by_cases h1 : needle.length > hay.length
  · rw [if_pos h1]
    refine ⟨npos, rfl, .inr ⟨rfl, fun i _ ho => ?_⟩⟩
    have := (occursAt_iff.1 ho).1
    omega
  · rw [if_neg h1]
    simp only
    have widen : ∀ r, GreatestUpTo (OccursAt hay needle) (min pos (hay.length - needle.length)) r →
        GreatestUpTo (OccursAt hay needle) pos r := by
      rintro r (⟨ha, hb, hc⟩ | ⟨ha, hb⟩)
      · refine .inl ⟨by omega, hb, fun i hi ho => hc i ?_ ho⟩
        have := (occursAt_iff.1 ho).1
        omega
      · refine .inr ⟨ha, fun i hi ho => hb i ?_ ho⟩
        have := (occursAt_iff.1 ho).1
        omega
    by_cases h2 : needle.length = 0
    · rw [if_pos h2]
      have : needle = [] := List.length_eq_zero_iff.1 h2
      subst this
      refine ⟨_, rfl, widen _ (.inl ⟨Nat.le_refl _, occursAt_iff.2 ⟨?_, fun j hj => by simp at hj⟩,
        fun i hi _ => hi⟩)⟩
      simp; omega
    · rw [if_neg h2]
      obtain ⟨r, h3, h4⟩ := rfindLoop_spec (hay := hay) (needle := needle) (fun h => h2 (by simp [h]))
        (min pos (hay.length - needle.length)) (by omega)
      exact ⟨r, h3, widen r h4⟩

example : rfind [97, 98, 97, 98, 97] [97, 98] npos = .ok 2 := by decide +kernel
example : rfind [97, 98, 97, 98, 97] [97, 98] 1 = .ok 0 := by decide +kernel

/-- Only indices that hold a character can answer a set search. -/
theorem leastFrom_congr {P Q : Nat → Prop} {pos r : Nat} (h : ∀ i, P i ↔ Q i) (hp : LeastFrom P pos r) :
    LeastFrom Q pos r := by
  rw [show Q = P from funext fun i => propext (h i).symm]; exact hp

theorem greatestUpTo_congr {P Q : Nat → Prop} {pos r : Nat} (h : ∀ i, P i ↔ Q i) (hp : GreatestUpTo P pos r) :
    GreatestUpTo Q pos r := by
  rw [show Q = P from funext fun i => propext (h i).symm]; exact hp

/-- C54. `find_first_of(set, pos)`: the least index from `pos` on whose
character is in the set. -/
theorem find_first_of_least (hay set : List Ch) (pos : Nat) :
    ∃ r, findFirstOf hay set pos = .ok r ∧ LeastFrom (CharAt hay (· ∈ set)) pos r := by
  unfold findFirstOf
  by_cases h : pos > hay.length ∨ set.length = 0
  · rw [if_pos h]
    refine ⟨npos, rfl, .inr ⟨rfl, fun i hi ⟨c, hc, hs⟩ => ?_⟩⟩
    rcases h with h | h
    · rw [List.getElem?_eq_none (by omega)] at hc; cases hc
    · rw [List.length_eq_zero_iff.1 h] at hs; cases hs
  · rw [if_neg h]
    obtain ⟨r, h1, h2⟩ := upLoop_spec (hay := hay) (set := set) (want := true) (hay.length - pos) pos rfl (by omega)
    refine ⟨r, h1, leastFrom_congr (fun i => ?_) h2⟩
    simp only [CharAt, inSet_iff]

/-- C54. `find_first_not_of(set, pos)`. -/
theorem find_first_not_of_least (hay set : List Ch) (pos : Nat) :
    ∃ r, findFirstNotOf hay set pos = .ok r ∧ LeastFrom (CharAt hay (· ∉ set)) pos r := by
  unfold findFirstNotOf
  by_cases h : pos < hay.length
  · rw [if_pos h]
    obtain ⟨r, h1, h2⟩ := upLoop_spec (hay := hay) (set := set) (want := false) (hay.length - pos) pos rfl (by omega)
    refine ⟨r, h1, leastFrom_congr (fun i => ?_) h2⟩
    simp only [CharAt, ← inSet_iff, Bool.not_eq_true]
  · rw [if_neg h]
    refine ⟨npos, rfl, .inr ⟨rfl, fun i hi ⟨c, hc, _⟩ => ?_⟩⟩
    rw [List.getElem?_eq_none (by omega)] at hc; cases hc

theorem widen_down {hay : List Ch} {p : Ch → Prop} {pos r : Nat}
    (h : GreatestUpTo (CharAt hay p) (min pos (hay.length - 1)) r) : GreatestUpTo (CharAt hay p) pos r := by
  have inb : ∀ i, CharAt hay p i → i < hay.length := by
    rintro i ⟨c, hc, _⟩
    by_contra hge
    rw [List.getElem?_eq_none (by omega)] at hc; cases hc
  rcases h with ⟨ha, hb, hc⟩ | ⟨ha, hb⟩
  · refine .inl ⟨by omega, hb, fun i hi ho => hc i ?_ ho⟩
    have := inb i ho
    omega
  · refine .inr ⟨ha, fun i hi ho => hb i ?_ ho⟩
    have := inb i ho
    omega

/-- C54. `find_last_of(set, pos)`: the greatest index up to `pos` whose
character is in the set. -/
theorem find_last_of_greatest (hay set : List Ch) (pos : Nat) :
    ∃ r, findLastOf hay set pos = .ok r ∧ GreatestUpTo (CharAt hay (· ∈ set)) pos r := by
  unfold findLastOf
  by_cases h : hay ≠ [] ∧ set.length > 0
  · rw [if_pos h]
    have hl := List.length_pos_iff.2 h.1
    obtain ⟨r, h1, h2⟩ := downLoop_spec (hay := hay) (set := set) (want := true) (min pos (hay.length - 1)) (by omega)
    refine ⟨r, h1, greatestUpTo_congr (fun i => ?_) (widen_down h2)⟩
    simp only [CharAt, inSet_iff]
  · rw [if_neg h]
    refine ⟨npos, rfl, .inr ⟨rfl, fun i hi ⟨c, hc, hs⟩ => h ⟨?_, ?_⟩⟩⟩
    · rintro rfl; simp at hc
    · exact List.length_pos_iff.2 (List.ne_nil_of_mem hs)

/-- C54. `find_last_not_of(set, pos)`. -/
theorem find_last_not_of_greatest (hay set : List Ch) (pos : Nat) :
    ∃ r, findLastNotOf hay set pos = .ok r ∧ GreatestUpTo (CharAt hay (· ∉ set)) pos r := by
  unfold findLastNotOf
  by_cases h : hay ≠ []
  · rw [if_pos h]
    have hl := List.length_pos_iff.2 h
    obtain ⟨r, h1, h2⟩ := downLoop_spec (hay := hay) (set := set) (want := false) (min pos (hay.length - 1))
      (by omega)
    refine ⟨r, h1, greatestUpTo_congr (fun i => ?_) (widen_down h2)⟩
    simp only [CharAt, ← inSet_iff, Bool.not_eq_true]
  · rw [if_neg h]
    refine ⟨npos, rfl, .inr ⟨rfl, fun i hi ⟨c, hc, hs⟩ => h ?_⟩⟩
    rintro rfl; simp at hc

example : findFirstOf [120, 97, 98] [98, 97] 0 = .ok 1 ∧ findLastOf [97, 98, 120] [98, 97] npos = .ok 1 ∧
    findFirstNotOf [97, 98, 120] [98, 97] 0 = .ok 2 ∧ findLastNotOf [120, 97, 98] [98, 97] npos = .ok 0 := by
  decide +kernel

/-! ### C55: comparison -/

/-- `a` precedes `b` in dictionary order: `a` is a proper prefix of `b`, or at
the first difference `a` has the smaller code unit. -/
def LexLt (a b : List Ch) : Prop :=
  (∃ y t, b = a ++ y :: t) ∨ ∃ p x y s t, a = p ++ x :: s ∧ b = p ++ y :: t ∧ x < y

theorem lexLt_nil_left {b : List Ch} : LexLt [] b ↔ b ≠ [] := by
  constructor
  · rintro (⟨y, t, rfl⟩ | ⟨p, x, y, s, t, h, _, _⟩)
    · simp
    · simp at h
  · cases b with
    | nil => intro h; exact absurd rfl h
    | cons y t => intro _; exact .inl ⟨y, t, rfl⟩

theorem lexLt_nil_right {a : List Ch} : ¬ LexLt a [] := by
  rintro (⟨y, t, h⟩ | ⟨p, x, y, s, t, _, h, _⟩)
  · simp at h
  · simp at h

theorem lexLt_cons {x y : Ch} {a b : List Ch} : LexLt (x :: a) (y :: b) ↔ x < y ∨ (x = y ∧ LexLt a b) := by
  constructor
  · rintro (⟨z, t, h⟩ | ⟨p, u, v, s, t, h1, h2, h3⟩)
    · rw [List.cons_append] at h
      obtain ⟨rfl, rfl⟩ := List.cons.inj h
      exact .inr ⟨rfl, .inl ⟨z, t, rfl⟩⟩
    · cases p with
      | nil =>
        obtain ⟨rfl, _⟩ := List.cons.inj h1
        obtain ⟨rfl, _⟩ := List.cons.inj h2
        exact .inl h3
      | cons q p =>
        obtain ⟨rfl, rfl⟩ := List.cons.inj h1
        obtain ⟨rfl, rfl⟩ := List.cons.inj h2
        exact .inr ⟨rfl, .inr ⟨p, u, v, s, t, rfl, rfl, h3⟩⟩
  · rintro (h | ⟨rfl, ⟨z, t, rfl⟩ | ⟨p, u, v, s, t, rfl, rfl, h3⟩⟩)
    · exact .inr ⟨[], x, y, a, b, rfl, rfl, h⟩
    · exact .inl ⟨z, t, rfl⟩
    · exact .inr ⟨x :: p, u, v, s, t, rfl, rfl, h3⟩

/-- The sign of a comparison result says how two strings are ordered. -/
def SignOf (r : Int) (a b : List Ch) : Prop := (r < 0 ↔ LexLt a b) ∧ (r = 0 ↔ a = b) ∧ (r > 0 ↔ LexLt b a)

theorem compareN_spec : ∀ (a b a' b' : List Ch),
    ∃ r, compareN (a ++ a') (b ++ b') a.length b.length = .ok r ∧ SignOf r a b
  | [], [], a', b' => ⟨0, by
      unfold compareN; simp [traitsCompare, pure, Except.pure, Bind.bind, Except.bind], by simp [SignOf, lexLt_nil_right]⟩
  | [], y :: b, a', b' => ⟨-1, by
      unfold compareN; simp [traitsCompare, pure, Except.pure, Bind.bind, Except.bind],
      by simp [SignOf, lexLt_nil_left, lexLt_nil_right]⟩
  | x :: a, [], a', b' => ⟨1, by
      unfold compareN; simp [traitsCompare, pure, Except.pure, Bind.bind, Except.bind],
      by simp [SignOf, lexLt_nil_left, lexLt_nil_right]⟩
  | x :: a, y :: b, a', b' => by
    obtain ⟨r, h1, h2, h3, h4⟩ := compareN_spec a b a' b'
    rcases Nat.lt_trichotomy x y with h | h | h
    · refine ⟨-1, ?_, ?_⟩
      · unfold compareN
        simp [traitsCompare, Nat.add_min_add_right, h, pure, Except.pure, Bind.bind, Except.bind]
      · have h' : ¬ y < x := Nat.lt_asymm h
        have h'' : x ≠ y := Nat.ne_of_lt h
        simp [SignOf, lexLt_cons, h, h', h'', h''.symm]
    · subst h
      refine ⟨r, ?_, ?_⟩
      · unfold compareN at h1 ⊢
        simp only [List.cons_append, List.length_cons, Nat.add_min_add_right, traitsCompare, Nat.lt_irrefl, if_false]
        simpa [Nat.add_lt_add_iff_right] using h1
      · simp [SignOf, lexLt_cons, h2, h3, h4]
    · refine ⟨1, ?_, ?_⟩
      · have h' : ¬ x < y := Nat.lt_asymm h
        unfold compareN
        simp [traitsCompare, Nat.add_min_add_right, h, h', pure, Except.pure, Bind.bind, Except.bind]
      · have h' : ¬ x < y := Nat.lt_asymm h
        have h'' : x ≠ y := Nat.ne_of_gt h
        simp [SignOf, lexLt_cons, h, h', h'', h''.symm]

/-- C55. The sign of `compare(str)` is the dictionary order. -/
theorem compare_lexicographic (a b : List Ch) : ∃ r, compare a b = .ok r ∧ SignOf r a b := by
  have h := compareN_spec a b [] []
  simpa [compare] using h

/-- C55. `compare(pos1, n1, s, n2)` compares the slice that `substr(pos1, n1)`
would give, and throws `out_of_range` iff `pos1 > size()`. -/
theorem compareSub_lexicographic (a b : List Ch) (pos1 n1 : Nat) :
    (pos1 ≤ a.length → ∃ r, compareSub a pos1 n1 b = .ok r ∧ SignOf r ((a.drop pos1).take n1) b) ∧
    (pos1 > a.length → compareSub a pos1 n1 b = .error (.throw "out_of_range")) := by
  unfold compareSub
  refine ⟨fun h => ?_, fun h => if_neg (by omega)⟩
  rw [if_pos h]
  have := compareN_spec ((a.drop pos1).take n1) b ((a.drop pos1).drop n1) []
  rw [List.take_append_drop, List.append_nil, List.length_take, List.length_drop] at this
  exact this

/-- C55. `compare(pos1, n1, str, pos2, n2)` compares the two slices. -/
theorem compareSub2_lexicographic (a b : List Ch) (pos1 n1 pos2 n2 : Nat) :
    (pos1 ≤ a.length → pos2 ≤ b.length → ∃ r, compareSub2 a pos1 n1 b pos2 n2 = .ok r ∧
      SignOf r ((a.drop pos1).take n1) ((b.drop pos2).take n2)) ∧
    (pos1 > a.length ∨ pos2 > b.length → compareSub2 a pos1 n1 b pos2 n2 = .error (.throw "out_of_range")) := by
  unfold compareSub2
  have hmin : (b.drop pos2).take (min n2 (b.length - pos2)) = (b.drop pos2).take n2 := by
    rw [List.take_eq_take_iff, List.length_drop]; omega
  refine ⟨fun h1 h2 => ?_, fun h => ?_⟩
  · rw [if_pos h2, hmin]
    exact (compareSub_lexicographic a _ pos1 n1).1 h1
  · split_ifs with h2
    · exact (compareSub_lexicographic a _ pos1 n1).2 (by omega)
    · rfl

/-- C55. `compare(const value_type*)` compares with what precedes the NUL. -/
theorem compareCStr_lexicographic (a b rest : List Ch) (h0 : 0 ∉ b) :
    ∃ r, compareCStr a (b ++ 0 :: rest) = .ok r ∧ SignOf r a b := by
  unfold compareCStr
  rw [strlen_spec b rest 0 (fun c hc h => h0 (h ▸ hc)) rfl, ok_bind, Nat.zero_add]
  have := compareN_spec a b [] (0 :: rest)
  simpa using this

/-- C55. The comparison operators and `<=>` are those of the dictionary order. -/
theorem operators_lexicographic (a b : List Ch) :
    (∃ e, opEq a b = .ok e ∧ (e = true ↔ a = b)) ∧ (∃ e, opNe a b = .ok e ∧ (e = true ↔ a ≠ b)) ∧
    (∃ e, opLt a b = .ok e ∧ (e = true ↔ LexLt a b)) ∧ (∃ e, opGt a b = .ok e ∧ (e = true ↔ LexLt b a)) ∧
    (∃ e, opLe a b = .ok e ∧ (e = true ↔ ¬ LexLt b a)) ∧ (∃ e, opGe a b = .ok e ∧ (e = true ↔ ¬ LexLt a b)) ∧
    (∃ o, opCmp a b = .ok o ∧ (o = .lt ↔ LexLt a b) ∧ (o = .eq ↔ a = b) ∧ (o = .gt ↔ LexLt b a)) := by
  obtain ⟨r, h1, h2, h3, h4⟩ := compare_lexicographic a b
  obtain ⟨q, g1, g2, g3, g4⟩ := compare_lexicographic b a
  have heq : ∃ e, opEq a b = .ok e ∧ (e = true ↔ a = b) := by
    unfold opEq
    split_ifs with hl
    · rw [h1, ok_bind]
      exact ⟨_, rfl, by simpa using h3⟩
    · exact ⟨false, rfl, by simp; rintro rfl; exact hl rfl⟩
  have hlt : ∃ e, opLt a b = .ok e ∧ (e = true ↔ LexLt a b) := by
    unfold opLt; rw [h1, ok_bind]; exact ⟨_, rfl, by simpa using h2⟩
  have hgt : ∃ e, opLt b a = .ok e ∧ (e = true ↔ LexLt b a) := by
    unfold opLt; rw [g1, ok_bind]; exact ⟨_, rfl, by simpa using g2⟩
  refine ⟨heq, ?_, hlt, hgt, ?_, ?_, ?_⟩
  · obtain ⟨e, he1, he2⟩ := heq
    unfold opNe; rw [he1, ok_bind]
    exact ⟨_, rfl, by rw [ne_eq, ← he2]; simp⟩
  · obtain ⟨e, he1, he2⟩ := hgt
    unfold opLe; rw [he1, ok_bind]
    exact ⟨_, rfl, by rw [← he2]; simp⟩
  · obtain ⟨e, he1, he2⟩ := hlt
    unfold opGe; rw [he1, ok_bind]
    exact ⟨_, rfl, by rw [← he2]; simp⟩
  · unfold opCmp; rw [h1, ok_bind]
    refine ⟨_, rfl, ?_⟩
    rw [← h2, ← h3, ← h4]
    split_ifs with c1 c2 <;> simp <;> omega

/-- C55. Comparison with a `std::string` agrees with comparison with an equal
`basic_string`. -/
theorem std_operators_agree (a b : List Ch) :
    stdLt a b = opLt a b ∧ stdGt a b = opGt a b ∧ stdEq a b = opEq a b := by
  obtain ⟨r, h1, h2, h3, h4⟩ := compare_lexicographic a b
  obtain ⟨q, g1, g2, g3, g4⟩ := compare_lexicographic b a
  have hs : stdCompare a b = .ok r := by
    unfold stdCompare compareSub
    rw [if_pos (Nat.zero_le _)]
    simpa [compare] using h1
  refine ⟨?_, ?_, ?_⟩
  · unfold stdLt opLt; rw [hs, h1]
  · unfold stdGt opGt opLt; rw [hs, g1, ok_bind, ok_bind]
    congr 1
    rw [decide_eq_decide, h4, g2]
  · unfold stdEq opEq; rw [hs, ok_bind]
    split_ifs with hl
    · rw [h1, ok_bind]
    · congr 1
      rw [decide_eq_false_iff_not, h3]
      rintro rfl; exact hl rfl

/-- C55. The order is total: exactly one of less, equal, greater; and it is
transitive, as seen through `operator<`. -/
theorem order_total (a b : List Ch) :
    (opLt a b = .ok true ∧ opEq a b = .ok false ∧ opLt b a = .ok false) ∨
    (opLt a b = .ok false ∧ opEq a b = .ok true ∧ opLt b a = .ok false) ∨
    (opLt a b = .ok false ∧ opEq a b = .ok false ∧ opLt b a = .ok true) := by
  obtain ⟨r, h1, h2, h3, h4⟩ := compare_lexicographic a b
  obtain ⟨q, g1, g2, g3, g4⟩ := compare_lexicographic b a
  obtain ⟨⟨e, he1, he2⟩, _, ⟨l, hl1, hl2⟩, ⟨g, hg1, hg2⟩, _⟩ := operators_lexicographic a b
  rw [he1, hl1, show opLt b a = .ok g from hg1]
  rcases Int.lt_trichotomy r 0 with hr | hr | hr
  · left
    have hl : l = true := hl2.2 (h2.1 hr)
    have hg : g = false := by
      rw [← Bool.not_eq_true, hg2, ← h4]; omega
    have he : e = false := by
      rw [← Bool.not_eq_true, he2, ← h3]; omega
    subst hl hg he
    exact ⟨rfl, rfl, rfl⟩
  · right; left
    have hl : l = false := by rw [← Bool.not_eq_true, hl2, ← h2]; omega
    have hg : g = false := by rw [← Bool.not_eq_true, hg2, ← h4]; omega
    have he : e = true := he2.2 (h3.1 hr)
    subst hl hg he
    exact ⟨rfl, rfl, rfl⟩
  · right; right
    have hl : l = false := by rw [← Bool.not_eq_true, hl2, ← h2]; omega
    have hg : g = true := hg2.2 (h4.1 hr)
    have he : e = false := by rw [← Bool.not_eq_true, he2, ← h3]; omega
    subst hl hg he
    exact ⟨rfl, rfl, rfl⟩

theorem lexLt_trans : ∀ {a b c : List Ch}, LexLt a b → LexLt b c → LexLt a c
  | a, [], c, h, _ => absurd h lexLt_nil_right
  | a, y :: b, [], _, h => absurd h lexLt_nil_right
  | [], y :: b, z :: c, _, _ => lexLt_nil_left.2 (by simp)
  | x :: a, y :: b, z :: c, h1, h2 => by
    rw [lexLt_cons] at h1 h2 ⊢
    rcases h1 with h1 | ⟨rfl, h1⟩
    · rcases h2 with h2 | ⟨rfl, h2⟩
      · left; exact Nat.lt_trans h1 h2
      · left; exact h1
    · rcases h2 with h2 | ⟨rfl, h2⟩
      · left; exact h2
      · right; exact ⟨rfl, lexLt_trans h1 h2⟩

/-- C55. `operator<` is transitive. -/
theorem order_transitive (a b c : List Ch) (h1 : opLt a b = .ok true) (h2 : opLt b c = .ok true) :
    opLt a c = .ok true := by
  have get : ∀ x y : List Ch, opLt x y = .ok true → LexLt x y := fun x y h => by
    obtain ⟨_, _, ⟨e, he1, he2⟩, _⟩ := operators_lexicographic x y
    rw [he1] at h
    exact he2.1 (by simpa using h)
  obtain ⟨_, _, ⟨e, he1, he2⟩, _⟩ := operators_lexicographic a c
  rw [he1, he2.2 (lexLt_trans (get a b h1) (get b c h2))]

example : opLt [97] [97, 0] = .ok true ∧ opLt [97, 0] [97, 200] = .ok true ∧ opLt [97] [97, 200] = .ok true := by
  decide +kernel
/-- Code units above 127 compare as unsigned. -/
example : compare [200] [97, 98] = .ok 1 := by decide +kernel

/-! ### C59: contains -/

/-- C59. `contains(const basic_string&)` is true iff the argument occurs. -/
theorem contains_str (hay needle : List Ch) (hh : hay.length < npos) (hn : needle.length < M64) :
    ∃ e, containsStr hay needle = .ok e ∧ (e = true ↔ ∃ i, OccursAt hay needle i) := by
  obtain ⟨r, h1, h2⟩ := find_least hay needle 0 hh hn (by simp)
  unfold containsStr
  rw [h1, ok_bind]
  refine ⟨_, rfl, ?_⟩
  rcases h2 with ⟨_, hb, _⟩ | ⟨ha, hb⟩
  · have := (occursAt_iff.1 hb).1
    simp only [ne_eq, decide_not, Bool.not_eq_true', decide_eq_false_iff_not]
    exact ⟨fun _ => ⟨r, hb⟩, fun _ => by omega⟩
  · subst ha
    simp only [ne_eq, not_true_eq_false, decide_false, Bool.false_eq_true, false_iff, not_exists]
    exact fun i => hb i (Nat.zero_le _)

/-- C59. `contains(c)` is true iff some character equals `c`. -/
theorem contains_char (hay : List Ch) (c : Ch) (hh : hay.length < npos) :
    ∃ e, containsChar hay c = .ok e ∧ (e = true ↔ c ∈ hay) := by
  obtain ⟨r, h1, h2⟩ := findChar_least hay c 0 hh (by simp)
  unfold containsChar
  rw [h1, ok_bind]
  refine ⟨_, rfl, ?_⟩
  rcases h2 with ⟨_, hb, _⟩ | ⟨ha, hb⟩
  · have hlt : r < hay.length := by
      by_contra hge
      rw [List.getElem?_eq_none (by omega)] at hb; cases hb
    have hm : c ∈ hay := List.mem_of_getElem? hb
    have : r ≠ npos := by omega
    simp [this, hm]
  · subst ha
    have hm : c ∉ hay := fun h => by
      obtain ⟨i, hi⟩ := List.getElem?_of_mem h
      exact hb i (Nat.zero_le _) hi
    simp [hm]

/-- C59, partial: `contains(string_view)` is right when the view holds no NUL
and a NUL follows it in memory (a view of a whole C string or of a whole
string). Missing: every other view, see `contains_view_violated`. -/
theorem contains_view_partial (hay view rest : List Ch) (hh : hay.length < npos) (hn : view.length < M64)
    (h0 : 0 ∉ view) :
    ∃ e, containsView hay (view ++ 0 :: rest) view.length = .ok e ∧ (e = true ↔ ∃ i, OccursAt hay view i) := by
  obtain ⟨r, h1, h2⟩ := findCStr_least hay view rest 0 hh hn (by simp) h0
  unfold containsView
  rw [h1, ok_bind]
  refine ⟨_, rfl, ?_⟩
  rcases h2 with ⟨_, hb, _⟩ | ⟨ha, hb⟩
  · have := (occursAt_iff.1 hb).1
    simp only [ne_eq, decide_not, Bool.not_eq_true', decide_eq_false_iff_not]
    exact ⟨fun _ => ⟨r, hb⟩, fun _ => by omega⟩
  · subst ha
    simp only [ne_eq, not_true_eq_false, decide_false, Bool.false_eq_true, false_iff, not_exists]
    exact fun i => hb i (Nat.zero_le _)

example : ∃ e, containsView [120, 97, 98] [97, 98, 0] 2 = .ok e ∧ e = true := ⟨true, by decide +kernel, rfl⟩

/-- C59 is violated, with three witnesses: a view holding a NUL is found though
it does not occur; a view that is the beginning of a longer string is not found
though it occurs; and a view of memory without any NUL reads past it. -/
theorem contains_view_violated :
    (containsView [97, 98] [97, 0, 99, 0] 3 = .ok true ∧ ¬ ∃ i, OccursAt [97, 98] ([97, 0, 99, 0].take 3) i) ∧
    (containsView [97, 98] [97, 120, 0] 1 = .ok false ∧ ∃ i, OccursAt [97, 98] ([97, 120, 0].take 1) i) ∧
    (∃ f, containsView [97, 98] [97] 1 = .error (.ub f)) := by
  refine ⟨⟨by decide +kernel, ?_⟩, ⟨by decide +kernel, 0, [], [98], rfl, rfl⟩, "strlen: no terminator", by decide +kernel⟩
  rintro ⟨i, ho⟩
  have := (occursAt_iff.1 ho).1
  simp at this

end Verif.Str
