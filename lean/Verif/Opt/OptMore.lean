import Verif.Opt.Causes
import Verif.Opt.OptProps

/-!
# Further properties of the command line parser

Undefined behaviour (C86), numbers (C87), rejected registrations (C88), prefixes (C89), copies
(C90), typed access (C91), the vector overload (C92) and messages (C93, C94).
-/

namespace Verif.Opt

/-! ## C86: undefined behaviour -/

/-- A sufficient condition, easy to check, for no option to be given a blank text. -/
def noBlanks (env : Env) (args : List Text) (opts : List Opt) : Bool :=
  opts.all fun o => !o.type.numeric ||
    ((o.type != .bool || o.action != .store) &&
      (o.type != .bool || o.action != .append) &&
      args.all (fun a => (converted o a).all (fun u => !decide (Blank u)) &&
        (!a.contains '=' || (converted o (extractValue a)).all (fun u => !decide (Blank u)))) &&
      (o.dflt.isEmpty || (converted o o.dflt).all (fun u => !decide (Blank u))) &&
      (match env.getenv (cstr o.env) with
        | none => true
        | some t => o.env.isEmpty || (converted o t).all (fun u => !decide (Blank u))))

theorem of_noBlanks {env : Env} {args : List Text} {opts : List Opt}
    (h : noBlanks env args opts = true) : ∀ o ∈ opts, o.type.numeric = true →
      ∀ u, Source env args o u → ∀ w ∈ converted o u, ¬ Blank w := by
  intro o ho ht u hs
  have := List.all_eq_true.1 h o ho
  rw [ht] at this
  simp only [Bool.not_true, Bool.false_or, Bool.and_eq_true] at this
  obtain ⟨⟨⟨⟨h1, h2⟩, h3⟩, h4⟩, h5⟩ := this
  have conv : ∀ u : Text, (converted o u).all (fun u => !decide (Blank u)) = true →
      ∀ w ∈ converted o u, ¬ Blank w := by
    intro u hu w hw
    have := List.all_eq_true.1 hu w hw
    simpa using this
  cases hs with
  | flag hb =>
    have e1 : o.action ≠ .store := by
      intro e; rw [hb, e] at h1; revert h1; decide
    have e2 : o.action ≠ .append := by
      intro e; rw [hb, e] at h2; revert h2; decide
    intro w hw
    unfold converted at hw
    cases ha : o.action <;> rw [ha] at hw <;> simp at hw
    · exact absurd ha e1
    · exact absurd ha e2
  | arg hm =>
    have := List.all_eq_true.1 h3 u hm
    simp only [Bool.and_eq_true] at this
    exact conv u this.1
  | @inline a _ hn hm =>
    have := List.all_eq_true.1 h3 _ hm
    simp only [Bool.and_eq_true] at this
    have h' := this.2
    rw [(extract_of_eq hn).2] at h'
    have hc : (a ++ '=' :: u).contains '=' = true := by simp
    rw [hc] at h'
    exact conv u (by simpa using h')
  | dflt hn =>
    refine conv _ ?_
    cases hd : o.dflt with
    | nil => exact absurd hd hn
    | cons c t => rw [hd] at h4; simpa using h4
  | environment hn hg =>
    rw [hg] at h5
    refine conv u ?_
    cases he : o.env with
    | nil => exact absurd he hn
    | cons c t => rw [he] at h5; simpa using h5

/-- If parsing reads an uninitialised value, an option with a number type was given a blank text (or
list element): by the command line, its default or its environment variable, or because it is a
`Bool` option without a value whose action is not a flag's. -/
theorem blank_read {p : Parser} (h : Reach p) {env : Env} {a0 : Text} {args : List Text}
    (he : (parseArgs env p (a0 :: args)).1 = .error (.ub "uninitialised value read")) :
    ∃ o ∈ (parseArgs env p (a0 :: args)).2.opts, o.type.numeric = true ∧
      ∃ u, Source env args o u ∧ ∃ w ∈ converted o u, Blank w := by
  rcases parse_cases (env := env) (reach_good h) a0 args with
    ⟨f, q, e, hf⟩ | ⟨q, es, h1, h2, _, h4, h5⟩
  · rw [e] at he
    simp only [Except.error.injEq] at he
    subst he
    rcases hf with hf | ⟨hf, _⟩ | ⟨hf, _⟩ <;> simp at hf
  · rcases h5 with ⟨f, hf, e⟩ | ⟨s, _, e⟩
    · rw [e] at he ⊢
      simp only [Except.error.injEq] at he
      subst he
      rcases fullStore_error_at hf with h | ⟨l1, x, l2, s1, e1, _, hx⟩ |
        ⟨s0, l1, x, l2, s1, _, e1, _, _, hx⟩
      · simp at h
      · have hm : x ∈ given es := by rw [e1]; simp
        obtain ⟨b1, b2⟩ := processOpt_blank hx
        exact ⟨x.1, given_opts h4 hm, b1, x.2, reads_source h4 x hm, b2⟩
      · have hm : x ∈ defaultsOf q.opts ++ environmentOf env q.opts := by rw [e1]; simp
        obtain ⟨b1, b2⟩ := processOpt_blank hx
        exact ⟨x.1, fallback_opts hm, b1, x.2, fallback_source hm, b2⟩
    · rw [e] at he; cases he

/-- Counting neither overflows nor meets a value of another type, if the destination of a `Count`
option only belongs to `Count` options and there are fewer than 2^31 - 1 things to count. -/
theorem counting_safe {p : Parser} (h : Reach p) {env : Env} {a0 : Text} {args : List Text}
    (hc : ∀ o ∈ (parseArgs env p (a0 :: args)).2.opts, o.action = .count →
      ∀ o' ∈ (parseArgs env p (a0 :: args)).2.opts, o'.dest = o.dest → o'.action = .count)
    (hs : args.length + 2 * (parseArgs env p (a0 :: args)).2.opts.length < 2147483647) :
    (parseArgs env p (a0 :: args)).1 ≠ .error (.ub "signed overflow") ∧
    (parseArgs env p (a0 :: args)).1 ≠ .error (.throw "bad_variant_access") := by
  have key : ∀ f, (parseArgs env p (a0 :: args)).1 = .error f →
      ¬ (f = .ub "signed overflow" ∨ f = .throw "bad_variant_access") := by
    intro f he hbad
    rcases parse_cases (env := env) (reach_good h) a0 args with
      ⟨f', q, e, hf⟩ | ⟨q, es, h1, h2, _, h4, h5⟩
    · rw [e] at he
      simp only [Except.error.injEq] at he
      subst he
      rcases hf with rfl | ⟨rfl, _⟩ | ⟨rfl, _⟩ <;> simp at hbad
    · rcases h5 with ⟨f', hf, e⟩ | ⟨s, _, e⟩
      · rw [e] at he hc hs
        simp only [Except.error.injEq] at he
        subst he
        simp only at hc hs
        have hgl := reads_given_length h4
        have hfl := fallback_length env q.opts
        rcases fullStore_error_at hf with h | ⟨l1, x, l2, s1, e1, hg, hx⟩ |
          ⟨s0, l1, x, l2, s1, hg, e1, hu, husr, hx⟩
        · subst h; simp at hbad
        · have hmem : ∀ y ∈ l1 ++ x :: l2, y.1 ∈ q.opts := by
            intro y hy; rw [← e1] at hy; exact given_opts h4 hy
          obtain ⟨ha, hv⟩ := processOpt_count_error hx hbad
          have hall := hc x.1 (hmem x (by simp)) ha
          obtain ⟨c1, _, _⟩ := giveSeq_count (d := x.1.dest) (n := 0) hg (by
            intro y hy
            obtain ⟨m1, m2⟩ := about_mem hy
            exact hall y.1 (hmem y (by simp [m1])) m2) rfl
          rcases hv with ⟨_, hv⟩ | ⟨_, v, hv, hne⟩
          · rw [c1] at hv
            have := counted_max hv
            have h6 := about_length x.1.dest l1
            have h7 := congrArg List.length e1
            simp only [List.length_append, List.length_cons] at h7
            omega
          · rw [c1] at hv
            exact hne (counted_int hv)
        · have hmem : ∀ y ∈ l1 ++ x :: l2, y.1 ∈ q.opts := by
            intro y hy; rw [← e1] at hy; exact fallback_opts hy
          obtain ⟨ha, hv⟩ := processOpt_count_error hx hbad
          have hall := hc x.1 (hmem x (by simp)) ha
          obtain ⟨c1, c2, _⟩ := giveSeq_count (d := x.1.dest) (n := 0) hg (by
            intro y hy
            obtain ⟨m1, m2⟩ := about_mem hy
            exact hall y.1 (given_opts h4 m1) m2) rfl
          obtain ⟨d1, _⟩ := giveUnset_count (d := x.1.dest) hu (by
            intro y hy
            obtain ⟨m1, m2⟩ := about_mem hy
            exact hall y.1 (hmem y (by simp [m1])) m2) (by rw [c2]; rfl) c1
          rcases hv with ⟨_, hv⟩ | ⟨_, v, hv, hne⟩
          · rw [d1] at hv
            have := counted_max hv
            have h6 := about_length x.1.dest l1
            have h8 := about_length x.1.dest (given es)
            have h7 := congrArg List.length e1
            simp only [List.length_append, List.length_cons] at h7
            simp only [List.length_append] at hfl
            omega
          · rw [d1] at hv
            exact hne (counted_int hv)
      · rw [e] at he; cases he
  exact ⟨fun he => key _ he (.inl rfl), fun he => key _ he (.inr rfl)⟩

/-- Parsing has no undefined behaviour if the options belong to the parser and have names, no option
of a number type is given a blank text, and counters are neither shared nor overflow. -/
theorem parse_no_ub_partial {p : Parser} (h : Reach p) {env : Env} {a0 : Text} {args : List Text}
    (own : ∀ o ∈ p.opts, o.owner = p.id) (named : ∀ o ∈ p.opts, o.names ≠ [])
    (hb : ∀ o ∈ (parseArgs env p (a0 :: args)).2.opts, o.type.numeric = true →
      ∀ u, Source env args o u → ∀ w ∈ converted o u, ¬ Blank w)
    (hc : ∀ o ∈ (parseArgs env p (a0 :: args)).2.opts, o.action = .count →
      ∀ o' ∈ (parseArgs env p (a0 :: args)).2.opts, o'.dest = o.dest → o'.action = .count)
    (hs : args.length + 2 * (parseArgs env p (a0 :: args)).2.opts.length < 2147483647) :
    ∀ w, (parseArgs env p (a0 :: args)).1 ≠ .error (.ub w) := by
  intro w he
  obtain ⟨c1, c2⟩ := counting_safe h hc hs
  rcases parse_ends h env (a0 :: args) with ⟨s, e⟩ | ⟨f, e, hf⟩
  · rw [e] at he; cases he
  · rw [e] at he
    simp only [Except.error.injEq] at he
    subst he
    generalize hw : Fault.ub w = f at hf e
    cases hf with
    | noProgram => cases hw
    | incomplete => cases hw
    | needsValue => cases hw
    | noNames hn =>
      obtain ⟨o, ho, hn⟩ := hn
      exact named o ho hn
    | destroyed hn =>
      obtain ⟨o, ho, hn⟩ := hn
      exact hn (own o ho)
    | given hg =>
      cases hg with
      | blank =>
        obtain ⟨o, ho, ht, u, hu, w', hw', hbl⟩ := blank_read h e
        exact hb o ho ht u hu w' hw' hbl
      | overflow => exact c1 e
      | variant => cases hw
      | help => cases hw
      | version => cases hw

example : Reach Sample.parser ∧ (∀ o ∈ Sample.parser.opts, o.owner = Sample.parser.id) ∧
    (∀ o ∈ Sample.parser.opts, o.names ≠ []) ∧
    noBlanks Sample.env Sample.argv.tail Sample.result.2.opts = true ∧
    (∀ o ∈ Sample.result.2.opts, o.action = .count →
      ∀ o' ∈ Sample.result.2.opts, o'.dest = o.dest → o'.action = .count) ∧
    Sample.argv.tail.length + 2 * Sample.result.2.opts.length < 2147483647 :=
  ⟨Sample.parser_clean.reach, by decide +kernel, by decide +kernel, by decide +kernel,
    by decide +kernel, by decide +kernel⟩

/-! ## C87: numbers -/

/-- The decimal digits of a number. -/
def digits (n : Nat) : Text :=
  if n < 10 then [Char.ofNat (48 + n)] else digits (n / 10) ++ [Char.ofNat (48 + n % 10)]

/-- The numeral of an integer. -/
def numeral (n : Int) : Text := if n < 0 then '-' :: digits n.natAbs else digits n.natAbs

/-- The nearest number in a range. -/
def clamp (lo hi n : Int) : Int := if n < lo then lo else if hi < n then hi else n

theorem digit_char {k : Nat} (h : k < 10) :
    (Char.ofNat (48 + k)).isDigit = true ∧ (Char.ofNat (48 + k)).toNat - 48 = k ∧
      (Char.ofNat (48 + k)) ≠ '\x00' ∧ ws (Char.ofNat (48 + k)) = false ∧
      (Char.ofNat (48 + k)) ≠ '-' ∧ (Char.ofNat (48 + k)) ≠ '+' := by
  have : k = 0 ∨ k = 1 ∨ k = 2 ∨ k = 3 ∨ k = 4 ∨ k = 5 ∨ k = 6 ∨ k = 7 ∨ k = 8 ∨ k = 9 := by omega
  rcases this with rfl | rfl | rfl | rfl | rfl | rfl | rfl | rfl | rfl | rfl <;> decide

theorem digits_char (n : Nat) : ∀ c ∈ digits n, ∃ k, k < 10 ∧ c = Char.ofNat (48 + k) := by
  induction n using Nat.strongRecOn with
  | _ n ih =>
    intro c hc
    unfold digits at hc
    split at hc
    · rename_i h
      simp only [List.mem_singleton] at hc
      exact ⟨n, h, hc⟩
    · rename_i h
      rcases List.mem_append.1 hc with hc | hc
      · exact ih (n / 10) (by omega) c hc
      · simp only [List.mem_singleton] at hc
        exact ⟨n % 10, by omega, hc⟩

theorem digits_value (n : Nat) :
    (digits n).foldl (fun n c => 10 * n + (c.toNat - 48)) 0 = n := by
  induction n using Nat.strongRecOn with
  | _ n ih =>
    unfold digits
    split
    · rename_i h
      simp only [List.foldl_cons, List.foldl_nil]
      rw [(digit_char h).2.1]; omega
    · rename_i h
      rw [List.foldl_append, ih (n / 10) (by omega)]
      simp only [List.foldl_cons, List.foldl_nil]
      rw [(digit_char (by omega)).2.1]
      omega

theorem digits_ne_nil (n : Nat) : digits n ≠ [] := by
  unfold digits; split <;> simp

theorem takeWhile_digits {n : Nat} {rest : Text} (hr : ∀ c, rest.head? = some c → c.isDigit = false) :
    (digits n ++ rest).takeWhile (fun c => c.isDigit) = digits n := by
  rw [List.takeWhile_append_of_pos]
  · cases rest with
    | nil => simp
    | cons c t =>
      have := hr c rfl
      simp [this]
  · intro c hc
    obtain ⟨k, hk, rfl⟩ := digits_char n c hc
    exact (digit_char hk).1

theorem decimal_numeral {n : Int} {rest : Text}
    (hr : ∀ c, rest.head? = some c → c.isDigit = false) : decimal (numeral n ++ rest) = some n := by
  unfold numeral
  split
  · rename_i h
    unfold decimal
    simp only [List.cons_append]
    rw [takeWhile_digits hr]
    have : (digits n.natAbs).isEmpty = false := by
      cases hd : digits n.natAbs with
      | nil => exact absurd hd (digits_ne_nil _)
      | cons => rfl
    rw [this]
    simp only [Bool.false_eq_true, if_false, if_true, Option.some.injEq]
    rw [digits_value]; omega
  · rename_i h
    have hne := digits_ne_nil n.natAbs
    cases hd : digits n.natAbs with
    | nil => exact absurd hd hne
    | cons c ds =>
      obtain ⟨k, hk, hck⟩ := digits_char n.natAbs c (by rw [hd]; simp)
      obtain ⟨_, _, _, _, h5, h6⟩ := digit_char hk
      rw [← hck] at h5 h6
      have ht := takeWhile_digits (n := n.natAbs) hr
      rw [hd] at ht
      unfold decimal
      rw [List.cons_append] at ht ⊢
      split
      rename_i neg t e
      have e' : (neg, t) = (false, c :: (ds ++ rest)) := by
        rw [← e]
        split
        · rename_i e; simp only [List.cons.injEq] at e; exact absurd e.1 h5
        · rename_i e; simp only [List.cons.injEq] at e; exact absurd e.1 h6
        · rfl
      cases e'
      rw [ht]
      simp only [List.isEmpty_cons, Bool.false_eq_true, if_false, Option.some.injEq]
      rw [← hd, digits_value]; omega

/-- What is left of `white space, numeral, rest` when the conversion starts. -/
theorem toConvert_numeral {w : Text} {n : Int} {rest : Text} (hw : ∀ c ∈ w, ws c = true) :
    toConvert (w ++ numeral n ++ rest) = .ok (numeral n ++ cstr rest) := by
  have hchar : ∀ c ∈ numeral n, c ≠ '\x00' := by
    intro c hc
    unfold numeral at hc
    split at hc
    · rcases List.mem_cons.1 hc with rfl | hc
      · decide
      · obtain ⟨k, hk, rfl⟩ := digits_char _ c hc
        exact (digit_char hk).2.2.1
    · obtain ⟨k, hk, rfl⟩ := digits_char _ c hc
      exact (digit_char hk).2.2.1
  have hws0 : ∀ c ∈ w, c ≠ '\x00' := by
    rintro c hc rfl
    exact absurd (hw _ hc) (by decide)
  have e1 : cstr (w ++ numeral n ++ rest) = w ++ numeral n ++ cstr rest := by
    unfold cstr
    rw [List.takeWhile_append_of_pos]
    intro c hc
    rcases List.mem_append.1 hc with hc | hc
    · simpa using hws0 c hc
    · simpa using hchar c hc
  have hhead : ∃ c t, numeral n = c :: t ∧ ws c = false := by
    unfold numeral
    split
    · exact ⟨_, _, rfl, by decide⟩
    · cases hd : digits n.natAbs with
      | nil => exact absurd hd (digits_ne_nil _)
      | cons c t =>
        obtain ⟨k, hk, e⟩ := digits_char n.natAbs c (by rw [hd]; simp)
        exact ⟨c, t, rfl, by rw [e]; exact (digit_char hk).2.2.2.1⟩
  obtain ⟨c, t, e2, hc⟩ := hhead
  unfold toConvert
  simp only
  rw [e1, List.append_assoc, List.dropWhile_append_of_pos hw, e2]
  simp [hc]

/-- An integer option stores the number its text begins with, brought into the range of the type;
white space before and anything after the numeral are ignored. -/
theorem number_value {env : Env} {o : Opt} {w : Text} {n : Int} {rest : Text}
    (hw : ∀ c ∈ w, ws c = true) (hr : ∀ c, rest.head? = some c → c.isDigit = false) :
    (o.type = .int → parseValue env (w ++ numeral n ++ rest) o =
      .ok (some (.int (clamp (-2147483648) 2147483647 n)))) ∧
    (o.type = .long → parseValue env (w ++ numeral n ++ rest) o =
      .ok (some (.long (clamp (-9223372036854775808) 9223372036854775807 n)))) ∧
    (o.type = .bool → parseValue env (w ++ numeral n ++ rest) o = .ok (some (.bool (n != 0)))) := by
  have hr' : ∀ c, (cstr rest).head? = some c → c.isDigit = false := by
    intro c hc
    cases rest with
    | nil => cases hc
    | cons d t =>
      unfold cstr at hc
      rw [List.takeWhile_cons] at hc
      split at hc
      · exact hr c (by simpa using hc)
      · cases hc
  have hd := decimal_numeral (n := n) hr'
  have ht := toConvert_numeral (n := n) (rest := rest) hw
  refine ⟨fun h => ?_, fun h => ?_, fun h => ?_⟩ <;>
    · unfold parseValue
      rw [h]
      simp only [ht]
      show Except.ok _ = Except.ok _
      unfold getInt
      rw [hd]
      first
      | rfl
      | (show (Except.ok (some (Val.bool ((if n < long_min then long_min
            else if long_max < n then long_max else n) != 0))) : Except Fault (Option Val)) =
            .ok (some (.bool (n != 0)))
         congr 3
         rw [Bool.eq_iff_iff]
         simp only [bne_iff_ne, ne_eq]
         have e1 : long_min = -9223372036854775808 := rfl
         have e2 : long_max = 9223372036854775807 := rfl
         by_cases c1 : n < long_min
         · rw [if_pos c1]; omega
         · rw [if_neg c1]
           by_cases c2 : long_max < n
           · rw [if_pos c2]; omega
           · rw [if_neg c2])

/-- Round trip: an integer in the range of the type, given as its numeral on the command line or
anywhere else, is stored unchanged.  Missing: texts that are not such numerals should be reported and
are not (`malformed_number_violated`). -/
theorem number_round_trip_partial {env : Env} {o : Opt} {n : Int} :
    (o.type = .int → -2147483648 ≤ n → n ≤ 2147483647 →
      parseValue env (numeral n) o = .ok (some (.int n))) ∧
    (o.type = .long → -9223372036854775808 ≤ n → n ≤ 9223372036854775807 →
      parseValue env (numeral n) o = .ok (some (.long n))) := by
  obtain ⟨h1, h2, _⟩ := number_value (env := env) (o := o) (w := []) (n := n) (rest := [])
    (by simp) (by simp)
  simp only [List.nil_append, List.append_nil] at h1 h2
  refine ⟨fun ht hl hu => ?_, fun ht hl hu => ?_⟩
  · rw [h1 ht]; unfold clamp; rw [if_neg (by omega), if_neg (by omega)]
  · rw [h2 ht]; unfold clamp; rw [if_neg (by omega), if_neg (by omega)]

example : (∀ c ∈ Sample.t " \t", ws c = true) ∧
    (∀ c, (Sample.t "px").head? = some c → c.isDigit = false) ∧
    (Sample.t " \t" ++ numeral (-12) ++ Sample.t "px") = Sample.t " \t-12px" :=
  ⟨by decide +kernel, by simp [Sample.t], by decide +kernel⟩

example : numeral (-1205) = Sample.t "-1205" ∧ numeral 0 = Sample.t "0" := by decide +kernel

/-! ## C88: a rejected registration -/

/-- The action of every option is what it was; options are only added at the end. -/
def Kept (p q : Parser) : Prop :=
  ∃ l, q.opts.map Opt.action = p.opts.map Opt.action ++ l

theorem Kept.refl (p : Parser) : Kept p p := ⟨[], by simp⟩

theorem Kept.trans {p q r : Parser} (h : Kept p q) (h' : Kept q r) : Kept p r := by
  obtain ⟨l, e⟩ := h
  obtain ⟨l', e'⟩ := h'
  exact ⟨l ++ l', by rw [e', e, List.append_assoc]⟩

theorem kept_of_opts {p q : Parser} (h : q.opts = p.opts) : Kept p q := ⟨[], by simp [h]⟩

theorem addOption_opts (p : Parser) (ns : List Text) :
    (addOption p ns).2.opts = p.opts ++ [{ owner := p.id, names := ns }] := by
  unfold addOption addOpt
  rw [registerNames_same]

theorem addFlag_kept (p : Parser) (g : Good p) {c : Char} {name help : Text} (hn : name ≠ []) :
    Kept p (addFlag p c name help).2 := by
  rcases (addFlag_spec g (c := c) (help := help) hn).2.2.2.1 with h | ⟨h, _⟩
  · exact kept_of_opts h
  · exact ⟨_, by rw [h, List.map_append]⟩

theorem validateAll_actions {env : Env} {p : Parser} : ∀ (os done : List Opt),
    (validateAll env p os done).2.map Opt.action = (done ++ os).map Opt.action := by
  intro os
  induction os with
  | nil => intro done; simp [validateAll]
  | cons o os ih =>
    intro done
    unfold validateAll
    cases hv : validate env p o with
    | error f => rfl
    | ok x =>
      obtain ⟨b, o'⟩ := x
      have hn : o'.action = o.action := by rw [(validate_names hv).2.2]
      cases b with
      | true =>
        simp only
        rw [ih]
        simp [hn]
      | false =>
        simp only
        split <;> simp [hn]

theorem prepare_kept {env : Env} {p : Parser} (g : Good p) : Kept p (prepare env p).2 := by
  unfold prepare
  simp only
  have ha := validateAll_actions (env := env) (p := { p with invalid := [] }) p.opts []
  have hn := validateAll_names (env := env) (p := { p with invalid := [] }) p.opts []
  generalize validateAll env { p with invalid := [] } p.opts [] = x at ha hn
  obtain ⟨r, os⟩ := x
  simp only [List.nil_append] at ha hn
  cases r with
  | error f => exact ⟨[], by simpa using ha⟩
  | ok u =>
    cases u
    simp only
    have g' : Good { p with invalid := [], opts := os } :=
      SameReg.good (by exact ⟨rfl, rfl, rfl, rfl, hn⟩) g
    obtain ⟨q, flags, e, _, _, ho, _⟩ := flags_spec g'
    rw [e]
    exact ⟨flags.map Opt.action, by simp only; rw [ho, List.map_append]; simp only; rw [ha]⟩

theorem formatUsage_opts (p : Parser) : (formatUsage p).2.opts = p.opts := by
  unfold formatUsage
  split
  · split <;> rfl
  · rfl

theorem formatHelp_opts (p : Parser) : (formatHelp p).2.opts = p.opts := by
  have h := formatUsage_opts p
  unfold formatHelp
  split
  · rfl
  · split
    · rfl
    · split
      · rename_i e; rw [e] at h; exact h
      · rename_i e; rw [e] at h; exact h

theorem call_kept {p : Parser} (g : Good p) {c : Call} {k : Nat} (hc : ∀ i s, c = .set i s → i ≠ k) :
    (p.opts.map Opt.action)[k]? = some .null →
    ((c.run p).opts.map Opt.action)[k]? = some .null := by
  have of : ∀ {q : Parser}, Kept p q → (p.opts.map Opt.action)[k]? = some .null →
      (q.opts.map Opt.action)[k]? = some .null := by
    rintro q ⟨l, e⟩ h
    rw [e, List.getElem?_append_left (List.getElem?_eq_some_iff.1 h).1]
    exact h
  cases c with
  | add ns => exact of ⟨_, by simp only [Call.run]; rw [addOption_opts, List.map_append]⟩
  | set i s =>
    intro h
    simp only [Call.run, Parser.edit]
    rw [List.getElem?_map, List.getElem?_modify_ne _ _ (hc i s rfl), ← List.getElem?_map]
    exact h
  | program t => exact of (kept_of_opts rfl)
  | usage t => exact of (kept_of_opts rfl)
  | version t => exact of (kept_of_opts rfl)
  | addUsage m => exact of (addFlag_kept p g (by decide))
  | addHelp m => exact of (addFlag_kept p g (by decide))
  | addVersion m =>
    exact of ((kept_of_opts (q := { p with version := m }) rfl).trans
      (addFlag_kept _ (good_version m g) (by decide)))
  | formatUsage => exact of (kept_of_opts (formatUsage_opts p))
  | formatVersion =>
    refine of (kept_of_opts ?_)
    simp only [Call.run, formatVersion]
    split <;> rfl
  | formatHelp => exact of (kept_of_opts (formatHelp_opts p))
  | parse env argv =>
    refine of ?_
    cases argv with
    | nil => exact Kept.refl p
    | cons a0 args =>
      simp only [Call.run, parseArgs]
      generalize hq : ({ p with program := _, argc := _, argv := _ } : Parser) = q
      have hs : SameReg p q := by subst hq; exact ⟨rfl, rfl, rfl, rfl, rfl⟩
      have ho : q.opts = p.opts := by subst hq; rfl
      obtain ⟨inv, e⟩ := parseVec_snd (env := env) (p := q) (args := args)
      rw [e]
      exact (kept_of_opts ho).trans ((prepare_kept (hs.good g)).trans (kept_of_opts rfl))
  | copy id => exact of (kept_of_opts rfl)

/-- A parser after calls none of which sets the option at position `k`. -/
inductive Later (k : Nat) (p : Parser) : Parser → Prop where
  | same : Later k p p
  | call {q : Parser} (c : Call) : Later k p q → (∀ i s, c = .set i s → i ≠ k) →
      Later k p (c.run q)

/-- After an `add_option` call the option stays in the parser even if the call threw, and then the
caller has no reference to it: as long as nobody sets its action, whatever else is called (including
further registrations), no `parse_args` call succeeds. -/
theorem rejected_option_poisons {p : Parser} (h : Reach p) {ns : List Text} {q : Parser}
    (hq : Later p.opts.length (addOption p ns).2 q) (env : Env) (argv : List Text) (s : Store) :
    (parseArgs env q argv).1 ≠ .ok s := by
  have hg : Good q ∧ (q.opts.map Opt.action)[p.opts.length]? = some .null := by
    induction hq with
    | same =>
      refine ⟨good_add (reach_good h), ?_⟩
      rw [addOption_opts]
      simp
    | call c hl hc ih =>
      refine ⟨?_, call_kept ih.1 hc ih.2⟩
      have g := ih.1
      cases c with
      | add ns => exact good_add g
      | set i s => exact (edit_sameReg _ i _ s.app_names).good g
      | program t => exact SameReg.good (by exact ⟨rfl, rfl, rfl, rfl, rfl⟩) g
      | usage t => exact SameReg.good (by exact ⟨rfl, rfl, rfl, rfl, rfl⟩) g
      | version t => exact SameReg.good (by exact ⟨rfl, rfl, rfl, rfl, rfl⟩) g
      | addUsage m => exact (addFlag_spec g (by decide)).2.1
      | addHelp m => exact (addFlag_spec g (by decide)).2.1
      | addVersion m => exact (addFlag_spec (good_version m g) (by decide)).2.1
      | formatUsage => exact (formatUsage_same _).good g
      | formatVersion => exact (formatVersion_same _).good g
      | formatHelp => exact (formatHelp_same _).good g
      | parse env argv => exact (good_parse g).1
      | copy id => exact SameReg.good (by exact ⟨rfl, rfl, rfl, rfl, rfl⟩) g
  obtain ⟨g, hn⟩ := hg
  intro he
  cases argv with
  | nil => cases he
  | cons a0 args =>
    have e : parseArgs env q (a0 :: args) = (.ok s, (parseArgs env q (a0 :: args)).2) := by
      rw [← he]
    obtain ⟨es, h1, _⟩ := parse_ok g e
    obtain ⟨os, flags, _, hv, _⟩ := h1.opts
    rw [List.getElem?_map, Option.map_eq_some_iff] at hn
    obtain ⟨o, ho, hnull⟩ := hn
    have hall : ∀ {as bs : List Opt} {P : Parser}, List.Forall₂ (Validated P) as bs →
        ∀ a ∈ as, ∃ b, Validated P a b := by
      intro as bs P hfa
      induction hfa with
      | nil => intro a ha; cases ha
      | cons hab _ ih =>
        intro a ha
        rcases List.mem_cons.1 ha with rfl | ha
        · exact ⟨_, hab⟩
        · exact ih a ha
    obtain ⟨b, hb⟩ := hall hv o (List.mem_of_getElem? ho)
    have := hb.complete.action
    rw [hb.same] at this
    exact this hnull

example : Reach Sample.parser ∧
    (addOption Sample.parser [Sample.t "--num"]).1 = .error (.throw "Long option is already registered") ∧
    (parseArgs Sample.env (addOption Sample.parser [Sample.t "--num"]).2 Sample.argv).1 =
      .error (.throw "incomplete option") :=
  ⟨Sample.parser_clean.reach, by decide +kernel, Sample.of_failsWith (by decide +kernel)⟩

/-! ## C89: every registered name can be used -/

/-- The long prefix is the prefix character twice (all constructors except
`OptionParser(char, ConflictHandler)`). -/
def PrefixesFit (p : Parser) : Prop := p.longPre = [p.pre, p.pre]

theorem new_fits (id : Nat) (h : Handler) : PrefixesFit (.new id h) := rfl

theorem newPrefix_fits {id : Nat} {c : Char} {p : Parser} (h : Parser.newPrefix id c = .ok p) :
    PrefixesFit p := by
  unfold Parser.newPrefix at h
  split at h
  · cases h; rfl
  · cases h

/-- Every registered name, if it has no `'='` and no white space at its ends, and is not the long
prefix itself, is recognised on the command line, alone or followed by `=value`.  Partial: this
needs the long prefix to be the doubled prefix character (see `plus_prefix_long_violated`). -/
theorem names_usable_partial {p : Parser} (h : Clean p) (hp : PrefixesFit p) {o : Opt} {n : Text}
    (ho : o ∈ p.opts) (hn : n ∈ o.names) (he : '=' ∉ n) (h0 : n ≠ []) (hl : n ≠ p.longPre)
    (hw1 : ∀ c, n.head? = some c → ws c = false) (hw2 : ∀ c, n.getLast? = some c → ws c = false) :
    ∀ u, (u = [] ∨ ∃ w, u = '=' :: w) →
      (grammar p.pre p.longPre p.opts).opt (n ++ u) = true ∧
      (grammar p.pre p.longPre p.opts).look (n ++ u) = latest p.opts n ∧
      ∃ o', latest p.opts n = some o' := by
  intro u hu
  have hname : namePart (n ++ u) = n := by
    rcases hu with rfl | ⟨w, rfl⟩
    · rw [List.append_nil, ← extractName_eq, extractName_of_none he]
    · rw [← extractName_eq, (extract_of_eq he).1]
  have hstrip : stripped n = n := by
    rw [← trimString_eq_stripped]; exact trimString_eq_self hw1 hw2
  have hhead : n.head? = some p.pre := by
    have hk := (clean_tables h).valid o ho n hn
    rw [valid_iff (reach_good h.reach)] at hk
    rcases hk with ⟨⟨r, e⟩, _⟩ | hk
    · rw [← e, hp]; rfl
    · cases n with
      | nil => exact absurd rfl h0
      | cons c t => simp at hk; simp [hk]
  refine ⟨?_, ?_, ?_⟩
  · simp only [grammar]
    rw [List.head?_append, hhead]; simp
  · simp only [grammar]
    rw [hname, hstrip, if_neg hl]
  · obtain ⟨i, hi⟩ := exists_latest ⟨o, ho, hn⟩
    obtain ⟨⟨o', ho', _⟩, _⟩ := id hi
    exact ⟨o', latest_iff.2 ⟨i, hi, ho'⟩⟩

example : Clean Sample.parser ∧ PrefixesFit Sample.parser ∧
    ∃ o ∈ Sample.parser.opts, Sample.t "--num" ∈ o.names :=
  ⟨Sample.parser_clean, by unfold PrefixesFit; decide +kernel, by decide +kernel⟩

/-! ## C91: typed access -/

/-- The alternative a type's values have. -/
def Typ.alt : Typ → Alt
  | .bool => .bool
  | .int => .int
  | .long => .long
  | .float => .float
  | .double => .double
  | .choice | .string => .str

/-- The option only stores values of the alternative. -/
def Yields (o : Opt) (T : Alt) : Prop :=
  match o.action with
  | .store | .append => o.type.alt = T
  | .storeTrue | .storeFalse => o.type = .bool ∧ T = .bool
  | .count => T = .int
  | _ => True

instance (o : Opt) (T : Alt) : Decidable (Yields o T) := by
  unfold Yields; split <;> infer_instance

theorem outcome_alt {env : Env} {o : Opt} {t : Text} {v : Val} (h : outcome env o t = some v) :
    v.alt = o.type.alt := by
  unfold outcome parseValue at h
  cases ht : o.type <;> rw [ht] at h
  all_goals
    first
    | (cases hc : toConvert t with
        | error f => simp only [hc] at h; cases h
        | ok x => simp only [hc] at h; cases h; rfl)
    | (cases h; rfl)
    | (simp only [pure, Except.pure] at h
       split at h
       · cases h; rfl
       · cases h)

theorem accepted_alt {env : Env} {o : Opt} : ∀ {ts : List Text} {v : Val},
    v ∈ accepted env o ts → v.alt = o.type.alt := by
  intro ts
  induction ts with
  | nil => intro v h; cases h
  | cons t ts ih =>
    intro v h
    unfold accepted at h
    cases ho : outcome env o t with
    | none => rw [ho] at h; cases h
    | some w =>
      rw [ho] at h
      rcases List.mem_cons.1 h with rfl | h
      · exact outcome_alt ho
      · exact ih h

/-- If all options with a destination store values of one alternative, `get` and `get_list` with
that type succeed: they neither terminate the program nor throw.  Missing: flags without
`type(Bool)`, which store texts as well (`typed_get_violated`). -/
theorem typed_get_partial {p p' : Parser} (h : Reach p) {env : Env} {argv : List Text} {s : Store}
    (hp : parseArgs env p argv = (.ok s, p')) {d : Text} {T : Alt}
    (hd : ∀ o ∈ p'.opts, o.dest = d → Yields o T) :
    (∃ r, s.get T d = .ok r) ∧ s.getListOf T d = .ok (s.getList d) := by
  cases argv with
  | nil => cases hp
  | cons a0 args =>
  obtain ⟨es, _, _, _, h4, h5, _⟩ := parse_ok (reach_good h) hp
  have hinv := fullStore_inv (d := d) (P := fun v => v.alt = T) (fun x hx => given_opts h4 hx) h5 (by
    intro o ho e
    have hy := hd o ho e
    unfold Yields at hy
    refine ⟨?_, ?_⟩
    · intro t v hv
      unfold gives at hv
      cases ha : o.action <;> rw [ha] at hv hy <;> simp only [List.not_mem_nil] at hv
      · rw [Option.mem_toList] at hv
        rw [outcome_alt hv]; exact hy
      · obtain ⟨hb, rfl⟩ := hy
        split at hv
        · simp only [List.mem_singleton] at hv; subst hv; rfl
        · rw [Option.mem_toList] at hv
          rw [outcome_alt hv, hb]; rfl
      · obtain ⟨hb, rfl⟩ := hy
        split at hv
        · simp only [List.mem_singleton] at hv; subst hv; rfl
        · rw [Option.mem_toList] at hv
          rw [outcome_alt hv, hb]; rfl
      · rw [accepted_alt hv]; exact hy
    · intro hc n
      rw [hc] at hy
      exact hy.symm)
  constructor
  · unfold Store.get
    cases hv : s.values d with
    | none => exact ⟨none, rfl⟩
    | some v => exact ⟨some v, by simp only; rw [if_pos (hinv.1 v hv)]⟩
  · unfold Store.getListOf
    cases hl : s.getList d with
    | none => rfl
    | some l =>
      simp only
      rw [if_pos]
      rw [List.all_eq_true]
      intro v hv
      simpa using hinv.2 l hl v hv

example : (∀ o ∈ Sample.result.2.opts, o.dest = Sample.t "num" → Yields o .int) ∧
    (∀ o ∈ Sample.result.2.opts, o.dest = Sample.t "quiet" → Yields o .int) ∧
    (∀ o ∈ Sample.result.2.opts, o.dest = Sample.t "list" → Yields o .str) ∧
    (∀ o ∈ Sample.result.2.opts, o.dest = Sample.t "help" → Yields o .bool) := by
  decide +kernel

/-! ## C92: the overload taking a vector -/

/-- `parse_args(vector, argv)` stays within `argv` as long as there are fewer arguments than the
`argc` of the last call of the other overload.  Partial: without such a call it does not, see
`vector_overload_violated`. -/
theorem vector_overload_partial {p : Parser} (h : Reach p) {env : Env} {args : List Text}
    (hl : args.length < p.argc) :
    (parseVec env p args).1 ≠ .error (.ub "span index out of range") ∧
    (parseVec env p args).1 ≠ .error (.ub "out of fuel") := by
  obtain ⟨h1, h2, h3, h4⟩ := prepare_spec (env := env) (reach_good h)
  unfold parseVec
  generalize prepare env p = x at h1 h2 h3 h4
  obtain ⟨r, q⟩ := x
  cases r with
  | error f =>
    have := h4 f rfl
    simp only
    constructor <;>
    · intro e
      simp only [Except.error.injEq] at e
      subst e
      rcases this with h | ⟨h, _⟩ | ⟨h, _⟩ <;> simp at h
  | ok u =>
    cases u
    have hp := h3 rfl
    have hc : args.length < q.argc := by rw [hp.rest.argc]; exact hl
    obtain ⟨es, hrd, hlp⟩ := parseLoop_spec (env := env) h1.range hc
    simp only at hlp ⊢
    rw [hlp]
    cases hf : fullStore env q.opts es with
    | ok s => constructor <;> (intro e; cases e)
    | error f =>
      have hff := fullStore_error (fun x hx => given_opts hrd hx)
          (fun o ho => (prepared_complete hp o ho).action) hf
      show (Except.error f : Except Fault Store) ≠ _ ∧ (Except.error f : Except Fault Store) ≠ _
      constructor <;>
      · intro e
        simp only [Except.error.injEq] at e
        subst e
        rcases hff with hg | ⟨h, _⟩
        · generalize hw : (Fault.ub _) = g at hg
          cases hg <;> simp at hw
        · simp at h

example : Reach Sample.result.2 ∧
    [Sample.t "--num", Sample.t "3", Sample.t "rest"].length < Sample.result.2.argc :=
  ⟨.call (.parse Sample.env Sample.argv) Sample.parser_clean.reach, by decide +kernel⟩

/-! ## C90: copies -/

set_option linter.dupNamespace false in
/-- The option without its reference to a parser. -/
def Opt.forget (o : Opt) : Opt := { o with owner := 0 }

/-- The parser without its identity. -/
def Parser.forget (p : Parser) : Parser := { p with id := 0, opts := p.opts.map Opt.forget }

theorem registerNames_forget (i : Nat) : ∀ (ns : List Text) (p : Parser),
    registerNames i ns p.forget =
      ((registerNames i ns p).1, (registerNames i ns p).2.forget) := by
  intro ns
  induction ns with
  | nil => intro p; rfl
  | cons n ns ih =>
    intro p
    unfold registerNames
    have e1 : kindOf p.forget.pre p.forget.longPre n = kindOf p.pre p.longPre n := rfl
    rw [e1]
    cases kindOf p.pre p.longPre n with
    | invalid => rfl
    | short =>
      simp only
      have e2 : (p.forget.handler = .error ∧ (p.forget.shorts n).isSome = true) ↔
        (p.handler = .error ∧ (p.shorts n).isSome = true) := Iff.rfl
      by_cases c : p.handler = .error ∧ (p.shorts n).isSome = true
      · rw [if_pos (e2.2 c), if_pos c]
      · rw [if_neg (fun h => c (e2.1 h)), if_neg c]
        exact ih { p with shorts := upd p.shorts n (some i) }
    | long =>
      simp only
      have e2 : (p.forget.handler = .error ∧ (p.forget.longs n).isSome = true) ↔
        (p.handler = .error ∧ (p.longs n).isSome = true) := Iff.rfl
      by_cases c : p.handler = .error ∧ (p.longs n).isSome = true
      · rw [if_pos (e2.2 c), if_pos c]
      · rw [if_neg (fun h => c (e2.1 h)), if_neg c]
        exact ih { p with longs := upd p.longs n (some i) }

theorem addOption_forget (p : Parser) (ns : List Text) :
    addOption p.forget ns = ((addOption p ns).1, (addOption p ns).2.forget) := by
  unfold addOption addOpt
  simp only
  rw [← registerNames_forget]
  simp [Parser.forget, Opt.forget]

theorem edit_forget (p : Parser) (i : Nat) (f : Opt → Opt)
    (hf : ∀ o, f o.forget = (f o).forget) : p.forget.edit i f = (p.edit i f).forget := by
  unfold Parser.edit Parser.forget
  simp only [Parser.mk.injEq, true_and, and_true]
  apply List.ext_getElem?
  intro j
  simp only [List.getElem?_map, List.getElem?_modify]
  cases p.opts[j]? with
  | none => rfl
  | some o =>
    simp only [Option.map_some, Option.map_eq_map]
    split <;> simp [hf]

theorem addFlag_forget (p : Parser) (c : Char) (name help : Text) :
    addFlag p.forget c name help =
      ((addFlag p c name help).1, (addFlag p c name help).2.forget) := by
  unfold addFlag
  simp only
  have e1 : ((p.forget.shorts [p.forget.pre, c]).isNone = true ∧
      (p.forget.longs (p.forget.longPre ++ name)).isNone = true) ↔
      ((p.shorts [p.pre, c]).isNone = true ∧ (p.longs (p.longPre ++ name)).isNone = true) := Iff.rfl
  by_cases h : (p.shorts [p.pre, c]).isNone = true ∧ (p.longs (p.longPre ++ name)).isNone = true
  · rw [if_pos (e1.2 h), if_pos h]
    have e2 : addOption p.forget [[p.forget.pre, c], p.forget.longPre ++ name] =
      ((addOption p [[p.pre, c], p.longPre ++ name]).1,
        (addOption p [[p.pre, c], p.longPre ++ name]).2.forget) := addOption_forget p _
    rw [e2]
    generalize addOption p [[p.pre, c], p.longPre ++ name] = x
    obtain ⟨r, q⟩ := x
    cases r with
    | error f => rfl
    | ok u =>
      cases u
      simp only
      rw [← edit_forget _ _ _ (by intro o; rfl)]
      simp [Parser.forget]
  · rw [if_neg (fun h' => h (e1.1 h')), if_neg h]

theorem addFlags_forget (p : Parser) :
    addFlags p.forget = ((addFlags p).1, (addFlags p).2.forget) := by
  unfold addFlags addUsage
  have e1 := addFlag_forget p 'u' "usage".toList
    (if ([] : Text).isEmpty then "show usage of the ".toList ++ p.program else [])
  have e0 : addFlag p.forget 'u' "usage".toList
    (if ([] : Text).isEmpty then "show usage of the ".toList ++ p.forget.program else []) = _ := e1
  rw [e0]
  generalize addFlag p 'u' "usage".toList
    (if ([] : Text).isEmpty then "show usage of the ".toList ++ p.program else []) = x
  obtain ⟨r, q⟩ := x
  cases r with
  | error f => rfl
  | ok u =>
    cases u
    simp only
    unfold addHelp
    have e2 : addFlag q.forget 'h' "help".toList
      (if ([] : Text).isEmpty then "show the help of the ".toList ++ q.forget.program else []) = _ :=
      addFlag_forget q 'h' "help".toList
        (if ([] : Text).isEmpty then "show the help of the ".toList ++ q.program else [])
    rw [e2]
    generalize addFlag q 'h' "help".toList
      (if ([] : Text).isEmpty then "show the help of the ".toList ++ q.program else []) = x
    obtain ⟨r, q⟩ := x
    cases r with
    | error f => rfl
    | ok u =>
      cases u
      simp only
      unfold addVersion
      exact addFlag_forget { q with version := [] } 'v' "version".toList
        ("show version of the ".toList ++ q.program)

theorem appendAll_forget (env : Env) (o : Opt) : ∀ (ts : List Text) (s : Store),
    appendAll env o.forget ts s = appendAll env o ts s := by
  intro ts
  induction ts with
  | nil => intro s; rfl
  | cons t ts ih =>
    intro s
    unfold appendAll
    have : parseValue env t o.forget = parseValue env t o := rfl
    rw [this]
    cases parseValue env t o with
    | error f => rfl
    | ok v =>
      cases v with
      | none => rfl
      | some v => exact ih _

theorem processOpt_forget (env : Env) (o : Opt) (s : Store) (t : Text) :
    processOpt env o.forget s t = processOpt env o s t := by
  unfold processOpt
  simp only [appendAll_forget]
  rfl

theorem following_forget (env : Env) (p : Parser) (o : Opt) : ∀ (as : List Text) (s : Store)
    (pos : Nat) (inv : List Nat), following env p.forget o.forget as s pos inv =
      following env p o as s pos inv := by
  intro as
  induction as with
  | nil => intro s pos inv; rfl
  | cons a as ih =>
    intro s pos inv
    unfold following
    by_cases h1 : startsWithChar p.pre a = true
    · rw [if_pos (show startsWithChar p.forget.pre a = true from h1), if_pos h1]
    · rw [if_neg (show ¬ startsWithChar p.forget.pre a = true from h1), if_neg h1]
      by_cases h2 : o.action ≠ .append
      · rw [if_pos (show o.forget.action ≠ .append from h2), if_pos h2]
        have : argvAt p.forget (pos + 1) = argvAt p (pos + 1) := rfl
        rw [this]
        cases argvAt p (pos + 1) with
        | error f => rfl
        | ok i => exact ih _ _ _
      · rw [if_neg (show ¬ o.forget.action ≠ .append from h2), if_neg h2]
        rw [processOpt_forget]
        cases processOpt env o s a with
        | error f => rfl
        | ok i => exact ih _ _ _

theorem handleOpt_forget (env : Env) (p : Parser) (r : Run) :
    handleOpt env p.forget r = handleOpt env p r := by
  unfold handleOpt
  split
  · rfl
  · rename_i front args _
    simp only
    have : findOpt p.forget (trimString (extractName front)) =
      findOpt p (trimString (extractName front)) := rfl
    rw [this]
    cases findOpt p (trimString (extractName front)) with
    | none => rfl
    | some i =>
      have e : p.forget.opts[i]? = p.opts[i]?.map Opt.forget := by simp [Parser.forget]
      simp only [e]
      cases p.opts[i]? with
      | none => rfl
      | some o =>
        simp only [Option.map_some, following_forget, processOpt_forget]
        rfl

theorem argLoop_forget (env : Env) (p : Parser) : ∀ (n : Nat) (r : Run),
    argLoop env p.forget n r = argLoop env p n r := by
  intro n
  induction n with
  | zero => intro r; rfl
  | succ n ih =>
    intro r
    unfold argLoop
    simp only [handleOpt_forget, ih]
    rfl

theorem applyDefaults_forget (env : Env) : ∀ (os : List Opt) (s : Store),
    applyDefaults env (os.map Opt.forget) s = applyDefaults env os s := by
  intro os
  induction os with
  | nil => intro s; rfl
  | cons o os ih =>
    intro s
    simp only [List.map_cons, applyDefaults, ih, processOpt_forget]
    rfl

theorem applyEnv_forget (env : Env) : ∀ (os : List Opt) (s : Store),
    applyEnv env (os.map Opt.forget) s = applyEnv env os s := by
  intro os
  induction os with
  | nil => intro s; rfl
  | cons o os ih =>
    intro s
    simp only [List.map_cons, applyEnv, ih, processOpt_forget]
    rfl

theorem parseLoop_forget (env : Env) (p : Parser) (args : List Text) :
    parseLoop env p.forget args = parseLoop env p args := by
  unfold parseLoop
  rw [argLoop_forget]
  congr 1
  funext r
  have : p.forget.opts = p.opts.map Opt.forget := rfl
  rw [this, applyDefaults_forget]
  congr 1
  funext s
  rw [applyEnv_forget]

theorem validateAll_copy {env : Env} {p q : Parser} : ∀ (os done : List Opt),
    (∀ o ∈ os, validate env q o = validate env p o) →
    validateAll env q os done = validateAll env p os done := by
  intro os
  induction os with
  | nil => intro done _; rfl
  | cons o os ih =>
    intro done ho
    unfold validateAll
    rw [ho o (by simp)]
    cases validate env p o with
    | error f => rfl
    | ok x =>
      obtain ⟨b, o'⟩ := x
      cases b with
      | true => exact ih _ (fun o h => ho o (by simp [h]))
      | false => rfl

theorem prefixesOf_copy {env : Env} {q q' : Parser} (hp : q'.pre = q.pre)
    (hl : q'.longPre = q.longPre) (alive : env.peer q.id = some (q.pre, q.longPre)) :
    prefixesOf env q' q.id = prefixesOf env q q.id := by
  unfold prefixesOf
  rw [if_pos rfl]
  split
  · rw [hp, hl]
  · rw [alive]

theorem validate_copy {env : Env} {q q' : Parser} (hp : q'.pre = q.pre)
    (hl : q'.longPre = q.longPre) (alive : env.peer q.id = some (q.pre, q.longPre)) {o : Opt}
    (ho : o.owner = q.id) : validate env q' o = validate env q o := by
  unfold validate
  rw [ho, prefixesOf_copy hp hl alive]

theorem prepare_eq (env : Env) (p : Parser) : prepare env p =
    (match validateAll env { p with invalid := [] } p.opts [] with
      | (.error f, os) => (.error f, { p with invalid := [], opts := os })
      | (.ok (), os) => addFlags { p with invalid := [], opts := os }) := rfl

theorem validate_copy_dest {env : Env} {q q' : Parser} {o : Opt} (h : o.dest ≠ []) :
    validate env q' o = validate env q o := by
  unfold validate
  have : ¬ (o.dest.isEmpty ∧ !o.names.isEmpty) := fun hc => h (List.isEmpty_iff.1 hc.1)
  rw [if_neg this, if_neg this]

/-- A copy of a parser parses every command line as the original does, as long as the original
exists or if every option has been given its destination. -/
theorem copy_parses_partial {p : Parser} {env : Env} (id : Nat)
    (own : ∀ o ∈ p.opts, o.owner = p.id)
    (alive : env.peer p.id = some (p.pre, p.longPre) ∨ ∀ o ∈ p.opts, o.dest ≠ [])
    (argv : List Text) :
    (parseArgs env (p.copyTo id) argv).1 = (parseArgs env p argv).1 ∧
    invalidArgs (parseArgs env (p.copyTo id) argv).2 = invalidArgs (parseArgs env p argv).2 := by
  cases argv with
  | nil => exact ⟨rfl, rfl⟩
  | cons a0 args =>
  simp only [parseArgs]
  generalize hq : ({ p with program := _, argc := _, argv := _ } : Parser) = q
  have hq' : ({ p.copyTo id with
      program := if (p.copyTo id).program.isEmpty then a0 else (p.copyTo id).program
      argc := (a0 :: args).length, argv := some (a0 :: args) } : Parser) = q.copyTo id := by
    subst hq; rfl
  rw [hq']
  have own' : ∀ o ∈ q.opts, o.owner = q.id := by subst hq; exact own
  have alive' : env.peer q.id = some (q.pre, q.longPre) ∨ ∀ o ∈ q.opts, o.dest ≠ [] := by
    subst hq; exact alive
  clear hq hq' own alive
  have hval : validateAll env { q.copyTo id with invalid := [] } (q.copyTo id).opts [] =
      validateAll env { q with invalid := [] } q.opts [] :=
    validateAll_copy (p := { q with invalid := [] }) (q := { q.copyTo id with invalid := [] }) _ _
      (fun o ho => by
        rcases alive' with alive' | hd
        · exact validate_copy (q := { q with invalid := [] })
            (q' := { q.copyTo id with invalid := [] }) rfl rfl alive' (own' o ho)
        · exact validate_copy_dest (hd o ho))
  have hprep : (prepare env (q.copyTo id)).1 = (prepare env q).1 ∧
      (prepare env (q.copyTo id)).2.forget = (prepare env q).2.forget := by
    rw [prepare_eq, prepare_eq, hval]
    generalize validateAll env { q with invalid := [] } q.opts [] = x
    obtain ⟨r, os⟩ := x
    cases r with
    | error f => exact ⟨rfl, rfl⟩
    | ok u =>
      cases u
      simp only
      have e1 := addFlags_forget { q with invalid := [], opts := os }
      have e2 := addFlags_forget { q.copyTo id with invalid := [], opts := os }
      have e3 : ({ q.copyTo id with invalid := [], opts := os } : Parser).forget =
        ({ q with invalid := [], opts := os } : Parser).forget := rfl
      rw [e3, e1] at e2
      simp only [Prod.mk.injEq] at e2
      exact ⟨e2.1.symm, e2.2.symm⟩
  unfold parseVec
  generalize prepare env (q.copyTo id) = x at hprep
  generalize prepare env q = y at hprep
  obtain ⟨r1, q1⟩ := x
  obtain ⟨r2, q2⟩ := y
  obtain ⟨e1, e2⟩ := hprep
  simp only at e1 e2
  subst e1
  have hinv : q1.invalid = q2.invalid := by
    have := congrArg Parser.invalid e2
    exact this
  cases r1 with
  | error f => exact ⟨rfl, hinv⟩
  | ok u =>
    cases u
    simp only
    rw [← parseLoop_forget env q1, e2, parseLoop_forget]
    cases parseLoop env q2 args with
    | error f => exact ⟨rfl, hinv⟩
    | ok r => exact ⟨rfl, rfl⟩

example : (∀ o ∈ Sample.parser.opts, o.owner = Sample.parser.id) ∧
    ({ Sample.env with peer := fun _ => some ('-', Sample.t "--") } : Env).peer Sample.parser.id =
      some (Sample.parser.pre, Sample.parser.longPre) := by decide +kernel

/-- A copy of a parser that parses: once the original has been destroyed, parsing with the copy is
undefined exactly if an option was registered without `dest()`, whatever the command line. -/
theorem copy_outlives_everywhere_violated {p : Parser} {env : Env} {id : Nat}
    (own : ∀ o ∈ p.opts, o.owner = p.id) (hid : id ≠ p.id) (gone : env.peer p.id = none)
    {argv : List Text} {s : Store} (hok : (parseArgs env p argv).1 = .ok s) :
    ((∃ o ∈ p.opts, o.dest = []) →
      (parseArgs env (p.copyTo id) argv).1 = .error (.ub "destroyed parser read")) ∧
    ((¬ ∃ o ∈ p.opts, o.dest = []) → (parseArgs env (p.copyTo id) argv).1 = .ok s) := by
  refine ⟨fun hex => ?_, fun hex => ?_⟩
  · cases argv with
    | nil => simp [parseArgs] at hok
    | cons a0 args =>
    simp only [parseArgs] at hok ⊢
    generalize hq : ({ p with program := _, argc := _, argv := _ } : Parser) = q at hok
    have hq' : ({ p.copyTo id with
        program := if (p.copyTo id).program.isEmpty then a0 else (p.copyTo id).program
        argc := (a0 :: args).length, argv := some (a0 :: args) } : Parser) = q.copyTo id := by
      subst hq; rfl
    rw [hq']
    have own' : ∀ o ∈ q.opts, o.owner = q.id := by subst hq; exact own
    have gone' : env.peer q.id = none := by subst hq; exact gone
    have hid' : id ≠ q.id := by subst hq; exact hid
    have hex' : ∃ o ∈ q.opts, o.dest = [] := by subst hq; exact hex
    clear hq hq' own gone hid hex
    have key : ∀ (os done : List Opt) (x : List Opt), (∀ o ∈ os, o.owner = q.id) →
        (∃ o ∈ os, o.dest = []) →
        validateAll env { q with invalid := [] } os done = (.ok (), x) →
        (validateAll env { q.copyTo id with invalid := [] } os done).1 =
          .error (.ub "destroyed parser read") := by
      intro os
      induction os with
      | nil => intro _ _ _ h; simp at h
      | cons o os ih =>
        intro done x ho hx hv
        unfold validateAll at hv ⊢
        by_cases hd : o.dest = []
        · by_cases hn : o.names = []
          · exfalso
            have : validate env { q with invalid := [] } o = .ok (false, o) := by
              unfold validate
              simp [hd, hn]
              rfl
            rw [this] at hv
            simp [hn] at hv
          · have : validate env { q.copyTo id with invalid := [] } o =
                .error (.ub "destroyed parser read") := by
              unfold validate
              rw [if_pos (by simp [hd, hn]), ho o (by simp)]
              have : prefixesOf env { q.copyTo id with invalid := [] } q.id =
                  .error (.ub "destroyed parser read") := by
                unfold prefixesOf
                rw [if_neg (fun e => hid' e.symm), gone']
              rw [this]
              rfl
            rw [this]
        · rw [validate_copy_dest (q := { q with invalid := [] }) hd]
          cases hval : validate env { q with invalid := [] } o with
          | error f => rw [hval] at hv; simp at hv
          | ok y =>
            obtain ⟨b, o'⟩ := y
            rw [hval] at hv
            cases b with
            | true =>
              refine ih _ x (fun o h => ho o (by simp [h])) ?_ hv
              obtain ⟨o1, h1, h2⟩ := hx
              rcases List.mem_cons.1 h1 with e | h1
              · exact absurd (e ▸ h2) hd
              · exact ⟨o1, h1, h2⟩
            | false => simp only at hv; split at hv <;> simp at hv
    unfold parseVec at hok ⊢
    rw [prepare_eq] at hok ⊢
    cases hv : validateAll env { q with invalid := [] } q.opts [] with
    | mk r x =>
      cases r with
      | error f => rw [hv] at hok; simp at hok
      | ok u =>
        have hk := key q.opts [] x own' hex' hv
        cases hv2 : validateAll env { q.copyTo id with invalid := [] } (q.copyTo id).opts [] with
        | mk r2 x2 =>
          have e : r2 = .error (.ub "destroyed parser read") := by
            have := congrArg Prod.fst hv2
            exact this.symm.trans hk
          subst e
          rfl
  · rw [← hok]
    exact (copy_parses_partial id own (.inr fun o ho h => hex ⟨o, ho, h⟩) argv).1

example : (∀ o ∈ Sample.parser.opts, o.owner = Sample.parser.id) ∧ 2 ≠ Sample.parser.id ∧
    Sample.env.peer Sample.parser.id = none ∧ (∃ o ∈ Sample.parser.opts, o.dest = []) := by
  decide +kernel

/-! ## C93: usage and help messages -/

/-- What the help message calls an option: its names and its type. -/
def optionLabel (o : Opt) : Text :=
  (", ".toList).intercalate o.names ++ "=<".toList ++ o.type.label ++ ">".toList

/-- The width of the first column: one more than the longest label. -/
def IsWidth (opts : List Opt) (w : Nat) : Prop :=
  (∀ o ∈ opts, (optionLabel o).length < w) ∧ ∃ o ∈ opts, (optionLabel o).length + 1 = w

/-- The line for an option. -/
def helpLine (w : Nat) (o : Opt) : Text :=
  "  ".toList ++ optionLabel o ++ List.replicate (w - (optionLabel o).length) ' ' ++ o.help ++
    "\n".toList

theorem formatNames_eq {ns : List Text} (h : ns ≠ []) :
    formatNames ns = .ok ((", ".toList).intercalate ns) := by
  cases ns with
  | nil => exact absurd rfl h
  | cons n ns =>
    have key : ∀ (ns : List Text) (n : Text),
        ns.foldl (fun msg n => msg ++ ", ".toList ++ n) n = (", ".toList).intercalate (n :: ns) := by
      intro ns
      induction ns with
      | nil => intro n; simp [List.intercalate]
      | cons m ns ih =>
        intro n
        rw [List.foldl_cons, ih]
        cases ns <;> simp [List.intercalate, List.intersperse]
    simp only [formatNames, key]

theorem helpLines_eq : ∀ {os : List Opt}, (∀ o ∈ os, o.names ≠ []) →
    helpLines os = .ok (os.map fun o => (optionLabel o, o.help)) := by
  intro os
  induction os with
  | nil => intro _; rfl
  | cons o os ih =>
    intro h
    unfold helpLines
    rw [formatNames_eq (h o (by simp)), ih (fun o ho => h o (by simp [ho]))]
    rfl

theorem foldl_max : ∀ (l : List (Text × Text)) (m : Nat),
    (m ≤ l.foldl (fun m x => if m < x.1.length then x.1.length else m) m ∧
     ∀ x ∈ l, x.1.length ≤ l.foldl (fun m x => if m < x.1.length then x.1.length else m) m) ∧
    (l.foldl (fun m x => if m < x.1.length then x.1.length else m) m = m ∨
      ∃ x ∈ l, x.1.length = l.foldl (fun m x => if m < x.1.length then x.1.length else m) m) := by
  intro l
  induction l with
  | nil => intro m; simp
  | cons y l ih =>
    intro m
    simp only [List.foldl_cons]
    obtain ⟨⟨h1, h2⟩, h3⟩ := ih (if m < y.1.length then y.1.length else m)
    refine ⟨⟨?_, ?_⟩, ?_⟩
    · refine Nat.le_trans ?_ h1
      split <;> omega
    · intro x hx
      rcases List.mem_cons.1 hx with rfl | hx
      · refine Nat.le_trans ?_ h1
        split <;> omega
      · exact h2 x hx
    · rcases h3 with h3 | ⟨x, hx, h3⟩
      · by_cases c : m < y.1.length
        · right
          refine ⟨y, by simp, ?_⟩
          rw [if_pos c] at h3 ⊢
          exact h3.symm
        · left
          rw [if_neg c] at h3 ⊢
          exact h3
      · exact .inr ⟨x, by simp [hx], h3⟩

theorem usageParts_ok : ∀ {os : List Opt}, (∀ o ∈ os, o.names ≠ []) → ∃ t, usageParts os = .ok t := by
  intro os
  induction os with
  | nil => intro _; exact ⟨[], rfl⟩
  | cons o os ih =>
    intro h
    obtain ⟨t, ht⟩ := ih (fun o ho => h o (by simp [ho]))
    unfold usageParts
    cases hn : o.names with
    | nil => exact absurd hn (h o (by simp))
    | cons n ns =>
      simp only [ht]
      by_cases c : o.type = .bool
      · exact ⟨_, by rw [ok_bind, if_pos c]; rfl⟩
      · exact ⟨_, by rw [ok_bind, if_neg c]; rfl⟩

theorem formatUsage_ok {p : Parser} (h : ∀ o ∈ p.opts, o.names ≠ []) :
    ∃ u, (formatUsage p).1 = .ok u ∧ (p.usage ≠ [] → u = p.usage) ∧
      (formatUsage p).2 = { p with usage := u } ∧ u ≠ [] := by
  unfold formatUsage
  cases hu : p.usage with
  | nil =>
    obtain ⟨t, ht⟩ := usageParts_ok h
    simp only [List.isEmpty_nil, if_true, ht]
    exact ⟨_, rfl, fun h => absurd rfl h, rfl, by simp⟩
  | cons c t =>
    simp only [List.isEmpty_cons, Bool.false_eq_true, if_false]
    exact ⟨_, rfl, fun _ => rfl, by rw [← hu], by simp⟩

/-- The help message of a parser with options, all of which have names: the usage message, then one
line per option, in the order of registration, with all help texts in one column.  Missing: parsers
without options (`help_empty_violated`) and usage messages that are up to date
(`usage_stale_violated`). -/
theorem help_message_partial {p : Parser} (h0 : p.opts ≠ []) (h : ∀ o ∈ p.opts, o.names ≠ []) :
    ∃ u w, (formatUsage p).1 = .ok u ∧ IsWidth p.opts w ∧
      (formatHelp p).1 = .ok (u ++ " \n options: \n".toList ++ p.opts.flatMap (helpLine w)) ∧
      (formatHelp p).2 = { p with usage := u } := by
  obtain ⟨u, hu, _, hp, _⟩ := formatUsage_ok h
  obtain ⟨o1, os, ho⟩ := List.exists_cons_of_ne_nil h0
  have hl : ∃ m, longest (p.opts.map fun o => (optionLabel o, o.help)) = .ok m ∧
      IsWidth p.opts (m + 1) := by
    rw [ho]
    simp only [List.map_cons, longest]
    refine ⟨_, rfl, ?_⟩
    obtain ⟨⟨h1, h2⟩, h3⟩ := foldl_max (os.map fun o => (optionLabel o, o.help))
      (optionLabel o1).length
    refine ⟨?_, ?_⟩
    · intro o hm
      rcases List.mem_cons.1 hm with rfl | hm
      · omega
      · have := h2 (optionLabel o, o.help) (List.mem_map.2 ⟨o, hm, rfl⟩)
        simp only at this
        omega
    · rcases h3 with h3 | ⟨x, hx, h3⟩
      · exact ⟨o1, by simp, by omega⟩
      · obtain ⟨o, hm, rfl⟩ := List.mem_map.1 hx
        simp only at h3
        exact ⟨o, by simp [hm], by omega⟩
  obtain ⟨m, hm, hw⟩ := hl
  have hpair : formatUsage p = (.ok u, { p with usage := u }) := by rw [← hu, ← hp]
  refine ⟨u, m + 1, hu, hw, ?_, ?_⟩
  · unfold formatHelp
    simp only [helpLines_eq h, hm, hpair]
    congr 1
    have key : ∀ (os : List Opt) (c : Text),
        (os.map fun o => (optionLabel o, o.help)).foldl (fun content x => content ++ ("  ".toList ++
          x.1 ++ List.replicate (m + 1 - x.1.length) ' ' ++ x.2 ++ "\n".toList)) c =
        c ++ os.flatMap (helpLine (m + 1)) := by
      intro os
      induction os with
      | nil => intro c; simp
      | cons o os ih =>
        intro c
        rw [List.map_cons, List.foldl_cons, ih, List.flatMap_cons]
        simp only [helpLine, List.append_assoc]
    exact key _ _
  · unfold formatHelp
    simp only [helpLines_eq h, hm, hpair]

/-- In every line, the help text starts in the same column. -/
theorem help_aligned {opts : List Opt} {w : Nat} (hw : IsWidth opts w) {o : Opt} (ho : o ∈ opts) :
    ∃ l, l.length = 2 + w ∧ helpLine w o = l ++ o.help ++ "\n".toList ∧ l.getLast? = some ' ' := by
  have := hw.1 o ho
  refine ⟨"  ".toList ++ optionLabel o ++ List.replicate (w - (optionLabel o).length) ' ', ?_, ?_, ?_⟩
  · simp; omega
  · simp [helpLine]
  · obtain ⟨k, hk⟩ : ∃ k, w - (optionLabel o).length = k + 1 := ⟨w - (optionLabel o).length - 1, by omega⟩
    rw [hk, List.replicate_succ', ← List.append_assoc, List.getLast?_concat]

theorem addFlag_nonempty {p : Parser} (g : Good p) {c : Char} {name help : Text} :
    (addFlag p c name help).2.opts ≠ [] := by
  unfold addFlag
  simp only
  split
  · have ho := addOption_opts p [[p.pre, c], p.longPre ++ name]
    generalize addOption p [[p.pre, c], p.longPre ++ name] = x at ho
    obtain ⟨r, q⟩ := x
    simp only at ho
    have hlen : 0 < q.opts.length := by rw [ho]; simp
    cases r with
    | error f => exact List.length_pos_iff.1 hlen
    | ok u =>
      cases u
      simp only [Parser.edit]
      apply List.length_pos_iff.1
      rw [List.length_modify]; exact hlen
  · rename_i hn
    intro e
    apply hn
    simp only at e
    constructor
    · cases hs : p.shorts [p.pre, c] with
      | none => rfl
      | some i => have := g.range.shorts _ _ hs; rw [e] at this; simp at this
    · cases hs : p.longs (p.longPre ++ name) with
      | none => rfl
      | some i => have := g.range.longs _ _ hs; rw [e] at this; simp at this

theorem addFlags_nonempty {p : Parser} (g : Good p) : (addFlags p).2.opts ≠ [] := by
  have h1 := addFlag_spec g (c := 'u') (name := "usage".toList)
    (help := if ([] : Text).isEmpty then "show usage of the ".toList ++ p.program else []) (by decide)
  unfold addFlags addUsage
  generalize addFlag p 'u' "usage".toList
    (if ([] : Text).isEmpty then "show usage of the ".toList ++ p.program else []) = x at h1
  obtain ⟨r, q⟩ := x
  obtain ⟨e, g1, _⟩ := h1
  simp only at e g1
  subst e
  simp only
  have h2 := addFlag_spec g1 (c := 'h') (name := "help".toList)
    (help := if ([] : Text).isEmpty then "show the help of the ".toList ++ q.program else []) (by decide)
  unfold addHelp
  generalize addFlag q 'h' "help".toList
    (if ([] : Text).isEmpty then "show the help of the ".toList ++ q.program else []) = x at h2
  obtain ⟨r, q'⟩ := x
  obtain ⟨e, g2, _⟩ := h2
  simp only at e g2
  subst e
  simp only
  exact addFlag_nonempty (good_version [] g2)

/-- After a successful `parse_args`, the help and usage messages can be printed. -/
theorem help_after_parse {p p' : Parser} (h : Reach p) {env : Env} {argv : List Text} {s : Store}
    (hp : parseArgs env p argv = (.ok s, p')) :
    (∃ t, (formatHelp p').1 = .ok t) ∧ ∃ t, (formatUsage p').1 = .ok t := by
  cases argv with
  | nil => cases hp
  | cons a0 args =>
  obtain ⟨es, h1, _⟩ := parse_ok (reach_good h) hp
  have hn : ∀ o ∈ p'.opts, o.names ≠ [] := fun o ho => (prepared_complete h1 o ho).names
  have h0 : p'.opts ≠ [] := by
    have e : (parseArgs env p (a0 :: args)).2 = p' := by rw [hp]
    simp only [parseArgs] at e hp
    generalize hq : ({ p with program := _, argc := _, argv := _ } : Parser) = q at e hp
    have hs : SameReg p q := by subst hq; exact ⟨rfl, rfl, rfl, rfl, rfl⟩
    obtain ⟨inv, e'⟩ := parseVec_snd (env := env) (p := q) (args := args)
    rw [← e, e']
    show (prepare env q).2.opts ≠ []
    have hok : (prepare env q).1 = .ok () := by
      unfold parseVec at hp
      generalize prepare env q = x at hp
      obtain ⟨r, q'⟩ := x
      cases r with
      | error f => cases hp
      | ok u => rfl
    have hn' := validateAll_names (env := env) (p := { q with invalid := [] }) q.opts []
    unfold prepare at hok ⊢
    simp only at hok ⊢
    generalize validateAll env { q with invalid := [] } q.opts [] = x at hok hn'
    obtain ⟨r, os⟩ := x
    cases r with
    | error f => cases hok
    | ok u =>
      cases u
      exact addFlags_nonempty
        (SameReg.good (by exact ⟨rfl, rfl, rfl, rfl, by simpa using hn'⟩) (hs.good (reach_good h)))
  obtain ⟨u, w, hu, _, hh, _⟩ := help_message_partial h0 hn
  exact ⟨⟨_, hh⟩, ⟨u, hu⟩⟩

/-- Printing the messages again gives the same texts. -/
theorem help_again {p p' : Parser} {t : Text} (h0 : ∀ o ∈ p.opts, o.names ≠ [])
    (h : formatHelp p = (.ok t, p')) : formatHelp p' = (.ok t, p') := by
  have hne : p.opts ≠ [] := by
    intro e
    unfold formatHelp at h
    rw [e] at h
    cases h
  obtain ⟨u, w, hu, hw, hh, hp⟩ := help_message_partial hne h0
  rw [h] at hh hp
  simp only at hh hp
  have hune : u ≠ [] := by
    obtain ⟨u', e1, _, _, e2⟩ := formatUsage_ok h0
    rw [e1] at hu; cases hu; exact e2
  obtain ⟨u2, w2, hu2, hw2, hh2, hp2⟩ := help_message_partial (p := p') (by rw [hp]; exact hne)
    (by rw [hp]; exact h0)
  have e3 : u2 = u := by
    obtain ⟨u', e1, e2, _⟩ := formatUsage_ok (p := p') (by rw [hp]; exact h0)
    rw [e1] at hu2; cases hu2
    have : p'.usage = u := by rw [hp]
    rw [← this]
    exact e2 (by rw [this]; exact hune)
  have e4 : w2 = w := by
    have eo : p'.opts = p.opts := by rw [hp]
    rw [eo] at hw2
    obtain ⟨a1, o1, a2, a3⟩ := hw
    obtain ⟨b1, o2, b2, b3⟩ := hw2
    have := a1 o2 b2
    have := b1 o1 a2
    omega
  subst e3 e4
  have eo : p'.opts = p.opts := by rw [hp]
  rw [eo] at hh2
  rw [← hh] at hh2
  have : (formatHelp p').2 = p' := by rw [hp2]; simp only [hp]
  rw [← hh2]
  exact Prod.ext rfl this

example : Sample.result.2.opts ≠ [] ∧ (∀ o ∈ Sample.result.2.opts, o.names ≠ []) := by
  decide +kernel

/-! ## C94: the version message -/

theorem addOption_version (p : Parser) (ns : List Text) :
    (addOption p ns).2.version = p.version ∧ (addOption p ns).2.program = p.program := by
  unfold addOption addOpt
  rw [registerNames_same]
  exact ⟨rfl, rfl⟩

theorem addFlag_version (p : Parser) (c : Char) (name help : Text) :
    (addFlag p c name help).2.version = p.version ∧
      (addFlag p c name help).2.program = p.program := by
  unfold addFlag
  simp only
  split
  · have h := addOption_version p [[p.pre, c], p.longPre ++ name]
    generalize addOption p [[p.pre, c], p.longPre ++ name] = x at h
    obtain ⟨r, q⟩ := x
    cases r with
    | error f => exact h
    | ok u => cases u; exact h
  · exact ⟨rfl, rfl⟩

theorem addFlags_version {p : Parser} (h : (addFlags p).1 = .ok ()) :
    (addFlags p).2.version = [] ∧ (addFlags p).2.program = p.program := by
  unfold addFlags addUsage at h ⊢
  have h1 := addFlag_version p 'u' "usage".toList
    (if ([] : Text).isEmpty then "show usage of the ".toList ++ p.program else [])
  generalize addFlag p 'u' "usage".toList
    (if ([] : Text).isEmpty then "show usage of the ".toList ++ p.program else []) = x at h h1
  obtain ⟨r, q⟩ := x
  cases r with
  | error f => cases h
  | ok u =>
    cases u
    simp only at h h1 ⊢
    unfold addHelp at h ⊢
    have h2 := addFlag_version q 'h' "help".toList
      (if ([] : Text).isEmpty then "show the help of the ".toList ++ q.program else [])
    generalize addFlag q 'h' "help".toList
      (if ([] : Text).isEmpty then "show the help of the ".toList ++ q.program else []) = x at h h2
    obtain ⟨r, q'⟩ := x
    cases r with
    | error f => cases h
    | ok u =>
      cases u
      simp only at h h2 ⊢
      unfold addVersion
      have h3 := addFlag_version { q' with version := [] } 'v' "version".toList
        ("show version of the ".toList ++ q'.program)
      exact ⟨h3.1, h3.2.trans (h2.2.trans h1.2)⟩

/-- The version message is the version set by the program; `<program> : 0.0.0` if none was set. -/
theorem version_message_partial (p : Parser) :
    (p.version ≠ [] → (formatVersion p).1 = p.version) ∧
    (p.version = [] → (formatVersion p).1 = p.program ++ " : 0.0.0".toList) ∧
    formatVersion (formatVersion p).2 = formatVersion p := by
  unfold formatVersion
  cases hv : p.version with
  | nil => simp
  | cons c t => simp [hv]

/-- A successful `parse_args` forgets the version: afterwards the message is always
`<program> : 0.0.0`, with the program name set before or else `argv[0]`. -/
theorem version_forgotten {p p' : Parser} {env : Env} {a0 : Text} {args : List Text} {s : Store}
    (hp : parseArgs env p (a0 :: args) = (.ok s, p')) :
    (formatVersion p').1 = (if p.program = [] then a0 else p.program) ++ " : 0.0.0".toList := by
  simp only [parseArgs] at hp
  generalize hq : ({ p with program := _, argc := _, argv := _ } : Parser) = q at hp
  have hpr : q.program = if p.program = [] then a0 else p.program := by
    subst hq
    cases h : p.program <;> simp
  obtain ⟨inv, e'⟩ := parseVec_snd (env := env) (p := q) (args := args)
  rw [hp] at e'
  simp only at e'
  have hok : (prepare env q).1 = .ok () := by
    unfold parseVec at hp
    generalize prepare env q = x at hp
    obtain ⟨r, q'⟩ := x
    cases r with
    | error f => cases hp
    | ok u => rfl
  have hv : (prepare env q).2.version = [] ∧ (prepare env q).2.program = q.program := by
    rw [prepare_eq] at hok ⊢
    generalize validateAll env { q with invalid := [] } q.opts [] = x at hok
    obtain ⟨r, os⟩ := x
    cases r with
    | error f => cases hok
    | ok u =>
      cases u
      exact addFlags_version hok
  have h1 := (version_message_partial p').2.1 (by rw [e']; exact hv.1)
  rw [h1, e']
  show (prepare env q).2.program ++ _ = _
  rw [hv.2, hpr]

example : Sample.okWith (parseArgs Sample.env { Sample.parser with version := Sample.t "2.1" }
    Sample.argv) (fun _ p => decide ((formatVersion p).1 = Sample.t "prog : 0.0.0")) = true := by
  decide +kernel

end Verif.Opt
