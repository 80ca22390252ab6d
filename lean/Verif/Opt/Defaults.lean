import Verif.Opt.OptViolations

/-!
# C128: defaults given as numbers

`default_value(x)` for an `x` that is not a string (optparse.hpp:222-226) stores the text
`std::to_string(x)`, which `parse_args` later converts to the type of the option.
-/

namespace Verif.Opt

/-- An argument of `default_value`.  A `float` or `double` that is a number is `m / 2 ^ k`. -/
inductive Num where
  | bool (b : Bool)
  | char (code : Int)
  | int (n : Int)
  | real (m : Int) (k : Nat)
  deriving Repr, DecidableEq

/-- `a / d` rounded to the nearest integer, to the even one of two. -/
def nearest (a d : Nat) : Nat :=
  if 2 * (a % d) > d ∨ (2 * (a % d) = d ∧ a / d % 2 = 1) then a / d + 1 else a / d

/-- The last six decimal digits of a number. -/
def sixDigits (n : Nat) : Text :=
  [n / 100000 % 10, n / 10000 % 10, n / 1000 % 10, n / 100 % 10, n / 10 % 10, n % 10].map (fun d => Char.ofNat (48 + d))

/-- `std::to_string` (a library function): `bool` and `char` are promoted to `int`, integers give their
numeral, floating point numbers give what `printf("%f")` does (until C++26): the value rounded to six
digits after the point, in the rounding mode to the nearest. -/
def Num.text : Num → Text
  | .bool b => numeral (if b then 1 else 0)
  | .char c => numeral c
  | .int n => numeral n
  | .real m k =>
    let u := nearest (m.natAbs * 1000000) (2 ^ k)
    (if m < 0 then ['-'] else []) ++ digits (u / 1000000) ++ '.' :: sixDigits u

/-- `default_value(T)` (optparse.hpp:222-226). -/
def Setting.default (x : Num) : Setting := .dflt x.text

theorem numeral_ne_nil (n : Int) : numeral n ≠ [] := by
  unfold numeral
  split
  · simp
  · exact digits_ne_nil _

/-- C128: an option that was given a default as a `bool`, `int` or `int64_t` and is not on the command
line has this default as its value: `get` returns the number itself. -/
theorem number_default_partial {p p' : Parser} (h : Clean p) {env : Env} {a0 : Text} {args : List Text}
    {s : Store} (hp : parseArgs env p (a0 :: args) = (.ok s, p')) {es : List Ev}
    (hr : Reads (grammar p.pre p.longPre p'.opts) args es) {o : Opt} (ho : o ∈ p'.opts)
    (hd : ∀ o' ∈ p'.opts, o'.dest = o.dest → o' = o) (ha : o.action.sets = true)
    (hn : valuesFor env o.dest (given es) = []) :
    (∀ b, o.dflt = (Num.bool b).text → o.type = .bool → s.get .bool o.dest = .ok (some (.bool b))) ∧
    (∀ n, o.dflt = (Num.int n).text → o.type = .int → -2147483648 ≤ n → n ≤ 2147483647 →
      s.get .int o.dest = .ok (some (.int n))) ∧
    (∀ n, o.dflt = (Num.int n).text → o.type = .long → -9223372036854775808 ≤ n → n ≤ 9223372036854775807 →
      s.get .long o.dest = .ok (some (.long n))) := by
  have key : ∀ v, o.dflt ≠ [] → parseValue env o.dflt o = .ok (some v) → s.get v.alt o.dest = .ok (some v) := by
    intro v hne hv
    have := default_used h hp hr ho hd ha hn hne hv v.alt
    simpa using this
  refine ⟨fun b e ht => ?_, fun n e ht h1 h2 => ?_, fun n e ht h1 h2 => ?_⟩
  · refine key (.bool b) (by rw [e]; exact numeral_ne_nil _) ?_
    have := (number_value (env := env) (o := o) (w := []) (n := if b then 1 else 0) (rest := []) (by simp) (by simp)).2.2 ht
    rw [List.nil_append, List.append_nil] at this
    rw [e]
    show parseValue env (numeral _) o = _
    rw [this]
    cases b <;> rfl
  · exact key (.int n) (by rw [e]; exact numeral_ne_nil _) (by rw [e]; exact number_round_trip_partial.1 ht h1 h2)
  · exact key (.long n) (by rw [e]; exact numeral_ne_nil _) (by rw [e]; exact number_round_trip_partial.2 ht h1 h2)

/-! ### Floating point numbers -/

/-- The number of millionths that a text with six digits after the point stands for. -/
def micro (t : Text) : Option Int :=
  let (neg, t) := match t with
    | '-' :: t => (true, t)
    | t => (false, t)
  let a := t.takeWhile (fun c => c.isDigit)
  match t.dropWhile (fun c => c.isDigit) with
  | '.' :: f =>
    if !a.isEmpty ∧ f.length = 6 ∧ f.all (fun c => c.isDigit) then
      let n : Nat := (a ++ f).foldl (fun n c => 10 * n + (c.toNat - 48)) 0
      some (if neg then -(n : Int) else (n : Int))
    else none
  | _ => none

theorem nearest_err (a d : Nat) (hd : 0 < d) : 2 * (nearest a d * d) ≤ 2 * a + d ∧ 2 * a ≤ 2 * (nearest a d * d) + d ∧
    (2 * (nearest a d * d) = 2 * a + d ∨ 2 * a = 2 * (nearest a d * d) + d → nearest a d % 2 = 0) := by
  have h := Nat.div_add_mod a d
  have hm := Nat.mod_lt a hd
  unfold nearest
  rw [Nat.mul_comm] at h
  split
  · rw [Nat.add_mul]
    omega
  · omega

theorem sixDigits_value (a : Text) (n : Nat) :
    (a ++ sixDigits n).foldl (fun n c => 10 * n + (c.toNat - 48)) 0 =
      a.foldl (fun n c => 10 * n + (c.toNat - 48)) 0 * 1000000 + n % 1000000 := by
  have hd : ∀ k, (Char.ofNat (48 + k % 10)).toNat - 48 = k % 10 := fun k => (digit_char (by omega)).2.1
  rw [List.foldl_append]
  generalize a.foldl _ 0 = z
  simp only [sixDigits, List.map_cons, List.map_nil, List.foldl_cons, List.foldl_nil, hd]
  omega

theorem sixDigits_digit (n : Nat) : ∀ c ∈ sixDigits n, c.isDigit = true := by
  intro c hc
  simp only [sixDigits, List.map_cons, List.map_nil, List.mem_cons, List.not_mem_nil, or_false] at hc
  rcases hc with rfl | rfl | rfl | rfl | rfl | rfl <;> exact (digit_char (by omega)).1

theorem micro_text (b : Bool) (u : Nat) :
    micro ((if b then ['-'] else []) ++ digits (u / 1000000) ++ '.' :: sixDigits u) = some (if b then -(u : Int) else u) := by
  have hr : ∀ c, ('.' :: sixDigits u).head? = some c → c.isDigit = false := by
    rintro c hc
    cases hc
    decide
  have ht := takeWhile_digits (n := u / 1000000) hr
  have hdrop : (digits (u / 1000000) ++ '.' :: sixDigits u).dropWhile (fun c => c.isDigit) = '.' :: sixDigits u := by
    rw [List.dropWhile_append_of_pos]
    · simp
    · intro c hc
      obtain ⟨k, hk, rfl⟩ := digits_char _ c hc
      exact (digit_char hk).1
  have hall : (sixDigits u).all (fun c => c.isDigit) = true := List.all_eq_true.2 (sixDigits_digit u)
  have hne : (digits (u / 1000000)).isEmpty = false := by
    cases hd : digits (u / 1000000) with
    | nil => exact absurd hd (digits_ne_nil _)
    | cons => rfl
  have hval : (digits (u / 1000000) ++ sixDigits u).foldl (fun n c => 10 * n + (c.toNat - 48)) 0 = u := by
    rw [sixDigits_value, digits_value]
    omega
  cases b with
  | true =>
    simp only [if_true, List.nil_append, List.cons_append, micro]
    rw [ht, hdrop]
    simp only [hne, hall, hval]
    rfl
  | false =>
    simp only [Bool.false_eq_true, if_false, List.nil_append]
    cases hd : digits (u / 1000000) with
    | nil => exact absurd hd (digits_ne_nil _)
    | cons c ds =>
      obtain ⟨k, hk, hck⟩ := digits_char (u / 1000000) c (by rw [hd]; simp)
      obtain ⟨_, _, _, _, h5, _⟩ := digit_char hk
      rw [← hck] at h5
      rw [hd, List.cons_append] at ht hdrop
      rw [hd] at hval hne
      unfold micro
      rw [List.cons_append]
      split
      rename_i neg t e
      have e' : (neg, t) = (false, c :: (ds ++ '.' :: sixDigits u)) := by
        rw [← e]
        split
        · rename_i e; simp only [List.cons.injEq] at e; exact absurd e.1 h5
        · rfl
      cases e'
      rw [ht, hdrop]
      simp only [hne, hall, hval]
      rfl

/-- C128, floating point numbers: the text kept for the default `m / 2 ^ k` stands for the nearest
multiple of a millionth; it is at most half a millionth off, and between two it is the even one. -/
theorem real_default_partial (m : Int) (k : Nat) :
    ∃ u : Int, micro (Num.real m k).text = some u ∧ 2 * (u * 2 ^ k) ≤ 2 * (m * 1000000) + 2 ^ k ∧
      2 * (m * 1000000) ≤ 2 * (u * 2 ^ k) + 2 ^ k ∧
      (2 * (u * 2 ^ k) = 2 * (m * 1000000) + 2 ^ k ∨ 2 * (m * 1000000) = 2 * (u * 2 ^ k) + 2 ^ k → u % 2 = 0) := by
  have hpos : 0 < 2 ^ k := Nat.two_pow_pos k
  obtain ⟨h1, h2, h3⟩ := nearest_err (m.natAbs * 1000000) (2 ^ k) hpos
  have hm := micro_text (decide (m < 0)) (nearest (m.natAbs * 1000000) (2 ^ k))
  have hd : ((2 ^ k : Nat) : Int) = 2 ^ k := by simp
  rw [← hd]
  generalize hu : nearest (m.natAbs * 1000000) (2 ^ k) = u at *
  refine ⟨if decide (m < 0) then -(u : Int) else u, ?_, ?_⟩
  · rw [← hm]
    unfold Num.text
    simp only [hu, decide_eq_true_eq]
  · generalize 2 ^ k = d at *
    by_cases hneg : m < 0
    · simp only [hneg, decide_true, if_true, Int.neg_mul]
      rw [← Int.natCast_mul]
      omega
    · simp only [hneg, decide_false, Bool.false_eq_true, if_false]
      rw [← Int.natCast_mul]
      omega

/-! ### Examples -/

/-- A parser with defaults of several types. -/
def numbered : List (List Text × List Setting) :=
  [([Sample.t "-n", Sample.t "--num"], [.action .store, .type .int, .default (.int (-30))]),
   ([Sample.t "-s", Sample.t "--size"], [.action .store, .type .long, .default (.int 9000000000)]),
   ([Sample.t "-v", Sample.t "--verbose"], [.action .storeTrue, .type .bool, .default (.bool false)])]

/-- The parser after `prog file`. -/
def numberedAfter : Parser := (parseArgs Sample.env (Bad.with_ numbered) (["prog", "file"].map Sample.t)).2

/-- The hypotheses of `number_default_partial` hold for the three options of this parser. -/
example : Clean (Bad.with_ numbered) ∧
    (∃ s, parseArgs Sample.env (Bad.with_ numbered) (["prog", "file"].map Sample.t) = (.ok s, numberedAfter)) ∧
    Reads (grammar (Bad.with_ numbered).pre (Bad.with_ numbered).longPre numberedAfter.opts) (["file"].map Sample.t) [.left (Sample.t "file")] ∧
    numberedAfter.opts.length = 5 ∧
    ∀ o ∈ numberedAfter.opts.take 3, o ∈ numberedAfter.opts ∧ (∀ o' ∈ numberedAfter.opts, o'.dest = o.dest → o' = o) ∧
      o.action.sets = true ∧ valuesFor Sample.env o.dest (given [.left (Sample.t "file")]) = [] ∧
      (o.dflt = (Num.int (-30)).text ∧ o.type = .int ∨ o.dflt = (Num.int 9000000000).text ∧ o.type = .long ∨
        o.dflt = (Num.bool false).text ∧ o.type = .bool) := by
  refine ⟨Bad.with_clean (by decide +kernel), ?_, .plain (by decide +kernel) .nil, by decide +kernel, by decide +kernel⟩
  obtain ⟨s, p', e, -⟩ := Bad.of_shows (p := Bad.with_ numbered) (argv := ["prog", "file"]) (vals := []) (left := [1]) (by decide +kernel)
  exact ⟨s, by unfold numberedAfter; rw [e]⟩

example : (Num.real (-3) 1).text = Sample.t "-1.500000" ∧ micro (Num.real (-3) 1).text = some (-1500000) := by decide +kernel

/-! ### The violations -/

/-- The claim for a default given as a `char` is false: the option has the number of the character for its value. -/
theorem char_default_violated :
    Clean (Bad.with_ [([Sample.t "--sep"], [.action .store, .type .string, .default (.char 59)])]) ∧
    ∃ s p', parseArgs Sample.env (Bad.with_ [([Sample.t "--sep"], [.action .store, .type .string, .default (.char 59)])])
        (["prog"].map Sample.t) = (.ok s, p') ∧
      s.get .str (Sample.t "sep") = .ok (some (.str (Sample.t "59"))) := by
  refine ⟨Bad.with_clean (by decide +kernel), ?_⟩
  obtain ⟨s, p', e, h, -⟩ := Bad.of_shows (p := Bad.with_ [([Sample.t "--sep"], [.action .store, .type .string, .default (.char 59)])])
    (argv := ["prog"]) (vals := [("sep", some (.str (Sample.t "59")))]) (left := []) (by decide +kernel)
  exact ⟨s, p', e, shows_of (r := some (.str (Sample.t "59"))) (h ("sep", some (.str (Sample.t "59"))) (by simp)) .str⟩

/-- The claim for floating point defaults is false: all defaults from 0 to below half a millionth are kept as the same
text, so that whatever `parse_args` makes of it, at most one of them is found again. -/
theorem real_default_violated {m : Int} {k : Nat} (h0 : 0 ≤ m) (h1 : 2 * (m.toNat * 1000000) < 2 ^ k) {env : Env} {o : Opt} :
    (Num.real m k).text = Sample.t "0.000000" ∧ parseValue env (Num.real m k).text o = parseValue env (Num.real 0 0).text o := by
  have hu : nearest (m.natAbs * 1000000) (2 ^ k) = 0 := by
    have : m.natAbs = m.toNat := by omega
    rw [this]
    unfold nearest
    rw [Nat.mod_eq_of_lt (by omega), Nat.div_eq_of_lt (by omega), if_neg (by omega)]
  have e : (Num.real m k).text = Sample.t "0.000000" := by
    unfold Num.text
    simp only [hu]
    rw [if_neg (by omega)]
    decide +kernel
  refine ⟨e, ?_⟩
  rw [e]
  have : (Num.real 0 0).text = Sample.t "0.000000" := by decide +kernel
  rw [this]

/-- 2^-21, about 4.8e-7. -/
example : (Num.real 1 21).text = Sample.t "0.000000" := (real_default_violated (by decide) (by decide) (env := Sample.env) (o := { owner := 0, names := [] })).1

end Verif.Opt
