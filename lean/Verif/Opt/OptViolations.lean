import Verif.Opt.OptMore

/-!
# Command lines on which the parser does not do what its interface promises

Each theorem gives a parser built through the API and a command line.
-/

namespace Verif.Opt

namespace Bad

open Sample (t env run calls okWith failsWith of_okWith of_failsWith)

/-- A parser with the default prefix and some options. -/
def with_ (l : List (List Text × List Setting)) : Parser := run (.new 1) (calls 0 l)

theorem with_clean {l : List (List Text × List Setting)}
    (h : Sample.allOk (.new 1) (calls 0 l) = true) : Clean (with_ l) :=
  Sample.run_clean (.made (.plain 1 .error)) h

/-- What `parse_args` shows: the values for some destinations and the arguments left over. -/
def shows (p : Parser) (argv : List String) (vals : List (String × Option Val)) (left : List Nat) :
    Bool :=
  okWith (parseArgs env p (argv.map t)) fun s p =>
    vals.all (fun x => decide (s.values (t x.1) = x.2)) && decide (invalidArgs p = left)

theorem of_shows {p : Parser} {argv : List String} {vals : List (String × Option Val)}
    {left : List Nat} (h : shows p argv vals left = true) :
    ∃ s p', parseArgs env p (argv.map t) = (.ok s, p') ∧
      (∀ x ∈ vals, s.values (t x.1) = x.2) ∧ invalidArgs p' = left := by
  obtain ⟨s, p', e, h⟩ := of_okWith h
  rw [Bool.and_eq_true] at h
  refine ⟨s, p', e, ?_, of_decide_eq_true h.2⟩
  intro x hx
  exact of_decide_eq_true (List.all_eq_true.1 h.1 x hx)

/-! ## C70 -/

/-- `--name=` with an empty value takes up the next argument, although that is an option. -/
theorem empty_value_swallows_violated :
    ∃ p, Clean p ∧ ∃ s p', parseArgs env p (["prog", "--name=", "--quiet"].map t) = (.ok s, p') ∧
      s.values (t "name") = some (.str (t "--quiet")) ∧ s.values (t "quiet") = none := by
  refine ⟨with_ [([t "--name"], [.action .store, .type .string]),
    ([t "--quiet"], [.action .storeTrue, .type .bool])], with_clean (by decide +kernel), ?_⟩
  obtain ⟨s, p', e, h, _⟩ := of_shows (p := with_ [([t "--name"], [.action .store, .type .string]),
    ([t "--quiet"], [.action .storeTrue, .type .bool])]) (argv := ["prog", "--name=", "--quiet"])
    (vals := [("name", some (.str (t "--quiet"))), ("quiet", none)]) (left := [])
    (by decide +kernel)
  exact ⟨s, p', e, h ("name", _) (by simp), h ("quiet", _) (by simp)⟩

/-! ## C66: flags -/

/-- A flag followed by an argument that is not an option takes that argument for its value: the flag
is stored as false and the argument is not among those left over. -/
theorem flag_takes_argument_violated :
    ∃ p, Clean p ∧ ∃ s p', parseArgs env p (["prog", "--verbose", "input.txt"].map t) = (.ok s, p') ∧
      s.values (t "verbose") = some (.bool false) ∧ invalidArgs p' = [] := by
  refine ⟨with_ [([t "--verbose"], [.action .storeTrue, .type .bool])],
    with_clean (by decide +kernel), ?_⟩
  obtain ⟨s, p', e, h, hl⟩ := of_shows (p := with_ [([t "--verbose"],
    [.action .storeTrue, .type .bool])]) (argv := ["prog", "--verbose", "input.txt"])
    (vals := [("verbose", some (.bool false))]) (left := []) (by decide +kernel)
  exact ⟨s, p', e, h ("verbose", _) (by simp), hl⟩

/-- `--flag=true` stores false: only numbers are read as truth values. -/
theorem flag_true_violated :
    ∃ p, Clean p ∧ ∃ s p', parseArgs env p (["prog", "--verbose=true"].map t) = (.ok s, p') ∧
      s.values (t "verbose") = some (.bool false) := by
  refine ⟨with_ [([t "--verbose"], [.action .storeTrue, .type .bool])],
    with_clean (by decide +kernel), ?_⟩
  obtain ⟨s, p', e, h, _⟩ := of_shows (p := with_ [([t "--verbose"],
    [.action .storeTrue, .type .bool])]) (argv := ["prog", "--verbose=true"])
    (vals := [("verbose", some (.bool false))]) (left := []) (by decide +kernel)
  exact ⟨s, p', e, h ("verbose", _) (by simp)⟩

/-! ## C67: defaults -/

/-- The default of a `Count` option is not a value: it counts as one occurrence, on top of those on
the command line. -/
theorem count_default_violated :
    ∃ p, Clean p ∧
      (∃ s p', parseArgs env p (["prog"].map t) = (.ok s, p') ∧
        s.values (t "level") = some (.int 1)) ∧
      ∃ s p', parseArgs env p (["prog", "-l", "-l"].map t) = (.ok s, p') ∧
        s.values (t "level") = some (.int 3) := by
  refine ⟨with_ [([t "-l", t "--level"], [.action .count, .type .bool, .dflt (t "5")])],
    with_clean (by decide +kernel), ?_, ?_⟩
  · obtain ⟨s, p', e, h, _⟩ := of_shows (p := with_ [([t "-l", t "--level"],
      [.action .count, .type .bool, .dflt (t "5")])]) (argv := ["prog"])
      (vals := [("level", some (.int 1))]) (left := []) (by decide +kernel)
    exact ⟨s, p', e, h ("level", _) (by simp)⟩
  · obtain ⟨s, p', e, h, _⟩ := of_shows (p := with_ [([t "-l", t "--level"],
      [.action .count, .type .bool, .dflt (t "5")])]) (argv := ["prog", "-l", "-l"])
      (vals := [("level", some (.int 3))]) (left := []) (by decide +kernel)
    exact ⟨s, p', e, h ("level", _) (by simp)⟩

/-! ## C64: the arguments left over -/

/-- An option given without its value at the end of the command line as `--num=` is left over and
otherwise ignored, while `--num` makes `parse_args` throw. -/
theorem missing_value_inconsistent :
    ∃ p, Clean p ∧
      (∃ s p', parseArgs env p (["prog", "--num="].map t) = (.ok s, p') ∧
        s.values (t "num") = none ∧ invalidArgs p' = [1]) ∧
      (parseArgs env p (["prog", "--num"].map t)).1 =
        .error (.throw "option is not Bool, so requires an value-argument") := by
  refine ⟨with_ [([t "--num"], [.action .store, .type .int])], with_clean (by decide +kernel), ?_,
    of_failsWith (by decide +kernel)⟩
  obtain ⟨s, p', e, h, hl⟩ := of_shows (p := with_ [([t "--num"], [.action .store, .type .int])])
    (argv := ["prog", "--num="]) (vals := [("num", none)]) (left := [1]) (by decide +kernel)
  exact ⟨s, p', e, h ("num", _) (by simp), hl⟩

/-! ## C86: undefined behaviour -/

/-- A blank value for a number is undefined behaviour: an uninitialised variable is read. -/
theorem blank_value_violated :
    ∃ p, Clean p ∧
      (parseArgs env p (["prog", "--num", ""].map t)).1 = .error (.ub "uninitialised value read") ∧
      (parseArgs env p (["prog", "--list=1, ,2"].map t)).1 =
        .error (.ub "uninitialised value read") ∧
      (parseArgs env p (["prog", "--flag"].map t)).1 = .error (.ub "uninitialised value read") := by
  refine ⟨with_ [([t "--num"], [.action .store, .type .int]),
    ([t "--list"], [.action .append, .type .int]), ([t "--flag"], [.action .store, .type .bool])],
    with_clean (by decide +kernel), of_failsWith (by decide +kernel),
    of_failsWith (by decide +kernel), of_failsWith (by decide +kernel)⟩

/-- An option without names is undefined behaviour. -/
theorem no_names_violated :
    ∃ p, Clean p ∧ (parseArgs env p (["prog"].map t)).1 = .error (.ub "front of an empty vector") :=
  ⟨with_ [([], [.action .store])], with_clean (by decide +kernel), of_failsWith (by decide +kernel)⟩

/-- A counter that shares its destination with a stored number can overflow; with a stored text, it
throws `bad_variant_access`. -/
theorem shared_counter_violated :
    ∃ p, Clean p ∧
      (parseArgs env p (["prog", "--num=2147483647", "--more"].map t)).1 =
        .error (.ub "signed overflow") ∧
      (parseArgs env p (["prog", "--name=x", "--more"].map t)).1 =
        .error (.throw "bad_variant_access") := by
  refine ⟨with_ [([t "--num"], [.action .store, .type .int, .dest (t "n")]),
    ([t "--name"], [.action .store, .type .string, .dest (t "n")]),
    ([t "--more"], [.action .count, .type .bool, .dest (t "n")])],
    with_clean (by decide +kernel), of_failsWith (by decide +kernel),
    of_failsWith (by decide +kernel)⟩

/-! ## C87: numbers -/

/-- A text that is not a number is stored as 0, one that is too large as the largest number: neither
is reported, and the text is not among the arguments left over. -/
theorem malformed_number_violated :
    ∃ p, Clean p ∧
      (∃ s p', parseArgs env p (["prog", "--num=abc"].map t) = (.ok s, p') ∧
        s.values (t "num") = some (.int 0) ∧ invalidArgs p' = []) ∧
      (∃ s p', parseArgs env p (["prog", "--num=99999999999"].map t) = (.ok s, p') ∧
        s.values (t "num") = some (.int 2147483647) ∧ invalidArgs p' = []) ∧
      ∃ s p', parseArgs env p (["prog", "--num=12px"].map t) = (.ok s, p') ∧
        s.values (t "num") = some (.int 12) ∧ invalidArgs p' = [] := by
  refine ⟨with_ [([t "--num"], [.action .store, .type .int])], with_clean (by decide +kernel),
    ?_, ?_, ?_⟩
  · obtain ⟨s, p', e, h, hl⟩ := of_shows (p := with_ [([t "--num"], [.action .store, .type .int])])
      (argv := ["prog", "--num=abc"]) (vals := [("num", some (.int 0))]) (left := [])
      (by decide +kernel)
    exact ⟨s, p', e, h ("num", _) (by simp), hl⟩
  · obtain ⟨s, p', e, h, hl⟩ := of_shows (p := with_ [([t "--num"], [.action .store, .type .int])])
      (argv := ["prog", "--num=99999999999"]) (vals := [("num", some (.int 2147483647))])
      (left := []) (by decide +kernel)
    exact ⟨s, p', e, h ("num", _) (by simp), hl⟩
  · obtain ⟨s, p', e, h, hl⟩ := of_shows (p := with_ [([t "--num"], [.action .store, .type .int])])
      (argv := ["prog", "--num=12px"]) (vals := [("num", some (.int 12))])
      (left := []) (by decide +kernel)
    exact ⟨s, p', e, h ("num", _) (by simp), hl⟩

/-- A negative number cannot be given as an argument of its own: it is taken for an option. -/
theorem negative_number_violated :
    ∃ p, Clean p ∧
      (parseArgs env p (["prog", "--num", "-5"].map t)).1 =
        .error (.throw "option is not Bool, so requires an value-argument") ∧
      ∃ s p', parseArgs env p (["prog", "--num=-5"].map t) = (.ok s, p') ∧
        s.values (t "num") = some (.int (-5)) := by
  refine ⟨with_ [([t "--num"], [.action .store, .type .int])], with_clean (by decide +kernel),
    of_failsWith (by decide +kernel), ?_⟩
  obtain ⟨s, p', e, h, _⟩ := of_shows (p := with_ [([t "--num"], [.action .store, .type .int])])
    (argv := ["prog", "--num=-5"]) (vals := [("num", some (.int (-5)))]) (left := [])
    (by decide +kernel)
  exact ⟨s, p', e, h ("num", _) (by simp)⟩

/-! ## C88: rejected registrations -/

/-- A registration that throws makes every later `parse_args` throw. -/
theorem rejected_option_violated :
    ∃ p, Clean p ∧ (∃ s, (parseArgs env p (["prog"].map t)).1 = .ok s) ∧
      (addOption p [t "--num"]).1 = .error (.throw "Long option is already registered") ∧
      (parseArgs env (addOption p [t "--num"]).2 (["prog"].map t)).1 =
        .error (.throw "incomplete option") := by
  refine ⟨with_ [([t "--num"], [.action .store, .type .int])], with_clean (by decide +kernel), ?_,
    by decide +kernel, of_failsWith (by decide +kernel)⟩
  obtain ⟨s, p', e, _⟩ := of_shows (p := with_ [([t "--num"], [.action .store, .type .int])])
    (argv := ["prog"]) (vals := []) (left := []) (by decide +kernel)
  exact ⟨s, by rw [e]⟩

/-! ## C89: prefixes -/

/-- A parser with the prefix `'+'` and a conflict handler accepts the registration of `--num` (the
long prefix stays `"--"`), but `--num` is not recognised on the command line; `++num` is registered
as a short name. -/
theorem plus_prefix_long_violated :
    ∃ p, Clean p ∧ p.pre = '+' ∧ (∃ o ∈ p.opts, t "--num" ∈ o.names) ∧
      ∃ s p', parseArgs env p (["prog", "--num=3"].map t) = (.ok s, p') ∧
        s.values (t "num") = none ∧ invalidArgs p' = [1] := by
  refine ⟨run (.newPrefixHandler 1 '+' .error)
      (calls 0 [([t "--num"], [.action .store, .type .int])]),
    Sample.run_clean (.made (.both 1 '+' .error)) (by decide +kernel), by decide +kernel,
    by decide +kernel, ?_⟩
  obtain ⟨s, p', e, h, hl⟩ := of_shows (p := run (.newPrefixHandler 1 '+' .error)
      (calls 0 [([t "--num"], [.action .store, .type .int])]))
    (argv := ["prog", "--num=3"]) (vals := [("num", none)]) (left := [1]) (by decide +kernel)
  exact ⟨s, p', e, h ("num", _) (by simp), hl⟩

/-- The name `--` can be registered (as a short name) but is never found. -/
theorem double_dash_violated :
    ∃ p, Clean p ∧ (∃ o ∈ p.opts, t "--" ∈ o.names) ∧
      ∃ s p', parseArgs env p (["prog", "--"].map t) = (.ok s, p') ∧
        s.values (t "rest") = none ∧ invalidArgs p' = [1] := by
  refine ⟨with_ [([t "--"], [.action .storeTrue, .type .bool, .dest (t "rest")])],
    with_clean (by decide +kernel), by decide +kernel, ?_⟩
  obtain ⟨s, p', e, h, hl⟩ := of_shows (p := with_ [([t "--"],
    [.action .storeTrue, .type .bool, .dest (t "rest")])])
    (argv := ["prog", "--"]) (vals := [("rest", none)]) (left := [1]) (by decide +kernel)
  exact ⟨s, p', e, h ("rest", _) (by simp), hl⟩

/-- A name with `'='` in it can be registered but is never found. -/
theorem equals_in_name_violated :
    ∃ p, Clean p ∧ (∃ o ∈ p.opts, t "--a=b" ∈ o.names) ∧
      ∃ s p', parseArgs env p (["prog", "--a=b"].map t) = (.ok s, p') ∧
        s.values (t "x") = none ∧ invalidArgs p' = [1] := by
  refine ⟨with_ [([t "--a=b"], [.action .storeTrue, .type .bool, .dest (t "x")])],
    with_clean (by decide +kernel), by decide +kernel, ?_⟩
  obtain ⟨s, p', e, h, hl⟩ := of_shows (p := with_ [([t "--a=b"],
    [.action .storeTrue, .type .bool, .dest (t "x")])])
    (argv := ["prog", "--a=b"]) (vals := [("x", none)]) (left := [1]) (by decide +kernel)
  exact ⟨s, p', e, h ("x", _) (by simp), hl⟩

/-! ## C90: copies -/

/-- Parsing with a copy reads the original parser, also after it has been destroyed. -/
theorem copy_outlives_violated :
    ∃ p, Clean p ∧ (∃ s, (parseArgs env p (["prog"].map t)).1 = .ok s) ∧
      (parseArgs env (p.copyTo 2) (["prog"].map t)).1 = .error (.ub "destroyed parser read") := by
  refine ⟨with_ [([t "--num"], [.action .store, .type .int])], with_clean (by decide +kernel), ?_,
    of_failsWith (by decide +kernel)⟩
  obtain ⟨s, p', e, _⟩ := of_shows (p := with_ [([t "--num"], [.action .store, .type .int])])
    (argv := ["prog"]) (vals := []) (left := []) (by decide +kernel)
  exact ⟨s, by rw [e]⟩

/-! ## C91: typed access -/

/-- A flag registered without `type(Bool)`, given as `--flag=1`, holds a text: `get<bool>` ends the
program. -/
theorem typed_get_violated :
    ∃ p, Clean p ∧ ∃ s p', parseArgs env p (["prog", "--flag=1"].map t) = (.ok s, p') ∧
      s.get .bool (t "flag") = .error (.throw "terminate") := by
  refine ⟨with_ [([t "--flag"], [.action .storeTrue])], with_clean (by decide +kernel), ?_⟩
  obtain ⟨s, p', e, h, _⟩ := of_shows (p := with_ [([t "--flag"], [.action .storeTrue])])
    (argv := ["prog", "--flag=1"]) (vals := [("flag", some (.str (t "1")))]) (left := [])
    (by decide +kernel)
  refine ⟨s, p', e, ?_⟩
  unfold Store.get
  rw [h ("flag", some (.str (t "1"))) (by simp)]
  rfl

/-! ## C92: the overload taking a vector, and raw arguments -/

/-- `parse_args(vector, argv)` on a parser that has not parsed before indexes an empty span as soon
as an argument is left over. -/
theorem vector_overload_violated :
    ∃ p, Clean p ∧
      (parseVec env p (["file"].map t)).1 = .error (.ub "span index out of range") := by
  refine ⟨with_ [([t "--num"], [.action .store, .type .int])], with_clean (by decide +kernel),
    of_failsWith (by decide +kernel)⟩

/-- `get_raw_argv()` before `parse_args(argc, argv)` reads through a null pointer. -/
theorem raw_argv_violated : ∃ p, Clean p ∧ getRawArgv p = .error (.ub "null argv read") :=
  ⟨.new 1, .made (.plain 1 .error), rfl⟩

/-! ## C93, C94: messages -/

/-- `format_help()` on a parser without options dereferences the end iterator. -/
theorem help_empty_violated :
    ∃ p, Clean p ∧ (formatHelp p).1 = .error (.ub "end iterator dereferenced") :=
  ⟨.new 1, .made (.plain 1 .error), by decide +kernel⟩

/-- The usage message is computed once: options added later are missing from it. -/
theorem usage_stale_violated :
    ∃ p, Clean p ∧
      (formatUsage (addOption (formatUsage p).2 [t "--late"]).2).1 = (formatUsage p).1 ∧
      (formatUsage (addOption p [t "--late"]).2).1 ≠ (formatUsage p).1 :=
  ⟨with_ [([t "--num"], [.action .store, .type .int])], with_clean (by decide +kernel),
    by decide +kernel, by decide +kernel⟩

/-- A version set with `version()` is not reported any more after `parse_args`. -/
theorem version_lost_violated :
    ∃ p, Clean p ∧ (formatVersion p).1 = t "2.1" ∧
      (formatVersion (parseArgs env p (["prog"].map t)).2).1 = t "prog : 0.0.0" :=
  ⟨run (.new 1) [.version (t "2.1")], Sample.run_clean (.made (.plain 1 .error)) (by decide +kernel),
    by decide +kernel, by decide +kernel⟩

end Bad

end Verif.Opt
