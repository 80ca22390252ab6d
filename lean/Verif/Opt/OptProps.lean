import Verif.Opt.Grammar

/-!
# Properties of the command line parser (C63 to C70)

`Reach p`: the parser `p` is the result of any constructor and any sequence of calls.  `Clean p`:
moreover no `add_option` call threw.  `Reads` (Spec.lean) is the grammar of command lines over
`grammar` (Grammar.lean), which only mentions the prefixes and the registered options; `gives`,
`valuesFor`, `defaultsOf`, `environmentOf`, `firstOf` (Effects.lean) say which values options get.
-/

namespace Verif.Opt

/-! ## Concrete parsers and command lines for the examples -/

namespace Sample

/-- A text. -/
def t (s : String) : Text := s.toList

/-- An environment in which `HOME` is set. -/
def env : Env where
  flt _ := 0
  dbl _ := 0
  getenv n := if n = t "LEVEL" then some (t "7") else none
  peer _ := none

/-- A parser with five options. -/
def base : List (List Text × List Setting) :=
  [([t "-n", t "--num"], [.action .store, .type .int, .dflt (t "5")]),
   ([t "-l", t "--list"], [.action .append, .type .string]),
   ([t "-q", t "--quiet"], [.action .count, .type .bool]),
   ([t "-c", t "--color"], [.action .store, .choices [t "red", t "blue"]]),
   ([t "-e", t "--level"], [.action .store, .type .long, .env (t "LEVEL")])]

/-- The calls that register an option. -/
def calls : Nat → List (List Text × List Setting) → List Call
  | _, [] => []
  | i, (ns, ss) :: l => .add ns :: (ss.map (.set i ·)) ++ calls (i + 1) l

/-- Run calls. -/
def run (p : Parser) (cs : List Call) : Parser := cs.foldl (fun p c => c.run p) p

/-- Do all registrations succeed. -/
def allOk : Parser → List Call → Bool
  | _, [] => true
  | p, c :: cs =>
    (match c with
      | .add ns => decide ((addOption p ns).1 = .ok ())
      | _ => true) && allOk (c.run p) cs

theorem run_clean {p : Parser} (h : Clean p) : ∀ {cs : List Call}, allOk p cs = true →
    Clean (run p cs) := by
  intro cs
  induction cs generalizing p with
  | nil => intro _; exact h
  | cons c cs ih =>
    intro hk
    simp only [allOk, Bool.and_eq_true] at hk
    refine ih (p := c.run p) (.call c h ?_) hk.2
    cases c <;> first | trivial | simpa [Call.accepted] using hk.1

/-- The sample parser. -/
def parser : Parser := run (.new 1) (calls 0 base)

theorem parser_clean : Clean parser := run_clean (.made (.plain 1 .error)) (by decide +kernel)

/-- A sample command line. -/
def argv : List Text :=
  [t "prog", t "--num=12", t "file1", t "-l", t "a,b", t "c", t "--bogus", t "-q", t "--color", t "red"]

/-- The result of the sample command line. -/
def result : Except Fault Store × Parser := parseArgs env parser argv

/-- Does the parse succeed with such a result. -/
def okWith (x : Except Fault Store × Parser) (P : Store → Parser → Bool) : Bool :=
  match x with
  | (.ok s, p) => P s p
  | _ => false

theorem of_okWith {x : Except Fault Store × Parser} {P : Store → Parser → Bool}
    (h : okWith x P = true) : ∃ s p, x = (.ok s, p) ∧ P s p = true := by
  obtain ⟨r, p⟩ := x
  cases r with
  | error f => cases h
  | ok s => exact ⟨s, p, rfl, h⟩

/-- Does the parse fail with the fault. -/
def failsWith (x : Except Fault Store × Parser) (f : Fault) : Bool :=
  match x with
  | (.error g, _) => g = f
  | _ => false

theorem of_failsWith {x : Except Fault Store × Parser} {f : Fault}
    (h : failsWith x f = true) : x.1 = .error f := by
  obtain ⟨r, p⟩ := x
  cases r with
  | error g => simp [failsWith] at h; rw [h]
  | ok s => cases h

end Sample

/-! ## C63: termination, and every argument is accounted for -/

/-- The ways in which `parse_args` can end without a result. -/
inductive Ends (p : Parser) : Fault → Prop where
  | noProgram : Ends p (.throw "argc is 0")
  | incomplete : Ends p (.throw "incomplete option")
  | needsValue : Ends p (.throw "option is not Bool, so requires an value-argument")
  | noNames : (∃ o ∈ p.opts, o.names = []) → Ends p (.ub "front of an empty vector")
  | destroyed : (∃ o ∈ p.opts, o.owner ≠ p.id) → Ends p (.ub "destroyed parser read")
  | given {f : Fault} : GiveFault f → Ends p f

/-- `parse_args` always ends, for every reachable parser, environment and argument vector: with a
result or with one of the listed faults.  In particular the argument loop makes progress (it does
not run out of iterations), the span over `argv` and the options are only indexed within bounds,
and splitting a list value ends. -/
theorem parse_ends {p : Parser} (h : Reach p) (env : Env) (argv : List Text) :
    (∃ s, (parseArgs env p argv).1 = .ok s) ∨ ∃ f, (parseArgs env p argv).1 = .error f ∧ Ends p f := by
  cases argv with
  | nil => exact .inr ⟨_, rfl, .noProgram⟩
  | cons a0 args =>
    rcases parse_cases (env := env) (reach_good h) a0 args with
      ⟨f, q, e, hf⟩ | ⟨q, es, h1, h2, _, h4, h5⟩
    · refine .inr ⟨f, by rw [e], ?_⟩
      rcases hf with rfl | ⟨rfl, hn⟩ | ⟨rfl, hn⟩
      · exact .incomplete
      · exact .noNames hn
      · exact .destroyed hn
    · rcases h5 with ⟨f, hf, e⟩ | ⟨s, _, e⟩
      · refine .inr ⟨f, by rw [e], ?_⟩
        rcases fullStore_error (fun x hx => given_opts h4 hx)
          (fun o ho => (prepared_complete h1 o ho).action) hf with hg | ⟨rfl, _⟩
        · exact .given hg
        · exact .needsValue
      · exact .inl ⟨s, by rw [e]⟩

example : Reach Sample.parser ∧
    (parseArgs Sample.env Sample.parser [Sample.t "prog", Sample.t "--num"]).1 =
      .error (.throw "option is not Bool, so requires an value-argument") :=
  ⟨Sample.parser_clean.reach, Sample.of_failsWith (by decide +kernel)⟩

/-- A successful parse has read the command line in the one way the grammar of the registered
options allows: each argument belongs to exactly one event, in order, no option lacks its value,
and the arguments `invalid_args()` points to are the left over ones. -/
theorem parse_reads {p p' : Parser} (h : Clean p) {env : Env} {a0 : Text} {args : List Text}
    {s : Store} (hp : parseArgs env p (a0 :: args) = (.ok s, p')) :
    ∃ es, Reads (grammar p.pre p.longPre p'.opts) args es ∧
      (∀ es', Reads (grammar p.pre p.longPre p'.opts) args es' → es' = es) ∧
      es.flatMap Ev.toks = args ∧ (∀ o ts, Ev.missing o ts ∉ es) ∧
      invalidArgs p' = leftAt es 1 := by
  obtain ⟨es, h1, h2, h3, h4, h5, h6⟩ := parse_ok (reach_good h.reach) hp
  have e1 : p'.pre = p.pre := h1.rest.pre
  have e2 : p'.longPre = p.longPre := h1.rest.longPre
  have hr := reads_grammar h2 (h3 (clean_tables h)) h4
  rw [e1, e2] at hr
  obtain ⟨s1, hp1, _⟩ := fullStore_ok h5
  exact ⟨es, hr, fun es' h' => reads_unique h' hr, reads_cover hr, play_no_missing hp1, h6⟩

example : ∃ s p', parseArgs Sample.env Sample.parser Sample.argv = (.ok s, p') ∧
    invalidArgs p' = [2, 6] ∧ s.values (Sample.t "num") = some (.int 12) ∧
    s.lists (Sample.t "list") = some [.str (Sample.t "a"), .str (Sample.t "b"), .str (Sample.t "c")] ∧
    s.values (Sample.t "color") = some (.str (Sample.t "red")) ∧
    s.values (Sample.t "quiet") = some (.int 1) ∧
    s.values (Sample.t "level") = some (.long 7) := by
  obtain ⟨s, p', e, h⟩ := Sample.of_okWith (x := parseArgs Sample.env Sample.parser Sample.argv)
    (P := fun s p' => invalidArgs p' = [2, 6] ∧ s.values (Sample.t "num") = some (.int 12) ∧
      s.lists (Sample.t "list") =
        some [.str (Sample.t "a"), .str (Sample.t "b"), .str (Sample.t "c")] ∧
      s.values (Sample.t "color") = some (.str (Sample.t "red")) ∧
      s.values (Sample.t "quiet") = some (.int 1) ∧
      s.values (Sample.t "level") = some (.long 7)) (by decide +kernel)
  exact ⟨s, p', e, of_decide_eq_true h⟩

/-- The options in effect while the arguments are read: those registered, with the destination
filled in, and after them the built-in `usage`, `help` and `version` flags, whose names are names no
registered option has. -/
theorem parse_options {p p' : Parser} (h : Clean p) (own : ∀ o ∈ p.opts, o.owner = p.id) {env : Env}
    {a0 : Text} {args : List Text} {s : Store} (hp : parseArgs env p (a0 :: args) = (.ok s, p')) :
    ∃ flags, p'.opts = p.opts.map (filled p.pre p.longPre) ++ flags ∧
      (∀ o ∈ p'.opts, Complete o) ∧
      ∀ o ∈ flags, o.action = .storeTrue ∧ o.type = .bool ∧
        (o.dest = Sample.t "usage" ∨ o.dest = Sample.t "help" ∨ o.dest = Sample.t "version") ∧
        ∀ u ∈ p.opts, ∀ n ∈ o.names, n ∉ u.names := by
  obtain ⟨es, h1, _⟩ := parse_ok (reach_good h.reach) hp
  have hc := prepared_complete h1
  obtain ⟨os, flags, e, hv, hf⟩ := h1.opts
  refine ⟨flags, ?_, hc, ?_⟩
  · simp only at e
    rw [e]
    congr 1
    have hv' : List.Forall₂ (Validated (withArgv p a0 args)) p.opts os := hv
    clear hv hf e hc
    generalize p.opts = ps at own hv'
    induction hv' with
    | nil => rfl
    | cons h _ ih =>
      rw [List.map_cons, ← ih (fun o ho => own o (by simp [ho])), h.own (own _ (by simp))]
      rfl
  · intro o ho
    have := hf o ho
    exact ⟨this.action, this.type, this.dest,
      this.fresh ((withArgv_same p a0 args).tables (clean_tables h))⟩

example : ∀ o ∈ Sample.parser.opts, o.owner = Sample.parser.id := by decide +kernel

/-! ## C64: left over arguments -/

theorem leftAt_texts (es : List Ev) (pre : List Text) :
    (leftAt es pre.length).map (fun i => (pre ++ es.flatMap Ev.toks)[i]?) =
      (leftOver es).map some := by
  induction es generalizing pre with
  | nil => rfl
  | cons e es ih =>
    have step := ih (pre ++ e.toks)
    rw [List.length_append] at step
    rw [List.flatMap_cons, ← List.append_assoc]
    cases e with
    | left t =>
      simp only [leftAt, List.map_cons, leftOver, List.filterMap_cons]
      refine List.cons_eq_cons.2 ⟨?_, ?_⟩
      · simp [Ev.toks]
      · simpa [Ev.toks, leftOver] using step
    | use o ts vs =>
      simp only [leftAt, leftOver, List.filterMap_cons]
      exact step
    | missing o ts =>
      simp only [leftAt, leftOver, List.filterMap_cons]
      exact step

theorem leftAt_sorted (es : List Ev) (n : Nat) :
    (leftAt es n).Pairwise (· < ·) ∧ ∀ i ∈ leftAt es n, n ≤ i := by
  induction es generalizing n with
  | nil => simp [leftAt]
  | cons e es ih =>
    cases e with
    | left t =>
      obtain ⟨h1, h2⟩ := ih (n + 1)
      refine ⟨List.pairwise_cons.2 ⟨fun i hi => h2 i hi, h1⟩, ?_⟩
      intro i hi
      rcases List.mem_cons.1 hi with rfl | hi
      · exact Nat.le_refl _
      · exact Nat.le_of_succ_le (h2 i hi)
    | use o ts vs =>
      obtain ⟨h1, h2⟩ := ih (n + ts.length)
      exact ⟨h1, fun i hi => Nat.le_trans (Nat.le_add_right _ _) (h2 i hi)⟩
    | missing o ts =>
      obtain ⟨h1, h2⟩ := ih (n + ts.length)
      exact ⟨h1, fun i hi => Nat.le_trans (Nat.le_add_right _ _) (h2 i hi)⟩

/-- `invalid_args()` points into `argv` at the left over arguments, in order and without repetition;
`get_raw_argc()` is their number plus one and `get_raw_argv()` is `argv[0]` followed by them. -/
theorem parse_left_over {p p' : Parser} (h : Clean p) {env : Env} {a0 : Text} {args : List Text}
    {s : Store} (hp : parseArgs env p (a0 :: args) = (.ok s, p')) {es : List Ev}
    (hr : Reads (grammar p.pre p.longPre p'.opts) args es) :
    (invalidArgs p').map (fun i => (a0 :: args)[i]?) = (leftOver es).map some ∧
      (invalidArgs p').Pairwise (· < ·) ∧ (∀ i ∈ invalidArgs p', 1 ≤ i ∧ i ≤ args.length) ∧
      getRawArgc p' = (leftOver es).length + 1 ∧
      getRawArgv p' = .ok (0 :: invalidArgs p') ∧ p'.argv = some (a0 :: args) := by
  obtain ⟨es', h1, h2, h3, h4, h5⟩ := parse_reads h hp
  obtain rfl := h2 es hr
  have ht := leftAt_texts es [a0]
  rw [h3] at ht
  obtain ⟨s1, s2⟩ := leftAt_sorted es 1
  rw [h5]
  have hm : (leftAt es 1).map (fun i => (a0 :: args)[i]?) = (leftOver es).map some := ht
  obtain ⟨_, hq, _⟩ := parse_ok (reach_good h.reach) hp
  have ha : p'.argv = some (a0 :: args) := hq.rest.argv
  refine ⟨hm, s1, ?_, ?_, ?_, ha⟩
  · intro i hi
    refine ⟨s2 i hi, ?_⟩
    have hmem := List.mem_map_of_mem (f := fun i => (a0 :: args)[i]?) hi
    rw [hm] at hmem
    obtain ⟨t, _, ht⟩ := List.mem_map.1 hmem
    have := (List.getElem?_eq_some_iff.1 ht.symm).1
    simp only [List.length_cons] at this; omega
  · have := congrArg List.length hm
    simp only [List.length_map] at this
    unfold getRawArgc
    have e : p'.invalid = leftAt es 1 := h5
    rw [e, this]
  · unfold getRawArgv
    rw [ha, ← h5]; rfl

/-! ## C65: names -/

/-- A name that can be registered: a long one (the long prefix and something after it) or one that
begins with the prefix character. -/
def ValidName (p : Parser) (n : Text) : Prop :=
  (p.longPre <+: n ∧ n ≠ p.longPre) ∨ n.headD '\x00' = p.pre

theorem valid_iff {p : Parser} (g : Good p) {n : Text} :
    kindOf p.pre p.longPre n ≠ .invalid ↔ ValidName p n := by
  unfold ValidName
  rw [← kind_long g.long2]
  unfold kindOf
  split
  · simp
  · split <;> simp_all

/-- Registration succeeds exactly if all names are valid and, unless the conflict handler is
`Replace`, they are different from each other and from all registered names.  Otherwise it
throws. -/
theorem add_option_ok {p : Parser} (h : Clean p) (ns : List Text) :
    ((addOption p ns).1 = .ok () ↔ (∀ n ∈ ns, ValidName p n) ∧
      (p.handler = .error → ns.Nodup ∧ ∀ n ∈ ns, ¬ ∃ o ∈ p.opts, n ∈ o.names)) ∧
    ((addOption p ns).1 = .ok () ∨ ∃ m, (addOption p ns).1 = .error (.throw m)) := by
  obtain ⟨h1, _, h3⟩ := addOpt_spec (o := { owner := p.id, names := ns }) (clean_tables h)
  refine ⟨?_, h3⟩
  unfold addOption
  rw [h1]
  unfold Acceptable Registered
  simp only [valid_iff (reach_good h.reach)]

example : (addOption Sample.parser [Sample.t "-x", Sample.t "--extra"]).1 = .ok () ∧
    (addOption Sample.parser [Sample.t "--num"]).1 = .error (.throw "Long option is already registered") ∧
    (addOption Sample.parser [Sample.t "plain"]).1 = .error (.throw "Invalid option name") := by
  decide +kernel

theorem reads_names {c : Char} {l : Text} {opts : List Opt} {args : List Text} {es : List Ev}
    (hr : Reads (grammar c l opts) args es) :
    (∀ o toks vals, Ev.use o toks vals ∈ es → ∃ t k, toks = t :: k ∧ t.head? = some c ∧
      stripped (namePart t) ≠ l ∧ latest opts (stripped (namePart t)) = some o) ∧
    (∀ t, Ev.left t ∈ es → t.head? = some c → stripped (namePart t) = l ∨
      latest opts (stripped (namePart t)) = none ∨ (t.getLast? = some '=' ∧ args.getLast? = some t)) := by
  have hlook : ∀ t o, (grammar c l opts).look t = some o →
      stripped (namePart t) ≠ l ∧ latest opts (stripped (namePart t)) = some o := by
    intro t o hl
    simp only [grammar] at hl
    split at hl
    · cases hl
    · rename_i hne; exact ⟨hne, hl⟩
  have hlast : ∀ {t x : Text} {ts : List Text}, ts.getLast? = some t →
      (x :: ts).getLast? = some t := by
    intro t x ts e
    rw [List.getLast?_cons, e]; rfl
  have hlast' : ∀ {t : Text} {a b : List Text}, b.getLast? = some t →
      (a ++ b).getLast? = some t := by
    intro t a b e
    rw [List.getLast?_append, e]; rfl
  induction hr with
  | nil => constructor <;> intros <;> contradiction
  | plain h1 _ ih =>
    refine ⟨?_, ?_⟩
    · intro o toks vals hm; simp at hm; exact ih.1 o toks vals hm
    · intro t hm hh
      rcases List.mem_cons.1 hm with e | hm
      · cases e; simp [grammar, hh] at h1
      · rcases ih.2 t hm hh with h | h | h
        · exact .inl h
        · exact .inr (.inl h)
        · exact .inr (.inr ⟨h.1, hlast h.2⟩)
  | unknown h1 h2 _ ih =>
    refine ⟨?_, ?_⟩
    · intro o toks vals hm; simp at hm; exact ih.1 o toks vals hm
    · intro t hm hh
      rcases List.mem_cons.1 hm with e | hm
      · cases e
        simp only [grammar] at h2
        split at h2
        · rename_i e; exact .inl e
        · exact .inr (.inl h2)
      · rcases ih.2 t hm hh with h | h | h
        · exact .inl h
        · exact .inr (.inl h)
        · exact .inr (.inr ⟨h.1, hlast h.2⟩)
  | flag h1 h2 _ _ _ _ ih =>
    refine ⟨?_, ?_⟩
    · intro o toks vals hm
      rcases List.mem_cons.1 hm with e | hm
      · cases e; exact ⟨_, [], rfl, by simpa [grammar] using h1, hlook _ _ h2⟩
      · exact ih.1 o toks vals hm
    · intro t hm hh
      simp at hm
      rcases ih.2 t hm hh with h | h | h
      · exact .inl h
      · exact .inr (.inl h)
      · exact .inr (.inr ⟨h.1, hlast h.2⟩)
  | missing => constructor <;> intros <;> simp_all
  | single h1 h2 _ htk _ ih =>
    refine ⟨?_, ?_⟩
    · intro o toks vals hm
      rcases List.mem_cons.1 hm with e | hm
      · cases e; exact ⟨_, _, rfl, by simpa [grammar] using h1, hlook _ _ h2⟩
      · exact ih.1 o toks vals hm
    · intro t hm hh
      simp at hm
      rcases ih.2 t hm hh with h | h | h
      · exact .inl h
      · exact .inr (.inl h)
      · exact .inr (.inr ⟨h.1, by rw [takes_toks htk]; exact hlast (hlast' h.2)⟩)
  | multi h1 h2 _ htk _ _ _ ih =>
    refine ⟨?_, ?_⟩
    · intro o toks vals hm
      rcases List.mem_cons.1 hm with e | hm
      · cases e; exact ⟨_, _, rfl, by simpa [grammar] using h1, hlook _ _ h2⟩
      · exact ih.1 o toks vals hm
    · intro t hm hh
      simp at hm
      rcases ih.2 t hm hh with h | h | h
      · exact .inl h
      · exact .inr (.inl h)
      · exact .inr (.inr ⟨h.1, by rw [takes_toks htk]; exact hlast (hlast' (hlast' h.2))⟩)
  | dangling =>
    refine ⟨by intros; simp_all, ?_⟩
    intro t hm hh
    simp at hm
    subst hm
    exact .inr (.inr ⟨by simp, by simp⟩)

/-- In a successful parse, an argument that is taken up as an option names, with its part before
`'='` (less white space), the option last registered under that name; an argument that begins with
the prefix and is left over has a name no option is registered under, unless the name is the long
prefix itself or the argument is the last one and ends in `'='`. -/
theorem parse_names {p p' : Parser} (h : Clean p) {env : Env} {a0 : Text} {args : List Text}
    {s : Store} (hp : parseArgs env p (a0 :: args) = (.ok s, p')) :
    ∃ es, fullStore env p'.opts es = .ok s ∧ invalidArgs p' = leftAt es 1 ∧
    es.flatMap Ev.toks = args ∧
    (∀ o toks vals, Ev.use o toks vals ∈ es → ∃ t k, toks = t :: k ∧ t.head? = some p.pre ∧
      stripped (namePart t) ≠ p.longPre ∧ latest p'.opts (stripped (namePart t)) = some o) ∧
    (∀ t, Ev.left t ∈ es → t.head? = some p.pre → stripped (namePart t) = p.longPre ∨
      latest p'.opts (stripped (namePart t)) = none ∨ (t.getLast? = some '=' ∧ args.getLast? = some t)) := by
  obtain ⟨es, h1, h2, h3, h4, h5, h6⟩ := parse_ok (reach_good h.reach) hp
  have e1 : p'.pre = p.pre := h1.rest.pre
  have e2 : p'.longPre = p.longPre := h1.rest.longPre
  have hr := reads_grammar h2 (h3 (clean_tables h)) h4
  rw [e1, e2] at hr
  obtain ⟨n1, n2⟩ := reads_names hr
  exact ⟨es, h5, h6, reads_cover hr, n1, n2⟩

/-! ## C66 and C67: stored values and where they come from -/

/-- What `get<T>(d)` returns for every `T`: nothing, the value, or (for another type than the
value's) a call of `std::terminate`. -/
def Shows (s : Store) (d : Text) (r : Option Val) : Prop :=
  ∀ T, s.get T d = match r with
    | none => .ok none
    | some v => if v.alt = T then .ok (some v) else .error (.throw "terminate")

theorem shows_of {s : Store} {d : Text} {r : Option Val} (h : s.values d = r) : Shows s d r := by
  intro T
  unfold Store.get
  rw [h]
  cases r <;> rfl

theorem shows_iff {s : Store} {d : Text} {r : Option Val} : Shows s d r ↔ s.values d = r := by
  refine ⟨fun h => ?_, shows_of⟩
  cases r with
  | none =>
    have := h .bool
    unfold Store.get at this
    cases hv : s.values d with
    | none => rfl
    | some v => rw [hv] at this; simp only at this; split at this <;> cases this
  | some v =>
    have := h v.alt
    unfold Store.get at this
    cases hv : s.values d with
    | none => rw [hv] at this; simp at this
    | some w =>
      rw [hv] at this
      simp only [if_true] at this
      split at this <;> cases this
      rfl

/-- The defaults and environment variables for a destination, in the order in which they are
consulted: first all defaults, then the environment. -/
def fallback (env : Env) (opts : List Opt) (d : Text) : List (Opt × Text) :=
  about d (defaultsOf opts ++ environmentOf env opts)

theorem parse_store_gives {p p' : Parser} (h : Clean p) {env : Env} {a0 : Text} {args : List Text}
    {s : Store} (hp : parseArgs env p (a0 :: args) = (.ok s, p')) {es : List Ev}
    (hr : Reads (grammar p.pre p.longPre p'.opts) args es) :
    (∀ x ∈ given es, x.1 ∈ p'.opts) ∧ ∃ s1, giveSeq env (given es) Store.empty = .ok s1 ∧
      giveUnset env (defaultsOf p'.opts ++ environmentOf env p'.opts) s1 = .ok s := by
  obtain ⟨es', h1, h2, h3, h4, h5, h6⟩ := parse_ok (reach_good h.reach) hp
  obtain ⟨_, k1, k2, _⟩ := parse_reads h hp
  have e1 : p'.pre = p.pre := h1.rest.pre
  have e2 : p'.longPre = p.longPre := h1.rest.longPre
  have hr' := reads_grammar h2 (h3 (clean_tables h)) h4
  rw [e1, e2] at hr'
  obtain rfl := reads_unique hr hr'
  obtain ⟨s1, hp1, hg⟩ := fullStore_ok h5
  exact ⟨fun x hx => given_opts h4 hx, s1, play_given hp1, hg⟩

/-- `Store`, `StoreTrue` and `StoreFalse`: the last value given on the command line; if there is
none, the value of the first default that is accepted; failing that, of the first environment
variable that is.  Missing: what counts as a value of a flag is not what users expect, see
`flag_takes_argument_violated` and `flag_true_violated`. -/
theorem parse_stored_partial {p p' : Parser} (h : Clean p) {env : Env} {a0 : Text} {args : List Text}
    {s : Store} (hp : parseArgs env p (a0 :: args) = (.ok s, p')) {es : List Ev}
    (hr : Reads (grammar p.pre p.longPre p'.opts) args es) {d : Text}
    (hd : ∀ o ∈ p'.opts, o.dest = d → o.action.sets = true) :
    Shows s d ((valuesFor env d (given es)).getLast?.or
      (firstOf env (fallback env p'.opts d)).getLast?) ∧ s.getList d = none := by
  obtain ⟨hk, s1, h1, h2⟩ := parse_store_gives h hp hr
  obtain ⟨a1, a2, a3⟩ := giveSeq_sets (d := d) h1
    (fun x hx => hd _ (hk x (about_mem hx).1) (about_mem hx).2)
  have hset : ∀ x ∈ about d (defaultsOf p'.opts ++ environmentOf env p'.opts),
      x.1.action.sets = true := fun x hx => hd _ (fallback_opts (about_mem hx).1) (about_mem hx).2
  rw [shows_iff]
  cases hu : s1.usr d with
  | true =>
    obtain ⟨b1, b2, _⟩ := giveUnset_kept (d := d) h2 hu
    have hn : valuesFor env d (given es) ≠ [] := by
      intro e; rw [a2, e] at hu; simp [Store.empty] at hu
    refine ⟨?_, by unfold Store.getList; rw [b2, a3]; rfl⟩
    rw [b1, a1]
    obtain ⟨v, hv⟩ := Option.isSome_iff_exists.1 (List.getLast?_isSome.2 hn)
    rw [hv]; rfl
  | false =>
    obtain ⟨b1, _, b2⟩ := giveUnset_sets (d := d) h2 hset hu
    have hn : valuesFor env d (given es) = [] := by
      rw [a2] at hu
      simp only [Store.empty, Bool.false_or, Bool.not_eq_false'] at hu
      exact List.isEmpty_iff.1 hu
    refine ⟨?_, by unfold Store.getList; rw [b2, a3]; rfl⟩
    rw [b1, a1, hn]
    simp only [List.getLast?_nil, Option.none_or, Store.empty]
    unfold fallback
    cases (firstOf env (about d (defaultsOf p'.opts ++ environmentOf env p'.opts))).getLast? <;> rfl

/-- `Append`: all values given on the command line, in order; if there are none, those of the first
default or environment variable that has any. -/
theorem parse_appended {p p' : Parser} (h : Clean p) {env : Env} {a0 : Text} {args : List Text}
    {s : Store} (hp : parseArgs env p (a0 :: args) = (.ok s, p')) {es : List Ev}
    (hr : Reads (grammar p.pre p.longPre p'.opts) args es) {d : Text}
    (hd : ∀ o ∈ p'.opts, o.dest = d → o.action = .append) :
    s.getList d = (if valuesFor env d (given es) ≠ [] then some (valuesFor env d (given es))
      else if firstOf env (fallback env p'.opts d) ≠ [] then
        some (firstOf env (fallback env p'.opts d)) else none) ∧ Shows s d none := by
  obtain ⟨hk, s1, h1, h2⟩ := parse_store_gives h hp hr
  obtain ⟨a1, a2, a3⟩ := giveSeq_append_lists (d := d) h1
    (fun x hx => hd _ (hk x (about_mem hx).1) (about_mem hx).2)
  have hset : ∀ x ∈ about d (defaultsOf p'.opts ++ environmentOf env p'.opts),
      x.1.action = .append := fun x hx => hd _ (fallback_opts (about_mem hx).1) (about_mem hx).2
  rw [shows_iff]
  unfold Store.getList
  by_cases hn : valuesFor env d (given es) = []
  · rw [if_neg (by simp [hn])]
    have hu : s1.usr d = false := by rw [a2, hn]; rfl
    rw [if_pos hn] at a1
    obtain ⟨b1, b2⟩ := giveUnset_append_lists (d := d) h2 hset hu a1
    unfold fallback
    refine ⟨?_, by rw [b2, a3]; rfl⟩
    rw [b1]
    by_cases hf : firstOf env (about d (defaultsOf p'.opts ++ environmentOf env p'.opts)) = []
    · simp [hf]
    · simp [hf]
  · rw [if_pos hn]
    have hu : s1.usr d = true := by
      rw [a2]
      cases hv : valuesFor env d (given es) with
      | nil => exact absurd hv hn
      | cons v vs => simp
    rw [if_neg hn] at a1
    obtain ⟨b1, b2, _⟩ := giveUnset_kept (d := d) h2 hu
    exact ⟨by rw [b2, a1]; rfl, by rw [b1, a3]; rfl⟩

/-- `Count`: the number of occurrences on the command line, plus one for every default and every
environment variable (which is not what a user expects of a default: see
`count_default_violated`). -/
theorem parse_counted {p p' : Parser} (h : Clean p) {env : Env} {a0 : Text} {args : List Text}
    {s : Store} (hp : parseArgs env p (a0 :: args) = (.ok s, p')) {es : List Ev}
    (hr : Reads (grammar p.pre p.longPre p'.opts) args es) {d : Text}
    (hd : ∀ o ∈ p'.opts, o.dest = d → o.action = .count) :
    Shows s d (if (about d (given es)).length + (fallback env p'.opts d).length = 0 then none
      else some (.int ((about d (given es)).length + (fallback env p'.opts d).length : Nat))) := by
  obtain ⟨hk, s1, h1, h2⟩ := parse_store_gives h hp hr
  obtain ⟨a1, a2, a3⟩ := giveSeq_count (d := d) (n := 0) h1
    (fun x hx => hd _ (hk x (about_mem hx).1) (about_mem hx).2) rfl
  have hset : ∀ x ∈ about d (defaultsOf p'.opts ++ environmentOf env p'.opts),
      x.1.action = .count := fun x hx => hd _ (fallback_opts (about_mem hx).1) (about_mem hx).2
  obtain ⟨b1, b2⟩ := giveUnset_count (d := d) h2 hset (by rw [a2]; rfl) a1
  rw [shows_iff, b1, Nat.zero_add]
  rfl

/-- A value given on the command line is never overridden: whatever the defaults and the
environment are, `get` and `get_list` return what the command line says.  Missing: `Count` options,
for which it is false (`count_default_violated`). -/
theorem command_line_wins_partial {p p' : Parser} (h : Clean p) {env : Env} {a0 : Text} {args : List Text}
    {s : Store} (hp : parseArgs env p (a0 :: args) = (.ok s, p')) {es : List Ev}
    (hr : Reads (grammar p.pre p.longPre p'.opts) args es) {d : Text}
    (hv : valuesFor env d (given es) ≠ []) :
    ((∀ o ∈ p'.opts, o.dest = d → o.action.sets = true) →
      Shows s d (valuesFor env d (given es)).getLast?) ∧
    ((∀ o ∈ p'.opts, o.dest = d → o.action = .append) →
      s.getList d = some (valuesFor env d (given es))) := by
  refine ⟨fun hd => ?_, fun hd => ?_⟩
  · have := (parse_stored_partial h hp hr hd).1
    obtain ⟨v, e⟩ := Option.isSome_iff_exists.1 (List.getLast?_isSome.2 hv)
    rw [e] at this ⊢
    exact this
  · rw [(parse_appended h hp hr hd).1, if_pos hv]

/-- An option that is not given on the command line gets its default, if the default is a value of
the option and no other option has the same destination.  The environment is not consulted then. -/
theorem default_used {p p' : Parser} (h : Clean p) {env : Env} {a0 : Text} {args : List Text}
    {s : Store} (hp : parseArgs env p (a0 :: args) = (.ok s, p')) {es : List Ev}
    (hr : Reads (grammar p.pre p.longPre p'.opts) args es) {o : Opt} (ho : o ∈ p'.opts)
    (hd : ∀ o' ∈ p'.opts, o'.dest = o.dest → o' = o) (ha : o.action.sets = true)
    (hn : valuesFor env o.dest (given es) = []) {v : Val} (hdf : o.dflt ≠ [])
    (hv : parseValue env o.dflt o = .ok (some v)) : Shows s o.dest (some v) := by
  have hst := (parse_stored_partial h hp hr (d := o.dest) (fun o' ho' e => by
    rw [hd o' ho' e, ha])).1
  have hg : gives env o o.dflt = [v] := by
    unfold gives
    cases hc : o.action <;> rw [hc] at ha <;> first | (exact absurd ha (by decide)) | simp [hdf, outcome, hv]
  have hmem : (o, o.dflt) ∈ about o.dest (defaultsOf p'.opts) := by
    unfold about defaultsOf
    rw [List.mem_filter]
    refine ⟨List.mem_map.2 ⟨o, List.mem_filter.2 ⟨ho, ?_⟩, rfl⟩, by simp⟩
    cases hdd : o.dflt with
    | nil => exact absurd hdd hdf
    | cons c t => rfl
  have hall : ∀ x ∈ about o.dest (defaultsOf p'.opts), x = (o, o.dflt) := by
    intro x hx
    obtain ⟨hx1, hx2⟩ := about_mem hx
    unfold defaultsOf at hx1
    obtain ⟨o', ho', rfl⟩ := List.mem_map.1 hx1
    rw [hd o' (List.mem_filter.1 ho').1 hx2]
  have hfb : firstOf env (fallback env p'.opts o.dest) = [v] := by
    have happ : fallback env p'.opts o.dest =
        about o.dest (defaultsOf p'.opts) ++ about o.dest (environmentOf env p'.opts) := by
      unfold fallback about; rw [List.filter_append]
    rw [happ]
    cases hl : about o.dest (defaultsOf p'.opts) with
    | nil => rw [hl] at hmem; cases hmem
    | cons x l =>
      obtain rfl := hall x (by rw [hl]; simp)
      simp [firstOf, hg]
  rw [hn, hfb] at hst
  exact hst

example : ∃ o ∈ Sample.result.2.opts, o.dest = Sample.t "num" ∧ o.dflt = Sample.t "5" ∧
    o.action.sets = true ∧ (∀ o' ∈ Sample.result.2.opts, o'.dest = o.dest → o' = o) ∧
    parseValue Sample.env o.dflt o = .ok (some (.int 5)) := by
  decide +kernel

/-! ## C68: `trim_string` and `split` -/

/-- Trimming removes exactly the white space at both ends: the result is the only text with white
space around it in the input that neither begins nor ends with white space. -/
theorem trim_spec (t : Text) : Trimmed t (trimString t) ∧ ∀ u, Trimmed t u → u = trimString t :=
  ⟨trimString_trimmed t, fun _ h => trimmed_unique h (trimString_trimmed t)⟩

example : trimString (Sample.t " \ta b\n") = Sample.t "a b" := by decide +kernel

/-- `split` ends for every text and non-empty delimiter (within one iteration per character and one
more) and yields the pieces between successive leftmost occurrences of the delimiter, trimmed, the
empty ones left out if so asked.  Joining the pieces gives the text back. -/
theorem split_spec {str d : Text} (hd : d ≠ []) (skip : Bool) :
    ∃ ps, Pieces d str ps ∧ (∀ qs, Pieces d str qs → qs = ps) ∧
      (List.intersperse d ps).flatten = str ∧
      ∀ fuel, str.length < fuel → splitFuel fuel str d skip =
        some ((if skip then ps.filter (fun p => !p.isEmpty) else ps).map trimString) := by
  obtain ⟨ps, h1, h2⟩ := splitLoop_spec (str := str) (skip := skip) hd (str.length + 1) 0 [] (by omega)
    (by omega)
  rw [List.drop_zero] at h1
  refine ⟨ps, h1, fun qs h => pieces_unique h h1, pieces_join h1, ?_⟩
  intro fuel hf
  obtain ⟨qs, h3, h4⟩ := splitLoop_spec (str := str) (skip := skip) hd fuel 0 [] (by omega) (by omega)
  rw [List.drop_zero] at h3
  obtain rfl := pieces_unique h3 h1
  unfold splitFuel
  rw [h4]
  cases skip <;> simp [kept]

example : splitFuel 20 (Sample.t "a, b,,c") (Sample.t ",") true =
    some [Sample.t "a", Sample.t "b", Sample.t "c"] := by decide +kernel

/-- With an empty delimiter `split` never ends, unless the text is empty. -/
theorem split_empty_delimiter {str : Text} (h : str ≠ []) (skip : Bool) (fuel : Nat) :
    splitFuel fuel str [] skip = none := splitLoop_stuck h fuel []

/-! ## C69: choices -/

/-- If all options with a destination are `Choice` options with action `Store` or `Append`, every
value stored for it, from whatever source, is one of the declared choices. -/
theorem parse_choice {p p' : Parser} (h : Clean p) {env : Env} {a0 : Text} {args : List Text}
    {s : Store} (hp : parseArgs env p (a0 :: args) = (.ok s, p')) {d : Text}
    (hd : ∀ o ∈ p'.opts, o.dest = d → o.type = .choice ∧ (o.action = .store ∨ o.action = .append)) :
    (∀ v, Shows s d (some v) → ∃ o ∈ p'.opts, o.dest = d ∧ ∃ c ∈ o.choices, v = .str c) ∧
    (∀ l, s.getList d = some l → ∀ v ∈ l, ∃ o ∈ p'.opts, o.dest = d ∧ ∃ c ∈ o.choices, v = .str c) := by
  obtain ⟨es, hr, _⟩ := parse_reads h hp
  obtain ⟨es', _, _, _, h4, h5, _⟩ := parse_ok (reach_good h.reach) hp
  have hout : ∀ o : Opt, o.type = .choice → ∀ t v, outcome env o t = some v →
      ∃ c ∈ o.choices, v = .str c := by
    intro o ht t v ho
    unfold outcome parseValue at ho
    rw [ht] at ho
    simp only [pure, Except.pure] at ho
    split at ho
    · rename_i hc
      cases ho
      exact ⟨t, by simpa using hc, rfl⟩
    · cases ho
  have hacc : ∀ o : Opt, o.type = .choice → ∀ ts v, v ∈ accepted env o ts →
      ∃ c ∈ o.choices, v = .str c := by
    intro o ht ts
    induction ts with
    | nil => intro v hv; cases hv
    | cons t ts ih =>
      intro v hv
      unfold accepted at hv
      cases ho : outcome env o t with
      | none => rw [ho] at hv; cases hv
      | some w =>
        rw [ho] at hv
        rcases List.mem_cons.1 hv with rfl | hv
        · exact hout o ht t _ ho
        · exact ih v hv
  have := fullStore_inv (d := d) (P := fun v => ∃ o ∈ p'.opts, o.dest = d ∧ ∃ c ∈ o.choices, v = .str c)
    (fun x hx => given_opts h4 hx) h5 (by
      intro o ho e
      obtain ⟨ht, ha⟩ := hd o ho e
      refine ⟨?_, fun hc => by rcases ha with ha | ha <;> rw [ha] at hc <;> cases hc⟩
      intro t v hv
      refine ⟨o, ho, e, ?_⟩
      unfold gives at hv
      rcases ha with ha | ha
      · rw [ha] at hv
        simp only [Option.mem_toList] at hv
        exact hout o ht t v hv
      · rw [ha] at hv
        exact hacc o ht _ v hv)
  exact ⟨fun v hv => this.1 v (shows_iff.1 hv), fun l hl => this.2 l hl⟩

example : (∀ o ∈ Sample.result.2.opts, o.dest = Sample.t "color" →
    o.type = .choice ∧ (o.action = .store ∨ o.action = .append)) ∧
    ∃ o ∈ Sample.result.2.opts, o.dest = Sample.t "color" := by decide +kernel

/-! ## C70: what can be taken up as a value -/

theorem reads_taken {c : Char} {l : Text} {opts : List Opt} {args : List Text} {es : List Ev}
    (hr : Reads (grammar c l opts) args es) :
    ∀ o t k vals, Ev.use o (t :: k) vals ∈ es → ∀ i u, k[i]? = some u → u.head? = some c →
      i = 0 ∧ ∃ a, '=' ∉ a ∧ t = a ++ ['='] := by
  induction hr with
  | nil => intros; contradiction
  | plain _ _ ih | unknown _ _ _ ih =>
    intro o t k vals hm; simp at hm; exact ih o t k vals hm
  | flag _ _ _ _ _ _ ih =>
    intro o t k vals hm i u hi hu
    rcases List.mem_cons.1 hm with e | hm
    · cases e; simp at hi
    · exact ih o t k vals hm i u hi hu
  | missing => intros; simp_all
  | single _ _ _ htk _ ih =>
    intro o t k vals hm i u hi hu
    rcases List.mem_cons.1 hm with e | hm
    · cases e
      cases htk with
      | inline => simp at hi
      | next h1 h2 =>
        cases i with
        | zero => cases hi; simp [grammar, hu] at h2
        | succ i => simp at hi
      | afterEq h1 =>
        cases i with
        | zero => exact ⟨rfl, _, h1, rfl⟩
        | succ i => simp at hi
    · exact ih o t k vals hm i u hi hu
  | multi _ _ _ htk hvs _ _ ih =>
    intro o t k vals hm i u hi hu
    rcases List.mem_cons.1 hm with e | hm
    · cases e
      cases htk with
      | inline =>
        have := hvs u (List.mem_of_getElem? (by simpa using hi))
        simp [grammar, hu] at this
      | next h1 h2 =>
        cases i with
        | zero => cases hi; simp [grammar, hu] at h2
        | succ i =>
          have := hvs u (List.mem_of_getElem? (by simpa using hi))
          simp [grammar, hu] at this
      | afterEq h1 =>
        cases i with
        | zero => exact ⟨rfl, _, h1, rfl⟩
        | succ i =>
          have := hvs u (List.mem_of_getElem? (by simpa using hi))
          simp [grammar, hu] at this
    · exact ih o t k vals hm i u hi hu
  | dangling => intros; simp_all

/-- An argument that begins with the prefix is taken up by another option only as the argument
directly after one that ends in its only `'='`.  (What is missing: the property that it is never
taken up; see `empty_value_swallows_violated`.) -/
theorem option_taken_as_value_partial {p p' : Parser} (h : Clean p) {env : Env} {a0 : Text}
    {args : List Text} {s : Store} (hp : parseArgs env p (a0 :: args) = (.ok s, p')) :
    ∃ es, fullStore env p'.opts es = .ok s ∧ invalidArgs p' = leftAt es 1 ∧
    es.flatMap Ev.toks = args ∧
    ∀ o t k vals, Ev.use o (t :: k) vals ∈ es → ∀ i u, k[i]? = some u → u.head? = some p.pre →
      i = 0 ∧ ∃ a, '=' ∉ a ∧ t = a ++ ['='] := by
  obtain ⟨es, h1, h2, h3, h4, h5, h6⟩ := parse_ok (reach_good h.reach) hp
  have e1 : p'.pre = p.pre := h1.rest.pre
  have e2 : p'.longPre = p.longPre := h1.rest.longPre
  have hr := reads_grammar h2 (h3 (clean_tables h)) h4
  rw [e1, e2] at hr
  exact ⟨es, h5, h6, reads_cover hr, reads_taken hr⟩

end Verif.Opt
