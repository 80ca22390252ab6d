import Verif.Opt.Again

/-!
# Using a parser more than once: the properties
-/

namespace Verif.Opt

/-! ## C129: a parser may be used again -/

/-- The parser after a number of `parse_args` calls, whether or not they threw. -/
def after (p : Parser) : List (Env × List Text) → Parser
  | [] => p
  | (env, argv) :: ps => after (parseArgs env p argv).2 ps

theorem parseArgs_eq (env : Env) (p : Parser) (a0 : Text) (args : List Text) :
    parseArgs env p (a0 :: args) =
      (match prepare env (withArgv p a0 args) with
        | (.error f, q) => (.error f, q)
        | (.ok (), q) =>
          match parseLoop env q args with
          | .error f => (.error f, q)
          | .ok r => (.ok r.store, { q with invalid := r.invalid })) := rfl

theorem parse_owner {env : Env} {p : Parser} {argv : List Text} (g : Good p)
    (own : ∀ o ∈ p.opts, o.owner = p.id) :
    (∀ o ∈ (parseArgs env p argv).2.opts, o.owner = (parseArgs env p argv).2.id) := by
  cases argv with
  | nil => exact own
  | cons a0 args =>
    have e : parseArgs env p (a0 :: args) = parseVec env (withArgv p a0 args) args := rfl
    obtain ⟨inv, h⟩ := parseVec_snd (env := env) (p := withArgv p a0 args) (args := args)
    rw [e, h]
    obtain ⟨h1, h2, _⟩ := prepare_own (env := env) ((withArgv_same p a0 args).good g) own
    intro o ho
    simp only
    rw [h2]
    exact h1 o ho

theorem parse_again_one {p : Parser} (g : Good p) (own : ∀ o ∈ p.opts, o.owner = p.id)
    (env env' : Env) (argv argv' : List Text) :
    (parseArgs env' (parseArgs env p argv).2 argv').1 = (parseArgs env' p argv').1 ∧
    ∀ s, (parseArgs env' p argv').1 = .ok s →
      invalidArgs (parseArgs env' (parseArgs env p argv).2 argv').2 =
        invalidArgs (parseArgs env' p argv').2 := by
  cases argv with
  | nil => exact ⟨rfl, fun _ _ => rfl⟩
  | cons a1 args1 =>
  cases argv' with
  | nil => exact ⟨rfl, fun _ h => by cases h⟩
  | cons a2 args2 =>
  have g1 := (withArgv_same p a1 args1).good g
  have g2 := (withArgv_same p a2 args2).good g
  have e : parseArgs env p (a1 :: args1) = parseVec env (withArgv p a1 args1) args1 := rfl
  obtain ⟨inv, h⟩ := parseVec_snd (env := env) (p := withArgv p a1 args1) (args := args1)
  rw [e, h]
  obtain ⟨_, hid, hpre, hlong, _, hinv, hag⟩ := prepare_own (env := env) g1 own
  obtain ⟨_, _, _, _, harg2, _, _⟩ := prepare_own (env := env') g2 own
  obtain ⟨b1, b2⟩ := prepare_bare (env := env) (env' := env') g1 g2 own rfl rfl
  have key := hag env'
    (withArgv { (prepare env (withArgv p a1 args1)).2 with invalid := inv } a2 args2)
    hid hpre hlong rfl rfl rfl
  rw [parseArgs_eq, parseArgs_eq]
  simp only
  generalize prepare env (withArgv p a1 args1) = x at *
  generalize hy : prepare env' (withArgv p a2 args2) = y at *
  obtain ⟨r1, q1⟩ := x
  obtain ⟨r2, q2⟩ := y
  simp only at *
  subst b1
  generalize hz : prepare env' (withArgv { q1 with invalid := inv } a2 args2) = z at *
  obtain ⟨r3, q3⟩ := z
  obtain ⟨k1, k2⟩ := key
  simp only at k1 k2
  subst k1
  cases r3 with
  | error f => exact ⟨rfl, fun _ h => by cases h⟩
  | ok u =>
    cases u
    have hk := k2 rfl
    subst hk
    have hst : ({ withArgv { q1 with invalid := inv } a2 args2 with
        invalid := [], version := [] } : Parser).strip = q2.strip := by
      apply strip_of_bare
      · rw [← b2]
        have : ∀ q : Parser, q.invalid = [] → ({ withArgv { q with invalid := inv } a2 args2 with
          invalid := [], version := [] } : Parser).bare = q.bare := by
          intro q hq
          simp only [Parser.bare, Parser.strip, withArgv, hq]
        exact this q1 hinv
      · rw [harg2]; rfl
    simp only
    rw [← parseLoop_strip, hst, parseLoop_strip]
    cases parseLoop env' q2 args2 with
    | error f => exact ⟨rfl, fun _ h => by cases h⟩
    | ok r => exact ⟨rfl, fun _ _ => rfl⟩

/-- `parse_args` may be called any number of times: whatever the calls before (and whether they
threw or not), the values or the exception, and the left over arguments, are those of a parser that
has not been used before. -/
theorem parse_again {p : Parser} (h : Reach p) (own : ∀ o ∈ p.opts, o.owner = p.id)
    (ps : List (Env × List Text)) (env : Env) (argv : List Text) :
    (parseArgs env (after p ps) argv).1 = (parseArgs env p argv).1 ∧
    ∀ s, (parseArgs env p argv).1 = .ok s →
      invalidArgs (parseArgs env (after p ps) argv).2 = invalidArgs (parseArgs env p argv).2 := by
  have g := reach_good h
  clear h
  induction ps generalizing p with
  | nil => exact ⟨rfl, fun _ _ => rfl⟩
  | cons x ps ih =>
    obtain ⟨e, a⟩ := x
    obtain ⟨h1, h2⟩ := ih (p := (parseArgs e p a).2) (parse_owner g own) (good_parse g).1
    obtain ⟨h3, h4⟩ := parse_again_one g own e env a argv
    refine ⟨h1.trans h3, fun s hs => ?_⟩
    exact (h2 s (h3.trans hs)).trans (h4 s hs)

example : Reach Sample.parser ∧ (∀ o ∈ Sample.parser.opts, o.owner = Sample.parser.id) ∧
    (after Sample.parser [(Sample.env, Sample.argv)]).opts.length = 8 ∧
    Sample.parser.opts.length = 5 ∧
    ∃ s, (parseArgs Sample.env Sample.parser Sample.argv).1 = .ok s :=
  ⟨Sample.parser_clean.reach, by decide +kernel, by decide +kernel, by decide +kernel,
    by obtain ⟨s, p', e, _⟩ := Sample.of_okWith
         (x := parseArgs Sample.env Sample.parser Sample.argv) (P := fun _ _ => true)
         (by decide +kernel)
       exact ⟨s, by rw [e]⟩⟩

/-! ## C130: registering after parsing -/

/-- The names of the flags `parse_args` adds. -/
def flagNames (p : Parser) : List Text :=
  [[p.pre, 'u'], p.longPre ++ "usage".toList, [p.pre, 'h'], p.longPre ++ "help".toList,
    [p.pre, 'v'], p.longPre ++ "version".toList]

/-- The tables agree at a name. -/
def AgreeAt (p q : Parser) (n : Text) : Prop := q.shorts n = p.shorts n ∧ q.longs n = p.longs n

theorem addFlag_agree {p : Parser} (g : Good p) {c : Char} {name help : Text} (hn : name ≠ [])
    {n : Text} (h1 : n ≠ [p.pre, c]) (h2 : n ≠ p.longPre ++ name) :
    AgreeAt p (addFlag p c name help).2 n := by
  by_cases hf : (p.shorts [p.pre, c]).isNone ∧ (p.longs (p.longPre ++ name)).isNone
  · rw [addFlag_yes g hn hf]
    exact ⟨by simp [upd, h1], by simp [upd, h2]⟩
  · rw [addFlag_no hf]
    exact ⟨rfl, rfl⟩

theorem addFlags_agree {p : Parser} (g : Good p) {n : Text} (h : n ∉ flagNames p) :
    AgreeAt p (addFlags p).2 n ∧ SameRest p (addFlags p).2 := by
  simp only [flagNames, List.mem_cons, List.not_mem_nil, or_false, not_or] at h
  obtain ⟨n1, n2, n3, n4, n5, n6⟩ := h
  have hu : ("usage".toList : Text) ≠ [] := by decide
  have hh : ("help".toList : Text) ≠ [] := by decide
  have hv : ("version".toList : Text) ≠ [] := by decide
  obtain ⟨q, _, e', _, _, _, _, hr⟩ := flags_spec g
  refine ⟨?_, by rw [e']; exact hr⟩
  obtain ⟨a, b, c, e⟩ := addFlags_eq g
  rw [e]
  obtain ⟨_, g1, _, _, r1⟩ := addFlag_spec g (c := 'u') (help := a) hu
  have a1 := addFlag_agree g (c := 'u') (help := a) hu n1 n2
  generalize (addFlag p 'u' "usage".toList a).2 = q1 at *
  obtain ⟨_, g2, _, _, r2⟩ := addFlag_spec g1 (c := 'h') (help := b) hh
  have a2 := addFlag_agree g1 (c := 'h') (help := b) hh (n := n) (by rw [r1.pre]; exact n3)
    (by rw [r1.longPre]; exact n4)
  generalize (addFlag q1 'h' "help".toList b).2 = q2 at *
  have a3 := addFlag_agree (p := { q2 with version := [] })
    ⟨⟨g2.range.longs, g2.range.shorts⟩, g2.long2⟩ (c := 'v') (help := c) hv (n := n)
    (by simp only; rw [r2.pre, r1.pre]; exact n5)
    (by simp only; rw [r2.longPre, r1.longPre]; exact n6)
  exact ⟨a3.1.trans (a2.1.trans a1.1), a3.2.trans (a2.2.trans a1.2)⟩

theorem registerNames_agree {i j : Nat} : ∀ (ns : List Text) {p q : Parser},
    q.pre = p.pre → q.longPre = p.longPre → q.handler = p.handler →
    (∀ n ∈ ns, (q.shorts n).isSome = (p.shorts n).isSome ∧
      (q.longs n).isSome = (p.longs n).isSome) →
    (registerNames j ns q).1 = (registerNames i ns p).1 := by
  intro ns
  induction ns with
  | nil => intros; rfl
  | cons n ns ih =>
    intro p q h1 h2 h3 h
    obtain ⟨a1, a2⟩ := h n (by simp)
    unfold registerNames
    rw [h1, h2]
    cases kindOf p.pre p.longPre n with
    | invalid => rfl
    | short =>
      simp only
      rw [h3, a1]
      by_cases c : p.handler = .error ∧ (p.shorts n).isSome = true
      · rw [if_pos c, if_pos c]
      · rw [if_neg c, if_neg c]
        refine ih rfl rfl rfl ?_
        intro m hm
        refine ⟨?_, (h m (by simp [hm])).2⟩
        simp only [upd]
        split
        · rfl
        · exact (h m (by simp [hm])).1
    | long =>
      simp only
      rw [h3, a2]
      by_cases c : p.handler = .error ∧ (p.longs n).isSome = true
      · rw [if_pos c, if_pos c]
      · rw [if_neg c, if_neg c]
        refine ih rfl rfl rfl ?_
        intro m hm
        refine ⟨(h m (by simp [hm])).1, ?_⟩
        simp only [upd]
        split
        · rfl
        · exact (h m (by simp [hm])).2

theorem parse_agree {p : Parser} (g : Good p) {env : Env} {argv : List Text} {n : Text}
    (h : n ∉ flagNames p) : AgreeAt p (parseArgs env p argv).2 n := by
  cases argv with
  | nil => exact ⟨rfl, rfl⟩
  | cons a0 args =>
    have e : parseArgs env p (a0 :: args) = parseVec env (withArgv p a0 args) args := rfl
    obtain ⟨inv, hs⟩ := parseVec_snd (env := env) (p := withArgv p a0 args) (args := args)
    rw [e, hs]
    have g1 := (withArgv_same p a0 args).good g
    rw [prepare_eq]
    have hnames := validateAll_names (env := env)
      (p := { withArgv p a0 args with invalid := [] }) (withArgv p a0 args).opts []
    generalize validateAll env { withArgv p a0 args with invalid := [] }
      (withArgv p a0 args).opts [] = x at *
    obtain ⟨r, os⟩ := x
    cases r with
    | error f => exact ⟨rfl, rfl⟩
    | ok u =>
      cases u
      have hsr : SameReg (withArgv p a0 args)
          { withArgv p a0 args with invalid := [], opts := os } :=
        ⟨rfl, rfl, rfl, rfl, by simpa using hnames⟩
      exact (addFlags_agree (hsr.good g1) (n := n) h).1

theorem parse_prefixes {p : Parser} (g : Good p) (env : Env) (argv : List Text) :
    (parseArgs env p argv).2.pre = p.pre ∧ (parseArgs env p argv).2.longPre = p.longPre ∧
    (parseArgs env p argv).2.handler = p.handler := by
  cases argv with
  | nil => exact ⟨rfl, rfl, rfl⟩
  | cons a0 args =>
    have e : parseArgs env p (a0 :: args) = parseVec env (withArgv p a0 args) args := rfl
    obtain ⟨inv, hs⟩ := parseVec_snd (env := env) (p := withArgv p a0 args) (args := args)
    rw [e, hs]
    have g1 := (withArgv_same p a0 args).good g
    rw [prepare_eq]
    have hnames := validateAll_names (env := env)
      (p := { withArgv p a0 args with invalid := [] }) (withArgv p a0 args).opts []
    generalize validateAll env { withArgv p a0 args with invalid := [] }
      (withArgv p a0 args).opts [] = x at *
    obtain ⟨r, os⟩ := x
    cases r with
    | error f => exact ⟨rfl, rfl, rfl⟩
    | ok u =>
      cases u
      have hsr : SameReg (withArgv p a0 args)
          { withArgv p a0 args with invalid := [], opts := os } :=
        ⟨rfl, rfl, rfl, rfl, by simpa using hnames⟩
      obtain ⟨q, _, e', _, _, _, _, hr⟩ := flags_spec (hsr.good g1)
      simp only
      rw [e']
      exact ⟨hr.pre, hr.longPre, hr.handler⟩

/-- `parse_args` does not change which options may be registered afterwards, with what exception
otherwise.  Partial: only for names that are not those of the built-in flags (see
`register_after_parse_violated`). -/
theorem register_after_parse_partial {p : Parser} (h : Reach p) (env : Env) (argv ns : List Text)
    (hn : ∀ n ∈ ns, n ∉ flagNames p) :
    (addOption (parseArgs env p argv).2 ns).1 = (addOption p ns).1 := by
  obtain ⟨h1, h2, h3⟩ := parse_prefixes (reach_good h) env argv
  unfold addOption addOpt
  refine registerNames_agree ns ?_ ?_ ?_ ?_
  · exact h1
  · exact h2
  · exact h3
  intro n hm
  obtain ⟨a, b⟩ := parse_agree (reach_good h) (env := env) (argv := argv) (hn n hm)
  exact ⟨congrArg Option.isSome a, congrArg Option.isSome b⟩

example : (∀ n ∈ [Sample.t "-x", Sample.t "--extra"], n ∉ flagNames Sample.parser) ∧
    (addOption (parseArgs Sample.env Sample.parser Sample.argv).2
      [Sample.t "-x", Sample.t "--extra"]).1 = .ok () := by decide +kernel

/-- C88, the part that holds: after a registration, also one that threw, the options from before are
the same, and which options with other names may be registered, with what exception otherwise, is as
before.  Missing: that `parse_args` can be called (`rejected_option_poisons`), and the names of the
rejected option that were accepted before the exception. -/
theorem rejected_rest_partial (p : Parser) {ns ms : List Text} (hd : ∀ n ∈ ms, n ∉ ns) :
    (addOption p ns).2.opts.take p.opts.length = p.opts ∧
    (addOption (addOption p ns).2 ms).1 = (addOption p ms).1 := by
  refine ⟨by rw [addOption_opts, List.take_left], ?_⟩
  have key : ∀ (i : Nat) (ns : List Text) (q : Parser),
      (registerNames i ns q).2.pre = q.pre ∧ (registerNames i ns q).2.longPre = q.longPre ∧
      (registerNames i ns q).2.handler = q.handler ∧
      ∀ n, n ∉ ns → (registerNames i ns q).2.shorts n = q.shorts n ∧
        (registerNames i ns q).2.longs n = q.longs n := by
    intro i ns
    induction ns with
    | nil => intro q; exact ⟨rfl, rfl, rfl, fun n _ => ⟨rfl, rfl⟩⟩
    | cons m ns ih =>
      intro q
      unfold registerNames
      split
      · split
        · exact ⟨rfl, rfl, rfl, fun n _ => ⟨rfl, rfl⟩⟩
        · obtain ⟨h1, h2, h3, h4⟩ := ih { q with shorts := upd q.shorts m (some i) }
          refine ⟨h1, h2, h3, fun n hn => ?_⟩
          rw [List.mem_cons, not_or] at hn
          obtain ⟨a, b⟩ := h4 n hn.2
          refine ⟨a.trans ?_, b⟩
          simp [upd, hn.1]
      · split
        · exact ⟨rfl, rfl, rfl, fun n _ => ⟨rfl, rfl⟩⟩
        · obtain ⟨h1, h2, h3, h4⟩ := ih { q with longs := upd q.longs m (some i) }
          refine ⟨h1, h2, h3, fun n hn => ?_⟩
          rw [List.mem_cons, not_or] at hn
          obtain ⟨a, b⟩ := h4 n hn.2
          refine ⟨a, b.trans ?_⟩
          simp [upd, hn.1]
      · exact ⟨rfl, rfl, rfl, fun n _ => ⟨rfl, rfl⟩⟩
  obtain ⟨h1, h2, h3, h4⟩ := key p.opts.length ns { p with opts := p.opts ++ [{ owner := p.id, names := ns }] }
  exact registerNames_agree ms h1 h2 h3
    (fun n hm => ⟨congrArg Option.isSome (h4 n (hd n hm)).1, congrArg Option.isSome (h4 n (hd n hm)).2⟩)

/-- `-n` is taken, so `-x` may still be registered after `-n` was rejected a second time. -/
example : (addOption (addOption (.new 1) [Sample.t "-n"]).2 [Sample.t "-n"]).1 =
      .error (.throw "Short option is already registered") ∧
    (addOption (addOption (addOption (.new 1) [Sample.t "-n"]).2 [Sample.t "-n"]).2 [Sample.t "-x"]).1 =
      .ok () := by
  refine ⟨by decide +kernel, ?_⟩
  rw [(rejected_rest_partial _ (by decide +kernel)).2]
  decide +kernel

/-- An option called `-v` may be registered with a new parser, but not once `parse_args` has been
called. -/
theorem register_after_parse_violated : ∃ p argv env, Clean p ∧
    (∃ s, (parseArgs env p argv).1 = .ok s) ∧
    (addOption p [Sample.t "-v", Sample.t "--verbose"]).1 = .ok () ∧
    (addOption (parseArgs env p argv).2 [Sample.t "-v", Sample.t "--verbose"]).1 =
      .error (.throw "Short option is already registered") := by
  refine ⟨.new 1, [Sample.t "prog"], Sample.env, .made (.plain 1 .error), ?_, by decide +kernel,
    by decide +kernel⟩
  obtain ⟨s, p', e, _⟩ := Sample.of_okWith
    (x := parseArgs Sample.env (.new 1) [Sample.t "prog"]) (P := fun _ _ => true)
    (by decide +kernel)
  exact ⟨s, by rw [e]⟩

/-! ## C131: left over arguments stay left over -/

theorem reads_leftOver {G : Gram} {ts : List Text} {es : List Ev} (h : Reads G ts es) :
    Reads G (leftOver es) ((leftOver es).map Ev.left) := by
  induction h with
  | nil => exact .nil
  | plain ho _ ih => exact .plain ho ih
  | unknown ho hl _ ih => exact .unknown ho hl ih
  | flag _ _ _ _ _ _ ih => exact ih
  | missing => exact .nil
  | single _ _ _ _ _ ih => exact ih
  | multi _ _ _ _ _ _ _ ih => exact ih
  | dangling ho hl ha => exact .dangling ho hl ha

theorem fullStore_lefts (env : Env) (opts : List Opt) (ts : List Text) :
    fullStore env opts (ts.map Ev.left) = fullStore env opts [] := by
  unfold fullStore
  have := play_lefts env ts [] Store.empty
  rw [List.append_nil] at this
  rw [this]

theorem leftAt_only (ts : List Text) (n : Nat) :
    leftAt (ts.map Ev.left) n = List.range' n ts.length := by
  induction ts generalizing n with
  | nil => rfl
  | cons t ts ih => simp only [List.map_cons, leftAt, ih, List.length_cons, List.range'_succ]

/-- A parser that has parsed before reads the arguments with the options it has. -/
theorem parse_used {p p' : Parser} (g : Good p) (own : ∀ o ∈ p.opts, o.owner = p.id)
    {env : Env} {a0 : Text} {args : List Text} {s : Store}
    (hp : parseArgs env p (a0 :: args) = (.ok s, p')) (env' : Env) (b0 : Text) {ts : List Text}
    {es : List Ev} (hts : Reads (gramOf p') ts es) :
    (parseArgs env' p' (b0 :: ts)).1 = fullStore env' p'.opts es ∧
    ∀ s', (parseArgs env' p' (b0 :: ts)).1 = .ok s' →
      invalidArgs (parseArgs env' p' (b0 :: ts)).2 = leftAt es 1 := by
  obtain ⟨_, _, h2, _⟩ := parse_ok g hp
  have hok : (prepare env (withArgv p a0 args)).1 = .ok () ∧
      ∃ inv, p' = { (prepare env (withArgv p a0 args)).2 with invalid := inv } := by
    rw [parseArgs_eq] at hp
    generalize prepare env (withArgv p a0 args) = x at *
    obtain ⟨r, q⟩ := x
    cases r with
    | error f => cases hp
    | ok u =>
      cases u
      refine ⟨rfl, ?_⟩
      simp only at hp
      cases hq : parseLoop env q args with
      | error f => rw [hq] at hp; cases hp
      | ok r => rw [hq] at hp; cases hp; exact ⟨_, rfl⟩
  obtain ⟨hok1, inv, hp'⟩ := hok
  obtain ⟨_, hid, hpre, hlong, _, _, hag⟩ :=
    prepare_own (env := env) ((withArgv_same p a0 args).good g) own
  obtain ⟨k1, k2⟩ := hag env' (withArgv p' b0 ts) (by rw [hp']; exact hid)
    (by rw [hp']; exact hpre) (by rw [hp']; exact hlong) (by rw [hp']; rfl) (by rw [hp']; rfl)
    (by rw [hp']; rfl)
  have hprep : prepare env' (withArgv p' b0 ts) =
      (.ok (), { withArgv p' b0 ts with invalid := [], version := [] }) :=
    Prod.ext (k1.trans hok1) (k2 hok1)
  rw [parseArgs_eq, hprep]
  simp only
  have hr : InRange { withArgv p' b0 ts with invalid := [], version := [] } :=
    ⟨h2.range.longs, h2.range.shorts⟩
  obtain ⟨es', r1, r2⟩ := parseLoop_spec (env := env') hr (args := ts) (by simp [withArgv])
  have hes : es' = es := reads_unique r1 hts
  subst hes
  rw [r2]
  have eo : ({ withArgv p' b0 ts with invalid := [], version := [] } : Parser).opts = p'.opts := rfl
  rw [eo]
  cases fullStore env' p'.opts es' with
  | error f => exact ⟨rfl, fun _ h => by cases h⟩
  | ok s' => exact ⟨rfl, fun _ _ => rfl⟩

/-- The texts `invalid_args()` points to. -/
theorem left_texts {p' : Parser} {a0 : Text} {args : List Text} {es : List Ev}
    (hr : Reads (gramOf p') args es) (hi : invalidArgs p' = leftAt es 1) :
    (invalidArgs p').map (fun i => (a0 :: args)[i]?) = (leftOver es).map some := by
  have := leftAt_texts es [a0]
  rw [reads_cover hr] at this
  rw [hi]
  exact this

theorem left_over_again {p p' : Parser} (g : Good p) (own : ∀ o ∈ p.opts, o.owner = p.id)
    {env : Env} {a0 : Text} {args : List Text} {s : Store}
    (hp : parseArgs env p (a0 :: args) = (.ok s, p')) {left : List Text}
    (hl : (invalidArgs p').map (fun i => (a0 :: args)[i]?) = left.map some) (env' : Env)
    (b0 : Text) :
    (parseArgs env' p' (b0 :: left)).1 = (parseArgs env' p' [b0]).1 ∧
    ∀ s', (parseArgs env' p' (b0 :: left)).1 = .ok s' →
      invalidArgs (parseArgs env' p' (b0 :: left)).2 = List.range' 1 left.length := by
  obtain ⟨es, _, _, _, h4, _, h6⟩ := parse_ok g hp
  have hleft : left = leftOver es := by
    have e : left.map some = (leftOver es).map some := hl.symm.trans (left_texts h4 h6)
    have inj : Function.Injective (some : Text → Option Text) := fun _ _ h => by cases h; rfl
    exact List.map_injective_iff.2 inj e
  have hr := reads_leftOver h4
  rw [← hleft] at hr
  obtain ⟨x1, x2⟩ := parse_used g own hp env' b0 hr
  obtain ⟨y1, _⟩ := parse_used g own hp env' b0 .nil
  rw [fullStore_lefts] at x1
  rw [leftAt_only] at x2
  exact ⟨x1.trans y1.symm, x2⟩

/-- No option is hidden among the left over arguments: given as the command line of a parser with
the same options, the values (or the exception) are those of an empty command line, and all of the
arguments are left over once more. -/
theorem left_over_stays {p p' : Parser} (h : Reach p) (own : ∀ o ∈ p.opts, o.owner = p.id)
    {env : Env} {a0 : Text} {args : List Text} {s : Store}
    (hp : parseArgs env p (a0 :: args) = (.ok s, p')) {left : List Text}
    (hl : (invalidArgs p').map (fun i => (a0 :: args)[i]?) = left.map some) (env' : Env)
    (b0 : Text) :
    (parseArgs env' p (b0 :: left)).1 = (parseArgs env' p [b0]).1 ∧
    ∀ s', (parseArgs env' p (b0 :: left)).1 = .ok s' →
      invalidArgs (parseArgs env' p (b0 :: left)).2 = List.range' 1 left.length := by
  obtain ⟨h1, h2⟩ := left_over_again (reach_good h) own hp hl env' b0
  have hp' : p' = after p [(env, a0 :: args)] := by
    simp only [after]; rw [hp]
  obtain ⟨e1, e2⟩ := parse_again h own [(env, a0 :: args)] env' (b0 :: left)
  obtain ⟨e3, _⟩ := parse_again h own [(env, a0 :: args)] env' [b0]
  rw [← hp'] at e1 e2 e3
  refine ⟨e1.symm.trans (h1.trans e3), fun s' hs => ?_⟩
  rw [← e2 s' hs]
  exact h2 s' (e1.trans hs)

example : ∃ s p', parseArgs Sample.env Sample.parser Sample.argv = (.ok s, p') ∧
    (invalidArgs p').map (fun i => Sample.argv[i]?) =
      [Sample.argv[2]!, Sample.argv[6]!].map some := by
  obtain ⟨s, p', e, h⟩ := Sample.of_okWith
    (x := parseArgs Sample.env Sample.parser Sample.argv)
    (P := fun _ p' => (invalidArgs p').map (fun i => Sample.argv[i]?) =
      [Sample.argv[2]!, Sample.argv[6]!].map some) (by decide +kernel)
  exact ⟨s, p', e, of_decide_eq_true h⟩

end Verif.Opt
