import Verif.Opt.OptViolations

/-!
# The violations of C66, C70, C92 and C93 for every parser
-/

namespace Verif.Opt

/-! ## C70, C66: arguments taken up as values -/

/-- A known option that ends in its only `'='`, wherever it is on the command line, is given the
argument after it, whatever that is. -/
theorem reads_after_eq {c : Char} {l : Text} {opts : List Opt} {args : List Text} {es : List Ev}
    (hr : Reads (grammar c l opts) args es) :
    ∀ o a k vals, '=' ∉ a → Ev.use o ((a ++ ['=']) :: k) vals ∈ es →
      ∃ v k' vals', k = v :: k' ∧ vals = v :: vals' := by
  have hflag : ∀ a : Text, '=' ∉ a ++ ['='] → False := fun a h => h (by simp)
  have htk : ∀ {a w : Text} {ts k rest : List Text}, '=' ∉ a →
      Takes (grammar c l opts) (a ++ ['=']) ts w k rest → k = [w] := by
    intro a w ts k rest ha h
    generalize e : a ++ ['='] = t at h
    cases h with
    | inline hb hw => exact absurd (eq_append_inj ha hb e).2.symm hw
    | next hn => subst e; exact (hflag _ hn).elim
    | afterEq => rfl
  induction hr with
  | nil => intros; contradiction
  | plain _ _ ih | unknown _ _ _ ih =>
    intro o a k vals ha hm; simp at hm; exact ih o a k vals ha hm
  | flag _ _ hn _ _ _ ih =>
    intro o a k vals ha hm
    rcases List.mem_cons.1 hm with e | hm
    · cases e; exact (hflag _ hn).elim
    · exact ih o a k vals ha hm
  | missing => intro o a k vals ha hm; simp at hm
  | single _ _ _ ht _ ih =>
    intro o a k vals ha hm
    rcases List.mem_cons.1 hm with e | hm
    · cases e; exact ⟨_, [], [], htk ha ht, rfl⟩
    · exact ih o a k vals ha hm
  | multi _ _ _ ht _ _ _ ih =>
    intro o a k vals ha hm
    rcases List.mem_cons.1 hm with e | hm
    · cases e
      rw [htk ha ht]
      exact ⟨_, _, _, rfl, rfl⟩
    · exact ih o a k vals ha hm
  | dangling => intro o a k vals ha hm; simp at hm

/-- C70, violated for every parser and every command line: an option given as `--name=` takes up the
argument after it as its value, whatever that looks like, also if it is an option. -/
theorem empty_value_swallows_everywhere_violated {p p' : Parser} (h : Clean p) {env : Env} {a0 : Text}
    {args : List Text} {s : Store} (hp : parseArgs env p (a0 :: args) = (.ok s, p')) :
    ∃ es, fullStore env p'.opts es = .ok s ∧ invalidArgs p' = leftAt es 1 ∧ es.flatMap Ev.toks = args ∧
      ∀ o a k vals, '=' ∉ a → Ev.use o ((a ++ ['=']) :: k) vals ∈ es →
        ∃ v k' vals', k = v :: k' ∧ vals = v :: vals' := by
  obtain ⟨es, h1, h2, h3, h4, h5, h6⟩ := parse_ok (reach_good h.reach) hp
  have e1 : p'.pre = p.pre := h1.rest.pre
  have e2 : p'.longPre = p.longPre := h1.rest.longPre
  have hr := reads_grammar h2 (h3 (clean_tables h)) h4
  rw [e1, e2] at hr
  exact ⟨es, h5, h6, reads_cover hr, reads_after_eq hr⟩

/-- C70, violated for every parser: if the command line begins with `--name=` and any other argument,
and the name is known (the argument is not left over), the other argument is not left over either. -/
theorem empty_value_first_violated {p p' : Parser} (h : Clean p) {env : Env} {a0 a v : Text}
    {rest : List Text} {s : Store} (ha : '=' ∉ a)
    (hp : parseArgs env p (a0 :: (a ++ ['=']) :: v :: rest) = (.ok s, p')) (hl : 1 ∉ invalidArgs p') :
    2 ∉ invalidArgs p' ∧ ∃ o k vals es, fullStore env p'.opts (.use o ((a ++ ['=']) :: v :: k) (v :: vals) :: es) = .ok s ∧
      stripped a ∈ o.names := by
  obtain ⟨es, h1, h2, h3, h4, h5, h6⟩ := parse_ok (reach_good h.reach) hp
  have hr := reads_grammar h2 (h3 (clean_tables h)) h4
  have hcov := reads_cover hr
  have haf := reads_after_eq hr
  unfold invalidArgs at hl ⊢
  rw [h6] at hl ⊢
  have hgt : ∀ (es : List Ev) (n m : Nat), m < n → m ∉ leftAt es n := by
    intro es
    induction es with
    | nil => intro n m _ h; cases h
    | cons e es ih =>
      intro n m hm h
      cases e with
      | left t =>
        rcases List.mem_cons.1 h with h | h
        · omega
        · exact ih (n + 1) m (by omega) h
      | use o ts vs => exact ih (n + ts.length) m (by omega) h
      | missing o ts => exact ih (n + ts.length) m (by omega) h
  have hname : namePart (a ++ ['=']) = a := by
    unfold namePart
    have h0 : ∀ x ∈ a, decide (x ≠ '=') = true := fun x hx => decide_eq_true (fun e => ha (e ▸ hx))
    rw [List.takeWhile_append_of_pos h0]
    simp
  have hlook : ∀ {o : Opt}, (grammar p'.pre p'.longPre p'.opts).look (a ++ ['=']) = some o → stripped a ∈ o.names := by
    intro o hlk
    simp only [grammar, hname] at hlk
    split at hlk
    · cases hlk
    · exact (latest_mem hlk).2
  have key : ∀ {o : Opt} {k vals : List Text} {es' : List Ev}, es = .use o ((a ++ ['=']) :: k) vals :: es' →
      stripped a ∈ o.names →
      2 ∉ leftAt es 1 ∧ ∃ o k vals es, fullStore env p'.opts (.use o ((a ++ ['=']) :: v :: k) (v :: vals) :: es) = .ok s ∧
        stripped a ∈ o.names := by
    intro o k vals es' e hn
    subst e
    obtain ⟨w, k', vals', rfl, rfl⟩ := haf o a k vals ha (by simp)
    simp only [List.flatMap_cons, Ev.toks, List.cons_append, List.cons.injEq, true_and] at hcov
    obtain ⟨rfl, _⟩ := hcov
    have h7 : 2 ∉ leftAt es' (1 + ((a ++ ['=']) :: w :: k').length) :=
      hgt _ _ _ (by simp only [List.length_cons]; omega)
    exact ⟨h7, o, k', vals', es', h5, hn⟩
  generalize e : a ++ ['='] = t at hr key hl
  cases hr with
  | plain => exact absurd (by simp [leftAt]) hl
  | unknown => exact absurd (by simp [leftAt]) hl
  | flag _ _ hn => subst e; simp at hn
  | missing _ _ hn => subst e; simp at hn
  | single _ hlk => subst e; exact key rfl (hlook hlk)
  | multi _ hlk => subst e; exact key rfl (hlook hlk)

/-- The hypotheses are met: `prog --name= --quiet`. -/
example : ∃ p, Clean p ∧ ∃ s p', parseArgs Sample.env p (["prog", "--name=", "--quiet"].map Sample.t) = (.ok s, p') ∧
    invalidArgs p' = [] := by
  refine ⟨Bad.with_ [([Sample.t "--name"], [.action .store, .type .string]),
    ([Sample.t "--quiet"], [.action .storeTrue, .type .bool])], Bad.with_clean (by decide +kernel), ?_⟩
  obtain ⟨s, p', e, _, h⟩ := Bad.of_shows (p := Bad.with_ [([Sample.t "--name"], [.action .store, .type .string]),
    ([Sample.t "--quiet"], [.action .storeTrue, .type .bool])]) (argv := ["prog", "--name=", "--quiet"])
    (vals := []) (left := []) (by decide +kernel)
  exact ⟨s, p', e, h⟩

/-- C66, violated for every parser: if the command line begins with an option without a value, such as
a flag, and an argument that is not an option, and the option is known (it is not left over), the
argument is not left over either: the option takes it for its value. -/
theorem flag_takes_argument_everywhere_violated {p p' : Parser} (h : Clean p) {env : Env} {a0 a v : Text}
    {rest : List Text} {s : Store} (ha : '=' ∉ a) (hv : v.head? ≠ some p.pre)
    (hp : parseArgs env p (a0 :: a :: v :: rest) = (.ok s, p')) (hl : 1 ∉ invalidArgs p') :
    2 ∉ invalidArgs p' ∧ ∃ o k vals es, fullStore env p'.opts (.use o (a :: v :: k) (v :: vals) :: es) = .ok s ∧
      stripped a ∈ o.names := by
  obtain ⟨es, h1, h2, h3, h4, h5, h6⟩ := parse_ok (reach_good h.reach) hp
  have hr := reads_grammar h2 (h3 (clean_tables h)) h4
  have e1 : p'.pre = p.pre := h1.rest.pre
  unfold invalidArgs at hl ⊢
  rw [h6] at hl ⊢
  have hgt : ∀ (es : List Ev) (n m : Nat), m < n → m ∉ leftAt es n := by
    intro es
    induction es with
    | nil => intro n m _ h; cases h
    | cons e es ih =>
      intro n m hm h
      cases e with
      | left t =>
        rcases List.mem_cons.1 h with h | h
        · omega
        · exact ih (n + 1) m (by omega) h
      | use o ts vs => exact ih (n + ts.length) m (by omega) h
      | missing o ts => exact ih (n + ts.length) m (by omega) h
  have hname : namePart a = a := by
    unfold namePart
    rw [List.takeWhile_eq_self_iff]
    exact fun x hx => decide_eq_true (fun e => ha (e ▸ hx))
  have hlook : ∀ {o : Opt}, (grammar p'.pre p'.longPre p'.opts).look a = some o → stripped a ∈ o.names := by
    intro o hlk
    simp only [grammar, hname] at hlk
    split at hlk
    · cases hlk
    · exact (latest_mem hlk).2
  have hnot : ∀ {q : Prop}, NoValueNext (grammar p'.pre p'.longPre p'.opts) (v :: rest) → q := by
    intro q hn
    have := hn v rfl
    simp only [grammar, beq_iff_eq, e1] at this
    exact absurd this hv
  have key : ∀ {o : Opt} {w : Text} {k ks vals rest' : List Text} {es' : List Ev},
      Takes (grammar p'.pre p'.longPre p'.opts) a (v :: rest) w k rest' →
      es = .use o (a :: (k ++ ks)) (w :: vals) :: es' → stripped a ∈ o.names →
      2 ∉ leftAt es 1 ∧ ∃ o k vals es, fullStore env p'.opts (.use o (a :: v :: k) (v :: vals) :: es) = .ok s ∧
        stripped a ∈ o.names := by
    intro o w k ks vals rest' es' htk e hn
    subst e
    cases htk with
    | inline => simp at ha
    | afterEq => simp at ha
    | next =>
      have h7 : 2 ∉ leftAt es' (1 + (a :: v :: ks).length) :=
        hgt _ _ _ (by simp only [List.length_cons]; omega)
      exact ⟨h7, o, ks, vals, es', h5, hn⟩
  cases hr with
  | plain => exact absurd (by simp [leftAt]) hl
  | unknown => exact absurd (by simp [leftAt]) hl
  | flag _ _ _ hn => exact hnot hn
  | missing _ _ _ hn => exact hnot hn
  | single _ hlk _ htk => exact key (ks := []) htk (by rw [List.append_nil]) (hlook hlk)
  | multi _ hlk _ htk => exact key htk rfl (hlook hlk)

/-- The hypotheses are met: `prog --verbose input.txt`. -/
example : ∃ p, Clean p ∧ ∃ s p', parseArgs Sample.env p (["prog", "--verbose", "input.txt"].map Sample.t) = (.ok s, p') ∧
    invalidArgs p' = [] := by
  refine ⟨Bad.with_ [([Sample.t "--verbose"], [.action .storeTrue, .type .bool])], Bad.with_clean (by decide +kernel), ?_⟩
  obtain ⟨s, p', e, _, h⟩ := Bad.of_shows (p := Bad.with_ [([Sample.t "--verbose"], [.action .storeTrue, .type .bool])])
    (argv := ["prog", "--verbose", "input.txt"]) (vals := []) (left := []) (by decide +kernel)
  exact ⟨s, p', e, h⟩

/-! ## C92: the overload taking a vector -/

/-- A parser that has not parsed yet, after any other calls. -/
inductive Unparsed : Parser → Prop where
  | made {p : Parser} : Made p → Unparsed p
  | call {p : Parser} (c : Call) : Unparsed p → (∀ env argv, c ≠ .parse env argv) → Unparsed (c.run p)

theorem addOption_argv (p : Parser) (ns : List Text) :
    (addOption p ns).2.argc = p.argc ∧ (addOption p ns).2.argv = p.argv ∧ (addOption p ns).2.usage = p.usage := by
  unfold addOption addOpt
  rw [registerNames_same]
  exact ⟨rfl, rfl, rfl⟩

theorem addFlag_argv (p : Parser) (c : Char) (n m : Text) :
    (addFlag p c n m).2.argc = p.argc ∧ (addFlag p c n m).2.argv = p.argv := by
  unfold addFlag
  simp only
  split
  · have h := addOption_argv p [[p.pre, c], p.longPre ++ n]
    generalize addOption p [[p.pre, c], p.longPre ++ n] = x at h
    obtain ⟨r, q⟩ := x
    cases r with
    | error f => exact ⟨h.1, h.2.1⟩
    | ok u => cases u; exact ⟨h.1, h.2.1⟩
  · exact ⟨rfl, rfl⟩

theorem formatUsage_argv (p : Parser) :
    (Opt.formatUsage p).2.argc = p.argc ∧ (Opt.formatUsage p).2.argv = p.argv := by
  unfold Opt.formatUsage
  split
  · split <;> exact ⟨rfl, rfl⟩
  · exact ⟨rfl, rfl⟩

theorem unparsed_argv {p : Parser} (h : Unparsed p) : p.argc = 0 ∧ p.argv = none ∧ Reach p := by
  induction h with
  | made h =>
    refine ⟨?_, ?_, .made h⟩
    · cases h with
      | plain => rfl
      | both => rfl
      | char h =>
        unfold Parser.newPrefix at h
        split at h
        · cases h; rfl
        · cases h
    · cases h with
      | plain => rfl
      | both => rfl
      | char h =>
        unfold Parser.newPrefix at h
        split at h
        · cases h; rfl
        · cases h
  | @call p c _ hc ih =>
    obtain ⟨h1, h2, h3⟩ := ih
    suffices (c.run p).argc = p.argc ∧ (c.run p).argv = p.argv from
      ⟨this.1.trans h1, this.2.trans h2, .call c h3⟩
    cases c with
    | parse env argv => exact absurd rfl (hc env argv)
    | add ns => exact ⟨(addOption_argv p ns).1, (addOption_argv p ns).2.1⟩
    | addUsage m => exact addFlag_argv ..
    | addHelp m => exact addFlag_argv ..
    | addVersion m => exact addFlag_argv { p with version := m } ..
    | formatUsage => exact formatUsage_argv p
    | formatVersion =>
      show (Opt.formatVersion p).2.argc = _ ∧ _
      unfold Opt.formatVersion
      simp only [Call.run, Opt.formatVersion]
      split <;> exact ⟨rfl, rfl⟩
    | formatHelp =>
      simp only [Call.run, Opt.formatHelp]
      split
      · exact ⟨rfl, rfl⟩
      · split
        · exact ⟨rfl, rfl⟩
        · have h := formatUsage_argv p
          generalize Opt.formatUsage p = x at h
          obtain ⟨r, q⟩ := x
          cases r <;> exact h
    | _ => exact ⟨rfl, rfl⟩

/-- C92, violated for every parser that has not parsed yet: `get_raw_argv()` reads through a null
pointer, and `parse_args(vector, argv)`, which works without arguments, reads outside of an empty span
if the first argument is not an option, whatever the options and the other arguments are. -/
theorem vector_overload_everywhere_violated {p : Parser} (h : Unparsed p) {env : Env} {a : Text} {rest : List Text}
    {s : Store} (hok : (parseVec env p []).1 = .ok s) (ha : a.head? ≠ some p.pre) :
    (parseVec env p (a :: rest)).1 = .error (.ub "span index out of range") ∧
    getRawArgv p = .error (.ub "null argv read") := by
  obtain ⟨h1, h2, h3⟩ := unparsed_argv h
  refine ⟨?_, by unfold getRawArgv; rw [h2]⟩
  obtain ⟨_, _, g3, _⟩ := prepare_spec (env := env) (reach_good h3)
  unfold parseVec at hok ⊢
  generalize prepare env p = x at g3 hok
  obtain ⟨r, q⟩ := x
  cases r with
  | error f => cases hok
  | ok u =>
    cases u
    have hr := (g3 rfl).rest
    have hpre : q.pre = p.pre := hr.pre
    have hargc : q.argc = 0 := hr.argc.trans h1
    have hk : argKind q a = .invalid := by
      unfold argKind
      have : startsWithChar q.pre a = false := by
        cases a with
        | nil => rfl
        | cons d t =>
          simp only [startsWithChar, beq_eq_false_iff_ne, hpre]
          rintro rfl
          exact ha rfl
      rw [this]
      rfl
    have hl : parseLoop env q (a :: rest) = .error (.ub "span index out of range") := by
      unfold parseLoop
      rw [List.length_cons, argLoop]
      simp only [hk, if_true, Run.reject, argvAt, hargc]
      rfl
    simp only [hl]

/-- The hypotheses are met. -/
example : ∃ p s, Unparsed p ∧ (parseVec Sample.env p []).1 = .ok s ∧ (Sample.t "file").head? ≠ some p.pre := by
  have hu : Unparsed (Call.run (.set 0 (.action .store)) (Call.run (.add [Sample.t "--num"]) (.new 1))) :=
    .call _ (.call _ (.made (.plain 1 .error)) (by intros; simp)) (by intros; simp)
  obtain ⟨s, p', e, _⟩ := Sample.of_okWith (x := parseVec Sample.env
    (Call.run (.set 0 (.action .store)) (Call.run (.add [Sample.t "--num"]) (.new 1))) []) (P := fun _ _ => true) (by decide +kernel)
  exact ⟨_, s, hu, by rw [e], by decide +kernel⟩

/-! ## C93: messages -/

/-- C93, violated for every parser without options: `format_help()` dereferences the end iterator. -/
theorem help_empty_everywhere_violated {p : Parser} (h : p.opts = []) :
    (formatHelp p).1 = .error (.ub "end iterator dereferenced") := by
  unfold formatHelp
  rw [h]
  rfl

/-- C93, violated for every parser: once the usage message has been asked for, it stays the same, whatever
options are registered later. -/
theorem usage_stale_everywhere_violated {p q : Parser} {u : Text} (h : formatUsage p = (.ok u, q)) (regs : List (List Text)) :
    (formatUsage (regs.foldl (fun q ns => (addOption q ns).2) q)).1 = .ok u := by
  have hq : q.usage = u ∧ u ≠ [] := by
    unfold formatUsage at h
    by_cases hu : p.usage.isEmpty = true
    · rw [if_pos hu] at h
      cases e : usageParts p.opts with
      | error f => rw [e] at h; cases h
      | ok t =>
        rw [e] at h
        cases h
        refine ⟨rfl, ?_⟩
        intro h0
        have := congrArg List.length h0
        simp at this
    · rw [if_neg hu] at h
      cases h
      exact ⟨rfl, by simpa using hu⟩
  have key : ∀ (regs : List (List Text)) (q : Parser), (regs.foldl (fun q ns => (addOption q ns).2) q).usage = q.usage := by
    intro regs
    induction regs with
    | nil => intro q; rfl
    | cons ns regs ih => intro q; rw [List.foldl_cons, ih, (addOption_argv q ns).2.2]
  unfold formatUsage
  rw [key, hq.1, if_neg (by simpa using hq.2)]

/-- The hypotheses are met, and a parser with the option from the start gives another message. -/
example : ∃ p u q, formatUsage p = (.ok u, q) ∧ (formatUsage (addOption p [Sample.t "--late"]).2).1 ≠ .ok u := by
  refine ⟨Bad.with_ [([Sample.t "--num"], [.action .store, .type .int])], Sample.t "usage:  [--num]\n", _, Prod.ext ?_ rfl, ?_⟩ <;>
    decide +kernel

/-! ## C89: names that are accepted but never found -/

theorem stripped_sub (t : Text) : ∀ x ∈ stripped t, x ∈ t := by
  intro x hx
  unfold stripped at hx
  have h1 := (List.dropWhile_suffix ws).subset (List.mem_reverse.1 hx)
  exact (List.dropWhile_suffix ws).subset (List.mem_reverse.1 h1)

theorem stripped_head {c : Char} (hc : ws c = false) {u : Text} (h : u.head? = some c) : (stripped u).head? = some c := by
  cases u with
  | nil => cases h
  | cons d u =>
    simp only [List.head?_cons, Option.some.injEq] at h
    subst h
    unfold stripped
    rw [List.dropWhile_cons, hc]
    simp only [Bool.false_eq_true, if_false, List.reverse_cons, List.head?_reverse]
    rw [List.dropWhile_append]
    split
    · simp [hc]
    · rw [List.getLast?_append]; rfl

/-- C89, violated for every parser and every command line: an option is never found by a name that has
`'='` in it, that is the long prefix, or that does not begin with the prefix character, as `--name` does
not for a parser made with another character and a conflict handler; `add_option` accepts such names (see
`accepted_unusable`).  So options that have no other names are never used. -/
theorem unusable_names_everywhere_violated {p p' : Parser} (h : Clean p) (hw : ws p.pre = false) {env : Env} {a0 : Text}
    {args : List Text} {s : Store} (hp : parseArgs env p (a0 :: args) = (.ok s, p')) :
    ∃ es, fullStore env p'.opts es = .ok s ∧ invalidArgs p' = leftAt es 1 ∧ es.flatMap Ev.toks = args ∧
      ∀ o, (∀ n ∈ o.names, '=' ∈ n ∨ n = p.longPre ∨ n.head? ≠ some p.pre) →
        ∀ toks vals, Ev.use o toks vals ∉ es := by
  obtain ⟨es, h1, h2, h3, h4, _⟩ := parse_names h hp
  refine ⟨es, h1, h2, h3, fun o hn toks vals hm => ?_⟩
  obtain ⟨t, k, rfl, ht, hne, hl⟩ := h4 o toks vals hm
  have hmem := (latest_mem hl).2
  rcases hn _ hmem with hn | hn | hn
  · have := stripped_sub _ _ hn
    unfold namePart at this
    have h5 := List.all_takeWhile (p := fun x : Char => decide (x ≠ '=')) (l := t)
    rw [List.all_eq_true] at h5
    have := h5 _ this
    simp at this
  · exact hne hn
  · by_cases hpe : p.pre = '='
    · cases t with
      | nil => cases ht
      | cons c t =>
        simp only [List.head?_cons, Option.some.injEq] at ht
        rw [hpe] at ht
        subst ht
        have e : stripped (namePart ('=' :: t)) = [] := by simp [namePart, stripped]
        rw [e] at hmem
        obtain ⟨es', g1, g2, g3, g4, g5, g6⟩ := parse_ok (reach_good h.reach) hp
        have hv := (g3 (clean_tables h)).valid o (latest_mem hl).1 [] hmem
        have e1 : p'.pre = p.pre := g1.rest.pre
        rw [e1, hpe] at hv
        exact hv (by simp [kindOf])
    · apply hn
      apply stripped_head hw
      unfold namePart
      cases t with
      | nil => cases ht
      | cons c t =>
        simp only [List.head?_cons, Option.some.injEq] at ht
        subst ht
        rw [List.takeWhile_cons, if_pos (decide_eq_true hpe)]
        rfl

/-- Every such name that is new is accepted, for every parser: those with `'='` that begin with the prefix,
the long prefix of parsers with the usual prefix, and those with `--` for parsers made with another character and a
conflict handler. -/
theorem accepted_unusable {p : Parser} {n : Text} (hs : p.shorts n = none) (hl : p.longs n = none)
    (hn : n.head? = some p.pre ∨ 2 < n.length ∧ n.take 2 = p.longPre) : (addOption p [n]).1 = .ok () := by
  unfold addOption addOpt registerNames
  have hk : kindOf p.pre p.longPre n ≠ .invalid := by
    unfold kindOf
    rcases hn with hn | hn
    · split
      · simp
      · have : n.headD '\x00' = p.pre := by cases n <;> simp_all
        rw [if_pos this]
        simp
    · rw [if_pos ⟨hn.1, by simpa [substr] using hn.2⟩]
      simp
  cases hkk : kindOf p.pre p.longPre n with
  | invalid => exact absurd hkk hk
  | short => simp [hs, registerNames]
  | long => simp [hl, registerNames]

/-- The hypotheses are met: `prog --num=3` for a parser with the prefix `'+'` and a conflict handler. -/
example : ∃ p, Clean p ∧ ws p.pre = false ∧ p.pre = '+' ∧
    (∃ o ∈ p.opts, ∀ n ∈ o.names, '=' ∈ n ∨ n = p.longPre ∨ n.head? ≠ some p.pre) ∧
    ∃ s p', parseArgs Sample.env p (["prog", "--num=3"].map Sample.t) = (.ok s, p') := by
  refine ⟨Sample.run (.newPrefixHandler 1 '+' .error)
      (Sample.calls 0 [([Sample.t "--num"], [.action .store, .type .int])]),
    Sample.run_clean (.made (.both 1 '+' .error)) (by decide +kernel), by decide +kernel, by decide +kernel,
    by decide +kernel, ?_⟩
  obtain ⟨s, p', e, _, _⟩ := Bad.of_shows (p := Sample.run (.newPrefixHandler 1 '+' .error)
      (Sample.calls 0 [([Sample.t "--num"], [.action .store, .type .int])]))
    (argv := ["prog", "--num=3"]) (vals := []) (left := [1]) (by decide +kernel)
  exact ⟨s, p', e⟩

/-! ## C91: typed access -/

/-- C91, violated for every parser: if a flag that keeps the type text is given as `--flag=w`, whatever the parser's
other options are, `get<bool>` of its destination ends the program. -/
theorem typed_get_everywhere_violated {p p' : Parser} (h : Clean p) {env : Env} {a0 a w : Text} {s : Store}
    (ha : '=' ∉ a) (hw : w ≠ []) (hp : parseArgs env p [a0, a ++ '=' :: w] = (.ok s, p')) (hl : invalidArgs p' = [])
    {d : Text} (hd : ∀ o ∈ p'.opts, stripped a ∈ o.names ∨ o.dest = d →
      o.dest = d ∧ o.action = .storeTrue ∧ o.type = .string) :
    s.get .bool d = .error (.throw "terminate") := by
  obtain ⟨es, hr, _, _, _, h6⟩ := parse_reads h hp
  rw [hl] at h6
  have hst := (parse_stored_partial h hp hr (d := d) (fun o ho e => by rw [(hd o ho (.inr e)).2.1]; rfl)).1
  have hname : namePart (a ++ '=' :: w) = a := by
    unfold namePart
    have h0 : ∀ x ∈ a, decide (x ≠ '=') = true := fun x hx => decide_eq_true (fun e => ha (e ▸ hx))
    rw [List.takeWhile_append_of_pos h0]
    simp
  have hlook : ∀ {o : Opt}, (grammar p.pre p.longPre p'.opts).look (a ++ '=' :: w) = some o →
      o.dest = d ∧ o.action = .storeTrue ∧ o.type = .string := by
    intro o hlk
    simp only [grammar, hname] at hlk
    split at hlk
    · cases hlk
    · exact hd o (latest_mem hlk).1 (.inl (latest_mem hlk).2)
  have hval : valuesFor env d (given es) = [.str w] := by
    generalize e : a ++ '=' :: w = t at hr hlook
    cases hr with
    | plain => simp [leftAt] at h6
    | unknown => simp [leftAt] at h6
    | flag _ _ hn => subst e; simp at hn
    | missing _ _ hn => subst e; simp at hn
    | multi _ hlk hact => rw [(hlook hlk).2.1] at hact; cases hact
    | dangling => simp [leftAt] at h6
    | @single _ w' _ _ _ _ o _ hlk _ htk hrest =>
      obtain ⟨q1, q2, q3⟩ := hlook hlk
      cases htk with
      | inline hb hw' =>
        obtain ⟨_, rfl⟩ := eq_append_inj ha hb e
        cases hrest
        simp [given, valuesFor, about, q1, gives, q2, hw, outcome, parseValue, q3, pure, Except.pure]
  rw [hval] at hst
  have := hst .bool
  simpa [Val.alt] using this

/-- The hypotheses are met. -/
example : ∃ p, Clean p ∧ ∃ s p', parseArgs Sample.env p (["prog", "--flag=1"].map Sample.t) = (.ok s, p') ∧
    invalidArgs p' = [] ∧ (∀ o ∈ p'.opts, stripped (Sample.t "--flag") ∈ o.names ∨ o.dest = Sample.t "flag" →
      o.dest = Sample.t "flag" ∧ o.action = .storeTrue ∧ o.type = .string) := by
  refine ⟨Bad.with_ [([Sample.t "--flag"], [.action .storeTrue])], Bad.with_clean (by decide +kernel), ?_⟩
  obtain ⟨s, p', e, h⟩ := Sample.of_okWith (x := parseArgs Sample.env
    (Bad.with_ [([Sample.t "--flag"], [.action .storeTrue])]) (["prog", "--flag=1"].map Sample.t))
    (P := fun _ p' => decide (invalidArgs p' = []) &&
      p'.opts.all (fun o => decide (stripped (Sample.t "--flag") ∈ o.names ∨ o.dest = Sample.t "flag" →
      o.dest = Sample.t "flag" ∧ o.action = .storeTrue ∧ o.type = .string))) (by decide +kernel)
  rw [Bool.and_eq_true, List.all_eq_true] at h
  exact ⟨s, p', e, of_decide_eq_true h.1, fun o ho => of_decide_eq_true (h.2 o ho)⟩

end Verif.Opt
