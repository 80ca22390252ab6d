import Verif.Opt.OptMore

/-!
# Parsing more than once

`parse_args` changes the parser it is called on: it fills in destinations, adds up to three flags,
and keeps the program name.  Here: none of this shows in what a later `parse_args` does.
-/

namespace Verif.Opt

/-! ## Parts of the options that parsing does not look at -/

/-- An option without its help text. -/
def Opt.bare (o : Opt) : Opt := { o with help := [] }

/-- A parser without the texts it only shows in messages, and without the `argv` pointer. -/
def Parser.strip (p : Parser) : Parser :=
  { p with program := [], usage := [], version := [], argv := none, opts := p.opts.map Opt.bare }

/-- The same without `argc`. -/
def Parser.bare (p : Parser) : Parser := { p.strip with argc := 0 }

theorem strip_of_bare {p q : Parser} (h : p.bare = q.bare) (ha : p.argc = q.argc) :
    p.strip = q.strip := by
  have e : ∀ p : Parser, p.strip = { p.bare with argc := p.argc } := fun _ => rfl
  rw [e, e, h, ha]

theorem appendAll_bare (env : Env) (o : Opt) : ∀ (ts : List Text) (s : Store),
    appendAll env o.bare ts s = appendAll env o ts s := by
  intro ts
  induction ts with
  | nil => intro s; rfl
  | cons t ts ih =>
    intro s
    unfold appendAll
    have : parseValue env t o.bare = parseValue env t o := rfl
    rw [this]
    cases parseValue env t o with
    | error f => rfl
    | ok v =>
      cases v with
      | none => rfl
      | some v => exact ih _

theorem processOpt_bare (env : Env) (o : Opt) (s : Store) (t : Text) :
    processOpt env o.bare s t = processOpt env o s t := by
  unfold processOpt
  simp only [appendAll_bare]
  rfl

theorem following_strip (env : Env) (p : Parser) (o : Opt) : ∀ (as : List Text) (s : Store)
    (pos : Nat) (inv : List Nat), following env p.strip o.bare as s pos inv =
      following env p o as s pos inv := by
  intro as
  induction as with
  | nil => intro s pos inv; rfl
  | cons a as ih =>
    intro s pos inv
    unfold following
    by_cases h1 : startsWithChar p.pre a = true
    · rw [if_pos (show startsWithChar p.strip.pre a = true from h1), if_pos h1]
    · rw [if_neg (show ¬ startsWithChar p.strip.pre a = true from h1), if_neg h1]
      by_cases h2 : o.action ≠ .append
      · rw [if_pos (show o.bare.action ≠ .append from h2), if_pos h2]
        have : argvAt p.strip (pos + 1) = argvAt p (pos + 1) := rfl
        rw [this]
        cases argvAt p (pos + 1) with
        | error f => rfl
        | ok i => exact ih _ _ _
      · rw [if_neg (show ¬ o.bare.action ≠ .append from h2), if_neg h2]
        rw [processOpt_bare]
        cases processOpt env o s a with
        | error f => rfl
        | ok i => exact ih _ _ _

theorem handleOpt_strip (env : Env) (p : Parser) (r : Run) :
    handleOpt env p.strip r = handleOpt env p r := by
  unfold handleOpt
  split
  · rfl
  · rename_i front args _
    simp only
    have : findOpt p.strip (trimString (extractName front)) =
      findOpt p (trimString (extractName front)) := rfl
    rw [this]
    cases findOpt p (trimString (extractName front)) with
    | none => rfl
    | some i =>
      have e : p.strip.opts[i]? = p.opts[i]?.map Opt.bare := by simp [Parser.strip]
      simp only [e]
      cases p.opts[i]? with
      | none => rfl
      | some o =>
        simp only [Option.map_some, following_strip, processOpt_bare]
        rfl

theorem argLoop_strip (env : Env) (p : Parser) : ∀ (n : Nat) (r : Run),
    argLoop env p.strip n r = argLoop env p n r := by
  intro n
  induction n with
  | zero => intro r; rfl
  | succ n ih =>
    intro r
    unfold argLoop
    simp only [handleOpt_strip, ih]
    rfl

theorem applyDefaults_bare (env : Env) : ∀ (os : List Opt) (s : Store),
    applyDefaults env (os.map Opt.bare) s = applyDefaults env os s := by
  intro os
  induction os with
  | nil => intro s; rfl
  | cons o os ih =>
    intro s
    simp only [List.map_cons, applyDefaults, ih, processOpt_bare]
    rfl

theorem applyEnv_bare (env : Env) : ∀ (os : List Opt) (s : Store),
    applyEnv env (os.map Opt.bare) s = applyEnv env os s := by
  intro os
  induction os with
  | nil => intro s; rfl
  | cons o os ih =>
    intro s
    simp only [List.map_cons, applyEnv, ih, processOpt_bare]
    rfl

theorem parseLoop_strip (env : Env) (p : Parser) (args : List Text) :
    parseLoop env p.strip args = parseLoop env p args := by
  unfold parseLoop
  rw [argLoop_strip]
  congr 1
  funext r
  have : p.strip.opts = p.opts.map Opt.bare := rfl
  rw [this, applyDefaults_bare]
  congr 1
  funext s
  rw [applyEnv_bare]

/-! ## The flags -/

theorem addFlag_yes {p : Parser} (g : Good p) {c : Char} {name help : Text} (hn : name ≠ [])
    (h : (p.shorts [p.pre, c]).isNone ∧ (p.longs (p.longPre ++ name)).isNone) :
    addFlag p c name help = (.ok (), { p with
      opts := p.opts ++ [flagOpt p c name help]
      shorts := upd p.shorts [p.pre, c] (some p.opts.length)
      longs := upd p.longs (p.longPre ++ name) (some p.opts.length) }) := by
  obtain ⟨k1, k2⟩ := kindOf_flag g.long2 (c := c) hn
  have hsn : p.shorts [p.pre, c] = none := by simpa using h.1
  have hln : p.longs (p.longPre ++ name) = none := by simpa using h.2
  have hadd : addOption p [[p.pre, c], p.longPre ++ name] =
      (.ok (), { p with opts := p.opts ++ [{ owner := p.id, names := [[p.pre, c], p.longPre ++ name] }]
                        shorts := upd p.shorts [p.pre, c] (some p.opts.length)
                        longs := upd p.longs (p.longPre ++ name) (some p.opts.length) }) := by
    unfold addOption addOpt
    simp only [registerNames, k1, hsn, Option.isSome_none, Bool.false_eq_true, and_false,
      if_false, k2, hln]
  unfold addFlag
  simp only
  rw [if_pos h, hadd]
  simp only [Parser.edit, Prod.mk.injEq, true_and, Parser.mk.injEq, and_true]
  rw [List.length_append, List.length_singleton, Nat.add_sub_cancel]
  apply List.ext_getElem?
  intro j
  rw [List.getElem?_modify]
  rcases Nat.lt_trichotomy j p.opts.length with h | h | h
  · rw [List.getElem?_append_left h, List.getElem?_append_left h]
    have hne : ¬ p.opts.length = j := by omega
    simp [hne]
  · subst h
    simp [flagOpt]
  · rw [List.getElem?_eq_none_iff.2 (by simp; omega),
      List.getElem?_eq_none_iff.2 (by simp; omega)]
    rfl

theorem addFlag_no {p : Parser} {c : Char} {name help : Text}
    (h : ¬ ((p.shorts [p.pre, c]).isNone ∧ (p.longs (p.longPre ++ name)).isNone)) :
    addFlag p c name help = (.ok (), p) := by
  unfold addFlag
  simp only
  rw [if_neg h]

theorem bare_eq {p q : Parser} (h : p.bare = q.bare) : p.id = q.id ∧ p.pre = q.pre ∧
    p.longPre = q.longPre ∧ p.shorts = q.shorts ∧ p.longs = q.longs ∧
    p.opts.length = q.opts.length :=
  ⟨by simpa [Parser.bare, Parser.strip] using congrArg Parser.id h,
    by simpa [Parser.bare, Parser.strip] using congrArg Parser.pre h,
    by simpa [Parser.bare, Parser.strip] using congrArg Parser.longPre h,
    by simpa [Parser.bare, Parser.strip] using congrArg Parser.shorts h,
    by simpa [Parser.bare, Parser.strip] using congrArg Parser.longs h,
    by simpa [Parser.bare, Parser.strip] using congrArg (fun p : Parser => p.opts.length) h⟩

/-- The help text of a flag shows in nothing else. -/
theorem addFlag_bare {p q : Parser} (gp : Good p) (gq : Good q) (h : p.bare = q.bare) {c : Char}
    {name a b : Text} (hn : name ≠ []) :
    (addFlag p c name a).2.bare = (addFlag q c name b).2.bare := by
  obtain ⟨e0, e1, e2, e3, e4, e5⟩ := bare_eq h
  by_cases hf : (p.shorts [p.pre, c]).isNone ∧ (p.longs (p.longPre ++ name)).isNone
  · have hf' : (q.shorts [q.pre, c]).isNone ∧ (q.longs (q.longPre ++ name)).isNone := by
      rw [← e1, ← e2, ← e3, ← e4]; exact hf
    rw [addFlag_yes gp hn hf, addFlag_yes gq hn hf']
    simp only [Parser.bare, Parser.strip, List.map_append, List.map_cons, List.map_nil] at h ⊢
    simp only [Parser.mk.injEq] at h ⊢
    obtain ⟨h1, h2, h3, _, _, _, _, _, h5, h6, h7, h8, h9⟩ := h
    refine ⟨h1, h2, h3, trivial, trivial, trivial, trivial, trivial, ?_, ?_, ?_, h8, h9⟩
    · rw [h5]
      simp [flagOpt, Opt.bare, e0, e1, e2]
    · rw [h2, h3] at *; simp only [h6, e5]
    · rw [h2] at *; simp only [h7, e5]
  · have hf' : ¬ ((q.shorts [q.pre, c]).isNone ∧ (q.longs (q.longPre ++ name)).isNone) := by
      rw [← e1, ← e2, ← e3, ← e4]; exact hf
    rw [addFlag_no hf, addFlag_no hf']
    exact h

/-- The three flags, one after another. -/
theorem addFlags_eq {p : Parser} (g : Good p) : ∃ a b c,
    addFlags p = (.ok (), (addFlag { (addFlag (addFlag p 'u' "usage".toList a).2
      'h' "help".toList b).2 with version := [] } 'v' "version".toList c).2) := by
  have pair : ∀ x : Except Fault Unit × Parser, x.1 = .ok () → x = (.ok (), x.2) := by
    rintro ⟨a, b⟩ h; simp only at h; subst h; rfl
  unfold addFlags addUsage
  simp only [List.isEmpty_nil, if_true]
  obtain ⟨u1, u2, _⟩ := addFlag_spec g (c := 'u') (name := "usage".toList)
    (help := "show usage of the ".toList ++ p.program) (by decide)
  refine ⟨"show usage of the ".toList ++ p.program, ?_⟩
  rw [pair _ u1]
  simp only
  generalize (addFlag p 'u' "usage".toList ("show usage of the ".toList ++ p.program)).2 = q at *
  unfold addHelp
  simp only [List.isEmpty_nil, if_true]
  obtain ⟨h1, h2, _⟩ := addFlag_spec u2 (c := 'h') (name := "help".toList)
    (help := "show the help of the ".toList ++ q.program) (by decide)
  refine ⟨"show the help of the ".toList ++ q.program, ?_⟩
  rw [pair _ h1]
  simp only
  generalize (addFlag q 'h' "help".toList ("show the help of the ".toList ++ q.program)).2 = r at *
  unfold addVersion
  have g3 : Good { r with version := [] } := ⟨⟨h2.range.longs, h2.range.shorts⟩, h2.long2⟩
  obtain ⟨v1, _⟩ := addFlag_spec g3 (c := 'v') (name := "version".toList)
    (help := "show version of the ".toList ++ r.program) (by decide)
  exact ⟨_, pair _ v1⟩

theorem addFlags_bare {p q : Parser} (gp : Good p) (gq : Good q) (h : p.bare = q.bare) :
    (addFlags p).1 = (addFlags q).1 ∧ (addFlags p).2.bare = (addFlags q).2.bare := by
  obtain ⟨a, b, c, ep⟩ := addFlags_eq gp
  obtain ⟨a', b', c', eq⟩ := addFlags_eq gq
  rw [ep, eq]
  refine ⟨rfl, ?_⟩
  have hu : ("usage".toList : Text) ≠ [] := by decide
  have hh : ("help".toList : Text) ≠ [] := by decide
  have hv : ("version".toList : Text) ≠ [] := by decide
  have b1 := addFlag_bare gp gq h (c := 'u') (a := a) (b := a') hu
  have p1 := (addFlag_spec gp (c := 'u') (help := a) hu).2.1
  have q1 := (addFlag_spec gq (c := 'u') (help := a') hu).2.1
  have b2 := addFlag_bare p1 q1 b1 (c := 'h') (a := b) (b := b') hh
  have p2 := (addFlag_spec p1 (c := 'h') (help := b) hh).2.1
  have q2 := (addFlag_spec q1 (c := 'h') (help := b') hh).2.1
  generalize (addFlag (addFlag p 'u' "usage".toList a).2 'h' "help".toList b).2 = r at b2 p2 ⊢
  generalize (addFlag (addFlag q 'u' "usage".toList a').2 'h' "help".toList b').2 = t at b2 q2 ⊢
  exact addFlag_bare (p := { r with version := [] }) (q := { t with version := [] })
    ⟨⟨p2.range.longs, p2.range.shorts⟩, p2.long2⟩ ⟨⟨q2.range.longs, q2.range.shorts⟩, q2.long2⟩
    b2 hv

/-- One of the names of a flag is taken. -/
def Taken (p : Parser) (c : Char) (name : Text) : Prop :=
  ¬ ((p.shorts [p.pre, c]).isNone ∧ (p.longs (p.longPre ++ name)).isNone)

theorem addFlag_taken {p : Parser} (g : Good p) {c : Char} {name help : Text} (hn : name ≠ []) :
    Taken (addFlag p c name help).2 c name ∧
    ∀ d n, Taken p d n → Taken (addFlag p c name help).2 d n := by
  by_cases hf : (p.shorts [p.pre, c]).isNone ∧ (p.longs (p.longPre ++ name)).isNone
  · rw [addFlag_yes g hn hf]
    refine ⟨by simp [Taken, upd], ?_⟩
    intro d n ht h
    apply ht
    simp only [upd] at h
    constructor
    · have := h.1
      split at this
      · cases this
      · exact this
    · have := h.2
      split at this
      · cases this
      · exact this
  · rw [addFlag_no hf]
    exact ⟨hf, fun _ _ h => h⟩

theorem addFlags_taken {p : Parser} (g : Good p) :
    Taken (addFlags p).2 'u' "usage".toList ∧ Taken (addFlags p).2 'h' "help".toList ∧
    Taken (addFlags p).2 'v' "version".toList := by
  obtain ⟨a, b, c, e⟩ := addFlags_eq g
  rw [e]
  have hu : ("usage".toList : Text) ≠ [] := by decide
  have hh : ("help".toList : Text) ≠ [] := by decide
  have hv : ("version".toList : Text) ≠ [] := by decide
  have g1 := (addFlag_spec g (c := 'u') (help := a) hu).2.1
  have g2 := (addFlag_spec g1 (c := 'h') (help := b) hh).2.1
  obtain ⟨t1, _⟩ := addFlag_taken g (c := 'u') (help := a) hu
  obtain ⟨t2, m2⟩ := addFlag_taken g1 (c := 'h') (help := b) hh
  obtain ⟨t3, m3⟩ := addFlag_taken (p := { (addFlag (addFlag p 'u' "usage".toList a).2
      'h' "help".toList b).2 with version := [] }) ⟨⟨g2.range.longs, g2.range.shorts⟩, g2.long2⟩
      (c := 'v') (help := c) hv
  exact ⟨m3 _ _ (m2 _ _ t1), m3 _ _ t2, t3⟩

/-- Where the names of all three are taken nothing is added. -/
theorem addFlags_no {p : Parser} (hu : Taken p 'u' "usage".toList) (hh : Taken p 'h' "help".toList)
    (hv : Taken p 'v' "version".toList) : addFlags p = (.ok (), { p with version := [] }) := by
  unfold addFlags addUsage
  rw [addFlag_no hu]
  simp only
  unfold addHelp
  rw [addFlag_no hh]
  simp only
  unfold addVersion
  rw [addFlag_no (p := { p with version := [] }) hv]

/-! ## Validation -/

theorem filled_filled (c : Char) (l : Text) (o : Opt) : filled c l (filled c l o) = filled c l o := by
  unfold filled
  split
  · split <;> simp
  · rfl

theorem validateAll_true {env : Env} {p : Parser} {o o' : Opt} {os done : List Opt}
    (h : validate env p o = .ok (true, o')) :
    validateAll env p (o :: os) done = validateAll env p os (done ++ [o']) := by
  rw [validateAll.eq_2, h]

theorem validateAll_false {env : Env} {p : Parser} {o o' : Opt} {os done : List Opt}
    (h : validate env p o = .ok (false, o')) :
    validateAll env p (o :: os) done = (.error (if o'.names.isEmpty then
      .ub "front of an empty vector" else .throw "incomplete option"), done ++ o' :: os) := by
  rw [validateAll.eq_2, h]
  simp only
  split <;> rfl

theorem filled_owner (c : Char) (l : Text) (o : Opt) : (filled c l o).owner = o.owner := by
  unfold filled
  split <;> rfl

theorem validate_env {env env' : Env} {p q : Parser} (hi : q.id = p.id) (hp : q.pre = p.pre)
    (hl : q.longPre = p.longPre) {o : Opt} (ho : o.owner = p.id) :
    validate env' q o = validate env p o := by
  unfold validate prefixesOf
  rw [hi, if_pos ho, if_pos ho, hp, hl]

/-- Own options are validated in the same way by the parser in any later state. -/
theorem validateAll_env {env env' : Env} {p q : Parser} (hi : q.id = p.id) (hp : q.pre = p.pre)
    (hl : q.longPre = p.longPre) : ∀ (os done : List Opt), (∀ o ∈ os, o.owner = p.id) →
    validateAll env' q os done = validateAll env p os done := by
  intro os
  induction os with
  | nil => intro done _; rfl
  | cons o os ih =>
    intro done ho
    unfold validateAll
    rw [validate_env (env := env) hi hp hl (ho o (by simp))]
    cases validate env p o with
    | error f => rfl
    | ok x =>
      obtain ⟨b, o'⟩ := x
      cases b with
      | true => exact ih _ (fun o h => ho o (by simp [h]))
      | false => rfl

/-- Validating once more, with further options after the first, has the same outcome for the first
and changes nothing in them. -/
theorem validateAll_again {env : Env} {p : Parser} : ∀ (os done : List Opt),
    (∀ o ∈ os, o.owner = p.id) → ∃ os', (validateAll env p os done).2 = done ++ os' ∧
      (∀ o ∈ os', o.owner = p.id) ∧
      (∀ f, (validateAll env p os done).1 = .error f → ∀ done',
        validateAll env p os' done' = (.error f, done' ++ os')) ∧
      ((validateAll env p os done).1 = .ok () → ∀ more done',
        validateAll env p (os' ++ more) done' = validateAll env p more (done' ++ os')) := by
  intro os
  induction os with
  | nil =>
    intro done _
    refine ⟨[], by simp [validateAll], ?_, ?_, ?_⟩
    · intro o h; cases h
    · intro f h; cases h
    · intro _ more done'; simp
  | cons o os ih =>
    intro done ho
    have ho1 := ho o (by simp)
    have ho2 : (filled p.pre p.longPre o).owner = p.id := by rw [filled_owner]; exact ho1
    obtain ⟨b, hv, hb⟩ := validate_own (env := env) ho1
    obtain ⟨b', hv', hb'⟩ := validate_own (env := env) ho2
    rw [filled_filled] at hv' hb'
    have ebb : b' = b := by
      cases b <;> cases b' <;> simp_all
    subst ebb
    cases b' with
    | true =>
      rw [validateAll_true hv]
      obtain ⟨os', e, ho', he, hk⟩ := ih (done ++ [filled p.pre p.longPre o])
        (fun o h => ho o (by simp [h]))
      refine ⟨filled p.pre p.longPre o :: os', by rw [e]; simp, ?_, ?_, ?_⟩
      · intro u hu
        rcases List.mem_cons.1 hu with rfl | hu
        · exact ho2
        · exact ho' u hu
      · intro f hf done'
        rw [validateAll_true hv', he f hf]
        simp
      · intro hf more done'
        rw [List.cons_append, validateAll_true hv', hk hf]
        simp
    | false =>
      rw [validateAll_false hv]
      refine ⟨filled p.pre p.longPre o :: os, rfl, ?_, ?_, fun h => by cases h⟩
      · intro u hu
        rcases List.mem_cons.1 hu with rfl | hu
        · exact ho2
        · exact ho u (by simp [hu])
      · intro f hf done'
        cases hf
        rw [validateAll_false hv']

/-- Complete options with a destination are left as they are. -/
theorem validateAll_complete {env : Env} {p : Parser} : ∀ (os done : List Opt),
    (∀ o ∈ os, o.owner = p.id ∧ Complete o) →
    validateAll env p os done = (.ok (), done ++ os) := by
  intro os
  induction os with
  | nil => intro done _; simp [validateAll]
  | cons o os ih =>
    intro done h
    obtain ⟨ho, hc⟩ := h o (by simp)
    obtain ⟨b, hv, hb⟩ := validate_own (env := env) ho
    have e : filled p.pre p.longPre o = o := by
      unfold filled; rw [if_neg hc.dest]
    rw [e] at hv hb
    have : b = true := hb.2 hc
    subst this
    rw [validateAll_true hv, ih _ (fun o h' => h o (by simp [h']))]
    simp

/-! ## `prepare` -/

/-- What `prepare` leaves: the options validated, and then either the fault or the flags. -/
theorem prepare_own {env : Env} {p : Parser} (g : Good p) (own : ∀ o ∈ p.opts, o.owner = p.id) :
    (∀ o ∈ (prepare env p).2.opts, o.owner = p.id) ∧
    (prepare env p).2.id = p.id ∧ (prepare env p).2.pre = p.pre ∧
    (prepare env p).2.longPre = p.longPre ∧ (prepare env p).2.argc = p.argc ∧
    (prepare env p).2.invalid = [] ∧
    ∀ (env' : Env) (q : Parser), q.id = p.id → q.pre = p.pre → q.longPre = p.longPre →
      q.opts = (prepare env p).2.opts → q.shorts = (prepare env p).2.shorts →
      q.longs = (prepare env p).2.longs →
      (prepare env' q).1 = (prepare env p).1 ∧
      ((prepare env p).1 = .ok () →
        (prepare env' q).2 = { q with invalid := [], version := [] }) := by
  have hnames := validateAll_names (env := env) (p := { p with invalid := [] }) p.opts []
  obtain ⟨os', e, ho, he, hk⟩ := validateAll_again (env := env) (p := { p with invalid := [] })
    p.opts [] own
  rw [prepare_eq]
  generalize hx : validateAll env { p with invalid := [] } p.opts [] = x at *
  obtain ⟨r, os⟩ := x
  simp only [List.nil_append] at e
  subst e
  cases r with
  | error f =>
    simp only
    refine ⟨ho, trivial, trivial, trivial, trivial, trivial, ?_⟩
    intro env' q h1 h2 h3 h4 _ _
    have hv := he f rfl []
    rw [← validateAll_env (env' := env') (q := { q with invalid := [] })
      (p := { p with invalid := [] }) h1 h2 h3 os [] ho, ← h4] at hv
    rw [prepare_eq, hv]
    exact ⟨rfl, fun h => by cases h⟩
  | ok u =>
    cases u
    simp only
    have hs : SameReg p { p with invalid := [], opts := os } :=
      ⟨rfl, rfl, rfl, rfl, by simpa using hnames⟩
    obtain ⟨q0, flags, e0, hg0, _, ho0, hfl, hr⟩ := flags_spec (hs.good g)
    obtain ⟨t1, t2, t3⟩ := addFlags_taken (hs.good g)
    rw [e0] at t1 t2 t3 ⊢
    simp only at t1 t2 t3 ⊢
    have hown : ∀ o ∈ q0.opts, o.owner = p.id := by
      intro o h
      rw [ho0] at h
      rcases List.mem_append.1 h with h | h
      · exact ho o h
      · exact (hfl o h).owner
    refine ⟨hown, hr.id, hr.pre, hr.longPre, hr.argc, hr.invalid, ?_⟩
    intro env' q h1 h2 h3 h4 h5 h6
    have hv := hk rfl flags []
    rw [validateAll_complete flags _ (fun o h => ?_)] at hv
    · rw [← validateAll_env (env' := env') (q := { q with invalid := [] })
        (p := { p with invalid := [] }) h1 h2 h3 (os ++ flags) []
        (fun o h => hown o (by rw [ho0]; exact h))] at hv
      rw [show os ++ flags = q.opts by rw [h4, ho0]] at hv
      have hov : [] ++ os ++ flags = q.opts := by rw [h4, ho0, List.nil_append]
      rw [hov] at hv
      rw [prepare_eq, hv]
      simp only
      have k1 : q.pre = q0.pre := by rw [h2]; exact hr.pre.symm
      have k2 : q.longPre = q0.longPre := by rw [h3]; exact hr.longPre.symm
      have tk : ∀ c n, Taken q0 c n → Taken { q with invalid := [] } c n := by
        intro c n h
        unfold Taken at h ⊢
        simp only
        rw [h5, h6, k1, k2]
        exact h
      have := addFlags_no (tk _ _ t1) (tk _ _ t2) (tk _ _ t3)
      rw [this]
      exact ⟨rfl, fun _ => rfl⟩
    · have hf := hfl o h
      refine ⟨hf.owner, hf.names, by rw [hf.action]; decide, ?_, .inr hf.plain.2.2⟩
      rcases hf.dest with e | e | e <;> rw [e] <;> decide

/-- What is only shown in messages does not matter for `prepare`. -/
theorem prepare_bare {env env' : Env} {p q : Parser} (gp : Good p) (gq : Good q)
    (own : ∀ o ∈ p.opts, o.owner = p.id) (ho : q.opts = p.opts)
    (h : ({ p with invalid := [] } : Parser).bare = ({ q with invalid := [] } : Parser).bare) :
    (prepare env p).1 = (prepare env' q).1 ∧
      (prepare env p).2.bare = (prepare env' q).2.bare := by
  obtain ⟨e0, e1, e2, e3, e4, _⟩ := bare_eq h
  simp only at e0 e1 e2 e3 e4
  have hval : validateAll env' { q with invalid := [] } q.opts [] =
      validateAll env { p with invalid := [] } p.opts [] :=
    (congrArg (fun l => validateAll env' { q with invalid := [] } l []) ho).trans
      (validateAll_env (env := env) (env' := env') (p := { p with invalid := [] })
        (q := { q with invalid := [] }) e0.symm e1.symm e2.symm p.opts [] own)
  rw [prepare_eq, prepare_eq, hval]
  have hnames := validateAll_names (env := env) (p := { p with invalid := [] }) p.opts []
  generalize validateAll env { p with invalid := [] } p.opts [] = x at hnames
  obtain ⟨r, os⟩ := x
  have hb : ({ p with invalid := [], opts := os } : Parser).bare =
      ({ q with invalid := [], opts := os } : Parser).bare := by
    have := congrArg (fun z : Parser => { z with opts := os.map Opt.bare }) h
    exact this
  cases r with
  | error f => exact ⟨rfl, hb⟩
  | ok u =>
    cases u
    have hs : SameReg p { p with invalid := [], opts := os } :=
      ⟨rfl, rfl, rfl, rfl, by simpa using hnames⟩
    have hs' : SameReg q { q with invalid := [], opts := os } :=
      ⟨rfl, rfl, rfl, rfl, by simpa [ho] using hnames⟩
    exact addFlags_bare (hs.good gp) (hs'.good gq) hb

end Verif.Opt
