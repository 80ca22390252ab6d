import Verif.Opt.Reg

/-!
What `parse_args` does before it looks at the arguments, and the invariants of reachable parsers.
-/

namespace Verif.Opt

/-- Two parsers with the same tables and names. -/
structure SameReg (p q : Parser) : Prop where
  pre : q.pre = p.pre
  longPre : q.longPre = p.longPre
  longs : q.longs = p.longs
  shorts : q.shorts = p.shorts
  names : q.opts.map Opt.names = p.opts.map Opt.names

/-- The invariant of every reachable parser. -/
structure Good (p : Parser) : Prop where
  range : InRange p
  long2 : p.longPre.length = 2

theorem SameReg.good {p q : Parser} (h : SameReg p q) (g : Good p) : Good q := by
  have hl : q.opts.length = p.opts.length := by
    have := congrArg List.length h.names
    simpa using this
  refine ⟨⟨?_, ?_⟩, by rw [h.longPre]; exact g.long2⟩
  · intro n i hi
    rw [h.longs] at hi; rw [hl]; exact g.range.longs n i hi
  · intro n i hi
    rw [h.shorts] at hi; rw [hl]; exact g.range.shorts n i hi

theorem SameReg.tables {p q : Parser} (h : SameReg p q) (t : TablesFor p p.opts) :
    TablesFor q q.opts := by
  refine ⟨?_, ?_, ?_⟩
  · intro n i
    rw [h.longs, h.pre, h.longPre, isLatest_names h.names]
    exact t.longs n i
  · intro n i
    rw [h.shorts, h.pre, h.longPre, isLatest_names h.names]
    exact t.shorts n i
  · intro o ho n hn
    rw [h.pre, h.longPre]
    have : o.names ∈ p.opts.map Opt.names := by
      rw [← h.names]; exact List.mem_map_of_mem ho
    obtain ⟨o', ho', e⟩ := List.mem_map.1 this
    exact t.valid o' ho' n (by rw [e]; exact hn)

theorem Setting.app_names (s : Setting) (o : Opt) : (s.app o).names = o.names := by
  cases s <;> rfl

theorem edit_sameReg (p : Parser) (i : Nat) (f : Opt → Opt) (hf : ∀ o, (f o).names = o.names) :
    SameReg p (p.edit i f) := by
  refine ⟨rfl, rfl, rfl, rfl, ?_⟩
  simp only [Parser.edit]
  apply List.ext_getElem?
  intro j
  simp only [List.getElem?_map, List.getElem?_modify]
  cases p.opts[j]? with
  | none => rfl
  | some o =>
    simp only [Option.map_some]
    split <;> simp [hf]

/-! ## Validation -/

/-- The destination taken from the first long name if none was given. -/
def filled (c : Char) (l : Text) (o : Opt) : Opt :=
  if o.dest = [] then { o with dest := destFrom c l o.names } else o

/-- An option that `parse_args` accepts. -/
structure Complete (o : Opt) : Prop where
  names : o.names ≠ []
  action : o.action ≠ .null
  dest : o.dest ≠ []
  choices : o.type = .choice ∨ o.choices = []

theorem validate_own {env : Env} {p : Parser} {o : Opt} (h : o.owner = p.id) :
    ∃ b, validate env p o = .ok (b, filled p.pre p.longPre o) ∧
      (b = true ↔ Complete (filled p.pre p.longPre o)) := by
  have key : ∀ o : Opt, ((if o.names.isEmpty ∨ o.action = .null ∨ o.dest.isEmpty ∨
      (o.type ≠ .choice ∧ !o.choices.isEmpty) then false else true) = true ↔ Complete o) := by
    intro o
    split
    · rename_i hh
      simp only [Bool.false_eq_true, false_iff]
      intro c
      rcases hh with a | a | a | ⟨a, b⟩
      · exact c.names (by simpa using a)
      · exact c.action a
      · exact c.dest (by simpa using a)
      · rcases c.choices with e | e
        · exact a e
        · rw [e] at b; simp at b
    · rename_i hh
      simp only [true_iff]
      simp only [not_or, not_and] at hh
      refine ⟨?_, hh.2.1, ?_, ?_⟩
      · intro e; exact hh.1 (by simp [e])
      · intro e; exact hh.2.2.1 (by simp [e])
      · by_cases e : o.type = .choice
        · exact .inl e
        · right
          have := hh.2.2.2 e
          simpa using this
  refine ⟨_, ?_, key _⟩
  have e1 : filled p.pre p.longPre o = (if o.dest.isEmpty ∧ !o.names.isEmpty then
      { o with dest := destFrom p.pre p.longPre o.names } else o) := by
    unfold filled
    cases hd : o.dest with
    | nil =>
      cases hn : o.names with
      | nil => simp [destFrom]; cases o; simp_all
      | cons => simp
    | cons => simp
  rw [e1]
  unfold validate prefixesOf
  split
  · simp only [h]
    show (if _ then _ else _ : Except Fault (Bool × Opt)) = _
    split <;> simp_all
    all_goals rfl
  · show (if _ then _ else _ : Except Fault (Bool × Opt)) = _
    split <;> simp_all
    all_goals rfl

theorem validate_names {env : Env} {p : Parser} {o o' : Opt} {b : Bool}
    (h : validate env p o = .ok (b, o')) : o'.names = o.names ∧
      (b = true → Complete o') ∧ o' = { o with dest := o'.dest } := by
  have key : ∀ o o' : Opt, ∀ b, ((if o.names.isEmpty ∨ o.action = .null ∨ o.dest.isEmpty ∨
      (o.type ≠ .choice ∧ !o.choices.isEmpty) then .ok (false, o) else .ok (true, o)) :
      Except Fault (Bool × Opt)) = .ok (b, o') → o' = o ∧ (b = true → Complete o') := by
    intro o o' b hh
    split at hh
    · cases hh; exact ⟨rfl, by simp⟩
    · rename_i hn
      cases hh
      simp only [not_or, not_and] at hn
      refine ⟨rfl, fun _ => ⟨?_, hn.2.1, ?_, ?_⟩⟩
      · intro e; exact hn.1 (by simp [e])
      · intro e; exact hn.2.2.1 (by simp [e])
      · by_cases e : o.type = .choice
        · exact .inl e
        · right
          have := hn.2.2.2 e
          simpa using this
  unfold validate at h
  split at h
  · cases hp : prefixesOf env p o.owner with
    | error f => rw [hp] at h; cases h
    | ok x =>
      rw [hp] at h
      obtain ⟨rfl, hc⟩ := key _ _ _ h
      exact ⟨rfl, hc, rfl⟩
  · obtain ⟨rfl, hc⟩ := key _ _ _ h
    exact ⟨rfl, hc, rfl⟩

theorem validateAll_names {env : Env} {p : Parser} : ∀ (os done : List Opt),
    (validateAll env p os done).2.map Opt.names = (done ++ os).map Opt.names := by
  intro os
  induction os with
  | nil => intro done; simp [validateAll]
  | cons o os ih =>
    intro done
    unfold validateAll
    cases hv : validate env p o with
    | error f => rfl
    | ok x =>
      obtain ⟨b, o'⟩ := x
      have hn := (validate_names hv).1
      cases b with
      | true =>
        simp only
        rw [ih]
        simp [hn]
      | false =>
        simp only
        split <;> simp [hn]

theorem validate_error {env : Env} {p : Parser} {o : Opt} {f : Fault}
    (h : validate env p o = .error f) : f = .ub "destroyed parser read" ∧ o.owner ≠ p.id := by
  by_cases ho : o.owner = p.id
  · obtain ⟨b, hv, _⟩ := validate_own (env := env) ho
    rw [hv] at h; cases h
  · have last : ∀ o : Opt, ((if o.names.isEmpty ∨ o.action = .null ∨ o.dest.isEmpty ∨
        (o.type ≠ .choice ∧ !o.choices.isEmpty) then .ok (false, o) else .ok (true, o)) :
        Except Fault (Bool × Opt)) ≠ .error f := by
      intro o hh
      split at hh <;> cases hh
    unfold validate at h
    split at h
    · cases hp : prefixesOf env p o.owner with
      | error g =>
        rw [hp] at h
        cases h
        unfold prefixesOf at hp
        rw [if_neg ho] at hp
        cases hq : env.peer o.owner with
        | none => rw [hq] at hp; cases hp; exact ⟨rfl, ho⟩
        | some x => rw [hq] at hp; cases hp
      | ok x =>
        rw [hp] at h
        exact absurd h (last _)
    · exact absurd h (last _)

/-- The faults of the validation loop. -/
theorem validateAll_error {env : Env} {p : Parser} : ∀ (os done : List Opt) (f : Fault),
    (validateAll env p os done).1 = .error f →
    f = .throw "incomplete option" ∨ (f = .ub "front of an empty vector" ∧ ∃ o ∈ os, o.names = []) ∨
      (f = .ub "destroyed parser read" ∧ ∃ o ∈ os, o.owner ≠ p.id) := by
  intro os
  induction os with
  | nil => intro done f h; cases h
  | cons o os ih =>
    intro done f h
    unfold validateAll at h
    cases hv : validate env p o with
    | error f' =>
      rw [hv] at h
      cases h
      obtain ⟨rfl, hn⟩ := validate_error hv
      exact .inr (.inr ⟨rfl, o, by simp, hn⟩)
    | ok x =>
      obtain ⟨b, o'⟩ := x
      rw [hv] at h
      cases b with
      | true =>
        rcases ih _ f h with e | ⟨e, o2, h2, h3⟩ | ⟨e, o2, h2, h3⟩
        · exact .inl e
        · exact .inr (.inl ⟨e, o2, by simp [h2], h3⟩)
        · exact .inr (.inr ⟨e, o2, by simp [h2], h3⟩)
      | false =>
        simp only at h
        split at h
        · rename_i hn
          cases h
          refine .inr (.inl ⟨rfl, o, by simp, ?_⟩)
          rw [← (validate_names hv).1]
          simpa using hn
        · cases h; exact .inl rfl

/-- What validation makes of an option. -/
structure Validated (p : Parser) (o o' : Opt) : Prop where
  same : o' = { o with dest := o'.dest }
  complete : Complete o'
  own : o.owner = p.id → o' = filled p.pre p.longPre o

theorem validateAll_ok {env : Env} {p : Parser} : ∀ (os done : List Opt),
    (validateAll env p os done).1 = .ok () →
    ∃ os', (validateAll env p os done).2 = done ++ os' ∧ List.Forall₂ (Validated p) os os' := by
  intro os
  induction os with
  | nil => intro done _; exact ⟨[], by simp [validateAll], .nil⟩
  | cons o os ih =>
    intro done h
    unfold validateAll at h ⊢
    cases hv : validate env p o with
    | error f' => rw [hv] at h; cases h
    | ok x =>
      obtain ⟨b, o'⟩ := x
      rw [hv] at h
      cases b with
      | true =>
        simp only at h ⊢
        obtain ⟨os', e, hf⟩ := ih _ h
        refine ⟨o' :: os', by rw [e]; simp, .cons ?_ hf⟩
        obtain ⟨_, h2, h3⟩ := validate_names hv
        refine ⟨h3, h2 rfl, ?_⟩
        intro ho
        obtain ⟨b, hb, _⟩ := validate_own (env := env) ho
        rw [hv] at hb
        cases hb; rfl
      | false =>
        simp only at h
        split at h <;> cases h

/-! ## The flags -/

/-- The fields `addFlag` leaves alone. -/
structure SameRest (p q : Parser) : Prop where
  id : q.id = p.id
  pre : q.pre = p.pre
  longPre : q.longPre = p.longPre
  argc : q.argc = p.argc
  argv : q.argv = p.argv
  program : q.program = p.program
  usage : q.usage = p.usage
  invalid : q.invalid = p.invalid
  handler : q.handler = p.handler

theorem SameRest.trans {p q r : Parser} (h : SameRest p q) (h' : SameRest q r) : SameRest p r :=
  ⟨h'.id.trans h.id, h'.pre.trans h.pre, h'.longPre.trans h.longPre, h'.argc.trans h.argc,
    h'.argv.trans h.argv, h'.program.trans h.program, h'.usage.trans h.usage,
    h'.invalid.trans h.invalid, h'.handler.trans h.handler⟩

/-- The option `addFlag` adds. -/
def flagOpt (p : Parser) (c : Char) (name help : Text) : Opt :=
  { owner := p.id, names := [[p.pre, c], p.longPre ++ name], dest := name, action := .storeTrue,
    type := .bool, help := help }

theorem kindOf_flag {p : Parser} (h2 : p.longPre.length = 2) {c : Char} {name : Text}
    (hn : name ≠ []) :
    kindOf p.pre p.longPre [p.pre, c] = .short ∧
      kindOf p.pre p.longPre (p.longPre ++ name) = .long := by
  constructor
  · simp [kindOf]
  · unfold kindOf
    have hl : 0 < name.length := List.length_pos_iff.2 hn
    have e : substr (p.longPre ++ name) 0 2 = p.longPre := by
      simp [substr, h2]
    rw [if_pos ⟨by simp; omega, e⟩]

theorem addFlag_spec {p : Parser} (g : Good p) {c : Char} {name help : Text} (hn : name ≠ []) :
    (addFlag p c name help).1 = .ok () ∧ Good (addFlag p c name help).2 ∧
    (TablesFor p p.opts →
      TablesFor (addFlag p c name help).2 (addFlag p c name help).2.opts) ∧
    ((addFlag p c name help).2.opts = p.opts ∨
      ((addFlag p c name help).2.opts = p.opts ++ [flagOpt p c name help] ∧
        (TablesFor p p.opts → ∀ u ∈ p.opts, ∀ n ∈ (flagOpt p c name help).names, n ∉ u.names))) ∧
    SameRest p (addFlag p c name help).2 := by
  unfold addFlag
  simp only
  split
  · rename_i hfree
    obtain ⟨k1, k2⟩ := kindOf_flag g.long2 (c := c) hn
    have hsn : p.shorts [p.pre, c] = none := by simpa using hfree.1
    have hln : p.longs (p.longPre ++ name) = none := by simpa using hfree.2
    have hadd : addOption p [[p.pre, c], p.longPre ++ name] =
        (.ok (), { p with opts := p.opts ++ [{ owner := p.id, names := [[p.pre, c], p.longPre ++ name] }]
                          shorts := upd p.shorts [p.pre, c] (some p.opts.length)
                          longs := upd p.longs (p.longPre ++ name) (some p.opts.length) }) := by
      unfold addOption addOpt
      simp only [registerNames, k1, hsn, Option.isSome_none, Bool.false_eq_true, and_false,
        if_false, k2, hln]
    have htab := (addOpt_spec (p := p)
      (o := { owner := p.id, names := [[p.pre, c], p.longPre ++ name] }))
    have hrange := registerNames_range (i := p.opts.length) (m := p.opts.length + 1) (by omega)
      [[p.pre, c], p.longPre ++ name]
      { p with opts := p.opts ++ [{ owner := p.id, names := [[p.pre, c], p.longPre ++ name] }] }
      (fun n j hj => Nat.lt_succ_of_lt (g.range.longs n j hj))
      (fun n j hj => Nat.lt_succ_of_lt (g.range.shorts n j hj))
    change (∀ n j, (addOption p [[p.pre, c], p.longPre ++ name]).2.longs n = some j → _) ∧
      (∀ n j, (addOption p [[p.pre, c], p.longPre ++ name]).2.shorts n = some j → _) at hrange
    change TablesFor p p.opts → ((addOption p [[p.pre, c], p.longPre ++ name]).1 = .ok () ↔ _) ∧
      ((addOption p [[p.pre, c], p.longPre ++ name]).1 = .ok () →
        TablesFor (addOption p [[p.pre, c], p.longPre ++ name]).2
          (addOption p [[p.pre, c], p.longPre ++ name]).2.opts) ∧ _ at htab
    have hq : ∃ q, addOption p [[p.pre, c], p.longPre ++ name] = (.ok (), q) ∧
        q.opts = p.opts ++ [{ owner := p.id, names := [[p.pre, c], p.longPre ++ name] }] ∧
        SameRest p q := ⟨_, hadd, rfl, ⟨rfl, rfl, rfl, rfl, rfl, rfl, rfl, rfl, rfl⟩⟩
    obtain ⟨q, hq, hqo, hqr⟩ := hq
    rw [hq] at htab hrange ⊢
    simp only
    have hqg : Good q := by
      refine ⟨⟨?_, ?_⟩, by rw [hqr.longPre]; exact g.long2⟩
      · intro n j hj; rw [hqo]; simpa using hrange.1 n j hj
      · intro n j hj; rw [hqo]; simpa using hrange.2 n j hj
    have hsame := edit_sameReg q (q.opts.length - 1) (fun o =>
        { o with dest := name, action := .storeTrue, type := .bool, help := help }) (fun _ => rfl)
    refine ⟨trivial, hsame.good hqg, ?_, .inr ⟨?_, ?_⟩, ?_⟩
    · intro ht
      exact hsame.tables ((htab ht).2.1 rfl)
    · simp only [Parser.edit, hqo]
      apply List.ext_getElem?
      intro j
      rw [List.getElem?_modify]
      simp only [List.length_append, List.length_cons, List.length_nil, Nat.zero_add,
        Nat.add_sub_cancel]
      rcases Nat.lt_trichotomy j p.opts.length with h | h | h
      · rw [List.getElem?_append_left h, List.getElem?_append_left h]
        have hne : ¬ p.opts.length = j := by omega
        simp [hne]
      · subst h
        simp [flagOpt]
      · rw [List.getElem?_eq_none_iff.2 (by simp; omega),
          List.getElem?_eq_none_iff.2 (by simp; omega)]
        rfl
    · intro ht u hu n hn hm
      obtain ⟨t1, t2⟩ := tables_some ht (n := n)
      simp only [flagOpt, List.mem_cons, List.not_mem_nil, or_false] at hn
      rcases hn with rfl | rfl
      · have := (t1 k1).2 ⟨u, hu, hm⟩
        rw [hsn] at this; cases this
      · have := (t2 k2).2 ⟨u, hu, hm⟩
        rw [hln] at this; cases this
    · exact ⟨hqr.id, hqr.pre, hqr.longPre, hqr.argc, hqr.argv, hqr.program, hqr.usage, hqr.invalid,
        hqr.handler⟩
  · exact ⟨rfl, g, id, .inl rfl, ⟨rfl, rfl, rfl, rfl, rfl, rfl, rfl, rfl, rfl⟩⟩

/-- Options that `parse_args` has added. -/
structure IsFlag (p : Parser) (o : Opt) : Prop where
  action : o.action = .storeTrue
  type : o.type = .bool
  dest : o.dest = "usage".toList ∨ o.dest = "help".toList ∨ o.dest = "version".toList
  plain : o.dflt = [] ∧ o.env = [] ∧ o.choices = []
  owner : o.owner = p.id
  names : o.names ≠ []
  fresh : TablesFor p p.opts → ∀ u ∈ p.opts, ∀ n ∈ o.names, n ∉ u.names

/-- The parser with the three flags. -/
theorem flags_spec {p : Parser} (g : Good p) : ∃ q flags,
    addFlags p = (.ok (), q) ∧
    Good q ∧ (TablesFor p p.opts → TablesFor q q.opts) ∧ q.opts = p.opts ++ flags ∧
    (∀ o ∈ flags, IsFlag p o) ∧ SameRest p q := by
  have pair : ∀ x : Except Fault Unit × Parser, x.1 = .ok () → x = (.ok (), x.2) := by
    rintro ⟨a, b⟩ h; simp only at h; subst h; rfl
  obtain ⟨u1, u2, u3, u4, u5⟩ := addFlag_spec g (c := 'u') (name := "usage".toList)
    (help := "show usage of the ".toList ++ p.program) (by decide)
  have eu := pair _ u1
  generalize (addFlag p 'u' "usage".toList ("show usage of the ".toList ++ p.program)).2 = q1
    at u2 u3 u4 u5 eu
  obtain ⟨h1, h2, h3, h4, h5⟩ := addFlag_spec u2 (c := 'h') (name := "help".toList)
    (help := "show the help of the ".toList ++ q1.program) (by decide)
  have eh := pair _ h1
  generalize (addFlag q1 'h' "help".toList ("show the help of the ".toList ++ q1.program)).2 = q2
    at h2 h3 h4 h5 eh
  have g3 : Good { q2 with version := [] } := ⟨⟨h2.range.longs, h2.range.shorts⟩, h2.long2⟩
  obtain ⟨v1, v2, v3, v4, v5⟩ := addFlag_spec g3 (c := 'v') (name := "version".toList)
    (help := "show version of the ".toList ++ q2.program) (by decide)
  have ev := pair _ v1
  generalize (addFlag { q2 with version := [] } 'v' "version".toList
    ("show version of the ".toList ++ q2.program)).2 = q3 at v2 v3 v4 v5 ev
  have isf : ∀ (q : Parser) (c : Char) (name help : Text), q.id = p.id →
      (name = "usage".toList ∨ name = "help".toList ∨ name = "version".toList) →
      (TablesFor p p.opts → ∀ u ∈ p.opts, ∀ n ∈ (flagOpt q c name help).names, n ∉ u.names) →
      IsFlag p (flagOpt q c name help) := by
    intro q c name help hid hname hfr
    exact ⟨rfl, rfl, hname, ⟨rfl, rfl, rfl⟩, hid, by simp [flagOpt], hfr⟩
  have f1 : ∃ fl, q1.opts = p.opts ++ fl ∧ ∀ o ∈ fl, IsFlag p o := by
    rcases u4 with e | ⟨e, hfr⟩
    · exact ⟨[], by simp [e], by simp⟩
    · exact ⟨_, e, by intro o ho; simp only [List.mem_singleton] at ho; subst ho
                      exact isf _ _ _ _ rfl (.inl rfl) hfr⟩
  have f2 : ∃ fl, q2.opts = p.opts ++ fl ∧ ∀ o ∈ fl, IsFlag p o := by
    obtain ⟨fl, e1, hf⟩ := f1
    rcases h4 with e | ⟨e, hfr⟩
    · exact ⟨fl, by rw [e, e1], hf⟩
    · refine ⟨fl ++ [_], by rw [e, e1, List.append_assoc], ?_⟩
      intro o ho
      rcases List.mem_append.1 ho with h | h
      · exact hf o h
      · simp only [List.mem_singleton] at h; subst h
        exact isf _ _ _ _ u5.id (.inr (.inl rfl))
          (fun ht u hu => hfr (u3 ht) u (by rw [e1]; simp [hu]))
  have f3 : ∃ fl, q3.opts = p.opts ++ fl ∧ ∀ o ∈ fl, IsFlag p o := by
    obtain ⟨fl, e1, hf⟩ := f2
    rcases v4 with e | ⟨e, hfr⟩
    · exact ⟨fl, by rw [e, e1], hf⟩
    · refine ⟨fl ++ [_], by rw [e]; simp only; rw [e1, List.append_assoc], ?_⟩
      intro o ho
      rcases List.mem_append.1 ho with h | h
      · exact hf o h
      · simp only [List.mem_singleton] at h; subst h
        exact isf _ _ _ _ (h5.id.trans u5.id) (.inr (.inr rfl))
          (fun ht u hu => hfr ⟨(h3 (u3 ht)).longs, (h3 (u3 ht)).shorts, (h3 (u3 ht)).valid⟩ u
            (by simp only; rw [e1]; simp [hu]))
  obtain ⟨fl, e, hf⟩ := f3
  refine ⟨q3, fl, ?_, v2, ?_, e, hf, ?_⟩
  · unfold addFlags addUsage
    simp only [List.isEmpty_nil, if_true]
    rw [eu]
    simp only
    unfold addHelp
    simp only [List.isEmpty_nil, if_true]
    rw [eh]
    simp only
    unfold addVersion
    exact ev
  · intro ht
    have t2 := h3 (u3 ht)
    exact v3 ⟨t2.longs, t2.shorts, t2.valid⟩
  · have s2 := u5.trans h5
    exact ⟨v5.id.trans s2.id, v5.pre.trans s2.pre, v5.longPre.trans s2.longPre,
      v5.argc.trans s2.argc, v5.argv.trans s2.argv, v5.program.trans s2.program,
      v5.usage.trans s2.usage, v5.invalid.trans s2.invalid, v5.handler.trans s2.handler⟩

/-! ## `prepare` -/

/-- The parser when the arguments are looked at. -/
structure Prepared (p q : Parser) : Prop where
  opts : ∃ os flags, q.opts = os ++ flags ∧ List.Forall₂ (Validated p) p.opts os ∧
    ∀ o ∈ flags, IsFlag p o
  rest : SameRest { p with invalid := [] } q

theorem prepare_spec {env : Env} {p : Parser} (g : Good p) :
    Good (prepare env p).2 ∧
    (TablesFor p p.opts → TablesFor (prepare env p).2 (prepare env p).2.opts) ∧
    ((prepare env p).1 = .ok () → Prepared p (prepare env p).2) ∧
    (∀ f, (prepare env p).1 = .error f → f = .throw "incomplete option" ∨
      (f = .ub "front of an empty vector" ∧ ∃ o ∈ p.opts, o.names = []) ∨
      (f = .ub "destroyed parser read" ∧ ∃ o ∈ p.opts, o.owner ≠ p.id)) := by
  unfold prepare
  simp only
  have hn := validateAll_names (env := env) (p := { p with invalid := [] }) p.opts []
  have herr := validateAll_error (env := env) (p := { p with invalid := [] }) p.opts []
  have hok := validateAll_ok (env := env) (p := { p with invalid := [] }) p.opts []
  generalize validateAll env { p with invalid := [] } p.opts [] = x at hn herr hok
  obtain ⟨r, os⟩ := x
  have hsame : ∀ os : List Opt, os.map Opt.names = p.opts.map Opt.names →
      SameReg p { p with invalid := [], opts := os } := fun os h => ⟨rfl, rfl, rfl, rfl, h⟩
  have hs := hsame os (by simpa using hn)
  cases r with
  | error f =>
    simp only
    refine ⟨hs.good g, fun ht => hs.tables ht, ⟨fun h => (by cases h), ?_⟩⟩
    intro f' hf
    cases hf
    exact herr f rfl
  | ok u =>
    cases u
    simp only
    obtain ⟨q, flags, e, hg, ht, ho, hfl, hr⟩ := flags_spec (hs.good g)
    rw [e]
    refine ⟨hg, fun h => ht (hs.tables h), fun _ => ⟨?_, ?_⟩, fun f hf => by cases hf⟩
    · obtain ⟨os', e', hv⟩ := hok rfl
      simp only [List.nil_append] at e'
      subst e'
      refine ⟨os, flags, ho, ?_, ?_⟩
      · refine List.Forall₂.rec (motive := fun a b _ => List.Forall₂ (Validated p) a b) .nil ?_ hv
        intro a b l₁ l₂ h _ ih
        exact .cons ⟨h.same, h.complete, h.own⟩ ih
      · intro o h
        have := hfl o h
        refine ⟨this.action, this.type, this.dest, this.plain, this.owner, this.names, ?_⟩
        intro ht u hu n hn
        have hm : u.names ∈ os.map Opt.names := by
          have e := hs.names
          simp only at e
          rw [e]; exact List.mem_map_of_mem hu
        obtain ⟨u', hu', e'⟩ := List.mem_map.1 hm
        rw [← e']
        exact this.fresh (hs.tables ht) u' hu' n hn
    · exact ⟨hr.id, hr.pre, hr.longPre, hr.argc, hr.argv, hr.program, hr.usage, hr.invalid,
        hr.handler⟩

/-! ## Reachable parsers -/

theorem good_made {p : Parser} (h : Made p) : Good p ∧ TablesFor p p.opts := by
  have key : ∀ p : Parser, p.opts = [] → (p.longs = fun _ => none) → (p.shorts = fun _ => none) →
      p.longPre.length = 2 → Good p ∧ TablesFor p p.opts := by
    intro p ho hl hs h2
    have hnl : ∀ n i, ¬ IsLatest ([] : List Opt) n i := by
      rintro n i ⟨⟨o, h, _⟩, _⟩; simp at h
    refine ⟨⟨⟨?_, ?_⟩, h2⟩, ⟨?_, ?_, ?_⟩⟩
    · intro n i h; rw [hl] at h; cases h
    · intro n i h; rw [hs] at h; cases h
    · intro n i; rw [hl, ho]; simp [hnl]
    · intro n i; rw [hs, ho]; simp [hnl]
    · intro o h; rw [ho] at h; cases h
  cases h with
  | plain id h => exact key _ rfl rfl rfl rfl
  | both id c h => exact key _ rfl rfl rfl rfl
  | char h =>
    unfold Parser.newPrefix at h
    split at h
    · cases h; exact key _ rfl rfl rfl rfl
    · cases h

theorem parseVec_snd {env : Env} {p : Parser} {args : List Text} :
    ∃ inv, (parseVec env p args).2 = { (prepare env p).2 with invalid := inv } := by
  unfold parseVec
  generalize prepare env p = x
  obtain ⟨r, q⟩ := x
  cases r with
  | error f => exact ⟨q.invalid, rfl⟩
  | ok u =>
    cases u
    simp only
    cases parseLoop env q args with
    | error f => exact ⟨q.invalid, rfl⟩
    | ok r => exact ⟨r.invalid, rfl⟩

theorem sameReg_invalid (p : Parser) (inv : List Nat) : SameReg p { p with invalid := inv } :=
  ⟨rfl, rfl, rfl, rfl, rfl⟩

theorem good_parse {env : Env} {p : Parser} {argv : List Text} (g : Good p) :
    Good (parseArgs env p argv).2 ∧ (TablesFor p p.opts →
      TablesFor (parseArgs env p argv).2 (parseArgs env p argv).2.opts) := by
  cases argv with
  | nil => exact ⟨g, id⟩
  | cons a0 args =>
    simp only [parseArgs]
    generalize hq : ({ p with program := _, argc := _, argv := _ } : Parser) = q
    have hs : SameReg p q := by subst hq; exact ⟨rfl, rfl, rfl, rfl, rfl⟩
    obtain ⟨inv, e⟩ := parseVec_snd (env := env) (p := q) (args := args)
    obtain ⟨h1, h2, _⟩ := prepare_spec (env := env) (hs.good g)
    rw [e]
    exact ⟨(sameReg_invalid _ inv).good h1, fun t => (sameReg_invalid _ inv).tables
      (h2 (hs.tables t))⟩

theorem good_add {p : Parser} {ns : List Text} (g : Good p) : Good (addOption p ns).2 := by
  unfold addOption addOpt
  have hr := registerNames_range (i := p.opts.length) (m := p.opts.length + 1) (by omega) ns
    { p with opts := p.opts ++ [{ owner := p.id, names := ns }] }
    (fun n j hj => Nat.lt_succ_of_lt (g.range.longs n j hj))
    (fun n j hj => Nat.lt_succ_of_lt (g.range.shorts n j hj))
  have e := registerNames_same p.opts.length ns
    { p with opts := p.opts ++ [{ owner := p.id, names := ns }] }
  have eo : (registerNames p.opts.length ns
    { p with opts := p.opts ++ [{ owner := p.id, names := ns }] }).2.opts =
      p.opts ++ [{ owner := p.id, names := ns }] := by rw [e]
  have el : (registerNames p.opts.length ns
    { p with opts := p.opts ++ [{ owner := p.id, names := ns }] }).2.longPre = p.longPre := by
      rw [e]
  refine ⟨⟨?_, ?_⟩, by simp only; rw [el]; exact g.long2⟩
  · intro n i h
    simp only at h ⊢
    rw [eo]; simpa using hr.1 n i h
  · intro n i h
    simp only at h ⊢
    rw [eo]; simpa using hr.2 n i h

theorem formatUsage_same (p : Parser) : SameReg p (formatUsage p).2 := by
  unfold formatUsage
  split
  · split <;> exact ⟨rfl, rfl, rfl, rfl, rfl⟩
  · exact ⟨rfl, rfl, rfl, rfl, rfl⟩

theorem formatVersion_same (p : Parser) : SameReg p (formatVersion p).2 := by
  unfold formatVersion
  split <;> exact ⟨rfl, rfl, rfl, rfl, rfl⟩

theorem formatHelp_same (p : Parser) : SameReg p (formatHelp p).2 := by
  have h := formatUsage_same p
  unfold formatHelp
  split
  · exact ⟨rfl, rfl, rfl, rfl, rfl⟩
  · split
    · exact ⟨rfl, rfl, rfl, rfl, rfl⟩
    · split
      · rename_i e; rw [e] at h; exact h
      · rename_i e; rw [e] at h; exact h

theorem good_version {p : Parser} (m : Text) (g : Good p) : Good { p with version := m } :=
  SameReg.good (by exact ⟨rfl, rfl, rfl, rfl, rfl⟩) g

theorem reach_good {p : Parser} (h : Reach p) : Good p := by
  induction h with
  | made h => exact (good_made h).1
  | call c _ g =>
    cases c with
    | add ns => exact good_add g
    | set i s => exact (edit_sameReg _ i _ s.app_names).good g
    | program t => exact SameReg.good (by exact ⟨rfl, rfl, rfl, rfl, rfl⟩) g
    | usage t => exact SameReg.good (by exact ⟨rfl, rfl, rfl, rfl, rfl⟩) g
    | version t => exact SameReg.good (by exact ⟨rfl, rfl, rfl, rfl, rfl⟩) g
    | addUsage m => exact (addFlag_spec g (by decide)).2.1
    | addHelp m => exact (addFlag_spec g (by decide)).2.1
    | addVersion m => exact (addFlag_spec (good_version m g) (by decide)).2.1
    | formatUsage => exact (formatUsage_same _).good g
    | formatVersion => exact (formatVersion_same _).good g
    | formatHelp => exact (formatHelp_same _).good g
    | parse env argv => exact (good_parse g).1
    | copy id => exact SameReg.good (by exact ⟨rfl, rfl, rfl, rfl, rfl⟩) g

theorem clean_tables {p : Parser} (h : Clean p) : TablesFor p p.opts := by
  induction h with
  | made h => exact (good_made h).2
  | call c hc ha t =>
    have g := reach_good hc.reach
    cases c with
    | add ns => exact (addOpt_spec t).2.1 ha
    | set i s => exact (edit_sameReg _ i _ s.app_names).tables t
    | program x => exact SameReg.tables (by exact ⟨rfl, rfl, rfl, rfl, rfl⟩) t
    | usage x => exact SameReg.tables (by exact ⟨rfl, rfl, rfl, rfl, rfl⟩) t
    | version x => exact SameReg.tables (by exact ⟨rfl, rfl, rfl, rfl, rfl⟩) t
    | addUsage m => exact (addFlag_spec g (by decide)).2.2.1 t
    | addHelp m => exact (addFlag_spec g (by decide)).2.2.1 t
    | addVersion m =>
      exact (addFlag_spec (good_version m g) (by decide)).2.2.1
        (SameReg.tables (by exact ⟨rfl, rfl, rfl, rfl, rfl⟩) t)
    | formatUsage => exact (formatUsage_same _).tables t
    | formatVersion => exact (formatVersion_same _).tables t
    | formatHelp => exact (formatHelp_same _).tables t
    | parse env argv => exact (good_parse g).2 t
    | copy id => exact SameReg.tables (by exact ⟨rfl, rfl, rfl, rfl, rfl⟩) t

end Verif.Opt
