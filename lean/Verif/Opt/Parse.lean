import Verif.Opt.Prep

/-!
The whole of `parse_args`: what it reads, which faults it can have and what it stores.
-/

namespace Verif.Opt

/-- The store after the command line, the defaults and the environment. -/
def fullStore (env : Env) (opts : List Opt) (es : List Ev) : Except Fault Store := do
  let s ← play env es Store.empty
  giveUnset env (defaultsOf opts ++ environmentOf env opts) s

/-- The parser as `parse_args(int, const char**)` sees it. -/
def withArgv (p : Parser) (a0 : Text) (args : List Text) : Parser :=
  { p with program := if p.program.isEmpty then a0 else p.program,
           argc := (a0 :: args).length, argv := some (a0 :: args) }

theorem withArgv_same (p : Parser) (a0 : Text) (args : List Text) :
    SameReg p (withArgv p a0 args) := ⟨rfl, rfl, rfl, rfl, rfl⟩

theorem ok_bind {α β : Type} (a : α) (f : α → Except Fault β) :
    ((Except.ok a : Except Fault α) >>= f) = f a := rfl

theorem parseLoop_spec {env : Env} {q : Parser} (hr : InRange q) {args : List Text}
    (hc : args.length < q.argc) : ∃ es, Reads (gramOf q) args es ∧
      parseLoop env q args = (fullStore env q.opts es >>= fun s =>
        .ok ⟨s, [], args.length, leftAt es 1⟩) := by
  obtain ⟨es, h1, h2⟩ := argLoop_spec (env := env) hr args.length
    ⟨Store.empty, args, 0, []⟩ (Nat.le_refl _) (by simp only; omega)
  refine ⟨es, h1, ?_⟩
  unfold parseLoop fullStore
  rw [h2]
  simp only [Nat.zero_add, List.nil_append]
  cases play env es Store.empty with
  | error f => rfl
  | ok s =>
    simp only [ok_bind]
    rw [applyDefaults_eq, giveUnset_append]
    cases giveUnset env (defaultsOf q.opts) s with
    | error f => rfl
    | ok s =>
      simp only [ok_bind]
      rw [applyEnv_eq]
      rfl

/-- Either the options are refused, or the command line is read as the grammar says. -/
theorem parse_cases {env : Env} {p : Parser} (hg : Good p) (a0 : Text) (args : List Text) :
    (∃ f p', parseArgs env p (a0 :: args) = (.error f, p') ∧
      (f = .throw "incomplete option" ∨
      (f = .ub "front of an empty vector" ∧ ∃ o ∈ p.opts, o.names = []) ∨
      (f = .ub "destroyed parser read" ∧ ∃ o ∈ p.opts, o.owner ≠ p.id))) ∨
    ∃ q es, Prepared (withArgv p a0 args) q ∧ Good q ∧ (TablesFor p p.opts → TablesFor q q.opts) ∧
      Reads (gramOf q) args es ∧
      ((∃ f, fullStore env q.opts es = .error f ∧ parseArgs env p (a0 :: args) = (.error f, q)) ∨
       (∃ s, fullStore env q.opts es = .ok s ∧
        parseArgs env p (a0 :: args) = (.ok s, { q with invalid := leftAt es 1 }))) := by
  have hs := withArgv_same p a0 args
  obtain ⟨h1, h2, h3, h4⟩ := prepare_spec (env := env) (hs.good hg)
  have e0 : parseArgs env p (a0 :: args) = parseVec env (withArgv p a0 args) args := rfl
  rw [e0]
  unfold parseVec
  generalize prepare env (withArgv p a0 args) = x at h1 h2 h3 h4
  obtain ⟨r, q⟩ := x
  cases r with
  | error f => exact .inl ⟨f, q, rfl, h4 f rfl⟩
  | ok u =>
    cases u
    right
    have hp := h3 rfl
    have hc : args.length < q.argc := by
      rw [hp.rest.argc]
      simp [withArgv]
    obtain ⟨es, hrd, hl⟩ := parseLoop_spec (env := env) h1.range hc
    refine ⟨q, es, hp, h1, fun t => h2 (hs.tables t), hrd, ?_⟩
    simp only at hl ⊢
    rw [hl]
    cases hf : fullStore env q.opts es with
    | error f => exact .inl ⟨f, rfl, rfl⟩
    | ok s => exact .inr ⟨s, rfl, rfl⟩

/-- Reading only depends on the prefixes, the tables and the options. -/
theorem gramOf_invalid (q : Parser) (inv : List Nat) :
    gramOf { q with invalid := inv } = gramOf q := rfl

/-- A successful parse. -/
theorem parse_ok {env : Env} {p p' : Parser} {s : Store} {a0 : Text} {args : List Text}
    (hg : Good p) (h : parseArgs env p (a0 :: args) = (.ok s, p')) :
    ∃ es, Prepared (withArgv p a0 args) { p' with invalid := [] } ∧ Good p' ∧
      (TablesFor p p.opts → TablesFor p' p'.opts) ∧ Reads (gramOf p') args es ∧
      fullStore env p'.opts es = .ok s ∧ p'.invalid = leftAt es 1 := by
  rcases parse_cases (env := env) hg a0 args with ⟨f, q, e, _⟩ | ⟨q, es, h1, h2, h3, h4, h5⟩
  · rw [e] at h; cases h
  · rcases h5 with ⟨f, _, e⟩ | ⟨s', hf, e⟩
    · rw [e] at h; cases h
    · rw [e] at h
      cases h
      refine ⟨es, ⟨h1.opts, ?_⟩, (sameReg_invalid _ _).good h2,
        fun t => (sameReg_invalid _ _).tables (h3 t), h4, hf, rfl⟩
      have r := h1.rest
      exact ⟨r.id, r.pre, r.longPre, r.argc, r.argv, r.program, r.usage, rfl, r.handler⟩

/-! ## Options that take part -/

/-- Every option that takes up arguments is one the grammar knows. -/
theorem reads_known {G : Gram} {ts : List Text} {es : List Ev} (h : Reads G ts es) :
    ∀ o toks vals, Ev.use o toks vals ∈ es → ∃ t, G.look t = some o := by
  induction h with
  | nil => intro o toks vals h; cases h
  | plain _ _ ih => intro o toks vals h; simp at h; exact ih o toks vals h
  | unknown _ _ _ ih => intro o toks vals h; simp at h; exact ih o toks vals h
  | flag _ hl _ _ _ _ ih =>
    intro o toks vals h
    rcases List.mem_cons.1 h with e | h
    · cases e; exact ⟨_, hl⟩
    · exact ih o toks vals h
  | missing => intro o toks vals h; simp at h
  | single _ hl _ _ _ ih =>
    intro o toks vals h
    rcases List.mem_cons.1 h with e | h
    · cases e; exact ⟨_, hl⟩
    · exact ih o toks vals h
  | multi _ hl _ _ _ _ _ ih =>
    intro o toks vals h
    rcases List.mem_cons.1 h with e | h
    · cases e; exact ⟨_, hl⟩
    · exact ih o toks vals h
  | dangling => intro o toks vals h; simp at h

theorem look_mem {p : Parser} {t : Text} {o : Opt} (h : (gramOf p).look t = some o) :
    o ∈ p.opts := by
  simp only [gramOf] at h
  cases hf : findOpt p (trimString (extractName t)) with
  | none => rw [hf] at h; cases h
  | some i => rw [hf] at h; exact List.mem_of_getElem? h

theorem given_mem {es : List Ev} {x : Opt × Text} (h : x ∈ given es) :
    ∃ toks vals, Ev.use x.1 toks vals ∈ es ∧ x.2 ∈ vals := by
  induction es with
  | nil => cases h
  | cons e es ih =>
    cases e with
    | left t =>
      obtain ⟨a, b, c, d⟩ := ih h
      exact ⟨a, b, by simp [c], d⟩
    | missing o ts =>
      obtain ⟨a, b, c, d⟩ := ih h
      exact ⟨a, b, by simp [c], d⟩
    | use o ts vs =>
      simp only [given, List.mem_append, List.mem_map] at h
      rcases h with ⟨v, hv, rfl⟩ | h
      · exact ⟨ts, vs, by simp, hv⟩
      · obtain ⟨a, b, c, d⟩ := ih h
        exact ⟨a, b, by simp [c], d⟩

theorem given_opts {p : Parser} {args : List Text} {es : List Ev} (h : Reads (gramOf p) args es)
    {x : Opt × Text} (hx : x ∈ given es) : x.1 ∈ p.opts := by
  obtain ⟨toks, vals, hu, _⟩ := given_mem hx
  obtain ⟨t, ht⟩ := reads_known h _ _ _ hu
  exact look_mem ht

theorem fallback_opts {env : Env} {opts : List Opt} {x : Opt × Text}
    (h : x ∈ defaultsOf opts ++ environmentOf env opts) : x.1 ∈ opts := by
  rcases List.mem_append.1 h with h | h
  · obtain ⟨o, ho, rfl⟩ := List.mem_map.1 h
    exact (List.mem_filter.1 ho).1
  · obtain ⟨o, ho, e⟩ := List.mem_filterMap.1 h
    split at e
    · cases e
    · cases hg : env.getenv (cstr o.env) with
      | none => rw [hg] at e; cases e
      | some t => rw [hg] at e; cases e; exact ho

theorem about_mem {d : Text} {l : List (Opt × Text)} {x : Opt × Text} (h : x ∈ about d l) :
    x ∈ l ∧ x.1.dest = d := by
  unfold about at h
  have := List.mem_filter.1 h
  exact ⟨this.1, by simpa using this.2⟩

theorem fullStore_ok {env : Env} {opts : List Opt} {es : List Ev} {s : Store}
    (h : fullStore env opts es = .ok s) : ∃ s1, play env es Store.empty = .ok s1 ∧
      giveUnset env (defaultsOf opts ++ environmentOf env opts) s1 = .ok s := by
  unfold fullStore at h
  cases hp : play env es Store.empty with
  | error f => rw [hp] at h; cases h
  | ok s1 => rw [hp] at h; exact ⟨s1, rfl, h⟩

/-! ## Faults -/

/-- The faults with which giving a text to an option can end. -/
inductive GiveFault : Fault → Prop where
  | blank : GiveFault (.ub "uninitialised value read")
  | overflow : GiveFault (.ub "signed overflow")
  | variant : GiveFault (.throw "bad_variant_access")
  | help : GiveFault (.throw "Help action is not supported yet.")
  | version : GiveFault (.throw "Version action is not supported yet.")

theorem toConvert_error {t : Text} {f : Fault} (h : toConvert t = .error f) :
    f = .ub "uninitialised value read" := by
  unfold toConvert at h
  simp only at h
  split at h
  · cases h; rfl
  · cases h

theorem parseValue_error {env : Env} {t : Text} {o : Opt} {f : Fault}
    (h : parseValue env t o = .error f) :
    f = .ub "uninitialised value read" ∧ toConvert t = .error f := by
  unfold parseValue at h
  cases ho : o.type <;> rw [ho] at h <;>
    first
    | (cases hc : toConvert t with
        | ok x => simp only [hc] at h; cases h
        | error g => simp only [hc] at h; cases h; exact ⟨toConvert_error hc, rfl⟩)
    | cases h

theorem setParsed_error {env : Env} {o : Opt} {s : Store} {t : Text} {f : Fault}
    (h : setParsed env o s t = .error f) : f = .ub "uninitialised value read" := by
  unfold setParsed at h
  cases hp : parseValue env t o with
  | error g => rw [hp] at h; cases h; exact (parseValue_error hp).1
  | ok r => rw [hp] at h; cases r <;> cases h

theorem appendAll_error {env : Env} {o : Opt} : ∀ {ts : List Text} {s : Store} {f : Fault},
    appendAll env o ts s = .error f → f = .ub "uninitialised value read" := by
  intro ts
  induction ts with
  | nil => intro s f h; cases h
  | cons t ts ih =>
    intro s f h
    unfold appendAll at h
    cases hp : parseValue env t o with
    | error g => rw [hp] at h; cases h; exact (parseValue_error hp).1
    | ok r =>
      rw [hp] at h
      cases r with
      | none => cases h
      | some v => exact ih h

theorem processOpt_error {env : Env} {o : Opt} {s : Store} {t : Text} {f : Fault}
    (ha : o.action ≠ .null) (h : processOpt env o s t = .error f) : GiveFault f := by
  unfold processOpt at h
  cases hact : o.action <;> rw [hact] at h
  · exact absurd hact ha
  · rw [setParsed_error h]; exact .blank
  · simp only at h
    split at h
    · cases h
    · rw [setParsed_error h]; exact .blank
  · simp only at h
    split at h
    · cases h
    · rw [setParsed_error h]; exact .blank
  · simp only at h
    split at h
    · rw [split_commas] at h
      rw [appendAll_error h]; exact .blank
    · cases hp : parseValue env t o with
      | error g => rw [hp] at h; cases h; rw [(parseValue_error hp).1]; exact .blank
      | ok r => rw [hp] at h; cases r <;> cases h
  · simp only at h
    cases hi : s.increment o.dest with
    | ok s1 => simp only [hi] at h; cases h
    | error g =>
      simp only [hi] at h
      cases h
      unfold Store.increment at hi
      cases hv : s.values o.dest with
      | none => rw [hv] at hi; cases hi
      | some v =>
        rw [hv] at hi
        cases v with
        | int n =>
          simp only at hi
          split at hi
          · cases hi; exact .overflow
          · cases hi
        | _ => cases hi; exact .variant
  · cases h; exact .help
  · cases h; exact .version

theorem giveSeq_error {env : Env} : ∀ {l : List (Opt × Text)} {s : Store} {f : Fault},
    (∀ x ∈ l, x.1.action ≠ .null) → giveSeq env l s = .error f → GiveFault f := by
  intro l
  induction l with
  | nil => intro s f _ h; cases h
  | cons x l ih =>
    intro s f ha h
    unfold giveSeq at h
    cases hp : processOpt env x.1 s x.2 with
    | error g => rw [hp] at h; cases h; exact processOpt_error (ha x (by simp)) hp
    | ok y => rw [hp] at h; exact ih (fun z hz => ha z (by simp [hz])) h

theorem giveUnset_error {env : Env} : ∀ {l : List (Opt × Text)} {s : Store} {f : Fault},
    (∀ x ∈ l, x.1.action ≠ .null) → giveUnset env l s = .error f → GiveFault f := by
  intro l
  induction l with
  | nil => intro s f _ h; cases h
  | cons x l ih =>
    intro s f ha h
    unfold giveUnset at h
    cases hu : s.usr x.1.dest with
    | true => rw [hu] at h; exact ih (fun z hz => ha z (by simp [hz])) h
    | false =>
      rw [hu] at h
      cases hp : processOpt env x.1 s x.2 with
      | error g => rw [hp] at h; cases h; exact processOpt_error (ha x (by simp)) hp
      | ok y => rw [hp] at h; exact ih (fun z hz => ha z (by simp [hz])) h

theorem play_error {env : Env} {es : List Ev} {s : Store} {f : Fault}
    (ha : ∀ x ∈ given es, x.1.action ≠ .null) (h : play env es s = .error f) :
    GiveFault f ∨ (f = .throw "option is not Bool, so requires an value-argument" ∧
      ∃ o ts, Ev.missing o ts ∈ es) := by
  induction es generalizing s with
  | nil => cases h
  | cons e es ih =>
    cases e with
    | left t =>
      rcases ih (s := s) ha h with h | ⟨e, o, ts, hm⟩
      · exact .inl h
      · exact .inr ⟨e, o, ts, by simp [hm]⟩
    | missing o ts => cases h; exact .inr ⟨rfl, o, ts, by simp⟩
    | use o ts vs =>
      simp only [play] at h
      rw [giveAll_seq] at h
      cases hg : giveSeq env (vs.map fun v => (o, v)) s with
      | error g =>
        rw [hg] at h
        cases h
        refine .inl (giveSeq_error ?_ hg)
        intro x hx
        exact ha x (by simp [given, hx])
      | ok s1 =>
        rw [hg] at h
        rcases ih (s := s1) (fun x hx => ha x (by simp [given, hx])) h with h | ⟨e, o, ts, hm⟩
        · exact .inl h
        · exact .inr ⟨e, o, ts, by simp [hm]⟩

theorem fullStore_error {env : Env} {opts : List Opt} {es : List Ev} {f : Fault}
    (h1 : ∀ x ∈ given es, x.1 ∈ opts) (h2 : ∀ o ∈ opts, o.action ≠ .null)
    (h : fullStore env opts es = .error f) :
    GiveFault f ∨ (f = .throw "option is not Bool, so requires an value-argument" ∧
      ∃ o ts, Ev.missing o ts ∈ es) := by
  unfold fullStore at h
  cases hp : play env es Store.empty with
  | error g =>
    rw [hp] at h; cases h
    exact play_error (fun x hx => h2 _ (h1 x hx)) hp
  | ok s =>
    rw [hp] at h
    exact .inl (giveUnset_error (fun x hx => h2 _ (fallback_opts hx)) h)

/-- Options are complete when the arguments are looked at. -/
theorem prepared_complete {p q : Parser} (h : Prepared p q) : ∀ o ∈ q.opts, Complete o := by
  intro o ho
  obtain ⟨os, flags, e, hv, hf⟩ := h.opts
  rw [e] at ho
  rcases List.mem_append.1 ho with hm | hm
  · clear e ho
    generalize p.opts = ps at hv
    induction hv with
    | nil => cases hm
    | cons h _ ih =>
      rcases List.mem_cons.1 hm with rfl | hm
      · exact h.complete
      · exact ih hm
  · have := hf o hm
    refine ⟨this.names, by rw [this.action]; simp, ?_, .inr this.plain.2.2⟩
    rcases this.dest with e | e | e <;> rw [e] <;> decide

/-! ## Values of one destination -/

/-- A property of all values stored for a destination is kept if every text given for it only
yields such values. -/
theorem processOpt_inv {env : Env} {o : Opt} {s s' : Store} {t : Text} {b : Bool} {d : Text}
    {P : Val → Prop} (h : processOpt env o s t = .ok (b, s'))
    (hg : o.dest = d → ∀ v ∈ gives env o t, P v)
    (hc : o.dest = d → o.action = .count → ∀ n, P (.int n))
    (hv : ∀ v, s.values d = some v → P v) (hl : ∀ l, s.lists d = some l → ∀ v ∈ l, P v) :
    (∀ v, s'.values d = some v → P v) ∧ (∀ l, s'.lists d = some l → ∀ v ∈ l, P v) := by
  by_cases hd : o.dest = d
  · rcases processOpt_action h with ha | ha | ha
    · rcases processOpt_sets ha h with ⟨_, rfl⟩ | ⟨v, e, rfl⟩
      · exact ⟨hv, hl⟩
      · refine ⟨?_, hl⟩
        intro v' hv'
        simp only [Store.set, hd, upd_self, Option.some.injEq] at hv'
        subst hv'
        exact hg hd v (by simp [e])
    · have e := processOpt_append ha h
      obtain ⟨a1, _, a3, _⟩ := appends_lists d (gives env o t) s
      rw [hd] at e
      rw [← e] at a1 a3
      refine ⟨by rw [a3]; exact hv, ?_⟩
      intro l hl' v hm
      rw [a1] at hl'
      by_cases hn : gives env o t = []
      · rw [if_pos hn] at hl'; exact hl l hl' v hm
      · rw [if_neg hn] at hl'
        cases hl'
        rcases List.mem_append.1 hm with hm | hm
        · cases hs : s.lists d with
          | none => rw [hs] at hm; simp at hm
          | some l => rw [hs] at hm; exact hl l hs v hm
        · exact hg hd v hm
    · have e := processOpt_count ha h
      unfold Store.increment at e
      rw [hd] at e
      cases hs : s.values d with
      | none =>
        rw [hs] at e; cases e
        refine ⟨?_, hl⟩
        intro v hv'
        simp only [upd_self, Option.some.injEq] at hv'
        subst hv'
        exact hc hd ha _
      | some v =>
        rw [hs] at e
        cases v with
        | int n =>
          simp only at e
          split at e
          · cases e
          · cases e
            refine ⟨?_, hl⟩
            intro v hv'
            simp only [upd_self, Option.some.injEq] at hv'
            subst hv'
            exact hc hd ha _
        | _ => cases e
  · obtain ⟨k1, k2, _⟩ := processOpt_other h (k := d) (fun e => hd e.symm)
    rw [k1, k2]
    exact ⟨hv, hl⟩

theorem giveSeq_inv {env : Env} {d : Text} {P : Val → Prop} :
    ∀ {l : List (Opt × Text)} {s s' : Store}, giveSeq env l s = .ok s' →
    (∀ x ∈ about d l, (∀ v ∈ gives env x.1 x.2, P v) ∧ (x.1.action = .count → ∀ n, P (.int n))) →
    (∀ v, s.values d = some v → P v) → (∀ l, s.lists d = some l → ∀ v ∈ l, P v) →
    (∀ v, s'.values d = some v → P v) ∧ (∀ l, s'.lists d = some l → ∀ v ∈ l, P v) := by
  intro l
  induction l with
  | nil => intro s s' h _ hv hl; cases h; exact ⟨hv, hl⟩
  | cons x l ih =>
    intro s s' h hx hv hl
    obtain ⟨b, s1, hp, hg⟩ := giveSeq_cons_ok h
    rw [about_cons] at hx
    have hx1 : x.1.dest = d → (∀ v ∈ gives env x.1 x.2, P v) ∧
        (x.1.action = .count → ∀ n, P (.int n)) := by
      intro hd; rw [if_pos hd] at hx; exact hx x (by simp)
    obtain ⟨v1, l1⟩ := processOpt_inv hp (fun hd => (hx1 hd).1) (fun hd => (hx1 hd).2) hv hl
    refine ih hg ?_ v1 l1
    intro y hy
    apply hx
    split
    · exact List.mem_cons_of_mem _ hy
    · exact hy

theorem giveUnset_inv {env : Env} {d : Text} {P : Val → Prop} :
    ∀ {l : List (Opt × Text)} {s s' : Store}, giveUnset env l s = .ok s' →
    (∀ x ∈ about d l, (∀ v ∈ gives env x.1 x.2, P v) ∧ (x.1.action = .count → ∀ n, P (.int n))) →
    (∀ v, s.values d = some v → P v) → (∀ l, s.lists d = some l → ∀ v ∈ l, P v) →
    (∀ v, s'.values d = some v → P v) ∧ (∀ l, s'.lists d = some l → ∀ v ∈ l, P v) := by
  intro l
  induction l with
  | nil => intro s s' h _ hv hl; cases h; exact ⟨hv, hl⟩
  | cons x l ih =>
    intro s s' h hx hv hl
    rw [about_cons] at hx
    have hrest : ∀ y ∈ about d l, (∀ v ∈ gives env y.1 y.2, P v) ∧
        (y.1.action = .count → ∀ n, P (.int n)) := by
      intro y hy
      apply hx
      split
      · exact List.mem_cons_of_mem _ hy
      · exact hy
    rcases giveUnset_cons_ok h with ⟨_, hg⟩ | ⟨_, b, s1, hp, hg⟩
    · exact ih hg hrest hv hl
    · have hx1 : x.1.dest = d → (∀ v ∈ gives env x.1 x.2, P v) ∧
          (x.1.action = .count → ∀ n, P (.int n)) := by
        intro hd; rw [if_pos hd] at hx; exact hx x (by simp)
      obtain ⟨v1, l1⟩ := processOpt_inv hp (fun hd => (hx1 hd).1) (fun hd => (hx1 hd).2) hv hl
      exact ih hg hrest v1 l1

/-- The values of a destination after parsing. -/
theorem fullStore_inv {env : Env} {opts : List Opt} {es : List Ev} {s : Store} {d : Text}
    {P : Val → Prop} (hk : ∀ x ∈ given es, x.1 ∈ opts) (h : fullStore env opts es = .ok s)
    (hP : ∀ o ∈ opts, o.dest = d → (∀ t, ∀ v ∈ gives env o t, P v) ∧
      (o.action = .count → ∀ n, P (.int n))) :
    (∀ v, s.values d = some v → P v) ∧ (∀ l, s.lists d = some l → ∀ v ∈ l, P v) := by
  obtain ⟨s1, hp, hg⟩ := fullStore_ok h
  obtain ⟨v1, l1⟩ := giveSeq_inv (d := d) (P := P) (play_given hp) (by
    intro x hx
    obtain ⟨hm, hd⟩ := about_mem hx
    have := hP x.1 (hk x hm) hd
    exact ⟨this.1 x.2, this.2⟩) (by intro v h; cases h) (by intro l h; cases h)
  refine giveUnset_inv (d := d) (P := P) hg ?_ v1 l1
  intro x hx
  obtain ⟨hm, hd⟩ := about_mem hx
  have := hP x.1 (fallback_opts hm) hd
  exact ⟨this.1 x.2, this.2⟩

end Verif.Opt
