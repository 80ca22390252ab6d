import Verif.Opt.Order

/-!
# The ways to write an option with its value

`--name=value`, `--name value`, `--name= value`, and the same with another name of the option.
-/

namespace Verif.Opt

/-- `k` are the arguments that give the option called `n` the value `v`. -/
inductive Spelled (n v : Text) : List Text → Prop where
  /-- `--name=value` -/
  | inline : Spelled n v [n ++ '=' :: v]
  /-- `--name value` -/
  | next : Spelled n v [n, v]
  /-- `--name= value` -/
  | afterEq : Spelled n v [n ++ ['='], v]

/-- An event without the arguments it takes up. -/
def Ev.bare : Ev → Ev
  | .left t => .left t
  | .use o _ vs => .use o [] vs
  | .missing o _ => .missing o []

theorem play_bare (env : Env) (es : List Ev) (s : Store) :
    play env (es.map Ev.bare) s = play env es s := by
  induction es generalizing s with
  | nil => rfl
  | cons e es ih =>
    cases e with
    | left t => exact ih s
    | use o ts vs =>
      simp only [List.map_cons, Ev.bare, play]
      cases giveAll env o vs s with
      | error f => rfl
      | ok s1 => exact ih s1
    | missing o ts => rfl

theorem fullStore_bare {env : Env} {opts : List Opt} {es es' : List Ev}
    (h : es.map Ev.bare = es'.map Ev.bare) : fullStore env opts es = fullStore env opts es' := by
  unfold fullStore
  rw [← play_bare env es, ← play_bare env es', h]

theorem leftOver_bare (es : List Ev) : leftOver (es.map Ev.bare) = leftOver es := by
  induction es with
  | nil => rfl
  | cons e es ih =>
    unfold leftOver at *
    cases e <;> simp [Ev.bare, ih]

/-- What an option that lacks its value stops is not affected by what comes after it. -/
theorem reads_append_stop {G : Gram} {a : List Text} {es : List Ev} (h : Reads G a es)
    (hc : Closed G a) {o : Opt} {ts : List Text} (hm : Ev.missing o ts ∈ es) {b : List Text}
    (hb : NoValueNext G b) :
    ∃ es', Reads G (a ++ b) es' ∧ es'.map Ev.bare = es.map Ev.bare := by
  induction h with
  | nil => cases hm
  | @plain t us es ho _ ih =>
    obtain ⟨es', h1, h2⟩ := ih (hc.tail (k := [t])) (by simpa using hm)
    exact ⟨_, .plain ho h1, by simp [h2]⟩
  | @unknown t us es ho hl _ ih =>
    obtain ⟨es', h1, h2⟩ := ih (hc.tail (k := [t])) (by simpa using hm)
    exact ⟨_, .unknown ho hl h1, by simp [h2]⟩
  | @flag t us es o' ho hl hn hv ht _ ih =>
    obtain ⟨es', h1, h2⟩ := ih (hc.tail (k := [t])) (by simpa using hm)
    exact ⟨_, .flag ho hl hn (noValue_append hv hb) ht h1, by simp [h2]⟩
  | @missing t us o' ho hl hn hv ht =>
    exact ⟨_, .missing ho hl hn (noValue_append hv hb) ht, by simp [Ev.bare]⟩
  | @single t w us k rest es o' ho hl ha htk _ ih =>
    have hc' : Closed G rest := by
      rw [takes_toks htk] at hc
      exact hc.tail (k := t :: k)
    obtain ⟨es', h1, h2⟩ := ih hc' (by simpa using hm)
    exact ⟨_, .single ho hl ha (takes_append b htk) h1, by simp [h2]⟩
  | @multi t w us k vs rest es o' ho hl ha htk hvs hv _ ih =>
    have hc' : Closed G rest := by
      rw [takes_toks htk, show t :: (k ++ (vs ++ rest)) = t :: (k ++ vs) ++ rest by simp] at hc
      exact hc.tail
    have htk' := takes_append b htk
    rw [List.append_assoc] at htk'
    obtain ⟨es', h1, h2⟩ := ih hc' (by simpa using hm)
    exact ⟨_, .multi ho hl ha htk' hvs (noValue_append hv hb) h1, by simp [h2]⟩
  | dangling => simp at hm

/-- Every command line can be read. -/
theorem reads_total {p : Parser} (h : InRange p) (ts : List Text) :
    ∃ es, Reads (gramOf p) ts es := by
  obtain ⟨es, h1, _⟩ := parseLoop_spec (env := ⟨fun _ => 0, fun _ => 0, fun _ => none, fun _ => none⟩)
    (q := { p with argc := ts.length + 1 }) ⟨h.longs, h.shorts⟩ (args := ts) (Nat.lt_succ_self _)
  exact ⟨es, h1⟩

theorem namePart_eq {n x : Text} (h : '=' ∉ n) : namePart (n ++ '=' :: x) = n := by
  unfold namePart
  rw [List.takeWhile_append_of_pos (by
    intro c hc
    simp only [ne_eq, decide_not, Bool.not_eq_eq_eq_not, Bool.not_true, decide_eq_false_iff_not]
    rintro rfl; exact h hc)]
  simp

theorem namePart_none {n : Text} (h : '=' ∉ n) : namePart n = n := by
  unfold namePart
  rw [List.takeWhile_eq_self_iff]
  intro c hc
  simp only [ne_eq, decide_not, Bool.not_eq_eq_eq_not, Bool.not_true, decide_eq_false_iff_not]
  rintro rfl; exact h hc

/-- The name part alone decides. -/
theorem grammar_eq {pre : Char} {longPre : Text} {opts : List Opt} {n x : Text} (h : '=' ∉ n)
    (ho : (grammar pre longPre opts).opt n = true) :
    (grammar pre longPre opts).opt (n ++ '=' :: x) = true ∧
    (grammar pre longPre opts).look (n ++ '=' :: x) = (grammar pre longPre opts).look n := by
  constructor
  · cases n with
    | nil => simp [grammar] at ho
    | cons c n => exact ho
  · simp only [grammar]
    rw [namePart_eq h, namePart_none h]

theorem values_split (G : Gram) (b : List Text) :
    ∃ vs rest, b = vs ++ rest ∧ (∀ v ∈ vs, G.opt v = false) ∧ NoValueNext G rest := by
  induction b with
  | nil => exact ⟨[], [], rfl, by simp, fun _ h => by cases h⟩
  | cons t b ih =>
    cases ho : G.opt t with
    | true => exact ⟨[], t :: b, rfl, by simp, fun _ h => by cases h; exact ho⟩
    | false =>
      obtain ⟨vs, rest, e, h1, h2⟩ := ih
      exact ⟨t :: vs, rest, by rw [e]; rfl, by simpa [ho] using h1, h2⟩

/-- However it is written, an option with its value is read as the same event, up to the arguments
taken up. -/
theorem spelled_reads {G : Gram} (tot : ∀ ts, ∃ es, Reads G ts es) (o : Opt) {v : Text}
    (hv : v ≠ []) (hov : G.opt v = false) (b : List Text) :
    ∃ vs es, ∀ n k, Spelled n v k → '=' ∉ n → (∀ x, G.opt (n ++ '=' :: x) = true) →
      (∀ x, G.look (n ++ '=' :: x) = some o) → G.opt n = true → G.look n = some o →
      Reads G (k ++ b) (.use o (k ++ vs) (v :: vs) :: es) ∧ NoValueNext G (k ++ b) := by
  by_cases ha : o.action = .append
  · obtain ⟨vs, rest, rfl, h1, h2⟩ := values_split G b
    obtain ⟨es, h3⟩ := tot rest
    refine ⟨vs, es, fun n k hk hn go gl gon gln => ?_⟩
    cases hk with
    | inline => exact ⟨.multi (k := []) (go _) (gl _) ha (.inline hn hv) h1 h2 h3, fun _ h => by cases h; exact go _⟩
    | next => exact ⟨.multi (k := [v]) gon gln ha (.next hn hov) h1 h2 h3, fun _ h => by cases h; exact gon⟩
    | afterEq => exact ⟨.multi (k := [v]) (go _) (gl _) ha (.afterEq hn) h1 h2 h3, fun _ h => by cases h; exact go _⟩
  · obtain ⟨es, h3⟩ := tot b
    refine ⟨[], es, fun n k hk hn go gl gon gln => ?_⟩
    cases hk with
    | inline => exact ⟨.single (k := []) (go _) (gl _) ha (.inline hn hv) h3, fun _ h => by cases h; exact go _⟩
    | next => exact ⟨.single (k := [v]) gon gln ha (.next hn hov) h3, fun _ h => by cases h; exact gon⟩
    | afterEq => exact ⟨.single (k := [v]) (go _) (gl _) ha (.afterEq hn) h3, fun _ h => by cases h; exact go _⟩

/-! ## C134: the spellings of an option -/

/-- Writing an option with its value in another way, or under another of its names, changes
nothing: the outcome of the parse (the values, or the exception) and the left over arguments are
the same.  Partial: the value must not be empty nor look like an option (see `spelling_violated`),
and the arguments before must not end with an option argument `--name=`, which waits for its value.
`hp` says that the parser's registrations are in order: it can parse some command line. -/
theorem spelling_partial {p p' : Parser} (h : Clean p) (own : ∀ o ∈ p.opts, o.owner = p.id)
    {env0 : Env} {c0 : Text} {args : List Text} {s0 : Store}
    (hp : parseArgs env0 p (c0 :: args) = (.ok s0, p')) {o : Opt} {n n' v : Text}
    (hn : '=' ∉ n) (ho : (grammar p.pre p.longPre p'.opts).opt n = true)
    (hl : (grammar p.pre p.longPre p'.opts).look n = some o)
    (hn' : '=' ∉ n') (ho' : (grammar p.pre p.longPre p'.opts).opt n' = true)
    (hl' : (grammar p.pre p.longPre p'.opts).look n' = some o)
    (hv : v ≠ []) (hov : (grammar p.pre p.longPre p'.opts).opt v = false) {k k' : List Text}
    (hk : Spelled n v k) (hk' : Spelled n' v k') {a : List Text}
    (ca : Closed (grammar p.pre p.longPre p'.opts) a) (b : List Text) (env : Env) (a0 : Text) :
    (parseArgs env p (a0 :: (a ++ (k ++ b)))).1 = (parseArgs env p (a0 :: (a ++ (k' ++ b)))).1 ∧
    ∀ s, (parseArgs env p (a0 :: (a ++ (k ++ b)))).1 = .ok s → ∃ left : List Text,
      (invalidArgs (parseArgs env p (a0 :: (a ++ (k ++ b)))).2).map
        (fun i => (a0 :: (a ++ (k ++ b)))[i]?) = left.map some ∧
      (invalidArgs (parseArgs env p (a0 :: (a ++ (k' ++ b)))).2).map
        (fun i => (a0 :: (a ++ (k' ++ b)))[i]?) = left.map some := by
  have g := reach_good h.reach
  obtain ⟨_, h1, h2, h3, _, _, _⟩ := parse_ok g hp
  have tb := h3 (clean_tables h)
  have e1 : p'.pre = p.pre := h1.rest.pre
  have e2 : p'.longPre = p.longPre := h1.rest.longPre
  rw [← e1, ← e2] at ho hl ho' hl' hov ca
  have toG : ∀ {ts es}, Reads (gramOf p') ts es →
      Reads (grammar p'.pre p'.longPre p'.opts) ts es := fun h => reads_grammar h2 tb h
  have ofG : ∀ {ts es}, Reads (grammar p'.pre p'.longPre p'.opts) ts es →
      Reads (gramOf p') ts es := fun h =>
    reads_congr (fun t => (gramOf_opt p' t).symm) (fun _ ht => (gramOf_look h2 tb (by
      rw [gramOf_opt]; exact ht)).symm) h
  have tot : ∀ ts, ∃ es, Reads (grammar p'.pre p'.longPre p'.opts) ts es := fun ts => by
    obtain ⟨es, h⟩ := reads_total h2.range ts
    exact ⟨es, toG h⟩
  obtain ⟨vs, es, hall⟩ := spelled_reads tot o hv hov b
  obtain ⟨r1, n1⟩ := hall n k hk hn (fun x => (grammar_eq hn ho).1)
    (fun x => (grammar_eq hn ho).2.trans hl) ho hl
  obtain ⟨r2, n2⟩ := hall n' k' hk' hn' (fun x => (grammar_eq hn' ho').1)
    (fun x => (grammar_eq hn' ho').2.trans hl') ho' hl'
  obtain ⟨ea, ha⟩ := tot a
  -- the two readings
  have both : ∃ es1 es2, Reads (gramOf p') (a ++ (k ++ b)) es1 ∧
      Reads (gramOf p') (a ++ (k' ++ b)) es2 ∧ es1.map Ev.bare = es2.map Ev.bare := by
    by_cases hm : ∃ o ts, Ev.missing o ts ∈ ea
    · obtain ⟨om, ts, hm⟩ := hm
      obtain ⟨x1, q1, q2⟩ := reads_append_stop ha ca hm n1
      obtain ⟨x2, q3, q4⟩ := reads_append_stop ha ca hm n2
      exact ⟨x1, x2, ofG q1, ofG q3, q2.trans q4.symm⟩
    · have hm' : ∀ o ts, Ev.missing o ts ∉ ea := fun o ts hx => hm ⟨o, ts, hx⟩
      exact ⟨_, _, ofG (reads_append ha ca hm' n1 r1), ofG (reads_append ha ca hm' n2 r2),
        by simp [Ev.bare]⟩
  obtain ⟨es1, es2, q1, q2, q3⟩ := both
  have hp' : p' = after p [(env0, c0 :: args)] := by
    simp only [after]; rw [hp]
  obtain ⟨u1, u2⟩ := parse_used g own hp env a0 q1
  obtain ⟨u3, u4⟩ := parse_used g own hp env a0 q2
  obtain ⟨v1, v2⟩ := parse_again h.reach own [(env0, c0 :: args)] env (a0 :: (a ++ (k ++ b)))
  obtain ⟨v3, v4⟩ := parse_again h.reach own [(env0, c0 :: args)] env (a0 :: (a ++ (k' ++ b)))
  rw [← hp'] at v1 v2 v3 v4
  have hf : fullStore env p'.opts es1 = fullStore env p'.opts es2 := fullStore_bare q3
  have same := (v1.symm.trans u1).trans (hf.trans (u3.symm.trans v3))
  refine ⟨same, fun s hs => ⟨leftOver es1, ?_, ?_⟩⟩
  · rw [← v2 s hs, u2 s (v1.trans hs)]
    have := leftAt_texts es1 [a0]
    rw [reads_cover q1] at this
    exact this
  · have hs' := same.symm.trans hs
    rw [← v4 s hs', u4 s (v3.trans hs')]
    have := leftAt_texts es2 [a0]
    rw [reads_cover q2] at this
    rw [← leftOver_bare es1, q3, leftOver_bare]
    exact this

namespace Sample

/-- The sample parser after a first parse. -/
def first : Except Fault Store × Parser := parseArgs env parser [t "prog"]

def firstG : Gram := grammar parser.pre parser.longPre first.2.opts

end Sample

/-- `-l file a` and `--list= file a` after `-q`. -/
example : ∃ s o, parseArgs Sample.env Sample.parser [Sample.t "prog"] = (.ok s, Sample.first.2) ∧
    (∀ o ∈ Sample.parser.opts, o.owner = Sample.parser.id) ∧
    '=' ∉ Sample.t "-l" ∧ Sample.firstG.opt (Sample.t "-l") = true ∧
    Sample.firstG.look (Sample.t "-l") = some o ∧
    '=' ∉ Sample.t "--list" ∧ Sample.firstG.opt (Sample.t "--list") = true ∧
    Sample.firstG.look (Sample.t "--list") = some o ∧ Sample.t "file" ≠ [] ∧
    Sample.firstG.opt (Sample.t "file") = false ∧
    Spelled (Sample.t "-l") (Sample.t "file") [Sample.t "-l", Sample.t "file"] ∧
    Spelled (Sample.t "--list") (Sample.t "file") [Sample.t "--list=", Sample.t "file"] ∧
    Closed Sample.firstG [Sample.t "-q"] := by
  have look : ∀ {x y : Option Opt}, x.isSome = true → decide (y = x) = true →
      ∃ o, x = some o ∧ y = some o := by
    intro x y h h'
    cases x with
    | none => cases h
    | some o => exact ⟨o, rfl, of_decide_eq_true h'⟩
  obtain ⟨s, p', e, _⟩ := Sample.of_okWith (x := Sample.first) (P := fun _ _ => true)
    (by decide +kernel)
  obtain ⟨o, l, l'⟩ := look (x := Sample.firstG.look (Sample.t "-l"))
    (y := Sample.firstG.look (Sample.t "--list")) (by decide +kernel) (by decide +kernel)
  refine ⟨s, o, ?_, by decide +kernel, by decide +kernel, by decide +kernel, l, by decide +kernel,
    by decide +kernel, l', by decide, by decide +kernel, .next, .afterEq, ?_⟩
  · have e2 : Sample.first.2 = p' := by rw [e]
    rw [e2]
    exact e
  · intro u h _ x hx e
    cases h
    have := congrArg List.getLast? e
    rw [List.getLast?_append, show (['='] : Text).getLast?.or (List.getLast? x) = some '=' from rfl]
      at this
    exact absurd this (by decide)

/-- A negative number can be given with `=` only. -/
theorem spelling_violated : ∃ p env a0 n v s p1 m, Clean p ∧
    (∀ o ∈ p.opts, o.owner = p.id) ∧ Spelled n v [n ++ '=' :: v] ∧ Spelled n v [n, v] ∧
    parseArgs env p [a0, n ++ '=' :: v] = (.ok s, p1) ∧
    s.values (Sample.t "num") = some (.int (-5)) ∧
    (parseArgs env p [a0, n, v]).1 = .error (.throw m) := by
  obtain ⟨s, p1, e, h⟩ := Sample.of_okWith
    (x := parseArgs Sample.env Sample.parser
      [Sample.t "prog", Sample.t "--num" ++ '=' :: Sample.t "-5"])
    (P := fun s _ => s.values (Sample.t "num") = some (.int (-5))) (by decide +kernel)
  have e' := Sample.of_failsWith
    (x := parseArgs Sample.env Sample.parser [Sample.t "prog", Sample.t "--num", Sample.t "-5"])
    (f := .throw "option is not Bool, so requires an value-argument") (by decide +kernel)
  exact ⟨Sample.parser, Sample.env, Sample.t "prog", Sample.t "--num", Sample.t "-5", s, p1, _,
    Sample.parser_clean, by decide +kernel, .inline, .next, e, of_decide_eq_true h, e'⟩

end Verif.Opt
