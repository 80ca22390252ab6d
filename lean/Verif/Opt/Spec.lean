import Verif.Opt.Texts

/-!
# What parsing a command line means

A command line is read as a sequence of events: an option with the arguments it takes up, or a
left over argument.  `Reads` is the grammar; it does not mention positions, stores or loops.
-/

namespace Verif.Opt

/-- What the grammar needs to know: which arguments look like options (begin with the prefix), and
which option an argument names. -/
structure Gram where
  opt : Text → Bool
  look : Text → Option Opt

/-- One event of a command line. -/
inductive Ev where
  /-- an argument no option takes up -/
  | left (t : Text)
  /-- an option occurrence: the arguments taken up (its name first) and the values given to it; a
  flag without a value is given the empty text -/
  | use (o : Opt) (toks vals : List Text)
  /-- an option that lacks its value: the error, at which reading stops -/
  | missing (o : Opt) (toks : List Text)
  deriving DecidableEq, Repr

/-- The arguments of an event. -/
def Ev.toks : Ev → List Text
  | .left t => [t]
  | .use _ ts _ => ts
  | .missing _ ts => ts

/-- `Takes G t ts w k rest`: the option argument `t`, followed by the arguments `ts`, has the value
`w`; `k` are the arguments this takes up and `rest` those after them. -/
inductive Takes (G : Gram) : Text → List Text → Text → List Text → List Text → Prop where
  /-- `--name=value` -/
  | inline {a w : Text} {ts : List Text} : '=' ∉ a → w ≠ [] →
      Takes G (a ++ '=' :: w) ts w [] ts
  /-- `--name value` -/
  | next {t v : Text} {ts : List Text} : '=' ∉ t → G.opt v = false →
      Takes G t (v :: ts) v [v] ts
  /-- `--name= value`, whatever the value looks like -/
  | afterEq {a v : Text} {ts : List Text} : '=' ∉ a →
      Takes G (a ++ ['=']) (v :: ts) v [v] ts

/-- The first argument, if any, looks like an option. -/
def NoValueNext (G : Gram) (ts : List Text) : Prop := ∀ u, ts.head? = some u → G.opt u = true

/-- The arguments are read as the events. -/
inductive Reads (G : Gram) : List Text → List Ev → Prop where
  | nil : Reads G [] []
  | plain {t : Text} {ts : List Text} {es : List Ev} :
      G.opt t = false → Reads G ts es → Reads G (t :: ts) (.left t :: es)
  | unknown {t : Text} {ts : List Text} {es : List Ev} :
      G.opt t = true → G.look t = none → Reads G ts es → Reads G (t :: ts) (.left t :: es)
  | flag {t : Text} {ts : List Text} {es : List Ev} {o : Opt} :
      G.opt t = true → G.look t = some o → '=' ∉ t → NoValueNext G ts → o.type = .bool →
      Reads G ts es → Reads G (t :: ts) (.use o [t] [[]] :: es)
  | missing {t : Text} {ts : List Text} {o : Opt} :
      G.opt t = true → G.look t = some o → '=' ∉ t → NoValueNext G ts → o.type ≠ .bool →
      Reads G (t :: ts) [.missing o (t :: ts)]
  | single {t w : Text} {ts k rest : List Text} {es : List Ev} {o : Opt} :
      G.opt t = true → G.look t = some o → o.action ≠ .append → Takes G t ts w k rest →
      Reads G rest es → Reads G (t :: ts) (.use o (t :: k) [w] :: es)
  | multi {t w : Text} {ts k vs rest : List Text} {es : List Ev} {o : Opt} :
      G.opt t = true → G.look t = some o → o.action = .append → Takes G t ts w k (vs ++ rest) →
      (∀ v ∈ vs, G.opt v = false) → NoValueNext G rest → Reads G rest es →
      Reads G (t :: ts) (.use o (t :: (k ++ vs)) (w :: vs) :: es)
  | dangling {a : Text} {o : Opt} :
      G.opt (a ++ ['=']) = true → G.look (a ++ ['=']) = some o → '=' ∉ a →
      Reads G [a ++ ['=']] [.left (a ++ ['='])]

/-- The positions (from `n` on) of the left over arguments. -/
def leftAt : List Ev → Nat → List Nat
  | [], _ => []
  | .left _ :: es, n => n :: leftAt es (n + 1)
  | e :: es, n => leftAt es (n + e.toks.length)

/-- The left over arguments. -/
def leftOver (es : List Ev) : List Text :=
  es.filterMap fun e => match e with
    | .left t => some t
    | _ => none

theorem takes_toks {G : Gram} {t w : Text} {ts k rest : List Text}
    (h : Takes G t ts w k rest) : ts = k ++ rest := by
  cases h <;> simp

theorem takes_length {G : Gram} {t w : Text} {ts k rest : List Text}
    (h : Takes G t ts w k rest) : rest.length ≤ ts.length := by
  rw [takes_toks h]; simp

/-- Every argument belongs to exactly one event, in order. -/
theorem reads_cover {G : Gram} {ts : List Text} {es : List Ev} (h : Reads G ts es) :
    es.flatMap Ev.toks = ts := by
  induction h with
  | nil => rfl
  | plain _ _ ih | unknown _ _ _ ih | flag _ _ _ _ _ _ ih => simp [Ev.toks, ih]
  | missing => simp [Ev.toks]
  | single _ _ _ ht _ ih => simp [Ev.toks, ih, takes_toks ht]
  | multi _ _ _ ht _ _ _ ih => simp [Ev.toks, ih, takes_toks ht]
  | dangling => simp [Ev.toks]

theorem eq_append_inj {a b x y : Text} (ha : '=' ∉ a) (hb : '=' ∉ b)
    (e : a ++ '=' :: x = b ++ '=' :: y) : a = b ∧ x = y := by
  have h1 := extract_of_eq (b := x) ha
  have h2 := extract_of_eq (b := y) hb
  rw [e] at h1
  exact ⟨h1.1.symm.trans h2.1, h1.2.symm.trans h2.2⟩

theorem takes_unique {G : Gram} {t w w' : Text} {ts k rest k' rest' : List Text}
    (h : Takes G t ts w k rest) (h' : Takes G t ts w' k' rest') :
    w = w' ∧ k = k' ∧ rest = rest' := by
  cases h with
  | @inline a w ts ha hw =>
    generalize e : a ++ '=' :: w = t at h'
    cases h' with
    | inline hb hw' =>
      obtain ⟨rfl, rfl⟩ := eq_append_inj ha hb e
      exact ⟨rfl, rfl, rfl⟩
    | next hn => subst e; simp at hn
    | afterEq hb =>
      exact absurd (eq_append_inj ha hb e).2 hw
  | next hn hv =>
    cases h' with
    | inline hb hw' => simp at hn
    | next => exact ⟨rfl, rfl, rfl⟩
    | afterEq => exact ⟨rfl, rfl, rfl⟩
  | @afterEq a v ts ha =>
    generalize e : a ++ ['='] = t at h'
    cases h' with
    | inline hb hw' =>
      exact absurd (eq_append_inj ha hb e).2.symm hw'
    | next => exact ⟨rfl, rfl, rfl⟩
    | afterEq => exact ⟨rfl, rfl, rfl⟩

/-- An argument that takes a value is not a flag without one. -/
theorem takes_not_flag {G : Gram} {t w : Text} {ts k rest : List Text}
    (h : Takes G t ts w k rest) (hn : '=' ∉ t) (hv : NoValueNext G ts) : False := by
  cases h with
  | inline => simp at hn
  | next _ ho => rw [hv _ rfl] at ho; cases ho
  | afterEq => simp at hn

theorem takes_not_dangling {G : Gram} {a w : Text} {k rest : List Text} (ha : '=' ∉ a)
    (h : Takes G (a ++ ['=']) [] w k rest) : False := by
  generalize e : a ++ ['='] = t at h
  cases h with
  | inline hb hw => exact absurd (eq_append_inj ha hb e).2.symm hw

theorem values_unique {G : Gram} {vs vs' rest rest' : List Text}
    (e : vs ++ rest = vs' ++ rest') (h : ∀ v ∈ vs, G.opt v = false)
    (h' : ∀ v ∈ vs', G.opt v = false) (hr : NoValueNext G rest) (hr' : NoValueNext G rest') :
    vs = vs' ∧ rest = rest' := by
  induction vs generalizing vs' with
  | nil =>
    cases vs' with
    | nil => exact ⟨rfl, e⟩
    | cons v vs' =>
      simp only [List.nil_append] at e
      subst e
      have := hr v rfl
      rw [h' v (by simp)] at this; cases this
  | cons v vs ih =>
    cases vs' with
    | nil =>
      simp only [List.nil_append] at e
      subst e
      have := hr' v rfl
      rw [h v (by simp)] at this; cases this
    | cons v' vs' =>
      simp only [List.cons_append, List.cons.injEq] at e
      obtain ⟨rfl, e⟩ := e
      obtain ⟨rfl, rfl⟩ := ih e (fun x hx => h x (by simp [hx])) (fun x hx => h' x (by simp [hx]))
      exact ⟨rfl, rfl⟩

/-- A command line can be read in only one way. -/
theorem reads_unique {G : Gram} {ts : List Text} {es es' : List Ev} (h : Reads G ts es)
    (h' : Reads G ts es') : es = es' := by
  induction h generalizing es' with
  | nil => cases h'; rfl
  | plain ho _ ih =>
    cases h' <;> simp_all
    exact ih (by assumption)
  | unknown ho hl _ ih =>
    cases h' <;> simp_all
    exact ih (by assumption)
  | flag ho hl hn hv ht _ ih =>
    cases h' with
    | plain ho' => simp_all
    | unknown _ hl' => simp_all
    | flag _ hl' _ _ _ hr =>
      rw [hl] at hl'; cases hl'
      rw [ih hr]
    | missing _ hl' => rw [hl] at hl'; cases hl'; contradiction
    | single _ _ _ htk => exact (takes_not_flag htk hn hv).elim
    | multi _ _ _ htk => exact (takes_not_flag htk hn hv).elim
    | dangling => simp at hn
  | missing ho hl hn hv ht =>
    cases h' with
    | plain ho' => simp_all
    | unknown _ hl' => simp_all
    | flag _ hl' _ _ _ hr => rw [hl] at hl'; cases hl'; contradiction
    | missing _ hl' => rw [hl] at hl'; cases hl'; rfl
    | single _ _ _ htk => exact (takes_not_flag htk hn hv).elim
    | multi _ _ _ htk => exact (takes_not_flag htk hn hv).elim
    | dangling => simp at hn
  | @single t w ts k rest es o ho hl ha htk _ ih =>
    generalize e : t :: ts = us at h'
    cases h' with
    | nil => cases e
    | plain ho' => cases e; simp_all
    | unknown _ hl' => cases e; simp_all
    | flag _ hl' hn hv => cases e; exact (takes_not_flag htk hn hv).elim
    | missing _ hl' hn hv => cases e; exact (takes_not_flag htk hn hv).elim
    | single _ hl' _ htk' hr =>
      cases e
      rw [hl] at hl'; cases hl'
      obtain ⟨rfl, rfl, rfl⟩ := takes_unique htk htk'
      rw [ih hr]
    | multi _ hl' ha' => cases e; rw [hl] at hl'; cases hl'; contradiction
    | dangling _ _ hb => cases e; exact (takes_not_dangling hb htk).elim
  | @multi t w ts k vs rest es o ho hl ha htk hvs hv0 _ ih =>
    generalize e : t :: ts = us at h'
    cases h' with
    | nil => cases e
    | plain ho' => cases e; simp_all
    | unknown _ hl' => cases e; simp_all
    | flag _ hl' hn hv => cases e; exact (takes_not_flag htk hn hv).elim
    | missing _ hl' hn hv => cases e; exact (takes_not_flag htk hn hv).elim
    | single _ hl' ha' => cases e; rw [hl] at hl'; cases hl'; contradiction
    | multi _ hl' ha' htk' hvs' hv0' hr =>
      cases e
      rw [hl] at hl'; cases hl'
      obtain ⟨rfl, rfl, er⟩ := takes_unique htk htk'
      obtain ⟨rfl, rfl⟩ := values_unique er hvs hvs' hv0 hv0'
      rw [ih hr]
    | dangling _ _ hb => cases e; exact (takes_not_dangling hb htk).elim
  | @dangling a o ho hl ha =>
    generalize e : [a ++ ['=']] = us at h'
    cases h' with
    | nil => cases e
    | plain ho' hr => cases e; simp_all
    | unknown _ hl' => cases e; simp_all
    | flag _ _ hn => cases e; simp at hn
    | missing _ _ hn => cases e; simp at hn
    | single _ _ _ htk => cases e; exact (takes_not_dangling ha htk).elim
    | multi _ _ _ htk => cases e; exact (takes_not_dangling ha htk).elim
    | dangling => simp at e; subst e; rfl

end Verif.Opt
