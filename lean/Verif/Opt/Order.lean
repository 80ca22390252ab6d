import Verif.Opt.AgainProps

/-!
# The order of options

Exchanging two parts of a command line that concern different destinations.
-/

namespace Verif.Opt

/-! ## Reading two parts -/

/-- The last argument is not an option argument `--name=` that waits for its value. -/
def Closed (G : Gram) (ts : List Text) : Prop :=
  ∀ t, ts.getLast? = some t → G.opt t = true → ∀ x : Text, '=' ∉ x → t ≠ x ++ ['=']

theorem Closed.tail {G : Gram} {k ts : List Text} (h : Closed G (k ++ ts)) : Closed G ts := by
  intro t ht
  apply h
  rw [List.getLast?_append, ht]
  rfl

theorem noValue_append {G : Gram} {ts b : List Text} (h : NoValueNext G ts)
    (hb : NoValueNext G b) : NoValueNext G (ts ++ b) := by
  cases ts with
  | nil => exact hb
  | cons t ts => intro u hu; exact h u hu

theorem takes_append {G : Gram} {t w : Text} {ts k rest : List Text} (b : List Text)
    (h : Takes G t ts w k rest) : Takes G t (ts ++ b) w k (rest ++ b) := by
  cases h with
  | inline h1 h2 => exact .inline h1 h2
  | next h1 h2 => exact .next h1 h2
  | afterEq h1 => exact .afterEq h1

/-- Two command lines one after the other are read one after the other. -/
theorem reads_append {G : Gram} {a b : List Text} {es es' : List Ev} (h : Reads G a es)
    (hc : Closed G a) (hm : ∀ o ts, Ev.missing o ts ∉ es) (hb : NoValueNext G b)
    (h' : Reads G b es') : Reads G (a ++ b) (es ++ es') := by
  induction h with
  | nil => exact h'
  | @plain t ts es ho _ ih =>
    exact .plain ho (ih (hc.tail (k := [t])) (fun o ts h => hm o ts (by simp [h])))
  | @unknown t ts es ho hl _ ih =>
    exact .unknown ho hl (ih (hc.tail (k := [t])) (fun o ts h => hm o ts (by simp [h])))
  | @flag t ts es o ho hl hn hv ht _ ih =>
    exact .flag ho hl hn (noValue_append hv hb) ht
      (ih (hc.tail (k := [t])) (fun o ts h => hm o ts (by simp [h])))
  | missing => exact (hm _ _ (List.mem_singleton.2 rfl)).elim
  | @single t w ts k rest es o ho hl ha htk _ ih =>
    have hc' : Closed G rest := by
      rw [takes_toks htk] at hc
      exact hc.tail (k := t :: k)
    exact .single ho hl ha (takes_append b htk)
      (ih hc' (fun o ts h => hm o ts (by simp [h])))
  | @multi t w ts k vs rest es o ho hl ha htk hvs hv _ ih =>
    have hc' : Closed G rest := by
      rw [takes_toks htk, show t :: (k ++ (vs ++ rest)) = t :: (k ++ vs) ++ rest by simp] at hc
      exact hc.tail
    have htk' := takes_append b htk
    rw [List.append_assoc] at htk'
    exact .multi ho hl ha htk' hvs (noValue_append hv hb)
      (ih hc' (fun o ts h => hm o ts (by simp [h])))
  | @dangling x o ho hl ha =>
    exact absurd rfl (hc _ rfl ho x ha)

/-- An option that lacks its value still lacks it with more options after it. -/
theorem reads_append_missing {G : Gram} {a : List Text} {es : List Ev} (h : Reads G a es)
    (hc : Closed G a) {o : Opt} {ts : List Text} (hm : Ev.missing o ts ∈ es) {b : List Text}
    (hb : NoValueNext G b) :
    ∃ es' ts', Reads G (a ++ b) es' ∧ Ev.missing o ts' ∈ es' := by
  induction h with
  | nil => cases hm
  | @plain t us es ho _ ih =>
    obtain ⟨es', ts', h1, h2⟩ := ih (hc.tail (k := [t])) (by simpa using hm)
    exact ⟨_, ts', .plain ho h1, by simp [h2]⟩
  | @unknown t us es ho hl _ ih =>
    obtain ⟨es', ts', h1, h2⟩ := ih (hc.tail (k := [t])) (by simpa using hm)
    exact ⟨_, ts', .unknown ho hl h1, by simp [h2]⟩
  | @flag t us es o' ho hl hn hv ht _ ih =>
    obtain ⟨es', ts', h1, h2⟩ := ih (hc.tail (k := [t])) (by simpa using hm)
    exact ⟨_, ts', .flag ho hl hn (noValue_append hv hb) ht h1, by simp [h2]⟩
  | @missing t us o' ho hl hn hv ht =>
    simp only [List.mem_singleton, Ev.missing.injEq] at hm
    obtain ⟨rfl, _⟩ := hm
    exact ⟨_, t :: (us ++ b), .missing ho hl hn (noValue_append hv hb) ht, by simp⟩
  | @single t w us k rest es o' ho hl ha htk _ ih =>
    have hc' : Closed G rest := by
      rw [takes_toks htk] at hc
      exact hc.tail (k := t :: k)
    obtain ⟨es', ts', h1, h2⟩ := ih hc' (by simpa using hm)
    exact ⟨_, ts', .single ho hl ha (takes_append b htk) h1, by simp [h2]⟩
  | @multi t w us k vs rest es o' ho hl ha htk hvs hv _ ih =>
    have hc' : Closed G rest := by
      rw [takes_toks htk, show t :: (k ++ (vs ++ rest)) = t :: (k ++ vs) ++ rest by simp] at hc
      exact hc.tail
    have htk' := takes_append b htk
    rw [List.append_assoc] at htk'
    obtain ⟨es', ts', h1, h2⟩ := ih hc' (by simpa using hm)
    exact ⟨_, ts', .multi ho hl ha htk' hvs (noValue_append hv hb) h1, by simp [h2]⟩
  | dangling => simp at hm

/-! ## What processing an option touches -/

/-- What a store holds about a destination. -/
structure Cell where
  value : Option Val
  list : Option (List Val)
  usr : Bool

def Store.cell (s : Store) (d : Text) : Cell := ⟨s.values d, s.lists d, s.usr d⟩

def Store.put (s : Store) (d : Text) (c : Cell) : Store :=
  ⟨upd s.values d c.value, upd s.lists d c.list, upd s.usr d c.usr⟩

theorem upd_same_self {α : Type} (f : Text → α) (d : Text) : upd f d (f d) = f := by
  funext x; unfold upd; split <;> simp_all

theorem upd_upd {α : Type} (f : Text → α) (d : Text) (a b : α) : upd (upd f d a) d b = upd f d b := by
  funext x; unfold upd; split <;> rfl

theorem upd_comm {α : Type} (f : Text → α) {d e : Text} (h : d ≠ e) (a b : α) :
    upd (upd f d a) e b = upd (upd f e b) d a := by
  funext x; unfold upd; split <;> split <;> simp_all

theorem put_cell (s : Store) (d : Text) : s.put d (s.cell d) = s := by
  simp [Store.put, Store.cell, upd_same_self]

theorem put_put (s : Store) (d : Text) (c c' : Cell) : (s.put d c).put d c' = s.put d c' := by
  simp [Store.put, upd_upd]

theorem put_comm (s : Store) {d e : Text} (h : d ≠ e) (c c' : Cell) :
    (s.put d c).put e c' = (s.put e c').put d c := by
  simp [Store.put, upd_comm _ h]

theorem cell_put (s : Store) (d : Text) (c : Cell) : (s.put d c).cell d = c := by
  simp [Store.put, Store.cell, upd]

theorem cell_put_ne (s : Store) {d e : Text} (h : e ≠ d) (c : Cell) :
    (s.put d c).cell e = s.cell e := by
  simp [Store.put, Store.cell, upd, h]

/-- A step that only looks at and changes one destination. -/
def Local (d : Text) (f : Store → Except Fault (Bool × Store)) : Prop :=
  ∃ F : Cell → Except Fault (Bool × Cell), ∀ s, f s =
    (F (s.cell d)).map fun x => (x.1, s.put d x.2)

theorem local_pure (d : Text) (b : Bool) : Local d (fun s => .ok (b, s)) :=
  ⟨fun c => .ok (b, c), fun s => by simp [Except.map, put_cell]⟩

theorem local_error (d : Text) (f : Fault) : Local d (fun _ => .error f) :=
  ⟨fun _ => .error f, fun _ => rfl⟩

theorem local_set (d : Text) (b : Bool) (v : Val) : Local d (fun s => .ok (b, s.set d v)) :=
  ⟨fun c => .ok (b, ⟨some v, c.list, true⟩), fun s => by
    simp [Except.map, Store.set, Store.put, Store.cell, upd_same_self]⟩

theorem local_append {d : Text} {f : Store → Except Fault (Bool × Store)} (h : Local d f)
    (v : Val) : Local d (fun s => f (s.append d v)) := by
  obtain ⟨F, hF⟩ := h
  refine ⟨fun c => F ⟨c.value, some (match c.list with
    | none => [v]
    | some l => l ++ [v]), true⟩, fun s => ?_⟩
  have e1 : s.append d v = s.put d ⟨(s.cell d).value, some (match (s.cell d).list with
    | none => [v]
    | some l => l ++ [v]), true⟩ := by
    simp only [Store.append, Store.put, Store.cell, upd_same_self]
    cases s.lists d <;> rfl
  beta_reduce
  rw [e1, hF, cell_put]
  simp only [put_put]

theorem local_increment (d : Text) :
    Local d (fun s => (s.increment d) >>= fun s => .ok (true, s)) := by
  refine ⟨fun c => match c.value with
    | none => .ok (true, ⟨some (.int 1), c.list, c.usr⟩)
    | some (.int n) => if n = int_max then .error (.ub "signed overflow")
        else .ok (true, ⟨some (.int (n + 1)), c.list, c.usr⟩)
    | some _ => .error (.throw "bad_variant_access"), fun s => ?_⟩
  unfold Store.increment
  beta_reduce
  have e : (s.cell d).value = s.values d := rfl
  rw [e]
  cases s.values d with
  | none => simp [Except.map, Bind.bind, Except.bind, Store.put, Store.cell, upd_same_self]
  | some v =>
    cases v with
    | int n =>
      simp only
      split
      · rfl
      · simp [Except.map, Bind.bind, Except.bind, Store.put, Store.cell, upd_same_self]
    | _ => rfl

theorem local_appendAll (env : Env) (o : Opt) : ∀ ts : List Text,
    Local o.dest (appendAll env o ts) := by
  intro ts
  induction ts with
  | nil => exact local_pure _ _
  | cons t ts ih =>
    show Local o.dest (fun s => appendAll env o (t :: ts) s)
    simp only [appendAll]
    cases parseValue env t o with
    | error f => exact local_error _ f
    | ok v =>
      cases v with
      | none => exact local_pure _ _
      | some v => exact local_append ih v

theorem local_setParsed (env : Env) (o : Opt) (t : Text) :
    Local o.dest (fun s => setParsed env o s t) := by
  unfold setParsed
  cases parseValue env t o with
  | error f => exact local_error _ f
  | ok v =>
    cases v with
    | none => exact local_pure _ _
    | some v => exact local_set _ _ _

theorem local_processOpt (env : Env) (o : Opt) (t : Text) :
    Local o.dest (fun s => processOpt env o s t) := by
  unfold processOpt
  cases o.action with
  | store => exact local_setParsed env o t
  | storeTrue =>
    simp only
    split
    · exact local_set _ _ _
    · exact local_setParsed env o t
  | storeFalse =>
    simp only
    split
    · exact local_set _ _ _
    · exact local_setParsed env o t
  | append =>
    simp only
    split
    · cases splitFuel (t.length + 1) t [','] true with
      | none => exact local_error _ _
      | some ts => exact local_appendAll env o ts
    · cases parseValue env t o with
      | error f => exact local_error _ f
      | ok v =>
        cases v with
        | none => exact local_pure _ _
        | some v => exact local_append (local_pure _ _) v
  | count => exact local_increment o.dest
  | help => exact local_error _ _
  | version => exact local_error _ _
  | null => exact local_error _ _

/-- Steps on different destinations may be exchanged. -/
theorem processOpt_swap {env : Env} {o o' : Opt} (h : o.dest ≠ o'.dest) {t t' : Text}
    {s s1 s2 : Store} {b b' : Bool} (h1 : processOpt env o s t = .ok (b, s1))
    (h2 : processOpt env o' s1 t' = .ok (b', s2)) :
    ∃ s1', processOpt env o' s t' = .ok (b', s1') ∧ processOpt env o s1' t = .ok (b, s2) := by
  obtain ⟨F, hF⟩ := local_processOpt env o t
  obtain ⟨F', hF'⟩ := local_processOpt env o' t'
  simp only at hF hF'
  rw [hF] at h1
  cases hc : F (s.cell o.dest) with
  | error f => rw [hc] at h1; cases h1
  | ok x =>
    rw [hc] at h1
    cases h1
    rw [hF', cell_put_ne _ (Ne.symm h)] at h2
    cases hc' : F' (s.cell o'.dest) with
    | error f => rw [hc'] at h2; cases h2
    | ok y =>
      rw [hc'] at h2
      cases h2
      refine ⟨s.put o'.dest y.2, by rw [hF', hc']; rfl, ?_⟩
      rw [hF, cell_put_ne _ h, hc]
      simp only [Except.map]
      rw [put_comm _ h]

theorem giveSeq_ok_cons {env : Env} {x : Opt × Text} {l : List (Opt × Text)} {s s1 s' : Store}
    {b : Bool} (h1 : processOpt env x.1 s x.2 = .ok (b, s1)) (h2 : giveSeq env l s1 = .ok s') :
    giveSeq env (x :: l) s = .ok s' := by
  unfold giveSeq
  rw [h1]
  exact h2

theorem giveSeq_rotate {env : Env} {x : Opt × Text} : ∀ {l : List (Opt × Text)} {s s' : Store},
    giveSeq env (x :: l) s = .ok s' → (∀ y ∈ l, x.1.dest ≠ y.1.dest) →
    giveSeq env (l ++ [x]) s = .ok s' := by
  intro l
  induction l with
  | nil => intro s s' h _; exact h
  | cons y l ih =>
    intro s s' h hd
    obtain ⟨b, s1, h1, h2⟩ := giveSeq_cons_ok h
    obtain ⟨b', s2, h3, h4⟩ := giveSeq_cons_ok h2
    obtain ⟨s1', h5, h6⟩ := processOpt_swap (hd y (by simp)) h1 h3
    exact giveSeq_ok_cons h5 (ih (giveSeq_ok_cons h6 h4) (fun z hz => hd z (by simp [hz])))

theorem giveSeq_swap {env : Env} {l' : List (Opt × Text)} : ∀ {l : List (Opt × Text)}
    {s s' : Store}, giveSeq env (l ++ l') s = .ok s' →
    (∀ x ∈ l, ∀ y ∈ l', x.1.dest ≠ y.1.dest) → giveSeq env (l' ++ l) s = .ok s' := by
  intro l
  induction l generalizing l' with
  | nil => intro s s' h _; simpa using h
  | cons x l ih =>
    intro s s' h hd
    obtain ⟨b, s1, h1, h2⟩ := giveSeq_cons_ok h
    have h3 := ih h2 (fun z hz => hd z (by simp [hz]))
    have h4 : giveSeq env ((x :: l') ++ l) s = .ok s' := giveSeq_ok_cons h1 h3
    rw [giveSeq_append] at h4
    cases h5 : giveSeq env (x :: l') s with
    | error f => rw [h5] at h4; cases h4
    | ok s2 =>
      rw [h5] at h4
      have h6 := giveSeq_rotate h5 (fun y hy => hd x (by simp) y hy)
      have : l' ++ x :: l = (l' ++ [x]) ++ l := by simp
      rw [this, giveSeq_append, h6]
      exact h4

theorem given_append (es es' : List Ev) : given (es ++ es') = given es ++ given es' := by
  induction es with
  | nil => rfl
  | cons e es ih => cases e <;> simp [given, ih]

theorem given_play {env : Env} {es : List Ev} {s s' : Store} (hm : ∀ o ts, Ev.missing o ts ∉ es)
    (h : giveSeq env (given es) s = .ok s') : play env es s = .ok s' := by
  induction es generalizing s with
  | nil => exact h
  | cons e es ih =>
    have hm' : ∀ o ts, Ev.missing o ts ∉ es := fun o ts h => hm o ts (by simp [h])
    cases e with
    | left t => exact ih hm' h
    | missing o ts => exact absurd (by simp) (hm o ts)
    | use o ts vs =>
      simp only [given, giveSeq_append, ← giveAll_seq] at h
      simp only [play]
      cases hg : giveAll env o vs s with
      | error f => rw [hg] at h; cases h
      | ok s1 => rw [hg] at h; exact ih hm' h

theorem mem_given {es : List Ev} {x : Opt × Text} (h : x ∈ given es) :
    ∃ ts vs, Ev.use x.1 ts vs ∈ es := by
  induction es with
  | nil => cases h
  | cons e es ih =>
    cases e with
    | left t =>
      obtain ⟨ts, vs, h⟩ := ih h
      exact ⟨ts, vs, by simp [h]⟩
    | missing o us =>
      obtain ⟨ts, vs, h⟩ := ih h
      exact ⟨ts, vs, by simp [h]⟩
    | use o ts vs =>
      simp only [given, List.mem_append, List.mem_map] at h
      rcases h with ⟨v, _, rfl⟩ | h
      · exact ⟨ts, vs, by simp⟩
      · obtain ⟨ts, vs, h⟩ := ih h
        exact ⟨ts, vs, by simp [h]⟩

theorem fullStore_swap {env : Env} {opts : List Opt} {es es' : List Ev} {s : Store}
    (h : fullStore env opts (es ++ es') = .ok s)
    (hd : ∀ o ts vs, Ev.use o ts vs ∈ es → ∀ o' ts' vs', Ev.use o' ts' vs' ∈ es' →
      o.dest ≠ o'.dest) : fullStore env opts (es' ++ es) = .ok s := by
  obtain ⟨s1, h1, h2⟩ := fullStore_ok h
  have hm := play_no_missing h1
  have h3 := play_given h1
  rw [given_append] at h3
  have h4 := giveSeq_swap h3 (fun x hx y hy => by
    obtain ⟨ts, vs, hx'⟩ := mem_given hx
    obtain ⟨ts', vs', hy'⟩ := mem_given hy
    exact hd _ ts vs hx' _ ts' vs' hy')
  rw [← given_append] at h4
  have h5 := given_play (es := es' ++ es) (fun o ts h => hm o ts (by
    rcases List.mem_append.1 h with h | h <;> simp [h])) h4
  unfold fullStore
  rw [h5]
  exact h2

theorem leftOver_append (es es' : List Ev) :
    leftOver (es ++ es') = leftOver es ++ leftOver es' := by
  simp [leftOver]

/-! ## C132: the order of options -/

/-- Two parts of a command line, each beginning with an option (or empty), that concern different
destinations may be exchanged: the values are the same, and the left over arguments of each part
are left over as before.  Partial: neither part may end with an option argument `--name=`, which
waits for its value (see `order_violated`). -/
theorem order_partial {p p' : Parser} (h : Clean p) (own : ∀ o ∈ p.opts, o.owner = p.id)
    {env : Env} {a0 : Text} {a b : List Text} {s : Store}
    (hp : parseArgs env p (a0 :: (a ++ b)) = (.ok s, p')) {es es' : List Ev}
    (ha : Reads (grammar p.pre p.longPre p'.opts) a es)
    (hb : Reads (grammar p.pre p.longPre p'.opts) b es')
    (na : NoValueNext (grammar p.pre p.longPre p'.opts) a)
    (nb : NoValueNext (grammar p.pre p.longPre p'.opts) b)
    (ca : Closed (grammar p.pre p.longPre p'.opts) a)
    (cb : Closed (grammar p.pre p.longPre p'.opts) b)
    (hd : ∀ o ts vs, Ev.use o ts vs ∈ es → ∀ o' ts' vs', Ev.use o' ts' vs' ∈ es' →
      o.dest ≠ o'.dest) :
    ∃ p'', parseArgs env p (a0 :: (b ++ a)) = (.ok s, p'') ∧
      (invalidArgs p').map (fun i => (a0 :: (a ++ b))[i]?) =
        (leftOver es ++ leftOver es').map some ∧
      (invalidArgs p'').map (fun i => (a0 :: (b ++ a))[i]?) =
        (leftOver es' ++ leftOver es).map some := by
  have g := reach_good h.reach
  obtain ⟨evs, h1, h2, h3, h4, h5, h6⟩ := parse_ok g hp
  have tb := h3 (clean_tables h)
  have e1 : p'.pre = p.pre := h1.rest.pre
  have e2 : p'.longPre = p.longPre := h1.rest.longPre
  have hr := reads_grammar h2 tb h4
  rw [e1, e2] at hr
  obtain ⟨s1, hp1, _⟩ := fullStore_ok h5
  have hmis := play_no_missing hp1
  have ma : ∀ o ts, Ev.missing o ts ∉ es := by
    intro o ts hm
    obtain ⟨es2, ts2, q1, q2⟩ := reads_append_missing ha ca hm nb
    rw [reads_unique q1 hr] at q2
    exact hmis _ _ q2
  have hab := reads_append ha ca ma nb hb
  have hev : evs = es ++ es' := reads_unique hr hab
  subst hev
  have mb : ∀ o ts, Ev.missing o ts ∉ es' := fun o ts hm => hmis o ts (by simp [hm])
  have hba := reads_append hb cb mb na ha
  have hba' : Reads (gramOf p') (b ++ a) (es' ++ es) := by
    rw [← e1, ← e2] at hba
    exact reads_congr (fun t => (gramOf_opt p' t).symm) (fun _ ht => (gramOf_look h2 tb (by
      rw [gramOf_opt]; exact ht)).symm) hba
  obtain ⟨u1, u2⟩ := parse_used g own hp env a0 hba'
  have hf := fullStore_swap h5 hd
  rw [hf] at u1
  obtain ⟨v1, v2⟩ := parse_again h.reach own [(env, a0 :: (a ++ b))] env (a0 :: (b ++ a))
  have hp' : p' = after p [(env, a0 :: (a ++ b))] := by
    simp only [after]; rw [hp]
  rw [← hp'] at v1 v2
  have w1 := v1.symm.trans u1
  refine ⟨(parseArgs env p (a0 :: (b ++ a))).2, Prod.ext w1 rfl, ?_, ?_⟩
  · rw [← leftOver_append]
    exact left_texts h4 h6
  · rw [← v2 s w1, u2 s u1, ← leftOver_append]
    have := leftAt_texts (es' ++ es) [a0]
    rw [reads_cover hba'] at this
    exact this

namespace Sample

/-- A command line of two options. -/
def two : Except Fault Store × Parser := parseArgs env parser (t "prog" :: ([t "-q"] ++ [t "--num=12"]))

/-- The grammar in effect. -/
def twoG : Gram := grammar parser.pre parser.longPre two.2.opts

end Sample

example : ∃ s es es', parseArgs Sample.env Sample.parser
      (Sample.t "prog" :: ([Sample.t "-q"] ++ [Sample.t "--num=12"])) = (.ok s, Sample.two.2) ∧
    Reads Sample.twoG [Sample.t "-q"] es ∧ Reads Sample.twoG [Sample.t "--num=12"] es' ∧
    NoValueNext Sample.twoG [Sample.t "-q"] ∧ NoValueNext Sample.twoG [Sample.t "--num=12"] ∧
    Closed Sample.twoG [Sample.t "-q"] ∧ Closed Sample.twoG [Sample.t "--num=12"] ∧
    ∀ o ts vs, Ev.use o ts vs ∈ es → ∀ o' ts' vs', Ev.use o' ts' vs' ∈ es' → o.dest ≠ o'.dest := by
  have look : ∀ {x : Option Opt} {P : Opt → Bool}, x.any P = true → ∃ o, x = some o ∧ P o = true := by
    intro x P h
    cases x with
    | none => cases h
    | some o => exact ⟨o, rfl, h⟩
  obtain ⟨s, p', e, _⟩ := Sample.of_okWith (x := Sample.two) (P := fun _ _ => true)
    (by decide +kernel)
  obtain ⟨o, l, ho⟩ := look (x := Sample.twoG.look (Sample.t "-q"))
    (P := fun o => decide (o.type = .bool ∧ o.dest = Sample.t "quiet")) (by decide +kernel)
  obtain ⟨o', l', ho'⟩ := look (x := Sample.twoG.look (Sample.t "--num=12"))
    (P := fun o => decide (o.action ≠ .append ∧ o.dest = Sample.t "num")) (by decide +kernel)
  have ho := of_decide_eq_true ho
  have ho' := of_decide_eq_true ho'
  refine ⟨s, [.use o [Sample.t "-q"] [[]]], [.use o' [Sample.t "--num=12"] [Sample.t "12"]],
    ?_, ?_, ?_, ?_, ?_, ?_, ?_, ?_⟩
  · have e2 : Sample.two.2 = p' := by rw [e]
    rw [e2]
    exact e
  · exact .flag (by decide +kernel) l (by decide +kernel) (fun _ h => by cases h) ho.1 .nil
  · exact .single (by decide +kernel) l' ho'.1
      (.inline (a := Sample.t "--num") (w := Sample.t "12") (by decide +kernel) (by decide +kernel))
      .nil
  · intro u h; cases h; decide +kernel
  · intro u h; cases h; decide +kernel
  · intro u h _ x hx e
    cases h
    have := congrArg List.getLast? e
    rw [List.getLast?_append, show (['='] : Text).getLast?.or (List.getLast? x) = some '=' from rfl]
      at this
    exact absurd this (by decide)
  · intro u h _ x hx e
    cases h
    have := congrArg List.getLast? e
    rw [List.getLast?_append, show (['='] : Text).getLast?.or (List.getLast? x) = some '=' from rfl]
      at this
    exact absurd this (by decide)
  · intro u ts vs h u' ts' vs' h'
    simp only [List.mem_singleton, Ev.use.injEq] at h h'
    rw [h.1, h'.1, ho.2, ho'.2]
    decide

/-- After `--list=` the option `-q` is taken for a value, in the other order it is an option. -/
theorem order_violated : ∃ p env a0 a b s p1 s' p2, Clean p ∧
    parseArgs env p (a0 :: (a ++ b)) = (.ok s, p1) ∧
    parseArgs env p (a0 :: (b ++ a)) = (.ok s', p2) ∧
    a = [Sample.t "--list="] ∧ b = [Sample.t "-q"] ∧
    s.values (Sample.t "quiet") = none ∧ s'.values (Sample.t "quiet") = some (.int 1) := by
  obtain ⟨s, p1, e, h⟩ := Sample.of_okWith
    (x := parseArgs Sample.env Sample.parser
      (Sample.t "prog" :: ([Sample.t "--list="] ++ [Sample.t "-q"])))
    (P := fun s _ => s.values (Sample.t "quiet") = none) (by decide +kernel)
  obtain ⟨s', p2, e', h'⟩ := Sample.of_okWith
    (x := parseArgs Sample.env Sample.parser
      (Sample.t "prog" :: ([Sample.t "-q"] ++ [Sample.t "--list="])))
    (P := fun s _ => s.values (Sample.t "quiet") = some (.int 1)) (by decide +kernel)
  exact ⟨Sample.parser, Sample.env, Sample.t "prog", _, _, s, p1, s', p2, Sample.parser_clean, e,
    e', rfl, rfl, of_decide_eq_true h, of_decide_eq_true h'⟩

end Verif.Opt
