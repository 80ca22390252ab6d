import Verif.Opt.Spec

/-!
The argument loop of `parse_args` reads the command line as the grammar says.
-/

namespace Verif.Opt

/-- The grammar of a parser: its prefix and the options its tables lead to. -/
def gramOf (p : Parser) : Gram where
  opt := startsWithChar p.pre
  look t := (findOpt p (trimString (extractName t))).bind fun i => p.opts[i]?

/-- The tables only lead to existing options. -/
structure InRange (p : Parser) : Prop where
  longs : ∀ n i, p.longs n = some i → i < p.opts.length
  shorts : ∀ n i, p.shorts n = some i → i < p.opts.length

/-- The values given to an option are processed one after the other. -/
def giveAll (env : Env) (o : Opt) : List Text → Store → Except Fault Store
  | [], s => .ok s
  | v :: vs, s => do
    let (_, s) ← processOpt env o s v
    giveAll env o vs s

/-- The effect of the events on the store. -/
def play (env : Env) : List Ev → Store → Except Fault Store
  | [], s => .ok s
  | .left _ :: es, s => play env es s
  | .use o _ vs :: es, s => do
    let s ← giveAll env o vs s
    play env es s
  | .missing _ _ :: _, _ => .error (.throw "option is not Bool, so requires an value-argument")

theorem findOpt_range {p : Parser} (h : InRange p) {n : Text} {i : Nat}
    (hf : findOpt p n = some i) : i < p.opts.length := by
  unfold findOpt at hf
  split at hf
  · exact h.longs _ _ hf
  · split at hf
    · exact h.shorts _ _ hf
    · cases hf

theorem look_none {p : Parser} (h : InRange p) {t : Text} :
    (gramOf p).look t = none ↔ findOpt p (trimString (extractName t)) = none := by
  simp only [gramOf]
  constructor
  · intro hl
    cases hf : findOpt p (trimString (extractName t)) with
    | none => rfl
    | some i =>
      rw [hf] at hl
      have := findOpt_range h hf
      simp only [Option.bind_some, List.getElem?_eq_none_iff] at hl
      omega
  · intro hf; rw [hf]; rfl

theorem except_bind_ok {α β : Type} {x : Except Fault α} {a : α} {f : α → Except Fault β}
    (h : x = .ok a) : (x >>= f) = f a := by subst h; rfl

theorem except_assoc {α β γ : Type} (x : Except Fault α) (f : α → Except Fault β)
    (g : β → Except Fault γ) : ((x >>= f) >>= g) = x >>= fun a => f a >>= g := by
  cases x <;> rfl

theorem argKind_invalid {p : Parser} {t : Text} :
    argKind p t = .invalid ↔ (gramOf p).opt t = false := by
  unfold argKind gramOf
  cases h : startsWithChar p.pre t
  · simp [h]
  · simp [h]; split <;> simp

theorem argvAt_ok {p : Parser} {i : Nat} (h : i < p.argc) : argvAt p i = .ok i := by
  simp [argvAt, h]

theorem leftAt_lefts (vs : List Text) (es : List Ev) (n : Nat) :
    leftAt (vs.map Ev.left ++ es) n = List.range' n vs.length ++ leftAt es (n + vs.length) := by
  induction vs generalizing n with
  | nil => simp
  | cons v vs ih =>
    simp only [List.map_cons, List.cons_append, leftAt, ih, List.length_cons, List.range'_succ,
      List.cons.injEq, true_and]
    congr 2
    omega

theorem play_lefts (env : Env) (vs : List Text) (es : List Ev) (s : Store) :
    play env (vs.map Ev.left ++ es) s = play env es s := by
  induction vs with
  | nil => rfl
  | cons v vs ih => simpa [play] using ih

theorem reads_lefts {G : Gram} {vs rest : List Text} {es : List Ev}
    (hv : ∀ v ∈ vs, G.opt v = false) (h : Reads G rest es) :
    Reads G (vs ++ rest) (vs.map Ev.left ++ es) := by
  induction vs with
  | nil => exact h
  | cons v vs ih =>
    exact .plain (hv v (by simp)) (ih fun x hx => hv x (by simp [hx]))

/-- The arguments up to the next one that looks like an option. -/
theorem split_values (G : Gram) (ts : List Text) :
    ∃ vs rest, ts = vs ++ rest ∧ (∀ v ∈ vs, G.opt v = false) ∧ NoValueNext G rest := by
  induction ts with
  | nil => exact ⟨[], [], rfl, by simp, by intro u h; cases h⟩
  | cons t ts ih =>
    cases ho : G.opt t with
    | true => exact ⟨[], t :: ts, rfl, by simp, by intro u h; cases h; exact ho⟩
    | false =>
      obtain ⟨vs, rest, e, h1, h2⟩ := ih
      refine ⟨t :: vs, rest, by simp [e], ?_, h2⟩
      intro v hv
      rcases List.mem_cons.1 hv with rfl | hv
      · exact ho
      · exact h1 v hv

theorem following_other {env : Env} {p : Parser} {o : Opt} (ha : o.action ≠ .append)
    {rest : List Text} (hr : NoValueNext (gramOf p) rest) (s : Store) :
    ∀ (vs : List Text) (pos : Nat) (inv : List Nat), (∀ v ∈ vs, (gramOf p).opt v = false) →
      pos + vs.length < p.argc →
      following env p o (vs ++ rest) s pos inv =
        .ok ⟨s, rest, pos + vs.length, inv ++ List.range' (pos + 1) vs.length⟩ := by
  intro vs
  induction vs with
  | nil =>
    intro pos inv _ _
    cases rest with
    | nil => simp [following]
    | cons r rs =>
      have : startsWithChar p.pre r = true := hr r rfl
      simp [following, this]
  | cons v vs ih =>
    intro pos inv hv hp
    simp only [List.length_cons] at hp
    have h1 : startsWithChar p.pre v = false := hv v (by simp)
    rw [List.cons_append, following, h1, if_neg (by simp), if_pos ha,
      except_bind_ok (argvAt_ok (by omega)),
      ih (pos + 1) _ (fun x hx => hv x (by simp [hx])) (by omega)]
    simp only [List.length_cons, List.range'_succ, Except.ok.injEq, Run.mk.injEq, true_and]
    exact ⟨by omega, by simp⟩

theorem following_append {env : Env} {p : Parser} {o : Opt} (ha : o.action = .append)
    {rest : List Text} (hr : NoValueNext (gramOf p) rest) :
    ∀ (vs : List Text) (s : Store) (pos : Nat) (inv : List Nat),
      (∀ v ∈ vs, (gramOf p).opt v = false) →
      following env p o (vs ++ rest) s pos inv =
        giveAll env o vs s >>= fun s => .ok ⟨s, rest, pos + vs.length, inv⟩ := by
  intro vs
  induction vs with
  | nil =>
    intro s pos inv _
    cases rest with
    | nil => rfl
    | cons r rs =>
      have : startsWithChar p.pre r = true := hr r rfl
      simp only [List.nil_append, following, this, if_pos, giveAll, List.length_nil, Nat.add_zero]
      rfl
  | cons v vs ih =>
    intro s pos inv hv
    have h1 : startsWithChar p.pre v = false := hv v (by simp)
    rw [List.cons_append, following, h1, if_neg (by simp), if_neg (by simp [ha]), giveAll,
      except_assoc]
    congr 1
    funext ⟨_, x⟩
    show following env p o (vs ++ rest) x (pos + 1) inv = giveAll env o vs x >>= _
    rw [ih _ _ _ (fun x hx => hv x (by simp [hx]))]
    congr 1
    funext s
    simp only [List.length_cons, Except.ok.injEq, Run.mk.injEq, true_and, and_true]
    omega

theorem giveAll_one (env : Env) (o : Opt) (v : Text) (s : Store) :
    giveAll env o [v] s = processOpt env o s v >>= fun x => .ok x.2 := by
  simp only [giveAll]

/-- The statement of the simulation for the arguments left at some point. -/
def LoopSpec (env : Env) (p : Parser) (fuel : Nat) (r : Run) : Prop :=
  ∃ es, Reads (gramOf p) r.args es ∧
    argLoop env p fuel r =
      (play env es r.store >>= fun s =>
        .ok ⟨s, [], r.pos + r.args.length, r.invalid ++ leftAt es (r.pos + 1)⟩)

/-- After the values of an option the loop goes on as specified. -/
theorem after_value {env : Env} {p : Parser} {o : Opt} {fuel : Nat} {t w : Text}
    {ts k rest : List Text} {r : Run} {x : Bool} (e : r.args = t :: ts)
    (ho : (gramOf p).opt t = true) (hl : (gramOf p).look t = some o)
    (ht : Takes (gramOf p) t ts w k rest) (hf : ts.length ≤ fuel)
    (hp : r.pos + r.args.length < p.argc)
    (ih : ∀ r' : Run, r'.args.length ≤ fuel → r'.pos + r'.args.length < p.argc →
      LoopSpec env p fuel r') :
    ∃ es, Reads (gramOf p) (t :: ts) es ∧
      ((processOpt env o r.store w >>= fun y =>
          following env p o rest y.2 (r.pos + 1 + k.length) r.invalid >>= fun r' =>
            Except.ok (x, r')) >>= fun y => argLoop env p fuel y.2) =
        (play env es r.store >>= fun s =>
          .ok ⟨s, [], r.pos + r.args.length, r.invalid ++ leftAt es (r.pos + 1)⟩) := by
  have hts := takes_toks ht
  have hlen : ts.length = k.length + rest.length := by rw [hts]; simp
  rw [e] at hp ⊢
  simp only [List.length_cons] at hp ⊢
  obtain ⟨vs, rest', e', hvs, hn⟩ := split_values (gramOf p) rest
  have hlen' : rest.length = vs.length + rest'.length := by rw [e']; simp
  by_cases ha : o.action = .append
  · -- the following values are given to the option
    have key : ∀ s : Store, LoopSpec env p fuel
        ⟨s, rest', r.pos + 1 + k.length + vs.length, r.invalid⟩ := fun s =>
      ih _ (by simp only; omega) (by simp only; omega)
    obtain ⟨es, hr, _⟩ := key r.store
    rw [e'] at ht ⊢
    refine ⟨.use o (t :: (k ++ vs)) (w :: vs) :: es, .multi ho hl ha ht hvs hn hr, ?_⟩
    simp only [play, giveAll, except_assoc]
    congr 1
    funext y
    rw [following_append ha hn vs _ _ _ hvs]
    simp only [except_assoc]
    congr 1
    funext s
    obtain ⟨es', hr', hk⟩ := key s
    cases reads_unique hr hr'
    show argLoop env p fuel _ = _
    simp only at hk
    rw [hk]
    congr 1
    funext s'
    simp only [Except.ok.injEq, Run.mk.injEq, true_and]
    refine ⟨by omega, ?_⟩
    simp only [leftAt, Ev.toks, List.length_cons, List.length_append]
    congr 2
    omega
  · -- the following values are left over
    have key : ∀ s : Store, LoopSpec env p fuel
        ⟨s, rest', r.pos + 1 + k.length + vs.length,
          r.invalid ++ List.range' (r.pos + 1 + k.length + 1) vs.length⟩ := fun s =>
      ih _ (by simp only; omega) (by simp only; omega)
    obtain ⟨es, hr, _⟩ := key r.store
    have hr0 : Reads (gramOf p) rest (vs.map Ev.left ++ es) := by
      rw [e']; exact reads_lefts hvs hr
    refine ⟨.use o (t :: k) [w] :: (vs.map Ev.left ++ es), .single ho hl ha ht hr0, ?_⟩
    simp only [play, giveAll_one, except_assoc]
    congr 1
    funext y
    rw [e', following_other ha hn _ vs _ _ hvs (by omega)]
    show argLoop env p fuel _ = _
    obtain ⟨es', hr', hk⟩ := key y.2
    cases reads_unique hr hr'
    simp only at hk
    rw [hk]
    show _ = play env _ _ >>= _
    rw [play_lefts]
    congr 1
    funext s'
    simp only [Except.ok.injEq, Run.mk.injEq, true_and]
    refine ⟨by omega, ?_⟩
    simp only [leftAt, Ev.toks, leftAt_lefts, List.length_cons, List.append_assoc]
    congr 3
    omega

theorem argLoop_spec {env : Env} {p : Parser} (hr : InRange p) :
    ∀ (fuel : Nat) (r : Run), r.args.length ≤ fuel → r.pos + r.args.length < p.argc →
      LoopSpec env p fuel r := by
  intro fuel
  induction fuel with
  | zero =>
    intro r hf hp
    have e : r.args = [] := List.eq_nil_of_length_eq_zero (by omega)
    refine ⟨[], by rw [e]; exact .nil, ?_⟩
    obtain ⟨s, args, pos, inv⟩ := r
    simp only at e
    subst e
    simp only [argLoop, List.isEmpty_nil, if_pos, play, leftAt, List.append_nil, List.length_nil,
      Nat.add_zero]
    rfl
  | succ fuel ih =>
    intro r hf hp
    cases e : r.args with
    | nil =>
      refine ⟨[], by rw [e]; exact .nil, ?_⟩
      obtain ⟨s, args, pos, inv⟩ := r
      simp only at e
      subst e
      simp only [argLoop, play, leftAt, List.append_nil, List.length_nil, Nat.add_zero]
      rfl
    | cons t ts =>
      have hl1 : ts.length ≤ fuel := by rw [e] at hf; simp at hf; omega
      have hp1 : r.pos + 1 + ts.length < p.argc := by rw [e] at hp; simp at hp; omega
      -- a left over argument
      have leftCase : (∀ es, Reads (gramOf p) ts es → Reads (gramOf p) (t :: ts) (Ev.left t :: es)) →
          argLoop env p (fuel + 1) r =
            (Run.reject p { r with args := ts, pos := r.pos + 1 } >>= fun r =>
              argLoop env p fuel r) → LoopSpec env p (fuel + 1) r := by
        intro hrd hloop
        obtain ⟨es, h1, h2⟩ := ih ⟨r.store, ts, r.pos + 1, r.invalid ++ [r.pos + 1]⟩ hl1 hp1
        refine ⟨.left t :: es, by rw [e]; exact hrd es h1, ?_⟩
        rw [hloop]
        have hrej : Run.reject p { r with args := ts, pos := r.pos + 1 } =
            .ok ⟨r.store, ts, r.pos + 1, r.invalid ++ [r.pos + 1]⟩ := by
          unfold Run.reject
          rw [except_bind_ok (argvAt_ok (by simp only; omega))]
          rfl
        rw [except_bind_ok hrej]
        simp only at h2
        rw [h2, e]
        simp only [play]
        congr 1
        funext s
        simp only [Except.ok.injEq, Run.mk.injEq, true_and, List.length_cons, leftAt,
          List.append_assoc, List.singleton_append, and_true]
        omega
      cases ho : (gramOf p).opt t with
      | false =>
        refine leftCase (fun _ h => .plain ho h) ?_
        rw [argLoop, e]
        simp only [argKind_invalid.2 ho, if_pos]
      | true =>
        have hk : ¬ argKind p t = .invalid := by
          intro h; rw [argKind_invalid.1 h] at ho; cases ho
        cases hfo : findOpt p (trimString (extractName t)) with
        | none =>
          refine leftCase
            (fun _ h => .unknown ho ((look_none hr).2 hfo) h) ?_
          rw [argLoop, e]
          simp only [if_neg hk, handleOpt, e, hfo]
          rfl
        | some i =>
          have hi := findOpt_range hr hfo
          have hget : p.opts[i]? = some p.opts[i] := List.getElem?_eq_getElem hi
          have hl : (gramOf p).look t = some p.opts[i] := by
            simp only [gramOf, hfo, Option.bind_some, hget]
          generalize p.opts[i] = o at hget hl
          have hstep : ∀ X : Except Fault (Bool × Run), handleOpt env p r = X →
              (∀ y, X = .ok y → y.1 = true) →
              argLoop env p (fuel + 1) r = (X >>= fun y => argLoop env p fuel y.2) := by
            intro X hX hok
            rw [argLoop, e]
            simp only [if_neg hk, hX]
            cases hX' : X with
            | error f => rfl
            | ok y =>
              have := hok y hX'
              obtain ⟨b, r'⟩ := y
              simp only at this
              subst this
              rfl
          by_cases hv : hasValue p t ts = true
          · -- a value
            by_cases hval : extractValue t = []
            · -- the value is the next argument
              cases ts with
              | nil =>
                -- `--name=` at the end
                have heq : '=' ∈ t := by
                  simpa [hasValue, hasChar] using hv
                have ⟨a, ha, et⟩ : ∃ a, '=' ∉ a ∧ t = a ++ ['='] := by
                  cases hf' : find ['='] t with
                  | none => exact absurd heq (find_single.1 hf')
                  | some j =>
                    obtain ⟨h1, h2, _⟩ := find_single_some hf'
                    refine ⟨t.take j, h2, ?_⟩
                    unfold extractValue at hval
                    rw [hf'] at hval
                    simp only at hval
                    rw [hval] at h1
                    exact h1
                refine ⟨[.left t], ?_, ?_⟩
                · rw [e, et]
                  exact .dangling (by rw [← et]; exact ho) (by rw [← et]; exact hl) ha
                · rw [argLoop, e]
                  simp only [if_neg hk, handleOpt, e, hfo, hget, hv, hval]
                  simp only [Bool.not_true, Bool.false_eq_true, if_false, List.isEmpty_nil, if_true]
                  have hrej : Run.reject p ⟨r.store, [], r.pos + 1, r.invalid⟩ =
                      .ok ⟨r.store, [], r.pos + 1, r.invalid ++ [r.pos + 1]⟩ := by
                    unfold Run.reject
                    rw [except_bind_ok (argvAt_ok (by simp at hp1; simp only; omega))]
                    rfl
                  show (Run.reject p ⟨r.store, [], r.pos + 1, r.invalid⟩ >>= _) = _
                  rw [except_bind_ok hrej]
                  cases fuel <;>
                    simp only [argLoop, play, leftAt, List.isEmpty_nil, if_true, List.length_cons,
                      List.length_nil] <;> rfl
              | cons nv ts =>
                have ht : Takes (gramOf p) t (nv :: ts) nv [nv] ts := by
                  by_cases heq : '=' ∈ t
                  · cases hf' : find ['='] t with
                    | none => exact absurd heq (find_single.1 hf')
                    | some j =>
                      obtain ⟨h1, h2, _⟩ := find_single_some hf'
                      unfold extractValue at hval
                      rw [hf'] at hval
                      simp only at hval
                      rw [hval] at h1
                      rw [h1]
                      exact .afterEq h2
                  · refine .next heq ?_
                    have : hasChar '=' t = false := by
                      cases h : hasChar '=' t with
                      | false => rfl
                      | true => exact absurd (hasChar_iff.1 h) heq
                    simpa [hasValue, this, gramOf] using hv
                obtain ⟨es, h1, h2⟩ := after_value (x := true) e ho hl ht (by simpa using hl1)
                  hp ih
                refine ⟨es, by rw [e]; exact h1, ?_⟩
                rw [← h2]
                refine hstep _ ?_ ?_
                · simp only [handleOpt, e, hfo, hget, hv, hval]
                  simp only [Bool.not_true, Bool.false_eq_true, if_false, List.isEmpty_nil, if_true]
                  rfl
                · intro y hy
                  cases hq : processOpt env o r.store nv with
                  | error f => rw [hq] at hy; cases hy
                  | ok z =>
                    rw [hq] at hy
                    cases hq' : following env p o ts z.2 (r.pos + 1 + [nv].length) r.invalid with
                    | error f =>
                      rw [except_bind_ok rfl, hq'] at hy; cases hy
                    | ok r' =>
                      rw [except_bind_ok rfl, hq'] at hy
                      cases hy; rfl
            · -- `--name=value`
              have ht : Takes (gramOf p) t ts (extractValue t) [] ts := by
                cases hf' : find ['='] t with
                | none =>
                  unfold extractValue at hval
                  rw [hf'] at hval
                  exact absurd rfl hval
                | some j =>
                  obtain ⟨h1, h2, _⟩ := find_single_some hf'
                  have hval' : extractValue t = t.drop (j + 1) := by
                    unfold extractValue; rw [hf']
                  rw [hval'] at hval ⊢
                  have := Takes.inline (G := gramOf p) (ts := ts) h2 hval
                  rw [← h1] at this
                  exact this
              obtain ⟨es, h1, h2⟩ := after_value (x := true) e ho hl ht hl1 hp ih
              refine ⟨es, by rw [e]; exact h1, ?_⟩
              rw [← h2]
              have hne : (extractValue t).isEmpty = false := by
                cases h : extractValue t with
                | nil => exact absurd h hval
                | cons => rfl
              refine hstep _ ?_ ?_
              · simp only [handleOpt, e, hfo, hget, hv, hne]
                simp only [Bool.not_true, Bool.false_eq_true, if_false]
                rfl
              · intro y hy
                cases hq : processOpt env o r.store (extractValue t) with
                | error f => rw [hq] at hy; cases hy
                | ok z =>
                  rw [hq] at hy
                  cases hq' : following env p o ts z.2 (r.pos + 1 + ([] : List Text).length)
                      r.invalid with
                  | error f =>
                    rw [except_bind_ok rfl, hq'] at hy; cases hy
                  | ok r' =>
                    rw [except_bind_ok rfl, hq'] at hy
                    cases hy; rfl
          · -- no value
            have hn : '=' ∉ t ∧ NoValueNext (gramOf p) ts := by
              have hv' : hasValue p t ts = false := by simpa using hv
              unfold hasValue at hv'
              simp only [Bool.or_eq_false_iff] at hv'
              refine ⟨fun h => ?_, ?_⟩
              · rw [hasChar_iff.2 h] at hv'; exact absurd hv'.1 (by simp)
              · intro u hu
                cases ts with
                | nil => cases hu
                | cons v ts =>
                  cases hu
                  simpa [gramOf] using hv'.2
            by_cases hb : o.type = .bool
            · have key : ∀ s : Store, LoopSpec env p fuel ⟨s, ts, r.pos + 1, r.invalid⟩ :=
                fun s => ih _ hl1 hp1
              obtain ⟨es, h1, _⟩ := key r.store
              refine ⟨.use o [t] [[]] :: es, by rw [e]; exact .flag ho hl hn.1 hn.2 hb h1, ?_⟩
              rw [hstep (processOpt env o r.store [] >>= fun y =>
                .ok (true, ⟨y.2, ts, r.pos + 1, r.invalid⟩)) ?_ ?_]
              · simp only [play, giveAll_one, except_assoc]
                congr 1
                funext y
                show argLoop env p fuel _ = play env _ _ >>= _
                obtain ⟨es', h1', h2⟩ := key y.2
                cases reads_unique h1 h1'
                simp only at h2
                rw [h2, e]
                congr 1
                funext s
                simp only [Except.ok.injEq, Run.mk.injEq, true_and, List.length_cons, leftAt,
                  Ev.toks, List.length_nil, Nat.zero_add, and_true]
                omega
              · simp only [handleOpt, e, hfo, hget]
                have hv' : hasValue p t ts = false := by simpa using hv
                simp only [hv', Bool.not_false, if_true, hb]
                rfl
              · intro y hy
                cases hq : processOpt env o r.store [] with
                | error f => rw [hq] at hy; cases hy
                | ok z => rw [hq] at hy; cases hy; rfl
            · refine ⟨[.missing o (t :: ts)], by rw [e]; exact .missing ho hl hn.1 hn.2 hb, ?_⟩
              rw [hstep (.error (.throw "option is not Bool, so requires an value-argument")) ?_ ?_]
              · rfl
              · simp only [handleOpt, e, hfo, hget]
                have hv' : hasValue p t ts = false := by simpa using hv
                simp only [hv', Bool.not_false, if_true, hb, if_false]
              · intro y hy; cases hy

end Verif.Opt
