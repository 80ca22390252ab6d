import Verif.Opt.Loop

/-!
What the values given to options leave in the store.
-/

namespace Verif.Opt

/-! ## Specification -/

/-- The pieces of a text between commas. -/
def commas : Text → List Text
  | [] => [[]]
  | c :: t =>
    if c = ',' then [] :: commas t
    else match commas t with
      | [] => [[c]]
      | p :: ps => (c :: p) :: ps

/-- The texts an `Append` option takes from one argument: the argument itself, or its non-empty
comma separated pieces without the white space around them. -/
def listed (t : Text) : List Text :=
  if ',' ∈ t then ((commas t).filter fun p => !p.isEmpty).map trimString else [t]

/-- The value a text has for an option, if any. -/
def outcome (env : Env) (o : Opt) (t : Text) : Option Val :=
  match parseValue env t o with
  | .ok r => r
  | .error _ => none

/-- The values up to the first refused one. -/
def accepted (env : Env) (o : Opt) : List Text → List Val
  | [] => []
  | t :: ts =>
    match outcome env o t with
    | none => []
    | some v => v :: accepted env o ts

/-- The values an option gets from one text. -/
def gives (env : Env) (o : Opt) (t : Text) : List Val :=
  match o.action with
  | .store => (outcome env o t).toList
  | .storeTrue => if t = [] then [.bool true] else (outcome env o t).toList
  | .storeFalse => if t = [] then [.bool false] else (outcome env o t).toList
  | .append => accepted env o (listed t)
  | _ => []

/-- The texts given to options by the events, in order. -/
def given : List Ev → List (Opt × Text)
  | [] => []
  | .use o _ vs :: es => vs.map (fun v => (o, v)) ++ given es
  | _ :: es => given es

/-- The part that concerns one destination. -/
def about (d : Text) (l : List (Opt × Text)) : List (Opt × Text) :=
  l.filter fun x => x.1.dest = d

/-- All values given for a destination. -/
def valuesFor (env : Env) (d : Text) (l : List (Opt × Text)) : List Val :=
  (about d l).flatMap fun x => gives env x.1 x.2

/-- The defaults, in the order of the options. -/
def defaultsOf (opts : List Opt) : List (Opt × Text) :=
  (opts.filter fun o => !o.dflt.isEmpty).map fun o => (o, o.dflt)

/-- The values of environment variables, in the order of the options. -/
def environmentOf (env : Env) (opts : List Opt) : List (Opt × Text) :=
  opts.filterMap fun o =>
    if o.env.isEmpty then none else (env.getenv (cstr o.env)).map fun t => (o, t)

/-- The values of the first source that gives any. -/
def firstOf (env : Env) : List (Opt × Text) → List Val
  | [] => []
  | x :: l => if gives env x.1 x.2 = [] then firstOf env l else gives env x.1 x.2

/-- Is it one of the actions that set a single value. -/
def Action.sets : Action → Bool
  | .store | .storeTrue | .storeFalse => true
  | _ => false

/-! ## Splitting at commas -/

theorem commas_ne_nil (t : Text) : commas t ≠ [] := by
  cases t with
  | nil => simp [commas]
  | cons c t =>
    unfold commas
    split
    · simp
    · split <;> simp

theorem commas_none {t : Text} (h : ',' ∉ t) : commas t = [t] := by
  induction t with
  | nil => rfl
  | cons c t ih =>
    simp only [List.mem_cons, not_or] at h
    have hc : ¬ c = ',' := fun e => h.1 e.symm
    simp [commas, hc, ih h.2]

theorem commas_append {p t : Text} (h : ',' ∉ p) :
    commas (p ++ ',' :: t) = p :: commas t := by
  induction p with
  | nil => simp [commas]
  | cons c p ih =>
    simp only [List.mem_cons, not_or] at h
    have hc : ¬ c = ',' := fun e => h.1 e.symm
    simp [commas, hc, ih h.2]

theorem pieces_commas {t : Text} {ps : List Text} (h : Pieces [','] t ps) : ps = commas t := by
  induction h with
  | @last t hn =>
    refine (commas_none ?_).symm
    intro hm
    obtain ⟨a, b, e⟩ := List.append_of_mem hm
    exact hn a b (by simpa using e)
  | @more p t ps hl hp ih =>
    have hp' : ',' ∉ p := by
      have : Pieces [','] (p ++ [','] ++ t) (p :: ps) := .more hl hp
      exact pieces_single this p (by simp)
    have := commas_append (t := t) hp'
    rw [ih]
    simpa using this.symm

theorem split_commas (t : Text) :
    splitFuel (t.length + 1) t [','] true =
      some (((commas t).filter fun p => !p.isEmpty).map trimString) := by
  obtain ⟨ps, hp, he⟩ := splitLoop_spec (str := t) (d := [',']) (skip := true) (by simp)
    (t.length + 1) 0 [] (by omega) (by omega)
  rw [splitFuel, he]
  rw [List.drop_zero] at hp
  rw [pieces_commas hp]
  simp [kept]

/-! ## One text -/

theorem outcome_of {env : Env} {o : Opt} {t : Text} {r : Option Val}
    (h : parseValue env t o = .ok r) : outcome env o t = r := by
  simp [outcome, h]

theorem setParsed_ok {env : Env} {o : Opt} {s s' : Store} {t : Text} {b : Bool}
    (h : setParsed env o s t = .ok (b, s')) :
    s' = match (outcome env o t) with
      | none => s
      | some v => s.set o.dest v := by
  unfold setParsed at h
  cases hp : parseValue env t o with
  | error f => rw [hp] at h; cases h
  | ok r =>
    rw [hp] at h
    rw [outcome_of hp]
    cases r <;> cases h <;> rfl

/-- The store after a setter has been given values. -/
theorem processOpt_sets {env : Env} {o : Opt} {s s' : Store} {t : Text} {b : Bool}
    (ha : o.action.sets = true) (h : processOpt env o s t = .ok (b, s')) :
    (gives env o t = [] ∧ s' = s) ∨ ∃ v, gives env o t = [v] ∧ s' = s.set o.dest v := by
  unfold processOpt at h
  unfold gives
  cases hact : o.action <;> rw [hact] at h ha <;> simp only [Action.sets, Bool.false_eq_true] at ha
  · have := setParsed_ok h
    cases ho : outcome env o t <;> rw [ho] at this <;> simp [this]
  all_goals
    cases t with
    | nil => cases h; right; exact ⟨_, rfl, rfl⟩
    | cons c t =>
      simp only [List.isEmpty_cons, Bool.false_eq_true, if_false] at h
      simp only [reduceCtorEq, if_false]
      have := setParsed_ok h
      cases ho : outcome env o (c :: t) <;> rw [ho] at this <;> simp [this]

theorem appendAll_ok {env : Env} {o : Opt} : ∀ {ts : List Text} {s s' : Store} {b : Bool},
    appendAll env o ts s = .ok (b, s') →
    s' = (accepted env o ts).foldl (fun s v => s.append o.dest v) s := by
  intro ts
  induction ts with
  | nil => intro s s' b h; cases h; rfl
  | cons t ts ih =>
    intro s s' b h
    unfold appendAll at h
    cases hp : parseValue env t o with
    | error f => rw [hp] at h; cases h
    | ok r =>
      rw [hp] at h
      unfold accepted
      rw [outcome_of hp]
      cases r with
      | none => cases h; rfl
      | some v => exact ih h

theorem processOpt_append {env : Env} {o : Opt} {s s' : Store} {t : Text} {b : Bool}
    (ha : o.action = .append) (h : processOpt env o s t = .ok (b, s')) :
    s' = (gives env o t).foldl (fun s v => s.append o.dest v) s := by
  unfold processOpt at h
  rw [ha] at h
  simp only [gives, ha]
  by_cases hc : hasChar ',' t = true
  · rw [if_pos hc, split_commas] at h
    unfold listed
    rw [if_pos (hasChar_iff.1 hc)]
    exact appendAll_ok h
  · rw [if_neg hc] at h
    unfold listed
    rw [if_neg (fun hm => hc (hasChar_iff.2 hm))]
    cases hp : parseValue env t o with
    | error f => rw [hp] at h; cases h
    | ok r =>
      rw [hp] at h
      unfold accepted
      rw [outcome_of hp]
      cases r <;> cases h <;> rfl

theorem processOpt_count {env : Env} {o : Opt} {s s' : Store} {t : Text} {b : Bool}
    (ha : o.action = .count) (h : processOpt env o s t = .ok (b, s')) :
    s.increment o.dest = .ok s' := by
  unfold processOpt at h
  rw [ha] at h
  cases hi : s.increment o.dest with
  | error f => simp only [hi] at h; cases h
  | ok s1 => simp only [hi] at h; cases h; rfl

/-- The actions that can succeed. -/
theorem processOpt_action {env : Env} {o : Opt} {s s' : Store} {t : Text} {b : Bool}
    (h : processOpt env o s t = .ok (b, s')) :
    o.action.sets = true ∨ o.action = .append ∨ o.action = .count := by
  unfold processOpt at h
  cases ha : o.action <;> simp [Action.sets] <;> rw [ha] at h <;> cases h

/-- Repeated append. -/
theorem appends_lists (d : Text) (vs : List Val) (s : Store) :
    (vs.foldl (fun s v => s.append d v) s).lists d =
        (if vs = [] then s.lists d else some ((s.lists d).getD [] ++ vs)) ∧
      (vs.foldl (fun s v => s.append d v) s).usr d = (s.usr d || !vs.isEmpty) ∧
      (vs.foldl (fun s v => s.append d v) s).values = s.values ∧
      ∀ k, k ≠ d → (vs.foldl (fun s v => s.append d v) s).lists k = s.lists k ∧
        (vs.foldl (fun s v => s.append d v) s).usr k = s.usr k := by
  induction vs generalizing s with
  | nil => simp
  | cons v vs ih =>
    obtain ⟨h1, h2, h3, h4⟩ := ih (s.append d v)
    rw [List.foldl_cons]
    refine ⟨?_, ?_, ?_, ?_⟩
    · rw [h1]
      have e : (s.append d v).lists d = some ((s.lists d).getD [] ++ [v]) := by
        simp only [Store.append, upd, if_true]
        cases s.lists d <;> rfl
      rw [e]
      by_cases hv : vs = [] <;> simp [hv]
    · rw [h2]; simp [Store.append, upd]
    · rw [h3]; rfl
    · intro k hk
      obtain ⟨a, b⟩ := h4 k hk
      rw [a, b]
      simp [Store.append, upd, hk]

/-- A text given to an option does not touch other destinations. -/
theorem processOpt_other {env : Env} {o : Opt} {s s' : Store} {t : Text} {b : Bool}
    (h : processOpt env o s t = .ok (b, s')) {k : Text} (hk : k ≠ o.dest) :
    s'.values k = s.values k ∧ s'.lists k = s.lists k ∧ s'.usr k = s.usr k := by
  rcases processOpt_action h with ha | ha | ha
  · rcases processOpt_sets ha h with ⟨_, rfl⟩ | ⟨v, _, rfl⟩
    · exact ⟨rfl, rfl, rfl⟩
    · simp [Store.set, upd, hk]
  · have := processOpt_append ha h
    obtain ⟨_, _, h3, h4⟩ := appends_lists o.dest (gives env o t) s
    rw [this, h3]
    exact ⟨rfl, (h4 k hk).1, (h4 k hk).2⟩
  · have := processOpt_count ha h
    unfold Store.increment at this
    cases hv : s.values o.dest with
    | none => rw [hv] at this; cases this; simp [upd, hk]
    | some v =>
      rw [hv] at this
      cases v with
      | int n =>
        simp only at this
        split at this
        · cases this
        · cases this; simp [upd, hk]
      | _ => cases this

/-! ## A sequence of texts -/

/-- Process a sequence of texts given to options. -/
def giveSeq (env : Env) : List (Opt × Text) → Store → Except Fault Store
  | [], s => .ok s
  | x :: l, s => do
    let (_, s) ← processOpt env x.1 s x.2
    giveSeq env l s

theorem giveSeq_append (env : Env) (l l' : List (Opt × Text)) (s : Store) :
    giveSeq env (l ++ l') s = (giveSeq env l s >>= fun s => giveSeq env l' s) := by
  induction l generalizing s with
  | nil => rfl
  | cons x l ih =>
    simp only [List.cons_append, giveSeq, except_assoc]
    congr 1
    funext ⟨b, s'⟩
    exact ih s'

theorem giveAll_seq (env : Env) (o : Opt) (vs : List Text) (s : Store) :
    giveAll env o vs s = giveSeq env (vs.map fun v => (o, v)) s := by
  induction vs generalizing s with
  | nil => rfl
  | cons v vs ih =>
    simp only [giveAll, List.map_cons, giveSeq]
    congr 1
    funext ⟨b, s'⟩
    exact ih s'

theorem play_given {env : Env} {es : List Ev} {s s' : Store} (h : play env es s = .ok s') :
    giveSeq env (given es) s = .ok s' := by
  induction es generalizing s with
  | nil => exact h
  | cons e es ih =>
    cases e with
    | left t => exact ih h
    | missing o ts => cases h
    | use o ts vs =>
      simp only [play] at h
      simp only [given, giveSeq_append, ← giveAll_seq]
      cases hg : giveAll env o vs s with
      | error f => rw [hg] at h; cases h
      | ok s1 => rw [hg] at h; exact ih h

theorem play_no_missing {env : Env} {es : List Ev} {s s' : Store} (h : play env es s = .ok s') :
    ∀ o ts, Ev.missing o ts ∉ es := by
  induction es generalizing s with
  | nil => simp
  | cons e es ih =>
    intro o ts hm
    cases e with
    | left t =>
      have := ih (s := s) h
      simp at hm
      exact this _ _ hm
    | missing o' ts' => cases h
    | use o' ts' vs =>
      simp only [play] at h
      cases hg : giveAll env o' vs s with
      | error f => rw [hg] at h; cases h
      | ok s1 =>
        rw [hg] at h
        have := ih (s := s1) h
        simp at hm
        exact this _ _ hm

theorem giveSeq_cons_ok {env : Env} {x : Opt × Text} {l : List (Opt × Text)} {s s' : Store}
    (h : giveSeq env (x :: l) s = .ok s') :
    ∃ b s1, processOpt env x.1 s x.2 = .ok (b, s1) ∧ giveSeq env l s1 = .ok s' := by
  unfold giveSeq at h
  cases hp : processOpt env x.1 s x.2 with
  | error f => rw [hp] at h; cases h
  | ok y =>
    rw [hp] at h
    exact ⟨y.1, y.2, rfl, h⟩

theorem about_cons (d : Text) (x : Opt × Text) (l : List (Opt × Text)) :
    about d (x :: l) = if x.1.dest = d then x :: about d l else about d l := by
  unfold about
  rw [List.filter_cons]
  simp

/-- Setters: the last value given wins. -/
theorem giveSeq_sets {env : Env} {d : Text} : ∀ {l : List (Opt × Text)} {s s' : Store},
    giveSeq env l s = .ok s' → (∀ x ∈ about d l, x.1.action.sets = true) →
    s'.values d = ((valuesFor env d l).getLast?).or (s.values d) ∧
      s'.usr d = (s.usr d || !(valuesFor env d l).isEmpty) ∧ s'.lists d = s.lists d := by
  intro l
  induction l with
  | nil => intro s s' h _; cases h; simp [valuesFor, about]
  | cons x l ih =>
    intro s s' h hs
    obtain ⟨b, s1, hp, hg⟩ := giveSeq_cons_ok h
    rw [about_cons] at hs
    unfold valuesFor
    rw [about_cons]
    by_cases hd : x.1.dest = d
    · rw [if_pos hd] at hs ⊢
      obtain ⟨h1, h2, h3⟩ := ih hg (fun y hy => hs y (by simp [hy]))
      rw [List.flatMap_cons]
      rw [h1, h2, h3]
      have ha := hs x (by simp)
      rcases processOpt_sets ha hp with ⟨hn, rfl⟩ | ⟨v, hv, rfl⟩
      · rw [hn]; exact ⟨rfl, rfl, rfl⟩
      · rw [hv]
        refine ⟨?_, ?_, rfl⟩
        · simp only [Store.set, upd, hd, if_true]
          show (valuesFor env d l).getLast?.or (some v) = ([v] ++ valuesFor env d l).getLast?.or _
          rw [List.getLast?_append]
          cases (valuesFor env d l).getLast? <;> rfl
        · simp [Store.set, upd, hd]
    · rw [if_neg hd] at hs ⊢
      obtain ⟨h1, h2, h3⟩ := ih hg hs
      obtain ⟨k1, k2, k3⟩ := processOpt_other hp (k := d) (fun e => hd e.symm)
      rw [h1, h2, h3, k1, k2, k3]
      exact ⟨rfl, rfl, rfl⟩

/-- Append: all values given are kept, in order. -/
theorem giveSeq_append_lists {env : Env} {d : Text} : ∀ {l : List (Opt × Text)} {s s' : Store},
    giveSeq env l s = .ok s' → (∀ x ∈ about d l, x.1.action = .append) →
    s'.lists d = (if valuesFor env d l = [] then s.lists d
        else some ((s.lists d).getD [] ++ valuesFor env d l)) ∧
      s'.usr d = (s.usr d || !(valuesFor env d l).isEmpty) ∧ s'.values d = s.values d := by
  intro l
  induction l with
  | nil => intro s s' h _; cases h; simp [valuesFor, about]
  | cons x l ih =>
    intro s s' h hs
    obtain ⟨b, s1, hp, hg⟩ := giveSeq_cons_ok h
    rw [about_cons] at hs
    unfold valuesFor
    rw [about_cons]
    by_cases hd : x.1.dest = d
    · rw [if_pos hd] at hs ⊢
      obtain ⟨h1, h2, h3⟩ := ih hg (fun y hy => hs y (by simp [hy]))
      rw [List.flatMap_cons]
      have ha := hs x (by simp)
      have hs1 := processOpt_append ha hp
      obtain ⟨a1, a2, a3, _⟩ := appends_lists d (gives env x.1 x.2) s
      rw [hd] at hs1
      rw [← hs1] at a1 a2 a3
      rw [h1, h2, h3, a1, a2, a3]
      change (if valuesFor env d l = [] then _ else _) = (if gives env x.1 x.2 ++ valuesFor env d l
        = [] then _ else some (_ ++ (gives env x.1 x.2 ++ valuesFor env d l))) ∧ _ =
        (s.usr d || !(gives env x.1 x.2 ++ valuesFor env d l).isEmpty) ∧ _
      refine ⟨?_, ?_, rfl⟩
      · by_cases hx : gives env x.1 x.2 = [] <;> by_cases hl : valuesFor env d l = [] <;>
          simp [hx, hl]
      · cases gives env x.1 x.2 <;> simp
    · rw [if_neg hd] at hs ⊢
      obtain ⟨h1, h2, h3⟩ := ih hg hs
      obtain ⟨k1, k2, k3⟩ := processOpt_other hp (k := d) (fun e => hd e.symm)
      rw [h1, h2, h3, k1, k2, k3]
      exact ⟨rfl, rfl, rfl⟩

/-- The value of a counter that was incremented `n` times. -/
def counted (n : Nat) : Option Val := if n = 0 then none else some (.int n)

theorem giveSeq_count {env : Env} {d : Text} : ∀ {l : List (Opt × Text)} {s s' : Store} {n : Nat},
    giveSeq env l s = .ok s' → (∀ x ∈ about d l, x.1.action = .count) →
    s.values d = counted n →
    s'.values d = counted (n + (about d l).length) ∧
      s'.usr d = s.usr d ∧ s'.lists d = s.lists d := by
  intro l
  induction l with
  | nil => intro s s' n h _ hn; cases h; simpa [about] using hn
  | cons x l ih =>
    intro s s' n h hs hn
    obtain ⟨b, s1, hp, hg⟩ := giveSeq_cons_ok h
    rw [about_cons] at hs ⊢
    by_cases hd : x.1.dest = d
    · rw [if_pos hd] at hs ⊢
      have hc := processOpt_count (hs x (by simp)) hp
      have hv : s1.values d = some (.int ((n + 1 : Nat) : Int)) ∧ s1.usr d = s.usr d ∧
          s1.lists d = s.lists d := by
        unfold Store.increment at hc
        rw [hd, hn, counted] at hc
        by_cases h0 : n = 0
        · rw [if_pos h0] at hc
          cases hc
          simp [upd, h0]
        · rw [if_neg h0] at hc
          simp only at hc
          split at hc
          · cases hc
          · cases hc; simp [upd]
      obtain ⟨h1, h2, h3⟩ := ih (n := n + 1) hg (fun y hy => hs y (by simp [hy])) (by
        rw [hv.1]; simp [counted])
      have e : n + 1 + (about d l).length = n + (x :: about d l).length := by
        simp only [List.length_cons]; omega
      rw [h1, h2, h3, hv.2.1, hv.2.2, e]
      exact ⟨rfl, rfl, rfl⟩
    · rw [if_neg hd] at hs ⊢
      obtain ⟨k1, k2, k3⟩ := processOpt_other hp (k := d) (fun e => hd e.symm)
      obtain ⟨h1, h2, h3⟩ := ih (n := n) hg hs (by rw [k1]; exact hn)
      rw [h1, h2, h3, k2, k3]
      exact ⟨rfl, rfl, rfl⟩

/-! ## Defaults and environment -/

/-- Give the texts to the options whose destination is not marked as set. -/
def giveUnset (env : Env) : List (Opt × Text) → Store → Except Fault Store
  | [], s => .ok s
  | x :: l, s => do
    let s ← if s.usr x.1.dest then pure s else do
      let (_, s) ← processOpt env x.1 s x.2
      pure s
    giveUnset env l s

theorem giveUnset_append (env : Env) (l l' : List (Opt × Text)) (s : Store) :
    giveUnset env (l ++ l') s = (giveUnset env l s >>= fun s => giveUnset env l' s) := by
  induction l generalizing s with
  | nil => rfl
  | cons x l ih =>
    simp only [List.cons_append, giveUnset]
    cases s.usr x.1.dest with
    | true => exact ih s
    | false =>
      cases processOpt env x.1 s x.2 with
      | error f => rfl
      | ok y => exact ih y.2

theorem applyDefaults_eq (env : Env) (opts : List Opt) (s : Store) :
    applyDefaults env opts s = giveUnset env (defaultsOf opts) s := by
  induction opts generalizing s with
  | nil => rfl
  | cons o opts ih =>
    unfold applyDefaults defaultsOf
    rw [List.filter_cons]
    cases hd : o.dflt.isEmpty
    · simp only [Bool.not_false, true_and, if_true, List.map_cons, giveUnset]
      cases hu : s.usr o.dest
      · cases processOpt env o s o.dflt with
        | error f => rfl
        | ok y => exact ih y.2
      · simp only [Bool.not_true, Bool.false_eq_true, if_false, if_true]
        exact ih s
    · simp only [Bool.not_true, Bool.false_eq_true, false_and, if_false]
      exact ih s

theorem applyEnv_eq (env : Env) (opts : List Opt) (s : Store) :
    applyEnv env opts s = giveUnset env (environmentOf env opts) s := by
  induction opts generalizing s with
  | nil => rfl
  | cons o opts ih =>
    unfold applyEnv environmentOf
    rw [List.filterMap_cons]
    cases hd : o.env.isEmpty
    · simp only [Bool.not_false, true_and, Bool.false_eq_true, if_false]
      cases hg : env.getenv (cstr o.env) with
      | none =>
        simp only [Option.map_none]
        cases hu : s.usr o.dest
        · exact ih s
        · exact ih s
      | some t =>
        simp only [Option.map_some, giveUnset]
        cases hu : s.usr o.dest
        · cases processOpt env o s t with
          | error f => rfl
          | ok y => exact ih y.2
        · exact ih s
    · simp only [Bool.not_true, Bool.false_eq_true, false_and, if_false, if_true]
      exact ih s

theorem giveUnset_cons_ok {env : Env} {x : Opt × Text} {l : List (Opt × Text)} {s s' : Store}
    (h : giveUnset env (x :: l) s = .ok s') :
    (s.usr x.1.dest = true ∧ giveUnset env l s = .ok s') ∨
    (s.usr x.1.dest = false ∧ ∃ b s1, processOpt env x.1 s x.2 = .ok (b, s1) ∧
      giveUnset env l s1 = .ok s') := by
  unfold giveUnset at h
  cases hu : s.usr x.1.dest with
  | true => rw [hu] at h; exact .inl ⟨rfl, h⟩
  | false =>
    rw [hu] at h
    cases hp : processOpt env x.1 s x.2 with
    | error f => rw [hp] at h; cases h
    | ok y =>
      rw [hp] at h
      exact .inr ⟨rfl, y.1, y.2, rfl, h⟩

/-- What is marked as set is not touched any more. -/
theorem giveUnset_kept {env : Env} {d : Text} : ∀ {l : List (Opt × Text)} {s s' : Store},
    giveUnset env l s = .ok s' → s.usr d = true →
    s'.values d = s.values d ∧ s'.lists d = s.lists d ∧ s'.usr d = true := by
  intro l
  induction l with
  | nil => intro s s' h hu; cases h; exact ⟨rfl, rfl, hu⟩
  | cons x l ih =>
    intro s s' h hu
    rcases giveUnset_cons_ok h with ⟨_, hg⟩ | ⟨hn, b, s1, hp, hg⟩
    · exact ih hg hu
    · have hd : d ≠ x.1.dest := by rintro rfl; rw [hu] at hn; cases hn
      obtain ⟨k1, k2, k3⟩ := processOpt_other hp hd
      obtain ⟨h1, h2, h3⟩ := ih hg (by rw [k3]; exact hu)
      exact ⟨h1.trans k1, h2.trans k2, h3⟩

theorem giveUnset_sets {env : Env} {d : Text} : ∀ {l : List (Opt × Text)} {s s' : Store},
    giveUnset env l s = .ok s' → (∀ x ∈ about d l, x.1.action.sets = true) → s.usr d = false →
    s'.values d = ((firstOf env (about d l)).getLast?).or (s.values d) ∧
      s'.usr d = !(firstOf env (about d l)).isEmpty ∧ s'.lists d = s.lists d := by
  intro l
  induction l with
  | nil => intro s s' h _ hu; cases h; simp [about, firstOf, hu]
  | cons x l ih =>
    intro s s' h hs hu
    rw [about_cons] at hs ⊢
    by_cases hd : x.1.dest = d
    · rw [if_pos hd] at hs ⊢
      rcases giveUnset_cons_ok h with ⟨hn, _⟩ | ⟨_, b, s1, hp, hg⟩
      · rw [hd, hu] at hn; cases hn
      · rcases processOpt_sets (hs x (by simp)) hp with ⟨hn, rfl⟩ | ⟨v, hv, rfl⟩
        · unfold firstOf
          rw [if_pos hn]
          exact ih hg (fun y hy => hs y (by simp [hy])) hu
        · obtain ⟨k1, k2, k3⟩ := giveUnset_kept (d := d) hg (by simp [Store.set, upd, hd])
          unfold firstOf
          rw [hv, if_neg (by simp)]
          rw [k1, k2, k3]
          simp [Store.set, upd, hd]
    · rw [if_neg hd] at hs ⊢
      rcases giveUnset_cons_ok h with ⟨_, hg⟩ | ⟨_, b, s1, hp, hg⟩
      · exact ih hg hs hu
      · obtain ⟨k1, k2, k3⟩ := processOpt_other hp (k := d) (fun e => hd e.symm)
        obtain ⟨h1, h2, h3⟩ := ih hg hs (by rw [k3]; exact hu)
        rw [h1, h2, h3, k1, k2]
        exact ⟨rfl, rfl, rfl⟩

theorem giveUnset_append_lists {env : Env} {d : Text} : ∀ {l : List (Opt × Text)} {s s' : Store},
    giveUnset env l s = .ok s' → (∀ x ∈ about d l, x.1.action = .append) → s.usr d = false →
    s.lists d = none →
    s'.lists d = (if firstOf env (about d l) = [] then none else some (firstOf env (about d l))) ∧
      s'.values d = s.values d := by
  intro l
  induction l with
  | nil => intro s s' h _ hu hn; cases h; simp [about, firstOf, hn]
  | cons x l ih =>
    intro s s' h hs hu hn0
    rw [about_cons] at hs ⊢
    by_cases hd : x.1.dest = d
    · rw [if_pos hd] at hs ⊢
      rcases giveUnset_cons_ok h with ⟨hn, _⟩ | ⟨_, b, s1, hp, hg⟩
      · rw [hd, hu] at hn; cases hn
      · have hs1 := processOpt_append (hs x (by simp)) hp
        obtain ⟨a1, a2, a3, _⟩ := appends_lists d (gives env x.1 x.2) s
        rw [hd] at hs1
        rw [← hs1] at a1 a2 a3
        unfold firstOf
        by_cases hx : gives env x.1 x.2 = []
        · rw [hx] at a1 a2
          rw [if_pos hx]
          obtain ⟨h1, h2⟩ := ih hg (fun y hy => hs y (by simp [hy])) (by simpa [hu] using a2)
            (by simpa [hn0] using a1)
          exact ⟨h1, by rw [h2, a3]⟩
        · rw [if_neg hx]
          obtain ⟨k1, k2, k3⟩ := giveUnset_kept (d := d) hg (by
            rw [a2]
            cases hg' : gives env x.1 x.2 with
            | nil => exact absurd hg' hx
            | cons => simp)
          rw [k1, k2, a1, a3, if_neg hx, if_neg hx, hn0]
          exact ⟨by simp, rfl⟩
    · rw [if_neg hd] at hs ⊢
      rcases giveUnset_cons_ok h with ⟨_, hg⟩ | ⟨_, b, s1, hp, hg⟩
      · exact ih hg hs hu hn0
      · obtain ⟨k1, k2, k3⟩ := processOpt_other hp (k := d) (fun e => hd e.symm)
        obtain ⟨h1, h2⟩ := ih hg hs (by rw [k3]; exact hu) (by rw [k2]; exact hn0)
        rw [h1, h2, k1]
        exact ⟨rfl, rfl⟩

/-- Counters are never marked as set, so every default and environment value counts once more. -/
theorem giveUnset_count {env : Env} {d : Text} : ∀ {l : List (Opt × Text)} {s s' : Store} {n : Nat},
    giveUnset env l s = .ok s' → (∀ x ∈ about d l, x.1.action = .count) → s.usr d = false →
    s.values d = counted n →
    s'.values d = counted (n + (about d l).length) ∧ s'.lists d = s.lists d := by
  intro l
  induction l with
  | nil => intro s s' n h _ _ hn; cases h; simpa [about] using hn
  | cons x l ih =>
    intro s s' n h hs hu hn
    rw [about_cons] at hs ⊢
    by_cases hd : x.1.dest = d
    · rw [if_pos hd] at hs ⊢
      rcases giveUnset_cons_ok h with ⟨hn, _⟩ | ⟨_, b, s1, hp, hg⟩
      · rw [hd, hu] at hn; cases hn
      · have h1 : giveSeq env [x] s = .ok s1 := by
          simp only [giveSeq, hp]; rfl
        obtain ⟨c1, c2, c3⟩ := giveSeq_count (d := d) (n := n) h1 (by
          intro y hy
          rw [about_cons, if_pos hd] at hy
          simp only [about, List.filter_nil, List.mem_singleton] at hy
          subst hy
          exact hs y (by simp)) hn
        have hl1 : (about d [x]).length = 1 := by rw [about_cons, if_pos hd]; rfl
        rw [hl1] at c1
        obtain ⟨h2, h3⟩ := ih (n := n + 1) hg (fun y hy => hs y (by simp [hy])) (by
          rw [c2]; exact hu) c1
        have e : n + 1 + (about d l).length = n + (x :: about d l).length := by
          simp only [List.length_cons]; omega
        rw [h2, h3, c3, e]
        exact ⟨rfl, rfl⟩
    · rw [if_neg hd] at hs ⊢
      rcases giveUnset_cons_ok h with ⟨_, hg⟩ | ⟨_, b, s1, hp, hg⟩
      · exact ih hg hs hu hn
      · obtain ⟨k1, k2, k3⟩ := processOpt_other hp (k := d) (fun e => hd e.symm)
        obtain ⟨h1, h2⟩ := ih (n := n) hg hs (by rw [k3]; exact hu) (by rw [k1]; exact hn)
        rw [h1, h2, k2]
        exact ⟨rfl, rfl⟩

end Verif.Opt
