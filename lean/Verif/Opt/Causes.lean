import Verif.Opt.Grammar

/-!
Where the faults of `parse_args` come from.
-/

namespace Verif.Opt

/-! ## Specification -/

/-- The types whose values are extracted from a stream. -/
def Typ.numeric : Typ → Bool
  | .choice | .string => false
  | _ => true

/-- A text with nothing but white space before its end or first NUL. -/
def Blank (t : Text) : Prop := ∀ c ∈ cstr t, ws c = true

instance (t : Text) : Decidable (Blank t) := by unfold Blank; infer_instance

/-- The texts an option can be given. -/
inductive Source (env : Env) (args : List Text) (o : Opt) : Text → Prop where
  /-- a flag without a value -/
  | flag : o.type = .bool → Source env args o []
  /-- an argument of its own -/
  | arg {u : Text} : u ∈ args → Source env args o u
  /-- the value in `--name=value` -/
  | inline {a u : Text} : '=' ∉ a → a ++ '=' :: u ∈ args → Source env args o u
  | dflt : o.dflt ≠ [] → Source env args o o.dflt
  | environment {u : Text} : o.env ≠ [] → env.getenv (cstr o.env) = some u → Source env args o u

/-- The texts that are converted: the flags take the empty text for their constant. -/
def converted (o : Opt) (u : Text) : List Text :=
  match o.action with
  | .store => [u]
  | .storeTrue | .storeFalse => if u = [] then [] else [u]
  | .append => listed u
  | _ => []

/-! ## The failing step -/

theorem giveSeq_error_at {env : Env} : ∀ {l : List (Opt × Text)} {s : Store} {f : Fault},
    giveSeq env l s = .error f → ∃ l1 x l2 s1, l = l1 ++ x :: l2 ∧ giveSeq env l1 s = .ok s1 ∧
      processOpt env x.1 s1 x.2 = .error f := by
  intro l
  induction l with
  | nil => intro s f h; cases h
  | cons x l ih =>
    intro s f h
    unfold giveSeq at h
    cases hp : processOpt env x.1 s x.2 with
    | error g => rw [hp] at h; cases h; exact ⟨[], x, l, s, rfl, rfl, hp⟩
    | ok y =>
      rw [hp] at h
      obtain ⟨l1, z, l2, s1, e, h1, h2⟩ := ih (s := y.2) h
      refine ⟨x :: l1, z, l2, s1, by rw [e]; rfl, ?_, h2⟩
      unfold giveSeq
      rw [hp]; exact h1

theorem giveUnset_error_at {env : Env} : ∀ {l : List (Opt × Text)} {s : Store} {f : Fault},
    giveUnset env l s = .error f → ∃ l1 x l2 s1, l = l1 ++ x :: l2 ∧ giveUnset env l1 s = .ok s1 ∧
      s1.usr x.1.dest = false ∧ processOpt env x.1 s1 x.2 = .error f := by
  intro l
  induction l with
  | nil => intro s f h; cases h
  | cons x l ih =>
    intro s f h
    unfold giveUnset at h
    cases hu : s.usr x.1.dest with
    | true =>
      rw [hu] at h
      obtain ⟨l1, z, l2, s1, e, h1, h2⟩ := ih h
      refine ⟨x :: l1, z, l2, s1, by rw [e]; rfl, ?_, h2⟩
      unfold giveUnset
      rw [hu]; exact h1
    | false =>
      rw [hu] at h
      cases hp : processOpt env x.1 s x.2 with
      | error g => rw [hp] at h; cases h; exact ⟨[], x, l, s, rfl, rfl, hu, hp⟩
      | ok y =>
        rw [hp] at h
        obtain ⟨l1, z, l2, s1, e, h1, h2⟩ := ih (s := y.2) h
        refine ⟨x :: l1, z, l2, s1, by rw [e]; rfl, ?_, h2⟩
        unfold giveUnset
        rw [hu, hp]; exact h1

theorem play_error_at {env : Env} {es : List Ev} {s : Store} {f : Fault}
    (h : play env es s = .error f) :
    f = .throw "option is not Bool, so requires an value-argument" ∨
    ∃ l1 x l2 s1, given es = l1 ++ x :: l2 ∧ giveSeq env l1 s = .ok s1 ∧
      processOpt env x.1 s1 x.2 = .error f := by
  induction es generalizing s with
  | nil => cases h
  | cons e es ih =>
    cases e with
    | left t => exact ih h
    | missing o ts => cases h; exact .inl rfl
    | use o ts vs =>
      simp only [play] at h
      rw [giveAll_seq] at h
      cases hg : giveSeq env (vs.map fun v => (o, v)) s with
      | error g =>
        rw [hg] at h
        cases h
        obtain ⟨l1, x, l2, s1, e, h1, h2⟩ := giveSeq_error_at hg
        exact .inr ⟨l1, x, l2 ++ given es, s1, by simp [given, e], h1, h2⟩
      | ok s0 =>
        rw [hg] at h
        rcases ih (s := s0) h with h | ⟨l1, x, l2, s1, e, h1, h2⟩
        · exact .inl h
        · refine .inr ⟨vs.map (fun v => (o, v)) ++ l1, x, l2, s1, by simp [given, e], ?_, h2⟩
          rw [giveSeq_append, hg]; exact h1

/-- The step at which storing fails: one on the command line or one of the later ones. -/
theorem fullStore_error_at {env : Env} {opts : List Opt} {es : List Ev} {f : Fault}
    (h : fullStore env opts es = .error f) :
    f = .throw "option is not Bool, so requires an value-argument" ∨
    (∃ l1 x l2 s1, given es = l1 ++ x :: l2 ∧ giveSeq env l1 Store.empty = .ok s1 ∧
      processOpt env x.1 s1 x.2 = .error f) ∨
    (∃ s0 l1 x l2 s1, giveSeq env (given es) Store.empty = .ok s0 ∧
      defaultsOf opts ++ environmentOf env opts = l1 ++ x :: l2 ∧ giveUnset env l1 s0 = .ok s1 ∧
      s1.usr x.1.dest = false ∧ processOpt env x.1 s1 x.2 = .error f) := by
  unfold fullStore at h
  cases hp : play env es Store.empty with
  | error g =>
    rw [hp] at h; cases h
    rcases play_error_at hp with h | h
    · exact .inl h
    · exact .inr (.inl h)
  | ok s0 =>
    rw [hp] at h
    obtain ⟨l1, x, l2, s1, h1⟩ := giveUnset_error_at h
    exact .inr (.inr ⟨s0, l1, x, l2, s1, play_given hp, h1⟩)

/-! ## Blank texts -/

theorem toConvert_blank {t : Text} {f : Fault} (h : toConvert t = .error f) : Blank t := by
  unfold toConvert at h
  simp only at h
  split at h
  · rename_i he
    intro c hc
    have := List.isEmpty_iff.1 he
    exact List.dropWhile_eq_nil_iff.1 this c hc
  · cases h

theorem parseValue_blank {env : Env} {t : Text} {o : Opt} {f : Fault}
    (h : parseValue env t o = .error f) : o.type.numeric = true ∧ Blank t := by
  refine ⟨?_, toConvert_blank (parseValue_error h).2⟩
  unfold parseValue at h
  cases ho : o.type <;> rw [ho] at h <;> first | rfl | cases h

theorem appendAll_blank {env : Env} {o : Opt} : ∀ {ts : List Text} {s : Store} {f : Fault},
    appendAll env o ts s = .error f → o.type.numeric = true ∧ ∃ t ∈ ts, Blank t := by
  intro ts
  induction ts with
  | nil => intro s f h; cases h
  | cons t ts ih =>
    intro s f h
    unfold appendAll at h
    cases hp : parseValue env t o with
    | error g => exact ⟨(parseValue_blank hp).1, t, by simp, (parseValue_blank hp).2⟩
    | ok r =>
      rw [hp] at h
      cases r with
      | none => cases h
      | some v =>
        obtain ⟨h1, u, hu, hb⟩ := ih h
        exact ⟨h1, u, by simp [hu], hb⟩

theorem setParsed_blank {env : Env} {o : Opt} {s : Store} {t : Text} {f : Fault}
    (h : setParsed env o s t = .error f) : o.type.numeric = true ∧ Blank t := by
  unfold setParsed at h
  cases hp : parseValue env t o with
  | error g => exact parseValue_blank hp
  | ok r => rw [hp] at h; cases r <;> cases h

theorem processOpt_blank {env : Env} {o : Opt} {s : Store} {t : Text}
    (h : processOpt env o s t = .error (.ub "uninitialised value read")) :
    o.type.numeric = true ∧ ∃ u ∈ converted o t, Blank u := by
  unfold processOpt at h
  unfold converted
  cases hact : o.action <;> rw [hact] at h
  · cases h
  · exact ⟨(setParsed_blank h).1, t, by simp, (setParsed_blank h).2⟩
  · simp only at h
    split at h
    · cases h
    · rename_i hn
      exact ⟨(setParsed_blank h).1, t, by
        simp only; rw [if_neg (fun e => hn (by rw [e]; rfl))]; simp, (setParsed_blank h).2⟩
  · simp only at h
    split at h
    · cases h
    · rename_i hn
      exact ⟨(setParsed_blank h).1, t, by
        simp only; rw [if_neg (fun e => hn (by rw [e]; rfl))]; simp, (setParsed_blank h).2⟩
  · simp only
    unfold listed
    simp only at h
    split at h
    · rename_i hc
      rw [split_commas] at h
      rw [if_pos (hasChar_iff.1 hc)]
      exact appendAll_blank h
    · rename_i hc
      rw [if_neg (fun hm => hc (hasChar_iff.2 hm))]
      cases hp : parseValue env t o with
      | error g => exact ⟨(parseValue_blank hp).1, t, by simp, (parseValue_blank hp).2⟩
      | ok r => rw [hp] at h; cases r <;> cases h
  · simp only at h
    cases hi : s.increment o.dest with
    | ok s1 => simp only [hi] at h; cases h
    | error g =>
      simp only [hi] at h
      cases h
      unfold Store.increment at hi
      cases hv : s.values o.dest with
      | none => rw [hv] at hi; cases hi
      | some v =>
        rw [hv] at hi
        cases v with
        | int n => simp only at hi; split at hi <;> simp at hi
        | _ => cases hi
  · cases h
  · cases h

/-! ## Counting -/

/-- Only counting overflows or meets a value of another type. -/
theorem processOpt_count_error {env : Env} {o : Opt} {s : Store} {t : Text} {f : Fault}
    (h : processOpt env o s t = .error f)
    (hf : f = .ub "signed overflow" ∨ f = .throw "bad_variant_access") :
    o.action = .count ∧ ((f = .ub "signed overflow" ∧ s.values o.dest = some (.int int_max)) ∨
      (f = .throw "bad_variant_access" ∧ ∃ v, s.values o.dest = some v ∧ v.alt ≠ .int)) := by
  have hne : f ≠ .ub "uninitialised value read" := by rcases hf with rfl | rfl <;> decide
  unfold processOpt at h
  cases hact : o.action <;> rw [hact] at h
  · cases h; simp at hf
  · exact absurd (setParsed_error h) hne
  · simp only at h
    split at h
    · cases h
    · exact absurd (setParsed_error h) hne
  · simp only at h
    split at h
    · cases h
    · exact absurd (setParsed_error h) hne
  · simp only at h
    split at h
    · rw [split_commas] at h
      exact absurd (appendAll_error h) hne
    · cases hp : parseValue env t o with
      | error g => rw [hp] at h; cases h; exact absurd (parseValue_error hp).1 hne
      | ok r => rw [hp] at h; cases r <;> cases h
  · refine ⟨rfl, ?_⟩
    simp only at h
    cases hi : s.increment o.dest with
    | ok s1 => simp only [hi] at h; cases h
    | error g =>
      simp only [hi] at h
      cases h
      unfold Store.increment at hi
      cases hv : s.values o.dest with
      | none => rw [hv] at hi; cases hi
      | some v =>
        rw [hv] at hi
        cases v with
        | int n =>
          simp only at hi
          split at hi
          · rename_i hn; cases hi; exact .inl ⟨rfl, by rw [hn]⟩
          · cases hi
        | _ => cases hi; exact .inr ⟨rfl, _, rfl, by simp [Val.alt]⟩
  · cases h; simp at hf
  · cases h; simp at hf

theorem counted_max {n : Nat} (h : counted n = some (.int int_max)) : n = 2147483647 := by
  unfold counted at h
  split at h
  · cases h
  · simp only [Option.some.injEq, Val.int.injEq, int_max] at h
    omega

theorem counted_int {n : Nat} {v : Val} (h : counted n = some v) : v.alt = .int := by
  unfold counted at h
  split at h
  · cases h
  · cases h; rfl

theorem about_length (d : Text) (l : List (Opt × Text)) : (about d l).length ≤ l.length := by
  unfold about; exact List.length_filter_le _ _

/-! ## Sources -/

theorem takes_source {env : Env} {o : Opt} {G : Gram} {t w : Text} {ts k rest : List Text}
    (h : Takes G t ts w k rest) : Source env (t :: ts) o w := by
  cases h with
  | inline h1 _ => exact .inline h1 (by simp)
  | next => exact .arg (by simp)
  | afterEq => exact .arg (by simp)

theorem source_mono {env : Env} {o : Opt} {as bs : List Text} (h : ∀ a ∈ as, a ∈ bs) {u : Text}
    (hs : Source env as o u) : Source env bs o u := by
  cases hs with
  | flag h => exact .flag h
  | arg hm => exact .arg (h _ hm)
  | inline h1 h2 => exact .inline h1 (h _ h2)
  | dflt h => exact .dflt h
  | environment h1 h2 => exact .environment h1 h2

theorem reads_source {env : Env} {G : Gram} {ts : List Text} {es : List Ev} (h : Reads G ts es) :
    ∀ x ∈ given es, Source env ts x.1 x.2 := by
  induction h with
  | nil => intro x hx; cases hx
  | plain _ _ ih | unknown _ _ _ ih =>
    intro x hx
    exact source_mono (fun a ha => by simp [ha]) (ih x hx)
  | flag _ _ _ _ ht _ ih =>
    intro x hx
    simp only [given, List.map_cons, List.map_nil, List.cons_append, List.nil_append,
      List.mem_cons] at hx
    rcases hx with rfl | hx
    · exact .flag ht
    · exact source_mono (fun a ha => by simp [ha]) (ih x hx)
  | missing => intro x hx; simp [given] at hx
  | single _ _ _ htk _ ih =>
    intro x hx
    simp only [given, List.map_cons, List.map_nil, List.cons_append, List.nil_append,
      List.mem_cons] at hx
    rcases hx with rfl | hx
    · exact takes_source htk
    · refine source_mono (fun a ha => ?_) (ih x hx)
      rw [takes_toks htk]; simp [ha]
  | multi _ _ _ htk _ _ _ ih =>
    intro x hx
    simp only [given, List.map_cons, List.cons_append, List.mem_cons, List.mem_append,
      List.mem_map] at hx
    rcases hx with rfl | ⟨v, hv, rfl⟩ | hx
    · exact takes_source htk
    · refine .arg ?_
      rw [takes_toks htk]; simp [hv]
    · refine source_mono (fun a ha => ?_) (ih x hx)
      rw [takes_toks htk]; simp [ha]
  | dangling => intro x hx; simp [given] at hx

theorem fallback_source {env : Env} {opts : List Opt} {args : List Text} {x : Opt × Text}
    (h : x ∈ defaultsOf opts ++ environmentOf env opts) : Source env args x.1 x.2 := by
  rcases List.mem_append.1 h with h | h
  · obtain ⟨o, ho, rfl⟩ := List.mem_map.1 h
    refine .dflt ?_
    intro e
    have := (List.mem_filter.1 ho).2
    rw [e] at this; cases this
  · obtain ⟨o, _, e⟩ := List.mem_filterMap.1 h
    split at e
    · cases e
    · rename_i hn
      cases hg : env.getenv (cstr o.env) with
      | none => rw [hg] at e; cases e
      | some t =>
        rw [hg] at e; cases e
        exact .environment (by intro e; rw [e] at hn; exact hn rfl) hg

/-- At most one text is given per argument. -/
theorem reads_given_length {G : Gram} {ts : List Text} {es : List Ev} (h : Reads G ts es) :
    (given es).length ≤ ts.length := by
  induction h with
  | nil => simp [given]
  | plain _ _ ih | unknown _ _ _ ih => simp only [given, List.length_cons]; omega
  | flag _ _ _ _ _ _ ih =>
    simp only [given, List.map_cons, List.map_nil, List.cons_append, List.nil_append,
      List.length_cons]; omega
  | missing => simp [given]
  | single _ _ _ htk _ ih =>
    rw [takes_toks htk]
    simp only [given, List.map_cons, List.map_nil, List.cons_append, List.nil_append,
      List.length_cons, List.length_append]; omega
  | multi _ _ _ htk _ _ _ ih =>
    rw [takes_toks htk]
    simp only [given, List.map_cons, List.cons_append,
      List.length_cons, List.length_append, List.length_map]; omega
  | dangling => simp [given]

theorem fallback_length (env : Env) (opts : List Opt) :
    (defaultsOf opts ++ environmentOf env opts).length ≤ 2 * opts.length := by
  have h1 : (defaultsOf opts).length ≤ opts.length := by
    unfold defaultsOf
    rw [List.length_map]; exact List.length_filter_le _ _
  have h2 : (environmentOf env opts).length ≤ opts.length := List.length_filterMap_le _ _
  rw [List.length_append]; omega

end Verif.Opt
