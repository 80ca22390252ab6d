import Verif.Opt.Effects

/-!
Registration of options: which parser states are reachable through the API, and what the tables of
names contain.
-/

namespace Verif.Opt

/-! ## Programs over a parser -/

/-- A call of a setter of `Option` (optparse.hpp:190-257). -/
inductive Setting where
  | action (a : Action)
  | type (t : Typ)
  | dest (d : Text)
  | dflt (d : Text)
  | choices (cs : List Text)
  | help (h : Text)
  | env (e : Text)

/-- The effect of a setter. -/
def Setting.app : Setting → Opt → Opt
  | .action a, o => { o with action := a }
  | .type t, o => { o with type := t }
  | .dest d, o => { o with dest := d }
  | .dflt d, o => { o with dflt := d }
  | .choices cs, o => o.addChoices cs
  | .help h, o => { o with help := h }
  | .env e, o => { o with env := e }

/-- A call on a parser. -/
inductive Call where
  | add (names : List Text)
  | set (i : Nat) (s : Setting)
  | program (t : Text)
  | usage (t : Text)
  | version (t : Text)
  | addUsage (msg : Text)
  | addHelp (msg : Text)
  | addVersion (msg : Text)
  | formatUsage
  | formatVersion
  | formatHelp
  | parse (env : Env) (argv : List Text)
  | copy (id : Nat)

/-- The parser after a call, whether or not it threw. -/
def Call.run : Call → Parser → Parser
  | .add ns, p => (addOption p ns).2
  | .set i s, p => p.edit i s.app
  | .program t, p => { p with program := t }
  | .usage t, p => { p with usage := t }
  | .version t, p => { p with version := t }
  | .addUsage m, p => (Opt.addUsage p m).2
  | .addHelp m, p => (Opt.addHelp p m).2
  | .addVersion m, p => (Opt.addVersion p m).2
  | .formatUsage, p => (Opt.formatUsage p).2
  | .formatVersion, p => (Opt.formatVersion p).2
  | .formatHelp, p => (Opt.formatHelp p).2
  | .parse env argv, p => (parseArgs env p argv).2
  | .copy id, p => p.copyTo id

/-- Registration did not throw (the other calls are not restricted). -/
def Call.accepted : Call → Parser → Prop
  | .add ns, p => (addOption p ns).1 = .ok ()
  | _, _ => True

/-- A newly constructed parser. -/
inductive Made : Parser → Prop where
  | plain (id : Nat) (h : Handler) : Made (.new id h)
  | char {id : Nat} {c : Char} {p : Parser} : Parser.newPrefix id c = .ok p → Made p
  | both (id : Nat) (c : Char) (h : Handler) : Made (.newPrefixHandler id c h)

/-- A parser after any sequence of calls. -/
inductive Reach : Parser → Prop where
  | made {p : Parser} : Made p → Reach p
  | call {p : Parser} (c : Call) : Reach p → Reach (c.run p)

/-- A parser after a sequence of calls in which no registration threw. -/
inductive Clean : Parser → Prop where
  | made {p : Parser} : Made p → Clean p
  | call {p : Parser} (c : Call) : Clean p → c.accepted p → Clean (c.run p)

theorem Clean.reach {p : Parser} (h : Clean p) : Reach p := by
  induction h with
  | made h => exact .made h
  | call c _ _ ih => exact .call c ih

/-! ## Which option a name belongs to -/

/-- The option at position `i` is the last one registered under the name. -/
def IsLatest (opts : List Opt) (n : Text) (i : Nat) : Prop :=
  (∃ o, opts[i]? = some o ∧ n ∈ o.names) ∧
    ∀ j o, i < j → opts[j]? = some o → n ∉ o.names

/-- The tables lead to the last option registered under each name. -/
structure TablesFor (p : Parser) (L : List Opt) : Prop where
  longs : ∀ n i, p.longs n = some i ↔ kindOf p.pre p.longPre n = .long ∧ IsLatest L n i
  shorts : ∀ n i, p.shorts n = some i ↔ kindOf p.pre p.longPre n = .short ∧ IsLatest L n i
  valid : ∀ o ∈ L, ∀ n ∈ o.names, kindOf p.pre p.longPre n ≠ .invalid

theorem isLatest_names {L L' : List Opt} (h : L.map Opt.names = L'.map Opt.names) {n : Text}
    {i : Nat} : IsLatest L n i ↔ IsLatest L' n i := by
  have key : ∀ {L L' : List Opt}, L.map Opt.names = L'.map Opt.names → ∀ (i : Nat) (o : Opt),
      L[i]? = some o → ∃ o' : Opt, L'[i]? = some o' ∧ o'.names = o.names := by
    intro L L' h i o ho
    have := congrArg (fun l => l[i]?) h
    simp only [List.getElem?_map, ho, Option.map_some] at this
    cases h' : L'[i]? with
    | none => rw [h'] at this; cases this
    | some o' =>
      rw [h'] at this
      simp only [Option.map_some, Option.some.injEq] at this
      exact ⟨o', rfl, this.symm⟩
  have half : ∀ {L L' : List Opt}, L.map Opt.names = L'.map Opt.names → IsLatest L n i →
      IsLatest L' n i := by
    rintro L L' h ⟨⟨o, ho, hn⟩, hl⟩
    obtain ⟨o', ho', e⟩ := key h i o ho
    refine ⟨⟨o', ho', by rw [e]; exact hn⟩, ?_⟩
    intro j o2 hj h2
    obtain ⟨o3, h3, e3⟩ := key h.symm j o2 h2
    rw [← e3]
    exact hl j o3 hj h3
  exact ⟨half h, half h.symm⟩

theorem isLatest_unique {L : List Opt} {n : Text} {i j : Nat} (hi : IsLatest L n i)
    (hj : IsLatest L n j) : i = j := by
  obtain ⟨⟨o, ho, hn⟩, hl⟩ := hi
  obtain ⟨⟨o', ho', hn'⟩, hl'⟩ := hj
  rcases Nat.lt_trichotomy i j with h | h | h
  · exact absurd hn' (hl j o' h ho')
  · exact h
  · exact absurd hn (hl' i o h ho)

theorem isLatest_lt {L : List Opt} {n : Text} {i : Nat} (h : IsLatest L n i) : i < L.length := by
  obtain ⟨⟨o, ho, _⟩, _⟩ := h
  exact (List.getElem?_eq_some_iff.1 ho).1

/-- Every registered name has a latest option. -/
theorem exists_latest {L : List Opt} {n : Text} (h : ∃ o ∈ L, n ∈ o.names) :
    ∃ i, IsLatest L n i := by
  induction L with
  | nil => obtain ⟨o, ho, _⟩ := h; cases ho
  | cons o L ih =>
    by_cases hL : ∃ o ∈ L, n ∈ o.names
    · obtain ⟨i, ⟨o', ho', hn⟩, hl⟩ := ih hL
      refine ⟨i + 1, ⟨o', by simpa using ho', hn⟩, ?_⟩
      intro j o2 hj h2
      cases j with
      | zero => omega
      | succ j => exact hl j o2 (by omega) (by simpa using h2)
    · refine ⟨0, ⟨o, by simp, ?_⟩, ?_⟩
      · obtain ⟨o', ho', hn⟩ := h
        rcases List.mem_cons.1 ho' with rfl | hm
        · exact hn
        · exact absurd ⟨o', hm, hn⟩ hL
      · intro j o2 hj h2 hn
        cases j with
        | zero => omega
        | succ j => exact hL ⟨o2, List.mem_of_getElem? (by simpa using h2), hn⟩

theorem isLatest_snoc_self {L : List Opt} {o : Opt} {n : Text} {i : Nat} (hn : n ∈ o.names) :
    IsLatest (L ++ [o]) n i ↔ i = L.length := by
  constructor
  · intro h
    refine isLatest_unique h ⟨⟨o, by simp, hn⟩, ?_⟩
    intro j o' hj h'
    rw [List.getElem?_eq_none_iff.2 (by simp; omega)] at h'; cases h'
  · rintro rfl
    refine ⟨⟨o, by simp, hn⟩, ?_⟩
    intro j o' hj h'
    rw [List.getElem?_eq_none_iff.2 (by simp; omega)] at h'; cases h'

theorem isLatest_snoc_other {L : List Opt} {o : Opt} {n : Text} {i : Nat} (hn : n ∉ o.names) :
    IsLatest (L ++ [o]) n i ↔ IsLatest L n i := by
  constructor
  · rintro ⟨⟨o', ho', hn'⟩, hl⟩
    have hi : i < L.length := by
      rcases Nat.lt_or_ge i L.length with h | h
      · exact h
      · rw [List.getElem?_append_right h] at ho'
        cases hk : i - L.length with
        | zero => rw [hk] at ho'; cases ho'; exact absurd hn' hn
        | succ k => rw [hk] at ho'; cases ho'
    rw [List.getElem?_append_left hi] at ho'
    refine ⟨⟨o', ho', hn'⟩, ?_⟩
    intro j o2 hj h2
    have hj' : j < L.length := (List.getElem?_eq_some_iff.1 h2).1
    exact hl j o2 hj (by rw [List.getElem?_append_left hj']; exact h2)
  · rintro ⟨⟨o', ho', hn'⟩, hl⟩
    have hi : i < L.length := (List.getElem?_eq_some_iff.1 ho').1
    refine ⟨⟨o', by rw [List.getElem?_append_left hi]; exact ho', hn'⟩, ?_⟩
    intro j o2 hj h2
    rcases Nat.lt_or_ge j L.length with h | h
    · rw [List.getElem?_append_left h] at h2
      exact hl j o2 hj h2
    · rw [List.getElem?_append_right h] at h2
      cases hk : j - L.length with
      | zero => rw [hk] at h2; cases h2; exact hn
      | succ k => rw [hk] at h2; cases h2

/-! ## Registration -/

/-- Registration only changes the tables. -/
theorem registerNames_same (i : Nat) : ∀ (ns : List Text) (p : Parser),
    (registerNames i ns p).2 =
      { p with longs := (registerNames i ns p).2.longs
               shorts := (registerNames i ns p).2.shorts } := by
  intro ns
  induction ns with
  | nil => intro p; rfl
  | cons n ns ih =>
    intro p
    unfold registerNames
    cases kindOf p.pre p.longPre n with
    | short =>
      simp only
      split
      · rfl
      · rw [ih]
    | long =>
      simp only
      split
      · rfl
      · rw [ih]
    | invalid => rfl

theorem upd_self {α : Type} (f : Text → α) (k : Text) (v : α) : upd f k v k = v := by simp [upd]

theorem upd_other {α : Type} (f : Text → α) {k x : Text} (v : α) (h : x ≠ k) :
    upd f k v x = f x := by simp [upd, h]

theorem registerNames_range {i m : Nat} (hi : i < m) : ∀ (ns : List Text) (p : Parser),
    (∀ n j, p.longs n = some j → j < m) → (∀ n j, p.shorts n = some j → j < m) →
    (∀ n j, (registerNames i ns p).2.longs n = some j → j < m) ∧
      (∀ n j, (registerNames i ns p).2.shorts n = some j → j < m) := by
  intro ns
  induction ns with
  | nil => intro p h1 h2; exact ⟨h1, h2⟩
  | cons n ns ih =>
    intro p h1 h2
    unfold registerNames
    have hu : ∀ f : Text → Option Nat, (∀ n j, f n = some j → j < m) →
        ∀ n' j, upd f n (some i) n' = some j → j < m := by
      intro f hf n' j h
      by_cases e : n' = n
      · subst e; rw [upd_self] at h; cases h; exact hi
      · rw [upd_other _ _ e] at h; exact hf n' j h
    cases kindOf p.pre p.longPre n with
    | short =>
      simp only
      split
      · exact ⟨h1, h2⟩
      · exact ih _ h1 (hu _ h2)
    | long =>
      simp only
      split
      · exact ⟨h1, h2⟩
      · exact ih _ (hu _ h1) h2
    | invalid => exact ⟨h1, h2⟩

/-- One step of registration: the tables contain one more name of the last option. -/
theorem tables_step {p : Parser} {L : List Opt} {o : Opt} {done : List Text} {n : Text}
    (h : TablesFor p (L ++ [{ o with names := done }])) (k : Kind)
    (hk : kindOf p.pre p.longPre n = k) :
    (k = .short → TablesFor { p with shorts := upd p.shorts n (some L.length) }
      (L ++ [{ o with names := done ++ [n] }])) ∧
    (k = .long → TablesFor { p with longs := upd p.longs n (some L.length) }
      (L ++ [{ o with names := done ++ [n] }])) := by
  have hne : ∀ x i, x ≠ n → (IsLatest (L ++ [{ o with names := done ++ [n] }]) x i ↔
      IsLatest (L ++ [{ o with names := done }]) x i) := by
    intro x i hx
    by_cases hd : x ∈ done
    · rw [isLatest_snoc_self (by simp [hd]), isLatest_snoc_self (by simpa using hd)]
    · rw [isLatest_snoc_other (by simp [hd, hx]), isLatest_snoc_other (by simpa using hd)]
  have hself : ∀ i, IsLatest (L ++ [{ o with names := done ++ [n] }]) n i ↔ i = L.length :=
    fun i => isLatest_snoc_self (by simp)
  have hvalid : k ≠ .invalid → ∀ o' ∈ L ++ [{ o with names := done ++ [n] }], ∀ x ∈ o'.names,
      kindOf p.pre p.longPre x ≠ .invalid := by
    intro hki o' ho' x hx
    rcases List.mem_append.1 ho' with hL | hL
    · exact h.valid o' (by simp [hL]) x hx
    · simp only [List.mem_singleton] at hL
      subst hL
      simp only [List.mem_append, List.mem_singleton] at hx
      rcases hx with hx | rfl
      · exact h.valid { o with names := done } (by simp) x hx
      · rw [hk]; exact hki
  constructor
  · intro hks
    refine ⟨?_, ?_, hvalid (by rw [hks]; simp)⟩
    · intro x i
      by_cases hx : x = n
      · subst hx
        constructor
        · intro hl
          have := ((h.longs x i).1 hl).1
          rw [hk, hks] at this; cases this
        · rintro ⟨hl, _⟩
          rw [show kindOf p.pre p.longPre x = .short from hk.trans hks] at hl; cases hl
      · rw [hne x i hx]; exact h.longs x i
    · intro x i
      by_cases hx : x = n
      · subst hx
        simp only [upd_self, hself]
        rw [show kindOf p.pre p.longPre x = .short from hk.trans hks]
        simp [eq_comm]
      · simp only [upd_other _ _ hx]
        rw [hne x i hx]; exact h.shorts x i
  · intro hks
    refine ⟨?_, ?_, hvalid (by rw [hks]; simp)⟩
    · intro x i
      by_cases hx : x = n
      · subst hx
        simp only [upd_self, hself]
        rw [show kindOf p.pre p.longPre x = .long from hk.trans hks]
        simp [eq_comm]
      · simp only [upd_other _ _ hx]
        rw [hne x i hx]; exact h.longs x i
    · intro x i
      by_cases hx : x = n
      · subst hx
        constructor
        · intro hl
          have := ((h.shorts x i).1 hl).1
          rw [hk, hks] at this; cases this
        · rintro ⟨hl, _⟩
          rw [show kindOf p.pre p.longPre x = .long from hk.trans hks] at hl; cases hl
      · rw [hne x i hx]; exact h.shorts x i

/-- A name is registered. -/
def Registered (p : Parser) (n : Text) : Prop := ∃ o ∈ p.opts, n ∈ o.names

theorem tables_some {p : Parser} {L : List Opt} (h : TablesFor p L) {n : Text} :
    (kindOf p.pre p.longPre n = .short → ((p.shorts n).isSome = true ↔ ∃ o ∈ L, n ∈ o.names)) ∧
    (kindOf p.pre p.longPre n = .long → ((p.longs n).isSome = true ↔ ∃ o ∈ L, n ∈ o.names)) := by
  constructor
  · intro hk
    constructor
    · intro hs
      obtain ⟨i, hi⟩ := Option.isSome_iff_exists.1 hs
      obtain ⟨⟨o, ho, hn⟩, _⟩ := ((h.shorts n i).1 hi).2
      exact ⟨o, List.mem_of_getElem? ho, hn⟩
    · intro he
      obtain ⟨i, hi⟩ := exists_latest he
      rw [(h.shorts n i).2 ⟨hk, hi⟩]; rfl
  · intro hk
    constructor
    · intro hs
      obtain ⟨i, hi⟩ := Option.isSome_iff_exists.1 hs
      obtain ⟨⟨o, ho, hn⟩, _⟩ := ((h.longs n i).1 hi).2
      exact ⟨o, List.mem_of_getElem? ho, hn⟩
    · intro he
      obtain ⟨i, hi⟩ := exists_latest he
      rw [(h.longs n i).2 ⟨hk, hi⟩]; rfl

/-- What makes a list of names acceptable. -/
def Acceptable (p : Parser) (taken : Text → Prop) (ns : List Text) : Prop :=
  (∀ n ∈ ns, kindOf p.pre p.longPre n ≠ .invalid) ∧
    (p.handler = .error → ns.Nodup ∧ ∀ n ∈ ns, ¬ taken n)

theorem exists_snoc {L : List Opt} {o : Opt} {x : Text} :
    (∃ o' ∈ L ++ [o], x ∈ o'.names) ↔ (∃ o' ∈ L, x ∈ o'.names) ∨ x ∈ o.names := by
  constructor
  · rintro ⟨o', ho', hx⟩
    rcases List.mem_append.1 ho' with h | h
    · exact .inl ⟨o', h, hx⟩
    · simp only [List.mem_singleton] at h; subst h; exact .inr hx
  · rintro (⟨o', h, hx⟩ | hx)
    · exact ⟨o', by simp [h], hx⟩
    · exact ⟨o, by simp, hx⟩

theorem registerNames_spec {L : List Opt} {o : Opt} : ∀ (ns done : List Text) (p : Parser),
    TablesFor p (L ++ [{ o with names := done }]) →
    (((registerNames L.length ns p).1 = .ok () ↔
      Acceptable p (fun x => ∃ o' ∈ L ++ [{ o with names := done }], x ∈ o'.names) ns) ∧
    ((registerNames L.length ns p).1 = .ok () →
      TablesFor (registerNames L.length ns p).2 (L ++ [{ o with names := done ++ ns }]))) ∧
    ((registerNames L.length ns p).1 = .ok () ∨
      ∃ m, (registerNames L.length ns p).1 = .error (.throw m)) := by
  intro ns
  induction ns with
  | nil =>
    intro done p h
    refine ⟨⟨⟨fun _ => ⟨by simp, fun _ => ⟨List.nodup_nil, by simp⟩⟩, fun _ => rfl⟩, ?_⟩, .inl rfl⟩
    intro _
    simpa [registerNames] using h
  | cons n ns ih =>
    intro done p h
    obtain ⟨ts1, ts2⟩ := tables_some h (n := n)
    have conv : ∀ (q : Parser), q.pre = p.pre → q.longPre = p.longPre → q.handler = p.handler →
        kindOf p.pre p.longPre n ≠ .invalid →
        (p.handler = .error → ¬ ∃ o' ∈ L ++ [{ o with names := done }], n ∈ o'.names) →
        (Acceptable q (fun x => ∃ o' ∈ L ++ [{ o with names := done ++ [n] }], x ∈ o'.names) ns ↔
          Acceptable p (fun x => ∃ o' ∈ L ++ [{ o with names := done }], x ∈ o'.names)
            (n :: ns)) := by
      intro q q1 q2 q3 hv hfree
      unfold Acceptable
      rw [q1, q2, q3]
      simp only [List.mem_cons, forall_eq_or_imp, List.nodup_cons]
      constructor
      · rintro ⟨a, b⟩
        refine ⟨⟨hv, a⟩, fun he => ?_⟩
        obtain ⟨nd, nt⟩ := b he
        refine ⟨⟨fun hm => nt n hm (exists_snoc.2 (.inr (by simp))), nd⟩, hfree he, ?_⟩
        intro x hx hc
        refine nt x hx ?_
        rcases exists_snoc.1 hc with hc | hc
        · exact exists_snoc.2 (.inl hc)
        · exact exists_snoc.2 (.inr (by simp only [List.mem_append]; exact .inl hc))
      · rintro ⟨⟨_, a⟩, b⟩
        refine ⟨a, fun he => ?_⟩
        obtain ⟨⟨nm, nd⟩, _, nt⟩ := b he
        refine ⟨nd, ?_⟩
        intro x hx hc
        rcases exists_snoc.1 hc with hc | hc
        · exact nt x hx (exists_snoc.2 (.inl hc))
        · simp only [List.mem_append, List.mem_singleton] at hc
          rcases hc with hc | rfl
          · exact nt x hx (exists_snoc.2 (.inr hc))
          · exact nm hx
    have refuse : ∀ m, p.handler = .error → (∃ o' ∈ L ++ [{ o with names := done }], n ∈ o'.names) →
        ((((.error (.throw m) : Except Fault Unit), p).1 = .ok () ↔
          Acceptable p (fun x => ∃ o' ∈ L ++ [{ o with names := done }], x ∈ o'.names)
            (n :: ns)) ∧
        (((.error (.throw m) : Except Fault Unit), p).1 = .ok () → TablesFor p
          (L ++ [{ o with names := done ++ n :: ns }]))) ∧
        (((.error (.throw m) : Except Fault Unit), p).1 = .ok () ∨
          ∃ m', ((.error (.throw m) : Except Fault Unit), p).1 = .error (.throw m')) := by
      intro m he hex
      refine ⟨⟨Iff.intro (fun hh => by cases hh) (fun hh => ?_), fun hh => by cases hh⟩, .inr ⟨m, rfl⟩⟩
      exact absurd hex ((hh.2 he).2 n (by simp))
    unfold registerNames
    have e : done ++ n :: ns = (done ++ [n]) ++ ns := by simp
    cases hk : kindOf p.pre p.longPre n with
    | short =>
      simp only
      split
      · rename_i hc
        exact refuse _ hc.1 ((ts1 hk).1 hc.2)
      · rename_i hc
        have hfree : p.handler = .error → ¬ ∃ o' ∈ L ++ [{ o with names := done }], n ∈ o'.names :=
          fun he hx => hc ⟨he, (ts1 hk).2 hx⟩
        obtain ⟨⟨i1, i2⟩, i3⟩ := ih (done ++ [n]) _ ((tables_step h .short hk).1 rfl)
        refine ⟨⟨i1.trans (conv _ rfl rfl rfl (by rw [hk]; simp) hfree), ?_⟩, i3⟩
        rw [e]; exact i2
    | long =>
      simp only
      split
      · rename_i hc
        exact refuse _ hc.1 ((ts2 hk).1 hc.2)
      · rename_i hc
        have hfree : p.handler = .error → ¬ ∃ o' ∈ L ++ [{ o with names := done }], n ∈ o'.names :=
          fun he hx => hc ⟨he, (ts2 hk).2 hx⟩
        obtain ⟨⟨i1, i2⟩, i3⟩ := ih (done ++ [n]) _ ((tables_step h .long hk).2 rfl)
        refine ⟨⟨i1.trans (conv _ rfl rfl rfl (by rw [hk]; simp) hfree), ?_⟩, i3⟩
        rw [e]; exact i2
    | invalid =>
      simp only
      refine ⟨⟨Iff.intro (fun hh => by cases hh) (fun hh => ?_), fun hh => by cases hh⟩, .inr ⟨_, rfl⟩⟩
      exact absurd hk (hh.1 n (by simp))

theorem tablesFor_empty_last {p : Parser} {o : Opt} (h : TablesFor p p.opts) :
    TablesFor { p with opts := p.opts ++ [o] } (p.opts ++ [{ o with names := [] }]) := by
  refine ⟨?_, ?_, ?_⟩
  · intro n i
    rw [isLatest_snoc_other (by simp)]
    exact h.longs n i
  · intro n i
    rw [isLatest_snoc_other (by simp)]
    exact h.shorts n i
  · intro o' ho' n hn
    rcases List.mem_append.1 ho' with hm | hm
    · exact h.valid o' hm n hn
    · simp only [List.mem_singleton] at hm
      subst hm; cases hn

theorem addOpt_spec {p : Parser} {o : Opt} (h : TablesFor p p.opts) :
    ((addOpt p o).1 = .ok () ↔ Acceptable p (Registered p) o.names) ∧
    ((addOpt p o).1 = .ok () → TablesFor (addOpt p o).2 (addOpt p o).2.opts) ∧
    ((addOpt p o).1 = .ok () ∨ ∃ m, (addOpt p o).1 = .error (.throw m)) := by
  obtain ⟨⟨h1, h2⟩, h3⟩ := registerNames_spec o.names [] _ (tablesFor_empty_last (o := o) h)
  refine ⟨?_, ?_, h3⟩
  · unfold addOpt
    rw [h1]
    unfold Acceptable Registered
    have : ∀ x, (∃ o' ∈ p.opts ++ [{ o with names := [] }], x ∈ o'.names) ↔
        ∃ o' ∈ p.opts, x ∈ o'.names := by
      intro x
      rw [exists_snoc]; simp
    simp only [this]
  · intro hok
    have := h2 hok
    unfold addOpt
    have e := registerNames_same p.opts.length o.names { p with opts := p.opts ++ [o] }
    have eo : (registerNames p.opts.length o.names { p with opts := p.opts ++ [o] }).2.opts
        = p.opts ++ [o] := by rw [e]
    rw [eo]
    exact this

end Verif.Opt
