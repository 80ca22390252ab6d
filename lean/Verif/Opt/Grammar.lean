import Verif.Opt.Parse
import Mathlib.Data.List.Induction
import Mathlib.Data.List.TakeWhile

/-!
The grammar of a command line in terms of the registered options alone: no tables of names.
-/

namespace Verif.Opt

/-! ## Specification -/

/-- The part of an argument before the first `'='`. -/
def namePart (t : Text) : Text := t.takeWhile (· ≠ '=')

/-- A text without the white space around it. -/
def stripped (t : Text) : Text := ((t.dropWhile ws).reverse.dropWhile ws).reverse

/-- The last option registered under a name. -/
def latest (opts : List Opt) (n : Text) : Option Opt := opts.reverse.find? fun o => o.names.contains n

/-- The grammar of a command line: arguments that begin with the prefix character name the last
option registered under their name part.  The long prefix alone is never a name. -/
def grammar (pre : Char) (longPre : Text) (opts : List Opt) : Gram where
  opt t := t.head? == some pre
  look t :=
    if stripped (namePart t) = longPre then none else latest opts (stripped (namePart t))

/-! ## The tables lead to the same options -/

theorem trimString_eq_stripped (t : Text) : trimString t = stripped t := by
  refine trimmed_unique (trimString_trimmed t) ?_
  unfold stripped
  have h1 : t = t.takeWhile ws ++ t.dropWhile ws := (List.takeWhile_append_dropWhile).symm
  have h2 : t.dropWhile ws = ((t.dropWhile ws).reverse.dropWhile ws).reverse ++
      ((t.dropWhile ws).reverse.takeWhile ws).reverse := by
    rw [← List.reverse_append, List.takeWhile_append_dropWhile, List.reverse_reverse]
  refine ⟨⟨t.takeWhile ws, ((t.dropWhile ws).reverse.takeWhile ws).reverse, ?_, ?_, ?_⟩, ?_, ?_⟩
  · rw [List.append_assoc, ← h2]; exact h1
  · intro c hc
    exact List.mem_takeWhile_imp hc
  · intro c hc
    exact List.mem_takeWhile_imp (List.mem_reverse.1 hc)
  · intro c hc
    cases hd : ((t.dropWhile ws).reverse.dropWhile ws).reverse with
    | nil => rw [hd] at hc; cases hc
    | cons x xs =>
      rw [hd] at hc h2
      simp only [List.head?_cons, Option.some.injEq] at hc
      subst hc
      have := List.head?_dropWhile_not ws t
      rw [h2] at this
      simpa using this
  · intro c hc
    rw [List.getLast?_reverse] at hc
    have := List.head?_dropWhile_not ws (t.dropWhile ws).reverse
    rw [hc] at this
    simpa using this

theorem extractName_eq (t : Text) : extractName t = namePart t := by
  unfold namePart
  by_cases h : '=' ∈ t
  · obtain ⟨a, b, rfl, ha⟩ := List.eq_append_cons_of_mem h
    rw [(extract_of_eq ha).1]
    rw [List.takeWhile_append_of_pos]
    · simp
    · intro c hc
      have : c ≠ '=' := by rintro rfl; exact ha hc
      simpa using this
  · rw [extractName_of_none h]
    symm
    rw [List.takeWhile_eq_self_iff]
    intro c hc
    have : c ≠ '=' := by rintro rfl; exact h hc
    simpa using this

theorem latest_iff {opts : List Opt} {n : Text} {o : Opt} :
    latest opts n = some o ↔ ∃ i, IsLatest opts n i ∧ opts[i]? = some o := by
  induction opts using List.reverseRecOn with
  | nil =>
    constructor
    · intro h; cases h
    · rintro ⟨i, _, h⟩; simp at h
  | append_singleton l o' ih =>
    unfold latest
    rw [List.reverse_append]
    simp only [List.reverse_cons, List.reverse_nil, List.nil_append, List.cons_append,
      List.find?_cons]
    by_cases hn : n ∈ o'.names
    · have : o'.names.contains n = true := by simpa using hn
      rw [this]
      constructor
      · intro h
        cases h
        exact ⟨l.length, (isLatest_snoc_self hn).2 rfl, by simp⟩
      · rintro ⟨i, hi, ho⟩
        rw [(isLatest_snoc_self hn).1 hi] at ho
        simpa using ho
    · have : o'.names.contains n = false := by simpa using hn
      rw [this]
      show latest l n = some o ↔ _
      rw [ih]
      constructor
      · rintro ⟨i, hi, ho⟩
        refine ⟨i, (isLatest_snoc_other hn).2 hi, ?_⟩
        rw [List.getElem?_append_left (isLatest_lt hi)]; exact ho
      · rintro ⟨i, hi, ho⟩
        have hi' := (isLatest_snoc_other hn).1 hi
        refine ⟨i, hi', ?_⟩
        rw [List.getElem?_append_left (isLatest_lt hi')] at ho; exact ho

theorem kind_long {p : Parser} (h2 : p.longPre.length = 2) {n : Text} :
    kindOf p.pre p.longPre n = .long ↔ p.longPre <+: n ∧ n ≠ p.longPre := by
  unfold kindOf substr
  simp only [List.drop_zero]
  have key : (n.length > 2 ∧ n.take 2 = p.longPre) ↔ p.longPre <+: n ∧ n ≠ p.longPre := by
    constructor
    · rintro ⟨hl, e⟩
      refine ⟨e ▸ List.take_prefix 2 n, ?_⟩
      rintro e'
      rw [e'] at hl; omega
    · rintro ⟨⟨r, rfl⟩, hne⟩
      have hr : r ≠ [] := by rintro rfl; simp at hne
      refine ⟨?_, ?_⟩
      · have := List.length_pos_iff.2 hr
        simp only [List.length_append]; omega
      · rw [← h2]; simp
  split
  · rename_i h; simp [key.1 h]
  · rename_i h
    constructor
    · intro hk; split at hk <;> cases hk
    · intro hk; exact absurd (key.2 hk) h

/-- A name leads to the last option registered under it. -/
theorem findOpt_iff {p : Parser} (g : Good p) (t : TablesFor p p.opts) {n : Text} {i : Nat}
    (hn : n ≠ p.longPre) (h0 : n = [] → p.pre ≠ '\x00') :
    findOpt p n = some i ↔ IsLatest p.opts n i := by
  unfold findOpt
  have reg : IsLatest p.opts n i → kindOf p.pre p.longPre n ≠ .invalid := by
    rintro ⟨⟨o, ho, hm⟩, _⟩
    exact t.valid o (List.mem_of_getElem? ho) n hm
  by_cases hl : startsWith p.longPre n = true
  · rw [if_pos hl, t.longs]
    have hk := (kind_long g.long2).2 ⟨startsWith_iff.1 hl, hn⟩
    simp [hk]
  · rw [if_neg hl]
    have hnl : kindOf p.pre p.longPre n ≠ .long := by
      intro hk
      exact hl (startsWith_iff.2 ((kind_long g.long2).1 hk).1)
    by_cases hs : startsWithChar p.pre n = true
    · rw [if_pos hs, t.shorts]
      constructor
      · exact fun h => h.2
      · intro h
        refine ⟨?_, h⟩
        cases hk : kindOf p.pre p.longPre n with
        | short => rfl
        | long => exact absurd hk hnl
        | invalid => exact absurd hk (reg h)
    · rw [if_neg hs]
      constructor
      · intro h; cases h
      · intro h
        have hr := reg h
        exfalso
        cases hk : kindOf p.pre p.longPre n with
        | invalid => exact hr hk
        | long => exact hnl hk
        | short =>
          unfold kindOf at hk
          split at hk
          · cases hk
          · split at hk
            · rename_i h1
              cases n with
              | nil => exact h0 rfl h1.symm
              | cons c n => simp [startsWithChar] at hs h1; exact hs h1
            · cases hk

theorem gramOf_opt (p : Parser) (t : Text) :
    (gramOf p).opt t = (grammar p.pre p.longPre p.opts).opt t := by
  simp only [gramOf, grammar]
  cases t with
  | nil => rfl
  | cons c t => simp [startsWithChar]

/-- The tables give the grammar. -/
theorem gramOf_look {p : Parser} (g : Good p) (tb : TablesFor p p.opts) {t : Text}
    (h : (gramOf p).opt t = true) :
    (gramOf p).look t = (grammar p.pre p.longPre p.opts).look t := by
  simp only [gramOf, grammar]
  rw [trimString_eq_stripped, extractName_eq]
  have h0 : stripped (namePart t) = [] → p.pre ≠ '\x00' := by
    intro e e0
    simp only [gramOf, startsWithChar_iff] at h
    cases t with
    | nil => cases h
    | cons c t =>
      simp only [List.head?_cons, Option.some.injEq] at h
      subst h
      rw [e0] at e
      have hm : '\x00' ∈ namePart ('\x00' :: t) := by
        unfold namePart
        rw [List.takeWhile_cons_of_pos (by decide)]
        simp
      have := trimString_trimmed (namePart ('\x00' :: t))
      rw [trimString_eq_stripped, e] at this
      obtain ⟨a, b, e1, ha, hb⟩ := this.split
      rw [e1] at hm
      simp only [List.append_nil, List.mem_append] at hm
      rcases hm with hm | hm
      · exact absurd (ha _ hm) (by decide)
      · exact absurd (hb _ hm) (by decide)
  split
  · rename_i e
    rw [e]
    have : findOpt p p.longPre = none := by
      unfold findOpt
      rw [if_pos (startsWith_iff.2 (List.prefix_refl _))]
      cases hl : p.longs p.longPre with
      | none => rfl
      | some i =>
        have := ((tb.longs _ _).1 hl).1
        exact absurd rfl ((kind_long g.long2).1 this).2
    rw [this]; rfl
  · rename_i hne
    cases hf : findOpt p (stripped (namePart t)) with
    | none =>
      symm
      rw [Option.bind_none]
      cases hl : latest p.opts (stripped (namePart t)) with
      | none => rfl
      | some o =>
        obtain ⟨i, hi, _⟩ := latest_iff.1 hl
        rw [(findOpt_iff g tb hne h0).2 hi] at hf; cases hf
    | some i =>
      have hi := (findOpt_iff g tb hne h0).1 hf
      obtain ⟨⟨o, ho, hm⟩, _⟩ := id hi
      rw [Option.bind_some, ho]
      exact (latest_iff.2 ⟨i, hi, ho⟩).symm

theorem takes_congr {G H : Gram} (ho : ∀ t, G.opt t = H.opt t) {t w : Text}
    {ts k rest : List Text} (h : Takes G t ts w k rest) : Takes H t ts w k rest := by
  cases h with
  | inline h1 h2 => exact .inline h1 h2
  | next h1 h2 => exact .next h1 (by rw [← ho]; exact h2)
  | afterEq h1 => exact .afterEq h1

theorem noNext_congr {G H : Gram} (ho : ∀ t, G.opt t = H.opt t) {ts : List Text}
    (h : NoValueNext G ts) : NoValueNext H ts := fun u hu => by rw [← ho]; exact h u hu

theorem reads_congr {G H : Gram} (ho : ∀ t, G.opt t = H.opt t)
    (hl : ∀ t, G.opt t = true → G.look t = H.look t) {ts : List Text} {es : List Ev}
    (h : Reads G ts es) : Reads H ts es := by
  induction h with
  | nil => exact .nil
  | plain h1 _ ih => exact .plain (by rw [← ho]; exact h1) ih
  | unknown h1 h2 _ ih => exact .unknown (by rw [← ho]; exact h1) (by rw [← hl _ h1]; exact h2) ih
  | flag h1 h2 h3 h4 h5 _ ih =>
    exact .flag (by rw [← ho]; exact h1) (by rw [← hl _ h1]; exact h2) h3 (noNext_congr ho h4) h5 ih
  | missing h1 h2 h3 h4 h5 =>
    exact .missing (by rw [← ho]; exact h1) (by rw [← hl _ h1]; exact h2) h3 (noNext_congr ho h4) h5
  | single h1 h2 h3 h4 _ ih =>
    exact .single (by rw [← ho]; exact h1) (by rw [← hl _ h1]; exact h2) h3 (takes_congr ho h4) ih
  | multi h1 h2 h3 h4 h5 h6 _ ih =>
    exact .multi (by rw [← ho]; exact h1) (by rw [← hl _ h1]; exact h2) h3 (takes_congr ho h4)
      (fun v hv => by rw [← ho]; exact h5 v hv) (noNext_congr ho h6) ih
  | dangling h1 h2 h3 =>
    exact .dangling (by rw [← ho]; exact h1) (by rw [← hl _ h1]; exact h2) h3

/-- What the tables read is what the grammar of the registered options reads. -/
theorem reads_grammar {p : Parser} (g : Good p) (tb : TablesFor p p.opts) {ts : List Text}
    {es : List Ev} (h : Reads (gramOf p) ts es) :
    Reads (grammar p.pre p.longPre p.opts) ts es :=
  reads_congr (gramOf_opt p) (fun _ ht => gramOf_look g tb ht) h

theorem latest_mem {opts : List Opt} {n : Text} {o : Opt} (h : latest opts n = some o) :
    o ∈ opts ∧ n ∈ o.names := by
  obtain ⟨i, ⟨⟨o', ho', hn⟩, _⟩, ho⟩ := latest_iff.1 h
  rw [ho] at ho'; cases ho'
  exact ⟨List.mem_of_getElem? ho, hn⟩

end Verif.Opt
