import Verif.Str.StringPlus

/-!
Properties of reading strings from streams and writing them to streams.
-/

namespace Verif.Str

open M

variable {β γ : Type} {cfg : Cfg} {s s' : St} {a a' : Abs} {u v : Nat} {xs ys : List Ch} {is : IStream} {delim : Ch}

/-- An action gives a result and does what it should, or fails because memory was refused. -/
def Gives (cfg : Cfg) (s : St) (x : M β) (R : β → Abs → Prop) : Prop :=
  (∃ b s' a', x s = (.ok b, s') ∧ Reach cfg a' s' ∧ R b a') ∨
    (∃ e s', x s = (.error e, s') ∧ s.refused = false ∧ s'.refused = true ∧
      (e = .throw "bad_alloc" ∨ e = .throw "length_error" ∨ e = .throw "terminate" ∨ cfg.arena = false ∧ s'.lost = true))

theorem Gives.of_op {x : M β} {b : β} {op : Op} {E : Fault → St → Prop} {Q : St → Prop} (hc : cfg.Ok) (h : Reach cfg a s)
    (hop : op.run cfg = (do let _ ← x; pure ())) (ho : op.spec cfg.arena a = some (.done a'))
    (ht : Tri x s (fun r s' => r = b ∧ Q s') E) : Gives cfg s x (fun r a1 => r = b ∧ a1 = a') := by
  unfold Tri at ht
  rcases e : x s with ⟨r, s1⟩
  rw [e] at ht
  have hrun : op.run cfg s = ((r.map fun _ => ()), s1) := by
    rw [hop, bind_apply, e]
    cases r <;> rfl
  cases r with
  | ok r =>
    exact Or.inl ⟨r, s1, a', e, h.done ho hrun, ht.1, rfl⟩
  | error f =>
    rcases ops_meet_spec hc h ho with ⟨s2, h1, _⟩ | ⟨f2, s2, h1, h2⟩
    · rw [hrun] at h1; cases h1
    · rw [hrun] at h1
      cases h1
      exact Or.inr ⟨f, s1, e, h2⟩

theorem Gives.bind {x : M β} {f : β → M γ} {R : β → Abs → Prop} {T : γ → Abs → Prop} (h : Gives cfg s x R)
    (hf : ∀ b a' s', Reach cfg a' s' → R b a' → Gives cfg s' (f b) T) (hs : s.refused = false) : Gives cfg s (x >>= f) T := by
  rcases h with ⟨b, s1, a1, e, h1, h2⟩ | ⟨e, s1, e1, h0, h1⟩
  · rcases hf b a1 s1 h1 h2 with ⟨c, s2, a2, g1, g2⟩ | ⟨e2, s2, g1, g2, g3⟩
    · exact Or.inl ⟨c, s2, a2, by rw [bind_ok e]; exact g1, g2⟩
    · exact Or.inr ⟨e2, s2, by rw [bind_ok e]; exact g1, hs, g3⟩
  · exact Or.inr ⟨e, s1, by rw [bind_apply, e1], h0, h1⟩

theorem Gives.mono {x : M β} {R T : β → Abs → Prop} (h : Gives cfg s x R) (hR : ∀ b a', R b a' → T b a') : Gives cfg s x T := by
  rcases h with ⟨b, s1, a1, e, h1, h2⟩ | h
  · exact Or.inl ⟨b, s1, a1, e, h1, hR _ _ h2⟩
  · exact Or.inr h

theorem lineOf_length (delim : Ch) (inp : List Ch) : (lineOf delim inp).length ≤ inp.length :=
  (List.takeWhile_prefix _).length_le

/-! ### C95: reading lines -/

/-- C95: `getline` puts the characters before the delimiter into the string and takes them and the delimiter
from the stream; without a delimiter it takes everything and the stream has seen its end, and if there was nothing
to read, it fails.  No other string is changed.  The line may have any length, and the string may be shared or have
any capacity. -/
theorem getline_spec (hc : cfg.Ok) (h : Reach cfg a s) (hv : a v = some xs) (hg : is.calm = true) (hl : is.inp.length < M64) :
    Gives cfg s (getline cfg (.user v) is delim)
      (fun r a' => r = is.afterLine delim ∧ a' = upd a v (some (is.inp.takeWhile (· != delim)))) := by
  have hrel := (reach_rel hc h).1
  have hg' := hg
  simp only [IStream.calm, Bool.and_eq_true, Bool.not_eq_true'] at hg'
  refine Gives.of_op (op := .getline v is delim) hc h rfl ?_
    (getline_tri hc hrel.inv hrel.free (hrel.held v xs hv) full_map hg'.1.1 ⟨hg'.1.2, hg'.2⟩ delim)
  have := lineOf_length delim is.inp
  simp only [Op.spec, hv, Option.bind_eq_bind, Option.bind_some, hg, if_true, Abs.set]
  rw [if_pos (by omega)]
  rfl

-- a line of 130 characters into a string of 3 that shares nothing, debug build
example : ((do let _ ← getline (heapCfg true) (.user 0) { inp := List.replicate 130 97 ++ [10, 98, 99] } 10
               contents (heapCfg true) 0) (runOk (heapCfg true) [.make 0 0 (.lit [97, 98, 99])] St.init).2).1 =
    .ok (List.replicate 130 97) := by decide +kernel

/-- C95: a stream that has seen its end gives no line: reading fails, the string is emptied. -/
theorem getline_over_spec (hc : cfg.Ok) (h : Reach cfg a s) (hv : a v = some xs) (hg : is.over = true) :
    Gives cfg s (getline cfg (.user v) is delim) (fun r a' => r = { is with fail := true } ∧ a' = upd a v (some [])) := by
  have hrel := (reach_rel hc h).1
  have hg' := hg
  simp only [IStream.over, Bool.and_eq_true, Bool.not_eq_true'] at hg'
  refine Gives.of_op (op := .getline v is delim) hc h rfl ?_
    (getline_dead_tri hc hrel.inv hrel.free (hrel.held v xs hv) full_map hg'.1.1.1 ⟨hg'.1.1.2, hg'.1.2, hg'.2⟩ delim)
  have hnc : is.calm = false := by
    unfold IStream.calm IStream.good
    have := hg'.1.1.1
    cases hb : is.bad <;> cases he : is.eof <;> simp_all
  simp [Op.spec, hv, hnc, hg, Abs.set]

example : (({ inp := [], eof := true } : IStream)).over = true := by decide

/-- C96, the part that holds: on a good stream and on one that has ended or is bad, as long as it does not throw, `getline`
leaves the string usable: it holds what was read, and nothing if the stream was over.  Missing: streams that
have failed (`getline_failed_violated`) or throw (`getline_throw_violated`, `getline_long_violated`), and that the string
keeps its contents on a stream that is over (`getline_end_violated`). -/
theorem getline_usable_partial (hc : cfg.Ok) (h : Reach cfg a s) (hv : a v = some xs) (hg : is.calm = true ∨ is.over = true)
    (hl : is.inp.length < M64) :
    Gives cfg s (getline cfg (.user v) is delim) (fun r a' => (r.fail = false → is.over = false) ∧
      a' = upd a v (some (if is.over then [] else is.inp.takeWhile (· != delim)))) := by
  by_cases ho : is.over = true
  · rcases getline_over_spec (delim := delim) hc h hv ho with ⟨b, s', a', h1, h2, h3, h4⟩ | h1
    · refine Or.inl ⟨b, s', a', h1, h2, ?_, ?_⟩
      · rw [h3]
        intro h
        cases h
      · rw [h4, ho]
        rfl
    · exact Or.inr h1
  · have ho' : is.over = false := by simpa using ho
    have hg' : is.calm = true := hg.resolve_right ho
    rcases getline_spec (delim := delim) hc h hv hg' hl with ⟨b, s', a', h1, h2, h3, h4⟩ | h1
    · refine Or.inl ⟨b, s', a', h1, h2, fun _ => ho', ?_⟩
      rw [h4, ho']
      rfl
    · exact Or.inr h1


/-- A loop of a caller: `while (getline(is, str, delim)) lines.push_back(str);` -/
def readLines (cfg : Cfg) (v : Nat) (delim : Ch) : Nat → IStream → M (List (List Ch) × IStream)
  | 0, _ => ub "out of fuel"
  | fuel + 1, is => do
    let is ← getline cfg (.user v) is delim
    if is.fail || is.bad then pure ([], is)
    else do
      let l ← contents cfg v
      let (ls, is) ← readLines cfg v delim fuel is
      pure (l :: ls, is)

/-- The lines of a text: none has the delimiter in it, and ended by it they are the text; the last one may have
been without. -/
def LinesOf (delim : Ch) (text : List Ch) (ls : List (List Ch)) : Prop :=
  (∀ l ∈ ls, delim ∉ l) ∧
    (ls.flatMap (· ++ [delim]) = text ∨
      text ≠ [] ∧ text.getLast? ≠ some delim ∧ ls.flatMap (· ++ [delim]) = text ++ [delim])

theorem readLines_over (hc : cfg.Ok) (h : Reach cfg a s) (hv : a v = some xs) (hg : is.over = true) (fuel : Nat) :
    Gives cfg s (readLines cfg v delim (fuel + 1) is)
      (fun r a' => r = ([], { is with fail := true }) ∧ (a' v).isSome = true) := by
  unfold readLines
  refine Gives.bind (getline_over_spec hc h hv hg) ?_ (reach_rel hc h).2.1
  rintro r a1 s1 h1 ⟨rfl, rfl⟩
  simp only [Bool.true_or, if_true]
  exact Or.inl ⟨_, s1, _, rfl, h1, rfl, by simp⟩

theorem Gives.contents {f : List Ch → M γ} {T : γ → Abs → Prop} (hc : cfg.Ok) (h : Reach cfg a s) (hv : a v = some xs)
    (hf : Gives cfg s (f xs) T) : Gives cfg s (Str.contents cfg v >>= f) T := by
  have : (Str.contents cfg v >>= f) s = f xs s := bind_ok (contents_reached hc h hv)
  unfold Gives
  rw [this]
  exact hf

theorem readLines_gives (hc : cfg.Ok) : ∀ (fuel : Nat) (is : IStream) (a : Abs) (s : St) (xs : List Ch), Reach cfg a s → a v = some xs →
    is.calm = true → is.inp.length < M64 → is.inp.length + 2 ≤ fuel →
    Gives cfg s (readLines cfg v delim fuel is)
      (fun r a' => LinesOf delim is.inp r.1 ∧ r.2 = { is with inp := [], eof := true, fail := true } ∧ (a' v).isSome = true) := by
  intro fuel
  induction fuel with
  | zero => intro is a s xs _ _ _ _ h; omega
  | succ fuel ih =>
    intro is a s xs h hv hg hl hfu
    have hg' := hg
    simp only [IStream.calm, IStream.good, Bool.and_eq_true, Bool.not_eq_true'] at hg'
    obtain ⟨⟨⟨⟨he, hfl⟩, hb⟩, ht1⟩, ht2⟩ := hg'
    unfold readLines
    refine Gives.bind (getline_spec hc h hv hg hl (delim := delim)) ?_ (reach_rel hc h).2.1
    rintro r a1 s1 h1 ⟨rfl, rfl⟩
    have hv1 : upd a v (some (is.inp.takeWhile (· != delim))) v = some (is.inp.takeWhile (· != delim)) := upd_same _ _ _
    have hsplit : is.inp = is.inp.takeWhile (· != delim) ++ is.inp.dropWhile (· != delim) :=
      (List.takeWhile_append_dropWhile).symm
    have hnot : delim ∉ is.inp.takeWhile (· != delim) := by
      intro hm
      have := takeWhile_holds (· != delim) is.inp delim hm
      simp at this
    cases hD : is.inp.dropWhile (· != delim) with
    | nil =>
      have hinp : is.inp.takeWhile (· != delim) = is.inp := by rw [hD, List.append_nil] at hsplit; exact hsplit.symm
      have hafter : is.afterLine delim = { is with inp := [], eof := true, fail := is.inp.isEmpty } := by
        unfold IStream.afterLine; rw [hD]
      rw [hafter]
      cases hi : is.inp with
      | nil =>
        simp only [List.isEmpty_nil, Bool.true_or, if_true]
        exact Or.inl ⟨_, s1, _, rfl, h1, ⟨⟨by simp, Or.inl (by simp)⟩, rfl, by simp⟩⟩
      | cons c t =>
        rw [if_neg (by simp [hb])]
        refine Gives.contents hc h1 hv1 ?_
        obtain ⟨fuel', rfl⟩ : ∃ k, fuel = k + 1 := ⟨fuel - 1, by omega⟩
        have hov : IStream.over { is with inp := [], eof := true, fail := false } = true := by
          simp [IStream.over, ht1, ht2, hb]
        have hrec := readLines_over (delim := delim) hc h1 hv1 hov fuel'
        refine Gives.bind (f := fun r : List (List Ch) × IStream => match r with | (ls, is_1) => pure (_ :: ls, is_1)) hrec ?_ (reach_rel hc h1).2.1
        rintro r a2 s2 h2 ⟨rfl, hv2⟩
        refine Or.inl ⟨_, s2, a2, rfl, h2, ⟨?_, ?_⟩, ?_, hv2⟩
        · intro l hl'
          simp only [List.mem_singleton] at hl'
          rw [hl']; exact hnot
        · right
          rw [hinp, hi]
          refine ⟨by simp, ?_, by simp⟩
          intro hlast
          have hm : delim ∈ is.inp := by rw [hi]; exact List.mem_of_getLast? hlast
          rw [← hinp] at hm
          exact hnot hm
        · rfl
    | cons c t =>
      have hcd : c = delim := by
        have := List.head?_dropWhile_not (p := (· != delim)) (l := is.inp)
        rw [hD] at this
        simpa using this
      subst hcd
      have hafter : is.afterLine c = { is with inp := t } := by
        unfold IStream.afterLine; rw [hD]
      have hlen : t.length + 1 ≤ is.inp.length := by
        rw [hsplit, hD, List.length_append]; simp
      rw [hafter]
      rw [if_neg (by simp [hfl, hb])]
      refine Gives.contents hc h1 hv1 ?_
      have hcalm : IStream.calm { is with inp := t } = true := by
        simp [IStream.calm, IStream.good, he, hfl, hb, ht1, ht2]
      have hlt : t.length < M64 := by omega
      have hfu' : t.length + 2 ≤ fuel := by omega
      have hrec := ih { is with inp := t } _ s1 _ h1 hv1 hcalm hlt hfu'
      refine Gives.bind (f := fun r : List (List Ch) × IStream => match r with | (ls, is_1) => pure (_ :: ls, is_1)) hrec ?_ (reach_rel hc h1).2.1
      rintro ⟨ls, r⟩ a2 s2 h2 ⟨⟨g1, g2⟩, g3, hv2⟩
      simp only at g1 g2 g3
      refine Or.inl ⟨_, s2, a2, rfl, h2, ⟨?_, ?_⟩, ?_, hv2⟩
      · intro l hl'
        simp only [List.mem_cons] at hl'
        rcases hl' with rfl | hl'
        · exact hnot
        · exact g1 l hl'
      · have hi : is.inp = is.inp.takeWhile (· != c) ++ c :: t := by rw [← hD]; exact hsplit
        rcases g2 with g2 | ⟨g2, g3, g4⟩
        · left
          simp only [List.flatMap_cons, g2, List.append_assoc, List.singleton_append]
          exact hi.symm
        · right
          refine ⟨by intro h0; rw [h0] at hi; simp at hi, ?_, ?_⟩
          · rw [hi, List.getLast?_append]
            cases t with
            | nil => exact absurd rfl g2
            | cons b t =>
              rw [List.getLast?_cons_cons]
              cases hgl : (b :: t).getLast? with
              | none => simp at hgl
              | some d => rw [hgl] at g3; simpa using g3
          · simp only [List.flatMap_cons, g4, List.append_assoc, List.singleton_append]
            conv => rhs; rw [hi]
            simp
      · simp only [g3]

/-- C95: reading lines until reading fails gives the lines of the text, whatever string they are read into. -/
theorem read_lines_spec (hc : cfg.Ok) (h : Reach cfg a s) (hv : a v = some xs) (hg : is.calm = true) (hl : is.inp.length < M64) :
    Gives cfg s (readLines cfg v delim (is.inp.length + 2) is)
      (fun r _ => LinesOf delim is.inp r.1 ∧ r.2.inp = [] ∧ r.2.eof = true ∧ r.2.fail = true) := by
  refine (readLines_gives hc _ is a s xs h hv hg hl (Nat.le_refl _)).mono ?_
  rintro ⟨ls, r⟩ a' ⟨h1, h2, _⟩
  simp only at h2
  subst h2
  exact ⟨h1, rfl, rfl, rfl⟩

-- "ab\n\ncd"
example : ((readLines (heapCfg false) 0 10 9 { inp := [97, 98, 10, 10, 99, 100] })
    (runOk (heapCfg false) [.make 0 0 (.lit [97, 98, 99])] St.init).2).1.toOption.map (·.1) = some [[97, 98], [], [99, 100]] ∧
    (IStream.calm { inp := [97, 98, 10, 10, 99, 100] } = true) := by decide +kernel

/-- The lines of a text are determined by it. -/
theorem lines_unique {text : List Ch} {ls ms : List (List Ch)} (h1 : LinesOf delim text ls) (h2 : LinesOf delim text ms) : ls = ms := by
  have key : ∀ (ls ms : List (List Ch)), (∀ l ∈ ls, delim ∉ l) → (∀ l ∈ ms, delim ∉ l) →
      ls.flatMap (· ++ [delim]) = ms.flatMap (· ++ [delim]) → ls = ms := by
    intro ls
    induction ls with
    | nil =>
      intro ms _ _ h
      cases ms with
      | nil => rfl
      | cons m ms => simp at h
    | cons l ls ih =>
      intro ms hl hm h
      cases ms with
      | nil => simp at h
      | cons m ms =>
        simp only [List.flatMap_cons, List.append_assoc, List.singleton_append] at h
        have e : ∀ (x y p q : List Ch), delim ∉ x → delim ∉ y → x ++ delim :: p = y ++ delim :: q → x = y ∧ p = q := by
          intro x
          induction x with
          | nil =>
            intro y p q _ hy h
            cases y with
            | nil => simpa using h
            | cons c y =>
              simp only [List.nil_append, List.cons_append, List.cons.injEq] at h
              exact absurd (by rw [h.1]; simp) hy
          | cons c x ihx =>
            intro y p q hx hy h
            cases y with
            | nil =>
              simp only [List.nil_append, List.cons_append, List.cons.injEq] at h
              exact absurd (by rw [h.1]; simp) hx
            | cons d y =>
              simp only [List.cons_append, List.cons.injEq] at h
              obtain ⟨h3, h4⟩ := ihx y p q (fun h => hx (by simp [h])) (fun h => hy (by simp [h])) h.2
              exact ⟨by rw [h.1, h3], h4⟩
        obtain ⟨h3, h4⟩ := e l m _ _ (hl l (by simp)) (hm m (by simp)) h
        rw [h3, ih ms (fun x hx => hl x (by simp [hx])) (fun x hx => hm x (by simp [hx])) h4]
  have last : ∀ (ls : List (List Ch)), ls.flatMap (· ++ [delim]) = text → text ≠ [] → text.getLast? = some delim := by
    intro ls h hne
    rcases List.eq_nil_or_concat ls with rfl | ⟨init, l, rfl⟩
    · exact absurd (by simpa using h.symm) hne
    · rw [← h]
      simp [List.flatMap_append, List.getLast?_append]
  obtain ⟨a1, a2⟩ := h1
  obtain ⟨b1, b2⟩ := h2
  refine key ls ms a1 b1 ?_
  rcases a2 with a2 | ⟨a2, a3, a4⟩ <;> rcases b2 with b2 | ⟨b2, b3, b4⟩
  · rw [a2, b2]
  · exact absurd (last ls a2 b2) b3
  · exact absurd (last ms b2 a2) a3
  · rw [a4, b4]

/-! ### C97: reading words -/

/-- C97, apart from `width()` afterwards: `is >> str` skips white space (when told to), puts the characters up to the
next white space into the string, at most `width()` of them, and takes them from the stream; the bits tell whether
the end was met and whether there was a word. -/
theorem extract_spec_partial (hc : cfg.Ok) (h : Reach cfg a s) (hv : a v = some xs) (hg : is.calm = true)
    (hn : ∀ c ∈ is.inp, c < 256) (hl : is.inp.length < M64) :
    Gives cfg s (extract cfg (.user v) is)
      (fun r a' => (∃ w, r = { is.afterWord with width := w }) ∧ a' = upd a v (some (is.word xs))) := by
  have hrel := (reach_rel hc h).1
  have hg' := hg
  simp only [IStream.calm, Bool.and_eq_true, Bool.not_eq_true'] at hg'
  have hlen : (is.word xs).length < M64 := by
    unfold IStream.word
    split
    · have := lengths_fit hc h hv
      have : (2 : Nat) ^ 62 < M64 := by decide
      omega
    · have h1 : (wordOf is.limit is.ready).length ≤ is.ready.length := by
        unfold wordOf
        rw [List.length_take]
        exact Nat.le_trans (Nat.min_le_right _ _) (List.takeWhile_prefix _).length_le
      have h2 : is.ready.length ≤ is.inp.length := by
        unfold IStream.ready
        split
        · exact (List.dropWhile_suffix _).length_le
        · exact Nat.le_refl _
      omega
  refine (Gives.of_op (op := .extract v is) (a' := upd a v (some (is.word xs))) hc h rfl ?_
    (extract_tri hc hrel.inv hrel.free (hrel.held v xs hv) hg'.1.1 ⟨hg'.1.2, hg'.2⟩ hn)).mono ?_
  · simp only [Op.spec, hv, Option.bind_eq_bind, Option.bind_some, Abs.set]
    rw [if_pos ⟨hg, hn⟩, if_pos hlen]
  · rintro r a' ⟨rfl, h2⟩
    exact ⟨⟨_, rfl⟩, h2⟩

-- "  abc d"
example : ((do let is ← extract (heapCfg true) (.user 0) { inp := [32, 32, 97, 98, 99, 32, 100] }
               let xs ← contents (heapCfg true) 0
               pure (xs, is.inp, is.eof, is.fail)) (runOk (heapCfg true) [.makeFill 0 0 300 97] St.init).2).1 =
    .ok ([97, 98, 99], [32, 100], false, false) := by decide +kernel

/-! ### C98: writing -/

/-- C98, for strings of less than 2^31 characters: `os << str` writes the characters of the string, filled up to
`width()` on the side asked for, and sets `width()` to zero; the strings are as before. -/
theorem insert_spec_partial (hc : cfg.Ok) (h : Reach cfg a s) (hv : a v = some xs) (hl : xs.length < 2 ^ 31) (os : OStream)
    (hok : os.ok = true) :
    insertTo cfg (.user v) os s = (.ok { os with
      width := 0
      out := os.out ++ if os.left then xs ++ List.replicate (os.width - xs.length).toNat os.fill
        else List.replicate (os.width - xs.length).toNat os.fill ++ xs }, s) := by
  have hrel := (reach_rel hc h).1
  rw [insertTo_ok hrel.inv (hrel.held v xs hv) (by simpa using hl) os]
  simp [OStream.written, hok]

-- setw(5), setfill('*')
example : ((insertTo (heapCfg true) (.user 0) { width := 5, fill := 42 })
    (runOk (heapCfg true) [.make 0 0 (.lit [97, 98, 99])] St.init).2).1 = .ok { out := [42, 42, 97, 98, 99], fill := 42 } := by
  decide +kernel

/-! ### C99: what is written is what is read -/

/-- C99: a string without the delimiter, written to a stream with the delimiter after it, is what `getline` reads, and
what was written after it is what is left to read. -/
theorem line_round_trip (hc : cfg.Ok) (h : Reach cfg a s) (hu : a u = some ys) (hv : a v = some xs) (hd : delim ∉ ys)
    (hl : ys.length < 2 ^ 31) (rest : List Ch) (hr : rest.length < 2 ^ 32) :
    Gives cfg s (do
        let os ← insertTo cfg (.user u) {}
        getline cfg (.user v) { inp := os.out ++ delim :: rest } delim)
      (fun r a' => r = { inp := rest } ∧ a' = upd a v (some ys)) := by
  have hw := insert_spec_partial hc h hu hl {} rfl
  have e0 : ((0 : Int) - (ys.length : Int)).toNat = 0 := by omega
  simp only [e0, List.replicate_zero, List.nil_append, Bool.false_eq_true, if_false] at hw
  have : (insertTo cfg (.user u) {} >>= fun os => getline cfg (.user v) { inp := os.out ++ delim :: rest } delim) s =
      getline cfg (.user v) { inp := ys ++ delim :: rest } delim s := by
    rw [bind_ok hw]
  unfold Gives
  rw [this]
  have htw : ∀ c ∈ ys, (c != delim) = true := by
    intro c hc'
    simp only [bne_iff_ne, ne_eq]
    rintro rfl
    exact hd hc'
  have h1 : (ys ++ delim :: rest).takeWhile (· != delim) = ys := by
    rw [List.takeWhile_append_of_pos htw]; simp
  have h2 : (ys ++ delim :: rest).dropWhile (· != delim) = delim :: rest := by
    rw [List.dropWhile_append_of_pos htw]; simp
  have hlen : (ys ++ delim :: rest).length < M64 := by
    have : (2 : Nat) ^ 31 = 2147483648 := rfl
    have : (2 : Nat) ^ 32 = 4294967296 := rfl
    rw [List.length_append, List.length_cons]
    omega
  refine (getline_spec hc h hv (is := { inp := ys ++ delim :: rest }) rfl hlen (delim := delim)).mono ?_
  rintro r a' ⟨rfl, rfl⟩
  simp only [h1, and_true]
  unfold IStream.afterLine
  simp only [h2]

example : (10 : Ch) ∉ [97, 98, 32, 99] := by decide

/-- C99: a string of at least one character and without white space, written to a stream with white space after it, is
what `>>` reads, and what is left begins with the white space. -/
theorem word_round_trip (hc : cfg.Ok) (h : Reach cfg a s) (hu : a u = some ys) (hv : a v = some xs) (hne : ys ≠ [])
    (hsp : ∀ c ∈ ys, isSpace c = false) (hl : ys.length < 2 ^ 31) {sp : Ch} (hs : isSpace sp = true) (rest : List Ch)
    (hr : rest.length < 2 ^ 32) (hch : ∀ c ∈ ys ++ sp :: rest, c < 256) :
    Gives cfg s (do
        let os ← insertTo cfg (.user u) {}
        extract cfg (.user v) { inp := os.out ++ sp :: rest })
      (fun r a' => r = { inp := sp :: rest } ∧ a' = upd a v (some ys)) := by
  have hw := insert_spec_partial hc h hu hl {} rfl
  have e0 : ((0 : Int) - (ys.length : Int)).toNat = 0 := by omega
  simp only [e0, List.replicate_zero, List.nil_append, Bool.false_eq_true, if_false] at hw
  have : (insertTo cfg (.user u) {} >>= fun os => extract cfg (.user v) { inp := os.out ++ sp :: rest }) s =
      extract cfg (.user v) { inp := ys ++ sp :: rest } s := by
    rw [bind_ok hw]
  unfold Gives
  rw [this]
  have hlen : (ys ++ sp :: rest).length < M64 := by
    have : (2 : Nat) ^ 31 = 2147483648 := rfl
    have : (2 : Nat) ^ 32 = 4294967296 := rfl
    rw [List.length_append, List.length_cons]
    omega
  have hready : IStream.ready { inp := ys ++ sp :: rest } = ys ++ sp :: rest := by
    obtain ⟨c, t, rfl⟩ := List.exists_cons_of_ne_nil hne
    simp [IStream.ready, hsp c (by simp)]
  have hblank : IStream.blank { inp := ys ++ sp :: rest } = false := by
    simp [IStream.blank, hready]
  have hword : wordOf (IStream.limit { inp := ys ++ sp :: rest }) (ys ++ sp :: rest) = ys := by
    unfold wordOf
    rw [List.takeWhile_append_of_pos (by intro c hc'; simp [hsp c hc'])]
    simp only [List.takeWhile_cons, hs, Bool.not_true, Bool.false_eq_true, if_false, List.append_nil]
    refine List.take_of_length_le ?_
    have : (2 : Nat) ^ 31 = 2147483648 := rfl
    simp only [IStream.limit, if_true]
    omega
  have heof : IStream.wordEof { inp := ys ++ sp :: rest } = false := by
    simp [IStream.wordEof, hblank, hready, hs]
  have hrel := (reach_rel hc h).1
  refine (Gives.of_op (op := .extract v { inp := ys ++ sp :: rest }) (a' := upd a v (some ys)) hc h rfl ?_
    (extract_tri hc hrel.inv hrel.free (hrel.held v xs hv) rfl ⟨rfl, rfl⟩ hch)).mono ?_
  · have hlt : ys.length < M64 := by rw [List.length_append] at hlen; omega
    simp only [Op.spec, hv, Option.bind_eq_bind, Option.bind_some, Abs.set]
    rw [if_pos ⟨rfl, hch⟩, IStream.word, hblank]
    simp only [hready, hword, Bool.false_eq_true, if_false]
    rw [if_pos hlt]
  · rintro r a' ⟨rfl, h2⟩
    refine ⟨?_, h2⟩
    unfold IStream.afterWord
    simp only [heof, hblank, hready, hword, Bool.false_and, Bool.false_eq_true, if_false]
    congr 1
    · simp
    · cases ys with
      | nil => exact absurd rfl hne
      | cons _ _ => rfl

example : ∀ c ∈ ([97, 98, 99] : List Ch), isSpace c = false := by decide

end Verif.Str
