import Verif.Str.StreamViolations

/-!
# The violations of C96 by failed streams and by streams that throw, in every state
-/

namespace Verif.Str

open M

variable {cfg : Cfg} {a : Abs} {s : St} {v : Nat} {o : Obj} {xs : List Ch}

/-- One round of `getlineImpl` on a failed stream: with room for a character, debug builds stop. -/
theorem getline_failed_tri (hc : cfg.Ok) (hd : cfg.dbg = true) (hw : WInv cfg s) (hf : Free s) {cs : List Cell} (hv : Raw cfg s o cs)
    (hcs : Full cs) {is : IStream} (hb : is.bad = false) (he : is.eof = false) (hfl : is.fail = true) (hth : is.throwFail = false)
    (hroom : ∀ s1, clear cfg o s = (.ok (), s1) → (capacity cfg o s1).1 ≠ .ok 0) (delim : Ch) :
    Tri (getline cfg o is delim) s (fun _ _ => False)
      (fun e s' => e = .assertFail "getlineImpl: size" ∨ ErrB cfg o s e s') := by
  have body : Tri (do clear cfg o; getlineLoop cfg o delim (is.inp.length + 3) is 0) s (fun _ _ => False)
      (fun e s' => e = .assertFail "getlineImpl: size" ∨ ErrB cfg o s e s') := by
    have h1 := (resize_tri hc hw hf hv (n := 0) (c := 0) (by decide)).basic hcs
    have h1' : Tri (clear cfg o) s (fun _ s' => Done cfg o (cs.take 0 ++ List.replicate (0 - cs.length) (some 0)) s s' ∧
        clear cfg o s = (.ok (), s')) (fun e s' => e = .assertFail "getlineImpl: size" ∨ ErrB cfg o s e s') := by
      unfold Tri at h1 ⊢
      rcases e : clear cfg o s with ⟨r, s1⟩
      have e' : resize cfg o 0 0 s = (r, s1) := e
      rw [e'] at h1
      cases r with
      | ok u => exact ⟨h1, rfl⟩
      | error f => exact Or.inr h1
    refine Tri.bind h1' ?_
    rintro _ s1 ⟨⟨w1, f1, r1⟩, hcl⟩
    have hroom := hroom s1 hcl
    simp only [List.take_zero, Nat.zero_sub, List.replicate_zero, List.append_nil] at r1
    have hf1 := hf.frame hv f1
    obtain ⟨c, hcap, _⟩ := r1.capM w1
    rw [hcap] at hroom
    have hc0 : c ≠ 0 := fun h => hroom (by rw [h])
    have hlt := r1.cap_short hc w1 hcap
    have hsub : sub64 c 0 = c := by rw [sub64_of_le (by omega) (by omega)]; rfl
    show Tri (getlineLoop cfg o delim (is.inp.length + 2 + 1) is 0) s1 _ _
    unfold getlineLoop
    refine Tri.step hcap ?_
    simp only [hsub]
    have hcapk : Tri (expandNoinit cfg o c false) s1 (fun _ s' => capacity cfg o s' = (.ok c, s')) (fun _ _ => True) := by
      obtain ⟨ob, l, k, h, e⟩ := r1
      have hk : k = 0 := by
        have := congrArg List.length e
        rw [Raw.length_take w1 h] at this
        exact this.symm
      subst hk
      simpa using expand_full hc w1 h hcap (by omega) (by omega)
    refine Tri.bind (((((expand_tri hc w1 hf1 r1 (delta := c) false (by simp; omega)).and hcapk).mono (fun _ _ h => h)
      (fun _ _ h => h.1.basic ⟨[], rfl⟩)).later f1).mono (fun _ _ h => h) (fun _ _ h => Or.inr h)) ?_
    rintro r s2 ⟨⟨w2, f2, p, cs1, r2, hp, hl, ht2, rfl, ho⟩, hc2⟩
    simp only [List.length_nil, Nat.zero_add] at hl
    obtain ⟨s3, cs2, e1, s4, e2, w4, f4, r4, hl4, _, ho4, _⟩ := store_line w2 (cs := []) (ys := []) r2 hp (by simp) (by simp)
      (fun h => ho (by rw [hl] at h; exact h)) hc2
    simp only [List.length_nil, Nat.add_zero, Ptr.add_zero] at e1 e2 ho4 ⊢
    have hs3 : s3 = s2 := write_none e1
    subst hs3
    have hsg : streamGetline is p c delim s3 = (.ok ({ is with fail := true }, 0), s4) := by
      unfold streamGetline
      have hng : is.good = false := by simp [IStream.good, hfl]
      rw [if_neg (by simp [hng]), bind_ok e2]
      have : is.setstate false true s4 = (.ok { is with fail := true }, s4) := by
        unfold IStream.setstate
        simp only [hth, hb, he, Bool.and_false, Bool.false_and, Bool.or_self, Bool.false_eq_true, if_false, Bool.or_true]
        rfl
      rw [bind_ok this]; rfl
    refine Tri.step hsg ?_
    have hadd : add64 0 0 = 0 := rfl
    simp only [hadd, hb, he, Bool.or_self, Bool.not_true, Bool.false_eq_true, if_false]
    refine Tri.step (r4.sizeM w4) ?_
    refine Tri.of_err (e := .assertFail "getlineImpl: size") (s' := s4) ?_ (Or.inl rfl)
    rw [bind_apply]
    have : ¬ (0 = cs2.length) := by omega
    simp only [assert, hd, decide_eq_false this, Bool.not_false, Bool.and_self, if_true]
    rfl
  unfold getline
  by_cases hA : ((do clear cfg o; getlineLoop cfg o delim (is.inp.length + 3) is 0 : M IStream) s).1 =
      .error (.assertFail "getlineImpl: size")
  · unfold checker
    refine Tri.step (sane_ok hw hv) ?_
    unfold Tri checking
    rcases e : (do clear cfg o; getlineLoop cfg o delim (is.inp.length + 3) is 0 : M IStream) s with ⟨r, s'⟩
    rw [e] at hA
    simp only at hA
    subst hA
    exact Or.inl rfl
  · refine (checker_tri (Q := fun _ _ => False) hw hv ?_ (fun _ _ h => h.elim)
      (fun _ _ _ h => by obtain ⟨xs, h⟩ := h; exact ⟨_, h⟩)).mono (fun _ _ h => h) (fun _ _ h => Or.inr h)
    unfold Tri at body ⊢
    rcases e : (do clear cfg o; getlineLoop cfg o delim (is.inp.length + 3) is 0 : M IStream) s with ⟨r, s'⟩
    rw [e] at body hA
    cases r with
    | ok _ => exact body
    | error f =>
      rcases body with rfl | h
      · exact absurd rfl hA
      · exact h

/-- C96, violated in every state: in debug builds `getline` on a stream whose `failbit` is set (and that does not throw
for it) does not return: it stops at an assertion, if memory is not refused, wherever the emptied string has room for a
character. -/
theorem getline_failed_everywhere_violated (hc : cfg.Ok) (hd : cfg.dbg = true) (h : Reach cfg a s) (hv : a v = some xs)
    {is : IStream} (hb : is.bad = false) (he : is.eof = false) (hfl : is.fail = true) (hth : is.throwFail = false)
    (hroom : ∀ s1, (Op.clear v).run cfg s = (.ok (), s1) → (capacity cfg (.user v) s1).1 ≠ .ok 0) (delim : Ch) :
    ∃ e s', getline cfg (.user v) is delim s = (.error e, s') ∧
      (e = .assertFail "getlineImpl: size" ∨ s'.refused = true ∨ s'.lost = true) := by
  have hrel := (reach_rel hc h).1
  have ht := getline_failed_tri hc hd hrel.inv hrel.free (hrel.held v xs hv) full_map hb he hfl hth hroom delim
  unfold Tri at ht
  rcases e : getline cfg (.user v) is delim s with ⟨r, s'⟩
  rw [e] at ht
  cases r with
  | ok _ => exact ht.elim
  | error f =>
    refine ⟨f, s', rfl, ?_⟩
    rcases ht with h | h | h
    · exact Or.inl h
    · exact Or.inr (Or.inr h.2)
    · exact Or.inr (Or.inl h.1)

-- the emptied string has room; one that never had a buffer has none in debug builds on the heap
example : (heapCfg true).dbg = true ∧
    (runOk (heapCfg true) [.make 0 0 (.lit [97, 98, 99]), .clear 0] St.init).1 = .ok () ∧
    (capacity (heapCfg true) (.user 0) (runOk (heapCfg true) [.make 0 0 (.lit [97, 98, 99]), .clear 0] St.init).2).1 = .ok 3 ∧
    (capacity (heapCfg true) (.user 0) (runOk (heapCfg true) [.make 0 0 (.lit []), .clear 0] St.init).2).1 = .ok 0 := by
  decide +kernel

theorem takeWhile_all {d : Ch} : ∀ {l : List Ch}, d ∉ l → l.takeWhile (· != d) = l
  | [], _ => rfl
  | x :: l, h => by
    have h1 : (x != d) = true := by
      simp only [bne_iff_ne, ne_eq]
      rintro rfl
      exact h (by simp)
    rw [List.takeWhile_cons, if_pos h1, takeWhile_all (fun hm => h (by simp [hm]))]

/-- The first round of `getlineImpl` on a good stream that throws when the line does not end within the capacity `c` of
the emptied string: the exception leaves the string with `c` characters. -/
theorem getline_throws_tri (hc : cfg.Ok) (hw : WInv cfg s) (hf : Free s) {cs : List Cell} (hv : Raw cfg s o cs)
    (hcs : Full cs) {is : IStream} (hg : is.good = true) {delim : Ch} {s1 : St} {c : Nat}
    (hcl : clear cfg o s = (.ok (), s1)) (hcap : capacity cfg o s1 = (.ok c, s1))
    (hth : is.throwEof = true ∧ delim ∉ is.inp ∧ is.inp.length ≤ c ∨ is.throwFail = true ∧ c < (is.inp.takeWhile (· != delim)).length) :
    Tri (getline cfg o is delim) s (fun _ _ => False)
      (fun e s' => e = .throw "ios_base::failure" ∧ size cfg o s' = (.ok c, s') ∨ ErrB cfg o s e s') := by
  have body : Tri (do clear cfg o; getlineLoop cfg o delim (is.inp.length + 3) is 0) s (fun _ _ => False)
      (fun e s' => e = .throw "ios_base::failure" ∧ size cfg o s' = (.ok c, s') ∧ WInv cfg s' ∧ (∃ cs, Raw cfg s' o cs) ∨
        ErrB cfg o s e s') := by
    have h1 := (resize_tri hc hw hf hv (n := 0) (c := 0) (by decide)).basic hcs
    unfold Tri at h1
    rw [show resize cfg o 0 0 s = (.ok (), s1) from hcl] at h1
    obtain ⟨w1, f1, r1⟩ := h1
    refine Tri.step hcl ?_
    simp only [List.take_zero, Nat.zero_sub, List.replicate_zero, List.append_nil] at r1
    have hf1 := hf.frame hv f1
    have hlt := r1.cap_short hc w1 hcap
    have hsub : sub64 c 0 = c := by rw [sub64_of_le (by omega) (by omega)]; rfl
    show Tri (getlineLoop cfg o delim (is.inp.length + 2 + 1) is 0) s1 _ _
    unfold getlineLoop
    refine Tri.step hcap ?_
    simp only [hsub]
    have hcapk : Tri (expandNoinit cfg o c false) s1 (fun _ s' => capacity cfg o s' = (.ok c, s')) (fun _ _ => True) := by
      obtain ⟨ob, l, k, h, e⟩ := r1
      have hk : k = 0 := by
        have := congrArg List.length e
        rw [Raw.length_take w1 h] at this
        exact this.symm
      subst hk
      simpa using expand_full hc w1 h hcap (by omega) (by omega)
    refine Tri.bind (((((expand_tri hc w1 hf1 r1 (delta := c) false (by simp; omega)).and hcapk).mono (fun _ _ h => h)
      (fun _ _ h => h.1.basic ⟨[], rfl⟩)).later f1).mono (fun _ _ h => h) (fun _ _ h => Or.inr h)) ?_
    rintro r s2 ⟨⟨w2, f2, p, cs1, r2, hp, hl, ht2, rfl, ho⟩, hc2⟩
    simp only [List.length_nil, Nat.zero_add] at hl
    have hT := lineLoop_eq delim c is.inp
    obtain ⟨s3, cs2, e1, s4, e2, w4, f4, r4, hl4, _, ho4, _⟩ := store_line w2 (cs := [])
      (ys := ((lineOf delim is.inp).take c).map some) r2 hp (by simp)
      (by simp only [List.length_nil, List.length_map, List.length_take]; omega)
      (fun h => ho (by rw [hl] at h; exact h)) hc2
    simp only [List.length_nil, Nat.zero_add, Ptr.add_zero, List.length_map] at e1 e2 ⊢
    have hsz : size cfg o s4 = (.ok c, s4) := by
      have := r4.sizeM w4
      rw [hl4, hl] at this
      exact this
    have hsg : streamGetline is p c delim s2 = (.error (.throw "ios_base::failure"), s4) := by
      rw [streamGetline_good hg]
      simp only [hT]
      rw [bind_ok e1, bind_ok e2]
      rcases hth with ⟨h1, h2, h3⟩ | ⟨h1, h2⟩
      · have hall : lineOf delim is.inp = is.inp := by
          exact takeWhile_all h2
        rw [hall, List.take_of_length_le h3, List.drop_length]
        simp [lineEnd, IStream.setstate, bind_apply, h1]
        rfl
      · have hlen : ((lineOf delim is.inp).take c).length = c := by
          rw [List.length_take]; exact Nat.min_eq_left (Nat.le_of_lt h2)
        rw [hlen]
        have hsplit : is.inp = lineOf delim is.inp ++ is.inp.dropWhile (· != delim) := (List.takeWhile_append_dropWhile).symm
        have h2' : c < (lineOf delim is.inp).length := h2
        have hd : ∃ x t, is.inp.drop c = x :: t ∧ x ≠ delim := by
          refine ⟨(lineOf delim is.inp)[c], (lineOf delim is.inp).drop (c + 1) ++ is.inp.dropWhile (· != delim), ?_, ?_⟩
          · conv_lhs => rw [hsplit]
            rw [List.drop_append_of_le_length (by omega), List.drop_eq_getElem_cons h2']
            rfl
          · have := takeWhile_holds (· != delim) is.inp _ (List.getElem_mem h2')
            simpa using this
        obtain ⟨x, t, e, hx⟩ := hd
        rw [e]
        simp [lineEnd, IStream.setstate, bind_apply, hx, h1]
        rfl
    refine Tri.of_err (e := .throw "ios_base::failure") (s' := s4) ?_ (Or.inl ⟨rfl, hsz, w4, _, r4⟩)
    rw [bind_apply, hsg]
  unfold getline
  by_cases hA : (∃ s', (do clear cfg o; getlineLoop cfg o delim (is.inp.length + 3) is 0 : M IStream) s =
      (.error (.throw "ios_base::failure"), s') ∧ size cfg o s' = (.ok c, s') ∧ WInv cfg s' ∧ ∃ cs, Raw cfg s' o cs)
  · obtain ⟨s', e, h2, h3, cs', h4⟩ := hA
    unfold checker
    refine Tri.step (sane_ok hw hv) ?_
    unfold Tri checking
    rw [e]
    simp only [sane_ok h3 h4]
    exact Or.inl ⟨trivial, h2⟩
  · refine (checker_tri (Q := fun _ _ => False) hw hv ?_ (fun _ _ h => h.elim)
      (fun _ _ _ h => by obtain ⟨xs, h⟩ := h; exact ⟨_, h⟩)).mono (fun _ _ h => h) (fun _ _ h => Or.inr h)
    unfold Tri at body ⊢
    rcases e : (do clear cfg o; getlineLoop cfg o delim (is.inp.length + 3) is 0 : M IStream) s with ⟨r, s'⟩
    rw [e] at body hA
    cases r with
    | ok _ => exact body
    | error f =>
      rcases body with ⟨rfl, h⟩ | h
      · exact absurd ⟨s', rfl, h⟩ hA
      · exact h

/-- C96, violated in every state: a good stream that throws at its end, when the rest of the input is no longer than the
capacity of the emptied string, or that throws when reading fails, when the line is longer than that: `getline` throws, and
the string is as long as its capacity, whatever was read. -/
theorem getline_throws_everywhere_violated (hc : cfg.Ok) (h : Reach cfg a s) (hv : a v = some xs)
    {is : IStream} (hg : is.good = true) {delim : Ch} {s1 : St} {c : Nat}
    (hcl : (Op.clear v).run cfg s = (.ok (), s1)) (hcap : capacity cfg (.user v) s1 = (.ok c, s1))
    (hth : is.throwEof = true ∧ delim ∉ is.inp ∧ is.inp.length ≤ c ∨ is.throwFail = true ∧ c < (is.inp.takeWhile (· != delim)).length) :
    ∃ e s', getline cfg (.user v) is delim s = (.error e, s') ∧
      (e = .throw "ios_base::failure" ∧ size cfg (.user v) s' = (.ok c, s') ∨ s'.refused = true ∨ s'.lost = true) := by
  have hrel := (reach_rel hc h).1
  have ht := getline_throws_tri hc hrel.inv hrel.free (hrel.held v xs hv) full_map hg hcl hcap hth
  unfold Tri at ht
  rcases e : getline cfg (.user v) is delim s with ⟨r, s'⟩
  rw [e] at ht
  cases r with
  | ok _ => exact ht.elim
  | error f =>
    refine ⟨f, s', rfl, ?_⟩
    rcases ht with h | h | h
    · exact Or.inl h
    · exact Or.inr (Or.inr h.2)
    · exact Or.inr (Or.inl h.1)

example : ∀ dbg ∈ [false, true],
    (runOk (heapCfg dbg) [.make 0 0 (.lit (List.replicate 40 97)), .clear 0] St.init).1 = .ok () ∧
    (capacity (heapCfg dbg) (.user 0) (runOk (heapCfg dbg) [.make 0 0 (.lit (List.replicate 40 97)), .clear 0] St.init).2).1 = .ok 40 ∧
    (10 : Nat) ∉ [120, 121] ∧ [120, 121].length ≤ 40 ∧
    40 < ((List.replicate 50 120 ++ [10]).takeWhile (· != 10)).length := by
  decide +kernel

end Verif.Str
