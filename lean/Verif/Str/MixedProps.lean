import Verif.Str.Mixed

/-!
C120: the comparison operators on mixed operands.  C121: null pointers given as C strings.
-/

namespace Verif.Str

variable {β : Type}

/-! ### Specification -/

/-- The characters an operand stands for; a C string stands for those before its NUL. -/
def Operand.Holds : Operand → List Ch → Prop
  | .str a, v => v = a
  | .std a, v => v = a
  | .ptr s, v => 0 ∉ v ∧ ∃ rest, s = some (v ++ 0 :: rest)

/-- What an operator means: equality and the dictionary order. -/
def Cmp.Means (a b : List Ch) : Cmp → Prop
  | .eq => a = b
  | .ne => a ≠ b
  | .lt => LexLt a b
  | .gt => LexLt b a
  | .le => LexLt a b ∨ a = b
  | .ge => LexLt b a ∨ a = b

/-- Whether an operand is a string of the library. -/
def Operand.isStr : Operand → Bool
  | .str _ => true
  | _ => false

/-! ### Lemmas -/

theorem nx_ok (b : β) : nx (.ok b : Except Fault β) = .ok b := rfl

theorem signOf_swap {r : Int} {a b : List Ch} (h : SignOf r a b) : (¬ r < 0 ↔ LexLt b a ∨ a = b) ∧ (¬ r > 0 ↔ LexLt a b ∨ a = b) := by
  obtain ⟨h1, h2, h3⟩ := h
  rw [← h1, ← h2, ← h3]
  constructor <;> omega

theorem traitsLength_held {v rest : List Ch} (h0 : 0 ∉ v) : traitsLength (some (v ++ 0 :: rest)) = .ok v.length := by
  have := strlen_spec (mem := v ++ 0 :: rest) v rest 0 (fun c hc h => h0 (h ▸ hc)) rfl
  simpa [traitsLength] using this

theorem compareP_held (a : List Ch) {v rest : List Ch} (h0 : 0 ∉ v) :
    ∃ r, compareP a (some (v ++ 0 :: rest)) = .ok r ∧ SignOf r a v := by
  unfold compareP
  rw [traitsLength_held h0, ok_bind]
  have := compareN_spec a v [] []
  simpa [chars] using this

theorem stdCompare_sign (a b : List Ch) : ∃ r, stdCompare a b = .ok r ∧ SignOf r a b := by
  have := (compareSub_lexicographic a b 0 a.length).1 (Nat.zero_le _)
  simpa [stdCompare] using this

theorem strOperators (o : Cmp) (a b : List Ch) {r : Except Fault Bool} (h : operator o (.str a) (.str b) = some r) :
    ∃ e, r = .ok e ∧ (e = true ↔ o.Means a b) := by
  obtain ⟨q, e1, hq⟩ := compare_lexicographic a b
  obtain ⟨h1, h2, h3, h4, h5, h6, _⟩ := operators_lexicographic a b
  have hx := signOf_swap hq
  obtain ⟨g1, g2, g3⟩ := hq
  have hle : ¬ LexLt b a ↔ LexLt a b ∨ a = b := by rw [← g3]; exact hx.2
  have hge : ¬ LexLt a b ↔ LexLt b a ∨ a = b := by rw [← g1]; exact hx.1
  cases h
  cases o <;> simp only [Cmp.Means]
  · exact h1
  · exact h2
  · exact h3
  · exact h4
  · rw [← hle]; exact h5
  · rw [← hge]; exact h6

/-! ### C120 -/

/-- C120: whatever the kinds of the operands, every operator is that of the dictionary order on what they hold. -/
theorem mixed_operators (o : Cmp) {x y : Operand} {a b : List Ch} (hx : x.Holds a) (hy : y.Holds b)
    (hk : x.isStr = true ∨ y.isStr = true) :
    ∃ e, operator o x y = some (.ok e) ∧ (e = true ↔ o.Means a b) := by
  have hne : ∀ {q : Int} {c d : List Ch}, SignOf q c d → (c ≠ d ↔ q ≠ 0) := fun h => by rw [ne_eq, ← h.2.1]
  cases x with
  | str x =>
    cases hx
    cases y with
    | str y =>
      cases hy
      obtain ⟨e, h1, h2⟩ := strOperators o a b (r := _) rfl
      exact ⟨e, congrArg some h1, h2⟩
    | ptr s =>
      obtain ⟨h0, rest, rfl⟩ := hy
      obtain ⟨q, e, hs⟩ := compareP_held a (rest := rest) h0
      have hw := signOf_swap hs
      have hz := hne hs
      obtain ⟨s1, s2, s3⟩ := hs
      cases o <;> simp only [operator, eqSP, neSP, ltSP, gtSP, leSP, geSP, ltPS, e, ok_bind, pure, Except.pure, nx_ok, Cmp.Means] <;>
        refine ⟨_, rfl, ?_⟩
      · simpa using s2
      · rw [hz]; simp
      · simpa using s1
      · simpa using s3
      · rw [← hw.2]; simp
      · rw [← hw.1]; simp
    | std y =>
      cases hy
      obtain ⟨q, e, hs⟩ := stdCompare_sign a b
      have hw := signOf_swap hs
      have hz := hne hs
      obtain ⟨s1, s2, s3⟩ := hs
      cases o <;> simp only [operator, stdEq, neSD, stdLt, stdGt, leSD, geSD, e, ok_bind, pure, Except.pure, nx_ok, Cmp.Means] <;>
        refine ⟨_, rfl, ?_⟩
      · simpa using s2
      · rw [hz]; simp
      · simpa using s1
      · simpa using s3
      · rw [← hw.2]; simp
      · rw [← hw.1]; simp
  | ptr s =>
    cases y with
    | str y =>
      cases hy
      obtain ⟨h0, rest, rfl⟩ := hx
      obtain ⟨q, e, hs⟩ := compareP_held b (rest := rest) h0
      have hw := signOf_swap hs
      have hz := hne hs
      obtain ⟨s1, s2, s3⟩ := hs
      cases o <;> simp only [operator, eqPS, eqSP, nePS, ltPS, gtPS, lePS, gePS, ltSP, e, ok_bind, pure, Except.pure, nx_ok, Cmp.Means] <;>
        refine ⟨_, rfl, ?_⟩
      · rw [eq_comm (a := a)]; simpa using s2
      · rw [ne_comm (a := a), hz]; simp
      · simpa using s3
      · simpa using s1
      · rw [eq_comm (a := a), ← hw.1]; simp
      · rw [eq_comm (a := a), ← hw.2]; simp
    | ptr s' => simp [Operand.isStr] at hk
    | std y => simp [Operand.isStr] at hk
  | std x =>
    cases hx
    cases y with
    | str y =>
      cases hy
      obtain ⟨q, e, hs⟩ := stdCompare_sign b a
      have hw := signOf_swap hs
      have hz := hne hs
      obtain ⟨s1, s2, s3⟩ := hs
      cases o <;> simp only [operator, eqDS, stdEq, neDS, ltDS, stdGt, gtDS, stdLt, leDS, geDS, e, ok_bind, pure, Except.pure, nx_ok, Cmp.Means] <;>
        refine ⟨_, rfl, ?_⟩
      · rw [eq_comm (a := a)]; simpa using s2
      · rw [ne_comm (a := a), hz]; simp
      · simpa using s3
      · simpa using s1
      · rw [eq_comm (a := a), ← hw.1]; simp
      · rw [eq_comm (a := a), ← hw.2]; simp
    | ptr s' => simp [Operand.isStr] at hk
    | std y => simp [Operand.isStr] at hk

-- "ab" in a C string against the string "abc"; a string with a NUL against its own c_str()
example : (Operand.ptr (some [97, 98, 0, 99])).Holds [97, 98] ∧
    operator .lt (.ptr (some [97, 98, 0, 99])) (.str [97, 98, 99]) = some (.ok true) ∧
    operator .eq (.str [97, 0, 98]) (.ptr (some [97, 0, 98, 0])) = some (.ok false) :=
  ⟨⟨by decide, [99], rfl⟩, by decide +kernel, by decide +kernel⟩

/-- C120: `<=>` with a `std::string` on either side is the dictionary order. -/
theorem mixed_spaceship (a b : List Ch) :
    (∃ o, cmpSD a b = .ok o ∧ (o = .lt ↔ LexLt a b) ∧ (o = .eq ↔ a = b) ∧ (o = .gt ↔ LexLt b a)) ∧
    (∃ o, cmpDS a b = .ok o ∧ (o = .lt ↔ LexLt a b) ∧ (o = .eq ↔ a = b) ∧ (o = .gt ↔ LexLt b a)) := by
  obtain ⟨r, e, h1, h2, h3⟩ := stdCompare_sign a b
  have e' : stdStringCompare a b = .ok r := e
  rw [← h1, ← h2, ← h3]
  constructor
  · unfold cmpSD; rw [e, ok_bind]
    refine ⟨_, rfl, ?_⟩
    split_ifs <;> simp <;> omega
  · unfold cmpDS; rw [e', ok_bind]
    refine ⟨_, rfl, ?_⟩
    split_ifs <;> simp <;> omega

example : cmpSD [97, 98] [97, 99] = .ok .lt ∧ cmpDS [97, 99] [97] = .ok .gt ∧ cmpDS [200] [100] = .ok .gt := by decide +kernel

/-- C120: the operators do not depend on how an operand is held. -/
theorem kind_irrelevant (o : Cmp) {x x' y y' : Operand} {a b : List Ch} (hx : x.Holds a) (hx' : x'.Holds a) (hy : y.Holds b)
    (hy' : y'.Holds b) (hk : x.isStr = true ∨ y.isStr = true) (hk' : x'.isStr = true ∨ y'.isStr = true) :
    operator o x y = operator o x' y' := by
  obtain ⟨e, h1, h2⟩ := mixed_operators o hx hy hk
  obtain ⟨e', g1, g2⟩ := mixed_operators o hx' hy' hk'
  rw [h1, g1, Bool.eq_iff_iff.2 (h2.trans g2.symm)]

example : operator .ge (.std [97]) (.str [97]) = operator .ge (.str [97]) (.ptr (some [97, 0])) :=
  kind_irrelevant .ge rfl rfl rfl ⟨by decide, [], rfl⟩ (.inr rfl) (.inl rfl)

/-- C120: a string equals its own `c_str()` exactly when it holds no NUL. -/
theorem eq_own_cstr (xs : List Ch) : operator .eq (.str xs) (.ptr (some (xs ++ [0]))) = some (.ok (decide (0 ∉ xs))) := by
  by_cases h : 0 ∈ xs
  · obtain ⟨v, rest, rfl, hv⟩ := List.eq_append_cons_of_mem h
    have hy : (Operand.ptr (some ((v ++ 0 :: rest) ++ [0]))).Holds v := ⟨hv, rest ++ [0], by simp⟩
    obtain ⟨e, h1, h2⟩ := mixed_operators .eq (x := .str (v ++ 0 :: rest)) rfl hy (.inl rfl)
    rw [h1]
    have : e = false := by
      rw [Bool.eq_false_iff, ne_eq, h2]; simp [Cmp.Means]
    rw [this]; simp
  · obtain ⟨e, h1, h2⟩ := mixed_operators .eq (x := .str xs) (y := .ptr (some (xs ++ [0]))) rfl ⟨h, [], rfl⟩ (.inl rfl)
    rw [h1, h2.2 rfl]; simp [h]

example : operator .eq (.str [97, 98]) (.ptr (some [97, 98, 0])) = some (.ok true) := by decide +kernel

/-! ### C121 -/

/-- What a C string holds. -/
def CArg.Holds (a : Abs) : CArg → List Ch → Prop
  | .mem s, v => 0 ∉ v ∧ ∃ rest, s = some (v ++ 0 :: rest)
  | .of u i, v => 0 ∉ v ∧ ∃ xs rest, a u = some xs ∧ (xs ++ [0]).drop i = v ++ 0 :: rest

/-- The characters themselves, where they are. -/
def CArg.range (v : List Ch) : CArg → Src
  | .mem _ => .lit v
  | .of u i => .sub u i v.length

variable {cfg : Cfg} {a a' : Abs} {s : St}

theorem strlen_held {v rest mem : List Ch} (h0 : 0 ∉ v) (h : mem = v ++ 0 :: rest) : strlen mem 0 = .ok v.length := by
  have := strlen_spec (mem := mem) v rest 0 (fun c hc h => h0 (h ▸ hc)) h
  simpa using this

/-- C121: a member that changes a string reads a C string up to its NUL and nothing else. -/
theorem cstr_read (hc : cfg.Ok) (h : Reach cfg a s) (e : CEdit) {x : CArg} {v : List Ch} (hx : x.Holds a v) (hl : v.length < M64) :
    (x.range v).chars a = some v ∧ e.run cfg x s = (e.op (x.range v)).run cfg s := by
  cases x with
  | mem p =>
    obtain ⟨h0, rest, rfl⟩ := hx
    refine ⟨if_pos hl, ?_⟩
    show M.bind _ _ s = _
    simp only [CArg.src, traitsLength_held h0]
    simp [M.bind, pure, M.pure, chars, CArg.range]
  | of u i =>
    obtain ⟨h0, xs, rest, hu, hd⟩ := hx
    have hlen : i + v.length ≤ xs.length := by
      have := congrArg List.length hd
      simp at this; omega
    have hv : (xs.drop i).take v.length = v := by
      have h1 : (xs ++ [0]).drop i = xs.drop i ++ [0] := List.drop_append_of_le_length (by omega)
      rw [h1] at hd
      have h2 := congrArg (List.take v.length) hd
      rw [List.take_append_of_le_length (by rw [List.length_drop]; omega), List.take_left'] at h2
      · exact h2
      · rfl
    refine ⟨?_, ?_⟩
    · show (a u).bind _ = _
      rw [hu]
      show (if _ then _ else _) = _
      rw [if_pos hlen, hv]
    · show M.bind (M.bind _ _) _ s = _
      simp only [M.bind, contents_reached hc h hu, strlen_held h0 hd]
      rfl

-- the tail of a string given to itself as a C string: "abcd", then insert at 1 what "xy" holds, then append from 4 on
example : (((CEdit.make 0 0).run (heapCfg false) (.mem (some [97, 98, 99, 100, 0])) >>= fun _ =>
      (CEdit.insert 0 1).run (heapCfg false) (.mem (some [120, 121, 0, 7])) >>= fun _ =>
      (CEdit.append 0).run (heapCfg false) (.of 0 4) >>= fun _ => contents (heapCfg false) 0) St.init).1 =
    .ok [97, 120, 121, 98, 99, 100, 99, 100] := by decide +kernel

/-- C121: so does a search, whose result is that for the characters before the NUL. -/
theorem cstr_search {f : List Ch → List Ch → Nat → Except Fault Nat} {hay v rest : List Ch} {pos r : Nat} (h0 : 0 ∉ v)
    (hf : f hay v pos = .ok r) : searchP f hay (some (v ++ 0 :: rest)) pos = .ok r := by
  unfold searchP
  rw [traitsLength_held h0, ok_bind]
  simp [chars, hf, nx_ok]

example : searchP find [97, 98, 97, 98, 99] (some [98, 99, 0, 100]) 0 = .ok 3 ∧ searchP rfind [97, 98, 97, 98, 99] (some [97, 0]) npos = .ok 2 ∧
    searchP findLastNotOf [97, 98, 97, 98, 99] (some [99, 0]) npos = .ok 3 := by decide +kernel

/-- C121: `contains` finds exactly the characters before the NUL. -/
theorem cstr_contains {hay v rest : List Ch} (hh : hay.length < npos) (hn : v.length < M64) (h0 : 0 ∉ v) :
    ∃ e, containsP hay (some (v ++ 0 :: rest)) = .ok e ∧ (e = true ↔ ∃ i, OccursAt hay v i) := by
  obtain ⟨e, h1, h2⟩ := contains_str hay v hh hn
  obtain ⟨r, hr, _⟩ := find_least hay v 0 hh hn (by decide)
  refine ⟨e, ?_, h2⟩
  unfold containsStr at h1
  rw [hr, ok_bind] at h1
  unfold containsP
  rw [cstr_search h0 hr, ok_bind, h1, nx_ok]

example : containsP [97, 98, 97, 98, 99] (some [98, 99, 0, 100]) = .ok true := by decide +kernel

/-- C121: so do `starts_with`, `ends_with` and `compare` of a part, and `operator+` of a const string and a C string. -/
theorem cstr_rest {v rest : List Ch} (h0 : 0 ∉ v) (test : List Ch → List Ch → Bool) (xs : List Ch) (pos n : Nat) (cfg : Cfg) (w u : Nat) :
    affixP test xs (some (v ++ 0 :: rest)) = .ok (test v xs) ∧
    compareSubP xs pos n (some (v ++ 0 :: rest)) = compareSub xs pos n v ∧
    plusP cfg true w u (some (v ++ 0 :: rest)) = (Op.concatWith w u .str (.chars v)).run cfg ∧
    plusP cfg false w u (some (v ++ 0 :: rest)) = (Op.concatWith w u (.chars v) .str).run cfg := by
  have hs : strlen (v ++ 0 :: rest) 0 = .ok v.length := strlen_held h0 rfl
  refine ⟨?_, ?_, ?_, ?_⟩
  · unfold affixP
    simp only [hs, ok_bind]
    simp [pure, Except.pure, nx_ok]
  · unfold compareSubP
    rw [traitsLength_held h0, ok_bind]
    simp [chars]
  · simp only [plusP, hs]; simp
  · simp only [plusP, hs]; simp

-- "ab" starts "abc"; "abc" + "xy"
example : affixP (fun v xs => decide (v <+: xs)) [97, 98, 99] (some [97, 98, 0, 5]) = .ok true ∧
    (((Op.make 0 0 (.lit [97, 98, 99])).run (heapCfg false) >>= fun _ =>
      plusP (heapCfg false) true 1 0 (some [120, 121, 0, 7]) >>= fun _ => contents (heapCfg false) 1) St.init).1 =
    .ok [97, 98, 99, 120, 121] := by decide +kernel

/-- C121: null is reported by `std::logic_error` and changes nothing, for the members that change a string and for
`compare`. -/
theorem null_reported_partial (cfg : Cfg) (s : St) (e : CEdit) (a : List Ch) (pos n : Nat) :
    e.run cfg (.mem none) s = (.error (.throw "logic_error"), s) ∧
    compareP a none = .error (.throw "logic_error") ∧ compareSubP a pos n none = .error (.throw "logic_error") :=
  ⟨rfl, rfl, rfl⟩

/-- C121 violated: searching for null, or comparing with it by an operator, ends the program. -/
theorem null_terminates_violated (f : List Ch → List Ch → Nat → Except Fault Nat) (a : List Ch) (pos : Nat) (o : Cmp) :
    searchP f a none pos = .error (.throw "terminate") ∧ containsP a none = .error (.throw "terminate") ∧
    operator o (.str a) (.ptr none) = some (.error (.throw "terminate")) ∧
    operator o (.ptr none) (.str a) = some (.error (.throw "terminate")) := by
  refine ⟨rfl, rfl, ?_, ?_⟩ <;> cases o <;> rfl

/-- C121 violated: a view that holds nothing, as default-constructed ones do, is contained in every string, but asking
for it ends the program. -/
theorem contains_empty_view_violated (a : List Ch) : containsV a none 0 = .error (.throw "terminate") := rfl

/-- C121 violated: null given to `starts_with`, `ends_with`, or to `operator+` of a const string is undefined
behaviour. -/
theorem null_undefined_violated (test : List Ch → List Ch → Bool) (a : List Ch) (cfg : Cfg) (left : Bool) (v u : Nat) (s : St) :
    (∃ w, affixP test a none = .error (.ub w)) ∧ ∃ w, plusP cfg left v u none s = (.error (.ub w), s) :=
  ⟨⟨_, rfl⟩, _, rfl⟩

end Verif.Str
