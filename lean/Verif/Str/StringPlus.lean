import Verif.Str.StringMore

/-!
Properties of `operator+`, of the overloads that take part of a string, of `std::hash` and
`std::to_string`.
-/

namespace Verif.Str

open M

variable {cfg : Cfg} {s s' : St} {a a' a1 : Abs} {op : Op} {u u1 u2 v : Nat} {xs ys : List Ch}

/-- An action does what it should, or fails because memory was refused. -/
def Does (cfg : Cfg) (s : St) (x : M Unit) (A : Abs → Prop) : Prop :=
  (∃ s' a', x s = (.ok (), s') ∧ Reach cfg a' s' ∧ A a') ∨
    (∃ e s', x s = (.error e, s') ∧ s.refused = false ∧ s'.refused = true ∧
      (e = .throw "bad_alloc" ∨ e = .throw "length_error" ∨ e = .throw "terminate" ∨ cfg.arena = false ∧ s'.lost = true))

theorem Does.of_op {A : Abs → Prop} (hc : cfg.Ok) (h : Reach cfg a s) (ho : op.spec cfg.arena a = some (.done a')) (hA : A a') :
    Does cfg s (op.run cfg) A := by
  rcases ops_meet_spec hc h ho with ⟨s', h1, h2, _⟩ | h1
  · exact Or.inl ⟨s', a', h1, h2, hA⟩
  · exact Or.inr h1

theorem Does.seq {x y : M Unit} {A B : Abs → Prop} (h : Does cfg s x A) (hy : ∀ a' s', Reach cfg a' s' → A a' → Does cfg s' y B)
    (h0 : s.refused = false) : Does cfg s (x >>= fun _ => y) B := by
  rcases h with ⟨s1, a1, e, hr, hA⟩ | ⟨e, s1, e1, h⟩
  · have h1 : (x >>= fun _ => y) s = y s1 := bind_ok e
    rcases hy a1 s1 hr hA with ⟨s2, a2, g⟩ | ⟨f, s2, g1, g2, g3⟩
    · exact Or.inl ⟨s2, a2, by rw [h1]; exact g.1, g.2⟩
    · exact Or.inr ⟨f, s2, by rw [h1]; exact g1, h0, g3⟩
  · exact Or.inr ⟨e, s1, by rw [bind_apply, e1], h⟩

theorem Does.congr {x y : M Unit} {A : Abs → Prop} (h : Does cfg s x A) (e : y s = x s) : Does cfg s y A := by
  unfold Does
  rw [e]
  exact h

theorem seq_assoc {β : Type} (x : M β) (f : β → M Unit) (y : M Unit) :
    ((x >>= f) >>= fun _ => y) s = (x >>= fun b => f b >>= fun _ => y) s := by
  rw [bind_apply, bind_apply, bind_apply]
  rcases x s with ⟨r, s1⟩
  cases r with
  | error e => rfl
  | ok b => simp only; rw [bind_apply]

theorem Reach.sum_fits (hc : cfg.Ok) (h : Reach cfg a s) (hu : a u1 = some xs) (hv : a u2 = some ys) : xs.length + ys.length < M64 := by
  have := lengths_fit hc h hu
  have := lengths_fit hc h hv
  have : (2:Nat) ^ 62 + 2 ^ 62 < M64 := by decide
  omega

/-- Moving a string out of `u` into the new string `v`. -/
theorem move_does (hc : cfg.Ok) (h : Reach cfg a s) (hu : a u = some xs) (hv : a v = none) :
    Does cfg s (ctorMove cfg (.user v) (.user u)) (fun a' => a' = upd (upd a v (some xs)) u (some [])) := by
  refine Does.of_op (op := .move v u) hc h ?_ rfl
  simp [Op.spec, hu, hv]

theorem ne_of_alive (hu : a u = some xs) (hv : a v = none) : u ≠ v := by
  rintro rfl; rw [hu] at hv; cases hv

theorem upd_move (z w : Option (List Ch)) : upd (upd (upd a u z) v z) u w = upd (upd a v z) u w := by
  funext i
  by_cases e1 : i = u
  · subst e1; rw [upd_same, upd_same]
  · rw [upd_other _ _ e1, upd_other _ _ e1]
    by_cases e2 : i = v
    · subst e2; rw [upd_same, upd_same]
    · rw [upd_other _ _ e2, upd_other _ _ e2, upd_other _ _ e1]

/-! ### C61: operator+ -/

/-- C61: `lhs + rhs` of const strings. -/
theorem plus_spec (hc : cfg.Ok) (h : Reach cfg a s) (h1 : a u1 = some xs) (h2 : a u2 = some ys) (hv : a v = none) :
    Does cfg s (concat cfg (.user v) (.user u1) (.user u2)) (fun a' => a' = upd a v (some (xs ++ ys))) := by
  refine Does.of_op (op := .concat v u1 u2) hc h ?_ rfl
  simp [Op.spec, h1, h2, h.sum_fits hc h1 h2, Abs.make, hv]

/-- C61: `std::move(lhs) + rhs`, also with `lhs` and `rhs` the same string; `lhs` is left empty. -/
theorem plus_move_left_spec (hc : cfg.Ok) (h : Reach cfg a s) (h1 : a u1 = some xs) (h2 : a u2 = some ys) (hv : a v = none) :
    Does cfg s (plusLeft cfg (.user v) (.user u1) (.user u2))
      (fun a' => a' = upd (upd a v (some (xs ++ ys))) u1 (some [])) := by
  have hne := ne_of_alive h1 hv
  have hl := h.sum_fits hc h1 h2
  refine Does.seq (A := fun a' => a' = upd a u1 (some (xs ++ ys))) ?_ ?_ (reach_rel hc h).2.1
  · refine Does.of_op (op := .appendStr u1 u2) hc h ?_ rfl
    simp [Op.spec, h1, h2, Abs.set, hl]
  · rintro _ s1 r1 rfl
    have := move_does hc r1 (upd_same a u1 (some (xs ++ ys))) (v := v) (by rw [upd_other _ _ (Ne.symm hne)]; exact hv)
    rw [upd_move] at this
    exact this

/-- C61: `lhs + std::move(rhs)`; `rhs` is left empty or as it was, everything else is untouched. -/
theorem plus_move_right_spec (hc : cfg.Ok) (h : Reach cfg a s) (h1 : a u1 = some xs) (h2 : a u2 = some ys) (hv : a v = none)
    (hne : u1 ≠ u2) :
    Does cfg s (plusRight cfg (.user v) (.user u1) (.user u2))
      (fun a' => a' = upd a v (some (xs ++ ys)) ∨ a' = upd (upd a v (some (xs ++ ys))) u2 (some [])) := by
  obtain ⟨hs1, _, p, hp, _⟩ := storage_ok hc h h1
  obtain ⟨hs2, ⟨c, hcap, _⟩, _⟩ := storage_ok hc h h2
  have hl := h.sum_fits hc h1 h2
  have hn2 := ne_of_alive h2 hv
  refine Does.congr (x := if add64 xs.length ys.length ≤ c then do
    insert cfg (.user u2) 0 p xs.length
    ctorMove cfg (.user v) (.user u2)
    else concat cfg (.user v) (.user u1) (.user u2)) ?_ ?_
  · split
    · refine Does.seq (A := fun a' => a' = upd a u2 (some (xs ++ ys))) ?_ ?_ (reach_rel hc h).2.1
      · refine Does.congr (x := (Op.insert u2 0 (.sub u1 0 xs.length)).run cfg) (Does.of_op hc h ?_ rfl) ?_
        · simp [Op.spec, h1, h2, Src.chars, Src.isIn, hne, Abs.set, splice, hl]
        · simp only [Op.run, Src.resolve]
          rw [bind_apply, bind_ok hp, Ptr.add_zero]
          rfl
      · rintro _ s1 r1 rfl
        have := move_does hc r1 (upd_same a u2 (some (xs ++ ys))) (v := v) (by rw [upd_other _ _ (Ne.symm hn2)]; exact hv)
        rw [upd_move] at this
        rcases this with ⟨s2, a2, g1, g2, g3⟩ | g
        · exact Or.inl ⟨s2, a2, g1, g2, Or.inr g3⟩
        · exact Or.inr g
    · rcases plus_spec hc h h1 h2 hv with ⟨s2, a2, g1, g2, g3⟩ | g
      · exact Or.inl ⟨s2, a2, g1, g2, Or.inl g3⟩
      · exact Or.inr g
  · unfold plusRight
    rw [bind_ok hcap, bind_ok hs1, bind_ok hs2]
    split
    · rw [bind_ok hp, bind_ok hs1]
    · rfl

/-- C61: a const string and a C string or a character, on either side. -/
theorem plus_with_spec {q1 q2 : Part} (hc : cfg.Ok) (h : Reach cfg a s) (hu : a u = some xs) (hv : a v = none)
    (hl : (q1.of xs ++ q2.of xs).length < M64) :
    Does cfg s (plusNew cfg (.user v) (.user u) q1 q2) (fun a' => a' = upd a v (some (q1.of xs ++ q2.of xs))) := by
  refine Does.of_op (op := .concatWith v u q1 q2) hc h ?_ rfl
  rw [List.length_append] at hl
  simp [Op.spec, hu, Abs.make, hv, hl]

/-- C61: `"..." + std::move(rhs)`. -/
theorem plus_prefix_spec {pre : List Ch} (hc : cfg.Ok) (h : Reach cfg a s) (hu : a u = some xs) (hv : a v = none)
    (hl : (pre ++ xs).length < M64) :
    Does cfg s (plusPrefix cfg (.user v) (.user u) pre)
      (fun a' => a' = upd a v (some (pre ++ xs)) ∨ a' = upd (upd a v (some (pre ++ xs))) u (some [])) := by
  obtain ⟨hs, ⟨c, hcap, _⟩, _⟩ := storage_ok hc h hu
  have hn := ne_of_alive hu hv
  unfold plusPrefix
  refine Does.congr (x := if add64 pre.length xs.length ≤ c then ((do
    let b ← begin_ cfg (.user u)
    insertRangeAt cfg (.user u) b (.ext pre 0) pre.length : M Unit) >>= fun _ =>
    ctorMove cfg (.user v) (.user u))
    else plusNew cfg (.user v) (.user u) (.chars pre) .str) ?_ ?_
  · split
    · refine Does.seq (A := fun a' => a' = upd a u (some (pre ++ xs))) ?_ ?_ (reach_rel hc h).2.1
      · refine Does.congr (x := (Op.insert u 0 (.lit pre)).run cfg) (Does.of_op hc h ?_ rfl) ?_
        · have hl' : pre.length + xs.length < M64 := by simpa using hl
          have : pre.length < M64 := by omega
          simp [Op.spec, hu, Src.chars, Src.isIn, Abs.set, splice, hl', this]
        · simp only [Op.run, Src.resolve]
          refine Eq.symm ?_
          refine (bind_ok (rfl : (pure (Ptr.ext pre 0, pre.length) : M _) s = _)).trans ?_
          unfold Str.insert
          rw [bind_ok hs, bind_ok (enforce_ok (by simp))]
          simp only [Ptr.add_zero]
      · rintro _ s1 r1 rfl
        have := move_does hc r1 (upd_same a u (some (pre ++ xs))) (v := v) (by rw [upd_other _ _ (Ne.symm hn)]; exact hv)
        rw [upd_move] at this
        rcases this with ⟨s2, a2, g1, g2, g3⟩ | g
        · exact Or.inl ⟨s2, a2, g1, g2, Or.inr g3⟩
        · exact Or.inr g
    · rcases plus_with_spec (q1 := .chars pre) (q2 := .str) hc h hu hv (by simpa [Part.of] using hl) with ⟨s2, a2, g1, g2, g3⟩ | g
      · exact Or.inl ⟨s2, a2, g1, g2, Or.inl g3⟩
      · exact Or.inr g
  · rw [bind_ok hcap, bind_ok hs]
    split
    · exact (seq_assoc _ _ _).symm
    · rfl

/-- C61: `'c' + std::move(rhs)`. -/
theorem plus_prefix_char_spec {c : Ch} (hc : cfg.Ok) (h : Reach cfg a s) (hu : a u = some xs) (hv : a v = none) :
    Does cfg s (plusPrefixChar cfg (.user v) (.user u) c)
      (fun a' => a' = upd a v (some (c :: xs)) ∨ a' = upd (upd a v (some (c :: xs))) u (some [])) := by
  obtain ⟨hs, ⟨k, hcap, _⟩, _⟩ := storage_ok hc h hu
  have hn := ne_of_alive hu hv
  have hl : xs.length + 1 < M64 := by
    have := lengths_fit hc h hu
    have : (2:Nat) ^ 62 + 1 < M64 := by decide
    omega
  have hl' : 1 + xs.length < M64 := by omega
  refine Does.congr (x := if xs.length < k then ((do
    let b ← begin_ cfg (.user u)
    insertFillAt cfg (.user u) b 1 c : M Unit) >>= fun _ =>
    ctorMove cfg (.user v) (.user u))
    else plusNew cfg (.user v) (.user u) (.char c) .str) ?_ ?_
  · split
    · refine Does.seq (A := fun a' => a' = upd a u (some (c :: xs))) ?_ ?_ (reach_rel hc h).2.1
      · refine Does.congr (x := (Op.insertFill u 0 1 c).run cfg) (Does.of_op hc h ?_ rfl) ?_
        · simp [Op.spec, hu, Abs.set, splice, hl]
        · simp only [Op.run]
          refine Eq.symm ?_
          unfold Str.insertFill
          rw [bind_ok hs, bind_ok (enforce_ok (by simp))]
          simp only [Ptr.add_zero]
      · rintro _ s1 r1 rfl
        have := move_does hc r1 (upd_same a u (some (c :: xs))) (v := v) (by rw [upd_other _ _ (Ne.symm hn)]; exact hv)
        rw [upd_move] at this
        rcases this with ⟨s2, a2, g1, g2, g3⟩ | g
        · exact Or.inl ⟨s2, a2, g1, g2, Or.inr g3⟩
        · exact Or.inr g
    · rcases plus_with_spec (q1 := .char c) (q2 := .str) hc h hu hv (by simpa [Part.of] using hl) with ⟨s2, a2, g1, g2, g3⟩ | g
      · exact Or.inl ⟨s2, a2, g1, g2, Or.inl g3⟩
      · exact Or.inr g
  · unfold plusPrefixChar
    rw [bind_ok hcap, bind_ok hs]
    split
    · exact (seq_assoc _ _ _).symm
    · rfl

/-- C61: `std::move(lhs) + "..."`. -/
theorem plus_suffix_spec {post : List Ch} (hc : cfg.Ok) (h : Reach cfg a s) (hu : a u = some xs) (hv : a v = none)
    (hl : (xs ++ post).length < M64) :
    Does cfg s (plusSuffix cfg (.user v) (.user u) post) (fun a' => a' = upd (upd a v (some (xs ++ post))) u (some [])) := by
  have hn := ne_of_alive hu hv
  have hl' : xs.length + post.length < M64 := by simpa using hl
  refine Does.seq (A := fun a' => a' = upd a u (some (xs ++ post))) ?_ ?_ (reach_rel hc h).2.1
  · refine Does.congr (x := (Op.append u (.lit post)).run cfg) (Does.of_op hc h ?_ rfl) rfl
    have : post.length < M64 := by omega
    simp [Op.spec, hu, Src.chars, Abs.set, hl', this]
  · rintro _ s1 r1 rfl
    have := move_does hc r1 (upd_same a u (some (xs ++ post))) (v := v) (by rw [upd_other _ _ (Ne.symm hn)]; exact hv)
    rw [upd_move] at this
    exact this

/-- C61: `std::move(lhs) + 'c'`. -/
theorem plus_suffix_char_spec {c : Ch} (hc : cfg.Ok) (h : Reach cfg a s) (hu : a u = some xs) (hv : a v = none) :
    Does cfg s (plusSuffixChar cfg (.user v) (.user u) c) (fun a' => a' = upd (upd a v (some (xs ++ [c]))) u (some [])) := by
  have hn := ne_of_alive hu hv
  have hl : xs.length + 1 < M64 := by
    have := lengths_fit hc h hu
    have : (2:Nat) ^ 62 + 1 < M64 := by decide
    omega
  refine Does.seq (A := fun a' => a' = upd a u (some (xs ++ [c]))) ?_ ?_ (reach_rel hc h).2.1
  · refine Does.of_op (op := .pushBack u c) hc h ?_ rfl
    simp [Op.spec, hu, Abs.set, hl]
  · rintro _ s1 r1 rfl
    have := move_does hc r1 (upd_same a u (some (xs ++ [c]))) (v := v) (by rw [upd_other _ _ (Ne.symm hn)]; exact hv)
    rw [upd_move] at this
    exact this

-- `lhs + std::move(rhs)` with enough capacity, and the others
example : (let s := (runOk (heapCfg false) [.make 0 0 (.lit [97, 98]), .make 1 0 (.lit [99])] St.init).2
    ((contents (heapCfg false) 2 (plusRight (heapCfg false) (.user 2) (.user 0) (.user 1) s).2).1 = .ok [97, 98, 99] ∧
     (contents (heapCfg false) 1 (plusRight (heapCfg false) (.user 2) (.user 0) (.user 1) s).2).1 = .ok [] ∧
     (contents (heapCfg false) 2 (plusLeft (heapCfg false) (.user 2) (.user 0) (.user 0) s).2).1 = .ok [97, 98, 97, 98] ∧
     (contents (heapCfg false) 2 (plusNew (heapCfg false) (.user 2) (.user 0) (.char 120) .str s).2).1 = .ok [120, 97, 98] ∧
     (contents (heapCfg false) 2 (plusPrefix (heapCfg false) (.user 2) (.user 0) [120, 121] s).2).1 = .ok [120, 121, 97, 98] ∧
     (contents (heapCfg false) 2 (plusPrefixChar (heapCfg false) (.user 2) (.user 0) 120 s).2).1 = .ok [120, 97, 98] ∧
     (contents (heapCfg false) 2 (plusSuffix (heapCfg false) (.user 2) (.user 0) [120, 121] s).2).1 = .ok [97, 98, 120, 121] ∧
     (contents (heapCfg false) 2 (plusSuffixChar (heapCfg false) (.user 2) (.user 0) 120 s).2).1 = .ok [97, 98, 120])) := by
  decide +kernel

/-! ### C52: the overloads that take part of a string -/

theorem subOf_ok {pos n : Nat} (hc : cfg.Ok) (h : Reach cfg a s) (hu : a u = some ys) (hp : pos ≤ ys.length) :
    subOf cfg (.user u) pos n s = (Src.sub u pos (min n (ys.length - pos))).resolve s := by
  obtain ⟨hs, _, p, hd, _⟩ := storage_ok hc h hu
  have e : (Src.sub u pos (min n (ys.length - pos))).resolve s = (.ok (p.add pos, min n (ys.length - pos)), s) :=
    bind_ok hd
  rw [e]
  unfold subOf
  rw [bind_ok hs, bind_ok (enforce_ok (by simpa using hp)), bind_ok hd]
  rfl

theorem subOf_out {pos n : Nat} (hc : cfg.Ok) (h : Reach cfg a s) (hu : a u = some ys) (hp : ys.length < pos) :
    subOf cfg (.user u) pos n s = (.error (.throw "out_of_range"), s) := by
  obtain ⟨hs, _⟩ := storage_ok hc h hu
  have : enforce (decide (pos ≤ ys.length)) s = (.error (.throw "out_of_range"), s) := by
    have : ¬ pos ≤ ys.length := by omega
    simp [enforce, this]; rfl
  unfold subOf
  rw [bind_ok hs, bind_apply, this]

theorem sub_chars {pos n : Nat} (hu : a u = some ys) (hp : pos ≤ ys.length) :
    (Src.sub u pos (min n (ys.length - pos))).chars a = some ((ys.drop pos).take n) := by
  have h1 : (ys.drop pos).take (min n (ys.length - pos)) = (ys.drop pos).take n := by
    rw [← List.take_take, List.take_of_length_le (l := ys.drop pos) (by simp)]
  simp only [Src.chars, hu, Option.bind_eq_bind, Option.bind_some]
  rw [if_pos (by omega), h1]

theorem bind_congr {β γ : Type} {x y : M β} {f g : β → M γ} (e : x s = y s) (hf : ∀ b s, f b s = g b s) :
    (x >>= f) s = (y >>= g) s := by
  rw [bind_apply, bind_apply, e]
  rcases y s with ⟨r, s1⟩
  cases r <;> simp [hf]

/-- C52: `append(str, pos, n)`, also with the string itself. -/
theorem append_sub_spec {pos n : Nat} (hc : cfg.Ok) (h : Reach cfg a s) (hv : a v = some xs) (hu : a u = some ys) (hp : pos ≤ ys.length) :
    Does cfg s (appendSub cfg (.user v) (.user u) pos n)
      (fun a' => a' = upd a v (some (xs ++ (ys.drop pos).take n))) := by
  refine Does.congr (x := (Op.append v (.sub u pos (min n (ys.length - pos)))).run cfg) (Does.of_op hc h ?_ rfl) ?_
  · have := h.sum_fits hc hv hu
    simp only [Op.spec, hv, sub_chars hu hp, Option.bind_eq_bind, Option.bind_some, Abs.set]
    rw [if_pos (by simp; omega)]
  · exact bind_congr (subOf_ok hc h hu hp) fun _ _ => rfl

/-- C52: `assign(str, pos, n)`, also with the string itself. -/
theorem assign_sub_spec {pos n : Nat} (hc : cfg.Ok) (h : Reach cfg a s) (hv : a v = some xs) (hu : a u = some ys) (hp : pos ≤ ys.length) :
    Does cfg s (assignSub cfg (.user v) (.user u) pos n) (fun a' => a' = upd a v (some ((ys.drop pos).take n))) := by
  refine Does.congr (x := (Op.assign v (.sub u pos (min n (ys.length - pos)))).run cfg) (Does.of_op hc h ?_ rfl) ?_
  · have := h.sum_fits hc hv hu
    simp only [Op.spec, hv, sub_chars hu hp, Option.bind_eq_bind, Option.bind_some, Abs.set]
    rw [if_pos (by simp; omega)]
  · exact bind_congr (subOf_ok hc h hu hp) fun _ _ => rfl

/-- C52: `insert(pos1, str, pos2, n)`, from another string. -/
theorem insert_sub_spec {pos1 pos2 n : Nat} (hc : cfg.Ok) (h : Reach cfg a s) (hv : a v = some xs) (hu : a u = some ys)
    (hne : u ≠ v) (hp1 : pos1 ≤ xs.length) (hp : pos2 ≤ ys.length) :
    Does cfg s (insertSub cfg (.user v) pos1 (.user u) pos2 n)
      (fun a' => a' = upd a v (some (xs.take pos1 ++ (ys.drop pos2).take n ++ xs.drop pos1))) := by
  refine Does.congr (x := (Op.insert v pos1 (.sub u pos2 (min n (ys.length - pos2)))).run cfg) (Does.of_op hc h ?_ rfl) ?_
  · have := h.sum_fits hc hv hu
    simp only [Op.spec, hv, sub_chars hu hp, Option.bind_eq_bind, Option.bind_some, Abs.set, Src.isIn, beq_iff_eq, if_neg hne,
      if_pos hp1]
    rw [if_pos (by simp [splice]; omega)]; rfl
  · exact bind_congr (subOf_ok hc h hu hp) fun _ _ => rfl

/-- C52: `replace(pos1, n1, str, pos2, n2)`, also from the string itself on the heap. -/
theorem replace_sub_spec {pos1 n1 pos2 n : Nat} (hc : cfg.Ok) (h : Reach cfg a s) (hv : a v = some xs) (hu : a u = some ys)
    (hne : cfg.arena = false ∨ u ≠ v) (hp1 : pos1 ≤ xs.length) (hp : pos2 ≤ ys.length) :
    Does cfg s (replaceSub cfg (.user v) pos1 n1 (.user u) pos2 n)
      (fun a' => a' = upd a v (some (xs.take pos1 ++ (ys.drop pos2).take n ++ xs.drop (pos1 + n1)))) := by
  refine Does.congr (x := (Op.replace v pos1 n1 (.sub u pos2 (min n (ys.length - pos2)))).run cfg) (Does.of_op hc h ?_ rfl) ?_
  · have := h.sum_fits hc hv hu
    have h1 : (cfg.arena && (Src.sub u pos2 (min n (ys.length - pos2))).isIn v) = false := by
      rcases hne with e | e <;> simp [e, Src.isIn]
    simp only [Op.spec, hv, sub_chars hu hp, Option.bind_eq_bind, Option.bind_some, Abs.set, h1, if_pos hp1]
    rw [if_neg (by simp), if_pos (by simp [splice]; omega)]; rfl
  · exact bind_congr (subOf_ok hc h hu hp) fun _ _ => rfl

/-- C52: a position past the end of the argument throws `out_of_range`. -/
theorem sub_out_of_range {pos pos1 n n1 : Nat} (hc : cfg.Ok) (h : Reach cfg a s) (hu : a u = some ys) (hp : ys.length < pos) :
    appendSub cfg (.user v) (.user u) pos n s = (.error (.throw "out_of_range"), s) ∧
    assignSub cfg (.user v) (.user u) pos n s = (.error (.throw "out_of_range"), s) ∧
    insertSub cfg (.user v) pos1 (.user u) pos n s = (.error (.throw "out_of_range"), s) ∧
    replaceSub cfg (.user v) pos1 n1 (.user u) pos n s = (.error (.throw "out_of_range"), s) := by
  have := subOf_out (n := n) hc h hu hp
  refine ⟨?_, ?_, ?_, ?_⟩
  · unfold appendSub; rw [bind_apply, this]
  · unfold assignSub; rw [bind_apply, this]
  · unfold insertSub; rw [bind_apply, this]
  · unfold replaceSub; rw [bind_apply, this]

example : (let s := (runOk (heapCfg true) [.make 0 0 (.lit [97, 98, 99]), .make 1 0 (.lit [100, 101])] St.init).2
    ((contents (heapCfg true) 0 (appendSub (heapCfg true) (.user 0) (.user 0) 1 9 s).2).1 = .ok [97, 98, 99, 98, 99] ∧
     (contents (heapCfg true) 0 (assignSub (heapCfg true) (.user 0) (.user 0) 1 1 s).2).1 = .ok [98] ∧
     (contents (heapCfg true) 0 (insertSub (heapCfg true) (.user 0) 1 (.user 1) 0 1 s).2).1 = .ok [97, 100, 98, 99] ∧
     (contents (heapCfg true) 0 (replaceSub (heapCfg true) (.user 0) 1 1 (.user 0) 0 3 s).2).1 = .ok [97, 97, 98, 99, 99])) := by
  decide +kernel

/-! ### C56, C82: std::hash -/

/-- The memory of a string, byte by byte. -/
def strBytes (w : Nat) (xs : List Ch) : List Nat := xs.flatMap fun x => (List.range w).map fun i => x / 256 ^ i % 256

theorem mapM_some {β : Type} (l : List β) : (l.map some).mapM id = some l := by
  induction l with
  | nil => rfl
  | cons x l ih => rw [List.map_cons, List.mapM_cons, ih]; rfl

theorem bytes_some (w : Nat) (xs : List Ch) : (xs.map some).flatMap (charBytes w) = (strBytes w xs).map some := by
  induction xs with
  | nil => rfl
  | cons x xs ih =>
    simp only [strBytes, List.map_cons, List.flatMap_cons, List.map_append] at ih ⊢
    rw [ih]
    congr 1
    simp [charBytes]

/-- C56: the hash is computed from the first `size()` bytes. -/
theorem hash_spec (H : List Nat → Nat → Nat) (hc : cfg.Ok) (h : Reach cfg a s) (hv : a v = some xs) :
    hash H cfg (.user v) s =
      (.ok (H ((strBytes cfg.w (xs.take ((xs.length + cfg.w - 1) / cfg.w))).take xs.length) (xs.length * cfg.w)), s) := by
  have hr := (reach_rel hc h).1
  have hx := hr.held v xs hv
  obtain ⟨p, hp, _⟩ := hx.dataM
  have hl := lengths_fit hc h hv
  have hle : (xs.length + cfg.w - 1) / cfg.w ≤ xs.length := by
    rcases hc.w with e | e | e <;> rw [e] <;> omega
  have hrd := hx.read hp (i := 0) (k := (xs.length + cfg.w - 1) / cfg.w) (by simpa using hle)
  rw [Ptr.add_zero] at hrd
  have hm : mul64 xs.length cfg.w = xs.length * cfg.w := by
    apply mul64_of_lt
    rcases hc.w with e | e | e <;> rw [e] <;> omega
  unfold hash
  rw [bind_ok hp, bind_ok (hx.sizeM hr.inv), List.length_map, bind_ok hrd, List.drop_zero, ← List.map_take, bytes_some, ← List.map_take,
    mapM_some, hm]
  rfl

/-- C56: strings with equal contents have equal hashes, whatever their storage is, in one program or
two. -/
theorem equal_hashes (H : List Nat → Nat → Nat) {cfg' : Cfg} {t : St} (hc : cfg.Ok) (hc' : cfg'.Ok) (hw : cfg.w = cfg'.w) (h : Reach cfg a s)
    (h' : Reach cfg' a' t) (hv : a v = some xs) (hu : a' u = some xs) :
    ∃ k, hash H cfg (.user v) s = (.ok k, s) ∧ hash H cfg' (.user u) t = (.ok k, t) := by
  refine ⟨_, hash_spec H hc h hv, ?_⟩
  rw [hw]
  exact hash_spec H hc' h' hu

theorem strBytes_one (xs : List Ch) : strBytes 1 xs = xs.map (· % 256) := by
  induction xs with
  | nil => rfl
  | cons x xs ih =>
    simp only [strBytes, List.flatMap_cons, List.map_cons] at ih ⊢
    rw [ih]
    simp

/-- C82: for `char` the hash is that of all characters. -/
theorem hash_of_all_partial (H : List Nat → Nat → Nat) (hc : cfg.Ok) (hw : cfg.w = 1) (h : Reach cfg a s) (hv : a v = some xs) :
    hash H cfg (.user v) s = (.ok (H (xs.map (· % 256)) xs.length), s) := by
  rw [hash_spec H hc h hv, hw]
  have e2 : xs.take ((xs.length + 1 - 1) / 1) = xs := List.take_of_length_le (by simp)
  rw [e2, strBytes_one, List.take_of_length_le (by simp), Nat.mul_one]

/-- C82, violated: for wider characters, strings of equal length that agree in their first half have
equal hashes, whatever the hash function. -/
theorem hash_ignores_tail_violated (H : List Nat → Nat → Nat) (hc : cfg.Ok) (hw : cfg.w ≠ 1) (h : Reach cfg a s) (hv : a v = some xs) (hu : a u = some ys)
    (hl : xs.length = ys.length) (hp : xs.take ((xs.length + 1) / 2) = ys.take ((xs.length + 1) / 2)) :
    ∃ k, hash H cfg (.user v) s = (.ok k, s) ∧ hash H cfg (.user u) s = (.ok k, s) := by
  refine ⟨_, hash_spec H hc h hv, ?_⟩
  rw [hash_spec H hc h hu, ← hl]
  have hk : (xs.length + cfg.w - 1) / cfg.w ≤ (xs.length + 1) / 2 := by
    rcases hc.w with e | e | e
    · exact absurd e hw
    · rw [e]; omega
    · rw [e]; omega
  have := congrArg (List.take ((xs.length + cfg.w - 1) / cfg.w)) hp
  rw [List.take_take, List.take_take, Nat.min_eq_left hk] at this
  rw [this]

-- two strings of `char16_t` that differ in the last character
example : ∃ a s, Reach (heapCfg false 2) a s ∧ a 0 = some [97, 98, 99, 100] ∧ a 1 = some [97, 98, 99, 101] := by
  obtain ⟨a, h, e, g⟩ := reached (heapCfg_ok2 false) (v := 0) (xs := [97, 98, 99, 100])
    (ops := [.make 0 0 (.lit [97, 98, 99, 100]), .make 1 0 (.lit [97, 98, 99, 101])]) (by decide +kernel) (by decide +kernel)
  refine ⟨a, _, h, e, ?_⟩
  have : (specAll false [.make 0 0 (.lit [97, 98, 99, 100]), .make 1 0 (.lit [97, 98, 99, 101])] fun _ => none).bind (· 1) =
    some [97, 98, 99, 101] := by decide +kernel
  rw [show specAll false _ _ = some a from g] at this
  exact this

-- equal contents, once in the object and once on the heap
example (H : List Nat → Nat → Nat) :
    hash H (heapCfg false) (.user 0) (runOk (heapCfg false) [.make 0 0 (.lit [97, 98])] St.init).2 =
      (.ok (H [97, 98] 2), (runOk (heapCfg false) [.make 0 0 (.lit [97, 98])] St.init).2) ∧
    hash H (heapCfg true) (.user 0) (runOk (heapCfg true) [.make 0 0 (.lit [97, 98])] St.init).2 =
      (.ok (H [97, 98] 2), (runOk (heapCfg true) [.make 0 0 (.lit [97, 98])] St.init).2) := by
  obtain ⟨a, h, e, _⟩ := reached (heapCfg_ok false) (v := 0) (xs := [97, 98]) (ops := [.make 0 0 (.lit [97, 98])]) (by decide +kernel) (by decide +kernel)
  obtain ⟨a', h', e', _⟩ := reached (heapCfg_ok true) (v := 0) (xs := [97, 98]) (ops := [.make 0 0 (.lit [97, 98])]) (by decide +kernel) (by decide +kernel)
  exact ⟨hash_of_all_partial H (heapCfg_ok _) rfl h e, hash_of_all_partial H (heapCfg_ok _) rfl h' e'⟩

/-! ### C84: std::to_string -/

theorem lengthFrom_ok {p : Ptr} {zs : List Ch} (hr : ∀ i, (h : i < zs.length) → readChar (p.add i) s = (.ok zs[i], s))
    (hz : (0 : Ch) ∈ zs) : ∀ (n i fuel : Nat), i + n = zs.length → n ≤ fuel → (∀ j, (h : j < zs.length) → j < i → zs[j] ≠ 0) →
    lengthFrom p i fuel s = (.ok (zs.takeWhile (· ≠ 0)).length, s)
  | 0, i, fuel, hi, _, hn => by
    obtain ⟨j, hj, e⟩ := List.mem_iff_getElem.1 hz
    exact absurd e (hn j hj (by omega))
  | n + 1, i, 0, _, hf, _ => absurd hf (by omega)
  | n + 1, i, fuel + 1, hi, hf, hn => by
    have hlt : i < zs.length := by omega
    unfold lengthFrom
    rw [bind_ok (hr i hlt)]
    split
    · next e =>
      have : zs.takeWhile (· ≠ 0) = zs.take i := by
        have h1 : zs = zs.take i ++ zs.drop i := (List.take_append_drop i zs).symm
        have h2 : ∀ x ∈ zs.take i, decide (x ≠ 0) = true := by
          intro x hx
          obtain ⟨j, hj, rfl⟩ := List.mem_iff_getElem.1 hx
          rw [List.length_take] at hj
          rw [List.getElem_take]
          simpa using hn j (by omega) (by omega)
        conv_lhs => rw [h1]
        rw [List.takeWhile_append_of_pos h2, List.drop_eq_getElem_cons hlt, List.takeWhile_cons_of_neg (by simp [e])]
        simp
      rw [this, List.length_take, Nat.min_eq_left (by omega)]
      rfl
    · next e =>
      refine lengthFrom_ok hr hz n (i + 1) fuel (by omega) (by omega) ?_
      intro j hj hji
      by_cases e2 : j = i
      · subst e2; exact e
      · exact hn j hj (by omega)

/-- C84: `std::to_string` gives the characters up to the first NUL. -/
theorem to_string_spec (hc : cfg.Ok) (h : Reach cfg a s) (hv : a v = some xs) :
    toStdString (.user v) s = (.ok ((xs.takeWhile (· ≠ 0)).map some), s) := by
  obtain ⟨_, _, p, hp, hrd⟩ := storage_ok hc h hv
  have hl := lengths_fit hc h hv
  have hr := (reach_rel hc h).1
  have hx := hr.held v xs hv
  have hchar : ∀ i, (hi : i < (xs ++ [0]).length) → readChar (p.add i) s = (.ok (xs ++ [0])[i], s) := by
    intro i hi
    obtain ⟨ob, l, g, e⟩ := h.holds hc hv
    obtain ⟨l2, n2, g2, g3, g4, g5⟩ := hr.inv.view g.var
    obtain ⟨_, rfl, rfl⟩ := g.unique g2
    rw [g.dataM] at hp; cases hp
    simp only [List.length_append, List.length_singleton] at hi
    have h1 := g.read (i := i) (k := 1) (by omega)
    have h2 : (l.drop i).take 1 = [some (xs ++ [0])[i]] := by
      have hil : i < l.length := by omega
      rw [List.drop_eq_getElem_cons hil]
      simp only [List.take_succ_cons, List.take_zero, List.cons.injEq, and_true]
      have e3 : l[i]? = some (some (xs ++ [0])[i]) := by
        by_cases hi2 : i < xs.length
        · have : (l.take xs.length)[i]? = some (some xs[i]) := by
            rw [← e, List.getElem?_map, List.getElem?_eq_getElem hi2]; rfl
          rw [List.getElem?_take, if_pos hi2] at this
          rw [this, List.getElem_append_left hi2]
        · have : i = xs.length := by omega
          subst this
          rw [g5]; simp
      rw [List.getElem?_eq_getElem hil] at e3
      exact Option.some.inj e3
    rw [h2] at h1
    unfold readChar
    rw [bind_ok h1]; rfl
  have hlen := lengthFrom_ok hchar (by simp) (xs.length + 1) 0 M64 (by simp)
    (by have : (2:Nat) ^ 62 + 1 < M64 := by decide
        omega) (by omega)
  have htw : (xs ++ [0]).takeWhile (· ≠ 0) = xs.takeWhile (· ≠ 0) := by
    rw [List.takeWhile_append]
    split
    · next e => rw [(List.takeWhile_prefix _).eq_of_length e]; simp
    · rfl
  rw [htw] at hlen
  have hle : (xs.takeWhile (· ≠ 0)).length ≤ xs.length := (List.takeWhile_prefix _).length_le
  have hrd2 := hx.read hp (i := 0) (k := (xs.takeWhile (· ≠ 0)).length) (by simpa using hle)
  rw [Ptr.add_zero, List.drop_zero, ← List.map_take] at hrd2
  unfold toStdString
  rw [bind_ok hp, bind_ok hlen, hrd2]
  congr 3
  exact (List.prefix_iff_eq_take.1 (List.takeWhile_prefix _)).symm

/-- C84: without NUL characters nothing is lost. -/
theorem to_string_all_partial (hc : cfg.Ok) (h : Reach cfg a s) (hv : a v = some xs) (h0 : (0 : Ch) ∉ xs) :
    toStdString (.user v) s = (.ok (xs.map some), s) := by
  rw [to_string_spec hc h hv]
  congr 3
  have h1 : ∀ x ∈ xs, decide (x ≠ 0) = true := by
    intro x hx
    have : x ≠ 0 := fun e => h0 (e ▸ hx)
    simpa using this
  have := List.takeWhile_append_of_pos (l₂ := []) h1
  simpa using this

-- with a NUL character the rest is lost
example : (toStdString (.user 0) (runOk (heapCfg true) [.make 0 0 (.lit [97, 0, 99])] St.init).2).1 = .ok [some 97] := by
  decide +kernel

end Verif.Str
