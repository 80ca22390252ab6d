import Verif.Vector.Ops2

/-!
The member functions that remove or replace elements.
-/

namespace Verif.Vector

open V

variable {α β : Type} {cfg : Cfg α} {s s' s'' : S α} {xs ys zs : List α}

/-! ### Erasing at positions -/

theorem gone_cell (k : Kind) (B : Block α) (i n j : Nat) :
    (gone k B i n).cell j = if k ≠ .triv ∧ i ≤ j ∧ j < i + n then .raw else B.cell j := by
  cases k <;> simp [gone, over]

theorem destroyPtr_gone {b i : Nat} {B : Block α} (hb : s.mem.heap b = some B) (hi : i < B.len) (hl : LiveOn B i 1) :
    destroyPtr cfg ⟨some b, i⟩ s = (.ok (), s.put b (gone cfg.kind B i 1) 0 (dtorsOf cfg.kind 1) 0) := by
  have h := destroyRange_ok (cfg := cfg) hb (n := 1) (i := i) (by omega) hl
  simp only [destroyRange] at h
  rw [bind_apply] at h
  cases hd : destroyPtr cfg ⟨some b, i⟩ s with
  | mk r t =>
    rw [hd] at h
    cases r with
    | error e => simp at h
    | ok u => simpa using h

/-- A block without the elements between `a` and `c`. -/
theorem BlockOK.erase {B : Block α} {a c : Nat} (hok : BlockOK cfg B xs) (h1 : a ≤ c)
    (h2 : c ≤ xs.length) :
    BlockOK cfg (shift cfg.kind (gone cfg.kind B a (c - a)) a c (xs.length - c)) (xs.take a ++ xs.drop c) := by
  have hle := hok.le
  have ht : (xs.take a).length = a := by rw [List.length_take]; omega
  have hl : (xs.take a ++ xs.drop c).length = xs.length - (c - a) := by
    rw [List.length_append, ht, List.length_drop]; omega
  refine ⟨by simpa using hok.pos, by rw [hl]; simp; omega, by simpa using hok.bound, fun j hj => ?_, fun j h3 h4 => ?_⟩
  · rw [hl] at hj
    rw [cellOf_append, ht]
    simp only [shift]
    by_cases h : j < a
    · rw [if_neg (by omega), if_neg (by omega), if_pos h, cellOf_take _ _ _ h, gone_cell, if_neg (by omega),
        hok.live j (by omega)]
    · rw [if_pos (by omega), if_neg h, cellOf_drop, gone_cell, if_neg (by omega), hok.live _ (by omega)]
      congr 1; omega
  · rw [hl] at h3
    simp only [shift_len, gone_len] at h4
    simp only [shift]
    rw [if_neg (by omega)]
    by_cases h : c ≤ j ∧ j < c + (xs.length - c)
    · rw [if_pos h]
      exact hole_tail _
    · rw [if_neg h, gone_cell]
      by_cases h5 : j < xs.length
      · by_cases h6 : cfg.kind = .triv
        · rw [h6]; trivial
        · rw [if_pos ⟨h6, by omega, by omega⟩]
          exact tailOK_raw _
      · rw [if_neg (by omega)]
        exact hok.tail j (by omega) h4

theorem dtorsOf_eq (hk : cfg.kind ≠ .triv) (n : Nat) : dtorsOf cfg.kind n = n := by
  cases h : cfg.kind <;> first | exact absurd h hk | rfl

theorem dtorsOf_triv (hk : cfg.kind = .triv) (n : Nat) : dtorsOf cfg.kind n = 0 := by rw [hk]; rfl

/-- Destroy `[a, c)` and move the tail down. -/
theorem eraseCore_ok {a c b : Nat} {B : Block α} (hg : Good cfg) (hv : s.this = ⟨some b, xs.length, B.len⟩)
    (hB : s.mem.heap b = some B) (hok : BlockOK cfg B xs) (h1 : a < c) (h2 : c ≤ xs.length) :
    ∃ s1, destroyRange cfg ⟨some b, a⟩ (c - a) s = (.ok (), s1) ∧
      s1 = s.put b (gone cfg.kind B a (c - a)) 0 (dtorsOf cfg.kind (c - a)) 0 ∧
      Ok (do moveForward cfg a c; setThis ⟨some b, xs.length - (c - a), B.len⟩) s1
        (fun _ s' => Post cfg s s' xs (xs.take a ++ xs.drop c) ∧ s'.mem.relocs = s.mem.relocs ∧
          s'.this.start = s.this.start ∧ s'.this.edge = s.this.edge) := by
  have hle := hok.le
  have hl : (xs.take a ++ xs.drop c).length = xs.length - (c - a) := by
    rw [List.length_append, List.length_take, List.length_drop]; omega
  refine ⟨_, destroyRange_ok hB (by omega) (hok.liveOn (by omega)), rfl, ?_⟩
  have hlive : LiveOn (gone cfg.kind B a (c - a)) c (xs.length - c) := by
    intro j h3 h4
    rw [gone_cell, if_neg (by omega)]
    exact hok.liveOn (i := c) (n := xs.length - c) (by omega) j h3 h4
  refine Ok.step (moveForward_ok (xs := xs) hg (put_same _ _ _ _ _) (by rw [put_this, hv, gone_len])
    (by rw [gone_len]; exact hok.len_lt hg) (by rw [gone_len]; omega) hlive h2 (by rw [gone_len]; omega) (.inl h1) (by omega)) ?_
  refine Ok.intro (setThis_apply _ _) ⟨?_, rfl, by rw [hv], by rw [hv]⟩
  rw [put_put]
  have := Post.inplace (cfg := cfg) (s := s) (xs := xs) (b := b) (c := 0 + movC cfg.kind (xs.length - c))
    (d := dtorsOf cfg.kind (c - a) + movD cfg.kind (xs.length - c)) (m := 0 + movM cfg.kind (xs.length - c)) (by rw [hv])
    (hok.erase (a := a) (c := c) (by omega) h2) (fun hk => ?_) (fun hk => by rw [movM_cpy hk])
  · rw [hl, shift_len, gone_len] at this
    exact this
  · have := mov_bal (cfg := cfg) (xs.length - c)
    rw [hl, dtorsOf_eq hk]
    omega

theorem erase_ok {pos : Nat} (hg : Good cfg) (hx : VecOK cfg s.mem s.this xs) (h : pos < xs.length) :
    Ok (erase cfg pos) s (fun r s' => r = pos ∧ Post cfg s s' xs (xs.take pos ++ xs.drop (pos + 1)) ∧
      s'.this.start = s.this.start ∧ s'.this.edge = s.this.edge) := by
  rcases hx with ⟨hv, rfl⟩ | ⟨b, B, hv, hB, hok⟩
  · simp at h
  · have hle := hok.le
    obtain ⟨s1, -, hs1, h2⟩ := eraseCore_ok (a := pos) (c := pos + 1) hg hv hB hok (by omega) h
    rw [show pos + 1 - pos = 1 by omega] at hs1 h2
    subst hs1
    obtain ⟨_, s2, e2, hp, -, hs, he⟩ := h2
    unfold erase
    refine Ok.step (this_apply _) ?_
    refine Ok.step (assert_true (by rw [hv]; simpa using h) _) ?_
    rw [hv]
    refine Ok.step (destroyPtr_gone hB (by omega) (hok.liveOn (by omega))) ?_
    rw [bind_apply] at e2
    refine Ok.intro (b := pos) (s' := s2) ?_ ⟨rfl, hp, by rw [hs, hv], by rw [he, hv]⟩
    rw [bind_apply]
    cases hm : moveForward cfg pos (pos + 1) (s.put b (gone cfg.kind B pos 1) 0 (dtorsOf cfg.kind 1) 0) with
    | mk r t =>
      rw [hm] at e2
      cases r with
      | error e => simp at e2
      | ok u =>
        simp only at e2 ⊢
        rw [bind_ok e2]
        rfl

theorem eraseRange_ok {a c : Nat} (hg : Good cfg) (hx : VecOK cfg s.mem s.this xs) (h1 : a ≤ c) (h2 : c ≤ xs.length) :
    Ok (eraseRange cfg a c) s (fun r s' => r = c ∧ Post cfg s s' xs (xs.take a ++ xs.drop c) ∧
      s'.this.start = s.this.start ∧ s'.this.edge = s.this.edge) := by
  unfold eraseRange
  refine Ok.step (this_apply _) ?_
  refine Ok.step (assert_true (by rw [hx.fin_eq]; simpa using h2) _) ?_
  refine Ok.step (assert_true (by simpa using h1) _) ?_
  by_cases hac : a = c
  · subst hac
    rw [doIf_neg (by simp)]
    refine Ok.step (pure_apply _ _) (Ok.ret ⟨rfl, ?_, rfl, rfl⟩)
    rw [List.take_append_drop]
    exact Post.refl hx
  · rw [doIf_pos (by simpa using hac)]
    rcases hx with ⟨hv, rfl⟩ | ⟨b, B, hv, hB, hok⟩
    · simp at h2; omega
    · have hlt := hok.len_lt hg
      have hle := hok.le
      rw [hv]
      simp only [Vec.ptr]
      rw [sub64_of_le h1 (by omega), sub64_of_le (by omega) (by omega)]
      obtain ⟨s1, e1, -, h3⟩ := eraseCore_ok (a := a) (c := c) hg hv hB hok (by omega) h2
      obtain ⟨_, s2, e2, hp, -, hs, he⟩ := h3
      refine Ok.step (show (_ : V α Unit) s = (.ok (), s2) from ?_) (Ok.ret ⟨rfl, hp, by rw [hs, hv], by rw [he, hv]⟩)
      rw [bind_ok e1]
      exact e2

/-! ### Erasing by value -/

/-- Between the elements kept so far and the next element to look at there is only rubbish. -/
theorem eraseLoop_ok {test : α → V α Bool} {p : α → Bool} (hk : cfg.kind ≠ .reloc) (b : Nat)
    (l : List α) : ∀ (s : S α) (B : Block α) (dst src : Nat),
    (∀ x ∈ l, ∀ t : S α, test x t = (.ok (p x), t)) →
    s.mem.heap b = some B → src + l.length ≤ B.len → dst ≤ src →
    (∀ j, j < l.length → B.cell (src + j) = cellOf l j) →
    (∀ j, dst ≤ j → j < src → TailOK cfg.kind (B.cell j)) →
    ∃ B' c d m, eraseLoop cfg test ⟨some b, dst⟩ ⟨some b, src⟩ l.length s
        = (.ok (l.countP p), s.put b B' c d m) ∧ B'.len = B.len ∧
      (∀ j, j < dst → B'.cell j = B.cell j) ∧
      (∀ j, j < (l.filter (fun x => ¬ p x)).length → B'.cell (dst + j) = cellOf (l.filter (fun x => ¬ p x)) j) ∧
      (∀ j, dst + (l.filter (fun x => ¬ p x)).length ≤ j → j < src + l.length → TailOK cfg.kind (B'.cell j)) ∧
      (∀ j, src + l.length ≤ j → B'.cell j = B.cell j) ∧
      (cfg.kind ≠ .triv → c + l.countP p = d + m) ∧ (cfg.kind ≠ .mov → m = 0) := by
  induction l with
  | nil =>
    intro s B dst src ht hb hlen hds hl htail
    refine ⟨B, 0, 0, 0, ?_, rfl, fun _ _ => rfl, fun j hj => by simp at hj, fun j h1 h2 => ?_, fun _ _ => rfl, by simp, by simp⟩
    · rw [put_self hb]; rfl
    · simp at h1 h2; exact htail j h1 h2
  | cons x l ih =>
    intro s B dst src ht hb hlen hds hl htail
    rw [List.length_cons] at hlen hl
    have hx := hl 0 (by omega)
    rw [Nat.add_zero, cellOf_cons_zero] at hx
    have hl' : ∀ j, j < l.length → B.cell (src + 1 + j) = cellOf l j := by
      intro j hj
      have := hl (j + 1) (by omega)
      rw [cellOf_cons_succ] at this
      rw [← this]; congr 1; omega
    have ht' : ∀ y ∈ l, ∀ t : S α, test y t = (.ok (p y), t) := fun y hy => ht y (List.mem_cons_of_mem _ hy)
    simp only [List.length_cons, eraseLoop]
    rw [bind_ok (load_ok hb (by omega) hx), bind_ok (ht x List.mem_cons_self s)]
    by_cases hp : p x = true
    · -- the element goes
      rw [if_pos hp]
      have hdrop : ∃ B1 d1, dropElem cfg ⟨some b, src⟩ s = (.ok (), s.put b B1 0 d1 0) ∧ B1.len = B.len ∧
          (∀ j, j ≠ src → B1.cell j = B.cell j) ∧ TailOK cfg.kind (B1.cell src) ∧ (cfg.kind ≠ .triv → d1 = 1) := by
        unfold dropElem
        rcases not_reloc_cases hk with h | h
        · refine ⟨B, 0, ?_, rfl, fun _ _ => rfl, by rw [h]; trivial, fun h' => absurd h h'⟩
          rw [if_pos (by rw [h]; rfl), put_self hb]; rfl
        · refine ⟨B.set src .raw, 1, ?_, rfl, fun j hj => ?_, ?_, fun _ => rfl⟩
          · rw [if_neg (by rw [loops_relocatable h]; simp),
              destroyPtr_ok (loops_not_triv h) hb (by omega) (by rw [hx]; rfl)]
          · rw [set_cell, if_neg hj]
          · rw [set_cell, if_pos rfl]; exact tailOK_raw _
      obtain ⟨B1, d1, e1, hlen1, hoth, htl, hd1⟩ := hdrop
      rw [bind_ok e1]
      simp only [Ptr.add]
      obtain ⟨B', c, d, m, e, g1, g2, g3, g4, g5, g6, g7⟩ := ih (s.put b B1 0 d1 0) B1 dst (src + 1) ht' (put_same _ _ _ _ _)
        (by omega) (by omega) (fun j hj => by rw [hoth _ (by omega)]; exact hl' j hj) (fun j h1 h2 => by
          by_cases h : j = src
          · rw [h]; exact htl
          · rw [hoth _ h]; exact htail j h1 (by omega))
      rw [bind_ok e, put_put]
      have hfil : (x :: l).filter (fun x => ¬ p x) = l.filter (fun x => ¬ p x) := by simp [hp]
      have hcnt : (x :: l).countP p = l.countP p + 1 := by simp [hp]
      refine ⟨B', 0 + c, d1 + d, 0 + m, by rw [hcnt]; rfl, by omega, fun j hj => ?_, ?_, ?_, fun j hj => ?_, fun h => ?_, fun h => ?_⟩
      · rw [g2 j hj, hoth _ (by omega)]
      · rw [hfil]; exact g3
      · rw [hfil]; intro j h1 h2; exact g4 j h1 (by omega)
      · rw [g5 j (by omega), hoth _ (by omega)]
      · have := g6 h; have := hd1 h; rw [hcnt]; omega
      · rw [g7 h]
    · -- the element stays
      rw [if_neg hp]
      have hfil : (x :: l).filter (fun x => ¬ p x) = x :: l.filter (fun x => ¬ p x) := by simp [hp]
      have hcnt : (x :: l).countP p = l.countP p := by simp [hp]
      have hkeep : ∃ B1 c1 d1 m1, keepElem cfg ⟨some b, dst⟩ ⟨some b, src⟩ s = (.ok (), s.put b B1 c1 d1 m1) ∧
          B1.len = B.len ∧ B1.cell dst = .live x ∧ (∀ j, j ≠ src → j ≠ dst → B1.cell j = B.cell j) ∧
          (dst ≠ src → TailOK cfg.kind (B1.cell src)) ∧ (cfg.kind ≠ .triv → c1 = d1 + m1) ∧ (cfg.kind ≠ .mov → m1 = 0) := by
        unfold keepElem
        by_cases h : dst = src
        · subst h
          refine ⟨B, 0, 0, 0, ?_, rfl, hx, fun _ _ _ => rfl, fun h => absurd rfl h, fun _ => rfl, fun _ => rfl⟩
          rw [if_pos rfl, put_self hb]; rfl
        · rw [if_neg (by simpa using h)]
          refine ⟨_, _, _, _, moveBack_ok hk hb (by omega) (by omega) hx h, ?_, ?_, ?_, ?_, ?_, ?_⟩
          · simp
          · simp [set_cell, h]
          · intro j h1 h2; simp [set_cell, h1, h2]
          · intro _; simp only [set_cell]; simp; exact hole_tail _
          · intro h'; exact mov_bal 1
          · intro h'; exact movM_cpy h' 1
      obtain ⟨B1, c1, d1, m1, e1, hlen1, hdst, hoth, htl, hb1, hm1⟩ := hkeep
      rw [bind_ok e1]
      simp only [Ptr.add]
      obtain ⟨B', c, d, m, e, g1, g2, g3, g4, g5, g6, g7⟩ := ih (s.put b B1 c1 d1 m1) B1 (dst + 1) (src + 1) ht'
        (put_same _ _ _ _ _) (by omega) (by omega) (fun j hj => by rw [hoth _ (by omega) (by omega)]; exact hl' j hj)
        (fun j h1 h2 => by
          by_cases h : j = src
          · rw [h]; exact htl (by omega)
          · rw [hoth _ h (by omega)]; exact htail j (by omega) (by omega))
      rw [e, put_put]
      refine ⟨B', c1 + c, d1 + d, m1 + m, by rw [hcnt], by omega, fun j hj => ?_, fun j hj => ?_, fun j h1 h2 => ?_, fun j hj => ?_,
        fun h => ?_, fun h => ?_⟩
      · rw [g2 j (by omega), hoth _ (by omega) (by omega)]
      · rw [hfil, List.length_cons] at hj
        rw [hfil]
        cases j with
        | zero => rw [Nat.add_zero, g2 _ (by omega), hdst, cellOf_cons_zero]
        | succ j => rw [cellOf_cons_succ, ← g3 j (by omega)]; congr 1; omega
      · rw [hfil, List.length_cons] at h1
        exact g4 j (by omega) (by omega)
      · rw [g5 j (by omega), hoth _ (by omega) (by omega)]
      · have := g6 h; have := hb1 h; rw [hcnt]; omega
      · rw [g7 h, hm1 h]

theorem filter_count (p : α → Bool) (l : List α) : (l.filter (fun x => ¬ p x)).length + l.countP p = l.length := by
  induction l with
  | nil => rfl
  | cons x l ih => by_cases h : p x = true <;> simp_all <;> omega

theorem eraseWith_ok {test : α → V α Bool} {p : α → Bool} (hk : cfg.kind ≠ .reloc) (hx : VecOK cfg s.mem s.this xs)
    (ht : ∀ x ∈ xs, ∀ t : S α, test x t = (.ok (p x), t)) :
    Ok (do
      let e ← eraseLoop cfg test s.this.startPtr s.this.startPtr s.this.fin
      setThis { s.this with fin := s.this.fin - e }
      return e) s (fun r s' => r = xs.countP p ∧ Post cfg s s' xs (xs.filter (fun x => ¬ p x)) ∧
        s'.this.start = s.this.start ∧ s'.this.edge = s.this.edge) := by
  have hx' := hx
  have hfc := filter_count p xs
  rcases hx with ⟨hv, rfl⟩ | ⟨b, B, hv, hB, hok⟩
  · rw [hv]
    refine Ok.step (b := 0) (s' := s) rfl ?_
    refine Ok.step (setThis_apply _ _) (Ok.ret ⟨rfl, ?_, rfl, rfl⟩)
    have : ({ s with this := { nullVec with fin := nullVec.fin - 0 } } : S α) = s := by
      cases s; simp only at hv; subst hv; rfl
    rw [this]
    exact Post.refl hx'
  · rw [hv]
    obtain ⟨B', c, d, m, e, g1, g2, g3, g4, g5, g6, g7⟩ := eraseLoop_ok hk b xs s B 0 0 ht hB
      (by have := hok.le; omega) (Nat.le_refl _) (fun j hj => by rw [Nat.zero_add]; exact hok.live j hj) (fun j _ h => by omega)
    refine Ok.step e ?_
    refine Ok.step (setThis_apply _ _) (Ok.ret ⟨rfl, ?_, rfl, rfl⟩)
    have hb : BlockOK cfg B' (xs.filter (fun x => ¬ p x)) := by
      refine ⟨by rw [g1]; exact hok.pos, by have := hok.le; omega, by rw [g1]; exact hok.bound, fun j hj => ?_, fun j h1 h2 => ?_⟩
      · rw [← g3 j hj, Nat.zero_add]
      · by_cases h : j < xs.length
        · exact g4 j (by omega) (by omega)
        · rw [g5 j (by omega)]
          exact hok.tail j (by omega) (by omega)
    have := Post.inplace (cfg := cfg) (s := s) (xs := xs) (b := b) (c := c) (d := d) (m := m) (by rw [hv]) hb
      (fun hk => by have := g6 hk; omega) g7
    rw [g1, show (xs.filter (fun x => ¬ p x)).length = xs.length - xs.countP p by omega] at this
    exact this

theorem eraseIf_ok {p : α → Bool} (hk : cfg.kind ≠ .reloc) (hx : VecOK cfg s.mem s.this xs) :
    Ok (eraseIf cfg p) s (fun r s' => r = xs.countP p ∧ Post cfg s s' xs (xs.filter (fun x => ¬ p x)) ∧
        s'.this.start = s.this.start ∧ s'.this.edge = s.this.edge) := by
  unfold eraseIf
  exact Ok.step (this_apply _) (eraseWith_ok hk hx (fun _ _ _ => rfl))

theorem eraseValue_ok [DecidableEq α] {y : α} (hk : cfg.kind ≠ .reloc) (hx : VecOK cfg s.mem s.this xs) :
    Ok (eraseValue cfg (.ext y)) s (fun r s' => r = xs.countP (fun x => decide (x = y)) ∧
        Post cfg s s' xs (xs.filter (fun x => ¬ (fun x => decide (x = y)) x)) ∧
        s'.this.start = s.this.start ∧ s'.this.edge = s.this.edge) := by
  unfold eraseValue
  exact Ok.step (this_apply _) (eraseWith_ok hk hx (fun _ _ _ => rfl))

end Verif.Vector
