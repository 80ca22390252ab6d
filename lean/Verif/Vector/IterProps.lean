import Verif.Vector.Iter

/-!
C126: iterators of vectors are positions.
-/

namespace Verif.Vector

open V

variable {α : Type} {cfg : Cfg α} {w : World α} {i k : Nat} {xs : List α} {ys : Contents α}

/-- The pointer of an iterator at position `k` of vector `i`. -/
def Stands (cfg : Cfg α) (w : World α) (ys : Contents α) (a : Pos) (p : Ptr) : Prop :=
  ∀ i k, a = some (i, k) → ∃ xs v, ys[i]? = some (some xs) ∧ w.vecs[i]? = some (some v) ∧ VecOK cfg w.mem v xs ∧
    k ≤ xs.length ∧ p = ⟨v.start, k⟩

theorem VecOK.advance {v : Vec} {n : Int} (h : VecOK cfg w.mem v xs) (h0 : 0 ≤ (k : Int) + n) (h1 : (k : Int) + n ≤ xs.length)
    (hk : k ≤ xs.length) :
    Ptr.advance w.mem ⟨v.start, k⟩ n = .ok ⟨v.start, ((k : Int) + n).toNat⟩ := by
  rcases h with ⟨rfl, rfl⟩ | ⟨b, B, rfl, hB, hok⟩
  · simp at h1 hk
    have : n = 0 := by omega
    subst this hk
    rfl
  · have := hok.le
    simp only [Ptr.advance, hB]
    rw [if_pos ⟨h0, by omega⟩]

theorem stands_setVar {a : Nat → Pos} {s : Its} {p : Pos} {q : Ptr} (x : Nat) (h : ∀ y, Stands cfg w ys (a y) (s y))
    (hp : Stands cfg w ys p q) : ∀ y, Stands cfg w ys (setVar a x p y) (setVar s x q y) := by
  intro y
  unfold setVar
  split
  · exact hp
  · exact h y

theorem stands_none (q : Ptr) : Stands cfg w ys none q := by
  intro i k h
  cases h

theorem posAdd_ok {a a' : Pos} {p : Ptr} {n : Int} (h : Stands cfg w ys a p) (ha : posAdd ys a n = some a') :
    ∃ p', p.advance w.mem n = .ok p' ∧ Stands cfg w ys a' p' := by
  rcases a with _ | ⟨i, k⟩
  · cases ha
  · obtain ⟨xs, v, hy, hv, hok, hk, rfl⟩ := h i k rfl
    simp only [posAdd, hy, Option.bind_eq_bind, Option.bind_some] at ha
    split at ha
    · rename_i hr
      cases ha
      refine ⟨_, hok.advance hr.1 hr.2 hk, ?_⟩
      rintro i' k' h'
      cases h'
      exact ⟨xs, v, hy, hv, hok, by omega, rfl⟩
    · cases ha

theorem bind_some_eq {β γ : Type} {x : Option β} {f : β → Option γ} {c : γ} (h : (x >>= f) = some c) : ∃ b, x = some b ∧ f b = some c :=
  Option.bind_eq_some_iff.1 h

theorem istep_ok [DecidableEq α] (hg : Good cfg) (hr : Reachable cfg w) (hw : w.Shows ys) {a a' : Nat → Pos} {s : Its} {op : IOp}
    (h : ∀ y, Stands cfg w ys (a y) (s y)) (hs : ispec ys a op = some a') :
    ∃ s', istep w s op = .ok s' ∧ ∀ y, Stands cfg w ys (a' y) (s' y) := by
  have adv : ∀ (x : Nat) (n : Int) {p : Pos}, posAdd ys (a x) n = some p →
      ∃ p', (s x).advance w.mem n = .ok p' ∧ Stands cfg w ys p p' := fun x n {p} hp => posAdd_ok (h x) hp
  cases op with
  | first x i =>
    obtain ⟨o, ho, hs⟩ := bind_some_eq hs
    obtain ⟨xs, rfl, hs⟩ := bind_some_eq hs
    cases hs
    obtain ⟨v, hv, hok, -⟩ := hr.vec hg (hw i xs ho)
    refine ⟨_, rfl, stands_setVar x h ?_⟩
    rintro i' k' h'
    cases h'
    exact ⟨xs, v, ho, hv, hok, Nat.zero_le _, by rw [World.begin_, data_eq hv]⟩
  | last x i =>
    obtain ⟨o, ho, hs⟩ := bind_some_eq hs
    obtain ⟨xs, rfl, hs⟩ := bind_some_eq hs
    cases hs
    obtain ⟨v, hv, hok, -⟩ := hr.vec hg (hw i xs ho)
    refine ⟨_, rfl, stands_setVar x h ?_⟩
    rintro i' k' h'
    cases h'
    refine ⟨xs, v, ho, hv, hok, Nat.le_refl _, ?_⟩
    rw [World.end_, data_eq hv, size_eq hv]
    rcases hok with ⟨rfl, rfl⟩ | ⟨b, B, rfl, -, -⟩ <;> rfl
  | null x => cases hs; exact ⟨_, rfl, stands_setVar x h (stands_none _)⟩
  | copy x y => cases hs; exact ⟨_, rfl, stands_setVar x h (h y)⟩
  | move x y => cases hs; exact ⟨_, rfl, stands_setVar x (stands_setVar y h (stands_none _)) (h y)⟩
  | inc x =>
    obtain ⟨p, hp, hs⟩ := bind_some_eq hs
    cases hs
    obtain ⟨p', e, hp'⟩ := adv x _ hp
    exact ⟨_, by simp only [istep, e]; rfl, stands_setVar x h hp'⟩
  | dec x =>
    obtain ⟨p, hp, hs⟩ := bind_some_eq hs
    cases hs
    obtain ⟨p', e, hp'⟩ := adv x _ hp
    exact ⟨_, by simp only [istep, e]; rfl, stands_setVar x h hp'⟩
  | add x n =>
    obtain ⟨p, hp, hs⟩ := bind_some_eq hs
    cases hs
    obtain ⟨p', e, hp'⟩ := adv x _ hp
    exact ⟨_, by simp only [istep, e]; rfl, stands_setVar x h hp'⟩
  | sub x n =>
    obtain ⟨p, hp, hs⟩ := bind_some_eq hs
    cases hs
    obtain ⟨p', e, hp'⟩ := adv x _ hp
    exact ⟨_, by simp only [istep, e]; rfl, stands_setVar x h hp'⟩
  | plus y x n =>
    obtain ⟨p, hp, hs⟩ := bind_some_eq hs
    cases hs
    obtain ⟨p', e, hp'⟩ := adv x _ hp
    exact ⟨_, by simp only [istep, e]; rfl, stands_setVar y h hp'⟩
  | minus y x n =>
    obtain ⟨p, hp, hs⟩ := bind_some_eq hs
    cases hs
    obtain ⟨p', e, hp'⟩ := adv x _ hp
    exact ⟨_, by simp only [istep, e]; rfl, stands_setVar y h hp'⟩
  | postInc y x =>
    obtain ⟨p, hp, hs⟩ := bind_some_eq hs
    cases hs
    obtain ⟨p', e, hp'⟩ := adv x _ hp
    exact ⟨_, by simp only [istep, e]; rfl, stands_setVar y (stands_setVar x h hp') (h x)⟩
  | postDec y x =>
    obtain ⟨p, hp, hs⟩ := bind_some_eq hs
    cases hs
    obtain ⟨p', e, hp'⟩ := adv x _ hp
    exact ⟨_, by simp only [istep, e]; rfl, stands_setVar y (stands_setVar x h hp') (h x)⟩

theorem irun_ok [DecidableEq α] (hg : Good cfg) (hr : Reachable cfg w) (hw : w.Shows ys) {ops : List IOp} : ∀ {a a' : Nat → Pos} {s : Its},
    (∀ y, Stands cfg w ys (a y) (s y)) → ispecs ys a ops = some a' →
    ∃ s', irun w s ops = .ok s' ∧ ∀ y, Stands cfg w ys (a' y) (s' y) := by
  induction ops with
  | nil =>
    intro a a' s h hs
    cases hs
    exact ⟨s, rfl, h⟩
  | cons op ops ih =>
    intro a a' s h hs
    obtain ⟨a1, h1, hs⟩ := bind_some_eq hs
    obtain ⟨s1, e1, h2⟩ := istep_ok hg hr hw h h1
    obtain ⟨s', e2, h3⟩ := ih h2 hs
    exact ⟨s', by simp only [irun, e1]; exact e2, h3⟩

/-- The pointer `p` shows what an iterator at position `k` of a vector with the elements `xs` has to. -/
def World.At (w : World α) (p : Ptr) (xs : List α) (k : Nat) : Prop :=
  (∀ h : k < xs.length, w.deref p = .ok xs[k]) ∧
  (∀ n : Nat, (h : k + n < xs.length) → w.subscript p n = .ok xs[k + n])

theorem Stands.at {p : Ptr} (h : Stands cfg w ys (some (i, k)) p) (hg : Good cfg) (hy : ys[i]? = some (some xs)) : w.At p xs k := by
  obtain ⟨xs', v, hy', hv, hok, hk, rfl⟩ := h i k rfl
  obtain rfl : xs' = xs := by rw [hy] at hy'; cases hy'; rfl
  refine ⟨fun h => hok.through h, fun n hn => ?_⟩
  have hlen : xs'.length < 2 ^ 63 := by
    rcases hok with ⟨rfl, rfl⟩ | ⟨b, B, rfl, hB, hok⟩
    · simp
    · have h1 := hok.le
      have h2 := hok.bound
      have h3 := Nat.le_mul_of_pos_right B.len hg.1
      omega
  have : (n : Int) % 18446744073709551616 = n := Int.emod_eq_of_lt (by omega) (by omega)
  rw [World.subscript, this, hok.advance (by omega) (by omega) hk]
  have : ((k : Int) + n).toNat = k + n := by omega
  rw [this]
  exact hok.through hn

/-- C126: iterators are positions.  Whatever a program does with its iterators: as long as positions stay
between 0 and the size, nothing is undefined, every iterator refers to the element at its position, and
differences and comparisons of iterators into the same vector are those of the positions. -/
theorem iterators_are_positions_partial [DecidableEq α] (hg : Good cfg) (hr : Reachable cfg w) (hw : w.Shows ys) {ops : List IOp} {s : Its}
    {a : Nat → Pos} (hs : ispecs ys (fun _ => none) ops = some a) :
    ∃ s', irun w s ops = .ok s' ∧
      ∀ x i k xs, a x = some (i, k) → ys[i]? = some (some xs) →
        k ≤ xs.length ∧
        (∀ h : k < xs.length, w.deref (s' x) = .ok xs[k]) ∧
        (∀ n : Nat, (h : k + n < xs.length) → w.subscript (s' x) n = .ok xs[k + n]) ∧
        ∀ y l, a y = some (i, l) →
          (s' x).minus (s' y) = .ok ((k : Int) - l) ∧ (s' x).cmp (s' y) = .ok (compare k l) ∧ (s' x = s' y ↔ k = l) := by
  obtain ⟨s', e, h⟩ := irun_ok hg hr hw (s := s) (fun _ => stands_none _) hs
  refine ⟨s', e, fun x i k xs hx hy => ?_⟩
  have hsx : Stands cfg w ys (some (i, k)) (s' x) := hx ▸ h x
  obtain ⟨h1, h2⟩ := hsx.at hg hy
  obtain ⟨xs', v, hy', hv, hok, hk, e1⟩ := hsx i k rfl
  obtain rfl : xs' = xs := by rw [hy] at hy'; cases hy'; rfl
  refine ⟨hk, h1, h2, fun y l hl => ?_⟩
  have hsy : Stands cfg w ys (some (i, l)) (s' y) := hl ▸ h y
  obtain ⟨zs, u, hz, hu, -, -, e2⟩ := hsy i l rfl
  obtain rfl : u = v := by rw [hv] at hu; cases hu; rfl
  rw [e1, e2]
  refine ⟨by simp [Ptr.minus], by simp [Ptr.cmp], by simp⟩

/-- The positions at the end of the example: the first iterator was moved from; the others are at positions 2,
4 and 5 of the first vector, which has five elements. -/
example : ∃ s', irun (exWorld .mov) (fun _ => nullPtr)
      [.first 0 0, .inc 0, .postInc 1 0, .move 2 0, .last 3 0, .minus 4 3 1, .sub 3 0, .add 2 3, .dec 2, .plus 2 2 (-2)] = .ok s' ∧
    (exWorld .mov).deref (s' 2) = .ok 9 ∧ (exWorld .mov).subscript (s' 2) 1 = .ok 2 ∧
    (s' 4).minus (s' 2) = .ok 2 ∧ (s' 4).cmp (s' 2) = .ok .gt := by
  have hw : (exWorld .mov).Shows [some [3, 1, 9, 2, 3]] := by
    intro i xs h
    match i with
    | 0 => cases h; exact exReads.1
    | i + 1 => simp at h
  obtain ⟨a, ha, h2, h4⟩ : ∃ a, ispecs [some [3, 1, 9, 2, 3]] (fun _ => none)
      [.first 0 0, .inc 0, .postInc 1 0, .move 2 0, .last 3 0, .minus 4 3 1, .sub 3 0, .add 2 3, .dec 2, .plus 2 2 (-2)] = some a ∧
      a 2 = some (0, 2) ∧ a 4 = some (0, 4) := by
    exact ⟨_, rfl, by decide, by decide⟩
  obtain ⟨s', e, h⟩ := iterators_are_positions_partial exGood exReach hw (s := fun _ => nullPtr) ha
  obtain ⟨-, h5, h6, -⟩ := h 2 0 2 [3, 1, 9, 2, 3] h2 rfl
  obtain ⟨-, -, -, h7⟩ := h 4 0 4 [3, 1, 9, 2, 3] h4 rfl
  obtain ⟨h8, h9, -⟩ := h7 2 2 h2
  exact ⟨s', e, h5 (by decide), h6 1 (by decide), h8, h9⟩

/-! ### The violation -/

/-- The claim without the restriction to subscripts that are not negative is false: whenever `*(it + n)` is an
element before `it`, `it[n]` is undefined. -/
theorem subscript_negative_violated [DecidableEq α] (hg : Good cfg) (hr : Reachable cfg w) (hx : w.Reads i xs) {n : Int} (hk : k ≤ xs.length)
    (h0 : n < 0) (h1 : 0 ≤ (k : Int) + n) :
    (∃ p x, (w.refTo i k).advance w.mem n = .ok p ∧ w.deref p = .ok x) ∧
      w.subscript (w.refTo i k) n = .error (.ub "pointer outside the block") := by
  obtain ⟨v, hv, hok, -⟩ := hr.vec hg hx
  unfold World.refTo
  rw [data_eq hv]
  refine ⟨⟨_, _, hok.advance h1 (by omega) hk, hok.through (by omega)⟩, ?_⟩
  rcases hok with ⟨rfl, rfl⟩ | ⟨b, B, rfl, hB, hok⟩
  · simp at hk; omega
  · have h2 := hok.le
    have h3 := hok.bound
    have h4 := Nat.le_mul_of_pos_right B.len hg.1
    have h5 : n % 18446744073709551616 = n + 18446744073709551616 := by omega
    rw [World.subscript, h5]
    simp only [Ptr.advance, hB]
    rw [if_neg (by omega)]
    rfl

example : (∃ p x, ((exWorld .mov).refTo 0 4).advance (exWorld .mov).mem (-2) = .ok p ∧ (exWorld .mov).deref p = .ok x) ∧
    (exWorld .mov).subscript ((exWorld .mov).refTo 0 4) (-2) = .error (.ub "pointer outside the block") :=
  subscript_negative_violated exGood exReach exReads.1 (by decide) (by decide) (by decide)

/-! ### Loops -/

theorem loop_from {v : Vec} (h : VecOK cfg w.mem v xs) : ∀ (d k fuel : Nat), k + d = xs.length → d < fuel →
    w.loop ⟨v.start, xs.length⟩ fuel ⟨v.start, k⟩ = some (.ok (xs.drop k))
  | _, _, 0, _, hf => by omega
  | 0, k, fuel + 1, hk, _ => by
    obtain rfl : k = xs.length := by omega
    simp [World.loop]
  | d + 1, k, fuel + 1, hk, hf => by
    have hlt : k < xs.length := by omega
    have hne : (⟨v.start, k⟩ : Ptr) ≠ ⟨v.start, xs.length⟩ := by
      intro e
      injection e
      omega
    have e : ((k : Int) + 1).toNat = k + 1 := by omega
    rw [World.loop, if_neg hne, World.deref, h.through hlt, h.advance (n := 1) (by omega) (by omega) (by omega)]
    simp only [e]
    rw [loop_from h d (k + 1) fuel (by omega) (by omega), List.drop_eq_getElem_cons hlt]
    rfl

theorem loopRev_from {v : Vec} (h : VecOK cfg w.mem v xs) : ∀ (k fuel : Nat), k ≤ xs.length → k < fuel →
    w.loopRev ⟨v.start, 0⟩ fuel ⟨v.start, k⟩ = some (.ok (xs.take k).reverse)
  | _, 0, _, hf => by omega
  | 0, fuel + 1, _, _ => by simp [World.loopRev]
  | k + 1, fuel + 1, hk, hf => by
    have hlt : k < xs.length := by omega
    have hne : (⟨v.start, k + 1⟩ : Ptr) ≠ ⟨v.start, 0⟩ := by
      intro e
      injection e
      omega
    have e : (((k + 1 : Nat) : Int) + -1).toNat = k := by omega
    rw [World.loopRev, if_neg hne, h.advance (n := -1) (by omega) (by omega) (by omega)]
    simp only [e, World.deref, h.through hlt]
    rw [loopRev_from h k fuel (by omega) (by omega), List.take_add_one, List.getElem?_eq_getElem hlt]
    simp only [Option.toList_some, List.reverse_append, List.reverse_cons, List.reverse_nil, List.nil_append, List.singleton_append]
    rfl

/-- C126: a loop from `begin()` until the iterator equals `end()` ends after as many turns as there are
elements and sees them in order; one from `rbegin()` until `rend()` sees them in reverse order. -/
theorem loops_end [DecidableEq α] (hg : Good cfg) (hr : Reachable cfg w) (hx : w.Reads i xs) {fuel : Nat} (hf : xs.length < fuel) :
    w.loop (w.end_ i) fuel (w.begin_ i) = some (.ok xs) ∧ w.loopRev (w.begin_ i) fuel (w.end_ i) = some (.ok xs.reverse) := by
  obtain ⟨v, hv, hok, -⟩ := hr.vec hg hx
  have hfin : v.fin = xs.length := by rcases hok with ⟨rfl, rfl⟩ | ⟨b, B, rfl, -, -⟩ <;> rfl
  rw [World.begin_, World.end_, data_eq hv, size_eq hv, hfin]
  refine ⟨?_, ?_⟩
  · rw [loop_from hok xs.length 0 fuel (by omega) hf, List.drop_zero]
  · rw [loopRev_from hok xs.length fuel (Nat.le_refl _) hf, List.take_length]

example : (exWorld .mov).loop ((exWorld .mov).end_ 0) 6 ((exWorld .mov).begin_ 0) = some (.ok [3, 1, 9, 2, 3]) ∧
    (exWorld .mov).loopRev ((exWorld .mov).begin_ 0) 6 ((exWorld .mov).end_ 0) = some (.ok [3, 2, 9, 1, 3]) :=
  loops_end exGood exReach exReads.1 (by decide)

end Verif.Vector
