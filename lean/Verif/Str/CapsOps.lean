import Verif.Str.CapsFns

/-!
How large the capacities of strings get: the functions a user calls.
-/

namespace Verif.Str.Caps

open M

variable {β γ : Type} {cfg : Cfg} {N K : Nat} {s s' : St} {v u : Obj}

/-- The bounds are kept if no string is too long. -/
def Fine (N K : Nat) (s : St) : Prop := Short N s → Fit N K s

theorem Fit.fine (h : Fit N K s) : Fine N K s := fun _ => h

theorem Even.fine (h : Even N K s s') (hf : Fine N K s) : Fine N K s' := fun hs => h.fit (hf (h.short hs))

theorem Ends.fine {x : M β} (h : Ends x s fun _ s' => Fit N K s') : Ends x s fun _ s' => Fine N K s' := h.imp fun _ _ g => g.fine

theorem Fine.then {x : M β} {f : β → M γ} {Q : γ → St → Prop} (h : Fine N K s) (hx : Ends x s fun _ s' => Even N K s s')
    (hf : ∀ b s1, Fine N K s1 → Ends (f b) s1 Q) : Ends (x >>= f) s Q :=
  Tri.bind hx fun b s1 v1 => hf b s1 (v1.fine h)

theorem Fine.after {x : M β} (h : Fine N K s) (hx : Evenly N K x) : Ends x s fun _ s' => Fine N K s' :=
  hx.ends.imp fun _ _ v1 => v1.fine h

theorem Fit.then {x : M β} {f : β → M γ} {Q : γ → St → Prop} (h : Fit N K s) (hx : Ends x s fun _ s' => Even N K s s')
    (hf : ∀ b s1, Fit N K s1 → Ends (f b) s1 Q) : Ends (x >>= f) s Q :=
  Tri.bind hx fun b s1 v1 => hf b s1 (v1.fit h)

theorem expand_fine (L : Lim cfg N K) (h : Fit N K s) (delta : Nat) (exp : Bool) :
    Ends (expandNoinit cfg v delta exp) s fun _ s' => Fine N K s' :=
  (expand_fit L h delta exp).imp fun _ _ g hs => g (Or.inr hs)

theorem size_le (L : Lim cfg N K) (h : Fit N K s) {k : Nat} (hk : size cfg v s = (.ok k, s)) : k ≤ N :=
  (size_low (Nat.le_of_lt L.ms) hk).2 (h v).2

/-! ### Functions after which the bounds are kept -/

theorem resize_fit (L : Lim cfg N K) (h : Fit N K s) {n : Nat} {c : Ch} (hn : n ≤ N) :
    Ends (resize cfg v n c) s fun _ s' => Fit N K s' := by
  unfold resize
  refine Ends.checker (Ends.look (size_still v) fun k hk => ?_)
  split
  · exact shrink_fit L h hk (by omega)
  · refine Tri.bind (expand_fit L h (n - k) false) fun p s1 h1 => Fit.after (h1 (Or.inl ?_)) (podFill_even _ _ _)
    intro k' hk'
    rw [hk] at hk'
    cases hk'
    have := add64_le k (n - k)
    omega

theorem resize_fine (L : Lim cfg N K) (h : Fit N K s) {n : Nat} {c : Ch} :
    Ends (resize cfg v n c) s fun _ s' => Fine N K s' := by
  unfold resize
  refine Ends.checker (Ends.look (size_still v) fun k hk => ?_)
  split
  · exact (shrink_fit L h hk (by omega)).fine
  · exact Tri.bind (expand_fine L h (n - k) false) fun p s1 h1 => h1.after (podFill_even _ _ _)

theorem erase_fit (L : Lim cfg N K) (h : Fit N K s) {pos n : Nat} : Ends (erase cfg v pos n) s fun _ s' => Fit N K s' := by
  unfold erase
  refine Ends.checker (Ends.look (size_still v) fun k hk => Ends.look (enforce_still _) fun _ _ => ?_)
  have := size_le L h hk
  exact h.then (begin_even L) fun b s1 h1 => h1.step (podMove_even _ _ _) fun _ s2 _ h2 => resize_fit L h2 (by omega)

theorem eraseAt_fit (L : Lim cfg N K) (h : Fit N K s) {i : Ptr} {n : Nat} : Ends (eraseAt cfg v i n) s fun _ s' => Fit N K s' := by
  unfold eraseAt
  refine h.then (begin_even L) fun b s1 h1 => ?_
  split
  · exact erase_fit L h1
  · exact Ends.ub _

theorem popBack_fit (L : Lim cfg N K) (h : Fit N K s) {k : Nat} (hk : size cfg v s = (.ok k, s)) (h0 : k ≠ 0) :
    Ends (popBack cfg v) s fun _ s' => Fit N K s' := by
  unfold popBack
  exact Ends.noexcept (Ends.look (size_still v) fun k' _ => Ends.look (assert_still _ _) fun _ _ => shrink_fit L h hk (by omega))

theorem clone_fit (L : Lim cfg N K) (h : Fit N K s) : Ends (clone cfg v u) s fun _ s' => Fit N K s' := by
  unfold clone
  refine Ends.obj fun ob _ => ?_
  split
  · exact Tri.bind (ctorCopy_fit L h) fun _ s1 h1 => Ends.building ((unshare_even L (Nat.zero_le _)).imp fun _ _ v1 => v1.fit h1)
  · exact ctorCopy_fit L h

theorem substr_fit (L : Lim cfg N K) (h : Fit N K s) {pos n : Nat} : Ends (substr cfg v u pos n) s fun _ s' => Fit N K s' := by
  unfold substr
  refine Ends.look (size_still u) fun k hk => Ends.look (enforce_still _) fun _ _ => Ends.look (dataPtr_still u) fun p _ =>
    Ends.obj fun ob _ => ctorData_fit L h ?_
  have := size_le L h hk
  omega

theorem substrMove_fit (L : Lim cfg N K) (h : Fit N K s) {pos n : Nat} : Ends (substrMove cfg v u pos n) s fun _ s' => Fit N K s' := by
  unfold substrMove
  refine Ends.look (size_still u) fun k hk => Ends.look (enforce_still _) fun _ _ => Tri.bind (erase_fit L h) fun _ s1 h1 =>
    Ends.look (size_still u) fun k' hk' => Tri.bind (R := fun _ s2 => Fit N K s2) ?_ fun _ s2 h2 => ctorMove_fit h2
  have := size_le L h1 hk'
  by_cases hn : n < k'
  · rw [doIf_pos (by simpa using hn)]
    exact resize_fit L h1 (by omega)
  · rw [doIf_neg (by simpa using hn)]
    exact Tri.ret h1

theorem assignMove_fit (h : Fit N K s) : Ends (assignMove cfg v u) s fun _ s' => Fit N K s' := by
  unfold assignMove
  refine Ends.noexcept ?_
  split
  · exact Tri.ret h
  · exact Tri.bind (destroy_fit h _) fun _ s1 h1 => ctorMove_fit h1

theorem setFront_even (L : Lim cfg N K) {c : Ch} : Ends (setFront cfg v c) s fun _ s' => Even N K s s' := by
  unfold setFront
  exact Tri.bind (begin_even L) fun p s1 v1 => v1.after (writeCells_even _ _)

theorem setAt_even (L : Lim cfg N K) {i : Nat} {c : Ch} : Ends (setAt cfg v i c) s fun _ s' => Even N K s s' := by
  unfold setAt
  exact Tri.bind (begin_even L) fun p s1 v1 => v1.after (writeCells_even _ _)

theorem assignChar_fit (L : Lim cfg N K) (h : Fit N K s) {c : Ch} : Ends (assignChar cfg v c) s fun _ s' => Fit N K s' := by
  unfold assignChar
  refine Ends.checker (Ends.look (size_still v) fun k hk => Ends.look (isShared_still v) fun sh _ => ?_)
  split
  · next h0 =>
    refine Tri.bind (expand_fit L h 1 false) fun _ s1 h1 => (setFront_even L).imp fun _ s2 v2 => v2.fit (h1 (Or.inl ?_))
    intro k' hk'
    rw [hk] at hk'
    cases hk'
    subst h0
    have := add64_le 0 1
    have := L.ms
    omega
  · split
    · exact Tri.bind (ctorFill_fit L h) fun _ s1 h1 => tempSwap_fit (h1 (Or.inl (Nat.le_refl _))) _
    · exact Tri.bind (shrink_fit L h hk (by omega)) fun _ s1 h1 => (setFront_even L).imp fun _ s2 v2 => v2.fit h1

theorem shrinkToFit_fit (L : Lim cfg N K) (h : Fit N K s) : Ends (shrinkToFit cfg v) s fun _ s' => Fit N K s' := by
  unfold shrinkToFit
  split
  · exact Tri.ret h
  · refine Ends.look (capacity_still v) fun c _ => Ends.look (size_still v) fun k hk => ?_
    split
    · exact Tri.ret h
    · exact Ends.look (dataPtr_still v) fun p _ => Tri.bind (ctorData_fit L h (size_le L h hk)) fun _ s1 h1 => tempSwap_fit h1 _

/-! ### Functions that make strings longer -/

theorem append_fine (L : Lim cfg N K) (h : Fit N K s) {p : Ptr} {n : Nat} : Ends (append cfg v p n) s fun _ s' => Fine N K s' := by
  unfold append
  refine Ends.checker ?_
  split
  · exact Tri.ret h.fine
  · refine Ends.look (size_still v) fun old _ => Ends.look (dataPtr_still v) fun q _ => Tri.bind (expand_fine L h n true) fun r s1 h1 =>
      h1.then (appendCopy_even _ _ _ _ _ _).ends fun _ s2 h2 => h2.after ?_
    evened

theorem appendStr_fine (L : Lim cfg N K) (h : Fit N K s) : Ends (appendStr cfg v u) s fun _ s' => Fine N K s' := by
  unfold appendStr
  refine Ends.look (size_still v) fun old _ => Ends.look (size_still u) fun n _ => Ends.look (dataPtr_still u) fun q _ =>
    Tri.bind (append_fine L h) fun r s1 h1 => h1.after ?_
  evened

theorem appendFill_fine (L : Lim cfg N K) (h : Fit N K s) {n : Nat} {c : Ch} : Ends (appendFill cfg v n c) s fun _ s' => Fine N K s' := by
  unfold appendFill
  exact Ends.checker (Tri.bind (expand_fine L h n true) fun p s1 h1 => h1.after (podFill_even _ _ _))

theorem pushBack_fine (L : Lim cfg N K) (h : Fit N K s) {c : Ch} : Ends (pushBack cfg v c) s fun _ s' => Fine N K s' := by
  unfold pushBack
  exact Tri.bind (expand_fine L h 1 true) fun p s1 h1 => h1.after (writeCells_even _ _)

theorem insertFillAt_fine (L : Lim cfg N K) (h : Fit N K s) {i : Ptr} {n : Nat} {c : Ch} :
    Ends (insertFillAt cfg v i n c) s fun _ s' => Fine N K s' := by
  unfold insertFillAt
  refine Ends.checker (h.step (posOf_even _ _) fun pos s1 _ h1 => Ends.look (size_still v) fun old _ => Tri.bind (expand_fine L h1 n true) fun _ s2 h2 =>
    h2.then (begin_even L) fun b s3 h3 => h3.after ?_)
  evened

theorem insertRangeAt_fine (L : Lim cfg N K) (h : Fit N K s) {i p : Ptr} {n : Nat} :
    Ends (insertRangeAt cfg v i p n) s fun _ s' => Fine N K s' := by
  unfold insertRangeAt
  refine Ends.checker (h.step (posOf_even _ _) fun pos s1 _ h1 => Ends.look (size_still v) fun old _ => Tri.bind (expand_fine L h1 n true) fun _ s2 h2 =>
    h2.then (begin_even L) fun b s3 h3 => h3.after ?_)
  evened

theorem insertFill_fine (L : Lim cfg N K) (h : Fit N K s) {pos n : Nat} {c : Ch} :
    Ends (insertFill cfg v pos n c) s fun _ s' => Fine N K s' := by
  unfold insertFill
  exact Ends.look (size_still v) fun k _ => Ends.look (enforce_still _) fun _ _ => h.then (begin_even L) fun b s1 h1 => insertFillAt_fine L h1

theorem insert_fine (L : Lim cfg N K) (h : Fit N K s) {pos n : Nat} {p : Ptr} :
    Ends (insert cfg v pos p n) s fun _ s' => Fine N K s' := by
  unfold insert
  exact Ends.look (size_still v) fun k _ => Ends.look (enforce_still _) fun _ _ => h.then (begin_even L) fun b s1 h1 => insertRangeAt_fine L h1

theorem appendRange_fine (L : Lim cfg N K) (h : Fit N K s) {p : Ptr} {n : Nat} :
    Ends (appendRange cfg v p n) s fun _ s' => Fine N K s' := by
  unfold appendRange
  exact h.then (begin_even L) fun b s1 h1 => Ends.look (size_still v) fun k _ => insertRangeAt_fine L h1

theorem assign_fine (L : Lim cfg N K) (h : Fit N K s) {p : Ptr} {n : Nat} :
    Ends (assign cfg v p n) s fun _ s' => Fine N K s' := by
  unfold assign
  refine Ends.checker (Ends.look (size_still v) fun k hk => Tri.bind (R := fun _ s1 => Fine N K s1) ?_ fun _ s1 h1 => h1.after (by evened))
  unfold assignBy
  split
  · exact (resize_fit L h (Nat.zero_le _)).fine
  · split
    · exact h.then (mutableData_even L) fun q s1 h1 => h1.step (podMove_even _ _ _) fun _ s2 _ h2 => Ends.look (size_still v) fun k' hk' =>
        (shrink_fit L h2 hk' (by omega)).fine
    · exact Tri.bind (resize_fit L h (Nat.zero_le _)) fun _ s1 h1 => Tri.bind (expand_fine L h1 _ false) fun q s2 h2 => h2.after (podCopy_even _ _ _)

theorem assignStr_fine (L : Lim cfg N K) (h : Fit N K s) : Ends (assignStr cfg v u) s fun _ s' => Fine N K s' := by
  unfold assignStr
  refine Ends.checker ?_
  split
  · exact Tri.ret h.fine
  · exact Ends.look (size_still u) fun n _ => Ends.look (dataPtr_still u) fun p _ => assign_fine L h

theorem replaceFillAt_fine (L : Lim cfg N K) (h : Fit N K s) {i : Ptr} {n1 n2 : Nat} {c : Ch} :
    Ends (replaceFillAt cfg v i n1 n2 c) s fun _ s' => Fine N K s' := by
  unfold replaceFillAt
  split
  · exact h.step (podFill_even _ _ _) fun _ s1 _ h1 => Tri.bind (eraseAt_fit L h1) fun _ s2 h2 => h2.fine.after (sane_even _)
  · exact h.step (podFill_even _ _ _) fun _ s1 _ h1 => Tri.bind (insertFillAt_fine L h1) fun _ s2 h2 => h2.after (sane_even _)

theorem replaceFill_fine (L : Lim cfg N K) (h : Fit N K s) {pos n1 n2 : Nat} {c : Ch} :
    Ends (replaceFill cfg v pos n1 n2 c) s fun _ s' => Fine N K s' := by
  unfold replaceFill
  exact Ends.checker (Ends.look (size_still v) fun k _ => Ends.look (enforce_still _) fun _ _ => h.then (begin_even L) fun b s1 h1 =>
    replaceFillAt_fine L h1)

theorem assignFill_fine (L : Lim cfg N K) (h : Fit N K s) {n : Nat} {c : Ch} :
    Ends (assignFill cfg v n c) s fun _ s' => Fine N K s' := by
  unfold assignFill
  exact h.then (begin_even L) fun b s1 h1 => Ends.look (size_still v) fun k _ => replaceFillAt_fine L h1

/-! ### Functions of several steps: the lengths in between come from what the steps do -/

theorem Raw.low (hN : cfg.ms ≤ N) (hw : WInv cfg s) {cs : List Cell} (h : Raw cfg s v cs) (hl : cs.length ≤ N) : Low N (s.vars v) :=
  (size_low hN (h.sizeM hw)).1 hl

theorem Short.frame (L : Lim cfg N K) (h : Short N s) (hw : WInv cfg s') (hf : Frame (· = v) s s') {cs : List Cell} (hv : Raw cfg s' v cs)
    (hl : cs.length ≤ N) : Short N s' := by
  intro o
  by_cases ho : o = v
  · subst ho; exact Raw.low (Nat.le_of_lt L.ms) hw hv hl
  · rw [(hf o ho).1]; exact h o

/-- What is known of a step and of the lengths gives the bounds. -/
theorem fit_of (L : Lim cfg N K) (h : Fit N K s) {x : M β} {cs : List Cell} {E : Fault → St → Prop}
    (hd : Tri x s (fun _ s' => Done cfg v cs s s') E) (hx : Ends x s fun _ s' => Fine N K s') (hl : cs.length ≤ N) :
    Ends x s fun _ s' => Done cfg v cs s s' ∧ Fit N K s' :=
  (hd.and hx).mono (fun _ _ g => ⟨g.1, g.2 (h.short.frame L g.1.inv g.1.frame g.1.raw hl)⟩) fun _ _ _ => trivial

theorem reserve_fit (L : Lim cfg N K) (h : Fit N K s) {n : Nat} (hn : n ≤ K) : Ends (reserve cfg v n) s fun _ s' => Fit N K s' :=
  (reserveCore_even L hn).imp fun _ _ v1 => v1.fit h

theorem addPart_fine (L : Lim cfg N K) (h : Fit N K s) (q : Part) : Ends (addPart cfg v u q) s fun _ s' => Fine N K s' := by
  unfold addPart
  cases q with
  | str => exact appendStr_fine L h
  | chars xs => exact append_fine L h
  | char c => exact pushBack_fine L h

theorem concat_fit (L : Lim cfg N K) (h : Fit N K s) (hw : WInv cfg s) (hf : Free s) {u1 u2 : Obj} {cs ds : List Cell} (hv : s.vars v = none)
    (hv0 : v ≠ .tmp 0) (hv1 : v ≠ .tmp 1) (h1 : Raw cfg s u1 cs) (h2 : Raw cfg s u2 ds) (hn : cs.length + ds.length < M64)
    (hl : cs.length + ds.length ≤ N) : Ends (concat cfg v u1 u2) s fun _ s' => Fit N K s' := by
  have hc := L.ok
  unfold concat
  obtain ⟨ob, hob⟩ := h1.var
  have n1 := h1.ne_of_none hv
  have n2 := h2.ne_of_none hv
  obtain ⟨s1, l1, e1, e2, e3, e4, _⟩ := ctorEmpty_ok hw hv (hw.al u1 _ hob)
  have g1 : Fit N K s1 := by
    have := ctorEmpty_fit (cfg := cfg) (v := v) h (al := ob.al)
    unfold Ends Tri at this
    rwa [e1] at this
  refine Tri.step (getOb_ok hob) (Tri.step e1 (Ends.building ?_))
  have r1 := e3.raw (Ne.symm n1) h1
  have r2 := e3.raw (Ne.symm n2) h2
  have hf1 : Free s1 := ⟨e3.none (Ne.symm hv0) hf.1, e3.none (Ne.symm hv1) hf.2⟩
  have rv : Raw cfg s1 v [] := ⟨_, _, _, e4, by simp⟩
  refine Tri.step (r1.sizeM e2) (Tri.step (r2.sizeM e2) ?_)
  have hK : add64 cs.length ds.length ≤ K := Nat.le_trans (add64_le _ _) (Nat.le_trans hl L.le)
  refine Tri.bind (fit_of L g1 (reserve_tri hc e2 hf1 rv) (reserve_fit L g1 hK).fine (Nat.zero_le _)) ?_
  rintro _ s2 ⟨d2, g2⟩
  refine Tri.bind (fit_of L g2 (appendStr_tri hc d2.inv (hf1.frame rv d2.frame) d2.raw (d2.frame.raw (Ne.symm n1) r1) (by simp; omega))
    (appendStr_fine L g2) (by simp; omega)) ?_
  rintro _ s3 ⟨d3, g3⟩
  exact (fit_of L g3 (appendStr_tri hc d3.inv ((hf1.frame rv d2.frame).frame d2.raw d3.frame) d3.raw
    ((d2.frame.trans d3.frame).raw (Ne.symm n2) r2) (by simpa using hn)) (appendStr_fine L g3) (by simpa using hl)).imp fun _ _ g => g.2

theorem plusNew_fit (L : Lim cfg N K) (h : Fit N K s) (hw : WInv cfg s) (hf : Free s) {cs : List Cell} (hv : s.vars v = none)
    (hv0 : v ≠ .tmp 0) (hv1 : v ≠ .tmp 1) (h1 : Raw cfg s u cs) (q1 q2 : Part) (hn : (q1.cells cs).length + (q2.cells cs).length < M64)
    (hl : (q1.cells cs).length + (q2.cells cs).length ≤ N) : Ends (plusNew cfg v u q1 q2) s fun _ s' => Fit N K s' := by
  have hc := L.ok
  unfold plusNew
  obtain ⟨ob, hob⟩ := h1.var
  have n1 := h1.ne_of_none hv
  obtain ⟨s1, l1, e1, e2, e3, e4, _⟩ := ctorEmpty_ok hw hv (hw.al u _ hob)
  have g1 : Fit N K s1 := by
    have := ctorEmpty_fit (cfg := cfg) (v := v) h (al := ob.al)
    unfold Ends Tri at this
    rwa [e1] at this
  refine Tri.step (getOb_ok hob) (Tri.step e1 (Ends.building ?_))
  have r1 := e3.raw (Ne.symm n1) h1
  have hf1 : Free s1 := ⟨e3.none (Ne.symm hv0) hf.1, e3.none (Ne.symm hv1) hf.2⟩
  have rv : Raw cfg s1 v [] := ⟨_, _, _, e4, by simp⟩
  refine Tri.step (partSize_ok e2 r1 q1) (Tri.step (partSize_ok e2 r1 q2) ?_)
  have hK : add64 (q1.cells cs).length (q2.cells cs).length ≤ K := Nat.le_trans (add64_le _ _) (Nat.le_trans hl L.le)
  refine Tri.bind (fit_of L g1 (reserve_tri hc e2 hf1 rv) (reserve_fit L g1 hK).fine (Nat.zero_le _)) ?_
  rintro _ s2 ⟨d2, g2⟩
  unfold addParts
  refine Tri.bind (fit_of L g2 (addPart_tri hc d2.inv (hf1.frame rv d2.frame) d2.raw (d2.frame.raw (Ne.symm n1) r1) q1 (by simp; omega))
    (addPart_fine L g2 q1) (by simp; omega)) ?_
  rintro _ s3 ⟨d3, g3⟩
  exact (fit_of L g3 (addPart_tri hc d3.inv ((hf1.frame rv d2.frame).frame d2.raw d3.frame) d3.raw
    ((d2.frame.trans d3.frame).raw (Ne.symm n1) r1) q2 (by simpa using hn)) (addPart_fine L g3 q2) (by simpa using hl)).imp fun _ _ g => g.2

/-- The loop of `operator>>`. -/
theorem extractLoop_fit (L : Lim cfg N K) (is : IStream) : ∀ (inp xs : List Ch) (room : Nat) (s : St), WInv cfg s → Free s →
    Raw cfg s v (xs.map some) → (∀ c ∈ inp, c < 256) → Fit N K s → xs.length + (wordOf room inp).length ≤ N →
    Ends (extractLoop cfg v is room inp xs.length) s fun _ s' => Fit N K s' := by
  intro inp
  have hc := L.ok
  induction inp with
  | nil =>
    intro xs room s hw hf hv hr h hl
    unfold extractLoop
    split
    · exact Tri.ret h
    · exact Tri.ret h
  | cons c t ih =>
    intro xs room s hw hf hv hr h hl
    unfold extractLoop
    split
    · exact Tri.ret h
    · next h0 =>
      refine Tri.step (b := isSpace c) (by unfold ctypeSpace; rw [if_pos (hr c (by simp))]; rfl) ?_
      by_cases hs : isSpace c = true
      · rw [if_pos hs]; exact Tri.ret h
      · rw [if_neg hs]
        simp only [Bool.not_eq_true] at hs
        have hsh := hv.short hc hw
        obtain ⟨m, rfl⟩ : ∃ m, room = m + 1 := ⟨room - 1, by omega⟩
        have hword : wordOf (m + 1) (c :: t) = c :: wordOf m t := by simp [wordOf, hs]
        rw [hword, List.length_cons] at hl
        refine Tri.bind (fit_of L h (pushBack_tri hc hw hf hv (c := c) (by omega)) (pushBack_fine L h) (by simp; omega)) ?_
        rintro _ s1 ⟨⟨w1, f1, r1⟩, g1⟩
        have hx : xs.map some ++ [some c] = (xs ++ [c]).map some := by simp
        rw [hx] at r1
        have := ih (xs ++ [c]) m s1 w1 (hf.frame hv f1) r1 (fun c' h' => hr c' (by simp [h'])) g1 (by simp; omega)
        rw [List.length_append, List.length_singleton] at this
        exact this

/-- `operator>>`. -/
theorem extract_fit (L : Lim cfg N K) (h : Fit N K s) (hw : WInv cfg s) (hf : Free s) {xs : List Ch} (hv : Raw cfg s v (xs.map some))
    {is : IStream} (hg : is.good = true) (ht : is.throwEof = false ∧ is.throwFail = false) (hn : ∀ c ∈ is.inp, c < 256)
    (hl : (is.word xs).length ≤ N) : Ends (extract cfg v is) s fun _ s' => Fit N K s' := by
  have hc := L.ok
  have hb : is.bad = false := by
    simp only [IStream.good, Bool.and_eq_true, Bool.not_eq_true'] at hg; exact hg.2
  have quiet : ∀ (is : IStream) (e f : Bool) (s1 : St), Fit N K s1 → Ends (is.setstate e f) s1 fun _ s' => Fit N K s' := by
    intro is e f s1 g
    unfold IStream.setstate
    dsimp only
    split
    · exact Ends.fail _
    · exact Tri.ret g
  have fin : ∀ (is : IStream) (k : Nat) (e : Bool) (s1 : St), Fit N K s1 → Ends (extractEnd is k e) s1 fun _ s' => Fit N K s' := by
    intro is k e s1 g
    unfold extractEnd
    split
    · exact quiet _ _ _ _ g
    · exact Tri.ret g
  unfold extract
  by_cases hbl : is.blank = true
  · have hbl' := hbl
    simp only [IStream.blank, Bool.and_eq_true] at hbl'
    have hempty : (is.inp.dropWhile isSpace).isEmpty = true := by
      have := hbl'.2
      rw [IStream.ready, if_pos hbl'.1] at this
      exact this
    have hse : sentry is s = (.ok ({ is with inp := [], eof := true, fail := true }, false), s) := by
      unfold sentry
      rw [if_pos hg, if_pos hbl'.1]
      simp only [hempty, if_true]
      rw [bind_ok (setstate_quiet (is := { is with inp := [] }) ht hb true true s)]
      simp
    refine Tri.step hse ?_
    simp only [Bool.false_eq_true, if_false]
    exact fin _ _ _ _ h
  · have hse : sentry is s = (.ok ({ is with inp := is.ready }, true), s) := by
      unfold sentry IStream.ready
      rw [if_pos hg]
      by_cases hs : is.skipws = true
      · rw [if_pos hs, if_pos hs]
        have : (is.inp.dropWhile isSpace).isEmpty = false := by
          simp only [IStream.blank, hs, Bool.true_and, IStream.ready, if_true] at hbl
          simpa using hbl
        simp only [this, Bool.false_eq_true, if_false]
        rfl
      · rw [if_neg hs, if_neg hs]; rfl
    refine Tri.step hse ?_
    simp only [if_true]
    have hsh := hv.short hc hw
    refine Tri.bind (((erase_tri hc hw hv (pos := 0) (n := M64 - 1) (by omega)).and (erase_fit L h)).mono (fun _ _ g => g) (fun _ _ _ => trivial)) ?_
    rintro _ s1 ⟨⟨w1, f1, p, o1⟩, g1⟩
    have hnil : (xs.map some).take 0 ++ (xs.map some).drop (0 + min (M64 - 1) ((xs.map some).length - 0)) = ([] : List Ch).map some := by
      rw [Nat.min_eq_right (by omega)]
      simp
    rw [hnil] at o1
    have hr' : ∀ c ∈ is.ready, c < 256 := by
      intro c h
      unfold IStream.ready at h
      split at h
      · exact hn c ((List.dropWhile_suffix _).subset h)
      · exact hn c h
    have hw' : (wordOf is.limit is.ready).length ≤ N := by
      rw [IStream.word, if_neg hbl] at hl
      exact hl
    refine Tri.bind (extractLoop_fit L { is with inp := is.ready } is.ready [] is.limit s1 w1 (hf.frame hv f1) o1.raw hr' g1 (by simpa using hw')) ?_
    intro r s2 g2
    exact fin _ _ _ _ g2

/-! ### replace -/

/-- The copy in `replaceAliased`, into the temporary just made. -/
theorem replaceCopy_fit (L : Lim cfg N K) (h : Fit N K s) (hw : WInv cfg s) (hf : Free s) {cs ys : List Cell} {b p : Ptr} (hv : Raw cfg s v cs)
    (hb : dataPtr v s = (.ok b, s)) (ht : Raw cfg s (.tmp 2) []) (hvt : v ≠ .tmp 2) {pos n1 : Nat} (hp : pos + n1 ≤ cs.length)
    (hsrc : OwnSrc cfg s v p ys) (hn : cs.length - n1 + ys.length < M64) (hl : cs.length - n1 + ys.length ≤ N) :
    Ends (replaceCopy cfg v (.tmp 2) b cs.length pos n1 p ys.length) s fun _ s' => Fit N K s' := by
  have hc := L.ok
  have done : ∀ {x : M Unit} {cs : List Cell} {s : St} {E : Fault → St → Prop}, Tri x s (fun _ s' => DoneX cfg (.tmp 2) cs s s') E →
      Tri x s (fun _ s' => Done cfg (.tmp 2) cs s s') E := fun h => h.mono (fun _ _ g => g.done) fun _ _ g => g
  unfold replaceCopy
  have hK : add64 (sub64 cs.length n1) ys.length ≤ K := by
    have h1 := add64_le (sub64 cs.length n1) ys.length
    have h2 := sub64_le (a := cs.length) (b := n1) (by omega)
    have := L.le
    omega
  refine Tri.bind (fit_of L h (reserve_tri hc hw hf ht) (reserve_fit L h hK).fine (Nat.zero_le _)) ?_
  rintro _ s1 ⟨d1, g1⟩
  have src1 : SrcOk cfg s (.tmp 2) b (cs.take pos) := by
    have := hv.srcPart hw hb hvt (i := 0) (k := pos) (by omega)
    simpa using this
  have l1 : (cs.take pos).length = pos := by simp; omega
  have a1 := done (appendRange_tri hc d1.inv (hf.frameT d1.frame) d1.raw (src1.frame d1.frame) (by simp; omega))
  rw [l1] at a1
  refine Tri.bind (fit_of L g1 a1 (appendRange_fine L g1) (by simp; omega)) ?_
  rintro _ s2 ⟨d2, g2⟩
  have f2 := d1.frame.trans d2.frame
  have a2 := done (appendRange_tri hc d2.inv (hf.frameT f2) d2.raw ((hsrc.to hvt).frame f2) (by simp; omega))
  refine Tri.bind (fit_of L g2 a2 (appendRange_fine L g2) (by simp; omega)) ?_
  rintro _ s3 ⟨d3, g3⟩
  have f3 := f2.trans d3.frame
  have src3 := hv.srcPart hw hb hvt (i := pos + n1) (k := cs.length - (pos + n1)) (by omega)
  have l3 : ((cs.drop (pos + n1)).take (cs.length - (pos + n1))).length = cs.length - (pos + n1) := by simp
  have a3 := done (appendRange_tri hc d3.inv (hf.frameT f3) d3.raw (src3.frame f3) (by simp; omega))
  rw [l3] at a3
  refine Tri.bind (fit_of L g3 a3 (appendRange_fine L g3) (by simp; omega)) ?_
  rintro _ s4 ⟨_, g4⟩
  exact swap_fit g4 _

theorem replaceImpl_fine (L : Lim cfg N K) (h : Fit N K s) (hw : WInv cfg s) (hf : Free s) (h2 : s.vars (.tmp 2) = none) {cs ys : List Cell} {b p : Ptr}
    (hv : Own cfg s v b cs) {pos n1 : Nat} (hp : pos + n1 ≤ cs.length)
    (hsrc : SrcOk cfg s v p ys ∨ OwnSrc cfg s v p ys ∧ cfg.arena = false) (hn : cs.length - n1 + ys.length < M64)
    (hl : cs.length - n1 + ys.length ≤ N) :
    Ends (replaceImpl cfg v (b.add pos) pos n1 p ys.length) s fun _ s' => Fine N K s' := by
  unfold replaceImpl
  refine Ends.checker (Tri.step (begin_own hw hv) (Tri.step (hv.raw.sizeM hw) ?_))
  have h2v := hv.raw.ne_of_none h2
  split
  · next hin =>
    have hown : OwnSrc cfg s v p ys ∧ cfg.arena = false := by
      rcases hsrc with hsrc | hsrc
      · exfalso
        have := hsrc.apart hw hv 0
        rw [Ptr.add_zero] at this
        unfold Ptr.within at hin
        rw [this] at hin
        simp at hin
      · exact hsrc
    obtain ⟨s1, l1, e1, e2, e3, e4, e5, e6⟩ := ctorEmpty_ok hw (v := .tmp 2) (al := 0) h2 (by simp [hown.2])
    have g1 : Fit N K s1 := by
      have := ctorEmpty_fit (cfg := cfg) (v := .tmp 2) h (al := 0)
      unfold Ends Tri at this
      rwa [e1] at this
    refine Tri.step e1 ?_
    obtain ⟨ob, l, n, k1, _, rfl, rfl⟩ := hv
    have k1' := e3.holds (Ne.symm h2v) k1
    have hown1 : OwnSrc cfg s1 v p ys := by
      obtain ⟨ob', l', n', i, k1, k2⟩ := hown.1
      exact ⟨ob', l', n', i, e3.holds (Ne.symm h2v) k1, k2⟩
    exact Ends.withTemp ((replaceCopy_fit L g1 e2 (hf.frameT e3) ⟨ob, l, n, k1', rfl⟩ k1'.dataM ⟨_, _, _, e4, by simp⟩ (Ne.symm h2v) hp hown1 hn hl).imp
      fun _ _ g => (destroy_fit g _).fine)
  · split
    · exact h.step (podMove_even _ _ _) fun _ s1 _ h1 => Tri.bind (eraseAt_fit L h1) fun _ s2 h2 => h2.fine.after (sane_even _)
    · exact h.step (podMove_even _ _ _) fun _ s1 _ h1 => Tri.bind (insertRangeAt_fine L h1) fun _ s2 h2 => h2.after (sane_even _)

/-- `replace(pos, n1, s, n2)`. -/
theorem replace_fine (L : Lim cfg N K) (h : Fit N K s) (hw : WInv cfg s) (hf : Free s) (h2 : s.vars (.tmp 2) = none) {cs ys : List Cell} {p : Ptr}
    (hv : Raw cfg s v cs) {pos n1 : Nat} (hp : pos ≤ cs.length)
    (hsrc : SrcOk cfg s v p ys ∨ OwnSrc cfg s v p ys ∧ cfg.arena = false)
    (hn : cs.length - min n1 (cs.length - pos) + ys.length < M64) (hl : cs.length - min n1 (cs.length - pos) + ys.length ≤ N) :
    Ends (replace cfg v pos n1 p ys.length) s fun _ s' => Fine N K s' := by
  have hc := L.ok
  unfold replace
  refine Ends.checker (Tri.step (hv.sizeM hw) (Tri.step (enforce_ok (by simpa using hp)) ?_))
  have cont : ∀ {b : Ptr} {s1 : St}, Fit N K s1 → WInv cfg s1 → Frame (· = v) s s1 → Own cfg s1 v b cs →
      (SrcOk cfg s1 v p ys ∨ OwnSrc cfg s1 v p ys ∧ cfg.arena = false) →
      Ends (do
        replaceCheck cfg v (b.add pos) (min n1 (cs.length - pos))
        replaceImpl cfg v (b.add pos) pos (min n1 (cs.length - pos)) p ys.length) s1 fun _ s' => Fine N K s' := by
    intro b s1 g1 w1 f1 o1 hs1
    have hcheck : replaceCheck cfg v (b.add pos) (min n1 (cs.length - pos)) s1 = (.ok (), s1) := by
      unfold replaceCheck
      split
      · rw [bind_ok (begin_own w1 o1), bind_ok (o1.raw.sizeM w1)]
        refine assert_ok ?_ _
        have hs : (b.add pos).same b = true := by
          obtain ⟨ob, l, n, h, _, rfl, _⟩ := o1
          have := Ptr.same_add (ob.core.ptr v) (ob.core.ptr v) pos 0
          rw [Ptr.add_zero] at this
          rw [this]; simp
        rw [hs]
        simp
        omega
      · rfl
    exact Tri.step hcheck (replaceImpl_fine L g1 w1 (hf.frame hv f1) (f1.none (hv.ne_of_none h2) h2) o1 (by omega) hs1 hn hl)
  by_cases hx : Excl s v
  · have hv0 := hv
    obtain ⟨ob, l, n, k, rfl⟩ := hv
    have own : Own cfg s v (ob.core.ptr v) (l.take n) := ⟨ob, l, n, k, hx, rfl, rfl⟩
    exact Tri.step (begin_own hw own) (cont h hw (Frame.refl _ _) own hsrc)
  · have hs : SrcOk cfg s v p ys := by
      rcases hsrc with h | ⟨h, har⟩
      · exact h
      · exact h.shared hw har hx
    refine Tri.bind (((begin_tri hc hw hv).and (begin_even (N := N) (K := K) L)).mono (fun _ _ g => g) (fun _ _ _ => trivial)) ?_
    rintro b s1 ⟨⟨w1, f1, o1⟩, v1⟩
    exact cont (v1.fit h) w1 f1 o1 (Or.inl (hs.frame f1))

end Verif.Str.Caps
