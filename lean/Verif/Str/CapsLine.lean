import Verif.Str.CapsOps

/-!
How large the capacities of strings get: `getline`, which makes the string as long as its capacity before it reads.
-/

namespace Verif.Str.Caps

open M

variable {β γ : Type} {cfg : Cfg} {N K : Nat} {s s' : St} {v u : Obj}

theorem streamGetline_even (is : IStream) (p : Ptr) (n : Nat) (d : Ch) : Evenly N K (streamGetline is p n d) := by
  have quiet : ∀ (is : IStream) (e f : Bool), Evenly N K (is.setstate e f) := by
    intro is e f
    unfold IStream.setstate
    dsimp only
    evened
  have fin : ∀ (is : IStream) (d : Ch) (k : Nat) (l : List Ch), Evenly N K (lineEnd is d k l) := by
    intro is d k l
    unfold lineEnd
    split
    · exact (quiet _ _ _).bind fun _ => Evenly.pure _
    · split
      · exact Evenly.pure _
      · exact (quiet _ _ _).bind fun _ => Evenly.pure _
  unfold streamGetline
  split
  · exact (writeCells_even _ _).bind fun _ => (writeCells_even _ _).bind fun _ => fin _ _ _ _
  · exact (writeCells_even _ _).bind fun _ => (quiet _ _ _).bind fun _ => Evenly.pure _

/-- A string that has its block to itself keeps its capacity when it gets shorter. -/
theorem shrink_thin (h : Thin K (s.vars v)) (hx : Excl s v) {delta : Nat} : Ends (shrink cfg v delta) s fun _ s' => Thin K (s'.vars v) := by
  have core : ∀ {c : Core} {s : St}, ThinC K c → Ends (setCore v c) s fun _ s' => Thin K (s'.vars v) := by
    intro c s hc
    refine (setCore_ends _).imp ?_
    rintro _ s1 ⟨ob, _, rfl⟩
    simp only [upd_same]
    exact (thin_some _ _).2 hc
  have late : ∀ {x : M Unit} {s : St}, Thin K (s.vars v) → Evenly 0 K x → Ends x s fun _ s' => Thin K (s'.vars v) :=
    fun h hx => hx.ends.imp fun _ _ v1 => (v1 v).1 h
  unfold shrink
  refine Ends.obj fun ob hv => ?_
  obtain ⟨c, al⟩ := ob
  rw [hv] at h
  split
  · unfold shrinkSmall setSmallSize
    refine Ends.look (size_still v) fun _ _ => Ends.look (assert_still _ _) fun _ _ => Ends.look (assert_still _ _) fun _ _ => Ends.obj fun ob _ => ?_
    dsimp only
    split
    · exact core trivial
    · exact Ends.ub _
  · next d m cap hcore =>
    simp only at hcore
    subst hcore
    unfold shrinkMedium
    exact Ends.look (assert_still _ _) fun _ _ => Tri.bind (core (c := .ml d _ cap false) h) fun _ s1 h1 => late h1 (writeCells_even _ _)
  · next d m cap hcore =>
    simp only at hcore
    subst hcore
    obtain ⟨B, hB, hrc⟩ := hx d m cap al hv
    refine Ends.look (refs_still _) fun r hr => ?_
    have hr1 : r = 1 := by
      obtain ⟨rc, src, cells⟩ := B
      simp only at hrc
      subst hrc
      simp only [refs, hB] at hr
      cases hr
      rfl
    subst hr1
    simp only [if_true]
    unfold shrinkMedium
    exact Ends.look (assert_still _ _) fun _ _ => Tri.bind (core (c := .ml d _ cap true) h) fun _ s1 h1 => late h1 (writeCells_even _ _)

theorem resize_thin (h : Thin K (s.vars v)) (hx : Excl s v) {n k : Nat} {c : Ch} (hk : size cfg v s = (.ok k, s)) (hn : n ≤ k) :
    Ends (resize cfg v n c) s fun _ s' => Thin K (s'.vars v) := by
  unfold resize
  refine Ends.checker (Tri.step hk ?_)
  rw [if_pos hn]
  exact shrink_thin h hx

/-- What the capacity says of a string that has its block to itself. -/
theorem thin_cap (hx : Excl s v) {c : Nat} (hc : capacity cfg v s = (.ok c, s)) (hK : c ≤ K) : Thin K (s.vars v) := by
  cases hv : s.vars v with
  | none => trivial
  | some ob =>
    obtain ⟨core, al⟩ := ob
    cases core with
    | small cells => trivial
    | ml d m cap large =>
      unfold capacity at hc
      rw [bind_ok (getOb_ok hv)] at hc
      cases large with
      | false => cases hc; exact hK
      | true =>
        obtain ⟨⟨rc, src, cells⟩, hB, hrc⟩ := hx d m cap al hv
        simp only at hrc
        subst hrc
        simp only at hc
        rw [bind_ok (b := 1) (s' := s) (by simp only [refs, hB])] at hc
        simp only [Nat.lt_irrefl, gt_iff_lt, if_false] at hc
        cases hc
        exact hK

theorem fit_cap (L : Lim cfg N K) (h : Fit N K s) {c : Nat} (hc : capacity cfg v s = (.ok c, s')) : c ≤ K := by
  have : Ends (capacity cfg v) s fun c _ => c ≤ K := by
    unfold capacity
    refine Ends.obj fun ob hv => ?_
    have ho := h v
    rw [hv] at ho
    obtain ⟨core, al⟩ := ob
    cases core with
    | small cells => exact Tri.ret (by have := L.two; omega)
    | ml d k cap large =>
      cases large with
      | false => exact Tri.ret (Q := fun c _ => c ≤ K) ho.1
      | true =>
        refine Ends.look (refs_still _) fun r _ => ?_
        split
        · exact Tri.ret (Q := fun c _ => c ≤ K) (Nat.le_trans ho.2 L.le)
        · exact Tri.ret (Q := fun c _ => c ≤ K) ho.1
  unfold Ends Tri at this
  rw [hc] at this
  exact this

/-- The string is cut to the characters read: either it was not too long before, or it has its block to itself. -/
theorem cut_fit (L : Lim cfg N K) (h : Fit N K s) {s3 : St} (w3 : WInv cfg s3) (f3 : Frame (· = v) s s3) {cs : List Cell} {n c : Nat}
    (hn : n ≤ cs.length) (hN : n ≤ N) (hcap : capacity cfg v s3 = (.ok c, s3)) (hK : c ≤ K)
    (hd : Fit N K s3 ∨ ∃ p, Own cfg s3 v p cs) : Ends (resize cfg v n 0) s3 fun _ s' => Fit N K s' := by
  rcases hd with g3 | ⟨p, o3⟩
  · exact resize_fit L g3 hN
  · obtain ⟨s4, g1, g2, g3, g4⟩ := resize_own L.ok w3 o3 (n := n) (c := 0) hn
    have hx : Excl s3 v := by obtain ⟨ob, l, k, _, hx, _⟩ := o3; exact hx
    have ht := resize_thin (n := n) (c := 0) (thin_cap hx hcap hK) hx (o3.raw.sizeM w3) hn
    unfold Ends Tri at ht
    rw [g1] at ht
    refine Tri.of_ok g1 fun o => ?_
    by_cases ho : o = v
    · subst ho
      exact ⟨ht, Raw.low (Nat.le_of_lt L.ms) g2 g4.raw (by rw [List.length_take]; omega)⟩
    · rw [((f3.trans g3) o ho).1]
      exact h o

/-- The loop of `getline`. -/
theorem getlineLoop_fit (L : Lim cfg N K) (h63 : 63 ≤ K) (delim : Ch) (tb sk : Bool) (w : Nat) : ∀ (fuel : Nat) (inp xs : List Ch) (s : St),
    WInv cfg s → Free s → Raw cfg s v (xs.map some) → Fit N K s → xs.length + (lineOf delim inp).length ≤ N →
    Ends (getlineLoop cfg v delim fuel ⟨inp, false, false, false, false, false, tb, w, sk⟩ xs.length) s fun _ s' => Fit N K s'
  | 0, inp, xs, s, _, _, _, _, _ => Ends.ub _
  | fuel + 1, inp, xs, s, hw, hf, hv, h, hl => by
    have hc := L.ok
    obtain ⟨c, hcap, hle⟩ := hv.capM hw
    have hlt := hv.cap_short hc hw hcap
    rw [List.length_map] at hle
    have hsub : sub64 c xs.length = c - xs.length := sub64_of_le hle (by omega)
    have hK := fit_cap L h hcap
    unfold getlineLoop
    refine Tri.step hcap ?_
    simp only [hsub]
    have hexp := expand_tri hc hw hf hv (delta := c - xs.length) false (by rw [List.length_map]; omega)
    have hcapk : Tri (expandNoinit cfg v (c - xs.length) false) s (fun _ s' => capacity cfg v s' = (.ok c, s')) (fun _ _ => True) := by
      obtain ⟨ob, l, k, h, e⟩ := hv
      have hk : xs.length = k := by
        have := congrArg List.length e
        rw [Raw.length_take hw h, List.length_map] at this
        exact this
      rw [hk]
      exact expand_full hc hw h hcap (by omega) (by omega)
    refine Tri.bind (((hexp.and hcapk).and (expand_fit L h (c - xs.length) false)).mono (fun _ _ h => h) (fun _ _ _ => trivial)) ?_
    rintro r s1 ⟨⟨⟨w1, f1, p, cs1, r1, hp, hl1, ht, rfl, ho⟩, hc1⟩, g1⟩
    rw [List.length_map] at hl1 ht
    have g1' : c ≤ N → Fit N K s1 := by
      intro hcN
      refine g1 (Or.inl fun k hk => ?_)
      rw [hv.sizeM hw] at hk
      cases hk
      rw [List.length_map]
      have := add64_le xs.length (c - xs.length)
      omega
    have hT := lineLoop_eq delim (c - xs.length) inp
    have hstore := store_line w1 (cs := xs.map some) (ys := ((lineOf delim inp).take (c - xs.length)).map some) r1 hp
      (by rw [List.length_map]; exact ht) (by simp only [List.length_map, List.length_take]; omega)
      (fun h => ho (by rw [List.length_map] at h; omega)) hc1
    obtain ⟨s2, cs2, e1, s3, e2, w3, f3, r3, hl3, ht3, ho3, hc3⟩ := hstore
    simp only [List.length_map] at e1 e2 ht3 ho3
    have hsg : streamGetline ⟨inp, false, false, false, false, false, tb, w, sk⟩ (p.add xs.length) (c - xs.length) delim s1 =
        lineEnd ⟨inp, false, false, false, false, false, tb, w, sk⟩ delim ((lineOf delim inp).take (c - xs.length)).length
          (inp.drop ((lineOf delim inp).take (c - xs.length)).length) s3 := by
      rw [streamGetline_good rfl]
      simp only [hT]
      rw [bind_ok e1, bind_ok (by rw [Ptr.add_add]; exact e2)]
    have v3 : Even N K s1 s3 := by
      have k1 := (writeCells_even (N := N) (K := K) (p.add xs.length) (((lineOf delim inp).take (c - xs.length)).map some)).keeps s1
      rw [e1] at k1
      have k2 := (writeCells_even (N := N) (K := K) (p.add (xs.length + ((lineOf delim inp).take (c - xs.length)).length)) [some 0]).keeps s2
      rw [e2] at k2
      exact k1.trans k2
    have hf3 : Free s3 := hf.frame hv (f1.trans f3)
    have hsplit : inp = lineOf delim inp ++ inp.dropWhile (· != delim) := (List.takeWhile_append_dropWhile).symm
    have hd3 : Fit N K s3 ∨ ∃ p, Own cfg s3 v p cs2 := by
      by_cases hcN : c ≤ N
      · exact Or.inl (v3.fit (g1' hcN))
      · exact Or.inr ⟨_, ho3 (by omega)⟩
    rw [List.length_map]
    by_cases hle2 : (lineOf delim inp).length ≤ c - xs.length
    · have fin : ∀ is' : IStream, Ends (do resize cfg v (xs.length + (lineOf delim inp).length) 0; pure is') s3 fun _ s' => Fit N K s' :=
        fun is' => Tri.bind (cut_fit L h w3 (f1.trans f3) (by omega) hl hc3 hK hd3) fun _ _ g => Tri.ret g
      rw [List.take_of_length_le hle2] at hsg
      have hdrop : inp.drop (lineOf delim inp).length = inp.dropWhile (· != delim) := takeWhile_rest _ _
      rw [hdrop] at hsg
      cases hD : inp.dropWhile (· != delim) with
      | nil =>
        rw [hD, lineEnd_nil] at hsg
        refine Tri.step hsg ?_
        have hadd : add64 xs.length (lineOf delim inp).length = xs.length + (lineOf delim inp).length := add64_of_lt (by omega)
        simp only [hadd, Bool.true_or, Bool.or_true, if_true, Bool.not_true, Bool.and_false, Bool.false_eq_true, if_false]
        exact fin _
      | cons a t =>
        have ha : a = delim := by
          have := List.head?_dropWhile_not (p := (· != delim)) (l := inp)
          rw [hD] at this
          simpa using this
        subst ha
        rw [hD] at hsg
        have hle3 : lineEnd ⟨inp, false, false, false, false, false, tb, w, sk⟩ a (lineOf a inp).length (a :: t) s3 =
            (.ok (⟨t, false, false, false, false, false, tb, w, sk⟩, (lineOf a inp).length + 1), s3) := by
          rw [lineEnd_delim]; rfl
        rw [hle3] at hsg
        refine Tri.step hsg ?_
        have hadd : add64 xs.length ((lineOf a inp).length + 1) = xs.length + (lineOf a inp).length + 1 := by
          rw [add64_of_lt (by omega)]; omega
        have hsub1 : sub64 (xs.length + (lineOf a inp).length + 1) 1 = xs.length + (lineOf a inp).length := by
          rw [sub64_of_le (by omega) (by omega)]; omega
        simp only [hadd, hsub1, Bool.or_self, Bool.not_false, Bool.or_true, if_true, Bool.and_self]
        exact fin _
    · -- the line is longer than the room
      have hlen : ((lineOf delim inp).take (c - xs.length)).length = c - xs.length := by rw [List.length_take]; omega
      rw [hlen] at hsg e2 ht3
      have hdl : (lineOf delim inp).drop (c - xs.length) ≠ [] := by
        intro h
        have := List.drop_eq_nil_iff.1 h
        omega
      have hinp' : inp.drop (c - xs.length) = (lineOf delim inp).drop (c - xs.length) ++ inp.dropWhile (· != delim) := by
        conv => lhs; rw [hsplit]
        rw [List.drop_append_of_le_length (by omega)]
      have hall : ∀ x ∈ (lineOf delim inp).drop (c - xs.length), (x != delim) = true := by
        intro x hx
        have := List.mem_of_mem_drop hx
        exact takeWhile_holds (· != delim) inp x this
      have hline' : lineOf delim (inp.drop (c - xs.length)) = (lineOf delim inp).drop (c - xs.length) := by
        rw [hinp', lineOf, List.takeWhile_append_of_pos hall, (dropWhile_stop _ _).1, List.append_nil]
      cases hR : inp.drop (c - xs.length) with
      | nil =>
        rw [hinp'] at hR
        exact absurd (List.append_eq_nil_iff.1 hR).1 hdl
      | cons a t =>
        have ha : a ≠ delim := by
          cases hdd : (lineOf delim inp).drop (c - xs.length) with
          | nil => exact absurd hdd hdl
          | cons b u =>
            rw [hinp', hdd] at hR
            simp only [List.cons_append, List.cons.injEq] at hR
            have := hall b (by rw [hdd]; simp)
            rw [← hR.1]
            simpa using this
        rw [hR] at hsg
        have hle3 : lineEnd ⟨inp, false, false, false, false, false, tb, w, sk⟩ delim (c - xs.length) (a :: t) s3 =
            (.ok (⟨a :: t, false, true, false, false, false, tb, w, sk⟩, c - xs.length), s3) :=
          lineEnd_more _ _ _ _ _ _ ha _ _
        rw [hle3] at hsg
        refine Tri.step hsg ?_
        have hadd : add64 xs.length (c - xs.length) = c := by rw [add64_of_lt (by omega)]; omega
        have hmul : mul64 3 c = 3 * c := mul64_of_lt (by omega)
        have hcs2 : cs2 = (xs ++ (lineOf delim inp).take (c - xs.length)).map some := by
          rw [List.map_append, ← ht3, List.take_of_length_le (by omega)]
        have hcl : cs2.length = c := by omega
        simp only [hadd, hmul, Bool.or_self, Bool.not_true, Bool.false_eq_true, if_false]
        refine Tri.step (r3.sizeM w3) (Tri.step (assert_ok (by simp [hcl]) _) (Tri.step hc3 (Tri.step (assert_ok (by simp) _) ?_)))
        have g3 : Fit N K s3 := v3.fit (g1' (by omega))
        have hres := reserve_tri hc w3 hf3 r3 (n := max 63 (3 * c / 2))
        have hR' : max 63 (3 * c / 2) ≤ K := by have := L.half; omega
        rw [hcs2] at hres r3
        refine Tri.bind (((hres).and (reserve_fit L g3 hR')).mono (fun _ _ h => h) (fun _ _ _ => trivial)) ?_
        rintro _ s4 ⟨⟨w4, f4, r4⟩, g4⟩
        have hxl : (xs ++ (lineOf delim inp).take (c - xs.length)).length = c := by
          rw [List.length_append, hlen]; omega
        have hclear : IStream.clear ⟨a :: t, false, true, false, false, false, tb, w, sk⟩ =
            ⟨a :: t, false, false, false, false, false, tb, w, sk⟩ := rfl
        rw [hclear]
        have ih := getlineLoop_fit L h63 delim tb sk w fuel (a :: t) (xs ++ (lineOf delim inp).take (c - xs.length)) s4 w4
          (hf3.frame r3 f4) r4 g4 (by
            rw [← hR, hline', hxl, List.length_drop]
            omega)
        rw [hxl] at ih
        exact ih

/-- `getline`. -/
theorem getline_fit (L : Lim cfg N K) (h63 : 63 ≤ K) (h : Fit N K s) (hw : WInv cfg s) (hf : Free s) {cs : List Cell} (hv : Raw cfg s v cs)
    {is : IStream} (hg : is.good = true) (ht : is.throwEof = false ∧ is.throwFail = false) (delim : Ch) (hl : (lineOf delim is.inp).length ≤ N) :
    Ends (getline cfg v is delim) s fun _ s' => Fit N K s' := by
  unfold getline clear
  refine Ends.checker (Tri.bind (((resize_tri L.ok hw hf hv (n := 0) (c := 0) (by decide)).and (resize_fit L h (Nat.zero_le _))).mono (fun _ _ h => h)
    (fun _ _ _ => trivial)) ?_)
  rintro _ s1 ⟨⟨w1, f1, r1⟩, g1⟩
  obtain ⟨inp, e1, e2, e3, t1, t2, t3, w, sk⟩ := is
  simp only [IStream.good, Bool.and_eq_true, Bool.not_eq_true'] at hg ht
  obtain ⟨⟨rfl, rfl⟩, rfl⟩ := hg
  obtain ⟨rfl, rfl⟩ := ht
  exact getlineLoop_fit L h63 delim t3 sk w (inp.length + 3) inp [] s1 w1 (hf.frame hv f1) (by simpa using r1) g1 (by simpa using hl)

/-- `getline` on a stream at the end. -/
theorem getline_dead_fit (L : Lim cfg N K) (h : Fit N K s) (hw : WInv cfg s) (hf : Free s) {cs : List Cell} (hv : Raw cfg s v cs)
    {is : IStream} (hg : (is.bad || is.eof) = true) (ht : is.throwEof = false ∧ is.throwFail = false ∧ (is.bad && is.throwBad) = false) (delim : Ch) :
    Ends (getline cfg v is delim) s fun _ s' => Fit N K s' := by
  have hc := L.ok
  unfold getline clear
  refine Ends.checker (Tri.bind (((resize_tri hc hw hf hv (n := 0) (c := 0) (by decide)).and (resize_fit L h (Nat.zero_le _))).mono (fun _ _ h => h)
    (fun _ _ _ => trivial)) ?_)
  rintro _ s1 ⟨⟨w1, f1, r1⟩, g1⟩
  simp only [List.take_zero, Nat.zero_sub, List.replicate_zero, List.append_nil] at r1
  have hf1 := hf.frame hv f1
  obtain ⟨c, hcap, _⟩ := r1.capM w1
  have hlt := r1.cap_short hc w1 hcap
  have hK := fit_cap L g1 hcap
  have hsub : sub64 c 0 = c := by rw [sub64_of_le (by omega) (by omega)]; rfl
  unfold getlineLoop
  refine Tri.step hcap ?_
  simp only [hsub]
  have hcapk : Tri (expandNoinit cfg v c false) s1 (fun _ s' => capacity cfg v s' = (.ok c, s')) (fun _ _ => True) := by
    obtain ⟨ob, l, k, h, e⟩ := r1
    have hk : k = 0 := by
      have := congrArg List.length e
      rw [Raw.length_take w1 h] at this
      exact this.symm
    subst hk
    simpa using expand_full hc w1 h hcap (by omega) (by omega)
  refine Tri.bind ((((expand_tri hc w1 hf1 r1 (delta := c) false (by simp; omega)).and hcapk).and (expand_fit L g1 c false)).mono (fun _ _ h => h)
    (fun _ _ _ => trivial)) ?_
  rintro r s2 ⟨⟨⟨w2, f2, p, cs1, r2, hp, hl, ht2, rfl, ho⟩, hc2⟩, g2⟩
  simp only [List.length_nil, Nat.zero_add] at hl
  obtain ⟨s3, cs2, e1, s4, e2, w4, f4, r4, hl4, _, ho4, hc4⟩ := store_line w2 (cs := []) (ys := []) r2 hp (by simp) (by simp)
    (fun h => ho (by rw [hl] at h; exact h)) hc2
  simp only [List.length_nil, Nat.add_zero, Ptr.add_zero] at e1 e2 ho4 ⊢
  have hs3 : s3 = s2 := write_none e1
  subst hs3
  have hsg : streamGetline is p c delim s3 = (.ok ({ is with fail := true }, 0), s4) := by
    unfold streamGetline
    have hng : is.good = false := by
      unfold IStream.good
      cases hb : is.bad <;> cases he : is.eof <;> simp_all
    rw [if_neg (by simp [hng]), bind_ok e2]
    have : is.setstate false true s4 = (.ok { is with fail := true }, s4) := by
      unfold IStream.setstate
      simp only [ht.1, ht.2.1, ht.2.2, Bool.and_false, Bool.or_self, Bool.false_eq_true, if_false, Bool.or_false, Bool.or_true]
      rfl
    rw [bind_ok this]; rfl
  have v4 : Even N K s3 s4 := by
    have k1 := (streamGetline_even (N := N) (K := K) is p c delim).keeps s3
    rw [hsg] at k1
    exact k1
  refine Tri.step hsg ?_
  have hadd : add64 0 0 = 0 := rfl
  have hif : (if !is.bad && !is.eof then sub64 0 1 else 0) = 0 := by
    cases hb : is.bad <;> cases he : is.eof <;> simp_all
  simp only [hadd, hg, Bool.true_or, if_true, hif]
  have hd4 : Fit N K s4 ∨ ∃ p, Own cfg s4 v p cs2 := by
    by_cases hcN : c ≤ N
    · refine Or.inl (v4.fit (g2 (Or.inl fun k hk => ?_)))
      rw [r1.sizeM w1] at hk
      cases hk
      exact Nat.le_trans (add64_le _ _) (by simpa using hcN)
    · exact Or.inr ⟨_, ho4 (by omega)⟩
  exact Tri.bind (cut_fit L g1 w4 (f2.trans f4) (Nat.zero_le _) (Nat.zero_le _) hc4 hK hd4) fun _ _ g => Tri.ret g

end Verif.Str.Caps
