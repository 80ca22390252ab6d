import Verif.Str.Edit

/-!
What `replace` does to the characters of a string.
-/

namespace Verif.Str

open M

variable {β γ : Type} {cfg : Cfg} {s s' : St} {v u t : Obj}

/-! ### Lists -/

theorem Full.put {cs ys : List Cell} {i : Nat} (h1 : Full cs) (h2 : Full ys) : Full (put cs i ys) := by
  obtain ⟨xs, rfl⟩ := h1
  obtain ⟨zs, rfl⟩ := h2
  refine ⟨xs.take i ++ zs ++ xs.drop (i + zs.length), ?_⟩
  unfold Str.put
  simp

theorem Full.take {cs : List Cell} {n : Nat} (h : Full cs) : Full (cs.take n) := by
  obtain ⟨xs, rfl⟩ := h
  exact ⟨xs.take n, by simp⟩

theorem full_replicate {n : Nat} {c : Ch} : Full (List.replicate n (some c)) := ⟨List.replicate n c, by simp⟩

/-- Overwriting the front of the part replaced, then removing the rest of it. -/
theorem replace_less {cs ys : List Cell} {pos n1 : Nat} (h1 : pos + n1 ≤ cs.length) (h2 : ys.length ≤ n1) :
    (put cs pos ys).take (pos + ys.length) ++ (put cs pos ys).drop (pos + ys.length + (n1 - ys.length)) =
      cs.take pos ++ ys ++ cs.drop (pos + n1) := by
  unfold put
  have hl : (cs.take pos ++ ys).length = pos + ys.length := by simp; omega
  rw [List.take_append_of_le_length (by omega), List.take_of_length_le (by omega), List.drop_append, hl,
    List.drop_of_length_le (by omega), List.nil_append, List.drop_drop]
  congr 2; omega

/-- Overwriting the part replaced, then inserting the rest. -/
theorem replace_more {cs ys zs : List Cell} {pos : Nat} (h1 : pos + ys.length ≤ cs.length) :
    (put cs pos ys).take (pos + ys.length) ++ zs ++ (put cs pos ys).drop (pos + ys.length) =
      cs.take pos ++ (ys ++ zs) ++ cs.drop (pos + ys.length) := by
  have := replace_less (ys := ys) (n1 := ys.length) h1 (Nat.le_refl _)
  unfold put at *
  have hl : (cs.take pos ++ ys).length = pos + ys.length := by simp; omega
  rw [List.take_append_of_le_length (by omega), List.take_of_length_le (by omega), List.drop_append, hl,
    List.drop_of_length_le (by omega), List.nil_append, List.drop_drop]
  simp

/-! ### Sources -/

/-- A part of a string as a source for another one. -/
theorem Raw.srcPart {cs : List Cell} {q : Ptr} (hw : WInv cfg s) (hu : Raw cfg s u cs) (hq : dataPtr u s = (.ok q, s)) (huv : u ≠ v)
    {i k : Nat} (hk : i + k ≤ cs.length) : SrcOk cfg s v (q.add i) ((cs.drop i).take k) := by
  obtain ⟨ob, l, n, h, rfl⟩ := hu
  rw [h.dataM] at hq; cases hq
  have hl := Raw.length_take hw h
  rw [hl] at hk
  have hlen : (((l.take n).drop i).take k).length = k := by
    rw [List.length_take, List.length_drop, hl]; omega
  refine Or.inr ⟨u, ob, l, n, i, huv, h, rfl, by omega, ?_⟩
  rw [hlen, List.drop_take, List.take_take, Nat.min_eq_left (by omega)]

/-- A part of the string itself, for another one. -/
theorem OwnSrc.to {p : Ptr} {ys : List Cell} (h : OwnSrc cfg s u p ys) (huv : u ≠ v) : SrcOk cfg s v p ys := by
  obtain ⟨ob, l, n, i, h1, h2, h3, h4⟩ := h
  exact Or.inr ⟨u, ob, l, n, i, huv, h1, h2, h3, h4⟩

/-- The characters of a shared string on the heap belong to another string too. -/
theorem OwnSrc.shared (hw : WInv cfg s) (har : cfg.arena = false) {p : Ptr} {ys : List Cell} (h : OwnSrc cfg s v p ys)
    (hx : ¬ Excl s v) : SrcOk cfg s v p ys := by
  obtain ⟨ob, l, n, i, h1, rfl, h3, h4⟩ := h
  obtain ⟨core, al⟩ := ob
  cases core with
  | small c => exact absurd (excl_small h1.var) hx
  | ml d m cap large =>
    cases large with
    | false => exact absurd (excl_medium h1.var) hx
    | true =>
      obtain ⟨r, src, B, hB, hr⟩ := hw.large h1.var
      have hr1 : r ≠ 1 := fun e => hx ((excl_iff h1.var hB).2 e)
      obtain ⟨L, g1, g2, g3⟩ := hw.own d _ hB
      have hlen : L.length = r := (g3.2.2 har).symm
      have hvL := (g2 v).2 (blkOf_ml h1.var)
      obtain ⟨u, huL, huv⟩ : ∃ u, u ∈ L ∧ u ≠ v := by
        by_contra hno
        have hall : ∀ u ∈ L, u = v := fun u hu => by
          by_contra hne
          exact hno ⟨u, hu, hne⟩
        match L, g1, hall, hlen with
        | [], _, _, hlen => simp at hlen; omega
        | [a], _, _, hlen => simp at hlen; omega
        | a :: b :: t, g1, hall, _ =>
          have e1 := hall a (by simp)
          have e2 := hall b (by simp)
          rw [e1, e2] at g1
          simp at g1
      have hub := (g2 u).1 huL
      unfold blkOf at hub
      cases hu : s.vars u with
      | none => rw [hu] at hub; simp at hub
      | some obu =>
        rw [hu] at hub
        have hbu : obu.core.blk? = some d := by simpa using hub
        obtain ⟨lu, nu, gu, _⟩ := hw.view hu
        have hag := hw.agree u v _ _ d hu h1.var hbu rfl
        rw [gu.size, h1.size] at hag
        have hnu : nu = n := Option.some.inj hag
        obtain ⟨cu, au⟩ := obu
        cases cu with
        | small c => simp [Core.blk?] at hbu
        | ml d' m' cap' large' =>
          have : d' = d := by simpa [Core.blk?] using hbu
          subst this
          have hlu : lu = l := by
            have a1 := gu.cells
            have a2 := h1.cells
            simp only [cellsOf] at a1 a2
            rw [a1] at a2
            exact Option.some.inj a2
          rw [hnu, hlu] at gu
          exact Or.inr ⟨u, _, l, n, i, huv, gu, rfl, h3, h4⟩

/-! ### replace -/

theorem Done.of {cs : List Cell} {s1 : St} (hf : Frame (· = v) s s1) (h : Done cfg v cs s1 s') : Done cfg v cs s s' :=
  ⟨h.inv, hf.trans h.frame, h.raw⟩

theorem Free.frameT (h : Free s) {n : Nat} (hf : Frame (· = .tmp (n + 2)) s s') : Free s' :=
  ⟨hf.none (by simp) h.1, hf.none (by simp) h.2⟩

/-- The copy in `replaceAliased`, into the temporary `t` just made. -/
theorem replaceCopy_tri (hc : cfg.Ok) (hw : WInv cfg s) (hf : Free s) {cs ys : List Cell} {b p : Ptr} (hv : Raw cfg s v cs) (hb : dataPtr v s = (.ok b, s))
    (ht : Raw cfg s (.tmp 2) []) (hvt : v ≠ .tmp 2) {pos n1 : Nat} (hp : pos + n1 ≤ cs.length) (hsrc : OwnSrc cfg s v p ys)
    (hn : cs.length - n1 + ys.length < M64) :
    Tri (replaceCopy cfg v (.tmp 2) b cs.length pos n1 p ys.length) s
      (fun _ s' => WInv cfg s' ∧ Frame (fun o => o = .tmp 2 ∨ o = v) s s' ∧ (∃ zs, Raw cfg s' (.tmp 2) zs) ∧
        Raw cfg s' v (cs.take pos ++ ys ++ cs.drop (pos + n1)))
      (Err cfg (· = .tmp 2) (fun s' => ∃ zs, Raw cfg s' (.tmp 2) zs) s) := by
  have weak : ∀ {s1 : St} {zs : List Cell} {β : Type} {x : M β} {Q : β → St → Prop}, Frame (· = .tmp 2) s s1 →
      Tri x s1 Q (ErrS cfg (.tmp 2) zs s1) → Tri x s1 Q (Err cfg (· = .tmp 2) (fun s' => ∃ zs, Raw cfg s' (.tmp 2) zs) s) := by
    intro s1 zs β x Q f1 h
    exact (Tri.later f1 h).mono (fun _ _ h => h) (fun _ _ h => h.mono (fun _ h => h) (fun _ _ h => ⟨_, h⟩))
  unfold replaceCopy
  refine Tri.bind (weak (Frame.refl _ _) (reserve_tri hc hw hf ht)) ?_
  intro _ s1 d1
  have src1 : SrcOk cfg s (.tmp 2) b (cs.take pos) := by
    have := hv.srcPart hw hb hvt (i := 0) (k := pos) (by omega)
    simpa using this
  have l1 : (cs.take pos).length = pos := by simp; omega
  have a1 := appendRange_tri hc d1.inv (hf.frameT d1.frame) d1.raw (src1.frame d1.frame) (by simp; omega)
  rw [l1] at a1
  refine Tri.bind (weak d1.frame a1) ?_
  intro _ s2 d2
  have f2 := d1.frame.trans d2.frame
  have a2 := appendRange_tri hc d2.inv (hf.frameT f2) d2.done.raw ((hsrc.to hvt).frame f2) (by simp; omega)
  refine Tri.bind (weak f2 a2) ?_
  intro _ s3 d3
  have f3 := f2.trans d3.frame
  have src3 := hv.srcPart hw hb hvt (i := pos + n1) (k := cs.length - (pos + n1)) (by omega)
  have l3 : ((cs.drop (pos + n1)).take (cs.length - (pos + n1))).length = cs.length - (pos + n1) := by simp
  have a3 := appendRange_tri hc d3.inv (hf.frameT f3) d3.done.raw (src3.frame f3) (by simp; omega)
  rw [l3] at a3
  refine Tri.bind (weak f3 a3) ?_
  intro _ s4 d4
  have f4 := f3.trans d4.frame
  obtain ⟨obt, lt, nt, gt, et⟩ := d4.done.raw
  obtain ⟨obv, lv, nv, gv, ev⟩ := f4.raw hvt hv
  obtain ⟨s5, e1, e2, e3, e4, e5, _⟩ := swap_holds d4.inv gv gt hvt
  refine Tri.of_ok e1 ⟨e2, (f4.mono (fun _ h => Or.inl h)).trans (e3.mono (fun _ h => h.symm)), ⟨_, _, _, _, e5, rfl⟩, _, _, _, e4, ?_⟩
  have e : (cs.drop (pos + n1)).take (cs.length - (pos + n1)) = cs.drop (pos + n1) := List.take_of_length_le (by simp)
  rw [e] at et
  rw [← et]; simp

/-- `replaceImpl` of an unshared string. -/
theorem replaceImpl_tri (hc : cfg.Ok) (hw : WInv cfg s) (hf : Free s) (h2 : s.vars (.tmp 2) = none) {cs ys : List Cell} {b p : Ptr}
    (hv : Own cfg s v b cs) (hcs : Full cs) (hys : Full ys) {pos n1 : Nat} (hp : pos + n1 ≤ cs.length)
    (hsrc : SrcOk cfg s v p ys ∨ OwnSrc cfg s v p ys ∧ cfg.arena = false) (hn : cs.length - n1 + ys.length < M64) :
    Tri (replaceImpl cfg v (b.add pos) pos n1 p ys.length) s
      (fun _ s' => Done cfg v (cs.take pos ++ ys ++ cs.drop (pos + n1)) s s') (ErrB cfg v s) := by
  unfold replaceImpl
  refine checker_tri hw hv.raw ?_ (fun _ _ h => h.check) basic_check
  refine Tri.step (begin_own hw hv) (Tri.step (hv.raw.sizeM hw) ?_)
  have h2v := hv.raw.ne_of_none h2
  split
  · next hin =>
    have hown : OwnSrc cfg s v p ys ∧ cfg.arena = false := by
      rcases hsrc with hsrc | hsrc
      · exfalso
        have := hsrc.apart hw hv 0
        rw [Ptr.add_zero] at this
        unfold Ptr.within at hin
        rw [this] at hin
        simp at hin
      · exact hsrc
    obtain ⟨s1, l1, e1, e2, e3, e4, e5, e6⟩ := ctorEmpty_ok hw (v := .tmp 2) (al := 0) h2 (by simp [hown.2])
    refine Tri.step e1 ?_
    obtain ⟨ob, l, n, g1, _, rfl, rfl⟩ := hv
    have hv0 : Raw cfg s v (l.take n) := ⟨ob, l, n, g1, rfl⟩
    have g1' := e3.holds (Ne.symm h2v) g1
    have hown1 : OwnSrc cfg s1 v p ys := by
      obtain ⟨ob', l', n', i, k1, k2⟩ := hown.1
      exact ⟨ob', l', n', i, e3.holds (Ne.symm h2v) k1, k2⟩
    have key := replaceCopy_tri hc e2 (hf.frameT e3) ⟨ob, l, n, g1', rfl⟩ g1'.dataM ⟨_, _, _, e4, by simp⟩ (Ne.symm h2v) hp hown1 hn
    refine Tri.mono (withTemp_tri (s := s) (X := (· = v)) (P := fun s' => Raw cfg s' v (l.take n)) (Y := (· = .tmp 2))
      (R := fun s' => ∃ zs, Raw cfg s' (.tmp 2) zs)
      (Q := fun _ s' => Done cfg v ((l.take n).take pos ++ ys ++ (l.take n).drop (pos + n1)) s s')
      (key.mono (fun _ _ h => h) (fun _ _ h => h.after e3)) ?_ ?_) (fun _ _ h => h) (fun _ _ h => ErrS.basic hcs h)
    · rintro _ s2 ⟨w2, f2, ⟨zs, obt, lt, nt, ht, _⟩, r2⟩
      obtain ⟨s3, k1, k2, k3, k4, _⟩ := destroy_ok w2 ht.var
      refine ⟨s3, k1, k2, ?_, k3.raw (Ne.symm h2v) r2⟩
      exact Frame.vanish (((e3.mono (fun _ h => Or.inl h)).trans f2).trans (k3.mono (fun _ h => Or.inl h))) h2 k4
    · rintro s2 w2 f2 ⟨zs, obt, lt, nt, ht, _⟩
      obtain ⟨s3, k1, k2, k3, k4, _, k6, k7⟩ := destroy_ok w2 ht.var
      have f3 := (f2.trans k3).vanish0 h2 k4
      exact ⟨s3, k1, fun h => k6.trans h, k2, f3.mono (fun _ h => h.elim), f3.raw (fun h => h) hv0⟩
  · next hin =>
    have hs : SrcOk cfg s v p ys := by
      rcases hsrc with hsrc | ⟨⟨ob, l, n, i, g1, rfl, g3, g4⟩, _⟩
      · exact hsrc
      · exfalso
        apply hin
        obtain ⟨ob', l', n', g1', _, rfl, rfl⟩ := hv
        obtain ⟨rfl, rfl, rfl⟩ := g1.unique g1'
        have hl := Raw.length_take hw g1
        unfold Ptr.within
        have := Ptr.same_add (ob.core.ptr v) (ob.core.ptr v) i 0
        rw [Ptr.add_zero] at this
        rw [this, hl]
        simp
        omega
    split
    · next hlt =>
      obtain ⟨s1, e1, _, e2, e3, e4⟩ := hv.copyFrom hw hs (j := pos) (by omega)
      have hl : (put cs pos ys).length = cs.length := put_length (by omega)
      obtain ⟨s2, g1, g2, g3, g4⟩ := eraseAt_own hc e2 e4 (pos := pos + ys.length) (n := n1 - ys.length) (by omega)
      rw [replace_less hp (by omega)] at g4
      rw [← Ptr.add_add] at g1
      exact Tri.step e1 (Tri.step g1 (Tri.of_ok (sane_ok g2 g4.raw) ⟨g2, e3.trans g3, g4.raw⟩))
    · next hge =>
      have ps := hs.part (i := 0) (k := n1) (by omega)
      simp only [List.drop_zero, Ptr.add_zero] at ps
      have pl : (ys.take n1).length = n1 := by simp; omega
      obtain ⟨s1, e1, _, e2, e3, e4⟩ := hv.copyFrom hw ps (j := pos) (by omega)
      rw [pl] at e1
      refine Tri.step e1 ?_
      have hl : (put cs pos (ys.take n1)).length = cs.length := put_length (by omega)
      have ps2 := hs.part (i := n1) (k := ys.length - n1) (by omega)
      have pl2 : ((ys.drop n1).take (ys.length - n1)).length = ys.length - n1 := by simp
      have pe2 : (ys.drop n1).take (ys.length - n1) = ys.drop n1 := List.take_of_length_le (by simp)
      have hins := insertRangeAt_tri hc e2 (hf.frame hv.raw e3) e4.raw e4.dataM (pos := pos + n1) (by omega) (ps2.frame e3) (by omega)
      rw [pl2, pe2, ← Ptr.add_add] at hins
      refine Tri.bind (Tri.later e3 (hins.basic (hcs.put hys.take))) ?_
      intro _ s2 d2
      have e : (put cs pos (ys.take n1)).take (pos + n1) ++ ys.drop n1 ++ (put cs pos (ys.take n1)).drop (pos + n1) =
          cs.take pos ++ ys ++ cs.drop (pos + n1) := by
        have := replace_more (cs := cs) (ys := ys.take n1) (zs := ys.drop n1) (pos := pos) (by omega)
        rw [pl, List.take_append_drop] at this
        exact this
      rw [e] at d2
      exact Tri.of_ok (sane_ok d2.inv d2.done.raw) (Done.of e3 d2.done)

/-- `replace(pos, n1, s, n2)`. -/
theorem replace_tri (hc : cfg.Ok) (hw : WInv cfg s) (hf : Free s) (h2 : s.vars (.tmp 2) = none) {cs ys : List Cell} {p : Ptr}
    (hv : Raw cfg s v cs) (hcs : Full cs) (hys : Full ys) {pos n1 : Nat} (hp : pos ≤ cs.length)
    (hsrc : SrcOk cfg s v p ys ∨ OwnSrc cfg s v p ys ∧ cfg.arena = false)
    (hn : cs.length - min n1 (cs.length - pos) + ys.length < M64) :
    Tri (replace cfg v pos n1 p ys.length) s
      (fun _ s' => Done cfg v (cs.take pos ++ ys ++ cs.drop (pos + min n1 (cs.length - pos))) s s') (ErrB cfg v s) := by
  unfold replace
  refine checker_tri hw hv ?_ (fun _ _ h => h.check) basic_check
  refine Tri.step (hv.sizeM hw) (Tri.step (enforce_ok (by simpa using hp)) ?_)
  have cont : ∀ {b : Ptr} {s1 : St}, WInv cfg s1 → Frame (· = v) s s1 → Own cfg s1 v b cs →
      (SrcOk cfg s1 v p ys ∨ OwnSrc cfg s1 v p ys ∧ cfg.arena = false) →
      Tri (do
        replaceCheck cfg v (b.add pos) (min n1 (cs.length - pos))
        replaceImpl cfg v (b.add pos) pos (min n1 (cs.length - pos)) p ys.length) s1
        (fun _ s' => Done cfg v (cs.take pos ++ ys ++ cs.drop (pos + min n1 (cs.length - pos))) s s') (ErrB cfg v s) := by
    intro b s1 w1 f1 o1 hs1
    have hcheck : replaceCheck cfg v (b.add pos) (min n1 (cs.length - pos)) s1 = (.ok (), s1) := by
      unfold replaceCheck
      split
      · rw [bind_ok (begin_own w1 o1), bind_ok (o1.raw.sizeM w1)]
        refine assert_ok ?_ _
        have hs : (b.add pos).same b = true := by
          obtain ⟨ob, l, n, h, _, rfl, _⟩ := o1
          have := Ptr.same_add (ob.core.ptr v) (ob.core.ptr v) pos 0
          rw [Ptr.add_zero] at this
          rw [this]; simp
        rw [hs]
        simp
        omega
      · rfl
    refine Tri.step hcheck ?_
    exact (Tri.later f1 (replaceImpl_tri hc w1 (hf.frame hv f1) (f1.none (hv.ne_of_none h2) h2) o1 hcs hys (by omega) hs1 hn)).mono
      (fun _ _ h => Done.of f1 h) (fun _ _ h => h)
  by_cases hx : Excl s v
  · have hv0 := hv
    obtain ⟨ob, l, n, h, rfl⟩ := hv
    have own : Own cfg s v (ob.core.ptr v) (l.take n) := ⟨ob, l, n, h, hx, rfl, rfl⟩
    exact Tri.step (begin_own hw own) (cont hw (Frame.refl _ _) own hsrc)
  · have hs : SrcOk cfg s v p ys := by
      rcases hsrc with h | ⟨h, har⟩
      · exact h
      · exact h.shared hw har hx
    refine Tri.bind (((begin_tri hc hw hv).strong hv).basic hcs) ?_
    rintro b s1 ⟨w1, f1, o1⟩
    exact cont w1 f1 o1 (Or.inl (hs.frame f1))

/-- `replace(i1, i2, n2, c)` of an unshared string. -/
theorem replaceFillAt_tri (hc : cfg.Ok) (hw : WInv cfg s) (hf : Free s) {cs : List Cell} {b : Ptr}
    (hv : Own cfg s v b cs) (hcs : Full cs) {pos n1 n2 : Nat} {c : Ch} (hp : pos + n1 ≤ cs.length)
    (hn : cs.length - n1 + n2 < M64) :
    Tri (replaceFillAt cfg v (b.add pos) n1 n2 c) s
      (fun _ s' => Done cfg v (cs.take pos ++ List.replicate n2 (some c) ++ cs.drop (pos + n1)) s s') (ErrB cfg v s) := by
  unfold replaceFillAt
  split
  · next hlt =>
    obtain ⟨s1, e1, e2, e3, e4, _⟩ := hv.fill hw (i := pos) (k := n2) (c := c) (by omega)
    have hl : (put cs pos (List.replicate n2 (some c))).length = cs.length := put_length (by simp; omega)
    obtain ⟨s2, g1, g2, g3, g4⟩ := eraseAt_own hc e2 e4 (pos := pos + n2) (n := n1 - n2) (by omega)
    have := replace_less (ys := List.replicate n2 (some c)) hp (by simp; omega)
    simp only [List.length_replicate] at this
    rw [this] at g4
    rw [← Ptr.add_add] at g1
    exact Tri.step e1 (Tri.step g1 (Tri.of_ok (sane_ok g2 g4.raw) ⟨g2, e3.trans g3, g4.raw⟩))
  · next hge =>
    obtain ⟨s1, e1, e2, e3, e4, _⟩ := hv.fill hw (i := pos) (k := n1) (c := c) (by omega)
    refine Tri.step e1 ?_
    have hl : (put cs pos (List.replicate n1 (some c))).length = cs.length := put_length (by simp; omega)
    have hins := insertFillAt_tri hc e2 (hf.frame hv.raw e3) e4.raw e4.dataM (pos := pos + n1) (n := n2 - n1) (c := c) (by omega) (by omega)
    rw [← Ptr.add_add] at hins
    refine Tri.bind (Tri.later e3 (hins.basic (hcs.put full_replicate))) ?_
    intro _ s2 d2
    have e : (put cs pos (List.replicate n1 (some c))).take (pos + n1) ++ List.replicate (n2 - n1) (some c) ++
        (put cs pos (List.replicate n1 (some c))).drop (pos + n1) =
        cs.take pos ++ List.replicate n2 (some c) ++ cs.drop (pos + n1) := by
      have := replace_more (cs := cs) (ys := List.replicate n1 (some c)) (zs := List.replicate (n2 - n1) (some c)) (pos := pos) (by simpa using hp)
      simp only [List.length_replicate, List.replicate_append_replicate] at this
      rw [this, show n1 + (n2 - n1) = n2 by omega]
    rw [e] at d2
    exact Tri.of_ok (sane_ok d2.inv d2.done.raw) (Done.of e3 d2.done)

/-- `replace(pos, n1, n2, c)`. -/
theorem replaceFill_tri (hc : cfg.Ok) (hw : WInv cfg s) (hf : Free s) {cs : List Cell}
    (hv : Raw cfg s v cs) (hcs : Full cs) {pos n1 n2 : Nat} {c : Ch} (hp : pos ≤ cs.length)
    (hn : cs.length - min n1 (cs.length - pos) + n2 < M64) :
    Tri (replaceFill cfg v pos n1 n2 c) s
      (fun _ s' => Done cfg v (cs.take pos ++ List.replicate n2 (some c) ++ cs.drop (pos + min n1 (cs.length - pos))) s s')
      (ErrB cfg v s) := by
  unfold replaceFill
  refine checker_tri hw hv ?_ (fun _ _ h => h.check) basic_check
  refine Tri.step (hv.sizeM hw) (Tri.step (enforce_ok (by simpa using hp)) ?_)
  refine Tri.bind (((begin_tri hc hw hv).strong hv).basic hcs) ?_
  rintro b s1 ⟨w1, f1, o1⟩
  exact (Tri.later f1 (replaceFillAt_tri hc w1 (hf.frame hv f1) o1 hcs (by omega) hn)).mono
    (fun _ _ h => Done.of f1 h) (fun _ _ h => h)

/-- `assign(n, c)`. -/
theorem assignFill_tri (hc : cfg.Ok) (hw : WInv cfg s) (hf : Free s) {cs : List Cell}
    (hv : Raw cfg s v cs) (hcs : Full cs) {n : Nat} {c : Ch} (hn : n < M64) :
    Tri (assignFill cfg v n c) s (fun _ s' => Done cfg v (List.replicate n (some c)) s s') (ErrB cfg v s) := by
  unfold assignFill
  refine Tri.bind (((begin_tri hc hw hv).strong hv).basic hcs) ?_
  rintro b s1 ⟨w1, f1, o1⟩
  refine Tri.step (o1.raw.sizeM w1) ?_
  have := replaceFillAt_tri hc w1 (hf.frame hv f1) o1 hcs (pos := 0) (n1 := cs.length) (n2 := n) (c := c) (by omega) (by omega)
  rw [Ptr.add_zero] at this
  refine (Tri.later f1 this).mono (fun _ _ h => Done.of f1 ?_) (fun _ _ h => h)
  simpa using h

end Verif.Str
