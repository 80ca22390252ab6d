import Verif.Vector.ThrowProps

/-!
C137: `erase_if` and `erase(value)` when the predicate or the comparison throws.
-/

namespace Verif.Vector

open V

variable {α β : Type} {cfg : Cfg α} {w : World α} {i : Nat} {xs pre post : List α} {pred : α → Option Bool} {p : α → Bool} {y z : α}

/-! ### Model -/

/-- What a predicate says about an element, or that it throws (`none`). -/
def ask (pred : α → Option Bool) (x : α) : V α Bool := fun s =>
  match pred x with
  | some b => (.ok b, s)
  | none => (.error (.throw "predicate"), s)

/-- `erase_if(pred)`, container/stdb_vector.hpp:1087-1151, with a predicate that may throw, and `erase(value)`, lines 1019-1082, with
an `operator!=` that may: the loop is left by the exception, and `_finish` is not set. -/
def eraseIfThrowing (cfg : Cfg α) (pred : α → Option Bool) : V α Nat := do
  let v ← this
  let e ← eraseLoop cfg (ask pred) v.startPtr v.startPtr v.fin
  setThis { v with fin := v.fin - e }
  return e

/-- With a predicate that does not throw this is `erase_if`. -/
theorem eraseIfThrowing_never : eraseIfThrowing cfg (fun x => some (p x)) = eraseIf cfg p := rfl

/-! ### Specification -/

/-- The predicate looks at the elements from the front: it answers for those of `pre` as `p` does, and throws at `y`. -/
structure ThrowsFirst (pred : α → Option Bool) (p : α → Bool) (pre : List α) (y : α) : Prop where
  answers : ∀ x ∈ pre, pred x = some (p x)
  throws : pred y = none

/-! ### Lemmas -/

theorem ask_some {x : α} {b : Bool} (h : pred x = some b) (s : S α) : ask pred x s = (.ok b, s) := by
  unfold ask; rw [h]

theorem ask_none {x : α} (h : pred x = none) (s : S α) : ask pred x s = (.error (.throw "predicate"), s) := by
  unfold ask; rw [h]

theorem Cells.tail {B : Block α} {l : List α} {x : α} {src : Nat} (h : ∀ j, j < (x :: l).length → B.cell (src + j) = cellOf (x :: l) j) :
    B.cell src = .live x ∧ ∀ j, j < l.length → B.cell (src + 1 + j) = cellOf l j := by
  refine ⟨h 0 (by simp), fun j hj => ?_⟩
  have := h (j + 1) (by simpa using hj)
  rw [cellOf_cons_succ] at this
  rw [← this]; congr 1; omega

/-- As long as every element stays nothing is written. -/
theorem eraseLoop_stays {s : S α} {b : Nat} {B : Block α} (hb : s.mem.heap b = some B) (hy : pred y = none) (pre : List α) :
    ∀ src, (∀ x ∈ pre, pred x = some false) → src + (pre ++ y :: post).length ≤ B.len →
    (∀ j, j < (pre ++ y :: post).length → B.cell (src + j) = cellOf (pre ++ y :: post) j) →
    eraseLoop cfg (ask pred) ⟨some b, src⟩ ⟨some b, src⟩ (pre ++ y :: post).length s = (.error (.throw "predicate"), s) := by
  induction pre with
  | nil =>
    intro src _ hlen hc
    have := (Cells.tail hc).1
    simp only [List.nil_append, List.length_cons, eraseLoop] at hlen ⊢
    rw [bind_ok (load_ok hb (by omega) this), bind_err (ask_none hy s)]
  | cons x pre ih =>
    intro src hp hlen hc
    obtain ⟨h0, h1⟩ := Cells.tail hc
    simp only [List.cons_append, List.length_cons, eraseLoop] at hlen ⊢
    rw [bind_ok (load_ok hb (by omega) h0), bind_ok (ask_some (hp x List.mem_cons_self) s)]
    simp only [Bool.false_eq_true, if_false, keepElem]
    rw [if_pos trivial, bind_ok (pure_apply _ _)]
    exact ih (src + 1) (fun x hx => hp x (List.mem_cons_of_mem _ hx)) (by omega) h1

/-- With trivial elements the loop moves the elements that stay to the front. -/
theorem eraseLoop_triv {b : Nat} (hk : cfg.kind = .triv) (hy : pred y = none) (pre : List α) :
    ∀ (s : S α) (B : Block α) (dst src : Nat), s.mem.heap b = some B → (∀ x ∈ pre, pred x = some (p x)) → dst ≤ src →
    src + (pre ++ y :: post).length ≤ B.len →
    (∀ j, j < (pre ++ y :: post).length → B.cell (src + j) = cellOf (pre ++ y :: post) j) →
    ∃ B' c d m, eraseLoop cfg (ask pred) ⟨some b, dst⟩ ⟨some b, src⟩ (pre ++ y :: post).length s
        = (.error (.throw "predicate"), s.put b B' c d m) ∧ B'.len = B.len ∧
      (∀ j, j < dst → B'.cell j = B.cell j) ∧
      (∀ j, j < (pre.filter (fun x => ¬ p x)).length → B'.cell (dst + j) = cellOf (pre.filter (fun x => ¬ p x)) j) ∧
      (∀ j, dst + (pre.filter (fun x => ¬ p x)).length ≤ j → B'.cell j = B.cell j) := by
  induction pre with
  | nil =>
    intro s B dst src hb _ hds hlen hc
    have := (Cells.tail hc).1
    simp only [List.nil_append, List.length_cons, eraseLoop] at hlen ⊢
    refine ⟨B, 0, 0, 0, ?_, rfl, fun _ _ => rfl, fun j hj => by simp at hj, fun _ _ => rfl⟩
    rw [bind_ok (load_ok hb (by omega) this), bind_err (ask_none hy s), put_self hb]
  | cons x pre ih =>
    intro s B dst src hb hp hds hlen hc
    obtain ⟨h0, h1⟩ := Cells.tail hc
    have hp' : ∀ x ∈ pre, pred x = some (p x) := fun x hx => hp x (List.mem_cons_of_mem _ hx)
    simp only [List.cons_append, List.length_cons, eraseLoop] at hlen ⊢
    rw [bind_ok (load_ok hb (by omega) h0), bind_ok (ask_some (hp x List.mem_cons_self) s)]
    by_cases hx : p x = true
    · rw [if_pos hx]
      have hd : dropElem cfg ⟨some b, src⟩ s = (.ok (), s) := by
        unfold dropElem
        rw [if_pos (by rw [hk]; rfl)]; rfl
      obtain ⟨B', c, d, m, e, g1, g2, g3, g4⟩ := ih s B dst (src + 1) hb hp' (by omega) (by omega) h1
      have hf : (x :: pre).filter (fun x => ¬ p x) = pre.filter (fun x => ¬ p x) := by simp [hx]
      rw [hf]
      refine ⟨B', c, d, m, ?_, g1, g2, g3, g4⟩
      rw [bind_ok hd]
      simp only [Ptr.add]
      rw [bind_err e]
    · rw [if_neg hx]
      have hf : (x :: pre).filter (fun x => ¬ p x) = x :: pre.filter (fun x => ¬ p x) := by simp [hx]
      rw [hf]
      have hkeep : ∃ B1 c1 d1 m1, keepElem cfg ⟨some b, dst⟩ ⟨some b, src⟩ s = (.ok (), s.put b B1 c1 d1 m1) ∧ B1.len = B.len ∧
          B1.cell dst = .live x ∧ ∀ j, j ≠ dst → B1.cell j = B.cell j := by
        unfold keepElem
        by_cases h : dst = src
        · subst h
          refine ⟨B, 0, 0, 0, ?_, rfl, h0, fun _ _ => rfl⟩
          rw [if_pos rfl, put_self hb]; rfl
        · rw [if_neg (by simpa using h)]
          refine ⟨_, _, _, _, moveBack_ok (by rw [hk]; simp) hb (by omega) (by omega) h0 h, by simp, by simp [set_cell, h], fun j hj => ?_⟩
          simp only [set_cell, if_neg hj]
          split
          · next e => rw [e, h0, hk]; rfl
          · rfl
      obtain ⟨B1, c1, d1, m1, e1, hl, hdst, hoth⟩ := hkeep
      obtain ⟨B', c, d, m, e, g1, g2, g3, g4⟩ := ih (s.put b B1 c1 d1 m1) B1 (dst + 1) (src + 1) (put_same _ _ _ _ _) hp' (by omega)
        (by omega) (fun j hj => by rw [hoth _ (by omega)]; exact h1 j hj)
      refine ⟨B', c1 + c, d1 + d, m1 + m, ?_, by omega, fun j hj => ?_, fun j hj => ?_, fun j hj => ?_⟩
      · rw [bind_ok e1]
        simp only [Ptr.add]
        rw [e, put_put]
      · rw [g2 j (by omega), hoth j (by omega)]
      · cases j with
        | zero => rw [Nat.add_zero, g2 _ (by omega), hdst, cellOf_cons_zero]
        | succ j =>
          rw [cellOf_cons_succ, ← g3 j (by simpa using hj)]; congr 1; omega
      · rw [List.length_cons] at hj
        rw [g4 j (by omega), hoth j (by omega)]

/-- With other elements the loop destroys as it goes. -/
theorem eraseLoop_hole {b : Nat} (hk : cfg.kind.loops) (hz : pred z = some true) (hy : pred y = none) (pre : List α) :
    ∀ (s : S α) (B : Block α) (dst src : Nat), s.mem.heap b = some B → (∀ x ∈ pre, pred x = some (p x)) → dst ≤ src →
    src + (pre ++ z :: y :: post).length ≤ B.len →
    (∀ j, j < (pre ++ z :: y :: post).length → B.cell (src + j) = cellOf (pre ++ z :: y :: post) j) →
    ∃ B' c d m, eraseLoop cfg (ask pred) ⟨some b, dst⟩ ⟨some b, src⟩ (pre ++ z :: y :: post).length s
        = (.error (.throw "predicate"), s.put b B' c d m) ∧ B'.len = B.len ∧ B'.cell (src + pre.length) = .raw := by
  have hdrop : ∀ {s : S α} {B : Block α} {q : Nat} {x : α}, s.mem.heap b = some B → q < B.len → B.cell q = .live x →
      dropElem cfg ⟨some b, q⟩ s = (.ok (), s.put b (B.set q .raw) 0 1 0) := by
    intro s B q x hb hq hx
    unfold dropElem
    rw [if_neg (by rw [loops_relocatable hk]; simp), destroyPtr_ok (loops_not_triv hk) hb hq (by rw [hx]; rfl)]
  induction pre with
  | nil =>
    intro s B dst src hb _ hds hlen hc
    obtain ⟨h0, h1⟩ := Cells.tail hc
    have h2 := (Cells.tail h1).1
    simp only [List.nil_append, List.length_cons, eraseLoop] at hlen ⊢
    refine ⟨B.set src .raw, 0, 1, 0, ?_, rfl, by simp [set_cell]⟩
    rw [bind_ok (load_ok hb (by omega) h0), bind_ok (ask_some hz s), if_pos rfl, bind_ok (hdrop hb (by omega) h0)]
    simp only [Ptr.add]
    refine bind_err ?_
    rw [bind_ok (load_ok (put_same _ _ _ _ _) (by simp; omega) (by rw [set_cell, if_neg (by omega)]; exact h2)), bind_err (ask_none hy _)]
  | cons x pre ih =>
    intro s B dst src hb hp hds hlen hc
    obtain ⟨h0, h1⟩ := Cells.tail hc
    have hp' : ∀ x ∈ pre, pred x = some (p x) := fun x hx => hp x (List.mem_cons_of_mem _ hx)
    simp only [List.cons_append, List.length_cons, eraseLoop] at hlen ⊢
    rw [bind_ok (load_ok hb (by omega) h0), bind_ok (ask_some (hp x List.mem_cons_self) s)]
    by_cases hx : p x = true
    · rw [if_pos hx, bind_ok (hdrop hb (by omega) h0)]
      simp only [Ptr.add]
      obtain ⟨B', c, d, m, e, g1, g2⟩ := ih (s.put b (B.set src .raw) 0 1 0) (B.set src .raw) dst (src + 1) (put_same _ _ _ _ _) hp' (by omega)
        (by simp only [set_len]; omega) (fun j hj => by rw [set_cell, if_neg (by omega)]; exact h1 j hj)
      refine ⟨B', 0 + c, 1 + d, 0 + m, ?_, g1, ?_⟩
      · rw [bind_err e, put_put]
      · rw [← g2]; congr 1; omega
    · rw [if_neg hx]
      have hkeep : ∃ B1 c1 d1 m1, keepElem cfg ⟨some b, dst⟩ ⟨some b, src⟩ s = (.ok (), s.put b B1 c1 d1 m1) ∧ B1.len = B.len ∧
          ∀ j, j ≠ dst → j ≠ src → B1.cell j = B.cell j := by
        unfold keepElem
        by_cases h : dst = src
        · refine ⟨B, 0, 0, 0, ?_, rfl, fun _ _ _ => rfl⟩
          rw [if_pos (by rw [h]), put_self hb]; rfl
        · rw [if_neg (by simpa using h)]
          refine ⟨_, _, _, _, moveBack_ok (by rcases hk with hk | hk <;> rw [hk] <;> simp) hb (by omega) (by omega) h0 h, by simp, fun j hj hj' => ?_⟩
          simp only [set_cell, if_neg hj, if_neg hj']
      obtain ⟨B1, c1, d1, m1, e1, hl, hoth⟩ := hkeep
      obtain ⟨B', c, d, m, e, g1, g2⟩ := ih (s.put b B1 c1 d1 m1) B1 (dst + 1) (src + 1) (put_same _ _ _ _ _) hp' (by omega)
        (by omega) (fun j hj => by rw [hoth _ (by omega) (by omega)]; exact h1 j hj)
      refine ⟨B', c1 + c, d1 + d, m1 + m, ?_, by omega, ?_⟩
      · rw [bind_ok e1]
        simp only [Ptr.add]
        rw [e, put_put]
      · rw [← g2]; congr 1; omega

theorem eraseIfThrowing_err {v : Vec} {m : Mem α} {f : Fault} {s' : S α}
    (h : eraseLoop cfg (ask pred) v.startPtr v.startPtr v.fin ⟨m, v⟩ = (.error f, s')) :
    numRet (eraseIfThrowing cfg pred) ⟨m, v⟩ = (.error f, s') := by
  refine bind_err ?_
  unfold eraseIfThrowing
  rw [bind_ok (this_apply _)]
  exact bind_err h

theorem member_num {v v' : Vec} {x : V α Ret} {e : Fault} {m : Mem α} (hv : w.vecs[i]? = some (some v))
    (h : x ⟨w.mem, v⟩ = (.error e, ⟨m, v'⟩)) : w.member i x = (.error e, ⟨m, w.vecs.set i (some v')⟩) := by
  simp only [World.member, hv, h]

/-- Writing to the storage of one vector leaves the others alone. -/
theorem read_other [DecidableEq α] {v : Vec} {b c d m j : Nat} {B : Block α} (hg : Good cfg) (hr : Reachable cfg w) (hv : w.vecs[i]? = some (some v))
    (hs : v.start = some b) (hj : j ≠ i) :
    (⟨((⟨w.mem, v⟩ : S α).put b B c d m).mem, w.vecs.set i (some ((⟨w.mem, v⟩ : S α).put b B c d m).this)⟩ : World α).read j = w.read j := by
  have hd : ∀ u, w.vecs[j]? = some (some u) → u.start ≠ some b := by
    intro u hu he
    exact hj (storage_is_own hg hr (by rw [data_eq hu]; exact he) (by rw [data_eq hv]; exact hs))
  obtain ⟨ys, hre⟩ := hr.reach
  have hw := hre.winv hg
  have hrd := hw.read j
  simp only [World.read, World.look] at hrd ⊢
  rw [List.getElem?_set_ne (Ne.symm hj)]
  cases hu : w.vecs[j]? with
  | none => rfl
  | some o =>
    cases o with
    | none => rfl
    | some u =>
      simp only
      rw [hu] at hrd
      simp only at hrd
      cases hy : (ys[j]?).join with
      | none => rw [hy] at hrd; simp at hrd
      | some zs =>
        have hz : w.Reads j zs := by
          unfold World.Reads World.read World.look
          rw [hu]
          simp only
          rw [hrd, hy]; rfl
        obtain ⟨u', hu', hok, _⟩ := hr.vec hg hz
        rw [hu] at hu'
        cases hu'
        have hok' : VecOK cfg ((⟨w.mem, v⟩ : S α).put b B c d m).mem u zs := by
          rcases hok with h | ⟨b', B0, h1, h2, h3⟩
          · exact .inl h
          · refine .inr ⟨b', B0, h1, ?_, h3⟩
            rw [put_other, h2]
            rintro rfl
            exact hd u hu (by rw [h1])
        rw [hok.toList_ok, hok'.toList_ok]

/-! ### C137 -/

/-- C137, partial: when the predicate throws before it has chosen an element, nothing has happened. -/
theorem erase_if_untouched_partial [DecidableEq α] (hg : Good cfg) (hr : Reachable cfg w) (hx : w.Reads i (pre ++ y :: post))
    (ht : ThrowsFirst pred p pre y) (hn : ∀ x ∈ pre, p x = false) :
    w.member i (numRet (eraseIfThrowing cfg pred)) = (.error (.throw "predicate"), w) := by
  obtain ⟨v, hv, hok, _⟩ := hr.vec hg hx
  rcases hok with ⟨_, h⟩ | ⟨b, B, rfl, hB, hb⟩
  · simp at h
  have e := eraseLoop_stays (cfg := cfg) (s := ⟨w.mem, ⟨some b, (pre ++ y :: post).length, B.len⟩⟩) hB ht.throws pre 0
    (fun x h => by rw [ht.answers x h, hn x h]) (by rw [Nat.zero_add]; exact hb.le) (fun j hj => by rw [Nat.zero_add]; exact hb.live j hj)
  rw [member_num hv (eraseIfThrowing_err e)]
  congr 1
  obtain ⟨m, vs⟩ := w
  simp only at hv ⊢
  congr 1
  refine List.ext_getElem? fun k => ?_
  by_cases hki : i = k
  · subst hki
    rw [List.getElem?_set_self (lt_of_getElem? hv), hv]
  · rw [List.getElem?_set_ne hki]

/-- C137, partial: with trivially copyable elements a predicate that throws leaves a vector of the same size that can be read: the
elements kept so far, then what there was. -/
theorem erase_if_throws_partial [DecidableEq α] (hg : Good cfg) (hk : cfg.kind = .triv) (hr : Reachable cfg w) (hx : w.Reads i (pre ++ y :: post))
    (ht : ThrowsFirst pred p pre y) :
    ∃ w', w.member i (numRet (eraseIfThrowing cfg pred)) = (.error (.throw "predicate"), w') ∧
      w'.Reads i (pre.filter (fun x => ¬ p x) ++ (pre ++ y :: post).drop (pre.filter (fun x => ¬ p x)).length) ∧
      ∀ j, j ≠ i → w'.read j = w.read j := by
  obtain ⟨v, hv, hok, _⟩ := hr.vec hg hx
  rcases hok with ⟨_, h⟩ | ⟨b, B, rfl, hB, hb⟩
  · simp at h
  have hle := hb.le
  obtain ⟨B', c, d, m, e, g1, g2, g3, g4⟩ := eraseLoop_triv (cfg := cfg) hk ht.throws pre ⟨w.mem, ⟨some b, (pre ++ y :: post).length, B.len⟩⟩ B 0 0
    hB ht.answers (Nat.le_refl _) (by rw [Nat.zero_add]; exact hb.le) (fun j hj => by rw [Nat.zero_add]; exact hb.live j hj)
  have hfl : (pre.filter (fun x => ¬ p x)).length ≤ pre.length := List.length_filter_le _ _
  refine ⟨_, member_num hv (eraseIfThrowing_err e), ?_, fun j hj => ?_⟩
  · have hlen : (pre.filter (fun x => ¬ p x) ++ (pre ++ y :: post).drop (pre.filter (fun x => ¬ p x)).length).length
        = (pre ++ y :: post).length := by
      simp only [List.length_append, List.length_drop, List.length_cons] at *
      omega
    have hb' : BlockOK cfg B' (pre.filter (fun x => ¬ p x) ++ (pre ++ y :: post).drop (pre.filter (fun x => ¬ p x)).length) := by
      refine ⟨by rw [g1]; exact hb.pos, by rw [g1, hlen]; exact hle, by rw [g1]; exact hb.bound, fun j hj => ?_, fun j _ _ => by rw [hk]; trivial⟩
      rw [cellOf_append]
      split
      · next h => rw [← g3 j h, Nat.zero_add]
      · next h =>
        rw [g4 j (by omega), cellOf_drop, Nat.add_sub_cancel' (Nat.le_of_not_lt h)]
        exact hb.live j (hlen ▸ hj)
    have hv' : VecOK cfg ((⟨w.mem, ⟨some b, (pre ++ y :: post).length, B.len⟩⟩ : S α).put b B' c d m).mem ⟨some b, (pre ++ y :: post).length, B.len⟩
        (pre.filter (fun x => ¬ p x) ++ (pre ++ y :: post).drop (pre.filter (fun x => ¬ p x)).length) :=
      .inr ⟨b, B', by rw [hlen, g1], put_same _ _ _ _ _, hb'⟩
    unfold World.Reads World.read
    rw [look_eq (set_vec hv)]
    exact congrArg (fun r => some r.1) hv'.toList_ok
  · exact read_other hg hr hv rfl hj

/-- C137 is violated by elements that are not trivially copyable, in every state: when the predicate throws at the element after one
it has chosen, the vector still has its old size, the chosen element has been destroyed, and reading it or destroying the vector is
undefined. -/
theorem erase_if_throws_violated [DecidableEq α] (hg : Good cfg) (hk : cfg.kind.loops) (hr : Reachable cfg w) (hx : w.Reads i (pre ++ z :: y :: post))
    (ht : ThrowsFirst pred p (pre ++ [z]) y) (hz : p z = true) :
    ∃ w', w.member i (numRet (eraseIfThrowing cfg pred)) = (.error (.throw "predicate"), w') ∧
      w'.size i = (pre ++ z :: y :: post).length ∧ (∃ m, w'.look i (at' cfg pre.length) = some (.error (.ub m))) ∧
      (∃ m, (wstep cfg w' (.destroy i)).1 = .error (.ub m)) ∧ ∀ j, j ≠ i → w'.read j = w.read j := by
  obtain ⟨v, hv, hok, _⟩ := hr.vec hg hx
  rcases hok with ⟨_, h⟩ | ⟨b, B, rfl, hB, hb⟩
  · simp at h
  have hle := hb.le
  obtain ⟨B', c, d, m, e, g1, g2⟩ := eraseLoop_hole (cfg := cfg) (z := z) hk (by rw [ht.answers z (by simp), hz]) ht.throws pre
    ⟨w.mem, ⟨some b, (pre ++ z :: y :: post).length, B.len⟩⟩ B 0 0
    hB (fun x h => ht.answers x (List.mem_append_left _ h)) (Nat.le_refl _) (by rw [Nat.zero_add]; exact hb.le)
    (fun j hj => by rw [Nat.zero_add]; exact hb.live j hj)
  rw [Nat.zero_add] at g2
  have hlt : pre.length < (pre ++ z :: y :: post).length := by simp
  refine ⟨_, member_num hv (eraseIfThrowing_err e), ?_, ?_, ?_, fun j hj => read_other hg hr hv rfl hj⟩
  · rw [size_eq (set_vec hv)]
  · rw [look_eq (set_vec hv)]
    obtain ⟨q, hq⟩ := load_raw (s := (⟨w.mem, ⟨some b, (pre ++ z :: y :: post).length, B.len⟩⟩ : S α).put b B' c d m) (i := pre.length)
      (put_same _ _ _ _ _) (by omega) (by rw [g2]; simp)
    refine ⟨q, ?_⟩
    unfold at'
    rw [bind_ok (this_apply _), bind_ok (assert_true (by simp) _)]
    exact congrArg (fun r => some r.1) hq
  · obtain ⟨s', hs'⟩ := destroyRange_raw (cfg := cfg) (s := (⟨w.mem, ⟨some b, (pre ++ z :: y :: post).length, B.len⟩⟩ : S α).put b B' c d m)
      (i := 0) (n := (pre ++ z :: y :: post).length) (j := pre.length) (loops_not_triv hk) (put_same _ _ _ _ _) (by omega) hlt
      (by rw [Nat.zero_add]; exact g2)
    refine ⟨"destructor of an element that does not live", ?_⟩
    have : coreDestroy cfg ((⟨w.mem, ⟨some b, (pre ++ z :: y :: post).length, B.len⟩⟩ : S α).put b B' c d m)
        = (.error (.ub "destructor of an element that does not live"), s') := by
      unfold coreDestroy
      rw [bind_ok (this_apply _)]
      exact bind_err hs'
    simp only [wstep]
    rw [member_throw (set_vec hv) this]

/-- A predicate that throws at 2, and otherwise chooses 1. -/
def shy (x : Nat) : Option Bool := if x = 2 then none else some (x == 1)

/-- A program that makes a vector of trivial elements. -/
def trivProg : List (WOp Nat) := [.ctorRange (.forward [3, 1, 9, 2, 3]), .ctorRange (.forward [7])]

theorem trivLegal : Legal (exCfg .triv) World.empty [] trivProg := by
  simp only [trivProg, Legal]
  exact ⟨fun _ _ => rfl, ⟨by simp [Source.Copied], by unfold Fits exCfg; decide⟩, fun _ _ => rfl,
    ⟨by simp [Source.Copied], by unfold Fits exCfg; decide⟩, trivial⟩

-- `[3, 1, 9, 2, 3]`: 1 is chosen, 9 moves forward, then the predicate throws
example : ∃ w', (run (exCfg .triv) World.empty trivProg).2.member 0 (numRet (eraseIfThrowing (exCfg .triv) shy)) = (.error (.throw "predicate"), w') ∧
      w'.Reads 0 [3, 9, 9, 2, 3] ∧ ∀ j, j ≠ 0 → w'.read j = (run (exCfg .triv) World.empty trivProg).2.read j :=
  erase_if_throws_partial (w := (run (exCfg .triv) World.empty trivProg).2) (p := fun x => x == 1) (pre := [3, 1, 9]) (y := 2) (post := [3])
    (by unfold Good exCfg; decide) rfl ⟨trivProg, trivLegal, rfl⟩ (by unfold World.Reads; decide +kernel) ⟨by decide, rfl⟩

example : (exWorld .mov).member 0 (numRet (eraseIfThrowing (exCfg .mov) fun x => if x = 9 then none else some (x == 2)))
      = (.error (.throw "predicate"), exWorld .mov) :=
  erase_if_untouched_partial (p := fun x => x == 2) (pre := [3, 1]) (post := [2, 3]) exGood exReach exReads.1 ⟨by decide, rfl⟩ (by decide)

-- 9 is chosen, then the predicate throws at 2
example : ∃ w', (exWorld .mov).member 0 (numRet (eraseIfThrowing (exCfg .mov) fun x => if x = 2 then none else some (x == 9)))
      = (.error (.throw "predicate"), w') ∧ w'.size 0 = 5 ∧ (∃ m, w'.look 0 (at' (exCfg .mov) 2) = some (.error (.ub m))) ∧
      (∃ m, (wstep (exCfg .mov) w' (.destroy 0)).1 = .error (.ub m)) ∧ ∀ j, j ≠ 0 → w'.read j = (exWorld .mov).read j :=
  erase_if_throws_violated (p := fun x => x == 9) (pre := [3, 1]) (post := [3]) exGood (.inl rfl) exReach exReads.1 ⟨by decide, rfl⟩ rfl

end Verif.Vector
