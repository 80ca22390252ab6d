import Verif.Vector.Props

/-!
The properties of vectors: lifetimes (C41), growth (C42), comparison (C44), access (C45), write buffers
(C46), stability of addresses (C78), storage (C79).
-/

namespace Verif.Vector

open V

variable {α β : Type} {cfg : Cfg α} {w : World α} {i : Nat} {xs : List α}

/-! ### C41, C79 -/

theorem sum_range_size (l : List (Option Vec)) :
    ((List.range l.length).map (fun i => match l[i]? with | some (some v) => v.fin | _ => 0)).sum
      = (l.map (fun o => match o with | some v => v.fin | none => 0)).sum := by
  induction l with
  | nil => rfl
  | cons o l ih =>
    rw [List.length_cons, List.range_succ_eq_map, List.map_cons, List.sum_cons, List.map_map, List.map_cons, List.sum_cons, ← ih]
    congr 1
    cases o <;> rfl

theorem sum_zero {l : List Nat} (h : ∀ x ∈ l, x = 0) : l.sum = 0 := by
  induction l with
  | nil => rfl
  | cons a l ih => rw [List.sum_cons, h a (by simp), ih (fun x hx => h x (by simp [hx]))]

theorem WInv.elements {ys : Contents α} (h : WInv cfg w ys) : w.elements = total ys := by
  have hs := sum_range_size w.vecs
  have : w.elements = (w.vecs.map (fun o => match o with | some v => v.fin | none => 0)).sum := by
    rw [← hs]; rfl
  rw [this]
  unfold total
  congr 1
  refine List.ext_getElem? (fun j => ?_)
  rw [List.getElem?_map, List.getElem?_map]
  have hr := h.rel j
  cases hv : w.vecs[j]? with
  | none =>
    rw [hv] at hr
    cases hy : ys[j]? with
    | none => rfl
    | some o => rw [hy] at hr; exact hr.elim
  | some o =>
    rw [hv] at hr
    cases hy : ys[j]? with
    | none => rw [hy] at hr; cases o <;> exact hr.elim
    | some y =>
      rw [hy] at hr
      cases o <;> cases y
      · rfl
      · exact hr.elim
      · exact hr.elim
      · rename_i v xs
        have : VecOK cfg w.mem v xs := hr
        simp only [Option.map_some, sizeOf', this.fin_eq]

variable [DecidableEq α]

/-- C41 for elements with a copy constructor only and for elements declared `Relocatable`: at any time
the elements constructed are those destroyed and those in the vectors. Partial: for elements with a
move constructor this is false, see `moved_elements_leak_violated`. -/
theorem lifetimes_balance_partial (hg : Good cfg) (hk : cfg.kind = .cpy ∨ cfg.kind = .reloc) (hr : Reachable cfg w) :
    w.mem.ctors = w.mem.dtors + w.elements := by
  obtain ⟨ys, hr⟩ := hr.reach
  have hw := hr.winv hg
  have h1 := hw.bal (by rcases hk with hk | hk <;> rw [hk] <;> decide)
  have h2 := hw.cpy (by rcases hk with hk | hk <;> rw [hk] <;> decide)
  rw [hw.elements]
  omega

/-- C41: once all vectors are destroyed, every element is. -/
theorem all_destroyed_partial (hg : Good cfg) (hk : cfg.kind = .cpy ∨ cfg.kind = .reloc) (hr : Reachable cfg w) (hd : ∀ i, w.read i = none) :
    w.mem.ctors = w.mem.dtors := by
  have h := lifetimes_balance_partial hg hk hr
  have : w.elements = 0 := by
    unfold World.elements
    refine sum_zero (fun x hx => ?_)
    obtain ⟨i, _, rfl⟩ := List.mem_map.1 hx
    have := hd i
    unfold World.read World.look at this
    unfold World.size
    split at this
    · simp at this
    · rfl
  omega

/-- A program that destroys its vectors again, for the examples. -/
def exProg2 : List (WOp Nat) :=
  [.ctorRange (.forward [3, 1, 2]), .call 0 (.pushBack true true (.ext 7)), .call 0 (.pushBack true true (.ext 8)),
   .call 0 (.erase 1), .destroy 0]

theorem exLegal2 (k : Kind) : Legal (exCfg k) World.empty [] exProg2 := by
  simp only [exProg2, Legal]
  cases k <;> exact ⟨fun _ _ => rfl, ⟨trivial, by unfold Fits exCfg; decide⟩, fun _ _ => rfl,
    ⟨_, rfl, fun _ => rfl, by decide, by unfold Fits exCfg; decide⟩, fun _ _ => rfl,
    ⟨_, rfl, fun _ => rfl, by decide, by unfold Fits exCfg; decide⟩, fun _ _ => rfl,
    ⟨[3, 1, 2, 7, 8], rfl, trivial, show 1 < 5 by decide⟩,
    fun _ _ => rfl, ⟨_, rfl⟩, trivial⟩

example : Reachable (exCfg .cpy) (run (exCfg .cpy) World.empty exProg2).2 ∧
    (run (exCfg .cpy) World.empty exProg2).2.mem.ctors = 15 ∧ (run (exCfg .cpy) World.empty exProg2).2.mem.dtors = 15 :=
  ⟨⟨exProg2, exLegal2 _, rfl⟩, by decide +kernel⟩

/-- C41, violated: elements that are moved from during reallocation, insertion or erasure are never
destroyed. -/
theorem moved_elements_leak_violated :
    ∃ (cfg : Cfg Nat) (ops : List (WOp Nat)), Good cfg ∧ Legal cfg World.empty [] ops ∧
      (∀ i, (run cfg World.empty ops).2.read i = none) ∧
      (run cfg World.empty ops).2.mem.dtors < (run cfg World.empty ops).2.mem.ctors := by
  refine ⟨exCfg .mov, exProg2, exGood, exLegal2 _, fun i => ?_, by decide +kernel⟩
  match i with
  | 0 => decide +kernel
  | i + 1 =>
    have : (run (exCfg .mov) World.empty exProg2).2.vecs.length = 1 := by decide +kernel
    unfold World.read World.look
    rw [List.getElem?_eq_none (by rw [this]; omega)]

/-- C41 in general: what is constructed is destroyed, or in a vector, or has been moved from. -/
theorem lifetimes_with_moves (hg : Good cfg) (hk : cfg.kind ≠ .triv) (hr : Reachable cfg w) :
    w.mem.ctors = w.mem.dtors + w.mem.moves + w.elements := by
  obtain ⟨ys, hr⟩ := hr.reach
  have hw := hr.winv hg
  rw [hw.elements]
  exact hw.bal hk

example : (exWorld .mov).mem.ctors = (exWorld .mov).mem.dtors + (exWorld .mov).mem.moves + (exWorld .mov).elements ∧
    (exWorld .mov).elements = 7 ∧ (exWorld .mov).mem.moves = 10 := by decide +kernel

/-- C79: every allocated block belongs to exactly one vector. -/
theorem blocks_are_owned {b : Nat} (hg : Good cfg) (hr : Reachable cfg w) (hb : w.mem.heap b ≠ none) :
    ∃ i, w.data i = some b ∧ ∀ j, w.data j = some b → j = i := by
  have hr' := hr
  obtain ⟨ys, hr⟩ := hr.reach
  have hw := hr.winv hg
  obtain ⟨i, v, hv, e⟩ := hw.owned b hb
  have hi : w.data i = some b := by rw [data_eq hv, e]
  exact ⟨i, hi, fun j hj => storage_is_own hg hr' hj hi⟩

example : (exWorld .mov).mem.heap 4 ≠ none ∧ (exWorld .mov).data 0 = some 4 := by
  refine ⟨?_, by decide +kernel⟩
  have : ((exWorld .mov).mem.heap 4).isSome = true := by decide +kernel
  intro h
  rw [h] at this
  simp at this

/-- C79: once all vectors are destroyed, all storage has been freed. -/
theorem no_storage_leaks (hg : Good cfg) (hr : Reachable cfg w) (hd : ∀ i, w.read i = none) (b : Nat) :
    w.mem.heap b = none := by
  obtain ⟨ys, hr⟩ := hr.reach
  have hw := hr.winv hg
  cases hb : w.mem.heap b with
  | none => rfl
  | some B =>
    obtain ⟨i, v, hv, _⟩ := hw.owned b (by rw [hb]; simp)
    have := hd i
    unfold World.read World.look at this
    rw [hv] at this
    simp at this

example : Reachable (exCfg .mov) (run (exCfg .mov) World.empty exProg2).2 ∧
    (run (exCfg .mov) World.empty exProg2).2.read 0 = none ∧ (run (exCfg .mov) World.empty exProg2).2.mem.next = 3 :=
  ⟨⟨exProg2, exLegal2 _, rfl⟩, by decide +kernel⟩

/-! ### C42 -/

omit [DecidableEq α] in
theorem nextCapacity_grows {c : Nat} (hg : Good cfg) (hf : Fits cfg c) :
    (initCapacity cfg ≤ c → 3 * c ≤ 2 * nextCapacity cfg c) ∧ initCapacity cfg ≤ nextCapacity cfg c ∧
    (131072 ≤ c * cfg.size → nextCapacity cfg c = 2 * c) ∧ (c = 0 → nextCapacity cfg c = initCapacity cfg) := by
  have hi := initCapacity_pos hg
  have hc := hf.lt_num hg
  have hq : 0 < 131072 / cfg.size := Nat.div_pos hg.2 hg.1
  have h131 : 131072 ≤ c * cfg.size → 131072 / cfg.size ≤ c := by
    intro h
    have := Nat.div_le_div_right (c := cfg.size) h
    rwa [Nat.mul_div_cancel _ hg.1] at this
  have hi' : initCapacity cfg ≤ 131072 / cfg.size := by
    unfold initCapacity
    split
    · omega
    · exact Nat.div_le_div_right (by omega)
  unfold nextCapacity
  split
  · rename_i h
    rw [mul64_of_lt (by omega), add64_of_lt (by omega)]
    refine ⟨fun _ => by omega, by omega, fun h2 => ?_, fun _ => by omega⟩
    have := h131 h2
    omega
  · split
    · rename_i h1 h2
      rw [mul64_of_lt (by omega)]
      refine ⟨fun _ => by omega, by omega, fun h2 => by omega, fun _ => by omega⟩
    · rename_i h1 h2
      refine ⟨fun _ => by omega, Nat.le_refl _, fun h3 => ?_, fun _ => rfl⟩
      have := h131 h3
      omega

theorem push_back_step {x : α} {e : Bool} (hg : Good cfg) (hr : Reachable cfg w) (hl : Lucky cfg w.mem) (hx : w.Reads i xs)
    (he : cfg.kind = .reloc → e = true) (hfit : Fits cfg (xs.length + 1)) :
    ∃ w', wstep cfg w (.call i (.pushBack true e (.ext x))) = (.ok .unit, w') ∧ Becomes cfg w w' i (xs ++ [x]) ∧
      (xs.length < w.capacity i → w'.capacity i = w.capacity i ∧ w'.mem.relocs = w.mem.relocs) ∧
      (¬ xs.length < w.capacity i → w'.capacity i = nextCapacity cfg (w.capacity i) ∧
        w'.mem.relocs = w.mem.relocs + xs.length) := by
  obtain ⟨w', e', hb⟩ := push_back_appends (a := .ext x) (emplace := e) hg hr hl hx he rfl hfit
  obtain ⟨v, hv, hok, hf⟩ := hr.vec hg hx
  obtain ⟨s', hq, rfl⟩ := call_more (op := .pushBack true e (.ext x)) hv
    (noRet_ok (pushBack_ok (s := ⟨w.mem, v⟩) (a := .ext x) (x := x) (safe := true) (e := e) hg he hf hl hok rfl (by simpa using hfit))) e'
  refine ⟨_, e', hb, fun h => ?_, fun h => ?_⟩
  · rw [capacity_eq hv] at h ⊢
    rw [capacity_eq (set_vec hv)]
    have := hq.2.2
    rw [if_pos h] at this
    exact ⟨this.2.1, this.2.2⟩
  · rw [capacity_eq hv] at h ⊢
    rw [capacity_eq (set_vec hv)]
    have := hq.2.2
    rw [if_neg h] at this
    exact ⟨this.1, this.2.1⟩

/-- C42: when a full vector grows, its capacity grows strictly; it grows by half if it has at least
the initial capacity (64 bytes, or one element if that is larger), it doubles from 128 KiB on, and the
first capacity is the initial one. -/
theorem growth_factor {x : α} {e : Bool} (hg : Good cfg) (hr : Reachable cfg w) (hl : Lucky cfg w.mem) (hx : w.Reads i xs)
    (he : cfg.kind = .reloc → e = true) (hfit : Fits cfg (xs.length + 1)) (hfull : w.size i = w.capacity i) :
    ∃ w', wstep cfg w (.call i (.pushBack true e (.ext x))) = (.ok .unit, w') ∧ w.capacity i < w'.capacity i ∧
      (max 1 (64 / cfg.size) ≤ w.capacity i → 3 * w.capacity i ≤ 2 * w'.capacity i) ∧
      (131072 ≤ w.capacity i * cfg.size → w'.capacity i = 2 * w.capacity i) ∧
      (w.capacity i = 0 → w'.capacity i = max 1 (64 / cfg.size)) := by
  obtain ⟨w', e', hb, _, h2⟩ := push_back_step (x := x) (e := e) hg hr hl hx he hfit
  have hs := (size_le_capacity hg hr hx).1
  rw [hs] at hfull
  obtain ⟨h3, _⟩ := h2 (by omega)
  have hfc : Fits cfg (w.capacity i) := by
    rw [← hfull]
    unfold Fits at hfit ⊢
    rw [Nat.add_mul] at hfit
    omega
  have hi : initCapacity cfg = max 1 (64 / cfg.size) := by
    unfold initCapacity
    split
    · rename_i h
      have : 64 / cfg.size ≤ 1 := by
        rw [Nat.div_le_iff_le_mul_add_pred hg.1]; omega
      omega
    · rename_i h
      have : 1 ≤ 64 / cfg.size := Nat.div_pos (by omega) hg.1
      omega
  obtain ⟨g1, _, g3, g4⟩ := nextCapacity_grows hg hfc
  have g5 := (nextCapacity_ok hg hfc).1
  rw [hi] at g1 g4
  exact ⟨w', e', by rw [h3]; exact g5, by rw [h3]; exact g1, by rw [h3]; exact g3, by rw [h3]; exact g4⟩

/-- Vector 2 of the example program is full. -/
example : ∃ w', wstep (exCfg .mov) (exWorld .mov) (.call 2 (.pushBack true false (.ext 5))) = (.ok .unit, w') ∧
      (exWorld .mov).capacity 2 < w'.capacity 2 ∧
      (max 1 (64 / (exCfg .mov).size) ≤ (exWorld .mov).capacity 2 → 3 * (exWorld .mov).capacity 2 ≤ 2 * w'.capacity 2) ∧
      (131072 ≤ (exWorld .mov).capacity 2 * (exCfg .mov).size → w'.capacity 2 = 2 * (exWorld .mov).capacity 2) ∧
      ((exWorld .mov).capacity 2 = 0 → w'.capacity 2 = max 1 (64 / (exCfg .mov).size)) :=
  growth_factor exGood exReach exLucky exReads.2.2 (fun h => by cases h) (by unfold Fits exCfg; decide) (by decide +kernel)

theorem push_backs {e : Bool} (hg : Good cfg) (he : cfg.kind = .reloc → e = true) (hl : ∀ k n, n < 2 ^ 63 → cfg.malloc k n = true) (R : Nat) (l : List α) :
    ∀ (w : World α) (xs : List α), Reachable cfg w → w.Reads i xs → Fits cfg (xs.length + l.length) →
      w.mem.relocs ≤ R + 2 * w.capacity i → (w.capacity i < initCapacity cfg → w.mem.relocs ≤ R) →
      w.mem.relocs ≤ R + 3 * xs.length →
      ∃ rets w', run cfg w (l.map (fun x => .call i (.pushBack true e (.ext x)))) = (.ok rets, w') ∧ w'.Reads i (xs ++ l) ∧
        Reachable cfg w' ∧ w'.mem.relocs ≤ R + 3 * (xs.length + l.length) := by
  induction l with
  | nil =>
    intro w xs hr hx _ _ _ h3
    exact ⟨[], w, rfl, by simpa using hx, hr, by simpa using h3⟩
  | cons x l ih =>
    intro w xs hr hx hfit h1 h2 h3
    have hfit1 : Fits cfg (xs.length + 1) := by
      unfold Fits at hfit ⊢
      rw [List.length_cons] at hfit
      have : (xs.length + 1) * cfg.size ≤ (xs.length + (l.length + 1)) * cfg.size := Nat.mul_le_mul_right _ (by omega)
      omega
    obtain ⟨w1, e1, hb, hin, hout⟩ := push_back_step (x := x) (e := e) hg hr (fun n hn => hl _ n hn) hx he hfit1
    have hsz := size_le_capacity hg hr hx
    rw [hsz.1] at hsz
    have hfit' : Fits cfg ((xs ++ [x]).length + l.length) := by
      simpa [Nat.add_assoc, Nat.add_comm 1] using hfit
    have goal : w1.mem.relocs ≤ R + 2 * w1.capacity i ∧ (w1.capacity i < initCapacity cfg → w1.mem.relocs ≤ R) ∧
        w1.mem.relocs ≤ R + 3 * (xs ++ [x]).length := by
      rw [List.length_append, List.length_singleton]
      by_cases hroom : xs.length < w.capacity i
      · obtain ⟨g1, g2⟩ := hin hroom
        rw [g1, g2]
        exact ⟨h1, h2, by omega⟩
      · obtain ⟨g1, g2⟩ := hout hroom
        have hc : w.capacity i = xs.length := by omega
        have hfc : Fits cfg (w.capacity i) := by
          rw [hc]
          unfold Fits at hfit1 ⊢
          rw [Nat.add_mul] at hfit1
          omega
        obtain ⟨f1, f2, _, _⟩ := nextCapacity_grows hg hfc
        have f3 := (nextCapacity_ok hg hfc).1
        rw [g1, g2]
        refine ⟨?_, fun h => by omega, by omega⟩
        by_cases hi : initCapacity cfg ≤ w.capacity i
        · have := f1 hi
          omega
        · have := h2 (by omega)
          omega
    obtain ⟨rets, w2, e2, hx2, hr2, hm2⟩ := ih w1 (xs ++ [x]) hb.goesOn hb.reads hfit' goal.1 goal.2.1 goal.2.2
    refine ⟨.unit :: rets, w2, ?_, by simpa using hx2, hr2, ?_⟩
    · simp only [List.map_cons, run, e1, e2]
    · rw [List.length_cons]
      rw [List.length_append, List.length_singleton] at hm2
      omega

/-- C42: `n` calls of `push_back` on a vector of `m` elements transfer at most `3 (m + n)` elements to
new storage, so the cost per element is constant.  Missing: elements of more than 128 KiB, for which it is false
(`growth_big_violated`). -/
theorem push_back_amortised_partial {e : Bool} {l : List α} (hg : Good cfg) (he : cfg.kind = .reloc → e = true) (hl : ∀ k n, n < 2 ^ 63 → cfg.malloc k n = true)
    (hr : Reachable cfg w) (hx : w.Reads i xs) (hfit : Fits cfg (xs.length + l.length)) :
    ∃ rets w', run cfg w (l.map (fun x => .call i (.pushBack true e (.ext x)))) = (.ok rets, w') ∧ w'.Reads i (xs ++ l) ∧
      w'.mem.relocs ≤ w.mem.relocs + 3 * (xs.length + l.length) := by
  obtain ⟨rets, w', h1, h2, _, h3⟩ := push_backs (e := e) hg he hl w.mem.relocs l w xs hr hx hfit (by omega) (fun _ => Nat.le_refl _) (by omega)
  exact ⟨rets, w', h1, h2, h3⟩

example : ∃ rets w', run (exCfg .mov) (exWorld .mov) ([10, 20, 30, 40].map (fun x => .call 0 (.pushBack true false (.ext x))))
      = (.ok rets, w') ∧ w'.Reads 0 ([3, 1, 9, 2, 3] ++ [10, 20, 30, 40]) ∧
      w'.mem.relocs ≤ (exWorld .mov).mem.relocs + 3 * ([3, 1, 9, 2, 3].length + [10, 20, 30, 40].length) :=
  push_back_amortised_partial exGood (fun h => by cases h) (fun _ _ _ => rfl) exReach exReads.1 (by unfold Fits exCfg; decide)

/-! ### C45 -/

omit [DecidableEq α] in
theorem VecOK.load_ok {m : Mem α} {v : Vec} {k : Nat} {x : α} (h : VecOK cfg m v xs) (hk : xs[k]? = some x) :
    load (v.ptr k) ⟨m, v⟩ = (.ok x, ⟨m, v⟩) := by
  have := deref_ok (s := ⟨m, v⟩) (a := .own k) h hk (fun _ _ => rfl)
  exact this

/-- C45: `operator[]` and `at` agree with the contents. Partial: out of range nothing is thrown, see
`at_does_not_throw_violated`. -/
theorem at_reads_partial {k : Nat} {x : α} (hg : Good cfg) (hr : Reachable cfg w) (hx : w.Reads i xs) (hk : xs[k]? = some x) :
    w.look i (at' cfg k) = some (.ok x) := by
  obtain ⟨v, hv, hok, hf⟩ := hr.vec hg hx
  rw [look_eq hv]
  have : at' cfg k ⟨w.mem, v⟩ = (.ok x, ⟨w.mem, v⟩) := by
    unfold at'
    rw [bind_ok (this_apply _), bind_ok (assert_true (by simpa [hok.fin_eq] using lt_of_getElem? hk) _)]
    exact hok.load_ok hk
  rw [this]

example : (exWorld .mov).look 0 (at' (exCfg .mov) 2) = some (.ok 9) := at_reads_partial exGood exReach exReads.1 rfl

/-- C45: `front` and `back`. -/
theorem front_back (hg : Good cfg) (hr : Reachable cfg w) (hx : w.Reads i xs) (hne : xs ≠ []) :
    w.look i (front cfg) = some (.ok (xs.head hne)) ∧ w.look i (back cfg) = some (.ok (xs.getLast hne)) := by
  obtain ⟨v, hv, hok, hf⟩ := hr.vec hg hx
  have hpos : 0 < xs.length := List.length_pos_iff.2 hne
  rw [look_eq hv, look_eq hv]
  have h1 : front cfg ⟨w.mem, v⟩ = (.ok (xs.head hne), ⟨w.mem, v⟩) := by
    unfold front
    rw [bind_ok (this_apply _), bind_ok (assert_true (by simpa [hok.fin_eq] using hpos) _)]
    exact hok.load_ok (k := 0) (by rw [List.getElem?_eq_getElem hpos, List.head_eq_getElem])
  have h2 : back cfg ⟨w.mem, v⟩ = (.ok (xs.getLast hne), ⟨w.mem, v⟩) := by
    unfold back
    rw [bind_ok (this_apply _), bind_ok (assert_true (by simpa [hok.fin_eq] using hpos) _)]
    have hfin := hok.fin_eq
    simp only [hfin]
    rw [if_neg (by omega)]
    exact hok.load_ok (k := xs.length - 1) (by rw [List.getElem?_eq_getElem (by omega), List.getLast_eq_getElem])
  rw [h1, h2]
  exact ⟨rfl, rfl⟩

example : (exWorld .mov).look 0 (front (exCfg .mov)) = some (.ok 3) ∧ (exWorld .mov).look 0 (back (exCfg .mov)) = some (.ok 3) :=
  front_back exGood exReach exReads.1 (by decide)

/-- C45: reverse iteration sees the elements in reverse order. -/
theorem reverse_iteration (hg : Good cfg) (hr : Reachable cfg w) (hx : w.Reads i xs) :
    w.look i toListRev = some (.ok xs.reverse) := by
  obtain ⟨v, hv, hok, hf⟩ := hr.vec hg hx
  rw [look_eq hv]
  have : toListRev ⟨w.mem, v⟩ = (.ok xs.reverse, ⟨w.mem, v⟩) := by
    unfold toListRev
    rw [bind_ok (this_apply _)]
    rcases hok with ⟨rfl, rfl⟩ | ⟨b, B, rfl, hB, hok⟩
    · rfl
    · have := iterateRev_ok (s := ⟨w.mem, ⟨some b, xs.length, B.len⟩⟩) (i := 0) (n := xs.length) (l := xs) hB (by have := hok.le; omega) (Nat.le_refl _)
        (fun j hj => by simpa using hok.live j hj)
      rw [List.take_length] at this
      exact this
  rw [this]

example : (exWorld .mov).look 0 toListRev = some (.ok [3, 2, 9, 1, 3]) := reverse_iteration exGood exReach exReads.1

/-- C45, violated: `at` with an index out of range does not throw. In a debug build the program is
aborted; in a release build, here, the value of an erased element is returned. -/
theorem at_does_not_throw_violated :
    ∃ ops : List (WOp Nat), ∀ dbg : Bool, let cfg : Cfg Nat := ⟨.triv, 16, dbg, fun _ _ => true, 0, false⟩
      Good cfg ∧ Legal cfg World.empty [] ops ∧
      (run cfg World.empty ops).2.Reads 0 [1] ∧
      (run cfg World.empty ops).2.look 0 (at' cfg 1)
        = some (if dbg then .error (.assertFail "index out of range") else .ok 2) := by
  refine ⟨[.ctorRange (.contiguous [1, 2]), .call 0 .popBack], fun dbg => ?_⟩
  have hf : ∀ dbg, Fits (⟨.triv, 16, dbg, fun _ _ => true, 0, false⟩ : Cfg Nat) 2 := by intro dbg; unfold Fits; cases dbg <;> decide
  refine ⟨by unfold Good; cases dbg <;> decide, ⟨fun _ _ => rfl, ⟨by simp [Source.Copied], hf dbg⟩, fun _ _ => rfl, ⟨[1, 2], by cases dbg <;> rfl, trivial, show [1, 2] ≠ [] by decide⟩, trivial⟩, ?_, ?_⟩
  · unfold World.Reads; cases dbg <;> decide +kernel
  · cases dbg <;> decide +kernel

/-! ### C46 -/

/-- C46: the buffer of `get_writebuffer(n)` can be filled. Partial: only if there is room already or
the vector is empty, see `writebuffer_overflow_violated`. -/
theorem writebuffer_partial {l : List α} (hg : Good cfg) (hr : Reachable cfg w) (hl : Lucky cfg w.mem) (hx : w.Reads i xs)
    (hfit : Fits cfg (xs.length + l.length)) (hroom : xs.length + l.length ≤ w.capacity i ∨ xs = []) :
    ∃ w', wstep cfg w (.call i (.writeBuffer true l)) = (.ok .unit, w') ∧ Becomes cfg w w' i (xs ++ l) := by
  obtain ⟨r, w', e, hb, hret⟩ := call_ok (op := .writeBuffer true l) hg hr hl hx
    ⟨trivial, hfit, hroom.elim .inl (fun h => .inr ⟨rfl, h⟩)⟩
  rcases hret with rfl | ⟨_, _, h, _⟩
  · exact ⟨w', e, hb⟩
  · cases h

example : ∃ w', wstep (exCfg .mov) (exWorld .mov) (.call 1 (.writeBuffer true [4, 5])) = (.ok .unit, w') ∧
    Becomes (exCfg .mov) (exWorld .mov) w' 1 [4, 5] :=
  writebuffer_partial exGood exReach exLucky exReads.2.1 (by unfold Fits exCfg; decide) (.inr rfl)

/-- C46, violated: the buffer reaches beyond the storage, because the new capacity is computed from
the number of new elements alone. -/
theorem writebuffer_overflow_violated :
    Good (exCfg .triv) ∧ Legal (exCfg .triv) World.empty [] [.ctorRange (.contiguous [1, 2, 3, 4])] ∧
    let w := (run (exCfg .triv) World.empty [.ctorRange (.contiguous [1, 2, 3, 4])]).2
    w.Reads 0 [1, 2, 3, 4] ∧ Fits (exCfg .triv) (4 + 6) ∧
    (wstep (exCfg .triv) w (.call 0 (.writeBuffer true [5, 6, 7, 8, 9, 10]))).1 = .error (.ub "access outside the block") ∧
    (wstep (exCfg .triv) w (.call 0 (.writeBuffer true [5, 6, 7, 8, 9, 10]))).2.capacity 0 = 6 := by
  refine ⟨by unfold Good exCfg; decide, ⟨fun _ _ => rfl, ⟨by simp [Source.Copied, exCfg], by unfold Fits exCfg; decide⟩, trivial⟩, ?_, by unfold Fits exCfg; decide, by decide +kernel, by decide +kernel⟩
  unfold World.Reads
  decide +kernel

/-- C46 for `fill`, whose growth is right: a filler that writes at most what it promised. -/
theorem fill_appends {l : List α} {safe : Bool} {promise : Nat} (hg : Good cfg) (hr : Reachable cfg w) (hl : Lucky cfg w.mem)
    (hx : w.Reads i xs) (hp : l.length ≤ promise)
    (hroom : if safe then Fits cfg (xs.length + promise) else xs.length + promise ≤ w.capacity i) :
    ∃ w', wstep cfg w (.call i (.fill safe promise l)) = (.ok .unit, w') ∧ Becomes cfg w w' i (xs ++ l) := by
  obtain ⟨r, w', e, hb, hret⟩ := call_ok (op := .fill safe promise l) hg hr hl hx ⟨trivial, hp, hroom⟩
  rcases hret with rfl | ⟨_, _, h, _⟩
  · exact ⟨w', e, hb⟩
  · cases h

example : ∃ w', wstep (exCfg .mov) (exWorld .mov) (.call 0 (.fill true 6 [4, 5])) = (.ok .unit, w') ∧
    Becomes (exCfg .mov) (exWorld .mov) w' 0 [3, 1, 9, 2, 3, 4, 5] :=
  fill_appends exGood exReach exLucky exReads.1 (by decide) (by unfold Fits exCfg; decide)

/-- C46 for `resize<Unsafe>`: room for new elements that the caller constructs. -/
theorem resize_raw_appends {l : List α} (hg : Good cfg) (hr : Reachable cfg w) (hl : Lucky cfg w.mem)
    (hx : w.Reads i xs) (hroom : Fits cfg (xs.length + l.length)) :
    ∃ w', wstep cfg w (.call i (.resizeRaw l)) = (.ok .unit, w') ∧ Becomes cfg w w' i (xs ++ l) := by
  obtain ⟨r, w', e, hb, hret⟩ := call_ok (op := .resizeRaw l) hg hr hl hx ⟨trivial, hroom⟩
  rcases hret with rfl | ⟨_, _, h, _⟩
  · exact ⟨w', e, hb⟩
  · cases h

example : ∃ w', wstep (exCfg .mov) (exWorld .mov) (.call 0 (.resizeRaw [4, 5, 6])) = (.ok .unit, w') ∧
    Becomes (exCfg .mov) (exWorld .mov) w' 0 [3, 1, 9, 2, 3, 4, 5, 6] :=
  resize_raw_appends exGood exReach exLucky exReads.1 (by unfold Fits exCfg; decide)

/-! ### C78 -/

/-- Operations that do not add elements. -/
def Op.shrinks (n : Nat) : Op α → Bool
  | .erase _ | .eraseRange _ _ | .eraseValue _ | .eraseIf _ | .popBack | .clear | .set _ _ => true
  | .resize m => decide (m ≤ n)
  | .resizeValue m _ => decide (m ≤ n)
  | _ => false

/-- C78: operations that do not add elements leave the storage and the capacity as they are, so
iterators to the elements before the first one removed stay valid. -/
theorem shrinking_in_place {op : Op α} (hg : Good cfg) (hr : Reachable cfg w) (hx : w.Reads i xs)
    (hc : InContract cfg (w.capacity i) xs op) (hop : op.shrinks xs.length = true) :
    ∃ r w', wstep cfg w (.call i op) = (.ok r, w') ∧ w'.data i = w.data i ∧ w'.capacity i = w.capacity i := by
  obtain ⟨v, hv, hok, hf⟩ := hr.vec hg hx
  obtain ⟨hp, hc⟩ := hc
  have key : Ok (step cfg op) ⟨w.mem, v⟩ (fun _ s' => s'.this.start = v.start ∧ s'.this.edge = v.edge) := by
    have hn : ∀ {x : V α Unit}, Ok x ⟨w.mem, v⟩ (fun _ s' => s'.this.start = v.start ∧ s'.this.edge = v.edge) →
        Ok (noRet x) ⟨w.mem, v⟩ (fun _ s' => s'.this.start = v.start ∧ s'.this.edge = v.edge) :=
      fun h => Ok.mono (noRet_ok h) (fun _ _ h => h.2)
    have hm : ∀ {x : V α Nat}, Ok x ⟨w.mem, v⟩ (fun _ s' => s'.this.start = v.start ∧ s'.this.edge = v.edge) →
        Ok (numRet x) ⟨w.mem, v⟩ (fun _ s' => s'.this.start = v.start ∧ s'.this.edge = v.edge) := by
      rintro x ⟨n, s', e, h⟩
      refine ⟨.num n, s', ?_, h⟩
      unfold numRet
      rw [bind_ok e]
      rfl
    have htr : ∀ {m : Nat} {a : Ref α}, m ≤ xs.length →
        Ok (resize cfg true m a) ⟨w.mem, v⟩ (fun _ s' => s'.this.start = v.start ∧ s'.this.edge = v.edge) := by
      intro m a hm
      unfold resize
      refine Ok.step (this_apply _) ?_
      simp only
      rw [if_neg (by rw [hok.fin_eq]; omega)]
      refine Ok.mono (truncate_ok (s := ⟨w.mem, v⟩) hok hm) ?_
      rintro _ s' ⟨_, h⟩
      rw [h]
      exact ⟨rfl, rfl⟩
    cases op with
    | erase pos => exact hm (Ok.mono (erase_ok (s := ⟨w.mem, v⟩) hg hok hc) (fun _ _ h => h.2.2))
    | eraseRange a b => exact hm (Ok.mono (eraseRange_ok (s := ⟨w.mem, v⟩) hg hok hc.1 hc.2) (fun _ _ h => h.2.2))
    | eraseValue a =>
      obtain ⟨x, rfl⟩ := outside_val hc
      exact hm (Ok.mono (eraseValue_ok (s := ⟨w.mem, v⟩) hp hok) (fun _ _ h => h.2.2))
    | eraseIf p => exact hm (Ok.mono (eraseIf_ok (s := ⟨w.mem, v⟩) hp hok) (fun _ _ h => h.2.2))
    | popBack => exact hn (Ok.mono (popBack_ok (s := ⟨w.mem, v⟩) hok hc) (fun _ _ h => h.2))
    | clear => exact hn (Ok.mono (clear_ok (s := ⟨w.mem, v⟩) hok) (fun _ _ h => h.2))
    | set k x =>
      refine hn (Ok.mono (setAt_ok (s := ⟨w.mem, v⟩) hok hc) ?_)
      rintro _ s' ⟨_, h⟩
      rw [h]
      exact ⟨rfl, rfl⟩
    | resize m => exact hn (htr (by simpa [Op.shrinks] using hop))
    | resizeValue m a => exact hn (htr (by simpa [Op.shrinks] using hop))
    | _ => simp [Op.shrinks] at hop
  obtain ⟨r, s', e, h1, h2⟩ := key
  refine ⟨r, _, member_eq hv e, ?_, ?_⟩
  · rw [data_eq hv, data_eq (set_vec hv), h1]
  · rw [capacity_eq hv, capacity_eq (set_vec hv), h2]

example : ∃ r w', wstep (exCfg .mov) (exWorld .mov) (.call 0 (.eraseRange 1 3)) = (.ok r, w') ∧
    w'.data 0 = (exWorld .mov).data 0 ∧ w'.capacity 0 = (exWorld .mov).capacity 0 :=
  shrinking_in_place (op := .eraseRange 1 3) exGood exReach exReads.1 ⟨trivial, by decide, by decide⟩ rfl

end Verif.Vector
