import Verif.Vector.Prog

/-!
The properties of vectors: contents, element by element (C34-C38), capacity (C39), absence of faults
(C40), value semantics (C43).

All theorems are about states reached by arbitrary legal programs with any number of vectors. The
hypothesis `Lucky` says that the next allocation succeeds; allocation failure is in `Failure.lean`.
-/

namespace Verif.Vector

open V

variable {α β : Type} [DecidableEq α] {cfg : Cfg α} {w : World α} {i : Nat} {xs : List α}

/-! ### The example program -/

/-- Elements of type `uint64_t`-like size, for the examples. -/
def exCfg (k : Kind) : Cfg Nat := ⟨k, 16, true, fun _ _ => true, 0, false⟩

/-- A program with three vectors, one of them full. -/
def exProg : List (WOp Nat) :=
  [.ctorRange (.contiguous [3, 1, 2]), .copyCtor 0, .call 1 (.pushBack true false (.own 0)), .call 0 (.erase 1), .ctorSized 2,
    .moveAssign 0 1, .call 0 (.insert true false 2 (.ext 9))]

/-- Its final state. -/
def exWorld (k : Kind) : World Nat := (run (exCfg k) World.empty exProg).2

theorem exGood : Good (exCfg .mov) := by unfold Good exCfg; decide

theorem exLegal : Legal (exCfg .mov) World.empty [] exProg := by
  simp only [exProg, Legal]
  refine ⟨fun _ _ => rfl, ⟨by simp [Source.Copied, exCfg], by unfold Fits exCfg; decide⟩, fun _ _ => rfl, ⟨⟨_, rfl⟩, by decide⟩,
    fun _ _ => rfl, ⟨_, rfl, ⟨(fun h => by cases h), by decide, by unfold Fits exCfg; decide⟩⟩, fun _ _ => rfl,
    ⟨[3, 1, 2], rfl, ⟨trivial, show 1 < 3 by decide⟩⟩, fun _ _ => rfl,
    by unfold WContract Fits exCfg; decide,
    fun _ _ => rfl, ⟨⟨_, rfl⟩, ⟨_, rfl⟩⟩, fun _ _ => rfl, ⟨_, rfl, ⟨(fun h => by cases h), by decide, by decide, by unfold Fits exCfg; decide⟩⟩, trivial⟩

theorem exReach : Reachable (exCfg .mov) (exWorld .mov) := ⟨exProg, exLegal, rfl⟩

theorem exReads : (exWorld .mov).Reads 0 [3, 1, 9, 2, 3] ∧ (exWorld .mov).Reads 1 [] ∧ (exWorld .mov).Reads 2 [0, 0] := by
  unfold World.Reads; decide +kernel

theorem exSizes : (exWorld .mov).capacity 0 = 6 ∧ (exWorld .mov).size 0 = 5 ∧ (exWorld .mov).capacity 2 = 2 ∧
    (exWorld .mov).vecs.length = 3 := by decide +kernel

theorem exLucky : Lucky (exCfg .mov) (exWorld .mov).mem := fun _ _ => rfl

/-! ### C34 -/

/-- C34: `push_back` and `emplace_back` append exactly one element; this includes an argument that is
a reference to an element of the vector itself. -/
theorem push_back_appends {a : Arg α} {x : α} {emplace : Bool} (hg : Good cfg) (hr : Reachable cfg w) (hl : Lucky cfg w.mem)
    (hx : w.Reads i xs) (he : cfg.kind = .reloc → emplace = true) (ha : a.val xs = some x) (hfit : Fits cfg (xs.length + 1)) :
    ∃ w', wstep cfg w (.call i (.pushBack true emplace a)) = (.ok .unit, w') ∧ Becomes cfg w w' i (xs ++ [x]) := by
  obtain ⟨r, w', e, hb, hret⟩ := call_ok (op := .pushBack true emplace a) hg hr hl hx ⟨he, by simp [ha], by simpa using hfit⟩
  rcases hret with rfl | ⟨_, _, h, _⟩
  · exact ⟨w', e, by simpa [specStep, ha] using hb⟩
  · cases h

example : ∃ w', wstep (exCfg .mov) (exWorld .mov) (.call 0 (.pushBack true false (.own 2))) = (.ok .unit, w') ∧
    Becomes (exCfg .mov) (exWorld .mov) w' 0 [3, 1, 9, 2, 3, 9] :=
  push_back_appends exGood exReach exLucky exReads.1 (fun h => by cases h) rfl (by unfold Fits exCfg; decide)

/-- C34, the `Unsafe` variant: the same when there is room. -/
theorem push_back_unsafe_appends {a : Arg α} {x : α} {emplace : Bool} (hg : Good cfg) (hr : Reachable cfg w)
    (hl : Lucky cfg w.mem) (hx : w.Reads i xs) (he : cfg.kind = .reloc → emplace = true)
    (ha : a.val xs = some x) (hroom : xs.length < w.capacity i) :
    ∃ w', wstep cfg w (.call i (.pushBack false emplace a)) = (.ok .unit, w') ∧ Becomes cfg w w' i (xs ++ [x]) := by
  obtain ⟨r, w', e, hb, hret⟩ := call_ok (op := .pushBack false emplace a) hg hr hl hx ⟨he, by simp [ha], by simpa using hroom⟩
  rcases hret with rfl | ⟨_, _, h, _⟩
  · exact ⟨w', e, by simpa [specStep, ha] using hb⟩
  · cases h

example : ∃ w', wstep (exCfg .mov) (exWorld .mov) (.call 0 (.pushBack false true (.ext 8))) = (.ok .unit, w') ∧
    Becomes (exCfg .mov) (exWorld .mov) w' 0 [3, 1, 9, 2, 3, 8] :=
  push_back_unsafe_appends exGood exReach exLucky exReads.1 (fun _ => rfl) rfl (by decide +kernel)

/-! ### C35 -/

/-- C35: `insert(pos, value)` and `emplace(pos, args...)`. -/
theorem insert_one {pos : Nat} {x : α} {safe emplace : Bool} (hg : Good cfg) (hr : Reachable cfg w) (hl : Lucky cfg w.mem)
    (hx : w.Reads i xs) (he : cfg.kind = .reloc → emplace = true ∧ xs.length ≤ pos + 1) (hpos : pos ≤ xs.length)
    (hroom : if safe then Fits cfg (xs.length + 1) else xs.length < w.capacity i) :
    ∃ w', wstep cfg w (.call i (.insert safe emplace pos (.ext x))) = (.ok (.num pos), w') ∧
      Becomes cfg w w' i (xs.take pos ++ [x] ++ xs.drop pos) := by
  obtain ⟨r, w', e, hb, hret⟩ := call_ok (op := .insert safe emplace pos (.ext x)) hg hr hl hx ⟨he, hpos, rfl, hroom⟩
  rcases hret with rfl | ⟨_, _, h, _⟩
  · exact ⟨w', e, by simpa [specStep, Arg.val] using hb⟩
  · cases h

example : ∃ w', wstep (exCfg .mov) (exWorld .mov) (.call 0 (.insert true false 1 (.ext 7))) = (.ok (.num 1), w') ∧
    Becomes (exCfg .mov) (exWorld .mov) w' 0 [3, 7, 1, 9, 2, 3] :=
  insert_one exGood exReach exLucky exReads.1 (fun h => by cases h) (by decide) (by unfold Fits exCfg; decide)

/-- C35: `insert(pos, n, value)`.  Partial: `n = 0` fails, see `insert_none_violated`. -/
theorem insert_count_partial {pos n : Nat} {x : α} {safe : Bool} (hg : Good cfg) (hr : Reachable cfg w) (hl : Lucky cfg w.mem)
    (hx : w.Reads i xs) (he : cfg.kind = .reloc → xs.length ≤ pos + n) (hpos : pos ≤ xs.length) (hn : 0 < n)
    (hroom : if safe then Fits cfg (xs.length + n) else xs.length + n ≤ w.capacity i) :
    ∃ w', wstep cfg w (.call i (.insertN safe pos n (.ext x))) = (.ok (.num pos), w') ∧
      Becomes cfg w w' i (xs.take pos ++ List.replicate n x ++ xs.drop pos) := by
  obtain ⟨r, w', e, hb, hret⟩ := call_ok (op := .insertN safe pos n (.ext x)) hg hr hl hx ⟨he, hpos, hn, rfl, hroom⟩
  rcases hret with rfl | ⟨_, _, h, _⟩
  · exact ⟨w', e, by simpa [specStep, Arg.val] using hb⟩
  · cases h

example : ∃ w', wstep (exCfg .mov) (exWorld .mov) (.call 0 (.insertN true 1 3 (.ext 7))) = (.ok (.num 1), w') ∧
    Becomes (exCfg .mov) (exWorld .mov) w' 0 [3, 7, 7, 7, 1, 9, 2, 3] :=
  insert_count_partial exGood exReach exLucky exReads.1 (fun h => by cases h) (by decide) (by decide) (by unfold Fits exCfg; decide)

/-- C35: `insert(pos, first, last)` and `insert(pos, {...})`. -/
theorem insert_range {pos : Nat} {src : Source α} {safe : Bool} (hg : Good cfg) (hr : Reachable cfg w) (hl : Lucky cfg w.mem)
    (hx : w.Reads i xs) (he : cfg.kind = .reloc → xs.length ≤ pos + src.list.length)
    (hpos : pos ≤ xs.length) (hsrc : src.Copied cfg)
    (hroom : if safe then Fits cfg (xs.length + src.list.length) else xs.length + src.list.length ≤ w.capacity i) :
    ∃ w', wstep cfg w (.call i (.insertRange safe pos src)) = (.ok (.num pos), w') ∧
      Becomes cfg w w' i (xs.take pos ++ src.list ++ xs.drop pos) := by
  obtain ⟨r, w', e, hb, hret⟩ := call_ok (op := .insertRange safe pos src) hg hr hl hx ⟨he, hpos, hsrc, hroom⟩
  rcases hret with rfl | ⟨_, _, h, _⟩
  · exact ⟨w', e, hb⟩
  · cases h

example : ∃ w', wstep (exCfg .mov) (exWorld .mov) (.call 0 (.insertRange false 4 (.reversed [5]))) = (.ok (.num 4), w') ∧
    Becomes (exCfg .mov) (exWorld .mov) w' 0 [3, 1, 9, 2, 5, 3] :=
  insert_range exGood exReach exLucky exReads.1 (fun h => by cases h) (by decide) rfl (show 5 + 1 ≤ _ by decide +kernel)

/-! ### C36 -/

/-- C36: `erase(pos)`. -/
theorem erase_one {pos : Nat} (hg : Good cfg) (hr : Reachable cfg w) (hl : Lucky cfg w.mem)
    (hx : w.Reads i xs) (hpos : pos < xs.length) :
    ∃ w', wstep cfg w (.call i (.erase pos)) = (.ok (.num pos), w') ∧ Becomes cfg w w' i (xs.take pos ++ xs.drop (pos + 1)) := by
  obtain ⟨r, w', e, hb, hret⟩ := call_ok (op := .erase pos) hg hr hl hx ⟨trivial, hpos⟩
  rcases hret with rfl | ⟨_, _, h, _⟩
  · exact ⟨w', e, hb⟩
  · cases h

example : ∃ w', wstep (exCfg .mov) (exWorld .mov) (.call 0 (.erase 1)) = (.ok (.num 1), w') ∧
    Becomes (exCfg .mov) (exWorld .mov) w' 0 [3, 9, 2, 3] :=
  erase_one exGood exReach exLucky exReads.1 (by decide)

/-- C36: the elements `erase(first, last)` leaves.  Partial: the iterator returned is the right one
only for an empty range, see `erase_range_return_violated`. -/
theorem erase_range_partial {a b : Nat} (hg : Good cfg) (hr : Reachable cfg w) (hl : Lucky cfg w.mem)
    (hx : w.Reads i xs) (hab : a ≤ b) (hb : b ≤ xs.length) :
    ∃ r w', wstep cfg w (.call i (.eraseRange a b)) = (.ok (.num r), w') ∧ Becomes cfg w w' i (xs.take a ++ xs.drop b) ∧
      (a = b → r = a) := by
  obtain ⟨r, w', e, hb, hret⟩ := call_ok (op := .eraseRange a b) hg hr hl hx ⟨trivial, hab, hb⟩
  rcases hret with rfl | ⟨_, _, h, rfl⟩
  · exact ⟨a, w', e, hb, fun _ => rfl⟩
  · cases h
    exact ⟨b, w', e, hb, fun h => h.symm⟩

example : ∃ r w', wstep (exCfg .mov) (exWorld .mov) (.call 0 (.eraseRange 1 4)) = (.ok (.num r), w') ∧
    Becomes (exCfg .mov) (exWorld .mov) w' 0 [3, 3] ∧ (1 = 4 → r = 1) :=
  erase_range_partial exGood exReach exLucky exReads.1 (by decide) (by decide)

/-! ### C37 -/

/-- C37: `erase(value)`. -/
theorem erase_value {y : α} (hg : Good cfg) (hk : cfg.kind ≠ .reloc) (hr : Reachable cfg w) (hl : Lucky cfg w.mem) (hx : w.Reads i xs) :
    ∃ w', wstep cfg w (.call i (.eraseValue (.ext y))) = (.ok (.num (xs.count y)), w') ∧
      Becomes cfg w w' i (xs.filter (fun x => x ≠ y)) := by
  obtain ⟨r, w', e, hb, hret⟩ := call_ok (op := .eraseValue (.ext y)) hg hr hl hx ⟨hk, rfl⟩
  rcases hret with rfl | ⟨_, _, h, _⟩
  · refine ⟨w', ?_, by simpa [specStep, Arg.val] using hb⟩
    rw [e]
    simp only [specRet, Arg.val, Option.some.injEq, List.count]
    congr 4
  · cases h

example : ∃ w', wstep (exCfg .mov) (exWorld .mov) (.call 0 (.eraseValue (.ext 3))) = (.ok (.num 2), w') ∧
    Becomes (exCfg .mov) (exWorld .mov) w' 0 [1, 9, 2] :=
  erase_value exGood (by decide) exReach exLucky exReads.1

/-- C37: `erase_if(pred)`. -/
theorem erase_if {p : α → Bool} (hg : Good cfg) (hk : cfg.kind ≠ .reloc) (hr : Reachable cfg w) (hl : Lucky cfg w.mem) (hx : w.Reads i xs) :
    ∃ w', wstep cfg w (.call i (.eraseIf p)) = (.ok (.num (xs.countP p)), w') ∧
      Becomes cfg w w' i (xs.filter (fun x => ¬ p x)) := by
  obtain ⟨r, w', e, hb, hret⟩ := call_ok (op := .eraseIf p) hg hr hl hx ⟨hk, trivial⟩
  rcases hret with rfl | ⟨_, _, h, _⟩
  · exact ⟨w', e, hb⟩
  · cases h

example : ∃ w', wstep (exCfg .mov) (exWorld .mov) (.call 0 (.eraseIf (fun x => x % 2 == 1))) = (.ok (.num 4), w') ∧
    Becomes (exCfg .mov) (exWorld .mov) w' 0 [2] :=
  erase_if exGood (by decide) exReach exLucky exReads.1

/-! ### C38 -/

/-- C38: `resize(n)`. -/
theorem resize_default {n : Nat} (hg : Good cfg) (hr : Reachable cfg w) (hl : Lucky cfg w.mem) (hx : w.Reads i xs)
    (hfit : Fits cfg n) :
    ∃ w', wstep cfg w (.call i (.resize n)) = (.ok .unit, w') ∧
      Becomes cfg w w' i (xs.take n ++ List.replicate (n - xs.length) cfg.dflt) := by
  obtain ⟨r, w', e, hb, hret⟩ := call_ok (op := .resize n) hg hr hl hx ⟨trivial, hfit⟩
  rcases hret with rfl | ⟨_, _, h, _⟩
  · exact ⟨w', e, hb⟩
  · cases h

example : ∃ w', wstep (exCfg .mov) (exWorld .mov) (.call 0 (.resize 9)) = (.ok .unit, w') ∧
    Becomes (exCfg .mov) (exWorld .mov) w' 0 [3, 1, 9, 2, 3, 0, 0, 0, 0] :=
  resize_default exGood exReach exLucky exReads.1 (by unfold Fits exCfg; decide)

/-- C38: `resize(n, value)`. -/
theorem resize_value {n : Nat} {x : α} (hg : Good cfg) (hr : Reachable cfg w) (hl : Lucky cfg w.mem) (hx : w.Reads i xs)
    (hfit : Fits cfg n) :
    ∃ w', wstep cfg w (.call i (.resizeValue n (.ext x))) = (.ok .unit, w') ∧
      Becomes cfg w w' i (xs.take n ++ List.replicate (n - xs.length) x) := by
  obtain ⟨r, w', e, hb, hret⟩ := call_ok (op := .resizeValue n (.ext x)) hg hr hl hx ⟨trivial, rfl, hfit⟩
  rcases hret with rfl | ⟨_, _, h, _⟩
  · exact ⟨w', e, by simpa [specStep, Arg.val] using hb⟩
  · cases h

example : ∃ w', wstep (exCfg .mov) (exWorld .mov) (.call 0 (.resizeValue 2 (.ext 5))) = (.ok .unit, w') ∧
    Becomes (exCfg .mov) (exWorld .mov) w' 0 [3, 1] :=
  resize_value exGood exReach exLucky exReads.1 (by unfold Fits exCfg; decide)

/-- C38: `assign(n, value)`.  Partial: `n = 0` fails, see `assign_zero_violated`. -/
theorem assign_count_partial {n : Nat} {x : α} (hg : Good cfg) (hr : Reachable cfg w) (hl : Lucky cfg w.mem) (hx : w.Reads i xs)
    (hfit : Fits cfg n) (hn : 0 < n) :
    ∃ w', wstep cfg w (.call i (.assignN n (.ext x))) = (.ok .unit, w') ∧ Becomes cfg w w' i (List.replicate n x) := by
  obtain ⟨r, w', e, hb, hret⟩ := call_ok (op := .assignN n (.ext x)) hg hr hl hx ⟨trivial, hn, rfl, hfit⟩
  rcases hret with rfl | ⟨_, _, h, _⟩
  · exact ⟨w', e, by simpa [specStep, Arg.val] using hb⟩
  · cases h

example : ∃ w', wstep (exCfg .mov) (exWorld .mov) (.call 0 (.assignN 3 (.ext 5))) = (.ok .unit, w') ∧
    Becomes (exCfg .mov) (exWorld .mov) w' 0 [5, 5, 5] :=
  assign_count_partial exGood exReach exLucky exReads.1 (by unfold Fits exCfg; decide) (by decide)

/-- C38: `assign(first, last)` and `assign({...})`.  Partial: an empty range fails, see
`assign_empty_violated`. -/
theorem assign_range_partial {src : Source α} (hg : Good cfg) (hr : Reachable cfg w) (hl : Lucky cfg w.mem)
    (hx : w.Reads i xs) (hsrc : src.Copied cfg) (hfit : Fits cfg src.list.length) (hn : src.list ≠ []) :
    ∃ w', wstep cfg w (.call i (.assignRange src)) = (.ok .unit, w') ∧ Becomes cfg w w' i src.list := by
  obtain ⟨r, w', e, hb, hret⟩ := call_ok (op := .assignRange src) hg hr hl hx ⟨trivial, hn, hsrc, hfit⟩
  rcases hret with rfl | ⟨_, _, h, _⟩
  · exact ⟨w', e, hb⟩
  · cases h

example : ∃ w', wstep (exCfg .mov) (exWorld .mov) (.call 0 (.assignRange (.forward [4, 5]))) = (.ok .unit, w') ∧
    Becomes (exCfg .mov) (exWorld .mov) w' 0 [4, 5] :=
  assign_range_partial exGood exReach exLucky exReads.1 trivial (by unfold Fits exCfg; decide) (by decide)

/-- C38: `clear`. -/
theorem clear_empties (hg : Good cfg) (hr : Reachable cfg w) (hl : Lucky cfg w.mem) (hx : w.Reads i xs) :
    ∃ w', wstep cfg w (.call i .clear) = (.ok .unit, w') ∧ Becomes cfg w w' i [] := by
  obtain ⟨r, w', e, hb, hret⟩ := call_ok (op := .clear) hg hr hl hx ⟨trivial, trivial⟩
  rcases hret with rfl | ⟨_, _, h, _⟩
  · exact ⟨w', e, hb⟩
  · cases h

example : ∃ w', wstep (exCfg .mov) (exWorld .mov) (.call 0 .clear) = (.ok .unit, w') ∧
    Becomes (exCfg .mov) (exWorld .mov) w' 0 [] := clear_empties exGood exReach exLucky exReads.1

/-- C38: `pop_back`. -/
theorem pop_back_drops (hg : Good cfg) (hr : Reachable cfg w) (hl : Lucky cfg w.mem) (hx : w.Reads i xs) (hne : xs ≠ []) :
    ∃ w', wstep cfg w (.call i .popBack) = (.ok .unit, w') ∧ Becomes cfg w w' i xs.dropLast := by
  obtain ⟨r, w', e, hb, hret⟩ := call_ok (op := .popBack) hg hr hl hx ⟨trivial, hne⟩
  rcases hret with rfl | ⟨_, _, h, _⟩
  · exact ⟨w', e, hb⟩
  · cases h

example : ∃ w', wstep (exCfg .mov) (exWorld .mov) (.call 0 .popBack) = (.ok .unit, w') ∧
    Becomes (exCfg .mov) (exWorld .mov) w' 0 [3, 1, 9, 2] := pop_back_drops exGood exReach exLucky exReads.1 (by decide)

/-- C38: writing an element through `operator[]`. -/
theorem set_element {k : Nat} {x : α} (hg : Good cfg) (hr : Reachable cfg w) (hl : Lucky cfg w.mem) (hx : w.Reads i xs)
    (hk : k < xs.length) :
    ∃ w', wstep cfg w (.call i (.set k x)) = (.ok .unit, w') ∧ Becomes cfg w w' i (xs.set k x) := by
  obtain ⟨r, w', e, hb, hret⟩ := call_ok (op := .set k x) hg hr hl hx ⟨trivial, hk⟩
  rcases hret with rfl | ⟨_, _, h, _⟩
  · exact ⟨w', e, hb⟩
  · cases h

example : ∃ w', wstep (exCfg .mov) (exWorld .mov) (.call 0 (.set 1 6)) = (.ok .unit, w') ∧
    Becomes (exCfg .mov) (exWorld .mov) w' 0 [3, 6, 9, 2, 3] := set_element exGood exReach exLucky exReads.1 (by decide)

/-! ### C39 -/

/-- C39: `reserve` keeps the contents and provides the capacity asked for; it does not move anything
when the capacity is already there. -/
theorem reserve_keeps {n : Nat} (hg : Good cfg) (hr : Reachable cfg w) (hl : Lucky cfg w.mem) (hx : w.Reads i xs)
    (hfit : Fits cfg n) :
    ∃ w', wstep cfg w (.call i (.reserve n)) = (.ok .unit, w') ∧ Becomes cfg w w' i xs ∧
      w'.capacity i = max n (w.capacity i) ∧ (n ≤ w.capacity i → w'.data i = w.data i) := by
  obtain ⟨r, w', e, hb, hret⟩ := call_ok (op := .reserve n) hg hr hl hx ⟨trivial, hfit⟩
  obtain ⟨v, hv, hok, hf⟩ := hr.vec hg hx
  rcases hret with rfl | ⟨_, _, h, _⟩
  · obtain ⟨s', hq, rfl⟩ := call_more (op := .reserve n) hv (noRet_ok (reserve_ok hg hf hl hok (Fits.lt hfit))) e
    refine ⟨_, e, hb, ?_, fun h => ?_⟩
    · rw [capacity_eq hv, capacity_eq (set_vec hv)]
      exact hq.2.2.1
    · rw [data_eq hv, data_eq (set_vec hv)]
      rw [capacity_eq hv] at h
      rw [hq.2.2.2 h]
  · cases h

example : ∃ w', wstep (exCfg .mov) (exWorld .mov) (.call 0 (.reserve 20)) = (.ok .unit, w') ∧
    Becomes (exCfg .mov) (exWorld .mov) w' 0 [3, 1, 9, 2, 3] ∧ w'.capacity 0 = max 20 ((exWorld .mov).capacity 0) ∧
    (20 ≤ (exWorld .mov).capacity 0 → w'.data 0 = (exWorld .mov).data 0) :=
  reserve_keeps exGood exReach exLucky exReads.1 (by unfold Fits exCfg; decide)

/-- C39: `shrink_to_fit` keeps the contents and gives back all unused room. -/
theorem shrink_to_fit_keeps (hg : Good cfg) (hr : Reachable cfg w) (hl : Lucky cfg w.mem) (hx : w.Reads i xs) :
    ∃ w', wstep cfg w (.call i .shrinkToFit) = (.ok .unit, w') ∧ Becomes cfg w w' i xs ∧ w'.capacity i = xs.length := by
  obtain ⟨r, w', e, hb, hret⟩ := call_ok (op := .shrinkToFit) hg hr hl hx ⟨trivial, trivial⟩
  obtain ⟨v, hv, hok, hf⟩ := hr.vec hg hx
  rcases hret with rfl | ⟨_, _, h, _⟩
  · obtain ⟨s', hq, rfl⟩ := call_more (op := .shrinkToFit) hv (noRet_ok (shrinkToFit_ok hg hf hl hok)) e
    refine ⟨_, e, hb, ?_⟩
    rw [capacity_eq (set_vec hv)]
    exact hq.2.2
  · cases h

example : ∃ w', wstep (exCfg .mov) (exWorld .mov) (.call 0 .shrinkToFit) = (.ok .unit, w') ∧
    Becomes (exCfg .mov) (exWorld .mov) w' 0 [3, 1, 9, 2, 3] ∧ w'.capacity 0 = 5 :=
  shrink_to_fit_keeps exGood exReach exLucky exReads.1

/-- C39: `push_back` does not reallocate while there is room, so the elements stay where they are. -/
theorem push_back_in_place {a : Arg α} {safe emplace : Bool} (hg : Good cfg) (hr : Reachable cfg w)
    (hx : w.Reads i xs) (he : cfg.kind = .reloc → emplace = true) (ha : (a.val xs).isSome) (hroom : w.size i < w.capacity i) :
    ∃ w', wstep cfg w (.call i (.pushBack safe emplace a)) = (.ok .unit, w') ∧
      w'.data i = w.data i ∧ w'.capacity i = w.capacity i := by
  obtain ⟨v, hv, hok, hf⟩ := hr.vec hg hx
  obtain ⟨x, hx'⟩ := Option.isSome_iff_exists.1 ha
  rw [size_eq hv, capacity_eq hv, hok.fin_eq] at hroom
  have hb : Ok (step cfg (.pushBack safe emplace a)) ⟨w.mem, v⟩ (fun r s' => r = .unit ∧ s'.this.start = v.start ∧ s'.this.edge = v.edge) := by
    refine noRet_ok (Q := fun s' => s'.this.start = v.start ∧ s'.this.edge = v.edge) ?_
    unfold pushBack
    refine Ok.step (full_ok hok) (Ok.step (this_apply _) ?_)
    simp only
    have hd : decide (v.edge = xs.length) = false := decide_eq_false (by omega)
    rw [hd]
    simp only [Bool.false_eq_true, if_false]
    have hp := pushInPlace_ok (s := ⟨w.mem, v⟩) (e := emplace) he hok hroom hx'
    cases safe with
    | true => exact Ok.mono hp (fun _ _ h => ⟨h.2.1, h.2.2.1⟩)
    | false =>
      simp only [Bool.false_eq_true, if_false]
      exact Ok.step (assert_true rfl _) (Ok.mono hp (fun _ _ h => ⟨h.2.1, h.2.2.1⟩))
  obtain ⟨r, s', e, rfl, h1, h2⟩ := hb
  refine ⟨_, member_eq hv e, ?_, ?_⟩
  · rw [data_eq hv, data_eq (set_vec hv), h1]
  · rw [capacity_eq hv, capacity_eq (set_vec hv), h2]

example : ∃ w', wstep (exCfg .mov) (exWorld .mov) (.call 0 (.pushBack true false (.ext 4))) = (.ok .unit, w') ∧
    w'.data 0 = (exWorld .mov).data 0 ∧ w'.capacity 0 = (exWorld .mov).capacity 0 :=
  push_back_in_place exGood exReach exReads.1 (fun h => by cases h) rfl (by decide +kernel)

/-! ### C40 -/

/-- C40: no legal program has undefined behaviour, fails an assertion or throws, in debug and in
release builds; all its vectors hold what the specification says. -/
theorem legal_programs_run (hg : Good cfg) {ops : List (WOp α)} (hops : Legal cfg World.empty [] ops) :
    ∃ rets w', run cfg World.empty ops = (.ok rets, w') ∧ rets.length = ops.length ∧
      ∀ i, w'.read i = ((specRun cfg.dflt ops)[i]?).join.map Except.ok := by
  obtain ⟨rs, w', e, hw, hlen⟩ := legal_run hg WInv.empty hops
  exact ⟨rs, w', e, hlen, fun i => hw.read i⟩

example : ∃ rets w', run (exCfg .mov) World.empty exProg = (.ok rets, w') ∧ rets.length = exProg.length ∧
    ∀ i, w'.read i = ((specRun 0 exProg)[i]?).join.map Except.ok :=
  legal_programs_run exGood exLegal

/-- C40: `size()` is the number of elements and at most `capacity()`, and the storage never exceeds
half of the address space. -/
theorem size_le_capacity (hg : Good cfg) (hr : Reachable cfg w) (hx : w.Reads i xs) :
    w.size i = xs.length ∧ w.size i ≤ w.capacity i ∧ w.capacity i * cfg.size < 2 ^ 63 := by
  obtain ⟨v, hv, hok, hf⟩ := hr.vec hg hx
  rw [size_eq hv, capacity_eq hv, hok.fin_eq]
  exact ⟨rfl, hok.fin_le, hok.bound⟩

example : (exWorld .mov).size 0 = 5 ∧ (exWorld .mov).size 0 ≤ (exWorld .mov).capacity 0 ∧
    (exWorld .mov).capacity 0 * (exCfg .mov).size < 2 ^ 63 := size_le_capacity exGood exReach exReads.1

/-! ### C43 -/

theorem world_ok {op : WOp α} (hg : Good cfg) (hr : Reachable cfg w) (hl : Lucky cfg w.mem)
    (hc : ∀ ys, WInv cfg w ys → WContract cfg w.capacity ys op) (hop : ∀ i o, op ≠ .call i o) :
    ∃ ys w', WInv cfg w ys ∧ wstep cfg w op = (.ok .unit, w') ∧ Reachable cfg w' ∧ WInv cfg w' (specWorld cfg.dflt ys op) := by
  obtain ⟨ys, hr⟩ := hr.reach
  have hw := hr.winv hg
  obtain ⟨r, w', e, hr', hret⟩ := hr.step hg hl (hc ys hw)
  have : r = .unit := by
    rcases hret with rfl | ⟨i, a, b, h, _⟩
    · cases op <;> first | rfl | exact absurd rfl (hop _ _)
    · exact absurd h (hop _ _)
  subst this
  exact ⟨ys, w', hw, e, hr'.reachable, hr'.winv hg⟩

/-- C43: copy construction: the new vector equals the old one, which is unchanged like all others. -/
theorem copy_construct {j : Nat} (hg : Good cfg) (hk : cfg.kind ≠ .reloc) (hr : Reachable cfg w) (hl : Lucky cfg w.mem) (hx : w.Reads j xs) :
    ∃ w', wstep cfg w (.copyCtor j) = (.ok .unit, w') ∧ Becomes cfg w w' w.vecs.length xs := by
  obtain ⟨ys, w', hw, e, hr', hw'⟩ := world_ok (op := .copyCtor j) hg hr hl (fun ys hw => ⟨⟨xs, hw.reads_iff.1 hx⟩, hk⟩)
    (fun _ _ h => by cases h)
  have hy := hw.reads_iff.1 hx
  refine ⟨w', e, ?_, fun k hk => ?_, hr'⟩
  · rw [hw'.reads_iff, hw.len]
    simp [specWorld, hy]
  · rw [hw.read, hw'.read]
    simp only [specWorld, hy, Option.join_some]
    rw [hw.len] at hk
    by_cases hlt : k < ys.length
    · rw [List.getElem?_append_left hlt]
    · rw [List.getElem?_eq_none (by simp; omega), List.getElem?_eq_none (by omega)]

example : ∃ w', wstep (exCfg .mov) (exWorld .mov) (.copyCtor 0) = (.ok .unit, w') ∧
    Becomes (exCfg .mov) (exWorld .mov) w' 3 [3, 1, 9, 2, 3] := by
  have := copy_construct exGood (by decide) exReach exLucky exReads.1
  rwa [exSizes.2.2.2] at this

/-- C43: copy assignment, including self-assignment. -/
theorem copy_assign {j : Nat} {zs : List α} (hg : Good cfg) (hk : cfg.kind ≠ .reloc) (hr : Reachable cfg w) (hl : Lucky cfg w.mem)
    (hx : w.Reads i xs) (hz : w.Reads j zs) :
    ∃ w', wstep cfg w (.copyAssign i j) = (.ok .unit, w') ∧ Becomes cfg w w' i zs := by
  obtain ⟨ys, w', hw, e, hr', hw'⟩ := world_ok (op := .copyAssign i j) hg hr hl
    (fun ys hw => ⟨⟨xs, hw.reads_iff.1 hx⟩, ⟨zs, hw.reads_iff.1 hz⟩, hk⟩) (fun _ _ h => by cases h)
  have hy := hw.reads_iff.1 hx
  have hyz := hw.reads_iff.1 hz
  refine ⟨w', e, ?_, fun k hk => ?_, hr'⟩
  · rw [hw'.reads_iff]
    simp only [specWorld, hyz, Option.join_some]
    rw [List.getElem?_set_self (lt_of_getElem? hy)]
  · rw [hw.read, hw'.read]
    simp only [specWorld]
    rw [join_set_ne hk]

example : ∃ w', wstep (exCfg .mov) (exWorld .mov) (.copyAssign 2 0) = (.ok .unit, w') ∧
    Becomes (exCfg .mov) (exWorld .mov) w' 2 [3, 1, 9, 2, 3] := copy_assign exGood (by decide) exReach exLucky exReads.2.2 exReads.1

/-- C43: move construction hands over the contents and leaves the source empty. -/
theorem move_construct {j : Nat} (hg : Good cfg) (hr : Reachable cfg w) (hl : Lucky cfg w.mem) (hx : w.Reads j xs) :
    ∃ w', wstep cfg w (.moveCtor j) = (.ok .unit, w') ∧ w'.Reads w.vecs.length xs ∧ w'.Reads j [] ∧
      w'.data w.vecs.length = w.data j ∧
      (∀ k, k ≠ j → k ≠ w.vecs.length → w'.read k = w.read k) ∧ Reachable cfg w' := by
  obtain ⟨ys, w', hw, e, hr', hw'⟩ := world_ok (op := .moveCtor j) hg hr hl (fun ys hw => ⟨xs, hw.reads_iff.1 hx⟩)
    (fun _ _ h => by cases h)
  have hy := hw.reads_iff.1 hx
  have hlt := lt_of_getElem? hy
  obtain ⟨v, hv, _⟩ := hw.vec hy
  refine ⟨w', e, ?_, ?_, ?_, fun k hk hk' => ?_, hr'⟩
  · rw [hw'.reads_iff, hw.len]
    simp only [specWorld, hy, Option.join_some]
    rw [List.getElem?_append_right (by simp)]
    simp
  · rw [hw'.reads_iff]
    simp only [specWorld, hy, Option.join_some]
    rw [List.getElem?_append_left (by simpa using hlt), List.getElem?_set_self hlt]
  · simp only [wstep, hv, Prod.mk.injEq] at e
    rw [data_eq hv, ← e.2]
    unfold World.data
    simp only
    rw [List.getElem?_append_right (by simp)]
    simp
  · rw [hw.read, hw'.read]
    simp only [specWorld, hy, Option.join_some]
    rw [hw.len] at hk'
    by_cases hlt : k < ys.length
    · rw [List.getElem?_append_left (by simpa using hlt), join_set_ne hk]
    · rw [List.getElem?_eq_none (by simp; omega), List.getElem?_eq_none (by omega)]

example : ∃ w', wstep (exCfg .mov) (exWorld .mov) (.moveCtor 0) = (.ok .unit, w') ∧ w'.Reads 3 [3, 1, 9, 2, 3] ∧ w'.Reads 0 [] ∧
      w'.data 3 = (exWorld .mov).data 0 ∧
      (∀ k, k ≠ 0 → k ≠ 3 → w'.read k = (exWorld .mov).read k) ∧ Reachable (exCfg .mov) w' := by
  have := move_construct exGood exReach exLucky exReads.1
  rwa [exSizes.2.2.2] at this

/-- C43: move assignment hands over the contents and leaves the source empty; self-move keeps them. -/
theorem move_assign {j : Nat} {zs : List α} (hg : Good cfg) (hr : Reachable cfg w) (hl : Lucky cfg w.mem)
    (hx : w.Reads i xs) (hz : w.Reads j zs) :
    ∃ w', wstep cfg w (.moveAssign i j) = (.ok .unit, w') ∧ w'.Reads i zs ∧ (i ≠ j → w'.Reads j []) ∧
      (∀ k, k ≠ i → k ≠ j → w'.read k = w.read k) ∧ Reachable cfg w' := by
  obtain ⟨ys, w', hw, e, hr', hw'⟩ := world_ok (op := .moveAssign i j) hg hr hl
    (fun ys hw => ⟨⟨xs, hw.reads_iff.1 hx⟩, ⟨zs, hw.reads_iff.1 hz⟩⟩) (fun _ _ h => by cases h)
  have hy := hw.reads_iff.1 hx
  have hyz := hw.reads_iff.1 hz
  by_cases hij : i = j
  · subst hij
    simp only [specWorld, if_true] at hw'
    exact ⟨w', e, hw'.reads_iff.2 hyz, fun h => absurd rfl h, fun k _ _ => by rw [hw.read, hw'.read], hr'⟩
  · simp only [specWorld, if_neg hij, hyz, Option.join_some] at hw'
    refine ⟨w', e, ?_, fun _ => ?_, fun k h1 h2 => ?_, hr'⟩
    · rw [hw'.reads_iff, List.getElem?_set_ne (Ne.symm hij), List.getElem?_set_self (lt_of_getElem? hy)]
    · rw [hw'.reads_iff, List.getElem?_set_self (by rw [List.length_set]; exact lt_of_getElem? hyz)]
    · rw [hw.read, hw'.read, join_set_ne h2, join_set_ne h1]

example : ∃ w', wstep (exCfg .mov) (exWorld .mov) (.moveAssign 2 0) = (.ok .unit, w') ∧ w'.Reads 2 [3, 1, 9, 2, 3] ∧
      (2 ≠ 0 → w'.Reads 0 []) ∧ (∀ k, k ≠ 2 → k ≠ 0 → w'.read k = (exWorld .mov).read k) ∧ Reachable (exCfg .mov) w' :=
  move_assign exGood exReach exLucky exReads.2.2 exReads.1

/-- C43: `swap` exchanges contents and storage. -/
theorem swap_exchanges {j : Nat} {zs : List α} (hg : Good cfg) (hr : Reachable cfg w) (hl : Lucky cfg w.mem)
    (hx : w.Reads i xs) (hz : w.Reads j zs) :
    ∃ w', wstep cfg w (.swap i j) = (.ok .unit, w') ∧ w'.Reads i zs ∧ w'.Reads j xs ∧
      w'.data i = w.data j ∧ w'.data j = w.data i ∧ w'.capacity i = w.capacity j ∧ w'.capacity j = w.capacity i ∧
      (∀ k, k ≠ i → k ≠ j → w'.read k = w.read k) ∧ Reachable cfg w' := by
  obtain ⟨ys, w', hw, e, hr', hw'⟩ := world_ok (op := .swap i j) hg hr hl
    (fun ys hw => ⟨⟨xs, hw.reads_iff.1 hx⟩, ⟨zs, hw.reads_iff.1 hz⟩⟩) (fun _ _ h => by cases h)
  have hy := hw.reads_iff.1 hx
  have hyz := hw.reads_iff.1 hz
  obtain ⟨u, hu, _⟩ := hw.vec hy
  obtain ⟨v, hv, _⟩ := hw.vec hyz
  simp only [specWorld, hy, hyz, Option.join_some] at hw'
  simp only [wstep, hu, hv, Prod.mk.injEq] at e
  have hi' : w'.vecs[i]? = some (some v) := by
    rw [← e.2]
    simp only [World.setVec]
    by_cases hij : i = j
    · subst hij
      rw [hu] at hv
      rw [List.getElem?_set_self (by rw [List.length_set]; exact lt_of_getElem? hu), ← hv]
    · rw [List.getElem?_set_ne (Ne.symm hij), List.getElem?_set_self (lt_of_getElem? hu)]
  have hj' : w'.vecs[j]? = some (some u) := by
    rw [← e.2]
    simp only [World.setVec]
    rw [List.getElem?_set_self (by rw [List.length_set]; exact lt_of_getElem? hv)]
  refine ⟨w', by simp only [wstep, hu, hv, e.2], ?_, ?_, ?_, ?_, ?_, ?_, fun k h1 h2 => ?_, hr'⟩
  · rw [hw'.reads_iff]
    by_cases hij : i = j
    · subst hij
      rw [hy] at hyz
      rw [List.getElem?_set_self (by rw [List.length_set]; exact lt_of_getElem? hy), hyz]
    · rw [List.getElem?_set_ne (Ne.symm hij), List.getElem?_set_self (lt_of_getElem? hy)]
  · rw [hw'.reads_iff, List.getElem?_set_self (by rw [List.length_set]; exact lt_of_getElem? hyz)]
  · rw [data_eq hv, data_eq hi']
  · rw [data_eq hu, data_eq hj']
  · rw [capacity_eq hv, capacity_eq hi']
  · rw [capacity_eq hu, capacity_eq hj']
  · rw [hw.read, hw'.read, join_set_ne h2, join_set_ne h1]

example : ∃ w', wstep (exCfg .mov) (exWorld .mov) (.swap 2 0) = (.ok .unit, w') ∧ w'.Reads 2 [3, 1, 9, 2, 3] ∧ w'.Reads 0 [0, 0] ∧
      w'.data 2 = (exWorld .mov).data 0 ∧ w'.data 0 = (exWorld .mov).data 2 ∧
      w'.capacity 2 = (exWorld .mov).capacity 0 ∧ w'.capacity 0 = (exWorld .mov).capacity 2 ∧
      (∀ k, k ≠ 2 → k ≠ 0 → w'.read k = (exWorld .mov).read k) ∧ Reachable (exCfg .mov) w' :=
  swap_exchanges exGood exReach exLucky exReads.2.2 exReads.1

/-- C43: different vectors never share storage. -/
theorem storage_is_own {j : Nat} {b : Nat} (hg : Good cfg) (hr : Reachable cfg w) (hi : w.data i = some b) (hj : w.data j = some b) :
    i = j := by
  obtain ⟨ys, hr⟩ := hr.reach
  have hw := hr.winv hg
  unfold World.data at hi hj
  split at hi
  · rename_i v hv
    split at hj
    · rename_i u hu
      exact hw.sep i j v u b hv hu hi hj
    · simp at hj
  · simp at hi

example : ∃ b, (exWorld .mov).data 0 = some b ∧ (exWorld .mov).data 2 ≠ some b := ⟨4, by decide +kernel, by decide +kernel⟩

end Verif.Vector
