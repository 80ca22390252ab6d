import Verif.Metrics.Threads
import Mathlib.Algebra.Order.BigOperators.Group.Finset
import Mathlib.Tactic.FinCases

/-!
Properties C29 to C32 and C73 of the metrics.
-/

namespace Verif.Metrics

variable {n : Nat}

/-! ### C29: histograms -/

/-- Number of hooks whose allocation has its size in bucket `i`. -/
def countSize (es : List Probe) (i : Fin 8) : Nat :=
  (es.filterMap sizeOf?).countP (fun v => decide (InBucket sizeUpper i v))

/-- Number of hooks of destroyed arenas with the lifetime in bucket `i`. -/
def countLife (es : List Probe) (i : Fin 8) : Nat :=
  (es.filterMap lifeOf?).countP (fun v => decide (InBucket lifeUpper i v))

theorem countSize_eq (es : List Probe) (i : Fin 8) :
    totalAdds es (.ctr (.size i)) = countSize es i := by
  induction es with
  | nil => rfl
  | cons e es ih =>
    unfold totalAdds countSize at *
    rw [List.map_cons, List.sum_cons, ih, List.filterMap_cons]
    cases h : sizeOf? e with
    | none => simp [adds, h]
    | some v => simp [adds, h, List.countP_cons, Nat.add_comm]

theorem countLife_eq (es : List Probe) (i : Fin 8) :
    totalAdds es (.ctr (.life i)) = countLife es i := by
  induction es with
  | nil => rfl
  | cons e es ih =>
    unfold totalAdds countLife at *
    rw [List.map_cons, List.sum_cons, ih, List.filterMap_cons]
    cases h : lifeOf? e with
    | none => simp [adds, h]
    | some v => simp [adds, h, List.countP_cons, Nat.add_comm]

/-- C29: whatever hooks a thread runs, bucket `i` of each histogram counts exactly the allocations
(lifetimes) whose least upper bound is bound `i`, and the buckets miss exactly the allocations above
1 MiB (the lifetimes above one second). -/
theorem c29_histogram {es : List Probe} {m : Metrics} (h : probes .zero es = .ok m) :
    (∀ i, m.ctr (.size i) = countSize es i % M64) ∧
    (∀ i, m.ctr (.life i) = countLife es i % M64) ∧
    ((∑ i, m.ctr (.size i)) + es.countP bigSize) % M64 = m.ctr .alloc ∧
    ((∑ i, m.ctr (.life i)) + es.countP longLife) % M64 = m.ctr .destruct := by
  have hck := (probes_ok_iff .zero es).1 ⟨m, h⟩
  obtain ⟨m', h1, h2, h3, h4⟩ := probes_get Metrics.zero_fits hck
  rw [h] at h1
  cases h1
  have z : ∀ c, m.ctr c = totalAdds es (.ctr c) % M64 := by
    intro c
    have := h3 (.ctr c)
    simpa [Metrics.get, Metrics.zero] using this
  have smod : ∀ f : Fin 8 → Nat, ∀ a, ((∑ i, f i % M64) + a) % M64 = ((∑ i, f i) + a) % M64 := by
    intro f a
    rw [Nat.add_mod, ← Finset.sum_nat_mod, ← Nat.add_mod]
  refine ⟨fun i => by rw [z, countSize_eq], fun i => by rw [z, countLife_eq], ?_, ?_⟩
  · simp only [z]
    rw [smod, size_total]
  · simp only [z]
    rw [smod, life_total hck]

/-- C29: a size is in exactly one bucket if it is at most 1 MiB, and in none otherwise. -/
theorem c29_one_bucket (v : Nat) : (v ≤ 1048576 → ∃! i, InBucket sizeUpper i v) ∧
    (1048576 < v → ∀ i, ¬ InBucket sizeUpper i v) := by
  refine ⟨fun h => ?_, fun h i hi => ?_⟩
  · obtain ⟨i, hi⟩ := bucket_exists sizeUpper_mono (v := v) h
    exact ⟨i, hi, fun j hj => bucket_unique hj hi⟩
  · have h1 := hi.1
    have : ∀ i, sizeUpper i ≤ 1048576 := by decide
    have := this i
    omega

/-- A non-trivial run: three allocations, one of them above 1 MiB, and a destruction. -/
def exProbes : List Probe :=
  [.init, .allocated 65 (some ⟨5, ⟨['a'], 3⟩⟩), .newblock, .allocated 64 (some ⟨5, ⟨['a'], 3⟩⟩),
   .allocated 2000000 (some ⟨5, ⟨['b'], 4⟩⟩), .reset 4096 12, .destroyed 8192 7 (some ⟨5, ⟨['a'], 3⟩⟩) 7000005]

example : ∃ m, probes .zero exProbes = .ok m ∧ m.ctr (.size 0) = 1 ∧ m.ctr (.size 1) = 1 ∧
    m.ctr (.life 2) = 1 ∧ m.ctr .alloc = 3 ∧ exProbes.countP bigSize = 1 ∧
    m.map = [(['a', ':', '3'], 129), (['b', ':', '4'], 2000000)] :=
  ⟨_, rfl, by decide +kernel, by decide +kernel, by decide +kernel, by decide +kernel, by decide +kernel,
    by decide +kernel⟩

/-! ### C30: reporting -/

/-- C30: a report adds every local cell to the global one modulo `2^64` and zeroes the local one;
reporting again changes nothing. -/
theorem c30_report {g l : Metrics} (hl : l.Fits) (hg : g.Fits) :
    (∀ x, (report g l).1.get x = (g.get x + l.get x) % M64) ∧
    (∀ x, (report g l).2.get x = 0) ∧
    (∀ x, (report (report g l).1 (report g l).2).1.get x = (report g l).1.get x) ∧
    (∀ k, k ∈ (report g l).1.map.map Prod.fst ↔ k ∈ g.map.map Prod.fst ∨ k ∈ l.map.map Prod.fst) ∧
    (report g l).1.Fits := by
  have key : ∀ {g l : Metrics}, l.Fits → g.Fits → ∀ x, (report g l).1.get x = (g.get x + l.get x) % M64 := by
    intro g l hl hg x
    cases x with
    | ctr c => exact report_ctr g l c
    | key k =>
      show mapGet (report g l).1.map k = _
      rw [report_map]
      rw [← Nat.mod_eq_of_lt (foldl_mapAdd_lt l.map (fun k => hg.1 (.key k)) k), foldl_mapAdd_get,
        mapGet_nodup hl.2]
      rfl
  have hf : (report g l).1.Fits := by
    refine ⟨fun x => ?_, ?_⟩
    · rw [key hl hg]; exact Nat.mod_lt _ (by decide)
    · rw [report_map]; exact foldl_mapAdd_nodup _ hg.2
  refine ⟨key hl hg, fun x => by cases x <;> rfl, fun x => ?_, fun k => ?_, hf⟩
  · have h2 : (report g l).2.Fits := Metrics.zero_fits
    rw [key h2 hf]
    have : (report g l).2.get x = 0 := by cases x <;> rfl
    rw [this, Nat.add_zero, Nat.mod_eq_of_lt (hf.1 x)]
  · rw [report_map]; exact foldl_mapAdd_keys _ _ _

/-- Metrics reached by running hooks fit. -/
theorem probes_fits {es : List Probe} {m : Metrics} (h : probes .zero es = .ok m) : m.Fits := by
  obtain ⟨m', h1, h2, _⟩ := probes_get Metrics.zero_fits ((probes_ok_iff .zero es).1 ⟨m, h⟩)
  rw [h] at h1; cases h1; exact h2

example : ∃ m, probes .zero exProbes = .ok m ∧ (report m m).1.get (.key ['b', ':', '4']) = 4000000 ∧
    (report m m).1.get (.ctr .alloc) = 6 ∧ (report m m).2.get (.ctr .alloc) = 0 :=
  let ⟨m, h⟩ := (probes_ok_iff .zero exProbes).2 (by decide)
  have f := probes_fits h
  have c := c30_report f f
  have e : m.get (.key ['b', ':', '4']) = 2000000 ∧ m.get (.ctr .alloc) = 3 := by cases h; decide +kernel
  ⟨m, h, by rw [c.1, e.1], by rw [c.1, e.2], c.2.1 _⟩

/-- C30: different source locations have different keys, so their bytes are never mixed up. -/
theorem c30_keys (a b : Loc) : locKey a = locKey b ↔ a = b :=
  ⟨locKey_inj, fun h => by rw [h]⟩

example : locKey ⟨"a.cc:1".toList, 2⟩ ≠ locKey ⟨"a.cc".toList, 12⟩ := by decide +kernel

/-! ### C31: concurrent reports -/

/-- What a thread still has to add to a global cell. -/
def Thread.unreported (th : Thread) (x : Cell) : Nat :=
  match th.todo with
  | none => th.loc.get x
  | some xs => if x ∈ xs then th.loc.get x else 0

theorem ThreadOK.unreported {th : Thread} {hooks old cur : List Probe} (h : ThreadOK th hooks old cur)
    (x : Cell) : (sent th.todo old cur x + th.unreported x) % M64 = totalAdds hooks x % M64 := by
  rw [h.split, totalAdds_append]
  unfold sent Thread.unreported sentNow
  have hg := h.get x
  cases th.todo with
  | none =>
    simp only [Bool.false_eq_true, if_false]
    rw [hg, Nat.add_zero, Nat.add_mod_mod]
  | some xs =>
    by_cases e : x ∈ xs
    · simp only [e, not_true_eq_false, decide_false, Bool.false_eq_true, if_false, if_true]
      rw [hg, Nat.add_zero, Nat.add_mod_mod]
    · simp [e]

/-- C31, at every moment: any number of threads run hooks and report, their atomic steps interleaved
in any way; each global cell together with what the threads have not yet reported is its initial
value plus everything the hooks contributed, modulo `2^64`. -/
theorem c31_conserved {p q : Proc n} (hp : p.Init) {s : List (Fin n × Act)} (h : p.run s = some q)
    (x : Cell) : (q.global.get x + ∑ t, (q.threads t).unreported x) % M64
      = (p.global.get x + totalAdds (allHooks s) x) % M64 := by
  obtain ⟨old, cur, hi⟩ := pinv_run hp h
  rw [hi.global, allHooks_sum, Nat.mod_add_mod, Nat.add_assoc, ← Finset.sum_add_distrib]
  have key : (∑ t, (sent (q.threads t).todo (old t) (cur t) x + (q.threads t).unreported x)) % M64
      = (∑ t, totalAdds (hooksOf t s) x) % M64 := by
    rw [Finset.sum_nat_mod]
    conv_rhs => rw [Finset.sum_nat_mod]
    simp only [fun t => (hi.threads t).unreported x]
  rw [Nat.add_mod, key, ← Nat.add_mod]

/-- C31: when every thread has reported everything, each global cell is its initial value plus
everything the hooks of all threads contributed, modulo `2^64`. -/
theorem c31_concurrent {p q : Proc n} (hp : p.Init) {s : List (Fin n × Act)} (h : p.run s = some q)
    (hfl : ∀ t, (q.threads t).Flushed) (x : Cell) :
    q.global.get x = (p.global.get x + totalAdds (allHooks s) x) % M64 := by
  have h1 := c31_conserved hp h x
  have h2 : ∑ t, (q.threads t).unreported x = 0 := by
    refine Finset.sum_eq_zero (fun t _ => ?_)
    unfold Thread.unreported
    rw [(hfl t).1, (hfl t).2]
    cases x <;> rfl
  obtain ⟨old, cur, hi⟩ := pinv_run hp h
  rw [h2, Nat.add_zero, hi.global, Nat.mod_mod, ← hi.global] at h1
  exact h1

/-- Enough `fetch_add`s of thread `t` for `k` cells. -/
def adds' (t : Fin 2) (k : Nat) : List (Fin 2 × Act) := List.replicate k (t, .fetchAdd)

/-- A schedule of two threads whose reports overlap. -/
def exSched : List (Fin 2 × Act) :=
  [(0, .hook (.allocated 65 (some ⟨5, ⟨['a'], 3⟩⟩))), (1, .hook (.allocated 3 (some ⟨5, ⟨['a'], 3⟩⟩))),
   (0, .start)] ++ adds' 0 3 ++ [(1, .hook (.destroyed 1 2 (some ⟨5, ⟨['a'], 3⟩⟩) 9)), (1, .start)] ++ adds' 1 20 ++
  adds' 0 23 ++ [(0, .finish)] ++ adds' 1 6 ++ [(1, .finish)]

theorem start_init (n : Nat) (keys : List Key) : (Proc.start n keys).Init := by
  refine ⟨fun t => rfl, fun x => ?_⟩
  cases x with
  | ctr c => show 0 < M64; decide
  | key k =>
    show mapGet (keys.map (fun k => (k, 0))) k < M64
    have : mapGet (keys.map (fun k => (k, 0))) k = 0 := by
      induction keys with
      | nil => rfl
      | cons a l ih => simp only [List.map_cons, mapGet]; split <;> [rfl; exact ih]
    rw [this]; decide

theorem start_zero (n : Nat) (keys : List Key) (x : Cell) : (Proc.start n keys).global.get x = 0 := by
  cases x with
  | ctr c => rfl
  | key k =>
    show mapGet (keys.map (fun k => (k, 0))) k = 0
    induction keys with
    | nil => rfl
    | cons a l ih => simp only [List.map_cons, mapGet]; split <;> [rfl; exact ih]

/-- Checks that a schedule runs and leaves all threads idle with empty maps. -/
def endsIdle (p : Proc 2) (s : List (Fin 2 × Act)) : Bool :=
  match p.run s with
  | none => false
  | some q => (List.finRange 2).all (fun t => (q.threads t).todo.isNone && (q.threads t).loc.map.isEmpty &&
      reportOrder.all (fun c => (q.threads t).loc.ctr c = 0))

theorem endsIdle_spec {p : Proc 2} {s : List (Fin 2 × Act)} (h : endsIdle p s = true) :
    ∃ q, p.run s = some q ∧ ∀ t, (q.threads t).Flushed := by
  unfold endsIdle at h
  cases e : p.run s with
  | none => rw [e] at h; cases h
  | some q =>
    rw [e] at h
    refine ⟨q, rfl, fun t => ?_⟩
    have := List.all_eq_true.1 h t (List.mem_finRange t)
    simp only [Bool.and_eq_true, Option.isNone_iff_eq_none, List.isEmpty_iff, List.all_eq_true,
      decide_eq_true_eq] at this
    refine ⟨this.1.1, ?_⟩
    generalize (q.threads t).loc = l at this
    obtain ⟨c, m⟩ := l
    obtain ⟨⟨_, h2⟩, h3⟩ := this
    simp only at h2 h3
    have : c = fun _ => 0 := funext (fun d => h3 d (mem_reportOrder d))
    rw [this, h2]; rfl

theorem exSched_runs : ∃ q, (Proc.start 2 [['a', ':', '3']]).run exSched = some q ∧
    ∀ t, (q.threads t).Flushed := endsIdle_spec (by decide +kernel)

example : ∃ q, (Proc.start 2 [['a', ':', '3']]).run exSched = some q ∧ q.global.get (.ctr .alloc) = 2 ∧
    q.global.get (.ctr .spaceWasted) = 2 ∧ q.global.get (.key ['a', ':', '3']) = 68 :=
  let ⟨q, h1, h2⟩ := exSched_runs
  have c := c31_concurrent (start_init 2 _) h1 h2
  ⟨q, h1, by rw [c]; decide +kernel, by rw [c]; decide +kernel, by rw [c]; decide +kernel⟩

/-! ### C32: the report string -/

theorem suffix_mem {l xs u w : List Cell} {a : Cell} (hl : l = u ++ a :: w) (hnd : l.Nodup)
    (hs : xs <:+ l) (ha : a ∈ xs) : ∀ b ∈ w, b ∈ xs := by
  intro b hb
  subst hl
  rcases List.suffix_or_suffix_of_suffix hs (List.suffix_append u (a :: w)) with h | h
  · rcases List.suffix_cons_iff.1 h with h | h
    · rw [h]; exact List.mem_cons_of_mem _ hb
    · have haw := h.subset ha
      rw [List.nodup_append] at hnd
      exact absurd haw (List.nodup_cons.1 hnd.2.1).1
  · exact h.subset (List.mem_cons_of_mem _ hb)

theorem alloc_split (l : Metrics) : ∃ u w, reportCells l = u ++ .ctr .alloc :: w ∧
    ∀ i, .ctr (.size i) ∈ w := by
  refine ⟨[.ctr .init, .ctr .reset], _, rfl, fun i => ?_⟩
  simp

theorem destruct_split (l : Metrics) : ∃ u w, reportCells l = u ++ .ctr .destruct :: w ∧
    ∀ i, .ctr (.life i) ∈ w := by
  refine ⟨[.ctr .init, .ctr .reset, .ctr .alloc, .ctr .newblock], _, rfl, fun i => ?_⟩
  simp

/-- What a thread has reported in buckets is at most what it has reported in the total. -/
theorem sent_le {th : Thread} {hooks old cur : List Probe} (h : ThreadOK th hooks old cur)
    {tot : Ctr} {bucket : Fin 8 → Ctr}
    (hsplit : ∃ u w, reportCells th.loc = u ++ .ctr tot :: w ∧ ∀ i, .ctr (bucket i) ∈ w)
    (hold : ∑ i, totalAdds old (.ctr (bucket i)) ≤ totalAdds old (.ctr tot))
    (hcur : ∑ i, totalAdds cur (.ctr (bucket i)) ≤ totalAdds cur (.ctr tot)) :
    ∑ i, sent th.todo old cur (.ctr (bucket i)) ≤ sent th.todo old cur (.ctr tot) := by
  unfold sent
  rw [Finset.sum_add_distrib]
  refine Nat.add_le_add hold ?_
  by_cases e : sentNow th.todo (.ctr tot) = true
  · rw [if_pos e]
    refine Nat.le_trans (Finset.sum_le_sum (fun i _ => ?_)) hcur
    split <;> omega
  · have : ∑ i, (if sentNow th.todo (.ctr (bucket i)) then totalAdds cur (.ctr (bucket i)) else 0) = 0 := by
      refine Finset.sum_eq_zero (fun i _ => ?_)
      rw [if_neg]
      unfold sentNow at *
      cases htd : th.todo with
      | none => simp
      | some xs =>
        rw [htd] at e
        simp only [decide_eq_true_eq, not_not] at e ⊢
        obtain ⟨u, w, h1, h2⟩ := hsplit
        exact suffix_mem h1 (reportCells_nodup h.fits) (h.order xs htd) e _ (h2 i)
    rw [this]; omega

/-- The cells that count events. -/
def IsCount : Ctr → Prop
  | .alloc | .destruct | .size _ | .life _ => True
  | _ => False

theorem adds_le_one (e : Probe) {c : Ctr} (h : IsCount c) : adds e (.ctr c) ≤ 1 := by
  cases c with
  | alloc => cases e <;> simp [adds]
  | destruct => cases e <;> simp [adds]
  | size i => simp only [adds]; split <;> [(split <;> omega); omega]
  | life i => simp only [adds]; split <;> [(split <;> omega); omega]
  | _ => exact absurd h id

theorem totalAdds_le (es : List Probe) {c : Ctr} (h : IsCount c) : totalAdds es (.ctr c) ≤ es.length := by
  induction es with
  | nil => simp
  | cons e es ih =>
    have := adds_le_one e h
    simp only [totalAdds, List.map_cons, List.sum_cons, List.length_cons] at *
    omega

theorem hooksOf_cookie {p q : Proc n} {s : List (Fin n × Act)} (h : p.run s = some q) :
    ∀ e ∈ allHooks s, HasCookie e := by
  induction s generalizing p with
  | nil => simp [allHooks]
  | cons x s ih =>
    obtain ⟨t, a⟩ := x
    simp only [Proc.run] at h
    cases e1 : p.act t a with
    | none => rw [e1] at h; cases h
    | some p' =>
      rw [e1] at h
      intro e he
      unfold allHooks at he
      rw [List.filterMap_cons] at he
      cases a with
      | hook e' =>
        simp only [List.mem_cons] at he
        rcases he with rfl | he
        · exact hooks_cookie e1
        · exact ih h e he
      | _ => exact ih h e he

theorem hooksOf_sub (t : Fin n) (s : List (Fin n × Act)) : ∀ e ∈ hooksOf t s, e ∈ allHooks s := by
  intro e he
  obtain ⟨x, hx, h⟩ := List.mem_filterMap.1 he
  refine List.mem_filterMap.2 ⟨x, hx, ?_⟩
  split at h
  · exact h
  · cases h

/-- The exact values of the counts while no overflow is possible. -/
theorem counts {p q : Proc n} (hz : ∀ x, p.global.get x = 0) {s s' : List (Fin n × Act)}
    {old cur : Fin n → List Probe} (hi : PInv p.global.get q s old cur)
    (hlen : 100 * (allHooks s').length < M64) (hpre : ∀ x, totalAdds (allHooks s) x ≤ totalAdds (allHooks s') x)
    {c : Ctr} (hc : IsCount c) :
    q.global.ctr c = ∑ t, sent (q.threads t).todo (old t) (cur t) (.ctr c) ∧ 100 * q.global.ctr c < M64 := by
  have h1 := hi.global (.ctr c)
  rw [hz, Nat.zero_add] at h1
  have h2 : ∑ t, sent (q.threads t).todo (old t) (cur t) (.ctr c) ≤ totalAdds (allHooks s) (.ctr c) := by
    rw [allHooks_sum]
    refine Finset.sum_le_sum (fun t _ => ?_)
    rw [(hi.threads t).split, totalAdds_append]
    unfold sent
    split <;> omega
  have h3 := hpre (.ctr c)
  have h4 := totalAdds_le (allHooks s') hc
  have h5 : (q.global.get (.ctr c)) = q.global.ctr c := rfl
  rw [h5] at h1
  have h6 := Nat.mod_eq_of_lt (a := ∑ t, sent (q.threads t).todo (old t) (cur t) (.ctr c)) (b := M64) (by omega)
  rw [h6] at h1
  exact ⟨h1, by omega⟩

theorem sizes_le {g0 : Cell → Nat} {q : Proc n} {s : List (Fin n × Act)}
    {old cur : Fin n → List Probe} (hi : PInv g0 q s old cur) :
    ∑ i, ∑ t, sent (q.threads t).todo (old t) (cur t) (.ctr (.size i))
      ≤ ∑ t, sent (q.threads t).todo (old t) (cur t) (.ctr .alloc) := by
  rw [Finset.sum_comm]
  refine Finset.sum_le_sum (fun t _ => ?_)
  have h1 := size_total (old t)
  have h2 := size_total (cur t)
  exact sent_le (hi.threads t) (alloc_split _) (by omega) (by omega)

theorem lives_le {g0 : Cell → Nat} {q : Proc n} {s : List (Fin n × Act)}
    {old cur : Fin n → List Probe} (hi : PInv g0 q s old cur) (hck : ∀ e ∈ allHooks s, HasCookie e) :
    ∑ i, ∑ t, sent (q.threads t).todo (old t) (cur t) (.ctr (.life i))
      ≤ ∑ t, sent (q.threads t).todo (old t) (cur t) (.ctr .destruct) := by
  rw [Finset.sum_comm]
  refine Finset.sum_le_sum (fun t _ => ?_)
  have hc : ∀ e ∈ old t ++ cur t, HasCookie e := by
    rw [← (hi.threads t).split]
    exact fun e he => hck e (hooksOf_sub t s e he)
  have h1 := life_total (es := old t) (fun e he => hc e (List.mem_append_left _ he))
  have h2 := life_total (es := cur t) (fun e he => hc e (List.mem_append_right _ he))
  exact sent_le (hi.threads t) (destruct_split _) (by omega) (by omega)

/-- The loop of percentages when nothing overflows. -/
theorem percentLoop_ok (l : List (Nat × Nat)) (count : Nat) (ht : ∀ x ∈ l, 0 < x.2)
    (hs : 100 * (count + (l.map Prod.fst).sum) < M64) :
    ∃ a, percentLoop count l = .ok a ∧ a.length = l.length ∧
      ∀ i (h : i < l.length) (h' : i < a.length),
        a[i] = 100 * (count + ((l.take (i + 1)).map Prod.fst).sum) / l[i].2 := by
  induction l generalizing count with
  | nil => exact ⟨[], rfl, rfl, fun i h => by simp at h⟩
  | cons x l ih =>
    obtain ⟨c, t⟩ := x
    simp only [List.map_cons, List.sum_cons] at hs
    have hadd : add64 count c = count + c := Nat.mod_eq_of_lt (by omega)
    obtain ⟨a, h1, h2, h3⟩ := ih (count + c) (fun y hy => ht y (List.mem_cons_of_mem _ hy)) (by omega)
    have ht0 : ¬ t = 0 := by have := ht (c, t) List.mem_cons_self; simp at this; omega
    have hmul : mul64 (count + c) 100 = (count + c) * 100 := Nat.mod_eq_of_lt (by omega)
    refine ⟨(count + c) * 100 / t :: a, ?_, by simp [h2], ?_⟩
    · simp only [percentLoop, hadd, if_neg ht0, h1, hmul]
      rfl
    · intro i h h'
      cases i with
      | zero => simp [Nat.mul_comm]
      | succ i =>
        simp only [List.getElem_cons_succ, List.take_succ_cons, List.map_cons, List.sum_cons]
        rw [h3 i (by simpa using h) (by simpa using h')]
        congr 2; omega

theorem take_sum (f : Fin 8 → Nat) (i : Fin 8) :
    (((List.finRange 8).take (i.val + 1)).map f).sum = ∑ j ∈ Finset.univ.filter (· ≤ i), f j := by
  have h8 : List.finRange 8 = [0, 1, 2, 3, 4, 5, 6, 7] := by decide
  rw [h8, Finset.sum_filter, Fin.sum_univ_eight]
  fin_cases i <;> simp [Nat.add_assoc]

/-- One distribution: the reader reads bucket `i` at moment `tb i` and the total at moment `tt i`. -/
theorem distribution {g : Nat → Metrics} {tb tt : Fin 8 → Nat} {bucket : Fin 8 → Ctr} {tot : Ctr}
    (hpos : ∀ i, 0 < (g (tt i)).ctr tot) (hlt : ∀ i, 100 * (g (tt i)).ctr tot < M64)
    (hmono : ∀ i j, i ≤ j → (g (tb i)).ctr (bucket i) ≤ (g (tt j)).ctr (bucket i))
    (hsum : ∀ j, ∑ i, (g (tt j)).ctr (bucket i) ≤ (g (tt j)).ctr tot) :
    ∃ a, percentLoop 0 ((List.finRange 8).map (fun i => ((g (tb i)).ctr (bucket i), (g (tt i)).ctr tot))) = .ok a ∧
      a.length = 8 ∧ ∀ (i : Fin 8) (h : i.val < a.length),
        a[i.val] = 100 * (∑ j ∈ Finset.univ.filter (· ≤ i), (g (tb j)).ctr (bucket j)) / (g (tt i)).ctr tot ∧
        a[i.val] ≤ 100 := by
  have pref : ∀ i : Fin 8, ∑ j ∈ Finset.univ.filter (· ≤ i), (g (tb j)).ctr (bucket j) ≤ (g (tt i)).ctr tot := by
    intro i
    refine Nat.le_trans (Finset.sum_le_sum (fun j hj => hmono j i (Finset.mem_filter.1 hj).2)) ?_
    exact Nat.le_trans (Finset.sum_le_sum_of_subset (Finset.subset_univ _)) (hsum i)
  have h7 := pref 7
  have hall : ∑ j ∈ Finset.univ.filter (· ≤ (7 : Fin 8)), (g (tb j)).ctr (bucket j)
      = (((List.finRange 8).map (fun i => ((g (tb i)).ctr (bucket i), (g (tt i)).ctr tot))).map Prod.fst).sum := by
    rw [← take_sum, List.map_map]
    rfl
  have hl7 := hlt 7
  obtain ⟨a, h1, h2, h3⟩ := percentLoop_ok
    ((List.finRange 8).map (fun i => ((g (tb i)).ctr (bucket i), (g (tt i)).ctr tot))) 0
    (by
      intro x hx
      obtain ⟨i, _, rfl⟩ := List.mem_map.1 hx
      exact hpos i)
    (by rw [← hall]; omega)
  refine ⟨a, h1, by simpa using h2, fun i hi => ?_⟩
  have h4 := h3 i.val (by simp) hi
  have h5 : ((List.take (i.val + 1) ((List.finRange 8).map (fun i => ((g (tb i)).ctr (bucket i), (g (tt i)).ctr tot)))).map
      Prod.fst).sum = ∑ j ∈ Finset.univ.filter (· ≤ i), (g (tb j)).ctr (bucket j) := by
    rw [← take_sum, ← List.map_take, List.map_map]
    rfl
  rw [h5] at h4
  simp only [List.getElem_map, List.getElem_finRange, Nat.zero_add] at h4
  have h6 : a[i.val] = 100 * (∑ j ∈ Finset.univ.filter (· ≤ i), (g (tb j)).ctr (bucket j)) / (g (tt i)).ctr tot := h4
  refine ⟨h6, ?_⟩
  rw [h6]
  refine Nat.div_le_of_le_mul ?_
  have := pref i
  rw [Nat.mul_comm ((g (tt i)).ctr tot) 100]
  exact Nat.mul_le_mul_left _ this

theorem run_take {p q : Proc n} {s : List (Fin n × Act)} (h : p.run s = some q) (k : Nat) :
    ∃ q', p.run (s.take k) = some q' ∧ q'.run (s.drop k) = some q := by
  have := run_append p (s.take k) (s.drop k)
  rw [List.take_append_drop, h] at this
  cases e : p.run (s.take k) with
  | none => rw [e] at this; cases this
  | some q' => exact ⟨q', rfl, by rw [e] at this; exact this.symm⟩

theorem allHooks_append (s s' : List (Fin n × Act)) : allHooks (s ++ s') = allHooks s ++ allHooks s' := by
  unfold allHooks; rw [List.filterMap_append]

theorem allHooks_take (s : List (Fin n × Act)) (k : Nat) (x : Cell) :
    totalAdds (allHooks (s.take k)) x ≤ totalAdds (allHooks s) x := by
  conv_rhs => rw [← List.take_append_drop k s]
  rw [allHooks_append, totalAdds_append]
  omega

/-- Facts about the global counts at two moments of a run. -/
theorem moments {p : Proc n} (hp : p.Init) (hz : ∀ x, p.global.get x = 0) {s : List (Fin n × Act)}
    (hlen : 100 * (allHooks s).length < M64) {k l : Nat} (hkl : k ≤ l)
    {q1 q2 : Proc n} (h1 : p.run (s.take k) = some q1) (h2 : p.run (s.take l) = some q2) :
    (∀ c, IsCount c → q1.global.ctr c ≤ q2.global.ctr c) ∧
    (∀ c, IsCount c → 100 * q2.global.ctr c < M64) ∧
    ∑ i, q2.global.ctr (.size i) ≤ q2.global.ctr .alloc ∧
    ∑ i, q2.global.ctr (.life i) ≤ q2.global.ctr .destruct := by
  obtain ⟨old, cur, hi⟩ := pinv_run hp h1
  have hsplit : s.take l = s.take k ++ (s.take l).drop k := by
    conv_lhs => rw [← List.take_append_drop k (s.take l)]
    rw [List.take_take, Nat.min_eq_left hkl]
  have h12 : q1.run ((s.take l).drop k) = some q2 := by
    rw [hsplit, run_append, h1] at h2
    exact h2
  obtain ⟨old2, cur2, hi2, hm⟩ := hi.run h12
  rw [← hsplit] at hi2
  have c1 := fun {c} (hc : IsCount c) => counts hz hi hlen (allHooks_take s k) hc
  have c2 := fun {c} (hc : IsCount c) => counts hz hi2 hlen (allHooks_take s l) hc
  refine ⟨fun c hc => ?_, fun c hc => (c2 hc).2, ?_, ?_⟩
  · rw [(c1 hc).1, (c2 hc).1]
    exact Finset.sum_le_sum (fun t _ => hm t _)
  · rw [(c2 (c := .alloc) trivial).1]
    simp only [fun i => (c2 (c := .size i) trivial).1]
    exact sizes_le hi2
  · rw [(c2 (c := .destruct) trivial).1]
    simp only [fun i => (c2 (c := .life i) trivial).1]
    exact lives_le hi2 (hooksOf_cookie h2)

/-- C32 as claimed is violated: a process that has not allocated anything divides by zero when it
prints its metrics, and so does one that has allocated but not destroyed an arena. -/
theorem c32_violated : percentages Metrics.zero = .error (.ub "division by zero") ∧
    ∀ m, probes .zero [.init, .newblock, .allocated 8 (some ⟨0, ⟨['a'], 1⟩⟩)] = .ok m →
      percentages (report .zero m).1 = .error (.ub "division by zero") := by
  refine ⟨by decide +kernel, ?_⟩
  intro m hm
  cases hm
  decide +kernel

/-- C32 (what is missing: `alloc_count` or `destruct_count` may be zero, see `c32_violated`).  Threads
run hooks and report in any interleaving, starting from zero, with less than `2^64 / 100` hooks in
all.  At any moment at which both totals are positive the report string is well defined; line `i`
is the rounded percentage of the allocations (lifetimes) counted in the buckets up to `i`; the
percentages do not decrease and are at most 100. -/
theorem c32_partial {p q : Proc n} (hp : p.Init) (hz : ∀ x, p.global.get x = 0)
    {s : List (Fin n × Act)} (h : p.run s = some q) (hlen : 100 * (allHooks s).length < M64)
    (ha : 0 < q.global.ctr .alloc) (hd : 0 < q.global.ctr .destruct) :
    ∃ a b, percentages q.global = .ok (a, b) ∧ a.length = 8 ∧ b.length = 8 ∧
      (∀ (i : Fin 8) (h : i.val < a.length), a[i.val]
        = 100 * (∑ j ∈ Finset.univ.filter (· ≤ i), q.global.ctr (.size j)) / q.global.ctr .alloc) ∧
      (∀ (i : Fin 8) (h : i.val < b.length), b[i.val]
        = 100 * (∑ j ∈ Finset.univ.filter (· ≤ i), q.global.ctr (.life j)) / q.global.ctr .destruct) ∧
      a.Pairwise (· ≤ ·) ∧ b.Pairwise (· ≤ ·) ∧ (∀ v ∈ a, v ≤ 100) ∧ (∀ v ∈ b, v ≤ 100) := by
  have hm := moments hp hz hlen (Nat.le_refl s.length) (q1 := q) (q2 := q) (by simpa using h) (by simpa using h)
  obtain ⟨a, a1, a2, a3⟩ := distribution (g := fun _ => q.global) (tb := fun _ => 0) (tt := fun _ => 0)
    (bucket := .size) (tot := .alloc) (fun _ => ha) (fun _ => hm.2.1 _ trivial) (fun _ _ _ => Nat.le_refl _)
    (fun _ => hm.2.2.1)
  obtain ⟨b, b1, b2, b3⟩ := distribution (g := fun _ => q.global) (tb := fun _ => 0) (tt := fun _ => 0)
    (bucket := .life) (tot := .destruct) (fun _ => hd) (fun _ => hm.2.1 _ trivial) (fun _ _ _ => Nat.le_refl _)
    (fun _ => hm.2.2.2)
  have mono : ∀ (l : List Nat) (f : Fin 8 → Nat) (t : Nat), l.length = 8 →
      (∀ (i : Fin 8) (h : i.val < l.length), l[i.val]
        = 100 * (∑ j ∈ Finset.univ.filter (· ≤ i), f j) / t) → l.Pairwise (· ≤ ·) := by
    intro l f t hl hf
    rw [List.pairwise_iff_getElem]
    intro i j hi hj hij
    have e1 := hf ⟨i, by omega⟩ hi
    have e2 := hf ⟨j, by omega⟩ hj
    rw [e1, e2]
    refine Nat.div_le_div_right (Nat.mul_le_mul_left _ (Finset.sum_le_sum_of_subset ?_))
    intro x hx
    rw [Finset.mem_filter] at hx ⊢
    refine ⟨hx.1, Nat.le_trans hx.2 ?_⟩
    exact Nat.le_of_lt hij
  have le : ∀ l : List Nat, l.length = 8 → (∀ (i : Fin 8) (h : i.val < l.length), l[i.val] ≤ 100) →
      ∀ v ∈ l, v ≤ 100 := by
    intro l hl hf v hv
    obtain ⟨i, hi, rfl⟩ := List.mem_iff_getElem.1 hv
    exact hf ⟨i, by omega⟩ hi
  refine ⟨a, b, ?_, a2, b2, fun i h => (a3 i h).1, fun i h => (b3 i h).1,
    mono a _ _ a2 (fun i h => (a3 i h).1), mono b _ _ b2 (fun i h => (b3 i h).1),
    le a a2 (fun i h => (a3 i h).2), le b b2 (fun i h => (b3 i h).2)⟩
  simp only [percentages, a1, b1]
  rfl

/-- C32 while other threads keep reporting: the reader reads bucket `i` and then the total at some
later moment, bucket by bucket; no percentage exceeds 100 (but they may decrease, see
`c32_decreasing`). -/
theorem c32_concurrent_partial {p : Proc n} (hp : p.Init) (hz : ∀ x, p.global.get x = 0)
    {s : List (Fin n × Act)} (hlen : 100 * (allHooks s).length < M64)
    {g : Nat → Metrics} (hg : ∀ k, ∃ q', p.run (s.take k) = some q' ∧ q'.global = g k)
    {tb tt : Fin 8 → Nat} (hord : ∀ i j, i ≤ j → tb i ≤ tt j) :
    ((∀ i, 0 < (g (tt i)).ctr .alloc) →
      ∃ a, percentLoop 0 ((List.finRange 8).map (fun i => ((g (tb i)).ctr (.size i), (g (tt i)).ctr .alloc)))
        = .ok a ∧ ∀ v ∈ a, v ≤ 100) ∧
    ((∀ i, 0 < (g (tt i)).ctr .destruct) →
      ∃ a, percentLoop 0 ((List.finRange 8).map (fun i => ((g (tb i)).ctr (.life i), (g (tt i)).ctr .destruct)))
        = .ok a ∧ ∀ v ∈ a, v ≤ 100) := by
  have hm : ∀ k l, k ≤ l → (∀ c, IsCount c → (g k).ctr c ≤ (g l).ctr c) ∧
      (∀ c, IsCount c → 100 * (g l).ctr c < M64) ∧
      ∑ i, (g l).ctr (.size i) ≤ (g l).ctr .alloc ∧ ∑ i, (g l).ctr (.life i) ≤ (g l).ctr .destruct := by
    intro k l hkl
    obtain ⟨q1, h1, e1⟩ := hg k
    obtain ⟨q2, h2, e2⟩ := hg l
    rw [← e1, ← e2]
    exact moments hp hz hlen hkl h1 h2
  have le : ∀ l : List Nat, l.length = 8 → (∀ (i : Fin 8) (h : i.val < l.length), l[i.val] ≤ 100) →
      ∀ v ∈ l, v ≤ 100 := by
    intro l hl hf v hv
    obtain ⟨i, hi, rfl⟩ := List.mem_iff_getElem.1 hv
    exact hf ⟨i, by omega⟩ hi
  refine ⟨fun hpos => ?_, fun hpos => ?_⟩
  · obtain ⟨a, a1, a2, a3⟩ := distribution hpos (fun i => (hm _ _ (Nat.le_refl _)).2.1 _ trivial)
      (bucket := .size) (fun i j hij => (hm _ _ (hord i j hij)).1 _ trivial) (fun j => (hm _ _ (Nat.le_refl _)).2.2.1)
    exact ⟨a, a1, le a a2 (fun i h => (a3 i h).2)⟩
  · obtain ⟨a, a1, a2, a3⟩ := distribution hpos (fun i => (hm _ _ (Nat.le_refl _)).2.1 _ trivial)
      (bucket := .life) (fun i j hij => (hm _ _ (hord i j hij)).1 _ trivial) (fun j => (hm _ _ (Nat.le_refl _)).2.2.2)
    exact ⟨a, a1, le a a2 (fun i h => (a3 i h).2)⟩

/-- Thread 0 reports an allocation of 3 bytes; then thread 1 starts to report one of 65 bytes. -/
def decSched : List (Fin 2 × Act) :=
  [(0, .hook (.allocated 3 (some ⟨5, ⟨['a'], 3⟩⟩))), (0, .start)] ++ adds' 0 26 ++ [(0, .finish)] ++
  [(1, .hook (.allocated 65 (some ⟨5, ⟨['a'], 3⟩⟩))), (1, .start)] ++ adds' 1 3

/-- The global metrics after `k` steps of `decSched`. -/
def decRead (k : Nat) : Option Metrics :=
  ((Proc.start 2 [['a', ':', '3']]).run (decSched.take k)).map (fun q => q.global)

/-- The percentages read concurrently can decrease: the total grows between the first line (100%) and
the second one (50%). -/
theorem c32_decreasing : ∃ l, ((List.finRange 8).mapM (fun i => do
      let g ← decRead 29
      let g' ← decRead (if i = 0 then 29 else 34)
      return (g.ctr (.size i), g'.ctr .alloc)) : Option (List (Nat × Nat))) = some l ∧
    percentLoop 0 l = .ok [100, 50, 50, 50, 50, 50, 50, 50] := by
  refine ⟨[(1, 1), (0, 2), (0, 2), (0, 2), (0, 2), (0, 2), (0, 2), (0, 2)], ?_, ?_⟩ <;> decide +kernel

example : ∃ q, (Proc.start 2 [['a', ':', '3']]).run exSched = some q ∧
    ∃ a b, percentages q.global = .ok (a, b) ∧ (∀ v ∈ a, v ≤ 100) ∧ a.Pairwise (· ≤ ·) :=
  let ⟨q, h1, h2⟩ := exSched_runs
  have c := c31_concurrent (start_init 2 _) h1 h2
  have e1 : q.global.ctr .alloc = 2 := (c (.ctr .alloc)).trans (by decide +kernel)
  have e2 : q.global.ctr .destruct = 1 := (c (.ctr .destruct)).trans (by decide +kernel)
  have ⟨a, b, h⟩ := c32_partial (start_init 2 _) (start_zero 2 _) h1 (by decide +kernel) (by omega) (by omega)
  ⟨q, h1, a, b, h.1, h.2.2.2.2.2.2.2.1, h.2.2.2.2.2.1⟩

theorem trajectory {p q : Proc n} {s : List (Fin n × Act)} (h : p.run s = some q) :
    ∃ g : Nat → Metrics, ∀ k, ∃ q', p.run (s.take k) = some q' ∧ q'.global = g k := by
  choose f hf using run_take h
  exact ⟨fun k => (f k).global, fun k => ⟨f k, (hf k).1, rfl⟩⟩

example : ∃ g : Nat → Metrics, (∀ k, ∃ q', (Proc.start 2 [['a', ':', '3']]).run (exSched.take k) = some q' ∧
      q'.global = g k) ∧
    ∃ a, percentLoop 0 ((List.finRange 8).map (fun i => ((g (30 + i.val)).ctr (.size i), (g (45 + i.val)).ctr .alloc)))
        = .ok a ∧ ∀ v ∈ a, v ≤ 100 := by
  obtain ⟨q, h1, h2⟩ := exSched_runs
  obtain ⟨g, hg⟩ := trajectory h1
  refine ⟨g, hg, (c32_concurrent_partial (tb := fun i => 30 + i.val) (tt := fun i => 45 + i.val)
    (start_init 2 [['a', ':', '3']]) (start_zero 2 _) (s := exSched) (by decide +kernel) hg ?_).1 ?_⟩
  · intro i j _; have := i.isLt; have := j.isLt; omega
  · intro i
    obtain ⟨q1, h3, e1⟩ := hg 6
    obtain ⟨q2, h4, e2⟩ := hg (45 + i.val)
    have h5 := (moments (start_init 2 [['a', ':', '3']]) (start_zero 2 _) (s := exSched) (by decide +kernel)
      (k := 6) (l := 45 + i.val) (by omega) h3 h4).1 .alloc trivial
    have h6 : ((Proc.start 2 [['a', ':', '3']]).run (exSched.take 6)).map (fun q => q.global.ctr .alloc) = some 1 := by
      decide +kernel
    rw [h3] at h6
    simp only [Option.map_some, Option.some.injEq] at h6
    rw [← e2]; omega

end Verif.Metrics
