import Verif.Metrics.Lemmas

/-!
The invariant of several threads that run hooks and report to the global metrics.
-/

namespace Verif.Metrics

variable {n : Nat}

theorem run_append (p : Proc n) (s s' : List (Fin n × Act)) :
    p.run (s ++ s') = (p.run s).bind (fun q => q.run s') := by
  induction s generalizing p with
  | nil => rfl
  | cons x s ih =>
    obtain ⟨t, a⟩ := x
    simp only [List.cons_append, Proc.run]
    cases p.act t a with
    | none => rfl
    | some q => exact ih q

theorem run_snoc {p q : Proc n} {s : List (Fin n × Act)} {t : Fin n} {a : Act}
    (h : p.run (s ++ [(t, a)]) = some q) : ∃ p', p.run s = some p' ∧ p'.act t a = some q := by
  rw [run_append] at h
  cases e : p.run s with
  | none => rw [e] at h; cases h
  | some p' =>
    refine ⟨p', rfl, ?_⟩
    rw [e] at h
    simp only [Option.bind_some, Proc.run] at h
    cases e2 : p'.act t a with
    | none => rw [e2] at h; cases h
    | some q' => rw [e2] at h; exact h

theorem totalAdds_append (a b : List Probe) (x : Cell) :
    totalAdds (a ++ b) x = totalAdds a x + totalAdds b x := by
  unfold totalAdds; rw [List.map_append, List.sum_append]

@[simp] theorem totalAdds_nil (x : Cell) : totalAdds [] x = 0 := rfl

/-- Has the current report already added the cell? -/
def sentNow (todo : Option (List Cell)) (x : Cell) : Bool :=
  match todo with
  | none => false
  | some xs => decide (x ∉ xs)

/-- What a thread has added to the global cell so far. -/
def sent (todo : Option (List Cell)) (old cur : List Probe) (x : Cell) : Nat :=
  totalAdds old x + if sentNow todo x then totalAdds cur x else 0

/-- The invariant of one thread: `old` are the hooks already reported, `cur` those since. -/
structure ThreadOK (th : Thread) (hooks old cur : List Probe) : Prop where
  split : hooks = old ++ cur
  fits : th.loc.Fits
  get : ∀ x, th.loc.get x = totalAdds cur x % M64
  keys : ∀ k, k ∈ th.loc.map.map Prod.fst ↔ k ∈ (cur.flatMap mapDelta).map Prod.fst
  order : ∀ xs, th.todo = some xs → xs <:+ reportCells th.loc

/-- The invariant of the process. -/
structure PInv (g0 : Cell → Nat) (p : Proc n) (s : List (Fin n × Act)) (old cur : Fin n → List Probe) :
    Prop where
  threads : ∀ t, ThreadOK (p.threads t) (hooksOf t s) (old t) (cur t)
  global : ∀ x, p.global.get x = (g0 x + ∑ t, sent (p.threads t).todo (old t) (cur t) x) % M64

/-- At the start: idle threads with zero metrics, arbitrary 64-bit global metrics. -/
structure Proc.Init (p : Proc n) : Prop where
  idle : ∀ t, p.threads t = { loc := .zero, todo := none }
  lt : ∀ x, p.global.get x < M64

theorem fetchAdd_get (m : Metrics) (x y : Cell) (v : Nat) :
    (m.fetchAdd x v).get y = if y = x then add64 (m.get y) v else m.get y := by
  cases x with
  | ctr c =>
    cases y with
    | ctr d =>
      show (m.add c v).ctr d = _
      simp [Metrics.get]
    | key k => simp [Metrics.fetchAdd, Metrics.get]
  | key k =>
    cases y with
    | ctr d => simp [Metrics.fetchAdd, Metrics.get]
    | key k' =>
      show mapGet (mapAdd m.map k v) k' = _
      rw [mapGet_add]
      simp only [Cell.key.injEq]
      by_cases e : k' = k
      · subst e; rfl
      · rw [if_neg e, if_neg e]; rfl

theorem reportCells_nodup {l : Metrics} (h : l.Fits) : (reportCells l).Nodup := by
  unfold reportCells
  rw [List.nodup_append]
  refine ⟨?_, ?_, ?_⟩
  · exact reportOrder_nodup.map (fun a b h => by cases h; rfl)
  · have := h.2.map (f := Cell.key) (fun a b h => by cases h; rfl)
    rw [List.map_map] at this
    exact this
  · intro a ha b hb e
    obtain ⟨c, _, rfl⟩ := List.mem_map.1 ha
    obtain ⟨k, _, rfl⟩ := List.mem_map.1 hb
    cases e

theorem mapGet_absent {m : AllocMap} {k : Key} (h : k ∉ m.map Prod.fst) : mapGet m k = 0 := by
  induction m with
  | nil => rfl
  | cons a m ih =>
    obtain ⟨a, y⟩ := a
    simp only [List.map_cons, List.mem_cons, not_or] at h
    simp only [mapGet]
    rw [if_neg (Ne.symm h.1)]
    exact ih h.2

/-- A cell that a report does not touch gets nothing. -/
theorem absent_total {th : Thread} {hooks old cur : List Probe} (h : ThreadOK th hooks old cur)
    {x : Cell} (hx : x ∉ reportCells th.loc) : totalAdds cur x = 0 := by
  unfold reportCells at hx
  simp only [List.mem_append, List.mem_map, not_or] at hx
  cases x with
  | ctr c => exact absurd ⟨c, mem_reportOrder c, rfl⟩ hx.1
  | key k =>
    have hk : k ∉ (cur.flatMap mapDelta).map Prod.fst := by
      rw [← h.keys]
      intro hk
      obtain ⟨y, hy, rfl⟩ := List.mem_map.1 hk
      exact hx.2 ⟨y, hy, rfl⟩
    rw [totalAdds_key]
    have : (cur.flatMap mapDelta).filter (fun x => decide (x.1 = k)) = [] := by
      rw [List.filter_eq_nil_iff]
      intro z hz hzk
      exact hk (List.mem_map.2 ⟨z, hz, by simpa using hzk⟩)
    rw [this]; rfl

theorem hooksOf_snoc (t u : Fin n) (s : List (Fin n × Act)) (a : Act) :
    hooksOf u (s ++ [(t, a)]) = hooksOf u s ++
      if t = u then (match a with | .hook e => [e] | _ => []) else [] := by
  unfold hooksOf
  rw [List.filterMap_append]
  congr 1
  by_cases e : t = u
  · subst e
    cases a <;> simp
  · simp [e]

theorem hooksOf_snoc_self (t : Fin n) (s : List (Fin n × Act)) (a : Act) :
    hooksOf t (s ++ [(t, a)]) = hooksOf t s ++ (match a with | .hook e => [e] | _ => []) := by
  rw [hooksOf_snoc, if_pos rfl]

theorem hooksOf_snoc_ne {t u : Fin n} (h : u ≠ t) (s : List (Fin n × Act)) (a : Act) :
    hooksOf u (s ++ [(t, a)]) = hooksOf u s := by
  rw [hooksOf_snoc, if_neg (Ne.symm h), List.append_nil]

theorem sum_change {f g : Fin n → Nat} {t : Fin n} (h : ∀ u, u ≠ t → g u = f u) :
    (∑ u, g u) + f t = (∑ u, f u) + g t := by
  rw [← Finset.add_sum_erase _ f (Finset.mem_univ t), ← Finset.add_sum_erase _ g (Finset.mem_univ t)]
  have : ∑ u ∈ Finset.univ.erase t, g u = ∑ u ∈ Finset.univ.erase t, f u :=
    Finset.sum_congr rfl (fun u hu => h u (Finset.ne_of_mem_erase hu))
  rw [this]; omega

theorem PInv.init {p : Proc n} (h : p.Init) : PInv p.global.get p [] (fun _ => []) (fun _ => []) := by
  refine ⟨fun t => ?_, fun x => ?_⟩
  · rw [h.idle t]
    refine ⟨rfl, Metrics.zero_fits, fun x => ?_, fun k => ?_, fun xs hx => by cases hx⟩
    · cases x <;> rfl
    · simp [Metrics.zero]
  · have : (∑ t, sent (p.threads t).todo [] [] x) = 0 :=
      Finset.sum_eq_zero (fun t _ => by rw [h.idle t]; rfl)
    rw [this, Nat.add_zero, Nat.mod_eq_of_lt (h.lt x)]

theorem hooks_cookie {p p' : Proc n} {t : Fin n} {e : Probe} (h : p.act t (.hook e) = some p') :
    HasCookie e := by
  by_contra hc
  obtain ⟨s, hs⟩ := probe_unsafe (m := (p.threads t).loc) hc
  simp only [Proc.act, hs] at h
  cases (p.threads t).todo <;> simp at h

/-- Every step keeps the invariant; what the thread has reported only grows. -/
theorem PInv.act {g0 : Cell → Nat} {p p' : Proc n} {s : List (Fin n × Act)}
    {old cur : Fin n → List Probe} {t : Fin n} {a : Act} (hi : PInv g0 p s old cur)
    (h : p.act t a = some p') : ∃ old' cur', PInv g0 p' (s ++ [(t, a)]) old' cur' ∧
      ∀ u x, sent (p.threads u).todo (old u) (cur u) x ≤ sent (p'.threads u).todo (old' u) (cur' u) x := by
  have ht := hi.threads t
  cases a with
  | hook e =>
    have hck := hooks_cookie h
    obtain ⟨m', h1, h2, h3, h4⟩ := probes_get (es := [e]) ht.fits (by simpa using hck)
    have h1' : probe (p.threads t).loc e = .ok m' := by
      simp only [probes] at h1
      cases hp : probe (p.threads t).loc e with
      | error x => rw [hp] at h1; cases h1
      | ok y => rw [hp] at h1; exact h1
    simp only [Proc.act, h1'] at h
    cases htd : (p.threads t).todo with
    | some xs => rw [htd] at h; cases h
    | none =>
      rw [htd] at h
      simp only [Option.some.injEq] at h
      subst h
      refine ⟨old, fun u => if u = t then cur u ++ [e] else cur u, ⟨fun u => ?_, fun x => ?_⟩, fun u x => ?_⟩
      · by_cases e1 : u = t
        · subst e1
          simp only [Proc.set, if_true]
          rw [hooksOf_snoc_self]
          refine ⟨by rw [ht.split, List.append_assoc], h2, fun x => ?_, fun k => ?_, fun xs hx => by cases hx⟩
          · show m'.get x = _
            rw [h3, ht.get, totalAdds_append, Nat.mod_add_mod]
          · show k ∈ m'.map.map Prod.fst ↔ _
            rw [h4, ht.keys, List.flatMap_append, List.map_append, List.mem_append]
        · simp only [Proc.set, if_neg e1]
          rw [hooksOf_snoc_ne e1]
          exact hi.threads u
      · show p.global.get x = _
        rw [hi.global x]
        congr 2
        refine Finset.sum_congr rfl (fun u _ => ?_)
        by_cases e1 : u = t
        · subst e1
          simp only [Proc.set, if_true, htd, sent, sentNow]
          simp
        · simp only [Proc.set, if_neg e1]
      · by_cases e1 : u = t
        · subst e1
          simp only [Proc.set, if_true, htd, sent, sentNow]
          simp
        · simp only [Proc.set, if_neg e1, Nat.le_refl]
  | start =>
    simp only [Proc.act] at h
    cases htd : (p.threads t).todo with
    | some xs => rw [htd] at h; cases h
    | none =>
      rw [htd] at h
      simp only [Option.some.injEq] at h
      subst h
      have hsent : ∀ u x, sent ((p.set t { (p.threads t) with todo := some (reportCells (p.threads t).loc) }).threads u).todo
          (old u) (cur u) x = sent (p.threads u).todo (old u) (cur u) x := by
        intro u x
        by_cases e1 : u = t
        · subst e1
          simp only [Proc.set, if_true, htd, sent, sentNow]
          by_cases hx : x ∈ reportCells (p.threads u).loc
          · simp [hx]
          · simp [hx, absent_total ht hx]
        · simp only [Proc.set, if_neg e1]
      refine ⟨old, cur, ⟨fun u => ?_, fun x => ?_⟩, fun u x => Nat.le_of_eq (hsent u x).symm⟩
      · by_cases e1 : u = t
        · subst e1
          simp only [Proc.set, if_true]
          rw [hooksOf_snoc_self, List.append_nil]
          refine ⟨ht.split, ht.fits, ht.get, ht.keys, fun xs hx => ?_⟩
          simp only [Option.some.injEq] at hx
          rw [← hx]
        · simp only [Proc.set, if_neg e1]
          rw [hooksOf_snoc_ne e1]
          exact hi.threads u
      · show p.global.get x = _
        rw [hi.global x]
        congr 2
        exact Finset.sum_congr rfl (fun u _ => (hsent u x).symm)
  | fetchAdd =>
    simp only [Proc.act] at h
    cases htd : (p.threads t).todo with
    | none => rw [htd] at h; cases h
    | some xs =>
      rw [htd] at h
      cases xs with
      | nil => cases h
      | cons y ys =>
        simp only [Option.some.injEq] at h
        subst h
        have hsuf := ht.order _ htd
        have hnd : (y :: ys).Nodup := hsuf.sublist.nodup (reportCells_nodup ht.fits)
        rw [List.nodup_cons] at hnd
        have hst : ∀ x, sent (some ys) (old t) (cur t) x
            = sent (p.threads t).todo (old t) (cur t) x + if x = y then totalAdds (cur t) x else 0 := by
          intro x
          rw [htd]
          simp only [sent, sentNow]
          by_cases e1 : x = y
          · subst e1; simp [hnd.1]
          · simp [e1]
        have hthr : ∀ u, (({ (p.set t { (p.threads t) with todo := some ys }) with
          global := p.global.fetchAdd y ((p.threads t).loc.get y) } : Proc n).threads u)
            = if u = t then { (p.threads t) with todo := some ys } else p.threads u := fun u => rfl
        refine ⟨old, cur, ⟨fun u => ?_, fun x => ?_⟩, fun u x => ?_⟩
        · rw [hthr]
          by_cases e1 : u = t
          · subst e1
            rw [if_pos rfl, hooksOf_snoc_self, List.append_nil]
            refine ⟨ht.split, ht.fits, ht.get, ht.keys, fun xs hx => ?_⟩
            simp only [Option.some.injEq] at hx
            rw [← hx]
            exact (List.suffix_cons _ _).trans hsuf
          · rw [if_neg e1, hooksOf_snoc_ne e1]
            exact hi.threads u
        · show (p.global.fetchAdd y ((p.threads t).loc.get y)).get x = _
          have hsum := sum_change (f := fun u => sent (p.threads u).todo (old u) (cur u) x)
            (g := fun u => sent (if u = t then { (p.threads t) with todo := some ys } else p.threads u : Thread).todo
              (old u) (cur u) x) (t := t) (fun u hu => by simp only [if_neg hu])
          simp only [if_true] at hsum
          rw [hst x] at hsum
          rw [fetchAdd_get]
          change _ = (g0 x + ∑ u, sent (if u = t then { (p.threads t) with todo := some ys }
            else p.threads u : Thread).todo (old u) (cur u) x) % M64
          have hg := hi.global x
          have hl := ht.get x
          by_cases e1 : x = y
          · subst e1
            simp only [if_true] at hsum ⊢
            unfold add64
            rw [hg, hl]
            omega
          · simp only [if_neg e1, Nat.add_zero] at hsum ⊢
            rw [hg]
            congr 1
            omega
        · rw [hthr]
          by_cases e1 : u = t
          · subst e1
            rw [if_pos rfl, hst x]
            omega
          · rw [if_neg e1]
  | finish =>
    simp only [Proc.act] at h
    cases htd : (p.threads t).todo with
    | none => rw [htd] at h; cases h
    | some xs =>
      rw [htd] at h
      cases xs with
      | cons y ys => cases h
      | nil =>
        simp only [Option.some.injEq] at h
        subst h
        have hsent : ∀ u x, sent ((p.set t { loc := .zero, todo := none }).threads u).todo
            (if u = t then old u ++ cur u else old u) (if u = t then [] else cur u) x
              = sent (p.threads u).todo (old u) (cur u) x := by
          intro u x
          by_cases e1 : u = t
          · subst e1
            simp only [Proc.set, if_true, htd, sent, sentNow, totalAdds_append]
            simp
          · simp only [Proc.set, if_neg e1]
        refine ⟨fun u => if u = t then old u ++ cur u else old u, fun u => if u = t then [] else cur u,
          ⟨fun u => ?_, fun x => ?_⟩, fun u x => Nat.le_of_eq (hsent u x).symm⟩
        · by_cases e1 : u = t
          · subst e1
            simp only [Proc.set, if_true]
            rw [hooksOf_snoc_self, List.append_nil]
            refine ⟨by rw [ht.split, List.append_nil], Metrics.zero_fits, fun x => ?_, fun k => ?_,
              fun xs hx => by cases hx⟩
            · cases x <;> rfl
            · simp [Metrics.zero]
          · simp only [Proc.set, if_neg e1]
            rw [hooksOf_snoc_ne e1]
            exact hi.threads u
        · show p.global.get x = _
          rw [hi.global x]
          congr 2
          exact Finset.sum_congr rfl (fun u _ => (hsent u x).symm)

theorem pinv_run {p q : Proc n} (hp : p.Init) {s : List (Fin n × Act)} (h : p.run s = some q) :
    ∃ old cur, PInv p.global.get q s old cur := by
  induction s using List.reverseRecOn generalizing q with
  | nil =>
    cases h
    exact ⟨_, _, PInv.init hp⟩
  | append_singleton s x ih =>
    obtain ⟨t, a⟩ := x
    obtain ⟨p', h1, h2⟩ := run_snoc h
    obtain ⟨old, cur, hi⟩ := ih h1
    obtain ⟨old', cur', hi', _⟩ := hi.act h2
    exact ⟨old', cur', hi'⟩

/-- From a state with the invariant on: what was reported only grows. -/
theorem PInv.run {g0 : Cell → Nat} {p q : Proc n} {s s' : List (Fin n × Act)}
    {old cur : Fin n → List Probe} (hi : PInv g0 p s old cur) (h : p.run s' = some q) :
    ∃ old' cur', PInv g0 q (s ++ s') old' cur' ∧
      ∀ u x, sent (p.threads u).todo (old u) (cur u) x ≤ sent (q.threads u).todo (old' u) (cur' u) x := by
  induction s' using List.reverseRecOn generalizing q with
  | nil =>
    cases h
    exact ⟨old, cur, by rw [List.append_nil]; exact hi, fun u x => Nat.le_refl _⟩
  | append_singleton s' x ih =>
    obtain ⟨t, a⟩ := x
    obtain ⟨p', h1, h2⟩ := run_snoc h
    obtain ⟨old', cur', hi', hm⟩ := ih h1
    obtain ⟨old2, cur2, hi2, hm2⟩ := hi'.act h2
    exact ⟨old2, cur2, by rw [← List.append_assoc]; exact hi2, fun u x => (hm u x).trans (hm2 u x)⟩

theorem allHooks_sum (s : List (Fin n × Act)) (x : Cell) :
    totalAdds (allHooks s) x = ∑ t, totalAdds (hooksOf t s) x := by
  induction s using List.reverseRecOn with
  | nil => simp [allHooks, hooksOf]
  | append_singleton s y ih =>
    obtain ⟨t, a⟩ := y
    have h1 : allHooks (s ++ [(t, a)]) = allHooks s ++ (match a with | .hook e => [e] | _ => []) := by
      unfold allHooks
      rw [List.filterMap_append]
      congr 1
      cases a <;> simp
    rw [h1, totalAdds_append, ih]
    have := sum_change (f := fun u => totalAdds (hooksOf u s) x)
      (g := fun u => totalAdds (hooksOf u (s ++ [(t, a)])) x) (t := t)
      (fun u hu => by rw [hooksOf_snoc_ne hu])
    simp only [hooksOf_snoc_self, totalAdds_append] at this
    omega

theorem bucket_unique {upper : Fin 8 → Nat} {i j : Fin 8} {v : Nat} (h1 : InBucket upper i v)
    (h2 : InBucket upper j v) : i = j := by
  rcases lt_trichotomy i j with h | h | h
  · have := h2.2 i h
    have := h1.1
    omega
  · exact h
  · have := h1.2 j h
    have := h2.1
    omega

theorem bucket_exists {upper : Fin 8 → Nat} (hm : ∀ i j : Fin 8, i < j → upper i < upper j) {v : Nat}
    (hv : v ≤ upper 7) : ∃ i, InBucket upper i v := by
  have key : ∀ k : Nat, ∀ hk : k < 8, v ≤ upper ⟨k, hk⟩ → ∃ i, InBucket upper i v := by
    intro k
    induction k with
    | zero => intro hk h; exact ⟨⟨0, hk⟩, h, fun j hj => by simp at hj⟩
    | succ k ih =>
      intro hk h
      by_cases h' : v ≤ upper ⟨k, by omega⟩
      · exact ih (by omega) h'
      · refine ⟨⟨k + 1, hk⟩, h, fun j hj => ?_⟩
        have hj' : j.val ≤ k := by simpa [Fin.lt_def, Nat.lt_succ_iff] using hj
        by_cases e : j = ⟨k, by omega⟩
        · rw [e]; omega
        · have : j < ⟨k, by omega⟩ := by
            rw [Fin.lt_def]
            have : j.val ≠ k := fun h => e (Fin.ext h)
            simp; omega
          have := hm _ _ this
          omega
  exact key 7 (by omega) hv

theorem bucket_sum {upper : Fin 8 → Nat} (hm : ∀ i j : Fin 8, i < j → upper i < upper j) (v : Nat) :
    (∑ i, if InBucket upper i v then 1 else 0) = if v ≤ upper 7 then 1 else 0 := by
  by_cases hv : v ≤ upper 7
  · obtain ⟨i, hi⟩ := bucket_exists hm hv
    rw [if_pos hv, Finset.sum_eq_single i]
    · rw [if_pos hi]
    · intro j _ hj
      rw [if_neg (fun h => hj (bucket_unique h hi))]
    · intro h; exact absurd (Finset.mem_univ _) h
  · rw [if_neg hv]
    refine Finset.sum_eq_zero (fun i _ => ?_)
    rw [if_neg]
    intro h
    have h1 := h.1
    have : upper i ≤ upper 7 := by
      by_cases e : i = 7
      · rw [e]
      · have := hm i 7 (by rw [Fin.lt_def]; have := i.isLt; have : i.val ≠ 7 := fun h => e (Fin.ext h); simp; omega)
        omega
    omega

theorem sizeUpper_mono : ∀ i j : Fin 8, i < j → sizeUpper i < sizeUpper j := by decide
theorem lifeUpper_mono : ∀ i j : Fin 8, i < j → lifeUpper i < lifeUpper j := by decide

/-- Hooks whose allocation is above the last bound. -/
def bigSize (e : Probe) : Bool := match sizeOf? e with | some v => decide (1048576 < v) | none => false
/-- Hooks of arenas that lived longer than the last bound. -/
def longLife (e : Probe) : Bool := match lifeOf? e with | some v => decide (1000 < v) | none => false

theorem size_adds (e : Probe) :
    (∑ i, adds e (.ctr (.size i))) + (if bigSize e then 1 else 0) = adds e (.ctr .alloc) := by
  cases e with
  | allocated s c =>
    have hb : bigSize (.allocated s c) = decide (1048576 < s) := rfl
    have h7 : sizeUpper 7 = 1048576 := rfl
    simp only [adds, sizeOf?]
    rw [bucket_sum sizeUpper_mono, hb, h7]
    by_cases h : s ≤ 1048576
    · simp [h]
    · simp [h, Nat.lt_of_not_le h]
  | _ => simp [adds, sizeOf?, bigSize]

theorem life_adds {e : Probe} (h : HasCookie e) :
    (∑ i, adds e (.ctr (.life i))) + (if longLife e then 1 else 0) = adds e (.ctr .destruct) := by
  cases e with
  | destroyed u w c now =>
    cases c with
    | none => exact absurd rfl h
    | some c =>
      have hb : longLife (.destroyed u w (some c) now) = decide (1000 < (now - c.time) / 1000000) := rfl
      have h7 : lifeUpper 7 = 1000 := rfl
      simp only [adds, lifeOf?]
      rw [bucket_sum lifeUpper_mono, hb, h7]
      generalize (now - c.time) / 1000000 = v
      by_cases h : v ≤ 1000
      · simp [h]
      · simp [h, Nat.lt_of_not_le h]
  | _ => simp [adds, lifeOf?, longLife]

theorem size_total (es : List Probe) :
    (∑ i, totalAdds es (.ctr (.size i))) + es.countP bigSize = totalAdds es (.ctr .alloc) := by
  induction es with
  | nil => simp
  | cons e es ih =>
    have := size_adds e
    simp only [totalAdds, List.map_cons, List.sum_cons, Finset.sum_add_distrib, List.countP_cons] at *
    omega

theorem life_total {es : List Probe} (h : ∀ e ∈ es, HasCookie e) :
    (∑ i, totalAdds es (.ctr (.life i))) + es.countP longLife = totalAdds es (.ctr .destruct) := by
  induction es with
  | nil => simp
  | cons e es ih =>
    have h1 := life_adds (h e List.mem_cons_self)
    have h2 := ih (fun x hx => h x (List.mem_cons_of_mem _ hx))
    simp only [totalAdds, List.map_cons, List.sum_cons, Finset.sum_add_distrib, List.countP_cons] at *
    omega

end Verif.Metrics
