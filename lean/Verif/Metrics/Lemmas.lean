import Verif.Metrics.Spec
import Mathlib.Algebra.BigOperators.Fin
import Mathlib.Data.Nat.Digits.Lemmas

/-!
Lemmas about the metrics model.
-/

namespace Verif.Metrics

theorem add64_mod (a b : Nat) : add64 a b % M64 = (a + b) % M64 := Nat.mod_mod _ _

theorem add64_lt' (a b : Nat) : add64 a b < M64 := add64_lt a b

@[simp] theorem add_ctr (m : Metrics) (c d : Ctr) (v : Nat) :
    (m.add c v).ctr d = if d = c then add64 (m.ctr d) v else m.ctr d := rfl

@[simp] theorem add_map (m : Metrics) (c : Ctr) (v : Nat) : (m.add c v).map = m.map := rfl

/-- What a probe adds to each counter. -/
def delta : Probe → Ctr → Nat
  | .init, .init => 1
  | .allocated _ _, .alloc => 1
  | .allocated s _, .spaceAllocated => s
  | .allocated s _, .size i => if bucketIndex 0 allocSizeBucket s = some i.val then 1 else 0
  | .newblock, .newblock => 1
  | .reset _ _, .reset => 1
  | .reset u _, .spaceResettled => u
  | .reset _ w, .spaceWasted => w
  | .destroyed _ _ _ _, .destruct => 1
  | .destroyed u _ _ _, .spaceUsed => u
  | .destroyed _ w _ _, .spaceWasted => w
  | .destroyed _ _ (some c) now, .life i =>
    if bucketIndex 0 destructLifetimeBucket ((now - c.time) / 1000000) = some i.val then 1 else 0
  | _, _ => 0

/-- What a probe adds to the map. -/
def mapDelta : Probe → List (Key × Nat)
  | .allocated s (some c) => [(locKey c.loc, s)]
  | _ => []

theorem bucketIndex_lt {bs : List Nat} {i v j : Nat} (h : bucketIndex i bs v = some j) :
    i ≤ j ∧ j < i + bs.length := by
  induction bs generalizing i with
  | nil => cases h
  | cons b bs ih =>
    unfold bucketIndex at h
    split at h
    · cases h; simp
    · have := ih h; simp; omega

theorem increaseAllocSize_eq (m : Metrics) (s : Nat) : ∃ m', increaseAllocSize m s = .ok m' ∧
    m'.map = m.map ∧ ∀ c, m'.ctr c = match c with
      | .size i => if bucketIndex 0 allocSizeBucket s = some i.val then add64 (m.ctr c) 1 else m.ctr c
      | _ => m.ctr c := by
  unfold increaseAllocSize
  split
  · next h =>
    refine ⟨m, rfl, rfl, fun c => ?_⟩
    cases c <;> simp [h]
  · next i h =>
    have := (bucketIndex_lt h).2
    have h8 : i < 8 := by simpa [allocSizeBucket] using this
    rw [dif_pos h8]
    refine ⟨_, rfl, rfl, fun c => ?_⟩
    cases c with
    | size j =>
      simp only [add_ctr, Ctr.size.injEq, h, Option.some.injEq]
      by_cases e : j = ⟨i, h8⟩
      · rw [if_pos e, if_pos (by rw [e])]
      · rw [if_neg e, if_neg (fun h' => e (Fin.ext h'.symm))]
    | _ => simp

theorem increaseLifetime_eq (m : Metrics) (s : Nat) : ∃ m', increaseLifetime m s = .ok m' ∧
    m'.map = m.map ∧ ∀ c, m'.ctr c = match c with
      | .life i => if bucketIndex 0 destructLifetimeBucket s = some i.val then add64 (m.ctr c) 1 else m.ctr c
      | _ => m.ctr c := by
  unfold increaseLifetime
  split
  · next h =>
    refine ⟨m, rfl, rfl, fun c => ?_⟩
    cases c <;> simp [h]
  · next i h =>
    have := (bucketIndex_lt h).2
    have h8 : i < 8 := by simpa [destructLifetimeBucket] using this
    rw [dif_pos h8]
    refine ⟨_, rfl, rfl, fun c => ?_⟩
    cases c with
    | life j =>
      simp only [add_ctr, Ctr.life.injEq, h, Option.some.injEq]
      by_cases e : j = ⟨i, h8⟩
      · rw [if_pos e, if_pos (by rw [e])]
      · rw [if_neg e, if_neg (fun h' => e (Fin.ext h'.symm))]
    | _ => simp

theorem mod_zero_add {x y : Nat} (h : x = y) : x % M64 = (y + 0) % M64 := by rw [h, Nat.add_zero]

theorem probe_safe {m : Metrics} {e : Probe} (h : HasCookie e) : ∃ m', probe m e = .ok m' ∧
    (∀ c, m'.ctr c % M64 = (m.ctr c + delta e c) % M64) ∧
    ((∀ c, m.ctr c < M64) → ∀ c, m'.ctr c < M64) ∧
    m'.map = (mapDelta e).foldl (fun m x => mapAdd m x.1 x.2) m.map := by
  cases e with
  | init =>
    refine ⟨_, rfl, fun c => ?_, fun hm c => ?_, rfl⟩
    · cases c <;> simp [delta, add64]
    · simp only [add_ctr]; split
      · exact add64_lt _ _
      · exact hm c
  | allocated s ck =>
    cases ck with
    | none => exact absurd rfl h
    | some k =>
      obtain ⟨m', h1, h2, h3⟩ := increaseAllocSize_eq ((m.add .alloc 1).add .spaceAllocated s) s
      refine ⟨{ m' with map := mapAdd m'.map (locKey k.loc) s }, ?_, fun c => ?_, fun hm c => ?_, ?_⟩
      · simp only [probe]
        rw [h1]; rfl
      · show m'.ctr c % M64 = _
        rw [h3]
        cases c with
        | size i =>
          simp only [delta]
          split <;> simp [add64]
        | _ => simp [delta, add64]
      · show m'.ctr c < M64
        rw [h3]
        have hm2 : ∀ c, ((m.add .alloc 1).add .spaceAllocated s).ctr c < M64 := by
          intro c
          simp only [add_ctr]
          split
          · exact add64_lt _ _
          · split
            · exact add64_lt _ _
            · exact hm c
        cases c with
        | size i =>
          simp only
          split
          · exact add64_lt _ _
          · exact hm2 _
        | _ => exact hm2 _
      · show mapAdd m'.map _ _ = _
        rw [h2]; rfl
  | newblock =>
    refine ⟨_, rfl, fun c => ?_, fun hm c => ?_, rfl⟩
    · cases c <;> simp [delta, add64]
    · simp only [add_ctr]; split
      · exact add64_lt _ _
      · exact hm c
  | reset u w =>
    refine ⟨_, rfl, fun c => ?_, fun hm c => ?_, rfl⟩
    · cases c <;> simp [delta, add64]
    · simp only [add_ctr]; split
      · exact add64_lt _ _
      · split
        · exact add64_lt _ _
        · split
          · exact add64_lt _ _
          · exact hm c
  | destroyed u w ck now =>
    cases ck with
    | none => exact absurd rfl h
    | some k =>
      obtain ⟨m', h1, h2, h3⟩ := increaseLifetime_eq
        (((m.add .destruct 1).add .spaceUsed u).add .spaceWasted w) ((now - k.time) / 1000000)
      refine ⟨m', ?_, fun c => ?_, fun hm c => ?_, ?_⟩
      · simp only [probe]
        exact h1
      · rw [h3]
        cases c with
        | life i =>
          simp only [delta]
          split <;> simp [add64]
        | _ => simp [delta, add64]
      · rw [h3]
        have hm2 : ∀ c, (((m.add .destruct 1).add .spaceUsed u).add .spaceWasted w).ctr c < M64 := by
          intro c
          simp only [add_ctr]
          split
          · exact add64_lt _ _
          · split
            · exact add64_lt _ _
            · split
              · exact add64_lt _ _
              · exact hm c
        cases c with
        | life i =>
          simp only
          split
          · exact add64_lt _ _
          · exact hm2 _
        | _ => exact hm2 _
      · rw [h2]; rfl

theorem probe_unsafe {m : Metrics} {e : Probe} (h : ¬ HasCookie e) : ∃ s, probe m e = .error (.ub s) := by
  cases e with
  | allocated s ck =>
    cases ck with
    | none =>
      obtain ⟨m', h1, _⟩ := increaseAllocSize_eq ((m.add .alloc 1).add .spaceAllocated s) s
      refine ⟨"null cookie dereferenced", ?_⟩
      simp only [probe]
      rw [h1]; rfl
    | some k => exact absurd (by simp [HasCookie]) h
  | destroyed u w ck now =>
    cases ck with
    | none => exact ⟨_, rfl⟩
    | some k => exact absurd (by simp [HasCookie]) h
  | _ => exact absurd trivial h

/-- Total of a list of probes, per counter. -/
def total (es : List Probe) (c : Ctr) : Nat := (es.map (fun e => delta e c)).sum

theorem probes_safe {m : Metrics} {es : List Probe} (h : ∀ e ∈ es, HasCookie e) :
    ∃ m', probes m es = .ok m' ∧ (∀ c, m'.ctr c % M64 = (m.ctr c + total es c) % M64) ∧
    ((∀ c, m.ctr c < M64) → ∀ c, m'.ctr c < M64) ∧
    m'.map = (es.flatMap mapDelta).foldl (fun m x => mapAdd m x.1 x.2) m.map := by
  induction es generalizing m with
  | nil => exact ⟨m, rfl, fun c => rfl, fun h => h, rfl⟩
  | cons e es ih =>
    obtain ⟨m1, h1, h2, h3, h4⟩ := probe_safe (m := m) (h e List.mem_cons_self)
    obtain ⟨m2, h5, h6, h7, h8⟩ := ih (m := m1) (fun x hx => h x (List.mem_cons_of_mem _ hx))
    refine ⟨m2, ?_, fun c => ?_, fun hm => h7 (h3 hm), ?_⟩
    · simp only [probes, h1]; exact h5
    · rw [h6 c]
      have := h2 c
      simp only [total, List.map_cons, List.sum_cons] at *
      omega
    · rw [h8, h4, List.flatMap_cons, List.foldl_append]

theorem probes_append (m : Metrics) (es fs : List Probe) :
    probes m (es ++ fs) = (probes m es >>= fun m => probes m fs) := by
  induction es generalizing m with
  | nil => rfl
  | cons e es ih =>
    simp only [List.cons_append, probes]
    cases probe m e with
    | error x => rfl
    | ok m' => exact ih m'

/-! ### The map -/

theorem mapGet_add (m : AllocMap) (k k' : Key) (v : Nat) :
    mapGet (mapAdd m k v) k' = if k' = k then add64 (mapGet m k) v else mapGet m k' := by
  induction m with
  | nil =>
    simp only [mapAdd, mapGet]
    by_cases e : k' = k
    · simp [e]
    · rw [if_neg (Ne.symm e), if_neg e]
  | cons x m ih =>
    obtain ⟨a, y⟩ := x
    simp only [mapAdd]
    by_cases e : a = k
    · subst e
      simp only [if_true, mapGet]
      by_cases e2 : k' = a
      · subst e2; simp
      · rw [if_neg (Ne.symm e2), if_neg e2, if_neg (Ne.symm e2)]
    · simp only [if_neg e, mapGet]
      by_cases e2 : a = k'
      · subst e2; simp [e]
      · simp only [if_neg e2]; exact ih

theorem mapAdd_keys (m : AllocMap) (k : Key) (v : Nat) (x : Key) :
    x ∈ (mapAdd m k v).map Prod.fst ↔ x ∈ m.map Prod.fst ∨ x = k := by
  induction m with
  | nil => simp [mapAdd]
  | cons a m ih =>
    obtain ⟨a, y⟩ := a
    simp only [mapAdd]
    split
    · next e => subst e; simp; tauto
    · simp only [List.map_cons, List.mem_cons, ih]; tauto

theorem mapAdd_nodup {m : AllocMap} (h : (m.map Prod.fst).Nodup) (k : Key) (v : Nat) :
    ((mapAdd m k v).map Prod.fst).Nodup := by
  induction m with
  | nil => simp [mapAdd]
  | cons a m ih =>
    obtain ⟨a, y⟩ := a
    simp only [List.map_cons, List.nodup_cons] at h
    simp only [mapAdd]
    split
    · simp only [List.map_cons, List.nodup_cons]; exact h
    · next e =>
      simp only [List.map_cons, List.nodup_cons]
      refine ⟨?_, ih h.2⟩
      rw [mapAdd_keys]
      rintro (h' | h')
      · exact h.1 h'
      · exact e h'

theorem mapAdd_sum (m : AllocMap) (k : Key) (v : Nat) :
    ((mapAdd m k v).map Prod.snd).sum % M64 = ((m.map Prod.snd).sum + v) % M64 := by
  induction m with
  | nil => simp [mapAdd, add64]
  | cons a m ih =>
    obtain ⟨a, y⟩ := a
    simp only [mapAdd]
    split
    · simp only [List.map_cons, List.sum_cons, add64]; omega
    · simp only [List.map_cons, List.sum_cons]; omega

theorem foldl_mapAdd_sum (l : List (Key × Nat)) (m : AllocMap) :
    ((l.foldl (fun m x => mapAdd m x.1 x.2) m).map Prod.snd).sum % M64
      = ((m.map Prod.snd).sum + (l.map Prod.snd).sum) % M64 := by
  induction l generalizing m with
  | nil => rfl
  | cons x l ih =>
    simp only [List.foldl_cons, List.map_cons, List.sum_cons]
    rw [ih]
    have := mapAdd_sum m x.1 x.2
    omega

theorem foldl_mapAdd_get (l : List (Key × Nat)) (m : AllocMap) (k : Key) :
    mapGet (l.foldl (fun m x => mapAdd m x.1 x.2) m) k % M64
      = (mapGet m k + ((l.filter (fun x => x.1 = k)).map Prod.snd).sum) % M64 := by
  induction l generalizing m with
  | nil => rfl
  | cons x l ih =>
    simp only [List.foldl_cons]
    rw [ih, mapGet_add]
    by_cases e : x.1 = k
    · rw [if_pos e.symm, List.filter_cons, if_pos (by simpa using e)]
      simp only [List.map_cons, List.sum_cons, add64, e]
      omega
    · rw [if_neg (Ne.symm e), List.filter_cons, if_neg (by simpa using e)]

theorem foldl_mapAdd_keys (l : List (Key × Nat)) (m : AllocMap) (x : Key) :
    x ∈ (l.foldl (fun m x => mapAdd m x.1 x.2) m).map Prod.fst ↔
      x ∈ m.map Prod.fst ∨ x ∈ l.map Prod.fst := by
  induction l generalizing m with
  | nil => simp
  | cons y l ih =>
    simp only [List.foldl_cons, List.map_cons, List.mem_cons]
    rw [ih, mapAdd_keys]; tauto

theorem foldl_mapAdd_nodup (l : List (Key × Nat)) {m : AllocMap} (h : (m.map Prod.fst).Nodup) :
    ((l.foldl (fun m x => mapAdd m x.1 x.2) m).map Prod.fst).Nodup := by
  induction l generalizing m with
  | nil => exact h
  | cons y l ih => exact ih (mapAdd_nodup h _ _)

theorem mapGet_nodup {m : AllocMap} (h : (m.map Prod.fst).Nodup) (k : Key) :
    ((m.filter (fun x => x.1 = k)).map Prod.snd).sum = mapGet m k := by
  induction m with
  | nil => rfl
  | cons x m ih =>
    obtain ⟨a, y⟩ := x
    simp only [List.map_cons, List.nodup_cons] at h
    rw [List.filter_cons]
    simp only [mapGet]
    by_cases e : a = k
    · subst e
      rw [if_pos (by simp), if_pos rfl]
      have : m.filter (fun x => decide (x.1 = a)) = [] := by
        rw [List.filter_eq_nil_iff]
        intro z hz hza
        exact h.1 (List.mem_map.2 ⟨z, hz, by simpa using hza⟩)
      rw [this]; simp
    · rw [if_neg (by simpa using e), if_neg e]
      exact ih h.2

/-! ### Reporting -/

theorem reportOrder_nodup : reportOrder.Nodup := by decide

theorem mem_reportOrder (c : Ctr) : c ∈ reportOrder := by
  cases c <;> simp [reportOrder]

theorem foldl_add (l : Metrics) (cs : List Ctr) (hn : cs.Nodup) (g : Metrics) :
    (cs.foldl (fun g c => g.add c (l.ctr c)) g).map = g.map ∧
    ∀ c, (cs.foldl (fun g c => g.add c (l.ctr c)) g).ctr c
      = if c ∈ cs then add64 (g.ctr c) (l.ctr c) else g.ctr c := by
  induction cs generalizing g with
  | nil => exact ⟨rfl, fun c => rfl⟩
  | cons d cs ih =>
    rw [List.nodup_cons] at hn
    obtain ⟨h1, h2⟩ := ih hn.2 (g.add d (l.ctr d))
    refine ⟨h1, fun c => ?_⟩
    rw [List.foldl_cons, h2 c]
    by_cases e : c = d
    · subst e
      rw [if_neg hn.1, if_pos List.mem_cons_self]; simp
    · simp [e]

theorem report_ctr (g l : Metrics) (c : Ctr) :
    (report g l).1.ctr c = add64 (g.ctr c) (l.ctr c) := by
  show (reportOrder.foldl (fun g c => g.add c (l.ctr c)) g).ctr c = _
  rw [(foldl_add l reportOrder reportOrder_nodup g).2 c, if_pos (mem_reportOrder c)]

theorem report_map (g l : Metrics) :
    (report g l).1.map = l.map.foldl (fun m x => mapAdd m x.1 x.2) g.map := by
  show l.map.foldl (fun m x => mapAdd m x.1 x.2) (reportOrder.foldl (fun g c => g.add c (l.ctr c)) g).map = _
  rw [(foldl_add l reportOrder reportOrder_nodup g).1]

/-! ### Keys -/

theorem digit_ne_colon {n : Nat} : ∀ c ∈ Nat.toDigits 10 n, c ≠ ':' := by
  intro c hc e
  subst e
  have := Nat.isDigit_of_mem_toDigits (by decide) (by decide) hc
  revert this; decide

theorem locKey_inj {a b : Loc} (h : locKey a = locKey b) : a = b := by
  obtain ⟨f, n⟩ := a
  obtain ⟨g, m⟩ := b
  unfold locKey at h
  simp only at h
  have hr := congrArg List.reverse h
  simp only [List.reverse_append, List.reverse_cons, List.append_assoc] at hr
  have key : ∀ (x y f g : List Char), (∀ c ∈ x, c ≠ ':') → (∀ c ∈ y, c ≠ ':') →
      x ++ ([':'] ++ f) = y ++ ([':'] ++ g) → x = y ∧ f = g := by
    intro x
    induction x with
    | nil =>
      intro y f g _ hy h
      cases y with
      | nil => simp at h; exact ⟨rfl, h⟩
      | cons c y => simp at h; exact absurd h.1.symm (hy c List.mem_cons_self)
    | cons c x ih =>
      intro y f g hx hy h
      cases y with
      | nil => simp at h; exact absurd h.1 (hx c List.mem_cons_self)
      | cons d y =>
        simp only [List.cons_append, List.cons.injEq] at h
        obtain ⟨h1, h2⟩ := ih y f g (fun z hz => hx z (List.mem_cons_of_mem _ hz))
          (fun z hz => hy z (List.mem_cons_of_mem _ hz)) h.2
        exact ⟨by rw [h.1, h1], h2⟩
  obtain ⟨h1, h2⟩ := key _ _ _ _ (fun c hc => digit_ne_colon c (List.mem_reverse.1 hc))
    (fun c hc => digit_ne_colon c (List.mem_reverse.1 hc)) hr
  have h3 := List.reverse_injective h1
  have h4 := List.reverse_injective h2
  have h5 : n = m := by
    have := congrArg (fun l => Nat.ofDigitChars 10 l 0) h3
    simpa using this
  rw [h4, h5]

/-! ### Per cell -/

theorem bucket_iff {upper : Fin 8 → Nat} {bs : List Nat} (hb : bs = List.ofFn upper) (i : Fin 8) (v : Nat) :
    bucketIndex 0 bs v = some i.val ↔ InBucket upper i v := by
  have gen : ∀ (bs : List Nat) (k j : Nat), bucketIndex k bs v = some j ↔
      ∃ h : k ≤ j ∧ j - k < bs.length, v ≤ bs[j - k] ∧ ∀ m (hm : m < j - k), bs[m] < v := by
    intro bs
    induction bs with
    | nil => intro k j; simp [bucketIndex]
    | cons b bs ih =>
      intro k j
      unfold bucketIndex
      by_cases hv : v ≤ b
      · rw [if_pos hv]
        constructor
        · intro h; cases h
          exact ⟨⟨Nat.le_refl _, by simp⟩, by simpa using hv, fun m hm => by omega⟩
        · rintro ⟨⟨h1, h2⟩, h3, h4⟩
          by_cases e : j = k
          · rw [e]
          · have := h4 0 (by omega)
            simp at this; omega
      · rw [if_neg hv, ih]
        constructor
        · rintro ⟨⟨h1, h2⟩, h3, h4⟩
          obtain ⟨d, rfl⟩ : ∃ d, j = k + 1 + d := ⟨j - (k + 1), by omega⟩
          have e1 : k + 1 + d - (k + 1) = d := by omega
          have e2 : k + 1 + d - k = d + 1 := by omega
          simp only [e1] at h2 h3 h4
          refine ⟨⟨by omega, by simp [e2]; exact h2⟩, by simp only [e2]; simpa using h3, ?_⟩
          intro m hm
          cases m with
          | zero => simp; omega
          | succ m => simpa using h4 m (by omega)
        · rintro ⟨⟨h1, h2⟩, h3, h4⟩
          have hne : j ≠ k := by
            rintro rfl
            simp at h3; omega
          obtain ⟨d, rfl⟩ : ∃ d, j = k + 1 + d := ⟨j - (k + 1), by omega⟩
          have e1 : k + 1 + d - (k + 1) = d := by omega
          have e2 : k + 1 + d - k = d + 1 := by omega
          simp only [e2] at h2 h3 h4
          refine ⟨⟨by omega, by simp only [e1]; simpa using h2⟩, by simp only [e1]; simpa using h3, ?_⟩
          intro m hm
          have := h4 (m + 1) (by omega)
          simpa using this
  subst hb
  rw [gen]
  simp only [Nat.sub_zero, Nat.zero_le, true_and, List.length_ofFn, i.isLt, List.getElem_ofFn]
  unfold InBucket
  constructor
  · rintro ⟨_, h1, h2⟩
    exact ⟨h1, fun j hj => h2 j.val hj⟩
  · rintro ⟨h1, h2⟩
    exact ⟨trivial, h1, fun m hm => h2 ⟨m, by omega⟩ hm⟩

theorem size_bucket (i : Fin 8) (v : Nat) :
    bucketIndex 0 allocSizeBucket v = some i.val ↔ InBucket sizeUpper i v :=
  bucket_iff (by decide) i v

theorem life_bucket (i : Fin 8) (v : Nat) :
    bucketIndex 0 destructLifetimeBucket v = some i.val ↔ InBucket lifeUpper i v :=
  bucket_iff (by decide) i v

theorem delta_eq (e : Probe) (c : Ctr) : delta e c = adds e (.ctr c) := by
  cases c with
  | size i =>
    cases e <;> simp [delta, adds, sizeOf?, size_bucket]
  | life i =>
    cases e with
    | destroyed u w c now => cases c <;> simp [delta, adds, lifeOf?, life_bucket]
    | _ => simp [delta, adds, lifeOf?]
  | _ => cases e <;> rfl

theorem total_eq (es : List Probe) (c : Ctr) : total es c = totalAdds es (.ctr c) := by
  unfold total totalAdds
  simp only [delta_eq]

theorem totalAdds_key (es : List Probe) (k : Key) :
    totalAdds es (.key k) = (((es.flatMap mapDelta).filter (fun x => x.1 = k)).map Prod.snd).sum := by
  induction es with
  | nil => rfl
  | cons e es ih =>
    unfold totalAdds at *
    rw [List.map_cons, List.sum_cons, ih, List.flatMap_cons, List.filter_append, List.map_append,
      List.sum_append]
    congr 1
    cases e with
    | allocated s c =>
      cases c with
      | none => rfl
      | some c =>
        by_cases h : locKey c.loc = k <;> simp [adds, mapDelta, h]
    | _ => rfl

/-- All values of the metrics are 64-bit. -/
def Metrics.Fits (m : Metrics) : Prop := (∀ x, m.get x < M64) ∧ (m.map.map Prod.fst).Nodup

theorem Metrics.zero_fits : Metrics.zero.Fits :=
  ⟨fun x => by cases x <;> simp [Metrics.zero, Metrics.get, mapGet], by simp [Metrics.zero]⟩

theorem foldl_mapAdd_lt (l : List (Key × Nat)) {m : AllocMap} (h : ∀ k, mapGet m k < M64) (k : Key) :
    mapGet (l.foldl (fun m x => mapAdd m x.1 x.2) m) k < M64 := by
  induction l generalizing m with
  | nil => exact h k
  | cons x l ih =>
    refine ih (fun k' => ?_)
    rw [mapGet_add]
    split
    · exact add64_lt _ _
    · exact h k'

theorem probes_get {m : Metrics} {es : List Probe} (hm : m.Fits) (h : ∀ e ∈ es, HasCookie e) :
    ∃ m', probes m es = .ok m' ∧ m'.Fits ∧
      (∀ x, m'.get x = (m.get x + totalAdds es x) % M64) ∧
      (∀ k, k ∈ m'.map.map Prod.fst ↔ k ∈ m.map.map Prod.fst ∨ k ∈ (es.flatMap mapDelta).map Prod.fst) := by
  obtain ⟨m', h1, h2, h3, h4⟩ := probes_safe (m := m) h
  have hlt : m'.Fits := by
    refine ⟨fun x => ?_, ?_⟩
    · cases x with
      | ctr c => exact h3 (fun c => hm.1 (.ctr c)) c
      | key k =>
        show mapGet m'.map k < M64
        rw [h4]
        exact foldl_mapAdd_lt _ (fun k => hm.1 (.key k)) k
    · rw [h4]; exact foldl_mapAdd_nodup _ hm.2
  refine ⟨m', h1, hlt, fun x => ?_, fun k => ?_⟩
  · rw [← Nat.mod_eq_of_lt (hlt.1 x)]
    cases x with
    | ctr c => rw [← total_eq]; exact h2 c
    | key k =>
      show mapGet m'.map k % M64 = (mapGet m.map k + _) % M64
      rw [totalAdds_key, h4]
      exact foldl_mapAdd_get _ _ _
  · rw [h4]; exact foldl_mapAdd_keys _ _ _

theorem probes_unsafe {es : List Probe} (h : ¬ ∀ e ∈ es, HasCookie e) (m : Metrics) :
    ∃ s, probes m es = .error (.ub s) := by
  induction es generalizing m with
  | nil => exact absurd (by simp) h
  | cons e es ih =>
    by_cases he : HasCookie e
    · obtain ⟨m1, h1, _⟩ := probe_safe (m := m) he
      have h' : ¬ ∀ e ∈ es, HasCookie e := by
        intro h2
        refine h (fun x hx => ?_)
        rcases List.mem_cons.1 hx with rfl | hx
        · exact he
        · exact h2 x hx
      obtain ⟨s, hs⟩ := ih h' m1
      exact ⟨s, by simp only [probes, h1]; exact hs⟩
    · obtain ⟨s, hs⟩ := probe_unsafe (m := m) he
      exact ⟨s, by simp only [probes, hs]; rfl⟩

/-- The probes run without undefined behaviour exactly if every cookie they need is there. -/
theorem probes_ok_iff (m : Metrics) (es : List Probe) :
    (∃ m', probes m es = .ok m') ↔ ∀ e ∈ es, HasCookie e := by
  constructor
  · rintro ⟨m', h⟩
    by_contra hc
    obtain ⟨s, hs⟩ := probes_unsafe hc m
    rw [hs] at h; cases h
  · intro h
    obtain ⟨m', h1, _⟩ := probes_safe (m := m) h
    exact ⟨m', h1⟩

end Verif.Metrics
