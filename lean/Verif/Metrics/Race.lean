import Verif.Metrics.Props

/-!
C73: the map of the global metrics is not safe to use from several threads.
-/

namespace Verif.Metrics

variable {n : Nat}

/-- The keys an allocation hook uses. -/
def keyOf? : Probe → Option Key
  | .allocated _ (some c) => some (locKey c.loc)
  | _ => none

theorem keys_eq (es : List Probe) : (es.flatMap mapDelta).map Prod.fst = es.filterMap keyOf? := by
  induction es with
  | nil => rfl
  | cons e es ih =>
    rw [List.flatMap_cons, List.map_append, ih, List.filterMap_cons]
    cases e with
    | allocated s c => cases c <;> rfl
    | _ => rfl

theorem accesses_snoc {p q : Proc n} {s : List (Fin n × Act)} {t : Fin n} {a : Act}
    (h : p.run s = some q) : p.accesses (s ++ [(t, a)]) = p.accesses s ++ (q.access t a).toList := by
  induction s generalizing p with
  | nil =>
    cases h
    simp only [List.nil_append, Proc.accesses]
    cases q.act t a <;> simp
  | cons x s ih =>
    obtain ⟨u, b⟩ := x
    simp only [Proc.run] at h
    cases e : p.act u b with
    | none => rw [e] at h; cases h
    | some p' =>
      rw [e] at h
      simp only [List.cons_append, Proc.accesses, e]
      rw [ih h, List.append_assoc]

theorem fetchAdd_keys (m : Metrics) (x : Cell) (v : Nat) (k : Key) :
    k ∈ (m.fetchAdd x v).map.map Prod.fst ↔ k ∈ m.map.map Prod.fst ∨ x = .key k := by
  cases x with
  | ctr c => simp [Metrics.fetchAdd]
  | key k' =>
    show k ∈ (mapAdd m.map k' v).map Prod.fst ↔ _
    rw [mapAdd_keys]
    simp only [Cell.key.injEq]
    constructor
    · rintro (h | h)
      · exact .inl h
      · exact .inr h.symm
    · rintro (h | h)
      · exact .inl h
      · exact .inr h.symm

/-- Key `k` is in the local map of the thread and has not been reported. -/
def Waiting (th : Thread) (k : Key) : Prop :=
  k ∈ th.loc.map.map Prod.fst ∧ ∀ xs, th.todo = some xs → .key k ∈ xs

/-- The invariant: a key a thread has used is waiting to be reported or the thread has accessed the
map with it; keys that are in the map now but were not at the start were inserted by some access. -/
structure RInv (g0 : List Key) (q : Proc n) (s : List (Fin n × Act)) (as : List (Access n)) : Prop where
  used : ∀ t, ∀ k ∈ (hooksOf t s).filterMap keyOf?,
    Waiting (q.threads t) k ∨ ((∃ a ∈ as, a.thread = t) ∧ k ∈ q.global.map.map Prod.fst)
  ins : ∀ k ∈ q.global.map.map Prod.fst, k ∉ g0 → ∃ a ∈ as, a.modifies = true
  sub : ∀ k ∈ g0, k ∈ q.global.map.map Prod.fst
  loc : ∀ t, ∀ k ∈ (q.threads t).loc.map.map Prod.fst, k ∈ (hooksOf t s).filterMap keyOf?
  todo : ∀ t xs k, (q.threads t).todo = some xs → .key k ∈ xs → k ∈ (q.threads t).loc.map.map Prod.fst
  mods : ∀ a ∈ as, a.modifies = true → ∃ k ∈ (hooksOf a.thread s).filterMap keyOf?, k ∉ g0

theorem probe_keys {m m' : Metrics} {e : Probe} (h : probe m e = .ok m') (k : Key) :
    k ∈ m'.map.map Prod.fst ↔ k ∈ m.map.map Prod.fst ∨ keyOf? e = some k := by
  have hck : HasCookie e := by
    by_contra hc
    obtain ⟨s, hs⟩ := probe_unsafe (m := m) hc
    rw [hs] at h; cases h
  obtain ⟨m2, h1, _, _, h4⟩ := probe_safe (m := m) hck
  rw [h] at h1
  cases h1
  rw [h4, foldl_mapAdd_keys]
  cases e with
  | allocated s c => cases c <;> simp [mapDelta, keyOf?, eq_comm]
  | _ => simp [mapDelta, keyOf?]

theorem RInv.act {g0 : List Key} {p p' : Proc n} {s : List (Fin n × Act)} {as : List (Access n)}
    {t : Fin n} {a : Act} (hi : RInv g0 p s as) (h : p.act t a = some p') :
    RInv g0 p' (s ++ [(t, a)]) (as ++ (p.access t a).toList) := by
  have up : ∀ {P : Access n → Prop}, (∃ a ∈ as, P a) → ∃ x ∈ as ++ (p.access t a).toList, P x :=
    fun ⟨x, hx, hp⟩ => ⟨x, List.mem_append_left _ hx, hp⟩
  have hmono : ∀ u, ∀ k ∈ (hooksOf u s).filterMap keyOf?,
      k ∈ (hooksOf u (s ++ [(t, a)])).filterMap keyOf? := by
    intro u k hk
    rw [hooksOf_snoc, List.filterMap_append]
    exact List.mem_append_left _ hk
  cases a with
  | hook e =>
    have hacc : p.access t (.hook e) = none := rfl
    simp only [Proc.act] at h
    cases htd : (p.threads t).todo with
    | some xs => rw [htd] at h; cases h
    | none =>
      rw [htd] at h
      cases hp : probe (p.threads t).loc e with
      | error x => rw [hp] at h; cases h
      | ok m =>
        rw [hp] at h
        simp only [Option.some.injEq] at h
        subst h
        have hk := probe_keys hp
        refine ⟨fun u k hu => ?_, fun k h1 h2 => up (hi.ins k h1 h2), hi.sub, fun u k hu => ?_, fun u xs k h1 h2 => ?_, ?_⟩
        · by_cases e1 : u = t
          · subst e1
            simp only [Proc.set, if_true]
            rw [hooksOf_snoc_self, List.filterMap_append, List.mem_append] at hu
            rcases hu with hu | hu
            · rcases hi.used u k hu with h | ⟨h1, h2⟩
              · exact .inl ⟨(hk k).2 (.inl h.1), fun xs hx => by cases hx⟩
              · exact .inr ⟨up h1, h2⟩
            · refine .inl ⟨(hk k).2 (.inr ?_), fun xs hx => by cases hx⟩
              simpa using hu
          · rw [hooksOf_snoc_ne e1] at hu
            simp only [Proc.set, if_neg e1]
            rcases hi.used u k hu with h | ⟨h1, h2⟩
            · exact .inl h
            · exact .inr ⟨up h1, h2⟩
        · by_cases e1 : u = t
          · subst e1
            simp only [Proc.set, if_true] at hu
            rw [hooksOf_snoc_self, List.filterMap_append, List.mem_append]
            rcases (hk k).1 hu with hu | hu
            · exact .inl (hi.loc u k hu)
            · exact .inr (by simpa using hu)
          · simp only [Proc.set, if_neg e1] at hu
            exact hmono u k (hi.loc u k hu)
        · by_cases e1 : u = t
          · subst e1
            simp [Proc.set] at h1
          · simp only [Proc.set, if_neg e1] at h1 ⊢
            exact hi.todo u xs k h1 h2
        · intro x hx hm
          rw [hacc, Option.toList_none, List.append_nil] at hx
          obtain ⟨k, h1, h2⟩ := hi.mods x hx hm
          exact ⟨k, hmono _ k h1, h2⟩
  | start =>
    have hacc : p.access t .start = none := rfl
    simp only [Proc.act] at h
    cases htd : (p.threads t).todo with
    | some xs => rw [htd] at h; cases h
    | none =>
      rw [htd] at h
      simp only [Option.some.injEq] at h
      subst h
      refine ⟨fun u k hu => ?_, fun k h1 h2 => up (hi.ins k h1 h2), hi.sub, fun u k hu => ?_, fun u xs k h1 h2 => ?_, ?_⟩
      · by_cases e1 : u = t
        · subst e1
          rw [hooksOf_snoc_self, List.append_nil] at hu
          simp only [Proc.set, if_true]
          rcases hi.used u k hu with h | ⟨h1, h2⟩
          · refine .inl ⟨h.1, fun xs hx => ?_⟩
            simp only [Option.some.injEq] at hx
            subst hx
            obtain ⟨y, hy, rfl⟩ := List.mem_map.1 h.1
            exact List.mem_append_right _ (List.mem_map.2 ⟨y, hy, rfl⟩)
          · exact .inr ⟨up h1, h2⟩
        · rw [hooksOf_snoc_ne e1] at hu
          simp only [Proc.set, if_neg e1]
          rcases hi.used u k hu with h | ⟨h1, h2⟩
          · exact .inl h
          · exact .inr ⟨up h1, h2⟩
      · refine hmono u k (hi.loc u k ?_)
        by_cases e1 : u = t
        · subst e1
          simpa only [Proc.set, if_true] using hu
        · simpa only [Proc.set, if_neg e1] using hu
      · by_cases e1 : u = t
        · subst e1
          simp only [Proc.set, if_true, Option.some.injEq] at h1 ⊢
          subst h1
          rcases List.mem_append.1 h2 with h2 | h2
          · obtain ⟨c, _, hc⟩ := List.mem_map.1 h2
            cases hc
          · obtain ⟨y, hy, hc⟩ := List.mem_map.1 h2
            cases hc
            exact List.mem_map.2 ⟨y, hy, rfl⟩
        · simp only [Proc.set, if_neg e1] at h1 ⊢
          exact hi.todo u xs k h1 h2
      · intro x hx hm
        rw [hacc, Option.toList_none, List.append_nil] at hx
        obtain ⟨k, h1, h2⟩ := hi.mods x hx hm
        exact ⟨k, hmono _ k h1, h2⟩
  | fetchAdd =>
    simp only [Proc.act] at h
    cases htd : (p.threads t).todo with
    | none => rw [htd] at h; cases h
    | some xs =>
      rw [htd] at h
      cases xs with
      | nil => cases h
      | cons y ys =>
        simp only [Option.some.injEq] at h
        subst h
        have hacc : p.access t .fetchAdd = match y with
            | .key k => some ⟨t, decide (k ∉ p.global.map.map Prod.fst)⟩
            | .ctr _ => none := by
          simp only [Proc.access, htd]
          cases y <;> rfl
        have hthr : ∀ u, (({ (p.set t { (p.threads t) with todo := some ys }) with
          global := p.global.fetchAdd y ((p.threads t).loc.get y) } : Proc n).threads u)
            = if u = t then { (p.threads t) with todo := some ys } else p.threads u := fun u => rfl
        refine ⟨fun u k hu => ?_, fun k h1 h2 => ?_, fun k hk => ?_, fun u k hu => ?_, fun u xs k h1 h2 => ?_, ?_⟩
        · rw [hthr]
          have hglob : ∀ k, k ∈ p.global.map.map Prod.fst →
              k ∈ (p.global.fetchAdd y ((p.threads t).loc.get y)).map.map Prod.fst :=
            fun k hk => (fetchAdd_keys _ _ _ _).2 (.inl hk)
          by_cases e1 : u = t
          · subst e1
            rw [hooksOf_snoc_self, List.append_nil] at hu
            rw [if_pos rfl]
            rcases hi.used u k hu with h | ⟨h1, h2⟩
            · have h3 := h.2 _ htd
              by_cases e2 : y = .key k
              · subst e2
                refine .inr ⟨⟨⟨u, decide (k ∉ p.global.map.map Prod.fst)⟩, ?_, rfl⟩, (fetchAdd_keys _ _ _ _).2 (.inr rfl)⟩
                rw [hacc]
                exact List.mem_append_right _ (by simp)
              · refine .inl ⟨h.1, fun xs hx => ?_⟩
                simp only [Option.some.injEq] at hx
                subst hx
                rcases List.mem_cons.1 h3 with h3 | h3
                · exact absurd h3.symm e2
                · exact h3
            · exact .inr ⟨up h1, hglob k h2⟩
          · rw [hooksOf_snoc_ne e1] at hu
            rw [if_neg e1]
            rcases hi.used u k hu with h | ⟨h1, h2⟩
            · exact .inl h
            · exact .inr ⟨up h1, hglob k h2⟩
        · rcases (fetchAdd_keys _ _ _ _).1 h1 with h1 | h1
          · exact up (hi.ins k h1 h2)
          · subst h1
            by_cases e2 : k ∈ p.global.map.map Prod.fst
            · exact up (hi.ins k e2 h2)
            · refine ⟨⟨t, decide (k ∉ p.global.map.map Prod.fst)⟩, ?_, by simpa using e2⟩
              rw [hacc]
              exact List.mem_append_right _ (by simp)
        · exact (fetchAdd_keys _ _ _ _).2 (.inl (hi.sub k hk))
        · rw [hthr] at hu
          refine hmono u k (hi.loc u k ?_)
          by_cases e1 : u = t
          · subst e1
            simpa only [if_true] using hu
          · simpa only [if_neg e1] using hu
        · rw [hthr] at h1 ⊢
          by_cases e1 : u = t
          · subst e1
            simp only [if_true, Option.some.injEq] at h1 ⊢
            subst h1
            exact hi.todo u _ k htd (List.mem_cons_of_mem _ h2)
          · simp only [if_neg e1] at h1 ⊢
            exact hi.todo u xs k h1 h2
        · intro x hx hm
          rcases List.mem_append.1 hx with hx | hx
          · obtain ⟨k, h1, h2⟩ := hi.mods x hx hm
            exact ⟨k, hmono _ k h1, h2⟩
          · rw [hacc] at hx
            cases y with
            | ctr c => simp at hx
            | key k =>
              have hx' : x = ⟨t, decide (k ∉ p.global.map.map Prod.fst)⟩ := by simpa using hx
              subst hx'
              simp only [decide_eq_true_eq] at hm
              refine ⟨k, hmono _ k (hi.loc t k (hi.todo t _ k htd List.mem_cons_self)), fun h0 => hm (hi.sub k h0)⟩
  | finish =>
    have hacc : p.access t .finish = none := rfl
    simp only [Proc.act] at h
    cases htd : (p.threads t).todo with
    | none => rw [htd] at h; cases h
    | some xs =>
      rw [htd] at h
      cases xs with
      | cons y ys => cases h
      | nil =>
        simp only [Option.some.injEq] at h
        subst h
        refine ⟨fun u k hu => ?_, fun k h1 h2 => up (hi.ins k h1 h2), hi.sub, fun u k hu => ?_, fun u xs k h1 h2 => ?_, ?_⟩
        · by_cases e1 : u = t
          · subst e1
            rw [hooksOf_snoc_self, List.append_nil] at hu
            rcases hi.used u k hu with h | ⟨h1, h2⟩
            · have := h.2 _ htd
              simp at this
            · exact .inr ⟨up h1, h2⟩
          · rw [hooksOf_snoc_ne e1] at hu
            simp only [Proc.set, if_neg e1]
            rcases hi.used u k hu with h | ⟨h1, h2⟩
            · exact .inl h
            · exact .inr ⟨up h1, h2⟩
        · by_cases e1 : u = t
          · subst e1
            simp [Proc.set, Metrics.zero] at hu
          · simp only [Proc.set, if_neg e1] at hu
            exact hmono u k (hi.loc u k hu)
        · by_cases e1 : u = t
          · subst e1
            simp [Proc.set] at h1
          · simp only [Proc.set, if_neg e1] at h1 ⊢
            exact hi.todo u xs k h1 h2
        · intro x hx hm
          rw [hacc, Option.toList_none, List.append_nil] at hx
          obtain ⟨k, h1, h2⟩ := hi.mods x hx hm
          exact ⟨k, hmono _ k h1, h2⟩

theorem rinv_run {p q : Proc n} (hp : p.Init) {s : List (Fin n × Act)} (h : p.run s = some q) :
    RInv (p.global.map.map Prod.fst) q s (p.accesses s) := by
  induction s using List.reverseRecOn generalizing q with
  | nil =>
    cases h
    refine ⟨fun t k hk => by simp [hooksOf] at hk, fun k h1 h2 => absurd h1 h2, fun k h => h, ?_, ?_, ?_⟩
    · intro t k hk
      rw [hp.idle t] at hk
      simp [Metrics.zero] at hk
    · intro t xs k hx
      rw [hp.idle t] at hx
      cases hx
    · intro a ha
      simp [Proc.accesses] at ha
  | append_singleton s x ih =>
    obtain ⟨t, a⟩ := x
    obtain ⟨p', h1, h2⟩ := run_snoc h
    rw [accesses_snoc h1]
    exact (ih h1).act h2

/-- C73 as claimed is violated, and not only in special cases: whenever two threads have allocated and
reported, and any of the source locations was not already in the global map before, there is a data
race on the map. -/
theorem c73_violated {p q : Proc n} (hp : p.Init) {s : List (Fin n × Act)} (h : p.run s = some q)
    (hfl : ∀ t, (q.threads t).Flushed) {t u v : Fin n} (htu : t ≠ u)
    (ht : (hooksOf t s).filterMap keyOf? ≠ []) (hu : (hooksOf u s).filterMap keyOf? ≠ [])
    {k : Key} (hk : k ∈ (hooksOf v s).filterMap keyOf?) (hnew : k ∉ p.global.map.map Prod.fst) :
    Race (p.accesses s) := by
  have hi := rinv_run hp h
  have acc : ∀ {w : Fin n} {k : Key}, k ∈ (hooksOf w s).filterMap keyOf? →
      (∃ a ∈ p.accesses s, a.thread = w) ∧ k ∈ q.global.map.map Prod.fst := by
    intro w k hk
    rcases hi.used w k hk with h | h
    · have := h.1
      rw [(hfl w).2] at this
      simp [Metrics.zero] at this
    · exact h
  obtain ⟨k1, hk1⟩ := List.exists_mem_of_ne_nil _ ht
  obtain ⟨k2, hk2⟩ := List.exists_mem_of_ne_nil _ hu
  obtain ⟨⟨a1, ha1, hb1⟩, _⟩ := acc hk1
  obtain ⟨⟨a2, ha2, hb2⟩, _⟩ := acc hk2
  obtain ⟨a3, ha3, hm⟩ := hi.ins k (acc hk).2 hnew
  by_cases e : a3.thread = t
  · exact ⟨a3, ha3, a2, ha2, by rw [e, hb2]; exact htu, hm⟩
  · exact ⟨a3, ha3, a1, ha1, by rw [hb1]; exact e, hm⟩

/-- C73 (what is missing: new locations appear while threads run, see `c73_violated`): if every source
location that allocates is already in the global map when the threads start, there is no race, and
so (`c31_concurrent`) the per-location counters are exact too. -/
theorem c73_partial {p q : Proc n} (hp : p.Init) {s : List (Fin n × Act)} (h : p.run s = some q)
    (hk : ∀ t, ∀ k ∈ (hooksOf t s).filterMap keyOf?, k ∈ p.global.map.map Prod.fst) :
    ¬ Race (p.accesses s) := by
  rintro ⟨a, ha, b, _, _, hm⟩
  obtain ⟨k, h1, h2⟩ := (rinv_run hp h).mods a ha hm
  exact h2 (hk _ k h1)

/-- The race happens: both threads of `exSched`, started with an empty map. -/
example : Race ((Proc.start 2 []).accesses exSched) := by
  obtain ⟨q, h1, h2⟩ := endsIdle_spec (p := Proc.start 2 []) (s := exSched) (by decide +kernel)
  exact c73_violated (start_init 2 []) h1 h2 (t := 0) (u := 1) (v := 0) (by decide) (by decide +kernel)
    (by decide +kernel) (k := ['a', ':', '3']) (by decide +kernel) (by decide)

example : ¬ Race ((Proc.start 2 [['a', ':', '3']]).accesses exSched) :=
  let ⟨_, h1, _⟩ := exSched_runs
  c73_partial (start_init 2 _) h1 (by decide +kernel)

end Verif.Metrics
