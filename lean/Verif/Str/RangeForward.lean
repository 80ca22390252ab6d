import Verif.Str.RangeProps

/-!
`replace`, `assign` and the constructor with ranges of forward iterators that may throw.
-/

namespace Verif.Str.Ranges

open M

variable {β γ : Type} {cfg : Cfg} {s s' : St} {a a' : Abs} {r : Range}

/-! ### Model -/

/-- `replaceImpl(i1, i1 + n1, s1, s2)` for forward iterators that are not those of a string and may throw, string.hpp:2127-2155:
`replaceAliased` is that of string.hpp:1521-1525, which returns false.  `std::copy` and `copy_n` (string.hpp:158-165) write the characters one
by one; `copy_n` is `noexcept`.  `std::distance` does not throw. -/
def replaceForwardAt (cfg : Cfg) (v : Obj) (i1 : Ptr) (n1 : Nat) (r : Range) : M Unit :=
  checker cfg v do
    if r.length < n1 then do
      copyRange i1 r
      eraseAt cfg v (i1.add r.length) (n1 - r.length)
      sane cfg v
    else do
      noexcept (copyRange i1 (r.take n1))
      insertForwardAt cfg v (i1.add n1) (r.drop n1)
      sane cfg v

/-- `s.replace(s.begin() + pos, s.begin() + pos + n1, s1, s2)` for forward iterators, string.hpp:1537-1543, 2101-2109. -/
def replaceForward (cfg : Cfg) (v : Obj) (pos n1 : Nat) (r : Range) : M Unit := do
  let b ← begin_ cfg v
  replaceForwardAt cfg v (b.add pos) n1 r

/-- `assign(s1, s2)` for forward iterators, string.hpp:1371-1374: `replace(begin(), end(), s1, s2)`. -/
def assignForward (cfg : Cfg) (v : Obj) (r : Range) : M Unit := do
  let b ← begin_ cfg v
  let k ← size cfg v
  replaceForwardAt cfg v b k r

/-- The constructor from forward iterators, string.hpp:1123-1128; when `assign` throws the core is destroyed. -/
def makeForward (cfg : Cfg) (v : Obj) (al : Nat) (r : Range) : M Unit := do
  ctorEmpty cfg v al
  building cfg v (assignForward cfg v r)

/-! ### Ranges -/

theorem given_append : ∀ x y : Range, given (x ++ y) = if none ∈ x then given x else given x ++ given y
  | [], y => by simp [given]
  | none :: x, y => by simp [given]
  | some c :: x, y => by
    have := given_append x y
    simp only [List.cons_append, given, this, List.mem_cons, reduceCtorEq, false_or]
    split <;> simp

theorem given_lt : ∀ r : Range, none ∈ r → (given r).length < r.length
  | none :: r, _ => by simp [given]
  | some c :: r, h => by
    have := given_lt r (by simpa using h)
    simp only [given, List.length_cons]; omega

/-- A range that throws within its first `n`. -/
theorem given_early {n : Nat} (h : none ∈ r.take n) : given (r.take n) = given r ∧ (given r).length < n := by
  have h1 := given_append (r.take n) (r.drop n)
  rw [List.take_append_drop, if_pos h] at h1
  have := given_lt _ h
  rw [← h1] at this
  refine ⟨h1.symm, Nat.lt_of_lt_of_le this (by simp; omega)⟩

/-- A range that does not. -/
theorem given_late {n : Nat} (hn : n ≤ r.length) (h : none ∉ r.take n) :
    (given (r.take n)).length = n ∧ given r = given (r.take n) ++ given (r.drop n) ∧ (given r).take n = given (r.take n) := by
  have h1 := given_append (r.take n) (r.drop n)
  rw [List.take_append_drop, if_neg h] at h1
  have h2 := (given_length (r.take n)).2 h
  have h3 : (given (r.take n)).length = n := by rw [h2]; simp; omega
  refine ⟨h3, h1, ?_⟩
  rw [h1, List.take_append_of_le_length (by omega), List.take_of_length_le (by omega)]

/-! ### Triples -/

/-- Failing for want of memory with `P`, or because the range threw with `R`. -/
def ErrG (r : Range) (cfg : Cfg) (v : Obj) (P : St → Prop) (R : String → St → Prop) (s : St) (e : Fault) (s' : St) : Prop :=
  Err cfg (· = v) P s e s' ∨
    (none ∈ r ∧ ∃ w, e = .throw w ∧ WInv cfg s' ∧ Frame (· = v) s s' ∧ R w s' ∧ s'.refused = s.refused ∧ s'.lost = s.lost)

theorem ErrG.after {v : Obj} {P : St → Prop} {R : String → St → Prop} {e : Fault} {s1 : St} (hf : Frame (· = v) s s1)
    (hq : s1.refused = s.refused ∧ s1.lost = s.lost) (h : ErrG r cfg v P R s1 e s') : ErrG r cfg v P R s e s' := by
  rcases h with h | ⟨h1, w, h2, h3, h4, h5, h6, h7⟩
  · exact Or.inl (h.after hf)
  · exact Or.inr ⟨h1, w, h2, h3, hf.trans h4, h5, h6.trans hq.1, h7.trans hq.2⟩

/-- The checker around a body. -/
theorem checkerG {v : Obj} {body : M Unit} {Q : Unit → St → Prop} {P : St → Prop} {R : String → St → Prop} {cs : List Cell} (hw : WInv cfg s)
    (hv : Raw cfg s v cs) (hb : Tri body s Q (ErrG r cfg v P R s)) (hq : ∀ x s', Q x s' → WInv cfg s' ∧ ∃ cs, Raw cfg s' v cs)
    (hP : ∀ s', P s' → ∃ cs, Raw cfg s' v cs) (hR : ∀ w s', R w s' → ∃ cs, Raw cfg s' v cs) :
    Tri (checker cfg v body) s Q (ErrG r cfg v P R s) := by
  have hb' := hb
  rcases e : body s with ⟨x, s'⟩
  unfold Tri at hb'
  rw [e] at hb'
  have old : Tri body s Q (Err cfg (· = v) P s) → Tri (checker cfg v body) s Q (ErrG r cfg v P R s) := fun h =>
    (checker_tri hw hv h hq (fun _ _ _ h => hP _ h)).mono (fun _ _ h => h) (fun _ _ h => Or.inl h)
  cases x with
  | ok b => exact old (Tri.of_ok e hb')
  | error f =>
    rcases hb' with h | ⟨h1, w, rfl, h3, h4, h5, h6⟩
    · exact old (Tri.of_err e h)
    · refine Tri.of_err (e := .throw w) (s' := s') ?_ (Or.inr ⟨h1, w, rfl, h3, h4, h5, h6⟩)
      obtain ⟨cs', h6⟩ := hR _ _ h5
      unfold checker
      rw [bind_ok (sane_ok hw hv)]
      unfold checking
      rw [e]
      simp only [sane_ok h3 h6]

theorem copyRange_quiet : ∀ (p : Ptr) (r : Range), Quiet (copyRange p r)
  | _, [] => by unfold copyRange; quiet
  | _, none :: _ => by unfold copyRange; quiet
  | p, some c :: r => by
    unfold copyRange
    quiet
    exact copyRange_quiet _ r

/-- What `replace` leaves if memory is refused: the string as it was, or its characters replaced by as many of the range. -/
def Short (cfg : Cfg) (v : Obj) (cs : List Cell) (pos n1 : Nat) (r : Range) (s' : St) : Prop :=
  Raw cfg s' v cs ∨ (n1 ≤ r.length ∧ none ∉ r.take n1 ∧ Raw cfg s' v (cs.take pos ++ ((given r).take n1).map some ++ cs.drop (pos + n1)))

/-- What `replace` leaves if the range throws `w`: behind the characters given, the old ones if more were to be replaced than the range
has; the end of the program if the range throws before it gave as many as were to be replaced; and otherwise a gap. -/
def Torn (cfg : Cfg) (v : Obj) (cs : List Cell) (pos n1 : Nat) (r : Range) (w : String) (s' : St) : Prop :=
  ((given r).length < n1 ∧ w = (if r.length < n1 then "iterator" else "terminate") ∧
    Raw cfg s' v (cs.take pos ++ (given r).map some ++ cs.drop (pos + (given r).length))) ∨
  (n1 ≤ (given r).length ∧ n1 ≤ r.length ∧ w = "iterator" ∧ ∃ gap, (given r).length + gap.length = r.length ∧
    Raw cfg s' v (cs.take pos ++ (given r).map some ++ gap ++ cs.drop (pos + n1)))

theorem replaceForwardAt_tri {v : Obj} (hc : cfg.Ok) (hw : WInv cfg s) (hf : Free s) {cs : List Cell} {b : Ptr} (hv : Own cfg s v b cs)
    {pos n1 : Nat} (hp : pos + n1 ≤ cs.length) (hn : cs.length - n1 + r.length < M64) :
    Tri (replaceForwardAt cfg v (b.add pos) n1 r) s
      (fun _ s' => Done cfg v (cs.take pos ++ (given r).map some ++ cs.drop (pos + n1)) s s' ∧ none ∉ r)
      (ErrG r cfg v (Short cfg v cs pos n1 r) (Torn cfg v cs pos n1 r) s) := by
  have hg := given_length r
  unfold replaceForwardAt
  refine checkerG hw hv.raw ?_ (fun _ _ h => h.1.check) ?_ ?_
  · by_cases hlt : r.length < n1
    · rw [if_pos hlt]
      refine Tri.bind ((copyRange_tri r (i := pos) hw hv (by omega)).mono (fun _ _ h => h) ?_) ?_
      · rintro e s1 ⟨k0, k1, k2, k3, k4, k5, k6⟩
        refine Or.inr ⟨k1, _, k0, k2, k3, Or.inl ⟨by omega, by rw [if_pos hlt], ?_⟩, k5, k6⟩
        have := k4.raw
        unfold put at this
        simpa using this
      · rintro _ s1 ⟨k1, k2, k3, k4⟩
        have hl := hg.2 k4
        have hl' : (put cs pos ((given r).map some)).length = cs.length := put_length (by simp; omega)
        obtain ⟨s2, g1, g2, g3, g4⟩ := eraseAt_own hc k1 k3 (pos := pos + r.length) (n := n1 - r.length) (by omega)
        have e := replace_less (cs := cs) (ys := (given r).map some) hp (by simp; omega)
        rw [List.length_map, hl] at e
        rw [e] at g4
        rw [← Ptr.add_add] at g1
        exact Tri.step g1 (Tri.of_ok (sane_ok g2 g4.raw) ⟨⟨g2, k2.trans g3, g4.raw⟩, k4⟩)
    · rw [if_neg hlt]
      have hl0 : (r.take n1).length = n1 := by simp; omega
      have hcp : Tri (noexcept (copyRange (b.add pos) (r.take n1))) s
          (fun _ s' => WInv cfg s' ∧ Frame (· = v) s s' ∧ Own cfg s' v b (put cs pos ((given (r.take n1)).map some)) ∧ none ∉ r.take n1)
          (fun e s' => e = .throw "terminate" ∧ none ∈ r.take n1 ∧ WInv cfg s' ∧ Frame (· = v) s s' ∧
            Own cfg s' v b (put cs pos ((given (r.take n1)).map some)) ∧ s'.refused = s.refused ∧ s'.lost = s.lost) :=
        noexcept_tri (copyRange_tri (r.take n1) (i := pos) hw hv (by omega)) (fun _ _ h => ⟨rfl, h.2⟩) (fun _ _ h h' => absurd h.1 (h' _))
      refine Tri.bind (Tri.flags (hcp.mono (fun _ _ h => h) ?_) ?_) ?_
      · rintro e s1 ⟨k0, k1, k2, k3, k4, k5, k6⟩
        obtain ⟨g1, g2⟩ := given_early k1
        rw [g1] at k4
        refine Or.inr ⟨List.mem_of_mem_take k1, _, k0, k2, k3, Or.inl ⟨g2, by rw [if_neg hlt], ?_⟩, k5, k6⟩
        have := k4.raw
        unfold put at this
        simpa using this
      · have := copyRange_quiet (b.add pos) (r.take n1)
        quiet
        exact this
      · rintro _ s1 ⟨⟨k1, k2, k3, k4⟩, q1⟩
        obtain ⟨g1, g2, g3⟩ := given_late (by omega) k4
        have hl' : (put cs pos ((given (r.take n1)).map some)).length = cs.length := put_length (by simp; omega)
        have e0 := fun zs => replace_more (cs := cs) (ys := (given (r.take n1)).map some) (zs := zs) (pos := pos) (by simp; omega)
        simp only [List.length_map, g1] at e0
        have hi := insertForwardAt_tri (r := r.drop n1) hc k1 (hf.frame hv.raw k2) k3.raw k3.dataM (pos := pos + n1) (by omega)
          (by simp; omega)
        rw [← Ptr.add_add] at hi
        refine Tri.bind (hi.mono (fun _ _ h => h) ?_) ?_
        · rintro e s2 (h | ⟨h1, h2, h3, h4, ⟨gap, h5, h6⟩, h7, h8⟩)
          · refine Or.inl ((h.after k2).mono (fun _ h => h) (fun _ _ h => Or.inr ⟨by omega, k4, ?_⟩))
            have := e0 []
            simp only [List.append_nil, List.take_append_drop] at this
            rw [this] at h
            rwa [g3]
          · refine Or.inr ⟨List.mem_of_mem_drop h1, _, h2, h3, k2.trans h4, Or.inr ⟨by rw [g2]; simp; omega, by omega, rfl, gap, ?_, ?_⟩, h7.trans q1.1, h8.trans q1.2⟩
            · rw [g2]
              simp only [List.length_append, g1]
              simp only [List.length_drop] at h5
              omega
            · have := e0 ((given (r.drop n1)).map some ++ gap)
              rw [← List.append_assoc] at this
              rw [this] at h6
              rw [g2]
              simpa using h6
        · rintro _ s2 ⟨⟨j1, j2, p2, j3⟩, hr⟩
          rw [e0, ← List.map_append, ← g2] at j3
          refine Tri.of_ok (sane_ok j1 j3.raw) ⟨⟨j1, k2.trans j2, j3.raw⟩, ?_⟩
          intro hm
          rw [← List.take_append_drop n1 r, List.mem_append] at hm
          exact hm.elim k4 hr
  · rintro s' (h | ⟨_, _, h⟩)
    · exact ⟨_, h⟩
    · exact ⟨_, h⟩
  · rintro w s' (⟨_, _, h⟩ | ⟨_, _, _, gap, _, h⟩)
    · exact ⟨_, h⟩
    · exact ⟨_, h⟩

theorem replaceForward_tri {v : Obj} (hc : cfg.Ok) (hw : WInv cfg s) (hf : Free s) {cs : List Cell} (hv : Raw cfg s v cs)
    {pos n1 : Nat} (hp : pos + n1 ≤ cs.length) (hn : cs.length - n1 + r.length < M64) :
    Tri (replaceForward cfg v pos n1 r) s
      (fun _ s' => Done cfg v (cs.take pos ++ (given r).map some ++ cs.drop (pos + n1)) s s' ∧ none ∉ r)
      (ErrG r cfg v (Short cfg v cs pos n1 r) (Torn cfg v cs pos n1 r) s) := by
  unfold replaceForward
  refine Tri.bind (Tri.flags (((begin_tri hc hw hv).strong hv).mono (fun _ _ h => h)
    (fun _ _ h => Or.inl (h.mono (fun _ h => h) (fun _ _ h => Or.inl h)))) (by quiet)) ?_
  rintro b s1 ⟨⟨w1, f1, o1⟩, q1⟩
  refine (replaceForwardAt_tri hc w1 (hf.frame hv f1) o1 hp hn).mono ?_ (fun _ _ h => h.after f1 q1)
  rintro _ s2 ⟨⟨a, b, c⟩, hr⟩
  exact ⟨⟨a, f1.trans b, c⟩, hr⟩

theorem assignForward_tri {v : Obj} (hc : cfg.Ok) (hw : WInv cfg s) (hf : Free s) {cs : List Cell} (hv : Raw cfg s v cs)
    (hn : r.length < M64) :
    Tri (assignForward cfg v r) s
      (fun _ s' => Done cfg v (cs.take 0 ++ (given r).map some ++ cs.drop (0 + cs.length)) s s' ∧ none ∉ r)
      (ErrG r cfg v (Short cfg v cs 0 cs.length r) (Torn cfg v cs 0 cs.length r) s) := by
  unfold assignForward
  refine Tri.bind (Tri.flags (((begin_tri hc hw hv).strong hv).mono (fun _ _ h => h)
    (fun _ _ h => Or.inl (h.mono (fun _ h => h) (fun _ _ h => Or.inl h)))) (by quiet)) ?_
  rintro b s1 ⟨⟨w1, f1, o1⟩, q1⟩
  refine Tri.step (o1.raw.sizeM w1) ?_
  have := replaceForwardAt_tri (r := r) (pos := 0) (n1 := cs.length) hc w1 (hf.frame hv f1) o1 (by omega) (by omega)
  rw [Ptr.add_zero] at this
  refine this.mono ?_ (fun _ _ h => h.after f1 q1)
  rintro _ s2 ⟨⟨a, b, c⟩, hr⟩
  exact ⟨⟨a, f1.trans b, c⟩, hr⟩

theorem makeForward_tri (hc : cfg.Ok) (hw : WInv cfg s) (hf : Free s) {i al : Nat} (hv : s.vars (.user i) = none)
    (ha : cfg.arena = (al != 0)) (hn : r.length < M64) :
    Tri (makeForward cfg (.user i) al r) s
      (fun _ s' => Done cfg (.user i) ((given r).map some) s s' ∧ none ∉ r)
      (ErrI r cfg (fun _ => False) (fun _ => True) s) := by
  obtain ⟨s1, l1, e1, e2, e3, e4, e5, e6⟩ := ctorEmpty_ok hw (v := .user i) (al := al) hv ha
  unfold makeForward
  refine Tri.step e1 (building_tri hv ?_)
  have f0 : Free s1 := ⟨e3.none (by simp) hf.1, e3.none (by simp) hf.2⟩
  refine (assignForward_tri (r := r) hc e2 f0 (cs := []) ⟨_, _, _, e4, by simp⟩ hn).mono ?_ ?_
  · rintro _ s2 ⟨h, hr⟩
    exact ⟨⟨h.inv, e3.trans h.frame, by simpa using h.raw⟩, hr⟩
  · rintro e s2 (h | ⟨h1, w, h2, h3, h4, h5, h6, h7⟩)
    · refine Or.inl ((h.after e3).mono (fun _ h => h) (fun _ _ h => ?_))
      rcases h with h | ⟨_, _, h⟩
      · exact ⟨_, h⟩
      · exact ⟨_, h⟩
    · rcases h5 with ⟨h, _⟩ | ⟨_, _, rfl, gap, _, h⟩
      · exact absurd h (Nat.not_lt_zero _)
      · exact Or.inr ⟨h1, h2, h3, e3.trans h4, ⟨_, h⟩, h6.trans e5, h7.trans e6⟩

/-! ### The properties -/

/-- The two calls with forward iterators: `x` replaces `n1` characters of the string `v` from `pos` on by `r`. -/
def Replaces (cfg : Cfg) (v pos n1 : Nat) (xs : List Ch) (r : Range) (x : M Unit) : Prop :=
  (pos + n1 ≤ xs.length ∧ x = replaceForward cfg (.user v) pos n1 r) ∨ (pos = 0 ∧ n1 = xs.length ∧ x = assignForward cfg (.user v) r)

theorem Replaces.bound {v pos n1 : Nat} {xs : List Ch} {x : M Unit} (h : Replaces cfg v pos n1 xs r x) : pos + n1 ≤ xs.length := by
  rcases h with ⟨h, _⟩ | ⟨rfl, rfl, _⟩
  · exact h
  · omega

theorem replaces_tri {v pos n1 : Nat} {xs : List Ch} {x : M Unit} (hc : cfg.Ok) (h : Rel cfg a s) (hv : a v = some xs)
    (hx : Replaces cfg v pos n1 xs r x) (hn : xs.length - n1 + r.length < M64) :
    Tri x s (fun _ s' => Done cfg (.user v) ((xs.map some : List Cell).take pos ++ (given r).map some ++ (xs.map some : List Cell).drop (pos + n1)) s s' ∧ none ∉ r)
      (ErrG r cfg (.user v) (Short cfg (.user v) (xs.map some) pos n1 r) (Torn cfg (.user v) (xs.map some) pos n1 r) s) := by
  rcases hx with ⟨hp, rfl⟩ | ⟨rfl, rfl, rfl⟩
  · exact replaceForward_tri hc h.inv h.free (h.held v xs hv) (by simpa using hp) (by simpa using hn)
  · have := assignForward_tri (r := r) hc h.inv h.free (h.held v xs hv) (by omega)
    rwa [List.length_map] at this

/-- A call of `replace` or `assign` that ran out of memory: the string is as it was, or the characters to be replaced are replaced by as
many of the range and nothing else happened; the other strings are as they were. -/
def Starved (cfg : Cfg) (a : Abs) (v pos n1 : Nat) (xs : List Ch) (r : Range) (e : Fault) (s' : St) : Prop :=
  cfg.arena = false ∧ s'.lost = true ∨
  s'.refused = true ∧ (e = .throw "bad_alloc" ∨ e = .throw "length_error" ∨ e = .throw "terminate") ∧
    (∀ u ys, u ≠ v → a u = some ys → contents cfg u s' = (.ok ys, s')) ∧
    (contents cfg v s' = (.ok xs, s') ∨
      n1 ≤ r.length ∧ none ∉ r.take n1 ∧ contents cfg v s' = (.ok (splice xs pos n1 ((given r).take n1)), s'))

theorem Starved.of {v pos n1 : Nat} {xs : List Ch} {e : Fault} (h : Rel cfg a s)
    (he : Err cfg (· = .user v) (Short cfg (.user v) (xs.map some) pos n1 r) s e s') : Starved cfg a v pos n1 xs r e s' := by
  rcases he with he | ⟨h1, h2, h3, h4, h5⟩
  · exact Or.inl he
  · refine Or.inr ⟨h1, h2, fun u ys hu ha => contents_ok h3 (h4.raw (by simpa using hu) (h.held u ys ha)), ?_⟩
    rcases h5 with h5 | ⟨k1, k2, h5⟩
    · exact Or.inl (contents_ok h3 h5)
    · refine Or.inr ⟨k1, k2, contents_ok h3 ?_⟩
      unfold Reads
      simpa [splice] using h5

/-- C147: a range of forward iterators that do not throw replaces what it should replace, or memory was refused. -/
theorem replace_meets_spec {v pos n1 : Nat} {xs : List Ch} {x : M Unit} (hc : cfg.Ok) (h : ReachR cfg a s) (hv : a v = some xs)
    (hx : Replaces cfg v pos n1 xs r x) (hn : xs.length - n1 + r.length < M64) (hr : none ∉ r) :
    (∃ s', x s = (.ok (), s') ∧ contents cfg v s' = (.ok (splice xs pos n1 (given r)), s') ∧
      ∀ u ys, u ≠ v → a u = some ys → contents cfg u s' = (.ok ys, s')) ∨
    (∃ e s', x s = (.error e, s') ∧ Starved cfg a v pos n1 xs r e s') := by
  obtain ⟨hrel, hf, hl⟩ := reachR_rel hc h
  have h1 := replaces_tri hc hrel hv hx hn
  unfold Tri at h1
  rcases e : x s with ⟨y, s'⟩
  rw [e] at h1
  cases y with
  | ok _ =>
    have hd := hrel.one (v := v) (xs := splice xs pos n1 (given r)) (s' := s')
      ⟨h1.1.inv, h1.1.frame, by simpa [splice] using h1.1.raw⟩
    refine Or.inl ⟨s', rfl, contents_ok hd.inv (hd.held v _ (upd_same _ _ _)), fun u ys hu ha => ?_⟩
    exact contents_ok hd.inv (hd.held u ys (by rw [upd_other _ _ hu, ha]))
  | error f =>
    refine Or.inr ⟨f, s', rfl, ?_⟩
    rcases h1 with h1 | ⟨g, _⟩
    · exact Starved.of hrel h1
    · exact absurd g hr

/-- C147, for `replace` and `assign` with forward iterators: if the range throws, the exception comes out, the other strings are what they
were, and the string remains one that can be destroyed.  If the range is shorter than what was to be replaced, the characters given stand in
place of as many and all others are kept; else the size has changed as if the range had not thrown, and behind the characters given there is
a gap up to those that stood behind the replaced ones.  Not so: the contents are what they were (`replace_throw_violated`), and that the
exception comes out of every range (`hg`, `replace_ends_violated`). -/
theorem replace_throw_partial {v pos n1 : Nat} {xs : List Ch} {x : M Unit} (hc : cfg.Ok) (h : ReachR cfg a s) (hv : a v = some xs)
    (hx : Replaces cfg v pos n1 xs r x) (hn : xs.length - n1 + r.length < M64) (hr : none ∈ r)
    (hg : r.length < n1 ∨ n1 ≤ (given r).length) :
    (∃ s', x s = (.error (.throw "iterator"), s') ∧ s'.refused = false ∧ s'.lost = false ∧
      (∀ u ys, u ≠ v → a u = some ys → contents cfg u s' = (.ok ys, s')) ∧
      (r.length < n1 → contents cfg v s' = (.ok (splice xs pos (given r).length (given r)), s')) ∧
      (n1 ≤ (given r).length → size cfg (.user v) s' = (.ok (xs.length - n1 + r.length), s') ∧
        (∀ i c, i < pos → xs[i]? = some c → getAt (.user v) i s' = (.ok c, s')) ∧
        (∀ i c, (given r)[i]? = some c → getAt (.user v) (pos + i) s' = (.ok c, s')) ∧
        (∀ i c, pos + n1 ≤ i → xs[i]? = some c → getAt (.user v) (i - n1 + r.length) s' = (.ok c, s'))) ∧
      ∃ s'', destroy cfg (.user v) s' = (.ok (), s'') ∧ ∀ u ys, u ≠ v → a u = some ys → contents cfg u s'' = (.ok ys, s'')) ∨
    (∃ e s', x s = (.error e, s') ∧ Starved cfg a v pos n1 xs r e s') := by
  obtain ⟨hrel, hf, hl⟩ := reachR_rel hc h
  have hp := hx.bound
  have h1 := replaces_tri hc hrel hv hx hn
  unfold Tri at h1
  rcases e : x s with ⟨y, s'⟩
  rw [e] at h1
  cases y with
  | ok _ => exact absurd hr h1.2
  | error f =>
    rcases h1 with h1 | ⟨_, w, rfl, g3, g4, g5, g7, g8⟩
    · exact Or.inr ⟨f, s', rfl, Starved.of hrel h1⟩
    · have hw : w = "iterator" := by
        rcases g5 with ⟨h1, h2, _⟩ | ⟨_, _, h2, _⟩
        · rw [h2, if_pos (by omega)]
        · exact h2
      subst hw
      have hlen := given_lt r hr
      have others : ∀ u ys, u ≠ v → a u = some ys → contents cfg u s' = (.ok ys, s') := fun u ys hu ha =>
        contents_ok g3 (g4.raw (by simpa using hu) (hrel.held u ys ha))
      have hraw : ∃ zs, Raw cfg s' (.user v) zs := by
        rcases g5 with ⟨_, _, h⟩ | ⟨_, _, _, gap, _, h⟩
        · exact ⟨_, h⟩
        · exact ⟨_, h⟩
      obtain ⟨zs, hz⟩ := hraw
      obtain ⟨ob, hob⟩ := hz.var
      obtain ⟨s2, k1, k2, k3, k4, _⟩ := destroy_ok g3 hob
      refine Or.inl ⟨s', rfl, g7.trans hf, g8.trans hl, others, ?_, ?_, s2, k1, ?_⟩
      · intro hlt
        rcases g5 with ⟨_, _, g6⟩ | ⟨h, _⟩
        · refine contents_ok g3 ?_
          unfold Reads
          simpa [splice] using g6
        · omega
      · intro hge
        rcases g5 with ⟨h, _⟩ | ⟨_, hr', _, gap, g5, g6⟩
        · omega
        have l1 : ((xs.map some : List Cell).take pos).length = pos := by simp; omega
        have l2 : ((given r).map some : List Cell).length = (given r).length := by simp
        refine ⟨?_, ?_, ?_, ?_⟩
        · rw [g6.sizeM g3]
          congr 2
          simp; omega
        · intro i c hi hc
          refine getAt_raw g6 ?_
          rw [List.append_assoc, List.append_assoc, List.getElem?_append_left (by omega), List.getElem?_take_of_lt hi]
          simp [hc]
        · intro i c hc
          refine getAt_raw g6 ?_
          have hlt := (List.getElem?_eq_some_iff.1 hc).1
          rw [List.append_assoc, List.append_assoc, List.getElem?_append_right (by omega), l1, Nat.add_sub_cancel_left,
            List.getElem?_append_left (by omega)]
          simp [hc]
        · intro i c hi hc
          refine getAt_raw g6 ?_
          have l3 : ((xs.map some : List Cell).take pos ++ (given r).map some ++ gap).length = pos + r.length := by
            simp only [List.length_append, l1, l2]; omega
          rw [List.getElem?_append_right (by omega), l3, List.getElem?_drop]
          have : pos + n1 + (i - n1 + r.length - (pos + r.length)) = i := by omega
          rw [this]
          simp [hc]
      · intro u ys hu ha
        exact contents_ok k2 (k3.raw (by simpa using hu) (g4.raw (by simpa using hu) (hrel.held u ys ha)))

/-- C147 does not hold for `replace` and `assign` with forward iterators: a range that is at least as long as what it replaces, and throws
before it gave as many characters, ends the program, since they are copied by a function that is `noexcept`. -/
theorem replace_ends_violated {v pos n1 : Nat} {xs : List Ch} {x : M Unit} (hc : cfg.Ok) (h : ReachR cfg a s) (hv : a v = some xs)
    (hx : Replaces cfg v pos n1 xs r x) (hn : xs.length - n1 + r.length < M64) (hr : none ∈ r) (hl : n1 ≤ r.length)
    (hg : (given r).length < n1) :
    (∃ s', x s = (.error (.throw "terminate"), s') ∧ s'.refused = false) ∨ (∃ e s', x s = (.error e, s') ∧ Starved cfg a v pos n1 xs r e s') := by
  obtain ⟨hrel, hf, _⟩ := reachR_rel hc h
  have h1 := replaces_tri hc hrel hv hx hn
  unfold Tri at h1
  rcases e : x s with ⟨y, s'⟩
  rw [e] at h1
  cases y with
  | ok _ => exact absurd hr h1.2
  | error f =>
    rcases h1 with h1 | ⟨_, w, rfl, _, _, g5, g6, _⟩
    · exact Or.inr ⟨f, s', rfl, Starved.of hrel h1⟩
    · rcases g5 with ⟨_, h2, _⟩ | ⟨h2, _⟩
      · rw [if_neg (by omega)] at h2
        subst h2
        exact Or.inl ⟨s', rfl, g6.trans hf⟩
      · omega

/-- C147 does not hold for `replace` and `assign` with forward iterators: whenever the exception of one comes out, the contents of the string
are not what they were, unless the characters given before are those that stood there. -/
theorem replace_throw_violated {v pos n1 : Nat} {xs : List Ch} {x : M Unit} (hc : cfg.Ok) (h : ReachR cfg a s) (hv : a v = some xs)
    (hx : Replaces cfg v pos n1 xs r x) (hn : xs.length - n1 + r.length < M64) (hr : x s = (.error (.throw "iterator"), s'))
    (hl : s'.lost = false) (hne : r.length < n1 → splice xs pos (given r).length (given r) ≠ xs) :
    contents cfg v s = (.ok xs, s) ∧ contents cfg v s' ≠ (.ok xs, s') := by
  refine ⟨ranges_reached hc h hv, fun hcon => ?_⟩
  have starved : ∀ {e s2}, x s = (.error e, s2) → ¬ Starved cfg a v pos n1 xs r e s2 := by
    intro e s2 h1 h2
    rw [hr] at h1; cases h1
    rcases h2 with h2 | ⟨_, h2, _⟩
    · rw [hl] at h2; simp at h2
    · rcases h2 with h2 | h2 | h2 <;> simp at h2
  have hrn : none ∈ r := by
    by_contra hno
    rcases replace_meets_spec hc h hv hx hn hno with ⟨_, h1, _⟩ | ⟨e, s2, h1, h2⟩
    · rw [hr] at h1; cases h1
    · exact starved h1 h2
  have hp := hx.bound
  have hg : r.length < n1 ∨ n1 ≤ (given r).length := by
    by_contra hno
    rcases replace_ends_violated hc h hv hx hn hrn (by omega) (by omega) with ⟨_, h1, _⟩ | ⟨e, s2, h1, h2⟩
    · rw [hr] at h1; simp at h1
    · exact starved h1 h2
  rcases replace_throw_partial hc h hv hx hn hrn hg with ⟨s2, h1, _, _, _, h3, h4, _⟩ | ⟨e, s2, h1, h2⟩
  · rw [hr] at h1; cases h1
    by_cases hlt : r.length < n1
    · rw [h3 hlt] at hcon
      exact hne hlt (by simpa using hcon)
    · have h5 := (h4 (by omega)).1
      unfold contents at hcon
      rw [bind_ok h5] at hcon
      have := charsFrom_length hcon
      have := given_lt r hrn
      omega
  · exact starved h1 h2

/-- C147: a string made from a range of forward iterators is made whole or not at all: it holds the characters of the range; or the range
threw, that exception comes out and there is no string; or memory was refused.  In each case all other strings are what they were. -/
theorem make_forward {v al : Nat} (hc : cfg.Ok) (h : ReachR cfg a s) (hv : a v = none) (ha : cfg.arena = (al != 0)) (hn : r.length < M64) :
    (none ∉ r ∧ ∃ s', makeForward cfg (.user v) al r s = (.ok (), s') ∧ contents cfg v s' = (.ok (given r), s') ∧
      ∀ u ys, a u = some ys → contents cfg u s' = (.ok ys, s')) ∨
    (none ∈ r ∧ ∃ s', makeForward cfg (.user v) al r s = (.error (.throw "iterator"), s') ∧ s'.vars (.user v) = none ∧
      s'.refused = false ∧ s'.lost = false ∧ ∀ u ys, a u = some ys → contents cfg u s' = (.ok ys, s')) ∨
    (∃ e s', makeForward cfg (.user v) al r s = (.error e, s') ∧ (cfg.arena = false ∧ s'.lost = true ∨
      s'.refused = true ∧ (e = .throw "bad_alloc" ∨ e = .throw "length_error" ∨ e = .throw "terminate") ∧
        s'.vars (.user v) = none ∧ ∀ u ys, a u = some ys → contents cfg u s' = (.ok ys, s'))) := by
  obtain ⟨hrel, hf, hl⟩ := reachR_rel hc h
  have h0 := hrel.absent v hv
  have h1 := makeForward_tri (r := r) (al := al) hc hrel.inv hrel.free h0 ha hn
  unfold Tri at h1
  rcases e : makeForward cfg (.user v) al r s with ⟨y, s'⟩
  rw [e] at h1
  cases y with
  | ok _ =>
    refine Or.inl ⟨h1.2, s', rfl, contents_ok h1.1.inv h1.1.raw, fun u ys hu => ?_⟩
    have : u ≠ v := by rintro rfl; rw [hv] at hu; cases hu
    exact contents_ok h1.1.inv (h1.1.frame.raw (by simpa using this) (hrel.held u ys hu))
  | error f =>
    rcases h1 with (h1 | ⟨g1, g2, g3, g4, _⟩) | ⟨g1, rfl, g3, g4, _, g6, g7⟩
    · exact Or.inr (Or.inr ⟨f, s', rfl, Or.inl h1⟩)
    · exact Or.inr (Or.inr ⟨f, s', rfl, Or.inr ⟨g1, g2, g4.none id h0, fun u ys hu => contents_ok g3 (g4.raw id (hrel.held u ys hu))⟩⟩)
    · exact Or.inr (Or.inl ⟨g1, s', rfl, g4.none id h0, g6.trans hf, g7.trans hl, fun u ys hu => contents_ok g3 (g4.raw id (hrel.held u ys hu))⟩)

-- `assign` to "abcd" of a range of two that throws after one: "xbcd"
example : ∃ a s, ReachR (heapCfg false) a s ∧ a 0 = some [97, 98, 99, 100] ∧
    Replaces (heapCfg false) 0 0 4 [97, 98, 99, 100] [some 120, none] (assignForward (heapCfg false) (.user 0) [some 120, none]) ∧
    (assignForward (heapCfg false) (.user 0) [some 120, none] s).1 = .error (.throw "iterator") ∧
    (assignForward (heapCfg false) (.user 0) [some 120, none] s).2.lost = false ∧
    splice [97, 98, 99, 100] 0 (given [some 120, none]).length (given [some 120, none]) ≠ [97, 98, 99, 100] ∧
    (contents (heapCfg false) 0 (assignForward (heapCfg false) (.user 0) [some 120, none] s).2).1 = .ok [120, 98, 99, 100] := by
  obtain ⟨a, h, e, _⟩ := reached (heapCfg_ok false) (v := 0) (xs := [97, 98, 99, 100])
    (ops := [.make 0 0 (.lit [97, 98, 99, 100])]) (by decide +kernel) (by decide +kernel)
  exact ⟨a, _, toR (heapCfg_ok _) h, e, Or.inr ⟨rfl, rfl, rfl⟩, by decide +kernel, by decide +kernel, by decide, by decide +kernel⟩

-- `replace` of "bc" in "abcd" by a range of three that throws after one: the program ends
example : ∃ a s, ReachR (heapCfg false) a s ∧ a 0 = some [97, 98, 99, 100] ∧
    Replaces (heapCfg false) 0 1 2 [97, 98, 99, 100] [some 120, none, some 121] (replaceForward (heapCfg false) (.user 0) 1 2 [some 120, none, some 121]) ∧
    (given [some 120, none, some 121]).length < 2 ∧
    (replaceForward (heapCfg false) (.user 0) 1 2 [some 120, none, some 121] s).1 = .error (.throw "terminate") := by
  obtain ⟨a, h, e, _⟩ := reached (heapCfg_ok false) (v := 0) (xs := [97, 98, 99, 100])
    (ops := [.make 0 0 (.lit [97, 98, 99, 100])]) (by decide +kernel) (by decide +kernel)
  exact ⟨a, _, toR (heapCfg_ok _) h, e, Or.inl ⟨by decide, rfl⟩, by decide, by decide +kernel⟩

-- `replace` of "b" in "abcd" by a range of four that throws after two: "axy" and "cd" with two characters left over between
example : ∃ a s, ReachR (heapCfg false) a s ∧ a 0 = some [97, 98, 99, 100] ∧
    Replaces (heapCfg false) 0 1 1 [97, 98, 99, 100] [some 120, some 121, none, none] (replaceForward (heapCfg false) (.user 0) 1 1 [some 120, some 121, none, none]) ∧
    1 ≤ (given [some 120, some 121, none, none]).length ∧
    (replaceForward (heapCfg false) (.user 0) 1 1 [some 120, some 121, none, none] s).1 = .error (.throw "iterator") ∧
    (contents (heapCfg false) 0 (replaceForward (heapCfg false) (.user 0) 1 1 [some 120, some 121, none, none] s).2).1 =
      .ok [97, 120, 121, 100, 0, 99, 100] := by
  obtain ⟨a, h, e, _⟩ := reached (heapCfg_ok false) (v := 0) (xs := [97, 98, 99, 100])
    (ops := [.make 0 0 (.lit [97, 98, 99, 100])]) (by decide +kernel) (by decide +kernel)
  exact ⟨a, _, toR (heapCfg_ok _) h, e, Or.inl ⟨by decide, rfl⟩, by decide, by decide +kernel, by decide +kernel⟩

-- a range that does not throw, longer and shorter than what it replaces, and the constructor with one that throws
example : ∃ a s, ReachR (heapCfg true) a s ∧ a 0 = some [97, 98, 99, 100] ∧ a 1 = none ∧
    (contents (heapCfg true) 0 (replaceForward (heapCfg true) (.user 0) 1 1 [some 120, some 121] s).2).1 = .ok [97, 120, 121, 99, 100] ∧
    (contents (heapCfg true) 0 (assignForward (heapCfg true) (.user 0) [some 120, some 121] s).2).1 = .ok [120, 121] ∧
    (makeForward (heapCfg true) (.user 1) 0 [some 120, none] s).1 = .error (.throw "iterator") := by
  obtain ⟨a, h, e, e'⟩ := reached (heapCfg_ok true) (v := 0) (xs := [97, 98, 99, 100])
    (ops := [.make 0 0 (.lit [97, 98, 99, 100])]) (by decide +kernel) (by decide +kernel)
  refine ⟨a, _, toR (heapCfg_ok _) h, e, ?_, by decide +kernel, by decide +kernel, by decide +kernel⟩
  have : (specAll (heapCfg true).arena [.make 0 0 (.lit [97, 98, 99, 100])] fun _ => none).bind (· 1) = none := by decide +kernel
  rwa [e'] at this

end Verif.Str.Ranges
