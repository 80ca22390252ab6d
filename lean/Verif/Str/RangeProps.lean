import Verif.Str.RangeTri

/-!
C147: what becomes of strings when a range is given by single pass iterators, or by iterators that throw.
-/

namespace Verif.Str.Ranges

open M

variable {cfg : Cfg} {s s' : St} {a a' : Abs} {r : Range}

/-! ### Each call does what its specification says -/

/-- The string whose contents a call that fails for want of memory may have changed. -/
def Call.weak : Call → Option Nat
  | .op o => o.weak
  | _ => none

/-- What is left when a call fails for want of memory. -/
def FailedR (cfg : Cfg) (c : Call) (a : Abs) (e : Fault) (s' : St) : Prop :=
  (cfg.arena = false ∧ s'.lost = true) ∨
    (s'.refused = true ∧ AllocThrow e ∧ ∃ a', Rel cfg a' s' ∧ ∀ i, c.weak ≠ some i → a' i = a i)

/-- What a call from `s` does. -/
def RefinesR (cfg : Cfg) (c : Call) (a : Abs) (s : St) : Result → Prop
  | .out .outOfRange => c.run cfg s = (.error (.throw "out_of_range"), s)
  | .out (.done a') => Tri (c.run cfg) s (fun _ s' => Rel cfg a' s') (FailedR cfg c a)
  | .thrown => Tri (c.run cfg) s (fun _ _ => False)
      (fun e s' => FailedR cfg c a e s' ∨ e = .throw "iterator" ∧ Rel cfg a s' ∧ s'.refused = s.refused ∧ s'.lost = s.lost)

theorem ranged_some {f : List Ch → Option Out} {res : Result} (h : ranged r f = some res) :
    ∃ o, f (given r) = some o ∧ res = if none ∈ r then .thrown else .out o := by
  unfold ranged at h
  cases e : f (given r) with
  | none => rw [e] at h; cases h
  | some o => rw [e] at h; cases h; exact ⟨o, rfl, rfl⟩

/-- From the triples to the specification: a string that exists. -/
theorem editR {c : Call} {v : Nat} {xs ys : List Ch} {res : Result} (h : Rel cfg a s) (hv : a v = some xs)
    (ho : ranged r (fun _ => a.set v ys) = some res)
    (ht : ys.length < M64 → Tri (c.run cfg) s (fun _ s' => DoneX cfg (.user v) (ys.map some) s s' ∧ none ∉ r)
      (ErrI r cfg (· = .user v) (fun s' => Raw cfg s' (.user v) (xs.map some)) s)) : RefinesR cfg c a s res := by
  obtain ⟨o, h1, h2⟩ := ranged_some ho
  obtain ⟨hl, rfl⟩ := set_some h1
  have back : ∀ {s' : St}, WInv cfg s' → Frame (· = .user v) s s' → Raw cfg s' (.user v) (xs.map some) → Rel cfg a s' := by
    intro s' w f g
    have := h.one (v := v) (xs := xs) ⟨w, f, g⟩
    rwa [upd_self hv] at this
  have hm : ∀ {e s'}, Err cfg (· = .user v) (fun s' => Raw cfg s' (.user v) (xs.map some)) s e s' → FailedR cfg c a e s' := by
    rintro e s' (g | ⟨g1, g2, g3, g4, g5⟩)
    · exact Or.inl g
    · exact Or.inr ⟨g1, g2, a, back g3 g4 g5, fun _ _ => rfl⟩
  subst h2
  split
  · next hr =>
    refine (ht hl).mono (fun _ _ g => g.2 hr) (fun e s' g => ?_)
    rcases g with g | ⟨_, rfl, g3, g4, g5, g6⟩
    · exact Or.inl (hm g)
    · exact Or.inr ⟨rfl, back g3 g4 g5, g6⟩
  · next hr =>
    refine (ht hl).mono (fun _ _ g => h.one g.1.done) (fun e s' g => ?_)
    rcases g with g | ⟨g, _⟩
    · exact hm g
    · exact absurd g hr

/-- Every call does what its specification says, or memory runs out. -/
theorem call_refines (hc : cfg.Ok) (h : Rel cfg a s) {c : Call} {res : Result} (ho : c.spec cfg.arena a = some res) :
    RefinesR cfg c a s res := by
  have gl : ∀ {xs : List Ch}, (xs.map some : List Cell).length = xs.length := by simp
  cases c with
  | op o =>
    simp only [Call.spec, Option.map_eq_some_iff] at ho
    obtain ⟨out, h1, rfl⟩ := ho
    have h2 := step_refines hc h h1
    cases out with
    | outOfRange => exact h2
    | done a' =>
      refine Tri.mono h2 (fun _ _ g => g.1) (fun e s' g => ?_)
      rcases g with g | ⟨g1, g2, a2, g3, g4, _⟩
      · exact Or.inl g
      · exact Or.inr ⟨g1, g2, a2, g3, g4⟩
  | make v al r =>
    simp only [Call.spec] at ho
    split at ho
    · next hal =>
      obtain ⟨o, h1, h2⟩ := ranged_some ho
      obtain ⟨hv, rfl⟩ := make_some h1
      have ht := makeInput_tri (r := r) hc h.inv h.free (h.tmps 2) (h.tmps 3) (h.absent v hv) hal.1 hal.2
      have hm : ∀ {e s'}, Err cfg (fun _ => False) (fun _ => True) s e s' → FailedR cfg (.make v al r) a e s' := by
        rintro e s' (g | ⟨g1, g2, g3, g4, _⟩)
        · exact Or.inl g
        · exact Or.inr ⟨g1, g2, a, h.same g3 g4, fun _ _ => rfl⟩
      subst h2
      split
      · next hr =>
        refine ht.mono (fun _ _ g => g.2 hr) (fun e s' g => ?_)
        rcases g with g | ⟨_, rfl, g3, g4, _, g6⟩
        · exact Or.inl (hm g)
        · exact Or.inr ⟨rfl, h.same g3 g4, g6⟩
      · next hr =>
        refine ht.mono (fun _ _ g => h.one g.1) (fun e s' g => ?_)
        rcases g with g | ⟨g, _⟩
        · exact hm g
        · exact absurd g hr
    · cases ho
  | insert v pos r =>
    simp only [Call.spec, Option.bind_eq_bind, Option.bind_eq_some_iff] at ho
    obtain ⟨xs, hv, ho⟩ := ho
    split at ho
    · next hp =>
      refine editR (ys := splice xs pos 0 (given r)) h hv ho fun hl => ?_
      have := insertInput_tri (n := 0) (r := r) (pos := pos) hc h.inv h.free (h.tmps 2) (h.held v xs hv) (by simpa using hp)
        (by simp [splice] at hl ⊢; omega)
      simpa [splice, Call.run] using this
    · cases ho
  | append v r =>
    simp only [Call.spec, Option.bind_eq_bind, Option.bind_eq_some_iff] at ho
    obtain ⟨xs, hv, ho⟩ := ho
    refine editR (ys := xs ++ given r) h hv ho fun hl => ?_
    have := appendInput_tri (n := 0) (r := r) hc h.inv h.free (h.tmps 2) (h.held v xs hv) (by simpa using hl)
    simpa [Call.run] using this
  | assign v r =>
    simp only [Call.spec, Option.bind_eq_bind, Option.bind_eq_some_iff] at ho
    obtain ⟨xs, hv, ho⟩ := ho
    refine editR (ys := given r) h hv ho fun hl => ?_
    exact assignInput_tri hc h.inv h.free (h.tmps 2) (h.tmps 3) (h.held v xs hv) hl
  | replace v pos n1 r =>
    simp only [Call.spec, Option.bind_eq_bind, Option.bind_eq_some_iff] at ho
    obtain ⟨xs, hv, ho⟩ := ho
    split at ho
    · next hp =>
      refine editR (ys := splice xs pos n1 (given r)) h hv ho fun hl => ?_
      have := replaceInput_tri (r := r) (pos := pos) (n1 := n1) hc h.inv h.free (h.tmps 2) (h.tmps 3) (h.held v xs hv) (by simpa using hp)
        (by simp [splice] at hl ⊢; omega)
      simpa [splice, Call.run] using this
    · cases ho

/-! ### Flags -/

theorem distance_quiet (v : Obj) (b i : Ptr) : Quiet (distance cfg v b i) := by
  unfold distance
  quiet

macro_rules | `(tactic| quiet_step) => `(tactic| with_reducible exact distance_quiet _ _ _)
macro_rules | `(tactic| quiet_step) => `(tactic| with_reducible exact pushRange_quiet _ _)

theorem insertInputAt_quiet (v t : Obj) (i : Ptr) (r : Range) : Quiet (insertInputAt cfg v t i r) := by
  unfold insertInputAt insertInputBody
  quiet

macro_rules | `(tactic| quiet_step) => `(tactic| with_reducible exact insertInputAt_quiet _ _ _ _)

theorem appendInput_quiet (v t : Obj) (r : Range) : Quiet (appendInput cfg v t r) := by
  unfold appendInput
  quiet

macro_rules | `(tactic| quiet_step) => `(tactic| with_reducible exact appendInput_quiet _ _ _)

theorem replaceInputAt_quiet (v : Obj) (i : Ptr) (n : Nat) (r : Range) : Quiet (replaceInputAt cfg v i n r) := by
  unfold replaceInputAt replaceInputBody
  quiet

macro_rules | `(tactic| quiet_step) => `(tactic| with_reducible exact replaceInputAt_quiet _ _ _ _)

theorem Call.run_quiet (cfg : Cfg) (c : Call) : Quiet (c.run cfg) := by
  cases c with
  | op o => exact o.run_quiet cfg
  | make v al r =>
    unfold Call.run makeInput assignInput
    quiet
  | insert v pos r => unfold Call.run insertInput; quiet
  | append v r => unfold Call.run; quiet
  | assign v r => unfold Call.run assignInput; quiet
  | replace v pos n1 r => unfold Call.run replaceInput; quiet

/-! ### Histories -/

/-- The states a program can reach that also gives strings ranges of single pass iterators, and goes on after exceptions: those for
want of memory, and those of the iterators, after which the contents should be what they were. -/
inductive ReachR (cfg : Cfg) : Abs → St → Prop
  | start : ReachR cfg (fun _ => none) St.init
  | done {a a' : Abs} {s s' : St} {c : Call} : ReachR cfg a s → c.spec cfg.arena a = some (.out (.done a')) →
      c.run cfg s = (.ok (), s') → ReachR cfg a' s'
  | threw {a : Abs} {s s' : St} {c : Call} : ReachR cfg a s → c.spec cfg.arena a = some .thrown →
      c.run cfg s = (.error (.throw "iterator"), s') → s'.lost = false → ReachR cfg a s'
  | caught {a a' : Abs} {s s' : St} {c : Call} {res : Result} {w : String} : ReachR cfg a s → c.spec cfg.arena a = some res →
      c.run cfg s = (.error (.throw w), s') → AllocThrow (.throw w) → s'.lost = false →
      (∀ i, a' i = if c.weak = some i then (contents cfg i s').1.toOption else a i) →
      ReachR cfg a' { s' with refused := false }

theorem reachR_rel (hc : cfg.Ok) (h : ReachR cfg a s) : Rel cfg a s ∧ s.refused = false ∧ s.lost = false := by
  have fin : ∀ {c : Call} {a a' : Abs} {e : Fault} {s' : St}, FailedR cfg c a e s' → s'.lost = false →
      (∀ i, a' i = if c.weak = some i then (contents cfg i s').1.toOption else a i) →
      Rel cfg a' { s' with refused := false } ∧ ({ s' with refused := false } : St).refused = false ∧
        ({ s' with refused := false } : St).lost = false := by
    intro c a a' e s' h1 hl ha
    rcases h1 with h1 | ⟨_, _, a2, h2, h3⟩
    · rw [hl] at h1; simp at h1
    · have e : a' = a2 := by
        funext i
        rw [ha i]
        split
        · next hw =>
          cases e2 : a2 i with
          | some xs => rw [contents_ok h2.inv (h2.held i xs e2)]; rfl
          | none =>
            have : (contents cfg i s').1 = .error (.ub "use of a dead string") := by
              unfold contents size
              have : getOb (.user i) s' = (.error (.ub "use of a dead string"), s') := by
                unfold getOb; rw [h2.absent i e2]
              rw [bind_apply, bind_apply, this]
            rw [this]; rfl
        · next hw => exact (h3 i hw).symm
      rw [e]
      exact ⟨h2.calm, rfl, hl⟩
  induction h with
  | start => exact ⟨rel_init cfg, rfl, rfl⟩
  | @done a a' s s' c _ ho hr ih =>
    have h1 := call_refines hc ih.1 ho
    have h2 := (c.run_quiet cfg).flags s
    simp only [RefinesR, Tri] at h1
    rw [hr] at h1 h2
    exact ⟨h1, h2.1.trans ih.2.1, h2.2.trans ih.2.2⟩
  | @threw a s s' c _ ho hr hl ih =>
    have h1 := call_refines hc ih.1 ho
    simp only [RefinesR, Tri] at h1
    rw [hr] at h1
    rcases h1 with (h1 | ⟨_, h1, _⟩) | ⟨_, h1, h2, h3⟩
    · rw [hl] at h1; simp at h1
    · rcases h1 with h1 | h1 | h1 <;> simp at h1
    · exact ⟨h1, h2.trans ih.2.1, h3.trans ih.2.2⟩
  | @caught a a' s s' c res w _ ho hr hw hl ha ih =>
    have h1 := call_refines hc ih.1 ho
    cases res with
    | out o =>
      cases o with
      | outOfRange =>
        simp only [RefinesR] at h1
        rw [hr] at h1
        cases h1
        rcases hw with h | h | h <;> simp at h
      | done a1 =>
        simp only [RefinesR, Tri] at h1
        rw [hr] at h1
        exact fin h1 hl ha
    | thrown =>
      simp only [RefinesR, Tri] at h1
      rw [hr] at h1
      rcases h1 with h1 | ⟨h1, _⟩
      · exact fin h1 hl ha
      · cases h1
        rcases hw with h | h | h <;> simp at h

/-! ### C147 -/

/-- C147: at every point of such a history the strings have the contents they should have. -/
theorem ranges_reached {v : Nat} {xs : List Ch} (hc : cfg.Ok) (h : ReachR cfg a s) (hv : a v = some xs) :
    contents cfg v s = (.ok xs, s) := by
  obtain ⟨hr, _⟩ := reachR_rel hc h
  exact contents_ok hr.inv (hr.held v xs hv)

/-- C147: at every point of such a history a call with a range of single pass iterators that do not throw has the effect of the
characters the range gives, or memory was refused, and then all strings have the contents they had, unless a `realloc` was refused. -/
theorem ranges_meet_spec {c : Call} (hc : cfg.Ok) (h : ReachR cfg a s) (ho : c.spec cfg.arena a = some (.out (.done a')))
    (hop : ∀ o, c ≠ .op o) :
    (∃ s', c.run cfg s = (.ok (), s') ∧ ReachR cfg a' s' ∧ ∀ v xs, a' v = some xs → contents cfg v s' = (.ok xs, s')) ∨
    (∃ e s', c.run cfg s = (.error e, s') ∧ s.refused = false ∧ s'.refused = true ∧
      (cfg.arena = false ∧ s'.lost = true ∨
        (e = .throw "bad_alloc" ∨ e = .throw "length_error" ∨ e = .throw "terminate") ∧
          ∀ v xs, a v = some xs → contents cfg v s' = (.ok xs, s'))) := by
  obtain ⟨hr, hf, hl⟩ := reachR_rel hc h
  have h1 := call_refines hc hr ho
  have h2 := (c.run_quiet cfg).flags s
  simp only [RefinesR, Tri] at h1
  rcases e : c.run cfg s with ⟨x, s'⟩
  rw [e] at h1 h2
  cases x with
  | ok u =>
    have hd := ReachR.done h ho e
    exact Or.inl ⟨s', rfl, hd, fun v xs hv => ranges_reached hc hd hv⟩
  | error f =>
    refine Or.inr ⟨f, s', rfl, hf, ?_⟩
    rcases h1 with h1 | ⟨g1, g2, a2, g3, g4⟩
    · refine ⟨?_, Or.inl h1⟩
      rcases h2.2 h1.2 with g | g
      · rw [hl] at g; cases g
      · exact g
    · refine ⟨g1, Or.inr ⟨g2, fun v xs hv => contents_ok g3.inv (g3.held v xs ?_)⟩⟩
      rw [g4 v (by cases c <;> simp_all [Call.weak]), hv]

/-- C147: if the range throws, the call throws the same exception and all strings have the contents they had, also those that share
characters; or memory was refused before. -/
theorem ranges_throw {c : Call} (hc : cfg.Ok) (h : ReachR cfg a s) (ho : c.spec cfg.arena a = some .thrown) :
    (∃ s', c.run cfg s = (.error (.throw "iterator"), s') ∧ ReachR cfg a s' ∧
      (∀ v xs, a v = some xs → contents cfg v s' = (.ok xs, s')) ∧ ∀ v, a v = none → s'.vars (.user v) = none) ∨
    (∃ e s', c.run cfg s = (.error e, s') ∧ s.refused = false ∧ s'.refused = true ∧
      (cfg.arena = false ∧ s'.lost = true ∨
        (e = .throw "bad_alloc" ∨ e = .throw "length_error" ∨ e = .throw "terminate") ∧
          ∀ v xs, a v = some xs → contents cfg v s' = (.ok xs, s'))) := by
  obtain ⟨hr, hf, hl⟩ := reachR_rel hc h
  have h1 := call_refines hc hr ho
  have h2 := (c.run_quiet cfg).flags s
  simp only [RefinesR, Tri] at h1
  rcases e : c.run cfg s with ⟨x, s'⟩
  rw [e] at h1 h2
  cases x with
  | ok u => exact h1.elim
  | error f =>
    rcases h1 with (h1 | ⟨g1, g2, a2, g3, g4⟩) | ⟨rfl, g1, g2, g3⟩
    · refine Or.inr ⟨f, s', rfl, hf, ?_, Or.inl h1⟩
      rcases h2.2 h1.2 with g | g
      · rw [hl] at g; cases g
      · exact g
    · refine Or.inr ⟨f, s', rfl, hf, g1, Or.inr ⟨g2, fun v xs hv => contents_ok g3.inv (g3.held v xs ?_)⟩⟩
      have : c.weak = none := by
        cases c with
        | op o => simp [Call.spec] at ho
        | _ => rfl
      rw [g4 v (by rw [this]; simp), hv]
    · refine Or.inl ⟨s', rfl, .threw h ho e (g3.trans hl), fun v xs hv => contents_ok g1.inv (g1.held v xs hv), g1.absent⟩

theorem toR (hc : cfg.Ok) (h : Reach cfg a s) : ReachR cfg a s := by
  induction h with
  | start => exact .start
  | @done a a' s s' op _ ho hr ih => exact ih.done (c := .op op) (by simp [Call.spec, ho]) hr
  | @caught a a' a1 s s' op w hp ho hr hl ha ih =>
    refine ih.caught (c := .op op) (res := .out (.done a1)) (by simp [Call.spec, ho]) hr ?_ hl ha
    have h1 := step_refines hc (reach_rel hc hp).1 ho
    simp only [Refines, Tri] at h1
    rw [hr] at h1
    rcases h1 with h1 | ⟨_, h2, _⟩
    · rw [hl] at h1; simp at h1
    · exact h2

-- two strings that share 300 characters; a range of three characters goes into one of them
set_option maxRecDepth 4000 in
example : ∃ a s, ReachR (heapCfg true) a s ∧ a 0 = some (List.replicate 300 97) ∧
    (Call.insert 0 100 [some 1, some 2, some 3]).spec false a ≠ none ∧
    ((Call.insert 0 100 [some 1, some 2, some 3]).run (heapCfg true) s).1 = .ok () ∧
    (contents (heapCfg true) 0 ((Call.insert 0 100 [some 1, some 2, some 3]).run (heapCfg true) s).2).1 =
      .ok (List.replicate 100 97 ++ [1, 2, 3] ++ List.replicate 200 97) ∧
    (contents (heapCfg true) 1 ((Call.insert 0 100 [some 1, some 2, some 3]).run (heapCfg true) s).2).1 = .ok (List.replicate 300 97) := by
  obtain ⟨a, h, e, _⟩ := reached (heapCfg_ok true) (v := 0) (xs := List.replicate 300 97)
    (ops := [.makeFill 0 0 300 97, .copy 1 0]) (by decide +kernel) (by decide +kernel)
  refine ⟨a, _, toR (heapCfg_ok _) h, e, ?_, by decide +kernel, by decide +kernel, by decide +kernel⟩
  simp [Call.spec, e, ranged, given, Abs.set, splice]

-- the same with a range that throws after two characters
set_option maxRecDepth 4000 in
example : ∃ a s, ReachR (heapCfg true) a s ∧ a 0 = some (List.replicate 300 97) ∧
    (Call.assign 0 [some 1, some 2, none]).spec false a = some .thrown ∧
    ((Call.assign 0 [some 1, some 2, none]).run (heapCfg true) s).1 = .error (.throw "iterator") ∧
    (contents (heapCfg true) 0 ((Call.assign 0 [some 1, some 2, none]).run (heapCfg true) s).2).1 = .ok (List.replicate 300 97) ∧
    (contents (heapCfg true) 1 ((Call.assign 0 [some 1, some 2, none]).run (heapCfg true) s).2).1 = .ok (List.replicate 300 97) := by
  obtain ⟨a, h, e, _⟩ := reached (heapCfg_ok true) (v := 0) (xs := List.replicate 300 97)
    (ops := [.makeFill 0 0 300 97, .copy 1 0]) (by decide +kernel) (by decide +kernel)
  refine ⟨a, _, toR (heapCfg_ok _) h, e, ?_, by decide +kernel, by decide +kernel, by decide +kernel⟩
  simp [Call.spec, e, ranged, given, Abs.set]

/-! ### Forward iterators that throw -/

theorem put_put {cs ys : List Cell} {x : Cell} {i : Nat} (h : i < cs.length) : put (put cs i [x]) (i + 1) ys = put cs i (x :: ys) := by
  unfold put
  have h1 : (cs.take i).length = i := by simp; omega
  have h2 : (cs.take i ++ [x]).length = i + 1 := by simp; omega
  rw [List.take_append_of_le_length (by omega), List.take_of_length_le (by omega), List.drop_append, h2,
    List.drop_of_length_le (by omega)]
  simp [List.drop_drop]
  congr 1; omega

/-- `std::copy` of a range into an unshared string. -/
theorem copyRange_tri {v : Obj} {b : Ptr} : ∀ (r : Range) {s : St} {cs : List Cell} {i : Nat}, WInv cfg s → Own cfg s v b cs →
    i + r.length ≤ cs.length →
    Tri (copyRange (b.add i) r) s
      (fun _ s' => WInv cfg s' ∧ Frame (· = v) s s' ∧ Own cfg s' v b (put cs i ((given r).map some)) ∧ none ∉ r)
      (fun e s' => e = .throw "iterator" ∧ none ∈ r ∧ WInv cfg s' ∧ Frame (· = v) s s' ∧
        Own cfg s' v b (put cs i ((given r).map some)) ∧ s'.refused = s.refused ∧ s'.lost = s.lost)
  | [], s, cs, i, hw, ho, _ => by
    refine Tri.ret ⟨hw, Frame.refl _ _, ?_, by simp⟩
    simpa [given, put] using ho
  | none :: r, s, cs, i, hw, ho, _ => by
    refine Tri.of_err rfl ⟨rfl, by simp, hw, Frame.refl _ _, ?_, rfl, rfl⟩
    simpa [given, put] using ho
  | some c :: r, s, cs, i, hw, ho, hi => by
    simp only [List.length_cons] at hi
    unfold copyRange
    obtain ⟨s1, e1, e2, e3, e4, e5, e6⟩ := ho.write hw (xs := [some c]) (i := i) (by simp; omega)
    refine Tri.step e1 ?_
    rw [Ptr.add_add]
    have hl : (put cs i [some c]).length = cs.length := put_length (by simp; omega)
    refine (copyRange_tri r (i := i + 1) e2 e4 (by omega)).mono ?_ ?_
    · rintro _ s2 ⟨h1, h2, h3, h4⟩
      rw [put_put (by omega)] at h3
      exact ⟨h1, e3.trans h2, h3, by simpa using h4⟩
    · rintro e s2 ⟨h0, h1, h2, h3, h4, h5, h6⟩
      rw [put_put (by omega)] at h4
      exact ⟨h0, by simp [h1], h2, e3.trans h3, h4, h5.trans e5, h6.trans e6⟩

theorem given_length : ∀ r : Range, (given r).length ≤ r.length ∧ (none ∉ r → (given r).length = r.length)
  | [] => by simp [given]
  | none :: r => by simp [given]
  | some c :: r => by
    have := given_length r
    simp only [given, List.length_cons, List.mem_cons, reduceCtorEq, false_or]
    exact ⟨by omega, fun h => by rw [this.2 h]⟩

/-- What `insert` of a range leaves when the range throws: a gap behind the characters given. -/
theorem gap_list {cs cs' ys : List Cell} {pos n : Nat} (hp : pos ≤ cs.length) (h1 : cs'.length = cs.length + n)
    (h2 : cs'.take cs.length = cs) (hy : ys.length ≤ n) :
    ∃ gap, ys.length + gap.length = n ∧
      put (put cs' (pos + n) ((cs'.drop pos).take (cs.length - pos))) pos ys = cs.take pos ++ ys ++ gap ++ cs.drop pos := by
  have e1 : (cs'.drop pos).take (cs.length - pos) = cs.drop pos := by
    conv_rhs => rw [← h2]
    rw [List.drop_take]
  have e2 : cs'.take pos = cs.take pos := by
    conv_rhs => rw [← h2]
    rw [List.take_take, Nat.min_eq_left hp]
  refine ⟨(cs'.take (pos + n)).drop (pos + ys.length), by simp; omega, ?_⟩
  rw [e1]
  unfold put
  have e3 : cs'.drop (pos + n + (cs.drop pos).length) = [] := List.drop_of_length_le (by simp; omega)
  rw [e3, List.append_nil]
  have l1 : (cs'.take (pos + n)).length = pos + n := by simp; omega
  rw [List.take_append_of_le_length (by omega), List.take_take, Nat.min_eq_left (by omega), e2,
    List.drop_append_of_le_length (by omega)]
  simp

/-- The ways `insert` of a range of forward iterators fails: for want of memory with the string as it was, or because the range threw,
with a gap in the string. -/
def ErrF (r : Range) (cfg : Cfg) (v : Obj) (cs : List Cell) (pos : Nat) (s : St) (e : Fault) (s' : St) : Prop :=
  ErrS cfg v cs s e s' ∨
    (none ∈ r ∧ e = .throw "iterator" ∧ WInv cfg s' ∧ Frame (· = v) s s' ∧
      (∃ gap, (given r).length + gap.length = r.length ∧ Raw cfg s' v (cs.take pos ++ (given r).map some ++ gap ++ cs.drop pos)) ∧
      s'.refused = s.refused ∧ s'.lost = s.lost)

theorem ErrF.after {v : Obj} {cs : List Cell} {pos : Nat} {e : Fault} {s1 : St} (hf : Frame (· = v) s s1)
    (hq : s1.refused = s.refused ∧ s1.lost = s.lost) (h : ErrF r cfg v cs pos s1 e s') : ErrF r cfg v cs pos s e s' := by
  rcases h with h | ⟨h1, h2, h3, h4, h5, h6, h7⟩
  · exact Or.inl (h.after hf)
  · exact Or.inr ⟨h1, h2, h3, hf.trans h4, h5, h6.trans hq.1, h7.trans hq.2⟩

/-- The checker around a body. -/
theorem checkerF {v : Obj} {body : M Unit} {Q : Unit → St → Prop} {cs : List Cell} {pos : Nat} (hw : WInv cfg s) (hv : Raw cfg s v cs)
    (hb : Tri body s Q (ErrF r cfg v cs pos s)) (hq : ∀ x s', Q x s' → WInv cfg s' ∧ ∃ cs, Raw cfg s' v cs) :
    Tri (checker cfg v body) s Q (ErrF r cfg v cs pos s) := by
  have hb' := hb
  rcases e : body s with ⟨x, s'⟩
  unfold Tri at hb'
  rw [e] at hb'
  have old : Tri body s Q (ErrS cfg v cs s) → Tri (checker cfg v body) s Q (ErrF r cfg v cs pos s) := fun h =>
    (checker_tri hw hv h hq (fun _ _ _ h => ⟨_, h⟩)).mono (fun _ _ h => h) (fun _ _ h => Or.inl h)
  cases x with
  | ok b => exact old (Tri.of_ok e hb')
  | error f =>
    rcases hb' with h | ⟨h1, rfl, h3, h4, ⟨gap, h5, h6⟩, h7⟩
    · exact old (Tri.of_err e h)
    · refine Tri.of_err (e := .throw "iterator") (s' := s') ?_ (Or.inr ⟨h1, rfl, h3, h4, ⟨gap, h5, h6⟩, h7⟩)
      unfold checker
      rw [bind_ok (sane_ok hw hv)]
      unfold checking
      rw [e]
      simp only [sane_ok h3 h6]

theorem insertForwardAt_tri {v : Obj} (hc : cfg.Ok) (hw : WInv cfg s) (hf : Free s) {cs : List Cell} {q : Ptr} (hv : Raw cfg s v cs)
    (hq : dataPtr v s = (.ok q, s)) {pos : Nat} (hp : pos ≤ cs.length) (hn : cs.length + r.length < M64) :
    Tri (insertForwardAt cfg v (q.add pos) r) s
      (fun _ s' => DoneX cfg v (cs.take pos ++ (given r).map some ++ cs.drop pos) s s' ∧ none ∉ r) (ErrF r cfg v cs pos s) := by
  unfold insertForwardAt
  refine checkerF hw hv ?_ (fun _ _ h => h.1.check)
  refine Tri.step (posOf_ok hw hv hq hp) (Tri.step (hv.sizeM hw) ?_)
  refine Tri.bind (Tri.flags ((expand_tri hc hw hf hv (delta := r.length) true hn).mono (fun _ _ h => h) (fun _ _ h => Or.inl h)) (by quiet)) ?_
  rintro x s1 ⟨⟨w1, f1, p', cs', h1, h2, h3, h4, rfl, h6⟩, q1⟩
  have hbeg : Tri (begin_ cfg v) s1 (fun b s2 => WInv cfg s2 ∧ Frame (· = v) s1 s2 ∧ Own cfg s2 v b cs') (ErrS cfg v cs s) := by
    by_cases hn0 : r.length = 0
    · have : cs' = cs := by rw [← h4, List.take_of_length_le (by omega)]
      subst this
      exact Tri.later f1 ((begin_tri hc w1 h1).strong h1)
    · have := h6 hn0
      exact Tri.of_ok (begin_own w1 this) ⟨w1, Frame.refl _ _, this⟩
  refine Tri.bind (Tri.flags (hbeg.mono (fun _ _ h => h) (fun _ _ h => Or.inl h)) (by quiet)) ?_
  rintro b s2 ⟨⟨w2, f2, o2⟩, q2⟩
  obtain ⟨s3, e1, e2, e3, e4, e5, e6⟩ := o2.move w2 (i := pos) (j := pos + r.length) (k := cs.length - pos) (by omega) (by omega)
  refine Tri.step e1 ?_
  have hl : (put cs' (pos + r.length) ((cs'.drop pos).take (cs.length - pos))).length = cs'.length := put_length (by simp; omega)
  have hg := given_length r
  obtain ⟨gap, g1, g2⟩ := gap_list (ys := (given r).map some) hp h3 h4 (by simpa using hg.1)
  refine (copyRange_tri r (i := pos) e2 e4 (by omega)).mono ?_ ?_
  · rintro _ s4 ⟨k1, k2, k3, k4⟩
    rw [g2] at k3
    have : gap = [] := by
      have := hg.2 k4
      simp at g1
      exact List.length_eq_zero_iff.1 (by omega)
    subst this
    exact ⟨⟨k1, ((f1.trans f2).trans e3).trans k2, b, by simpa using k3⟩, k4⟩
  · rintro e s4 ⟨k0, k1, k2, k3, k4, k5, k6⟩
    rw [g2] at k4
    exact Or.inr ⟨k1, k0, k2, ((f1.trans f2).trans e3).trans k3, ⟨gap, by simpa using g1, k4.raw⟩,
      k5.trans (e5.trans (q2.1.trans q1.1)), k6.trans (e6.trans (q2.2.trans q1.2))⟩

theorem insertForward_tri {v : Obj} (hc : cfg.Ok) (hw : WInv cfg s) (hf : Free s) {cs : List Cell} (hv : Raw cfg s v cs) {pos : Nat}
    (hp : pos ≤ cs.length) (hn : cs.length + r.length < M64) :
    Tri (insertForward cfg v pos r) s
      (fun _ s' => DoneX cfg v (cs.take pos ++ (given r).map some ++ cs.drop pos) s s' ∧ none ∉ r) (ErrF r cfg v cs pos s) := by
  unfold insertForward
  refine Tri.bind (Tri.flags (((begin_tri hc hw hv).strong hv).mono (fun _ _ h => h) (fun _ _ h => Or.inl h)) (by quiet)) ?_
  rintro b s1 ⟨⟨w1, f1, o1⟩, q1⟩
  refine (insertForwardAt_tri hc w1 (hf.frame hv f1) o1.raw o1.dataM hp hn).mono ?_ (fun _ _ h => h.after f1 q1)
  rintro _ s2 ⟨⟨a, b, c⟩, hr⟩
  exact ⟨⟨a, f1.trans b, c⟩, hr⟩

theorem appendForward_tri {v : Obj} (hc : cfg.Ok) (hw : WInv cfg s) (hf : Free s) {cs : List Cell} (hv : Raw cfg s v cs)
    (hn : cs.length + r.length < M64) :
    Tri (appendForward cfg v r) s
      (fun _ s' => DoneX cfg v (cs.take cs.length ++ (given r).map some ++ cs.drop cs.length) s s' ∧ none ∉ r)
      (ErrF r cfg v cs cs.length s) := by
  unfold appendForward
  refine Tri.bind (Tri.flags (((begin_tri hc hw hv).strong hv).mono (fun _ _ h => h) (fun _ _ h => Or.inl h)) (by quiet)) ?_
  rintro b s1 ⟨⟨w1, f1, o1⟩, q1⟩
  refine Tri.step (o1.raw.sizeM w1) ?_
  refine (insertForwardAt_tri hc w1 (hf.frame hv f1) o1.raw o1.dataM (Nat.le_refl _) hn).mono ?_ (fun _ _ h => h.after f1 q1)
  rintro _ s2 ⟨⟨a, b, c⟩, hr⟩
  exact ⟨⟨a, f1.trans b, c⟩, hr⟩

/-- The two calls with forward iterators: `x` adds `r` to the string `v` at `pos`. -/
def Adds (cfg : Cfg) (v pos : Nat) (xs : List Ch) (r : Range) (x : M Unit) : Prop :=
  (pos ≤ xs.length ∧ x = insertForward cfg (.user v) pos r) ∨ (pos = xs.length ∧ x = appendForward cfg (.user v) r)

theorem adds_tri {v pos : Nat} {xs : List Ch} {x : M Unit} (hc : cfg.Ok) (h : Rel cfg a s) (hv : a v = some xs)
    (hx : Adds cfg v pos xs r x) (hn : xs.length + r.length < M64) :
    Tri x s (fun _ s' => DoneX cfg (.user v) ((xs.map some : List Cell).take pos ++ (given r).map some ++ (xs.map some : List Cell).drop pos) s s' ∧ none ∉ r)
      (ErrF r cfg (.user v) (xs.map some) pos s) := by
  rcases hx with ⟨hp, rfl⟩ | ⟨rfl, rfl⟩
  · exact insertForward_tri hc h.inv h.free (h.held v xs hv) (by simpa using hp) (by simpa using hn)
  · have := appendForward_tri (r := r) hc h.inv h.free (h.held v xs hv) (by simpa using hn)
    rwa [List.length_map] at this

/-- C147: a range of forward iterators that do not throw is added where it should be, or memory was refused and nothing changed. -/
theorem forward_meets_spec {v pos : Nat} {xs : List Ch} {x : M Unit} (hc : cfg.Ok) (h : ReachR cfg a s) (hv : a v = some xs)
    (hx : Adds cfg v pos xs r x) (hn : xs.length + r.length < M64) (hr : none ∉ r) :
    (∃ s', x s = (.ok (), s') ∧ contents cfg v s' = (.ok (splice xs pos 0 (given r)), s') ∧
      ∀ u ys, u ≠ v → a u = some ys → contents cfg u s' = (.ok ys, s')) ∨
    (∃ e s', x s = (.error e, s') ∧ (cfg.arena = false ∧ s'.lost = true ∨
      s'.refused = true ∧ (e = .throw "bad_alloc" ∨ e = .throw "length_error" ∨ e = .throw "terminate") ∧
        ∀ u ys, a u = some ys → contents cfg u s' = (.ok ys, s'))) := by
  obtain ⟨hrel, hf, hl⟩ := reachR_rel hc h
  have h1 := adds_tri hc hrel hv hx hn
  unfold Tri at h1
  rcases e : x s with ⟨y, s'⟩
  rw [e] at h1
  cases y with
  | ok _ =>
    have hd := hrel.one (v := v) (xs := splice xs pos 0 (given r)) (s' := s')
      ⟨h1.1.inv, h1.1.frame, by simpa [splice] using h1.1.done.raw⟩
    refine Or.inl ⟨s', rfl, contents_ok hd.inv (hd.held v _ (upd_same _ _ _)), fun u ys hu ha => ?_⟩
    exact contents_ok hd.inv (hd.held u ys (by rw [upd_other _ _ hu, ha]))
  | error f =>
    refine Or.inr ⟨f, s', rfl, ?_⟩
    rcases h1 with (h1 | ⟨g1, g2, g3, g4, g5⟩) | ⟨g, _⟩
    · exact Or.inl h1
    · have := hrel.one (v := v) (xs := xs) ⟨g3, g4, g5⟩
      rw [upd_self hv] at this
      exact Or.inr ⟨g1, g2, fun u ys hu => contents_ok this.inv (this.held u ys hu)⟩
    · exact absurd g hr

/-- Reading one character that is known. -/
theorem getAt_raw {v : Obj} {cs : List Cell} {i : Nat} {c : Ch} (h : Raw cfg s v cs) (hi : cs[i]? = some (some c)) :
    getAt v i s = (.ok c, s) := by
  obtain ⟨p, hp, _⟩ := h.dataM
  obtain ⟨hlt, hg⟩ := List.getElem?_eq_some_iff.1 hi
  have hr := h.read hp (i := i) (k := 1) (by omega)
  have e : (cs.drop i).take 1 = [some c] := by
    rw [List.drop_eq_getElem_cons hlt, hg]; rfl
  rw [e] at hr
  unfold getAt readChar
  rw [bind_ok hp, bind_ok hr]; rfl

/-- C147, for forward iterators: if the range throws, the exception comes out, the other strings are what they were, and the string
remains one that can be destroyed; but it keeps a gap: its size has grown by the whole length of the range, and only the characters
before `pos`, those given before the exception and, moved up, those from `pos` on are known.  Not so: the contents are what they
were (`forward_throw_violated`). -/
theorem forward_throw_partial {v pos : Nat} {xs : List Ch} {x : M Unit} (hc : cfg.Ok) (h : ReachR cfg a s) (hv : a v = some xs)
    (hx : Adds cfg v pos xs r x) (hn : xs.length + r.length < M64) (hr : none ∈ r) :
    (∃ s', x s = (.error (.throw "iterator"), s') ∧ s'.refused = false ∧ s'.lost = false ∧
      (∀ u ys, u ≠ v → a u = some ys → contents cfg u s' = (.ok ys, s')) ∧
      size cfg (.user v) s' = (.ok (xs.length + r.length), s') ∧
      (∀ i c, i < pos → xs[i]? = some c → getAt (.user v) i s' = (.ok c, s')) ∧
      (∀ i c, (given r)[i]? = some c → getAt (.user v) (pos + i) s' = (.ok c, s')) ∧
      (∀ i c, pos ≤ i → xs[i]? = some c → getAt (.user v) (i + r.length) s' = (.ok c, s')) ∧
      ∃ s'', destroy cfg (.user v) s' = (.ok (), s'') ∧ ∀ u ys, u ≠ v → a u = some ys → contents cfg u s'' = (.ok ys, s'')) ∨
    (∃ e s', x s = (.error e, s') ∧ (cfg.arena = false ∧ s'.lost = true ∨
      s'.refused = true ∧ (e = .throw "bad_alloc" ∨ e = .throw "length_error" ∨ e = .throw "terminate") ∧
        ∀ u ys, a u = some ys → contents cfg u s' = (.ok ys, s'))) := by
  obtain ⟨hrel, hf, hl⟩ := reachR_rel hc h
  have hp : pos ≤ xs.length := by
    rcases hx with ⟨hp, _⟩ | ⟨rfl, _⟩
    · exact hp
    · exact Nat.le_refl _
  have h1 := adds_tri hc hrel hv hx hn
  unfold Tri at h1
  rcases e : x s with ⟨y, s'⟩
  rw [e] at h1
  cases y with
  | ok _ => exact absurd hr h1.2
  | error f =>
    rcases h1 with (h1 | ⟨g1, g2, g3, g4, g5⟩) | ⟨_, rfl, g3, g4, ⟨gap, g5, g6⟩, g7, g8⟩
    · exact Or.inr ⟨f, s', rfl, Or.inl h1⟩
    · have := hrel.one (v := v) (xs := xs) ⟨g3, g4, g5⟩
      rw [upd_self hv] at this
      exact Or.inr ⟨f, s', rfl, Or.inr ⟨g1, g2, fun u ys hu => contents_ok this.inv (this.held u ys hu)⟩⟩
    · have others : ∀ u ys, u ≠ v → a u = some ys → contents cfg u s' = (.ok ys, s') := fun u ys hu ha =>
        contents_ok g3 (g4.raw (by simpa using hu) (hrel.held u ys ha))
      obtain ⟨ob, hob⟩ := g6.var
      obtain ⟨s2, k1, k2, k3, k4, _⟩ := destroy_ok g3 hob
      have l1 : ((xs.map some : List Cell).take pos).length = pos := by simp; omega
      have l2 : ((given r).map some : List Cell).length = (given r).length := by simp
      refine Or.inl ⟨s', rfl, g7.trans hf, g8.trans hl, others, ?_, ?_, ?_, ?_, s2, k1, ?_⟩
      · rw [g6.sizeM g3]
        congr 2
        simp; omega
      · intro i c hi hc
        refine getAt_raw g6 ?_
        rw [List.append_assoc, List.append_assoc, List.getElem?_append_left (by omega), List.getElem?_take_of_lt hi]
        simp [hc]
      · intro i c hc
        refine getAt_raw g6 ?_
        have hlt := (List.getElem?_eq_some_iff.1 hc).1
        rw [List.append_assoc, List.append_assoc, List.getElem?_append_right (by omega), l1, Nat.add_sub_cancel_left,
          List.getElem?_append_left (by omega)]
        simp [hc]
      · intro i c hi hc
        refine getAt_raw g6 ?_
        have l3 : ((xs.map some : List Cell).take pos ++ (given r).map some ++ gap).length = pos + r.length := by
          simp only [List.length_append, l1, l2]; omega
        rw [List.getElem?_append_right (by omega), l3, List.getElem?_drop]
        have : pos + (i + r.length - (pos + r.length)) = i := by omega
        rw [this]
        simp [hc]
      · intro u ys hu ha
        exact contents_ok k2 (k3.raw (by simpa using hu) (g4.raw (by simpa using hu) (hrel.held u ys ha)))

theorem charsFrom_length {v : Obj} : ∀ {n i : Nat} {s s' : St} {xs : List Ch}, charsFrom v i n s = (.ok xs, s') → xs.length = n
  | 0, i, s, s', xs, h => by cases h; rfl
  | n + 1, i, s, s', xs, h => by
    unfold charsFrom at h
    rw [bind_apply] at h
    rcases e : getAt v i s with ⟨c, s1⟩
    rw [e] at h
    cases c with
    | error _ => cases h
    | ok c =>
      simp only [bind_apply] at h
      rcases e2 : charsFrom v (i + 1) n s1 with ⟨cs, s2⟩
      rw [e2] at h
      cases cs with
      | error _ => cases h
      | ok cs =>
        cases h
        simp [charsFrom_length e2]

/-- C147 does not hold for forward iterators: whenever a range of them throws, the contents of the string are not what they were. -/
theorem forward_throw_violated {v pos : Nat} {xs : List Ch} {x : M Unit} (hc : cfg.Ok) (h : ReachR cfg a s) (hv : a v = some xs)
    (hx : Adds cfg v pos xs r x) (hn : xs.length + r.length < M64) (hr : x s = (.error (.throw "iterator"), s')) (hl : s'.lost = false) :
    contents cfg v s = (.ok xs, s) ∧ contents cfg v s' ≠ (.ok xs, s') := by
  refine ⟨ranges_reached hc h hv, fun hcon => ?_⟩
  have hrn : none ∈ r := by
    by_contra hno
    rcases forward_meets_spec hc h hv hx hn hno with ⟨_, h1, _⟩ | ⟨e, s2, h1, h2⟩
    · rw [hr] at h1; cases h1
    · rw [hr] at h1; cases h1
      rcases h2 with h2 | ⟨_, h2, _⟩
      · rw [hl] at h2; simp at h2
      · rcases h2 with h2 | h2 | h2 <;> simp at h2
  rcases forward_throw_partial hc h hv hx hn hrn with ⟨s2, h1, _, _, _, h3, _⟩ | ⟨e, s2, h1, h2⟩
  · rw [hr] at h1; cases h1
    unfold contents at hcon
    rw [bind_ok h3] at hcon
    have := charsFrom_length hcon
    have := List.length_pos_of_mem hrn
    omega
  · rw [hr] at h1; cases h1
    rcases h2 with h2 | ⟨_, h2, _⟩
    · rw [hl] at h2; simp at h2
    · rcases h2 with h2 | h2 | h2 <;> simp at h2

-- "abcd" with `insert` at 1 of a range of four that throws after one character: "ax" and "bcd" with three characters left over between
example : ∃ a s, ReachR (heapCfg false) a s ∧ a 0 = some [97, 98, 99, 100] ∧
    Adds (heapCfg false) 0 1 [97, 98, 99, 100] [some 120, none, some 121, some 122] (insertForward (heapCfg false) (.user 0) 1 [some 120, none, some 121, some 122]) ∧
    (insertForward (heapCfg false) (.user 0) 1 [some 120, none, some 121, some 122] s).1 = .error (.throw "iterator") ∧
    (insertForward (heapCfg false) (.user 0) 1 [some 120, none, some 121, some 122] s).2.lost = false ∧
    (contents (heapCfg false) 0 (insertForward (heapCfg false) (.user 0) 1 [some 120, none, some 121, some 122] s).2).1 = .ok [97, 120, 99, 100, 0, 98, 99, 100] := by
  obtain ⟨a, h, e, _⟩ := reached (heapCfg_ok false) (v := 0) (xs := [97, 98, 99, 100])
    (ops := [.make 0 0 (.lit [97, 98, 99, 100])]) (by decide +kernel) (by decide +kernel)
  refine ⟨a, _, toR (heapCfg_ok _) h, e, Or.inl ⟨by decide, rfl⟩, by decide +kernel, by decide +kernel, by decide +kernel⟩

-- the same in a debug build, where the string is in a block: characters that were never written are read
example : ∃ a s, ReachR (heapCfg true) a s ∧ a 0 = some [97] ∧
    (appendForward (heapCfg true) (.user 0) [some 120, none] s).1 = .error (.throw "iterator") ∧
    (appendForward (heapCfg true) (.user 0) [some 120, none] s).2.lost = false ∧
    (contents (heapCfg true) 0 (appendForward (heapCfg true) (.user 0) [some 120, none] s).2).1 = .error (.ub "read of an indeterminate character") := by
  obtain ⟨a, h, e, _⟩ := reached (heapCfg_ok true) (v := 0) (xs := [97])
    (ops := [.make 0 0 (.lit [97])]) (by decide +kernel) (by decide +kernel)
  exact ⟨a, _, toR (heapCfg_ok _) h, e, by decide +kernel, by decide +kernel, by decide +kernel⟩

end Verif.Str.Ranges
