import Verif.Str.Reach

/-!
Properties of the strings: values, memory, modifiers.  `Reach cfg a s` are the states of programs that
respect the preconditions, for `std::allocator` and for arenas, debug and release builds, characters of
1, 2 or 4 bytes, and any answers of the allocator.
-/

namespace Verif.Str

open M

variable {cfg : Cfg} {s s' : St} {a a' : Abs} {op : Op} {v : Nat} {xs ys : List Ch}

/-! ### C52, C51: what the operations do -/

/-- C52: reading a string gives the contents it should have. -/
theorem contents_reached (hc : cfg.Ok) (h : Reach cfg a s) (hv : a v = some xs) : contents cfg v s = (.ok xs, s) := by
  have hr := (reach_rel hc h).1
  exact contents_ok hr.inv (hr.held v xs hv)

-- a string of 300 characters and its copy, of which one is changed
example : ∃ a s, Reach (heapCfg false) a s ∧ a 1 = some (List.replicate 300 97) ∧
    contents (heapCfg false) 1 s = (.ok (List.replicate 300 97), s) := by
  obtain ⟨a, h, e, _⟩ := reached (heapCfg_ok false) (v := 1) (xs := List.replicate 300 97)
    (ops := [.makeFill 0 0 300 97, .copy 1 0, .setAt 0 7 98]) (by decide +kernel) (by decide +kernel)
  exact ⟨a, _, h, e, contents_reached (heapCfg_ok _) h e⟩

/-- C51, C52: an operation whose preconditions hold does what it should, or fails because memory was
refused; it never runs into undefined behaviour or a failed assertion, unless a `realloc` was
refused. -/
theorem ops_meet_spec (hc : cfg.Ok) (h : Reach cfg a s) (ho : op.spec cfg.arena a = some (.done a')) :
    (∃ s', op.run cfg s = (.ok (), s') ∧ Reach cfg a' s' ∧ ∀ v xs, a' v = some xs → contents cfg v s' = (.ok xs, s')) ∨
    (∃ e s', op.run cfg s = (.error e, s') ∧ s.refused = false ∧ s'.refused = true ∧
      (e = .throw "bad_alloc" ∨ e = .throw "length_error" ∨ e = .throw "terminate" ∨ cfg.arena = false ∧ s'.lost = true)) := by
  obtain ⟨hr, hf, hl⟩ := reach_rel hc h
  have h1 := step_refines hc hr ho
  have h2 := (op.run_quiet cfg).flags s
  simp only [Refines, Tri] at h1
  rcases e : op.run cfg s with ⟨r, s'⟩
  rw [e] at h1 h2
  cases r with
  | ok u =>
    have hd := Reach.done h ho e
    exact Or.inl ⟨s', rfl, hd, fun v xs hv => contents_reached hc hd hv⟩
  | error f =>
    refine Or.inr ⟨f, s', rfl, hf, ?_⟩
    rcases h1 with h1 | ⟨g1, g2, _⟩
    · refine ⟨?_, Or.inr (Or.inr (Or.inr h1))⟩
      rcases h2.2 h1.2 with g | g
      · rw [hl] at g; cases g
      · exact g
    · refine ⟨g1, ?_⟩
      rcases g2 with g | g | g
      · exact Or.inl g
      · exact Or.inr (Or.inl g)
      · exact Or.inr (Or.inr (Or.inl g))

example : ∃ a s a', Reach (heapCfg true) a s ∧ (Op.replace 0 1 2 (.sub 0 2 3)).spec false a = some (.done a') ∧
    a' 0 = some [97, 99, 100, 101, 100, 101] := by
  obtain ⟨a, h, e, _⟩ := reached (heapCfg_ok true) (v := 0) (xs := [97, 98, 99, 100, 101])
    (ops := [.make 0 0 (.lit [97, 98, 99, 100, 101])]) (by decide +kernel) (by decide +kernel)
  refine ⟨a, _, upd a 0 (some [97, 99, 100, 101, 100, 101]), h, ?_, upd_same _ _ _⟩
  simp [Op.spec, Src.chars, e, Abs.set, splice]

/-- C52: a position past the end throws `out_of_range` and nothing happens. -/
theorem out_of_range (hc : cfg.Ok) (h : Reach cfg a s) (ho : op.spec cfg.arena a = some .outOfRange) :
    op.run cfg s = (.error (.throw "out_of_range"), s) :=
  step_refines hc (reach_rel hc h).1 ho

example : ∃ a s, Reach (heapCfg true) a s ∧ (Op.insert 0 6 (.lit [120])).spec false a = some .outOfRange := by
  obtain ⟨a, h, e, _⟩ := reached (heapCfg_ok true) (v := 0) (xs := [97, 98, 99, 100, 101])
    (ops := [.make 0 0 (.lit [97, 98, 99, 100, 101])]) (by decide +kernel) (by decide +kernel)
  exact ⟨a, _, h, by simp [Op.spec, Src.chars, Src.isIn, e]⟩

/-- C52: `out_of_range` is thrown for no other reason. -/
theorem out_of_range_only {out : Out} (hc : cfg.Ok) (h : Reach cfg a s) (ho : op.spec cfg.arena a = some out)
    (hr : op.run cfg s = (.error (.throw "out_of_range"), s')) (hl : s'.lost = false) : out = .outOfRange := by
  cases out with
  | outOfRange => rfl
  | done a' =>
    rcases ops_meet_spec hc h ho with ⟨s1, e, _⟩ | ⟨f, s1, e, _, _, g⟩
    · rw [hr] at e; cases e
    · rw [hr] at e; cases e
      rcases g with g | g | g | ⟨_, g⟩
      · simp at g
      · simp at g
      · simp at g
      · rw [hl] at g; cases g

/-- C52: whole programs; the second case is that one of the operations, the first to fail, was refused
memory. -/
theorem programs_meet_spec (hc : cfg.Ok) : ∀ {ops : List Op} {a a' : Abs} {s : St}, Reach cfg a s →
    specAll cfg.arena ops a = some a' →
    (∃ s', runAll cfg ops s = (.ok (), s') ∧ Reach cfg a' s' ∧ ∀ v xs, a' v = some xs → contents cfg v s' = (.ok xs, s')) ∨
    (∃ pre op rest s1 e s', ops = pre ++ op :: rest ∧ runAll cfg pre s = (.ok (), s1) ∧ op.run cfg s1 = (.error e, s') ∧
      s1.refused = false ∧ s'.refused = true ∧
      (e = .throw "bad_alloc" ∨ e = .throw "length_error" ∨ e = .throw "terminate" ∨ cfg.arena = false ∧ s'.lost = true))
  | [], a, a', s, h, hs => by
    cases hs
    exact Or.inl ⟨s, rfl, h, fun v xs hv => contents_reached hc h hv⟩
  | op :: ops, a, a', s, h, hs => by
    simp only [specAll] at hs
    simp only [runAll]
    split at hs
    · next a1 ho =>
      rcases ops_meet_spec hc h ho with ⟨s1, e1, h1, _⟩ | ⟨e, s1, e1, h0, h1, h2⟩
      · rw [e1]
        rcases programs_meet_spec hc h1 hs with g | ⟨pre, op', rest, s2, e, s3, g1, g2, g3⟩
        · exact Or.inl g
        · refine Or.inr ⟨op :: pre, op', rest, s2, e, s3, by rw [g1]; rfl, ?_, g3⟩
          simp only [runAll, e1]
          exact g2
      · exact Or.inr ⟨[], op, ops, s, e, s1, rfl, rfl, e1, h0, h1, h2⟩
    · next ho =>
      have e1 := out_of_range hc h ho
      rw [e1]
      simp only [if_true]
      rcases programs_meet_spec hc h hs with g | ⟨pre, op', rest, s2, e, s3, g1, g2, g3⟩
      · exact Or.inl g
      · refine Or.inr ⟨op :: pre, op', rest, s2, e, s3, by rw [g1]; rfl, ?_, g3⟩
        simp only [runAll, e1, if_true]
        exact g2
    · cases hs

-- a program with copies, moves, aliases, an exception and the three kinds of storage
example : ((specAll false demo fun _ => none).bind (· 1) = some ([100] ++ List.replicate 300 97)) ∧
    (runAll (heapCfg false) demo St.init).1 = .ok () := by decide +kernel

/-! ### C49: independent values -/

theorem make_other {i : Nat} (h : a.make v xs = some (.done a')) (hi : (i == v) = false) : a' i = a i := by
  unfold Abs.make at h
  split at h
  · cases h
    exact upd_other _ _ (by simpa using hi)
  · cases h

theorem set_other {i : Nat} (h : a.set v xs = some (.done a')) (hi : (i == v) = false) : a' i = a i := by
  unfold Abs.set at h
  split at h
  · cases h
    exact upd_other _ _ (by simpa using hi)
  · cases h

theorem spec_other {b : Bool} (h : op.spec b a = some (.done a')) (hi : op.changes v = false) : a' v = a v := by
  cases op <;> simp only [Op.spec, Option.bind_eq_bind, Option.bind_eq_some_iff] at h <;> simp only [Op.changes] at hi
  all_goals repeat' (first | (obtain ⟨_, _, h⟩ := h) | split at h)
  all_goals first
    | exact make_other h hi
    | exact set_other h hi
    | (simp only [Bool.or_eq_false_iff, beq_eq_false_iff_ne] at hi
       first
         | rw [upd_other _ _ hi.2, upd_other _ _ hi.1]
         | rw [upd_other _ _ hi.1, upd_other _ _ hi.2]
         | rw [upd_other _ _ hi])

theorem weak_changes (h : op.weak = some v) : op.changes v = true := by
  cases op <;> simp only [Op.weak] at h <;> first | (cases h; done) | (cases h; simp [Op.changes])

/-- C49: whatever an operation does to its string, also when it fails, the contents of every other
string stay the same.  Missing: writes through pointers and iterators the program keeps, for which it is false
(`data_shared_violated`, `iterator_shared_violated`). -/
theorem other_strings_untouched_partial {out : Out} {r : Except Fault Unit} (hc : cfg.Ok) (h : Reach cfg a s)
    (ho : op.spec cfg.arena a = some out) (hi : op.changes v = false) (hr : op.run cfg s = (r, s')) (hl : s'.lost = false)
    (hx : contents cfg v s = (.ok xs, s)) : contents cfg v s' = (.ok xs, s') := by
  have hrel := (reach_rel hc h).1
  have hv : a v = some xs := by
    cases e : a v with
    | none =>
      have : getOb (.user v) s = (.error (.ub "use of a dead string"), s) := by
        unfold getOb; rw [hrel.absent v e]
      unfold contents size at hx
      rw [bind_apply, bind_apply, this] at hx
      cases hx
    | some ys =>
      rw [contents_reached hc h e] at hx
      cases hx; rfl
  have h1 := step_refines hc hrel ho
  cases out with
  | outOfRange =>
    simp only [Refines] at h1
    rw [hr] at h1; cases h1
    exact hx
  | done a' =>
    simp only [Refines, Tri] at h1
    rw [hr] at h1
    cases r with
    | ok _ => exact contents_ok h1.1.inv (h1.1.held v xs ((spec_other ho hi).trans hv))
    | error e =>
      rcases h1 with h1 | ⟨_, _, a2, h2, h3, _⟩
      · rw [hl] at h1; simp at h1
      · exact contents_ok h2.inv (h2.held v xs ((h3 v (fun e => by rw [weak_changes e] at hi; cases hi)).trans hv))

-- `0` and `1` share a buffer, `1` is changed
example : ∃ a s, Reach (heapCfg false) a s ∧ (Op.pushBack 1 98).changes 0 = false ∧ (∃ o, (Op.pushBack 1 98).spec false a = some o) ∧
    ((Op.pushBack 1 98).run (heapCfg false) s).2.lost = false ∧ contents (heapCfg false) 0 s = (.ok (List.replicate 300 97), s) := by
  obtain ⟨a, h, e, _⟩ := reached (heapCfg_ok false) (v := 0) (xs := List.replicate 300 97)
    (ops := [.makeFill 0 0 300 97, .copy 1 0]) (by decide +kernel) (by decide +kernel)
  obtain ⟨a', h', e', _⟩ := reached (heapCfg_ok false) (v := 1) (xs := List.replicate 300 97)
    (ops := [.makeFill 0 0 300 97, .copy 1 0]) (by decide +kernel) (by decide +kernel)
  refine ⟨a', _, h', rfl, ?_, by decide +kernel, contents_reached (heapCfg_ok _) h e⟩
  simp only [Op.spec, e', Option.bind_eq_bind, Option.bind_some, Abs.set]
  exact ⟨_, if_pos (by rw [List.length_append, List.length_replicate]; decide)⟩

/-! ### C50: memory -/

/-- The strings that keep their characters in block `b`. -/
def uses (s : St) (b v : Nat) : Prop := ∃ ob n cap large, s.vars (.user v) = some ob ∧ ob.core = .ml b n cap large

/-- C50: each buffer in use belongs to at least one string, and its reference count is the number of
strings that use it; a buffer without a count belongs to exactly one. -/
theorem reference_counts (hc : cfg.Ok) (ha : cfg.arena = false) (h : Reach cfg a s) {b : Nat} {B : Blk} (hb : s.heap b = some B) :
    ∃ L : List Nat, L.Nodup ∧ (∀ v, v ∈ L ↔ uses s b v) ∧ L ≠ [] ∧ L.length = B.rc.getD 1 := by
  have hr := (reach_rel hc h).1
  obtain ⟨L, h1, h2, h3, h4⟩ := hr.inv.own b B hb
  have h3 := h3 ha
  have hu : ∀ o ∈ L, ∃ n, o = .user n := by
    intro o ho
    cases o with
    | user n => exact ⟨n, rfl⟩
    | tmp n =>
      have := (h2 _).1 ho
      simp [blkOf, hr.tmps n] at this
  have hmem : ∀ v, Obj.user v ∈ L ↔ uses s b v := by
    intro v
    rw [h2]
    unfold blkOf uses
    constructor
    · intro e
      obtain ⟨ob, e1, e2⟩ := Option.bind_eq_some_iff.1 e
      cases hk : ob.core with
      | small l => rw [hk] at e2; cases e2
      | ml d n cap large =>
        rw [hk] at e2; cases e2
        exact ⟨ob, n, cap, large, e1, hk⟩
    · rintro ⟨ob, n, cap, large, e1, e2⟩
      rw [e1]
      simp [Core.blk?, e2]
  let f : Obj → Nat := fun o => match o with
    | .user n => n
    | .tmp n => n
  refine ⟨L.map f, ?_, ?_, ?_, ?_⟩
  · refine h1.map_on ?_
    intro x hx y hy e
    obtain ⟨n, rfl⟩ := hu x hx
    obtain ⟨m, rfl⟩ := hu y hy
    simp only [f] at e
    rw [e]
  · intro v
    rw [← hmem v, List.mem_map]
    constructor
    · rintro ⟨o, ho, e⟩
      obtain ⟨n, rfl⟩ := hu o ho
      simp only [f] at e
      rw [← e]; exact ho
    · intro ho
      exact ⟨_, ho, rfl⟩
  · intro e
    have := congrArg List.length e
    simp at this
    rw [this] at h3
    simp at h3
  · rw [List.length_map]
    cases hrc : B.rc with
    | none => rw [hrc] at h4; simp only at h4; simp; omega
    | some n => rw [hrc] at h4; simp only at h4; simp; exact (h4.2 ha).symm

-- a buffer with three users
example : ∃ a s B, Reach (heapCfg false) a s ∧ s.heap 0 = some B ∧ B.rc = some 3 := by
  obtain ⟨a, h, _, _⟩ := reached (heapCfg_ok false) (v := 0) (xs := List.replicate 300 97)
    (ops := [.makeFill 0 0 300 97, .copy 1 0, .copy 2 1]) (by decide +kernel) (by decide +kernel)
  refine ⟨a, _, _, h, Option.eq_some_of_isSome (o := St.heap _ 0) ?_, ?_⟩ <;> decide +kernel

/-- C50: a buffer is in use exactly as long as a string uses it. -/
theorem buffers_used (hc : cfg.Ok) (ha : cfg.arena = false) (h : Reach cfg a s) (b : Nat) :
    (s.heap b).isSome ↔ ∃ v, uses s b v := by
  constructor
  · intro e
    obtain ⟨B, hB⟩ := Option.isSome_iff_exists.1 e
    obtain ⟨L, _, h2, h3, _⟩ := reference_counts hc ha h hB
    obtain ⟨v, hv⟩ := List.exists_mem_of_ne_nil L h3
    exact ⟨v, (h2 v).1 hv⟩
  · rintro ⟨v, ob, n, cap, large, e1, e2⟩
    have := (reach_rel hc h).1.inv.core _ _ e1
    rw [e2] at this
    obtain ⟨B, hB, _⟩ := this
    rw [hB]; rfl

/-- C50: when all strings are destroyed all buffers are freed. -/
theorem no_leaks (hc : cfg.Ok) (ha : cfg.arena = false) (h : Reach cfg a s) (hd : ∀ v, a v = none) (b : Nat) :
    s.heap b = none := by
  cases e : s.heap b with
  | none => rfl
  | some B =>
    obtain ⟨v, ob, n, cap, large, e1, _⟩ := (buffers_used hc ha h b).1 (by rw [e]; rfl)
    rw [(reach_rel hc h).1.absent v (hd v)] at e1
    cases e1

example : ((specAll false demoEnd fun _ => none).bind (· 0) = none) ∧ (runAll (heapCfg false) demoEnd St.init).1 = .ok () ∧
    3 < (runAll (heapCfg false) demoEnd St.init).2.next := by decide +kernel

/-! ### C51: bounds -/

/-- C51: `size() <= capacity()`, and `data()` has the characters followed by the terminator. -/
theorem storage_ok (hc : cfg.Ok) (h : Reach cfg a s) (hv : a v = some xs) :
    size cfg (.user v) s = (.ok xs.length, s) ∧
    (∃ c, capacity cfg (.user v) s = (.ok c, s) ∧ xs.length ≤ c) ∧
    (∃ p, dataPtr (.user v) s = (.ok p, s) ∧ readCells p (xs.length + 1) s = (.ok (xs.map some ++ [some 0]), s)) := by
  have hr := (reach_rel hc h).1
  have hx := hr.held v xs hv
  have hs := hx.sizeM hr.inv
  rw [List.length_map] at hs
  obtain ⟨ob, l, n, g, e⟩ := hx
  obtain ⟨l2, n2, g2, g3, g4, g5⟩ := hr.inv.view g.var
  obtain ⟨_, rfl, rfl⟩ := g.unique g2
  obtain ⟨c, d1, d2, _⟩ := g.capM hr.inv
  have hn : n = xs.length := by
    have := congrArg List.length e
    simp at this; omega
  subst hn
  refine ⟨hs, ⟨c, d1, d2⟩, _, g.dataM, ?_⟩
  rw [g.read0 (by omega)]
  rw [List.take_add_one, ← e, g5]; rfl

-- a medium string that becomes large
example : (let s := (runAll (heapCfg false) [.makeFill 0 0 253 97, .pushBack 0 98] St.init).2
    ((size (heapCfg false) (.user 0) s).1 = .ok 254 ∧ (capacity (heapCfg false) (.user 0) s).1 = .ok 380)) := by decide +kernel

end Verif.Str
