import Verif.Opt.HandlesLemmas

/-!
C116: the references `add_option` returns.  The specification has positions instead of references, and
says how long each may be used: until the memory the options were in when the option was registered is
full and one more is registered.
-/

namespace Verif.Opt

open _root_.Verif.Vector (Ptr V VecOK Fresh Ok)

/-! ### Specification -/

/-- One step of a program on the list of options.  `refs` are the positions of the options
registered. -/
def Use.spec (size : Nat) : Use → Parser × List (Option Nat) → Except Fault (Parser × List (Option Nat))
  | .add names, (p, refs) =>
    match caught (addOption p names) with
    | .ok (r, p') => .ok (p', refs ++ [r.map fun _ => p.opts.length])
    | .error f => .error f
  | .set k f, (p, refs) =>
    match refs[k]? with
    | some (some i) =>
      if p.opts.length ≤ room size (i + 1) then .ok (p.edit i f, refs)
      else .error (.ub "dangling pointer dereferenced")
    | _ => .ok (p, refs)
  | .usage m, (p, refs) =>
    match caught (addUsage p m) with
    | .ok (_, p) => .ok (p, refs)
    | .error f => .error f
  | .help m, (p, refs) =>
    match caught (addHelp p m) with
    | .ok (_, p) => .ok (p, refs)
    | .error f => .error f
  | .version m, (p, refs) =>
    match caught (addVersion p m) with
    | .ok (_, p) => .ok (p, refs)
    | .error f => .error f
  | .parse env, (p, refs) =>
    match caught (prepare env p) with
    | .ok (_, p) => .ok (p, refs)
    | .error f => .error f

/-- A program on the list of options. -/
def specUses (size : Nat) : List Use → Parser × List (Option Nat) → Except Fault (Parser × List (Option Nat))
  | [], st => .ok st
  | u :: us, st =>
    match u.spec size st with
    | .ok st => specUses size us st
    | .error f => .error f

/-- What a program that goes on can see: every option, in order, and everything else the parser
knows. -/
def Stored.view (q : Stored) : Except Fault Parser :=
  match (Vector.toList q.s).1 with
  | .ok os => .ok { q.p with opts := os }
  | .error f => .error f

/-! ### Proof -/

theorem room_iff (size : Nat) {i n : Nat} (h : i + 1 ≤ n) : room size (i + 1) = room size n ↔ n ≤ room size (i + 1) := by
  constructor
  · intro e
    rw [e]
    exact room_ge size n
  · intro hn
    obtain ⟨d, rfl⟩ := Nat.exists_eq_add_of_le h
    clear h
    induction d with
    | zero => rfl
    | succ d ih =>
      have := ih (by omega)
      rw [this]
      show _ = room size (i + 1 + d + 1)
      conv => rhs; unfold room
      rw [if_pos (by omega)]

/-- References and positions belong together. -/
def Match (size : Nat) (s : Vector.S Opt) (n : Nat) : Option (Option Ptr) → Option (Option Nat) → Prop
  | none, none => True
  | some none, some none => True
  | some (some r), some (some i) => RefOK size s n r i
  | _, _ => False

/-- The state of a program and the state of the specification. -/
structure Related (cfg : Vector.Cfg Opt) (st : Stored × List (Option Ptr)) (ab : Parser × List (Option Nat)) : Prop where
  rep : Rep cfg st.1 ab.1
  refs : ∀ k : Nat, Match cfg.size st.1.s ab.1.opts.length st.2[k]? ab.2[k]?

theorem Match.carry {size : Nat} {s s' : Vector.S Opt} {n n' : Nat} {a : Option (Option Ptr)} {b : Option (Option Nat)}
    (h : Match size s n a b) (hC : Carry size s n s' n') : Match size s' n' a b := by
  rcases a with _ | _ | r <;> rcases b with _ | _ | i <;> first | exact h | exact hC.2 _ _ h

theorem caught_sim {cfg : Vector.Cfg Opt} {q : Stored} {p : Parser} {k : Nat} {x : Except Fault Unit × Stored}
    {y : Except Fault Unit × Parser} {refs : List (Option Ptr)} {idx : List (Option Nat)} (hr : Related cfg (q, refs) (p, idx))
    (hs : Sim cfg q p k x y) :
    (∃ r q' p', caught x = .ok (r, q') ∧ caught y = .ok (r, p') ∧ Related cfg (q', refs) (p', idx) ∧
      p'.opts.length ≤ p.opts.length + k) ∨ ∃ f, caught x = .error f ∧ caught y = .error f := by
  obtain ⟨e, hR, hC, hl⟩ := hs
  obtain ⟨x1, x2⟩ := x
  obtain ⟨y1, y2⟩ := y
  simp only at e hR hC hl
  subst e
  have hrel : Related cfg (x2, refs) (y2, idx) := ⟨hR, fun j => (hr.refs j).carry hC⟩
  rcases x1 with (_ | _ | _) | _
  all_goals first
    | exact .inl ⟨_, _, _, rfl, rfl, hrel, hl⟩
    | exact .inr ⟨_, rfl, rfl⟩

/-- One step of a program does what the specification says. -/
theorem use_sim {cfg : Vector.Cfg Opt} (hP : Platform cfg) {st : Stored × List (Option Ptr)} {ab : Parser × List (Option Nat)}
    (h : Related cfg st ab) (hfit : Vector.Fits cfg (ab.1.opts.length + 3)) (u : Use) :
    (∃ st' ab', u.run cfg st = .ok st' ∧ u.spec cfg.size ab = .ok ab' ∧ Related cfg st' ab' ∧
      ab'.1.opts.length ≤ ab.1.opts.length + 3) ∨
    ∃ f, u.run cfg st = .error f ∧ u.spec cfg.size ab = .error f := by
  obtain ⟨q, refs⟩ := st
  obtain ⟨p, idx⟩ := ab
  simp only at hfit ⊢
  have hlen : refs.length = idx.length := by
    have h1 := h.refs refs.length
    have h2 := h.refs idx.length
    simp only at h1 h2
    rcases Nat.lt_trichotomy refs.length idx.length with hl | hl | hl
    · rw [List.getElem?_eq_none (Nat.le_refl _), List.getElem?_eq_getElem hl] at h1
      exact h1.elim
    · exact hl
    · rw [List.getElem?_eq_none (Nat.le_refl idx.length), List.getElem?_eq_getElem hl] at h2
      rcases hx : refs[idx.length] with _ | r <;> rw [hx] at h2 <;> exact h2.elim
  cases u with
  | add names =>
    obtain ⟨q', e, hR, hl, hC⟩ := addOption_rep (ns := names) hP h.rep (hfit.mono (by (try simp only); omega))
    simp only at e hR hl hC
    simp only [Use.run, Use.spec, e]
    rcases hx : addOption p names with ⟨r, p'⟩
    rw [hx] at hR hl
    simp only at hR hl
    have hm : ∀ a b, Match cfg.size q'.s p'.opts.length (some a) (some b) →
        Related cfg (q', refs ++ [a]) (p', idx ++ [b]) := by
      intro a b hab
      refine ⟨hR, fun k => ?_⟩
      simp only
      rcases Nat.lt_trichotomy k refs.length with hk | hk | hk
      · rw [List.getElem?_append_left hk, List.getElem?_append_left (by omega), hl]
        exact (h.refs k).carry hC
      · rw [hk, List.getElem?_concat_length, hlen, List.getElem?_concat_length]
        exact hab
      · rw [List.getElem?_eq_none (by simp; omega), List.getElem?_eq_none (by simp; omega)]
        trivial
    rcases r with (f | f | f) | ⟨⟩
    · exact .inr ⟨_, rfl, rfl⟩
    · exact .inr ⟨_, rfl, rfl⟩
    · exact .inl ⟨_, _, rfl, rfl, hm none none trivial, by (try simp only); omega⟩
    · refine .inl ⟨_, _, rfl, rfl, hm (some _) (some _) ?_, by (try simp only); omega⟩
      refine ⟨by show p.opts.length < p'.opts.length; omega, fun _ => rfl, fun hne => ?_⟩
      rw [hl] at hne
      exact absurd rfl hne
  | set k f =>
    have hk := h.refs k
    simp only at hk
    simp only [Use.run, Use.spec]
    rcases hr : refs[k]? with _ | _ | r <;> rcases hi : idx[k]? with _ | _ | i <;> rw [hr, hi] at hk
    all_goals first | exact hk.elim | skip
    · exact .inl ⟨_, _, rfl, rfl, h, by (try simp only); omega⟩
    · exact .inl ⟨_, _, rfl, rfl, h, by (try simp only); omega⟩
    · have hk : RefOK cfg.size q.s p.opts.length r i := hk
      simp only
      by_cases hle : p.opts.length ≤ room cfg.size (i + 1)
      · rw [if_pos hle, hk.good ((room_iff cfg.size hk.lt).2 hle)]
        obtain ⟨q', e, hR, hC⟩ := set_rep (f := f) h.rep hk.lt
        simp only at e hR hC
        rw [e]
        refine .inl ⟨_, _, rfl, rfl, ⟨hR, fun j => (h.refs j).carry hC⟩, ?_⟩
        simp [Parser.edit]
      · rw [if_neg hle]
        obtain ⟨b, er, hnone, -⟩ := hk.bad (fun e => hle ((room_iff cfg.size hk.lt).1 e))
        rw [er, set_dangling hnone]
        exact .inr ⟨_, rfl, rfl⟩
  | usage m =>
    rcases caught_sim h (addUsage_sim (m := m) hP h.rep (hfit.mono (by omega))) with ⟨r, q', p', e1, e2, hr, hl⟩ | ⟨f, e1, e2⟩
    · simp only [Use.run, Use.spec, e1, e2]
      exact .inl ⟨_, _, rfl, rfl, hr, by (try simp only); omega⟩
    · simp only [Use.run, Use.spec, e1, e2]
      exact .inr ⟨_, rfl, rfl⟩
  | help m =>
    rcases caught_sim h (addHelp_sim (m := m) hP h.rep (hfit.mono (by omega))) with ⟨r, q', p', e1, e2, hr, hl⟩ | ⟨f, e1, e2⟩
    · simp only [Use.run, Use.spec, e1, e2]
      exact .inl ⟨_, _, rfl, rfl, hr, by (try simp only); omega⟩
    · simp only [Use.run, Use.spec, e1, e2]
      exact .inr ⟨_, rfl, rfl⟩
  | version m =>
    rcases caught_sim h (addVersion_sim (m := m) hP h.rep (hfit.mono (by omega))) with ⟨r, q', p', e1, e2, hr, hl⟩ | ⟨f, e1, e2⟩
    · simp only [Use.run, Use.spec, e1, e2]
      exact .inl ⟨_, _, rfl, rfl, hr, by (try simp only); omega⟩
    · simp only [Use.run, Use.spec, e1, e2]
      exact .inr ⟨_, rfl, rfl⟩
  | parse env =>
    rcases caught_sim h (prepare_sim (env := env) hP h.rep hfit) with ⟨r, q', p', e1, e2, hr, hl⟩ | ⟨f, e1, e2⟩
    · simp only [Use.run, Use.spec, e1, e2]
      exact .inl ⟨_, _, rfl, rfl, hr, by (try simp only); omega⟩
    · simp only [Use.run, Use.spec, e1, e2]
      exact .inr ⟨_, rfl, rfl⟩

theorem uses_sim {cfg : Vector.Cfg Opt} (hP : Platform cfg) : ∀ (us : List Use) (st : Stored × List (Option Ptr))
    (ab : Parser × List (Option Nat)), Related cfg st ab → Vector.Fits cfg (ab.1.opts.length + 3 * us.length) →
    (∃ st' ab', runUses cfg us st = .ok st' ∧ specUses cfg.size us ab = .ok ab' ∧ Related cfg st' ab' ∧
      ab'.1.opts.length ≤ ab.1.opts.length + 3 * us.length) ∨
    ∃ f, runUses cfg us st = .error f ∧ specUses cfg.size us ab = .error f
  | [], st, ab, h, _ => .inl ⟨st, ab, rfl, rfl, h, by simp⟩
  | u :: us, st, ab, h, hfit => by
    rw [List.length_cons] at hfit
    simp only [runUses, specUses]
    rcases use_sim hP h (hfit.mono (by omega)) u with ⟨st', ab', e1, e2, hr, hl⟩ | ⟨f, e1, e2⟩
    · rw [e1, e2]
      simp only
      rcases uses_sim hP us st' ab' hr (hfit.mono (by omega)) with ⟨st2, ab2, g1, g2, g3, g4⟩ | ⟨f, g1, g2⟩
      · exact .inl ⟨st2, ab2, g1, g2, g3, by rw [List.length_cons]; omega⟩
      · exact .inr ⟨f, g1, g2⟩
    · rw [e1, e2]
      exact .inr ⟨f, rfl, rfl⟩

theorem related_new (cfg : Vector.Cfg Opt) (p : Parser) : Related cfg (Stored.new p, []) ({ p with opts := [] }, []) :=
  ⟨⟨rfl, .inl ⟨rfl, rfl⟩, fun _ _ => rfl, rfl⟩, fun _ => trivial⟩

/-! ### C116 -/

/-- C116: a program that registers options, keeps the references and uses them later does exactly what
the specification says: it has undefined behaviour where the specification says so, and otherwise
sees the same options. -/
theorem add_option_references {cfg : Vector.Cfg Opt} (hP : Platform cfg) {p : Parser} (hp : p.opts = []) {us : List Use}
    (hfit : Vector.Fits cfg (3 * us.length)) :
    (∃ st ab, runUses cfg us (Stored.new p, []) = .ok st ∧ specUses cfg.size us (p, []) = .ok ab ∧ st.1.view = .ok ab.1) ∨
    ∃ f, runUses cfg us (Stored.new p, []) = .error f ∧ specUses cfg.size us (p, []) = .error f := by
  have hp' : ({ p with opts := [] } : Parser) = p := by rw [← hp]
  have hrel := related_new cfg p
  rw [hp'] at hrel
  rcases uses_sim hP us _ _ hrel (hfit.mono (by simp [hp])) with ⟨st, ab, e1, e2, hr, -⟩ | h
  · refine .inl ⟨st, ab, e1, e2, ?_⟩
    unfold Stored.view
    rw [show (Vector.toList st.1.s).1 = .ok ab.1.opts by rw [hr.rep.opts.toList_ok]]
    simp only
    rw [hr.rep.rest]
  · exact .inr h

/-- `sizeof(Option)` is 216 with libstdc++. -/
def exPlat : Vector.Cfg Opt := ⟨.mov, 216, true, fun _ _ => true, { owner := 0, names := [] }, false⟩

theorem exPlatform : Platform exPlat := ⟨by decide, by decide, rfl, fun _ _ _ => rfl⟩

/-- Five options, a flag, then the fourth is set up; the reference is still good. -/
example : ∃ st ab, runUses exPlat
      [.add ["-a".toList], .add ["-b".toList], .add ["-c".toList], .add ["-d".toList], .help [],
       .set 3 (fun o => { o with dest := "d".toList })] (Stored.new (Parser.new 0), []) = .ok st ∧
    st.1.view = .ok ab ∧ ab.opts.length = 5 ∧ (ab.opts[3]?).map Opt.dest = some "d".toList := by
  rcases add_option_references exPlatform (p := Parser.new 0) rfl (us := [.add ["-a".toList], .add ["-b".toList],
    .add ["-c".toList], .add ["-d".toList], .help [], .set 3 (fun o => { o with dest := "d".toList })])
    (by unfold Vector.Fits exPlat; decide) with ⟨st, ab, h1, h2, h3⟩ | ⟨f, -, h⟩
  · refine ⟨st, ab.1, h1, h3, ?_⟩
    have : (specUses exPlat.size [.add ["-a".toList], .add ["-b".toList], .add ["-c".toList], .add ["-d".toList], .help [],
        .set 3 (fun o => { o with dest := "d".toList })] (Parser.new 0, [])).toOption.map
        (fun ab => (ab.1.opts.length, (ab.1.opts[3]?).map Opt.dest)) = some (5, some "d".toList) := by decide +kernel
    rw [h2] at this
    simp only [Except.toOption, Option.map_some, Option.some.injEq, Prod.mk.injEq] at this
    exact this
  · have : (specUses exPlat.size [.add ["-a".toList], .add ["-b".toList], .add ["-c".toList], .add ["-d".toList], .help [],
        .set 3 (fun o => { o with dest := "d".toList })] (Parser.new 0, [])).isOk = true := by decide +kernel
    rw [h] at this
    cases this

/-- C116: a reference may be used exactly as long as there are no more options than there was memory
for when the option was registered. -/
theorem reference_lifetime {cfg : Vector.Cfg Opt} (hP : Platform cfg) {p : Parser} (hp : p.opts = []) {us : List Use}
    {st : Stored × List (Option Ptr)} {k : Nat} {r : Ptr} {f : Opt → Opt} (hfit : Vector.Fits cfg (3 * us.length))
    (hrun : runUses cfg us (Stored.new p, []) = .ok st) (hk : st.2[k]? = some (some r)) :
    ∃ q i o, st.1.view = .ok q ∧ q.opts[i]? = some o ∧
      (q.opts.length ≤ room cfg.size (i + 1) →
        ∃ st', (st.1.set r f) = (.ok (), st') ∧ st'.view = .ok (q.edit i f)) ∧
      (room cfg.size (i + 1) < q.opts.length →
        st.1.set r f = (.error (.ub "dangling pointer dereferenced"), st.1)) := by
  have hp' : ({ p with opts := [] } : Parser) = p := by rw [← hp]
  have hrel := related_new cfg p
  rw [hp'] at hrel
  have hview : ∀ {q : Stored} {p : Parser}, Rep cfg q p → q.view = .ok p := by
    intro q p h
    unfold Stored.view
    rw [show (Vector.toList q.s).1 = .ok p.opts by rw [h.opts.toList_ok]]
    simp only
    rw [h.rest]
  rcases uses_sim hP us _ _ hrel (hfit.mono (by simp [hp])) with ⟨st', ab, e1, e2, hr, -⟩ | ⟨f, h, -⟩
  · rw [hrun] at e1
    cases e1
    have hm := hr.refs k
    rw [hk] at hm
    rcases hi : ab.2[k]? with _ | _ | i <;> rw [hi] at hm
    · exact hm.elim
    · exact hm.elim
    · have hm : RefOK cfg.size st.1.s ab.1.opts.length r i := hm
      refine ⟨ab.1, i, ab.1.opts[i]'hm.lt, hview hr.rep, List.getElem?_eq_getElem hm.lt, fun hle => ?_, fun hgt => ?_⟩
      · rw [hm.good ((room_iff cfg.size hm.lt).2 hle)]
        obtain ⟨q', e, hR, -⟩ := set_rep (f := f) hr.rep hm.lt
        exact ⟨q', e, hview hR⟩
      · obtain ⟨b, er, hnone, -⟩ := hm.bad (fun e => by have := (room_iff cfg.size hm.lt).1 e; omega)
        rw [er]
        exact set_dangling hnone
  · rw [hrun] at h; cases h

/-- There is memory for 1, 2, 3, 5, 8, 12, 18, ... options. -/
example : (List.range 14).map (room 216) = [0, 1, 2, 3, 5, 5, 8, 8, 8, 12, 12, 12, 12, 18] := by decide +kernel

example : (runUses exPlat [.add ["-a".toList], .add ["-b".toList]] (Stored.new (Parser.new 0), [])).toOption.map
    (fun st => st.2) = some [some ⟨some 0, 0⟩, some ⟨some 1, 1⟩] := by decide +kernel

/-- Registering names ends normally or with an exception. -/
theorem registerNames_caught (i : Nat) : ∀ (ns : List Text) (p : Parser), ∃ x, caught (registerNames i ns p) = .ok x
  | [], p => ⟨_, rfl⟩
  | n :: ns, p => by
    unfold registerNames
    cases kindOf p.pre p.longPre n with
    | short =>
      simp only
      split
      · exact ⟨_, rfl⟩
      · exact registerNames_caught i ns _
    | long =>
      simp only
      split
      · exact ⟨_, rfl⟩
      · exact registerNames_caught i ns _
    | invalid => exact ⟨_, rfl⟩

theorem addOption_caught (p : Parser) (ns : List Text) : ∃ r, caught (addOption p ns) = .ok (r, (addOption p ns).2) := by
  obtain ⟨⟨r, p'⟩, h⟩ := registerNames_caught p.opts.length ns { p with opts := p.opts ++ [{ owner := p.id, names := ns }] }
  refine ⟨r, ?_⟩
  show caught (registerNames _ _ _) = .ok (r, (registerNames _ _ _).2)
  rcases hx : registerNames p.opts.length ns { p with opts := p.opts ++ [{ owner := p.id, names := ns }] } with ⟨(f | f | f) | u, p2⟩ <;>
    rw [hx] at h
  · cases h
  · cases h
  · cases h; rfl
  · cases h; rfl

theorem addOption_length (p : Parser) (ns : List Text) : (addOption p ns).2.opts.length = p.opts.length + 1 := by
  have : (addOption p ns).2.opts = p.opts ++ [{ owner := p.id, names := ns }] := by
    unfold addOption addOpt
    rw [registerNames_same]
  rw [this, List.length_append]; rfl

theorem specUses_append {size : Nat} : ∀ (us vs : List Use) (ab : Parser × List (Option Nat)),
    specUses size (us ++ vs) ab = (match specUses size us ab with | .ok ab' => specUses size vs ab' | .error f => .error f)
  | [], vs, ab => rfl
  | u :: us, vs, ab => by
    simp only [List.cons_append, specUses]
    cases u.spec size ab with
    | error f => rfl
    | ok ab' => exact specUses_append us vs ab'

/-- The number of references a program has been given. -/
def Use.isAdd : Use → Bool
  | .add _ => true
  | _ => false

theorem spec_refs {size : Nat} {u : Use} {ab ab' : Parser × List (Option Nat)} (h : u.spec size ab = .ok ab') :
    ab'.2.length = ab.2.length + if u.isAdd then 1 else 0 := by
  obtain ⟨p, refs⟩ := ab
  cases u with
  | add ns =>
    simp only [Use.spec] at h
    split at h
    · cases h; simp [Use.isAdd]
    · cases h
  | set k f =>
    simp only [Use.spec] at h
    split at h
    · split at h
      · cases h; simp [Use.isAdd]
      · cases h
    · cases h; simp [Use.isAdd]
  | usage m | help m | version m | parse env =>
    simp only [Use.spec] at h
    split at h
    · cases h; simp [Use.isAdd]
    · cases h

theorem specUses_refs {size : Nat} : ∀ {us : List Use} {ab ab' : Parser × List (Option Nat)}, specUses size us ab = .ok ab' →
    ab'.2.length = ab.2.length + us.countP Use.isAdd
  | [], ab, ab', h => by cases h; simp
  | u :: us, ab, ab', h => by
    simp only [specUses] at h
    cases hu : u.spec size ab with
    | error f => rw [hu] at h; cases h
    | ok ab1 =>
      rw [hu] at h
      have h1 := spec_refs hu
      have h2 := specUses_refs h
      rw [h2, h1, List.countP_cons]
      omega

/-- C116, the part that holds: whatever happened before, the reference a registration returns may be
used until the next registration. -/
theorem chained_setters_partial {cfg : Vector.Cfg Opt} (hP : Platform cfg) {p : Parser} (hp : p.opts = []) {us : List Use}
    {names : List Text} {fs : List (Opt → Opt)} {st : Stored × List (Option Ptr)}
    (hfit : Vector.Fits cfg (3 * (us.length + 1 + fs.length)))
    (hrun : runUses cfg us (Stored.new p, []) = .ok st) :
    ∃ st' q, runUses cfg (us ++ .add names :: fs.map (Use.set (us.countP Use.isAdd))) (Stored.new p, []) = .ok st' ∧
      st.1.view = .ok q ∧
      st'.1.view = .ok (match addOption q names with
        | (.ok (), q') => q'.edit q.opts.length (fun o => fs.foldl (fun o f => f o) o)
        | (_, q') => q') := by
  rcases add_option_references hP hp (us := us) (hfit.mono (by omega)) with ⟨st1, ab, h1, h2, h3⟩ | ⟨f, h, -⟩
  · rw [hrun] at h1
    cases h1
    obtain ⟨q, refs⟩ := ab
    have hlen := specUses_refs h2
    simp only [List.length_nil, Nat.zero_add] at hlen
    obtain ⟨r, hc⟩ := addOption_caught q names
    have hl := addOption_length q names
    -- the specification of the rest
    have hset : ∀ (fs : List (Opt → Opt)) (q' : Parser), q'.opts.length = q.opts.length + 1 →
        specUses cfg.size (fs.map (Use.set refs.length)) (q', refs ++ [some q.opts.length])
          = .ok (q'.edit q.opts.length (fun o => fs.foldl (fun o f => f o) o), refs ++ [some q.opts.length]) := by
      intro fs
      induction fs with
      | nil =>
        intro q' _
        simp only [List.map_nil, specUses, List.foldl_nil, Parser.edit]
        rw [show q'.opts.modify q.opts.length (fun o => o) = q'.opts from List.modify_id _ _]
      | cons f fs ih =>
        intro q' hq'
        simp only [List.map_cons, specUses, Use.spec, List.getElem?_concat_length]
        rw [if_pos (by rw [hq']; exact room_ge _ _)]
        simp only
        rw [ih (q'.edit q.opts.length f) (by simp [Parser.edit, hq'])]
        simp only [Parser.edit, List.foldl_cons, List.modify_modify_eq]
        rfl
    have hnone : ∀ (fs : List (Opt → Opt)) (q' : Parser),
        specUses cfg.size (fs.map (Use.set refs.length)) (q', refs ++ [none]) = .ok (q', refs ++ [none]) := by
      intro fs
      induction fs with
      | nil => intro q'; rfl
      | cons f fs ih =>
        intro q'
        simp only [List.map_cons, specUses, Use.spec, List.getElem?_concat_length]
        exact ih q'
    have hspec : ∃ refs', specUses cfg.size (us ++ .add names :: fs.map (Use.set (us.countP Use.isAdd))) (p, [])
        = .ok (match addOption q names with
          | (.ok (), q') => q'.edit q.opts.length (fun o => fs.foldl (fun o f => f o) o)
          | (_, q') => q', refs') := by
      rw [specUses_append, h2]
      simp only [specUses, Use.spec, hc, ← hlen]
      rcases hx : addOption q names with ⟨(f | f | f) | ⟨⟩, q'⟩ <;> rw [hx] at hc hl
      · cases hc
      · cases hc
      · cases hc
        exact ⟨_, hnone fs _⟩
      · cases hc
        exact ⟨_, hset fs _ hl⟩
    obtain ⟨refs', hspec⟩ := hspec
    rcases add_option_references hP hp (us := us ++ .add names :: fs.map (Use.set (us.countP Use.isAdd)))
      (hfit.mono (by simp; omega)) with ⟨st2, ab2, g1, g2, g3⟩ | ⟨f, -, g⟩
    · rw [hspec] at g2
      cases g2
      exact ⟨st2, q, g1, h3, g3⟩
    · rw [hspec] at g; cases g
  · rw [hrun] at h; cases h

example : ∃ st' q, runUses exPlat ([.add ["-a".toList]] ++ .add ["-b".toList] :: [fun o => { o with dest := "b".toList },
      fun o => { o with type := Typ.int }].map (Use.set 1)) (Stored.new (Parser.new 0), []) = .ok st' ∧
    st'.1.view = .ok q ∧ (q.opts.map Opt.dest) = [[], "b".toList] := by
  obtain ⟨st', q, h1, h2, h3⟩ := chained_setters_partial exPlatform (p := Parser.new 0) rfl (us := [.add ["-a".toList]])
    (names := ["-b".toList]) (fs := [fun o => { o with dest := "b".toList }, fun o => { o with type := Typ.int }])
    (by unfold Vector.Fits exPlat; decide) rfl
  refine ⟨st', _, h1, h3, ?_⟩
  have h2 : q = { Parser.new 0 with opts := [{ owner := 0, names := ["-a".toList] }], shorts := q.shorts } ∧
      q.shorts = upd (fun _ => none) "-a".toList (some 0) := by
    cases h2; exact ⟨rfl, rfl⟩
  rw [h2.1, h2.2]
  decide +kernel

/-- C116, violated: the reference the first registration returns cannot be used after the second
registration. -/
theorem kept_reference_violated {cfg : Vector.Cfg Opt} (hP : Platform cfg) {p : Parser} (hp : p.opts = []) {a b : List Text}
    {f : Opt → Opt} (ha : (addOption p a).1 = .ok ()) (hfit : Vector.Fits cfg 9) :
    runUses cfg [.add a, .add b, .set 0 f] (Stored.new p, []) = .error (.ub "dangling pointer dereferenced") := by
  have hspec : specUses cfg.size [.add a, .add b, .set 0 f] (p, []) = .error (.ub "dangling pointer dereferenced") := by
    obtain ⟨r, hc⟩ := addOption_caught p a
    have hr : r = some () := by
      rcases hx : addOption p a with ⟨x, p1⟩
      rw [hx] at ha hc
      simp only at ha
      subst ha
      cases hc; rfl
    subst hr
    obtain ⟨r2, hc2⟩ := addOption_caught (addOption p a).2 b
    have hl := addOption_length (addOption p a).2 b
    have hl1 := addOption_length p a
    rw [hp] at hl1
    simp only [List.length_nil] at hl1
    rw [hl1] at hl
    simp only [specUses, Use.spec, hc, hc2]
    simp only [Option.map_some, List.nil_append, List.cons_append, List.getElem?_cons_zero, hp, List.length_nil]
    rw [if_neg]
    rw [hl]
    have : room cfg.size 1 = 1 := rfl
    simp [this]
  rcases add_option_references hP hp (us := [.add a, .add b, .set 0 f]) hfit with ⟨_, ab, -, h, -⟩ | ⟨g, h1, h2⟩
  · rw [hspec] at h; cases h
  · rw [hspec] at h2; cases h2; exact h1

example : runUses exPlat [.add ["-n".toList, "--number".toList], .add ["-o".toList],
      .set 0 (fun o => { o with type := Typ.int })] (Stored.new (Parser.new 0), [])
    = .error (.ub "dangling pointer dereferenced") :=
  kept_reference_violated exPlatform rfl (by decide +kernel) (by unfold Vector.Fits exPlat; decide)

/-- C116: no reference can be kept for good: whatever the program has done, once enough options have
been registered using it is undefined. -/
theorem every_reference_dies_violated {cfg : Vector.Cfg Opt} (hP : Platform cfg) {p : Parser} (hp : p.opts = []) {us : List Use}
    {st : Stored × List (Option Ptr)} {k : Nat} {r : Ptr} {f : Opt → Opt} {names : List Text} (hfit0 : Vector.Fits cfg (3 * us.length))
    (hrun : runUses cfg us (Stored.new p, []) = .ok st) (hk : st.2[k]? = some (some r)) :
    ∃ m, m ≤ room cfg.size (3 * us.length) + 1 ∧ (Vector.Fits cfg (3 * (us.length + m + 1)) →
      runUses cfg (us ++ List.replicate m (.add names) ++ [.set k f]) (Stored.new p, [])
        = .error (.ub "dangling pointer dereferenced")) := by
  have hp' : ({ p with opts := [] } : Parser) = p := by rw [← hp]
  have hrel := related_new cfg p
  rw [hp'] at hrel
  rcases uses_sim hP us _ _ hrel (hfit0.mono (by simp [hp])) with ⟨st', ab, e1, e2, hr, hn⟩ | ⟨f, h, -⟩
  · rw [hrun] at e1
    cases e1
    have hm := hr.refs k
    rw [hk] at hm
    rcases hi : ab.2[k]? with _ | _ | i <;> rw [hi] at hm
    · exact hm.elim
    · exact hm.elim
    · have hadds : ∀ m (ab : Parser × List (Option Nat)), ab.2[k]? = some (some i) →
          ∃ ab', specUses cfg.size (List.replicate m (.add names)) ab = .ok ab' ∧ ab'.2[k]? = some (some i) ∧
            ab'.1.opts.length = ab.1.opts.length + m := by
        intro m
        induction m with
        | zero => intro ab h; exact ⟨ab, rfl, h, rfl⟩
        | succ m ih =>
          rintro ⟨q, refs⟩ h
          obtain ⟨r, hc⟩ := addOption_caught q names
          have hl := addOption_length q names
          have hlt : k < refs.length := (List.getElem?_eq_some_iff.1 h).1
          obtain ⟨ab', g1, g2, g3⟩ := ih ((addOption q names).2, refs ++ [r.map fun _ => q.opts.length])
            (by simp only at h ⊢; rw [List.getElem?_append_left hlt]; exact h)
          refine ⟨ab', ?_, g2, ?_⟩
          · simp only [List.replicate_succ, specUses, Use.spec, hc]
            exact g1
          · rw [g3]; simp only [hl]; omega
      have hm : RefOK cfg.size st.1.s ab.1.opts.length r i := hm
      have hmono := room_mono cfg.size (m := i + 1) (n := 3 * us.length)
        (by have := hm.lt; simp only [hp, List.length_nil] at hn; omega)
      refine ⟨room cfg.size (i + 1) + 1, by omega, fun hfit => ?_⟩
      obtain ⟨ab', g1, g2, g3⟩ := hadds (room cfg.size (i + 1) + 1) ab hi
      have hspec : specUses cfg.size (us ++ List.replicate (room cfg.size (i + 1) + 1) (.add names) ++ [.set k f]) (p, [])
          = .error (.ub "dangling pointer dereferenced") := by
        rw [specUses_append, specUses_append, e2]
        simp only [g1]
        obtain ⟨q, refs⟩ := ab'
        simp only at g2 g3
        simp only [specUses, Use.spec, g2]
        rw [if_neg (by rw [g3]; omega)]
      rcases add_option_references hP hp
        (us := us ++ List.replicate (room cfg.size (i + 1) + 1) (.add names) ++ [.set k f])
        (hfit.mono (by simp; omega)) with ⟨_, ab, -, h, -⟩ | ⟨g, h1, h2⟩
      · rw [hspec] at h; cases h
      · rw [hspec] at h2; cases h2; exact h1
  · rw [hrun] at h; cases h

example : ∃ m, m ≤ 9 ∧ (Vector.Fits exPlat (3 * (2 + m + 1)) →
    runUses exPlat ([.add ["-a".toList], .add ["-b".toList]] ++ List.replicate m (.add []) ++ [.set 1 id])
      (Stored.new (Parser.new 0), []) = .error (.ub "dangling pointer dereferenced")) := by
  rcases hx : runUses exPlat [.add ["-a".toList], .add ["-b".toList]] (Stored.new (Parser.new 0), []) with f | st
  · have : (runUses exPlat [.add ["-a".toList], .add ["-b".toList]] (Stored.new (Parser.new 0), [])).isOk = true := by
      decide +kernel
    rw [hx] at this
    cases this
  · have : (runUses exPlat [.add ["-a".toList], .add ["-b".toList]] (Stored.new (Parser.new 0), [])).toOption.map
      (fun st => st.2[1]?) = some (some (some ⟨some 1, 1⟩)) := by decide +kernel
    rw [hx] at this
    simp only [Except.toOption, Option.map_some, Option.some.injEq] at this
    exact every_reference_dies_violated exPlatform rfl (by unfold Vector.Fits exPlat; decide) hx this

end Verif.Opt
