import Verif.Opt.Handles

/-!
The parser with its options in memory refines the parser with a list of options
(`Verif.Opt.Model`), and where references lead after each operation.
-/

namespace Verif.Opt

open _root_.Verif.Vector (Ptr V VecOK Fresh Ok)

/-- How many options there is memory for after `n` registrations, `size` being `sizeof(Option)`. -/
def room (size : Nat) : Nat → Nat
  | 0 => 0
  | n + 1 =>
    if n < room size n then room size n
    else if room size n = 0 then 1
    else if room size n < 131072 / size then (3 * room size n + 1) / 2
    else 2 * room size n

/-- What is assumed of the platform: `sizeof(Option)` is at least 64 (it has six members of 24 bytes
or more) and at most 128 KiB, `Option` can be moved, and memory never runs out. -/
structure Platform (cfg : Vector.Cfg Opt) : Prop where
  lo : 64 ≤ cfg.size
  hi : cfg.size ≤ 131072
  kind : cfg.kind = .mov
  mem : ∀ k n, n < 2 ^ 63 → cfg.malloc k n = true

theorem Platform.good {cfg : Vector.Cfg Opt} (h : Platform cfg) : Vector.Good cfg :=
  ⟨by have := h.lo; omega, h.hi⟩

theorem room_ge (size : Nat) : ∀ n, n ≤ room size n
  | 0 => Nat.zero_le _
  | n + 1 => by
    have ih := room_ge size n
    unfold room
    split
    · omega
    · split
      · omega
      · split <;> omega

theorem room_mono_step (size n : Nat) : room size n ≤ room size (n + 1) := by
  have := room_ge size n
  conv => rhs; unfold room
  split
  · exact Nat.le_refl _
  · split
    · omega
    · split <;> omega

theorem room_mono (size : Nat) {m n : Nat} (h : m ≤ n) : room size m ≤ room size n := by
  induction n with
  | zero => rw [Nat.le_zero.1 h]; exact Nat.le_refl _
  | succ n ih =>
    by_cases e : m = n + 1
    · rw [e]; exact Nat.le_refl _
    · exact Nat.le_trans (ih (by omega)) (room_mono_step size n)

theorem room_grows (size n : Nat) (h : ¬ n < room size n) : room size n < room size (n + 1) := by
  have := room_ge size n
  conv => rhs; unfold room
  rw [if_neg h]
  split
  · omega
  · split <;> omega

/-- The vector grows as `room` says. -/
theorem room_next {cfg : Vector.Cfg Opt} (hP : Platform cfg) {n : Nat} (hn : ¬ n < room cfg.size n) (hf : Vector.Fits cfg n) :
    Vector.nextCapacity cfg (room cfg.size n) = room cfg.size (n + 1) := by
  have hge := room_ge cfg.size n
  have e : room cfg.size n = n := by
    cases n with
    | zero => rfl
    | succ m =>
      by_contra hne
      exact hn (by omega)
  have hlt := hf.lt_num hP.good
  have hlo := hP.lo
  have hq : 0 < 131072 / cfg.size := Nat.div_pos hP.hi (by omega)
  have hi : Vector.initCapacity cfg = 1 := by unfold Vector.initCapacity; rw [if_pos hlo]
  rw [show room cfg.size (n + 1) = if n < room cfg.size n then room cfg.size n
    else if room cfg.size n = 0 then 1
    else if room cfg.size n < 131072 / cfg.size then (3 * room cfg.size n + 1) / 2
    else 2 * room cfg.size n from rfl, if_neg hn, e]
  unfold Vector.nextCapacity
  rw [hi]
  by_cases h0 : n = 0
  · rw [if_neg (by omega), if_neg (by omega), if_pos h0]
  · rw [if_neg h0]
    by_cases h1 : n < 131072 / cfg.size
    · rw [if_pos ⟨h1, by omega⟩, if_pos h1, mul64_of_lt (by omega), add64_of_lt (by omega), Nat.mul_comm]
    · rw [if_neg (by omega), if_pos (by omega), if_neg h1, mul64_of_lt (by omega), Nat.mul_comm]

/-! ### The relation -/

/-- The options in memory are those of the list. -/
structure Rep (cfg : Vector.Cfg Opt) (q : Stored) (p : Parser) : Prop where
  rest : q.p = { p with opts := [] }
  opts : VecOK cfg q.s.mem q.s.this p.opts
  fresh : Fresh q.s.mem
  edge : q.s.this.edge = room cfg.size p.opts.length

/-- Where a reference to the option at position `i` leads when there are `n` options: to the option, if
the memory has not been exchanged since the option was registered; otherwise to freed memory. -/
structure RefOK (size : Nat) (s : Vector.S Opt) (n : Nat) (r : Ptr) (i : Nat) : Prop where
  lt : i < n
  good : room size (i + 1) = room size n → r = ⟨s.this.start, i⟩
  bad : room size (i + 1) ≠ room size n → ∃ b, r = ⟨some b, i⟩ ∧ s.mem.heap b = none ∧ b < s.mem.next

/-- References keep leading where they should. -/
def Carry (size : Nat) (s : Vector.S Opt) (n : Nat) (s' : Vector.S Opt) (n' : Nat) : Prop :=
  n ≤ n' ∧ ∀ r i, RefOK size s n r i → RefOK size s' n' r i

theorem Carry.refl (size : Nat) (s : Vector.S Opt) (n : Nat) : Carry size s n s n := ⟨Nat.le_refl _, fun _ _ h => h⟩

theorem Carry.trans {size : Nat} {s s' s'' : Vector.S Opt} {n n' n'' : Nat} (h : Carry size s n s' n')
    (h' : Carry size s' n' s'' n'') : Carry size s n s'' n'' :=
  ⟨Nat.le_trans h.1 h'.1, fun r i hr => h'.2 r i (h.2 r i hr)⟩

/-- An option is changed where it is. -/
theorem editAt_rep {cfg : Vector.Cfg Opt} {s : Vector.S Opt} {xs : List Opt} {i : Nat} {f : Opt → Opt}
    (hok : VecOK cfg s.mem s.this xs) (hf : Fresh s.mem) (hi : i < xs.length) :
    ∃ s', editAt ⟨s.this.start, i⟩ f s = (.ok (), s') ∧ VecOK cfg s'.mem s'.this (xs.set i (f xs[i])) ∧ Fresh s'.mem ∧
      s'.this = s.this ∧ ∀ size, Carry size s xs.length s' xs.length := by
  rcases hok with ⟨hv, rfl⟩ | ⟨b, B, hv, hB, hok⟩
  · simp at hi
  · have hle := hok.le
    have hst : s.this.start = some b := by rw [hv]
    have hl : Vector.load ⟨some b, i⟩ s = (.ok xs[i], s) :=
      Vector.load_ok hB (by omega) (by rw [hok.live i hi, Vector.cellOf_lt hi])
    have hbn : b < s.mem.next := by
      refine Nat.lt_of_not_le fun h => ?_
      rw [hf b h] at hB
      cases hB
    refine ⟨s.put b (B.set i (.live (f xs[i]))) 0 0 0, ?_, ?_, ?_, rfl, fun size => ⟨Nat.le_refl _, fun r j hr => ?_⟩⟩
    · unfold editAt
      rw [hst, Vector.bind_ok hl]
      exact Vector.writeCell_ok hB (by omega) _
    · refine .inr ⟨b, B.set i (.live (f xs[i])), ?_, Vector.put_same _ _ _ _ _, hok.set hi⟩
      rw [Vector.put_this, hv, List.length_set]
      rfl
    · intro b' hb'
      have : b' ≠ b := fun e => by rw [e] at hb'; exact absurd hb' (Nat.not_le.2 hbn)
      rw [Vector.put_other this]
      exact hf b' hb'
    · refine ⟨hr.lt, hr.good, fun h => ?_⟩
      obtain ⟨b', e, h1, h2⟩ := hr.bad h
      have : b' ≠ b := fun e => by rw [e, hB] at h1; cases h1
      exact ⟨b', e, by rw [Vector.put_other this]; exact h1, h2⟩

theorem modify_eq_set {xs : List Opt} {i : Nat} {f : Opt → Opt} (hi : i < xs.length) :
    xs.modify i f = xs.set i (f xs[i]) := by
  refine List.ext_getElem? fun j => ?_
  by_cases h : i = j
  · subst h; rw [List.getElem?_modify_eq, List.getElem?_set_self hi, List.getElem?_eq_getElem hi]; rfl
  · rw [List.getElem?_modify_ne _ _ h, List.getElem?_set_ne h]

theorem set_rep {cfg : Vector.Cfg Opt} {q : Stored} {p : Parser} {i : Nat} {f : Opt → Opt} (h : Rep cfg q p)
    (hi : i < p.opts.length) :
    ∃ q', q.set ⟨q.s.this.start, i⟩ f = (.ok (), q') ∧ Rep cfg q' (p.edit i f) ∧
      Carry cfg.size q.s p.opts.length q'.s (p.edit i f).opts.length := by
  obtain ⟨s', e, h1, h2, h3, h4⟩ := editAt_rep (f := f) h.opts h.fresh hi
  have hl : (p.edit i f).opts.length = p.opts.length := by simp [Parser.edit]
  refine ⟨⟨q.p, s'⟩, ?_, ⟨?_, ?_, h2, ?_⟩, ?_⟩
  · unfold Stored.set
    rw [e]
  · rw [h.rest]; rfl
  · show VecOK cfg s'.mem s'.this (p.opts.modify i f)
    rw [modify_eq_set hi]
    exact h1
  · rw [hl, h3]; exact h.edge
  · rw [hl]; exact h4 _

/-- A reference into memory that was freed cannot be used. -/
theorem set_dangling {q : Stored} {b i : Nat} {f : Opt → Opt} (h : q.s.mem.heap b = none) :
    q.set ⟨some b, i⟩ f = (.error (.ub "dangling pointer dereferenced"), q) := by
  unfold Stored.set editAt
  have := Vector.load_dangling (m := q.s.mem) (v := q.s.this) (k := i) h
  have e : (do let o ← Vector.load ⟨some b, i⟩; Vector.writeCell ⟨some b, i⟩ (.live (f o)) : V Opt Unit) q.s
      = (.error (.ub "dangling pointer dereferenced"), q.s) := by
    show V.bind _ _ _ = _
    simp only [V.bind, this]
  rw [e]

/-! ### Registration -/

theorem registerNames_opts (i : Nat) (L : List Opt) : ∀ (ns : List Text) (p : Parser),
    registerNames i ns { p with opts := L }
      = ((registerNames i ns p).1, { (registerNames i ns p).2 with opts := L }) := by
  intro ns
  induction ns with
  | nil => intro p; rfl
  | cons n ns ih =>
    intro p
    unfold registerNames
    cases kindOf p.pre p.longPre n with
    | short =>
      simp only
      split
      · rfl
      · exact ih { p with shorts := upd p.shorts n (some i) }
    | long =>
      simp only
      split
      · rfl
      · exact ih { p with longs := upd p.longs n (some i) }
    | invalid => rfl

theorem addOpt_rep {cfg : Vector.Cfg Opt} (hP : Platform cfg) {q : Stored} {p : Parser} {o : Opt} (h : Rep cfg q p)
    (hfit : Vector.Fits cfg (p.opts.length + 1)) :
    ∃ q', q.addOpt cfg o = ((addOpt p o).1.map fun _ => ⟨q'.s.this.start, p.opts.length⟩, q') ∧
      Rep cfg q' (addOpt p o).2 ∧ (addOpt p o).2.opts = p.opts ++ [o] ∧
      Carry cfg.size q.s p.opts.length q'.s (p.opts.length + 1) := by
  have hl : Vector.Lucky cfg q.s.mem := fun n hn => hP.mem _ n hn
  obtain ⟨⟨⟩, s', e, hp, hq⟩ := Vector.pushBack_ok (cfg := cfg) (s := q.s) (a := .ext o) (x := o) (safe := true) (e := true)
    hP.good (fun _ => rfl) h.fresh hl h.opts rfl (by simpa using hfit)
  have hfin : s'.this.fin = p.opts.length + 1 := by rw [hp.ok.fin_eq, List.length_append]; rfl
  have hfr := hp.fresh h.opts h.fresh
  have hreg := registerNames_opts p.opts.length (p.opts ++ [o]) o.names q.p
  have hpp : ({ q.p with opts := p.opts ++ [o] } : Parser) = { p with opts := p.opts ++ [o] } := by rw [h.rest]
  rw [hpp] at hreg
  have ho : (addOpt p o).2.opts = p.opts ++ [o] := by unfold addOpt; rw [hreg]
  refine ⟨⟨(registerNames p.opts.length o.names q.p).2, s'⟩, ?_, ⟨?_, ?_, hfr, ?_⟩, ho, Nat.le_succ _, fun r i hr => ?_⟩
  · unfold Stored.addOpt addOpt
    have e' : Vector.pushBack cfg true true (.ext o) q.s = (.ok (), s') := e
    rw [e', hreg]
    simp only [hfin, Nat.add_sub_cancel]
    rcases hx : registerNames p.opts.length o.names q.p with ⟨_ | _, p1⟩ <;> rfl
  · unfold addOpt
    rw [hreg]
    have := registerNames_same p.opts.length o.names q.p
    have h0 : (registerNames p.opts.length o.names q.p).2.opts = [] := by rw [this, h.rest]
    show (registerNames p.opts.length o.names q.p).2 = { (registerNames p.opts.length o.names q.p).2 with opts := [] }
    conv => rhs; rw [← h0]
  · rw [ho]; exact hp.ok
  · rw [ho, List.length_append]
    show s'.this.edge = room cfg.size (p.opts.length + 1)
    by_cases hlt : p.opts.length < q.s.this.edge
    · rw [if_pos hlt] at hq
      rw [hq.2.1, h.edge]
      rw [h.edge] at hlt
      conv => rhs; unfold room
      rw [if_pos hlt]
    · rw [if_neg hlt] at hq
      rw [hq.1, h.edge]
      rw [h.edge] at hlt
      exact room_next hP hlt (hfit.mono (by omega))
  · refine ⟨by have := hr.lt; omega, fun hg => ?_, fun hb => ?_⟩
    · by_cases hlt : p.opts.length < q.s.this.edge
      · rw [if_pos hlt] at hq
        rw [h.edge] at hlt
        have e2 : room cfg.size (p.opts.length + 1) = room cfg.size p.opts.length := by
          conv => lhs; unfold room
          rw [if_pos hlt]
        rw [hr.good (by rw [hg, e2])]
        show (_ : Ptr) = ⟨s'.this.start, i⟩
        rw [hq.1]
      · rw [h.edge] at hlt
        have h1 := room_grows cfg.size p.opts.length hlt
        have h2 := room_mono cfg.size (m := i + 1) (n := p.opts.length) hr.lt
        omega
    · by_cases hold : room cfg.size (i + 1) = room cfg.size p.opts.length
      · have hlt : ¬ p.opts.length < q.s.this.edge := by
          intro hlt
          rw [h.edge] at hlt
          refine hb (hold.trans ?_)
          conv => rhs; unfold room
          rw [if_pos hlt]
        rw [if_neg hlt] at hq
        rw [hr.good hold]
        have hi := hr.lt
        rcases hok : h.opts with ⟨hv, hnil⟩ | ⟨b, B, hv, hB, -⟩
        · rw [hnil] at hi; simp at hi
        · have hst : q.s.this.start = some b := by rw [hv]
          have hbn := h.opts.start_lt h.fresh hst
          refine ⟨b, by rw [hst], ?_, Nat.lt_of_lt_of_le hbn hp.next⟩
          rcases hp.start with g | ⟨g, -⟩
          · rw [hq.2.2, hst] at g
            simp only [Option.some.injEq] at g
            omega
          · exact g b hst
      · obtain ⟨b, er, hnone, hbn⟩ := hr.bad hold
        refine ⟨b, er, ?_, Nat.lt_of_lt_of_le hbn hp.next⟩
        have h1 : q.s.this.start ≠ some b := by
          intro hst
          rcases h.opts with ⟨hv, hnil⟩ | ⟨b', B, hv, hB, -⟩
          · rw [hv] at hst; cases hst
          · rw [hv] at hst
            simp only [Option.some.injEq] at hst
            rw [hst, hnone] at hB
            cases hB
        have h2 : s'.this.start ≠ some b := by
          intro hst
          rcases hp.start with g | ⟨-, g⟩
          · exact h1 (by rw [← g, hst])
          · have := (g b hst).1
            omega
        show s'.mem.heap b = none
        rw [hp.frame b h1 h2]
        exact hnone

theorem addOption_rep {cfg : Vector.Cfg Opt} (hP : Platform cfg) {q : Stored} {p : Parser} {ns : List Text} (h : Rep cfg q p)
    (hfit : Vector.Fits cfg (p.opts.length + 1)) :
    ∃ q', q.addOption cfg ns = ((addOption p ns).1.map fun _ => ⟨q'.s.this.start, p.opts.length⟩, q') ∧
      Rep cfg q' (addOption p ns).2 ∧ (addOption p ns).2.opts.length = p.opts.length + 1 ∧
      Carry cfg.size q.s p.opts.length q'.s (p.opts.length + 1) := by
  have hid : q.p.id = p.id := by rw [h.rest]
  obtain ⟨q', h1, h2, h3, h4⟩ := addOpt_rep (o := { owner := p.id, names := ns }) hP h hfit
  refine ⟨q', ?_, h2, ?_, h4⟩
  · unfold Stored.addOption addOption
    rw [hid]
    exact h1
  · unfold addOption
    rw [h3]; simp

/-! ### The flags -/

/-- A call on the parser in memory does what the call on the parser with a list does. -/
def Sim (cfg : Vector.Cfg Opt) (q : Stored) (p : Parser) (k : Nat) (x : Except Fault Unit × Stored)
    (y : Except Fault Unit × Parser) : Prop :=
  x.1 = y.1 ∧ Rep cfg x.2 y.2 ∧ Carry cfg.size q.s p.opts.length x.2.s y.2.opts.length ∧
    y.2.opts.length ≤ p.opts.length + k

theorem addFlag_sim {cfg : Vector.Cfg Opt} (hP : Platform cfg) {q : Stored} {p : Parser} {c : Char} {name help : Text}
    (h : Rep cfg q p) (hfit : Vector.Fits cfg (p.opts.length + 1)) :
    Sim cfg q p 1 (q.addFlag cfg c name help) (addFlag p c name help) := by
  have h1 : q.p.pre = p.pre := by rw [h.rest]
  have h2 : q.p.longPre = p.longPre := by rw [h.rest]
  have h3 : q.p.shorts = p.shorts := by rw [h.rest]
  have h4 : q.p.longs = p.longs := by rw [h.rest]
  unfold Stored.addFlag addFlag
  simp only [h1, h2, h3, h4]
  by_cases hc : (p.shorts [p.pre, c]).isNone = true ∧ (p.longs (p.longPre ++ name)).isNone = true
  · rw [if_pos hc, if_pos hc]
    obtain ⟨q', e, hR, hl, hC⟩ := addOption_rep (ns := [[p.pre, c], p.longPre ++ name]) hP h hfit
    rw [e]
    rcases hx : addOption p [[p.pre, c], p.longPre ++ name] with ⟨f | ⟨⟩, p1⟩
    · rw [hx] at hR hl
      exact ⟨rfl, hR, by simp only at hl ⊢; rw [hl]; exact hC, by simp only at hl ⊢; omega⟩
    · rw [hx] at hR hl
      simp only at hl
      obtain ⟨q2, e2, hR2, hC2⟩ := set_rep (i := p.opts.length)
        (f := fun o => { o with dest := name, action := .storeTrue, type := .bool, help := help }) hR (by simp only; omega)
      simp only [Except.map]
      rw [e2]
      have el : p1.opts.length - 1 = p.opts.length := by omega
      rw [el]
      have el2 : ((p1.edit p.opts.length fun o => { o with dest := name, action := .storeTrue, type := .bool, help := help })).opts.length
        = p1.opts.length := by simp [Parser.edit]
      refine ⟨rfl, hR2, ?_, by rw [el2]; omega⟩
      refine Carry.trans ?_ hC2
      simp only
      rw [hl]; exact hC
  · rw [if_neg hc, if_neg hc]
    exact ⟨rfl, h, Carry.refl _ _ _, Nat.le_succ _⟩

theorem addUsage_sim {cfg : Vector.Cfg Opt} (hP : Platform cfg) {q : Stored} {p : Parser} {m : Text}
    (h : Rep cfg q p) (hfit : Vector.Fits cfg (p.opts.length + 1)) : Sim cfg q p 1 (q.addUsage cfg m) (addUsage p m) := by
  have hp : q.p.program = p.program := by rw [h.rest]
  unfold Stored.addUsage addUsage
  rw [hp]
  exact addFlag_sim hP h hfit

theorem addHelp_sim {cfg : Vector.Cfg Opt} (hP : Platform cfg) {q : Stored} {p : Parser} {m : Text}
    (h : Rep cfg q p) (hfit : Vector.Fits cfg (p.opts.length + 1)) : Sim cfg q p 1 (q.addHelp cfg m) (addHelp p m) := by
  have hp : q.p.program = p.program := by rw [h.rest]
  unfold Stored.addHelp addHelp
  rw [hp]
  exact addFlag_sim hP h hfit

theorem addVersion_sim {cfg : Vector.Cfg Opt} (hP : Platform cfg) {q : Stored} {p : Parser} {m : Text}
    (h : Rep cfg q p) (hfit : Vector.Fits cfg (p.opts.length + 1)) : Sim cfg q p 1 (q.addVersion cfg m) (addVersion p m) := by
  have hp : q.p.program = p.program := by rw [h.rest]
  unfold Stored.addVersion addVersion
  rw [hp]
  have h' : Rep cfg ⟨{ q.p with version := m }, q.s⟩ { p with version := m } :=
    ⟨by simp only; rw [h.rest], h.opts, h.fresh, h.edge⟩
  exact addFlag_sim hP h' hfit

theorem Sim.fits {cfg : Vector.Cfg Opt} {q : Stored} {p : Parser} {k n : Nat} {x : Except Fault Unit × Stored}
    {y : Except Fault Unit × Parser} (h : Sim cfg q p k x y) (hfit : Vector.Fits cfg (p.opts.length + k + n)) :
    Vector.Fits cfg (y.2.opts.length + n) :=
  hfit.mono (by have := h.2.2.2; omega)

theorem addFlags_sim {cfg : Vector.Cfg Opt} (hP : Platform cfg) {q : Stored} {p : Parser}
    (h : Rep cfg q p) (hfit : Vector.Fits cfg (p.opts.length + 3)) : Sim cfg q p 3 (q.addFlags cfg) (addFlags p) := by
  have s1 := addUsage_sim (m := []) hP h (hfit.mono (by omega))
  have f1 := s1.fits (n := 2) hfit
  unfold Stored.addFlags addFlags
  rcases hx : q.addUsage cfg [] with ⟨r, q1⟩
  rcases hy : addUsage p [] with ⟨r', p1⟩
  rw [hx, hy] at s1
  rw [hy] at f1
  obtain ⟨e1, R1, C1, L1⟩ := s1
  simp only at e1 R1 C1 L1 f1
  subst e1
  rcases r with f | ⟨⟩
  · exact ⟨rfl, R1, C1, by simp only; omega⟩
  · simp only
    have s2 := addHelp_sim (m := []) hP R1 (f1.mono (by omega))
    have f2 := s2.fits (n := 1) f1
    rcases hx2 : q1.addHelp cfg [] with ⟨r2, q2⟩
    rcases hy2 : addHelp p1 [] with ⟨r2', p2⟩
    rw [hx2, hy2] at s2
    rw [hy2] at f2
    obtain ⟨e2, R2, C2, L2⟩ := s2
    simp only at e2 R2 C2 L2 f2
    subst e2
    rcases r2 with f | ⟨⟩
    · exact ⟨rfl, R2, C1.trans C2, by simp only; omega⟩
    · simp only
      obtain ⟨e3, R3, C3, L3⟩ := addVersion_sim (m := []) hP R2 f2
      exact ⟨e3, R3, (C1.trans C2).trans C3, by omega⟩

/-! ### Validation -/

theorem validate_opts (env : Env) (p : Parser) (L : List Opt) (o : Opt) :
    validate env { p with opts := L } o = validate env p o := rfl

theorem validateFrom_rep {cfg : Vector.Cfg Opt} {env : Env} {p : Parser} : ∀ (os done : List Opt) (s : Vector.S Opt),
    VecOK cfg s.mem s.this (done ++ os) → Fresh s.mem →
    ∃ s', validateFrom env p done.length os.length s = ((validateAll env p os done).1, s') ∧
      VecOK cfg s'.mem s'.this (validateAll env p os done).2 ∧ Fresh s'.mem ∧ s'.this = s.this ∧
      (validateAll env p os done).2.length = done.length + os.length ∧
      ∀ size, Carry size s (done.length + os.length) s' (done.length + os.length)
  | [], done, s, hok, hf => by
    simp only [List.append_nil] at hok
    exact ⟨s, rfl, hok, hf, rfl, by simp [validateAll], fun _ => Carry.refl _ _ _⟩
  | o :: os, done, s, hok, hf => by
    have hi : done.length < (done ++ o :: os).length := by simp
    have hget : (done ++ o :: os)[done.length] = o := by simp
    have hlen : (done ++ o :: os).length = done.length + (os.length + 1) := by simp
    -- reading the option
    have hload : ∀ f : Opt → Opt, ∃ s', Vector.load ⟨s.this.start, done.length⟩ s = (.ok o, s) ∧
        Vector.writeCell ⟨s.this.start, done.length⟩ (.live (f o)) s = (.ok (), s') ∧
        VecOK cfg s'.mem s'.this (done ++ f o :: os) ∧ Fresh s'.mem ∧ s'.this = s.this ∧
        ∀ size, Carry size s (done.length + (os.length + 1)) s' (done.length + (os.length + 1)) := by
      intro f
      obtain ⟨s', e, h1, h2, h3, h4⟩ := editAt_rep (f := f) hok hf hi
      have hl : Vector.load ⟨s.this.start, done.length⟩ s = (.ok o, s) := by
        rcases hok with ⟨hv, hnil⟩ | ⟨b, B, hv, hB, hk⟩
        · simp at hnil
        · have hst : s.this.start = some b := by rw [hv]
          have := hk.le
          rw [hst]
          exact Vector.load_ok hB (by omega) (by rw [hk.live _ hi, Vector.cellOf_lt hi, hget])
      refine ⟨s', hl, ?_, ?_, h2, h3, fun size => by rw [← hlen]; exact h4 size⟩
      · unfold editAt at e
        rw [Vector.bind_ok hl] at e
        exact e
      · rw [hget] at h1
        have : (done ++ o :: os).set done.length (f o) = done ++ f o :: os := by simp
        rw [this] at h1
        exact h1
    have hthis : Vector.this s = (.ok s.this, s) := rfl
    rw [List.length_cons]
    unfold validateAll
    cases hv : validate env p o with
    | error f =>
      obtain ⟨_, hl, -⟩ := hload id
      refine ⟨s, ?_, hok, hf, rfl, by simp, fun _ => Carry.refl _ _ _⟩
      rw [validateFrom, Vector.bind_ok hthis]
      simp only [Vector.Vec.ptr]
      rw [Vector.bind_ok hl, hv]
      rfl
    | ok bo =>
      obtain ⟨b, o'⟩ := bo
      obtain ⟨s1, hl, hw, hok1, hf1, ht1, hC1⟩ := hload (fun _ => o')
      have hrun : validateFrom env p done.length (os.length + 1) s
          = (if b then validateFrom env p (done.length + 1) os.length
            else if o'.names.isEmpty then V.ub "front of an empty vector"
            else V.fail (.throw "incomplete option")) s1 := by
        rw [validateFrom, Vector.bind_ok hthis]
        simp only [Vector.Vec.ptr]
        rw [Vector.bind_ok hl, hv]
        simp only
        rw [Vector.bind_ok hw]
      rw [hrun]
      cases b with
      | false =>
        simp only [Bool.false_eq_true, if_false]
        by_cases hn : o'.names.isEmpty = true
        · rw [if_pos hn, if_pos hn]
          exact ⟨s1, rfl, hok1, hf1, ht1, by simp, hC1⟩
        · rw [if_neg hn, if_neg hn]
          exact ⟨s1, rfl, hok1, hf1, ht1, by simp, hC1⟩
      | true =>
        simp only [if_true]
        obtain ⟨s2, e2, h1, h2, h3, h4, h5⟩ := validateFrom_rep os (done ++ [o']) s1
          (by rw [List.append_assoc]; exact hok1) hf1
        rw [List.length_append, List.length_singleton] at e2 h4 h5
        refine ⟨s2, e2, h1, h2, h3.trans ht1, by rw [h4]; omega, fun size => (hC1 size).trans ?_⟩
        have := h5 size
        rw [show done.length + (os.length + 1) = done.length + 1 + os.length by omega]
        exact this

theorem prepare_sim {cfg : Vector.Cfg Opt} (hP : Platform cfg) {env : Env} {q : Stored} {p : Parser}
    (h : Rep cfg q p) (hfit : Vector.Fits cfg (p.opts.length + 3)) : Sim cfg q p 3 (q.prepare cfg env) (prepare env p) := by
  have hval : ∀ os done, validateAll env { p with invalid := [] } os done
      = validateAll env { q.p with invalid := [] } os done := by
    intro os
    induction os with
    | nil => intro done; rfl
    | cons o os ih =>
      intro done
      unfold validateAll
      rw [show validate env { p with invalid := [] } o = validate env { q.p with invalid := [] } o by rw [h.rest]; rfl]
      split
      · rfl
      · exact ih _
      · rfl
  obtain ⟨s', e, h1, h2, h3, h4, h5⟩ := validateFrom_rep (env := env) (p := { q.p with invalid := [] }) p.opts [] q.s h.opts h.fresh
  simp only [List.length_nil, Nat.zero_add] at e h4 h5
  unfold Stored.prepare prepare
  simp only
  rw [h.opts.fin_eq, e, hval]
  rcases hx : validateAll env { q.p with invalid := [] } p.opts [] with ⟨r, os⟩
  rw [hx] at h1 h4
  simp only at h1 h4
  have hR : Rep cfg ⟨{ q.p with invalid := [] }, s'⟩ { p with invalid := [], opts := os } :=
    ⟨by simp only; rw [h.rest], h1, h2, by simp only; rw [h3, h4]; exact h.edge⟩
  have hC : Carry cfg.size q.s p.opts.length s' os.length := by rw [h4]; exact h5 _
  rcases r with f | ⟨⟩
  · exact ⟨rfl, hR, hC, by simp only; omega⟩
  · simp only
    obtain ⟨g1, g2, g3, g4⟩ := addFlags_sim hP hR (by simp only; rw [h4]; exact hfit)
    exact ⟨g1, g2, hC.trans g3, by simp only at g4; omega⟩

end Verif.Opt
