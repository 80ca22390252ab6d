import Verif.Vector.Model
import Mathlib.Tactic.SplitIfs
import Mathlib.Tactic.Set

/-!
The effect of the primitives and helper loops of the vector model.
-/

namespace Verif.Vector

open V

variable {α β γ : Type} {cfg : Cfg α} {s : S α}

/-! ### Running actions -/

/-- The action succeeds with a result and a state satisfying `Q`. -/
def Ok (x : V α β) (s : S α) (Q : β → S α → Prop) : Prop := ∃ b s', x s = (.ok b, s') ∧ Q b s'

theorem Ok.intro {x : V α β} {b : β} {s' : S α} {Q : β → S α → Prop} (h : x s = (.ok b, s')) (hq : Q b s') :
    Ok x s Q := ⟨b, s', h, hq⟩

theorem Ok.mono {x : V α β} {Q R : β → S α → Prop} (h : Ok x s Q) (hq : ∀ b s', Q b s' → R b s') : Ok x s R := by
  obtain ⟨b, s', h1, h2⟩ := h
  exact ⟨b, s', h1, hq b s' h2⟩

theorem bind_apply (x : V α β) (f : β → V α γ) (s : S α) :
    (x >>= f) s = match x s with
      | (.ok b, s') => f b s'
      | (.error e, s') => (.error e, s') := rfl

theorem bind_ok {x : V α β} {f : β → V α γ} {b : β} {s' : S α} (h : x s = (.ok b, s')) :
    (x >>= f) s = f b s' := by rw [bind_apply, h]

theorem bind_err {x : V α β} {f : β → V α γ} {e : Fault} {s' : S α} (h : x s = (.error e, s')) :
    (x >>= f) s = (.error e, s') := by rw [bind_apply, h]

@[simp] theorem pure_apply (b : β) (s : S α) : (pure b : V α β) s = (.ok b, s) := rfl

theorem Ok.bind {x : V α β} {f : β → V α γ} {Q : γ → S α → Prop}
    (h : Ok x s (fun b s' => Ok (f b) s' Q)) : Ok (x >>= f) s Q := by
  obtain ⟨b, s', h1, h2⟩ := h
  unfold Ok at h2 ⊢
  rw [bind_ok h1]
  exact h2

theorem Ok.step {x : V α β} {f : β → V α γ} {Q : γ → S α → Prop} {b : β} {s' : S α} (h : x s = (.ok b, s'))
    (hq : Ok (f b) s' Q) : Ok (x >>= f) s Q := Ok.bind ⟨b, s', h, hq⟩

theorem Ok.ret {b : β} {Q : β → S α → Prop} (h : Q b s) : Ok (pure b : V α β) s Q := ⟨b, s, rfl, h⟩

theorem assert_true {c : Bool} (h : c = true) (msg : String) : assert cfg c msg s = (.ok (), s) := by
  subst h; unfold assert; simp

theorem doIf_pos {c : Bool} (h : c = true) (x : V α Unit) : doIf c x = x := if_pos h
theorem doIf_neg {c : Bool} (h : c = false) (x : V α Unit) : doIf c x = pure () := if_neg (by simp [h])

theorem this_apply (s : S α) : (this : V α Vec) s = (.ok s.this, s) := rfl

theorem setThis_apply (v : Vec) (s : S α) : setThis v s = (.ok (), { s with this := v }) := rfl

theorem count_apply (c d m r : Nat) (s : S α) : count c d m r s = (.ok (), { s with mem := { s.mem with
    ctors := s.mem.ctors + c, dtors := s.mem.dtors + d, moves := s.mem.moves + m, relocs := s.mem.relocs + r } }) := rfl

/-! ### Blocks -/

/-- The state with one block replaced and the counters advanced. -/
def S.put (s : S α) (b : Nat) (B : Block α) (c d m : Nat) : S α :=
  { s with mem := { s.mem with heap := upd s.mem.heap b (some B), ctors := s.mem.ctors + c,
                                dtors := s.mem.dtors + d, moves := s.mem.moves + m } }

@[simp] theorem put_this (b : Nat) (B : Block α) (c d m : Nat) : (s.put b B c d m).this = s.this := rfl
@[simp] theorem put_next (b : Nat) (B : Block α) (c d m : Nat) : (s.put b B c d m).mem.next = s.mem.next := rfl
@[simp] theorem put_relocs (b : Nat) (B : Block α) (c d m : Nat) :
    (s.put b B c d m).mem.relocs = s.mem.relocs := rfl
@[simp] theorem put_ctors (b : Nat) (B : Block α) (c d m : Nat) :
    (s.put b B c d m).mem.ctors = s.mem.ctors + c := rfl
@[simp] theorem put_dtors (b : Nat) (B : Block α) (c d m : Nat) :
    (s.put b B c d m).mem.dtors = s.mem.dtors + d := rfl
@[simp] theorem put_moves (b : Nat) (B : Block α) (c d m : Nat) :
    (s.put b B c d m).mem.moves = s.mem.moves + m := rfl

@[simp] theorem put_same (b : Nat) (B : Block α) (c d m : Nat) : (s.put b B c d m).mem.heap b = some B := by
  simp [S.put, upd]

theorem put_other {b b' : Nat} (h : b' ≠ b) (B : Block α) (c d m : Nat) :
    (s.put b B c d m).mem.heap b' = s.mem.heap b' := by
  simp [S.put, upd, h]

theorem upd_upd (h : Nat → Option (Block α)) (b : Nat) (x y : Option (Block α)) :
    upd (upd h b x) b y = upd h b y := by
  funext i; unfold upd; split <;> rfl

theorem upd_self {h : Nat → Option (Block α)} {b : Nat} {x : Option (Block α)} (e : h b = x) : upd h b x = h := by
  funext i; unfold upd; split
  · rename_i hi; rw [hi, e]
  · rfl

theorem upd_comm (h : Nat → Option (Block α)) {b b' : Nat} (hb : b ≠ b') (x y : Option (Block α)) :
    upd (upd h b x) b' y = upd (upd h b' y) b x := by
  funext i; unfold upd; split_ifs <;> simp_all

@[simp] theorem put_put (b : Nat) (B B' : Block α) (c d m c' d' m' : Nat) :
    (s.put b B c d m).put b B' c' d' m' = s.put b B' (c + c') (d + d') (m + m') := by
  simp [S.put, upd_upd, Nat.add_assoc]

theorem put_self {b : Nat} {B : Block α} (h : s.mem.heap b = some B) : s.put b B 0 0 0 = s := by
  simp [S.put, upd_self h]

@[simp] theorem set_len (B : Block α) (i : Nat) (c : Cell α) : (B.set i c).len = B.len := rfl

theorem set_cell (B : Block α) (i j : Nat) (c : Cell α) :
    (B.set i c).cell j = if j = i then c else B.cell j := rfl

theorem Block.ext' {B B' : Block α} (h1 : B.len = B'.len) (h2 : ∀ i, B.cell i = B'.cell i) : B = B' := by
  obtain ⟨l, c⟩ := B
  obtain ⟨l', c'⟩ := B'
  simp only at h1 h2
  rw [h1, funext h2]

/-! ### Primitives -/

theorem readCell_ok {b i : Nat} {B : Block α} (hb : s.mem.heap b = some B) (hi : i < B.len) :
    readCell ⟨some b, i⟩ s = (.ok (B.cell i), s) := by
  simp [readCell, hb, hi]

theorem writeCell_ok {b i : Nat} {B : Block α} (hb : s.mem.heap b = some B) (hi : i < B.len) (c : Cell α) :
    writeCell ⟨some b, i⟩ c s = (.ok (), s.put b (B.set i c) 0 0 0) := by
  simp [writeCell, hb, hi, S.put]

theorem load_ok {b i : Nat} {B : Block α} {v : α} (hb : s.mem.heap b = some B) (hi : i < B.len)
    (hc : B.cell i = .live v) : load ⟨some b, i⟩ s = (.ok v, s) := by
  unfold load
  rw [bind_ok (readCell_ok hb hi), hc]
  rfl

theorem constructAt_ok {b i : Nat} {B : Block α} (hb : s.mem.heap b = some B) (hi : i < B.len) (v : α) :
    constructAt ⟨some b, i⟩ v s = (.ok (), s.put b (B.set i (.live v)) 1 0 0) := by
  unfold constructAt
  rw [bind_ok (writeCell_ok hb hi _), count_apply]
  simp [S.put]

theorem destroyPtr_ok {b i : Nat} {B : Block α} (hk : cfg.kind ≠ .triv) (hb : s.mem.heap b = some B)
    (hi : i < B.len) (hc : (B.cell i).empty cfg.strict = false) :
    destroyPtr cfg ⟨some b, i⟩ s = (.ok (), s.put b (B.set i .raw) 0 1 0) := by
  have h : destroyPtr cfg ⟨some b, i⟩ = (do
      let c ← readCell ⟨some b, i⟩
      if c.empty cfg.strict then ub "destructor of an element that does not live" else do
        writeCell ⟨some b, i⟩ .raw
        count 0 1 0 0) := by
    unfold destroyPtr
    cases hk' : cfg.kind <;> first | exact absurd hk' hk | rfl
  rw [h, bind_ok (readCell_ok hb hi), hc]
  simp only [Bool.false_eq_true, if_false]
  rw [bind_ok (writeCell_ok hb hi _), count_apply]; simp [S.put]

theorem destroyPtr_triv (hk : cfg.kind = .triv) (p : Ptr) : destroyPtr cfg p s = (.ok (), s) := by
  unfold destroyPtr; rw [hk]; rfl

theorem assignTo_triv {b i : Nat} {B : Block α} (hk : cfg.kind = .triv) (hb : s.mem.heap b = some B)
    (hi : i < B.len) (v : α) :
    assignTo cfg ⟨some b, i⟩ v s = (.ok (), s.put b (B.set i (.live v)) 0 0 0) := by
  unfold assignTo; rw [hk]; exact writeCell_ok hb hi _

theorem free_ok {b : Nat} {B : Block α} (hb : s.mem.heap b = some B) :
    free (some b) s = (.ok (), { s with mem := { s.mem with heap := upd s.mem.heap b none } }) := by
  simp [free, hb]

theorem free_null : free none s = (.ok (), s) := rfl

theorem malloc_ok {n : Nat} (h : cfg.malloc s.mem.next (mul64 n cfg.size) = true) :
    malloc cfg n s = (.ok (some s.mem.next), { s with mem := { s.mem with
      heap := upd s.mem.heap s.mem.next (some ⟨mul64 n cfg.size / cfg.size, fun _ => .raw⟩),
      next := s.mem.next + 1 } }) := by
  simp [malloc, h]

/-! ### Ranges -/

/-- What a moved element leaves behind. -/
def hole : Kind → Cell α → Cell α
  | .mov, _ => .moved
  | .cpy, _ => .raw
  | _, c => c

/-- `n` cells moved from `src` to `dst` inside one block. -/
def shift (k : Kind) (B : Block α) (dst src n : Nat) : Block α :=
  { B with cell := fun i =>
      if dst ≤ i ∧ i < dst + n then B.cell (i - dst + src)
      else if src ≤ i ∧ i < src + n then hole k (B.cell i)
      else B.cell i }

/-- `n` cells overwritten from `dst` on. -/
def over (B : Block α) (dst n : Nat) (f : Nat → Cell α) : Block α :=
  { B with cell := fun i => if dst ≤ i ∧ i < dst + n then f (i - dst) else B.cell i }

@[simp] theorem shift_len (k : Kind) (B : Block α) (dst src n : Nat) : (shift k B dst src n).len = B.len := rfl
@[simp] theorem over_len (B : Block α) (dst n : Nat) (f : Nat → Cell α) : (over B dst n f).len = B.len := rfl

/-- All cells of a range live. -/
def LiveOn (B : Block α) (i n : Nat) : Prop := ∀ j, i ≤ j → j < i + n → ∃ v, B.cell j = .live v

/-- Constructions, destructions and moves done by moving `n` elements in a loop. -/
def movC : Kind → Nat → Nat
  | .mov, n | .cpy, n => n
  | _, _ => 0
/-- Destructions. -/
def movD : Kind → Nat → Nat
  | .cpy, n => n
  | _, _ => 0
/-- Moves. -/
def movM : Kind → Nat → Nat
  | .mov, n => n
  | _, _ => 0

/-- `mov` or `cpy`. -/
def Kind.loops (k : Kind) : Prop := k = .mov ∨ k = .cpy

theorem loops_not_triv {k : Kind} (h : k.loops) : k ≠ .triv := by rcases h with rfl | rfl <;> simp
theorem loops_relocatable {k : Kind} (h : k.loops) : k.relocatable = false := by rcases h with rfl | rfl <;> rfl

theorem movC_succ {k : Kind} (h : k.loops) (n : Nat) : movC k (n + 1) = 1 + movC k n := by
  rcases h with rfl | rfl <;> simp [movC, Nat.add_comm]

theorem moveOne_ok {b dst src : Nat} {B : Block α} {v : α} (hk : cfg.kind.loops) (hb : s.mem.heap b = some B)
    (hd : dst < B.len) (hs : src < B.len) (hc : B.cell src = .live v) (hne : dst ≠ src) :
    moveOne cfg ⟨some b, dst⟩ ⟨some b, src⟩ s = (.ok (), s.put b
      ((B.set dst (.live v)).set src (hole cfg.kind (.live v))) (movC cfg.kind 1) (movD cfg.kind 1) (movM cfg.kind 1)) := by
  unfold moveOne
  rw [bind_ok (load_ok hb hs hc)]
  rcases hk with hk | hk
  · simp only [hk]
    rw [bind_ok (constructAt_ok hb hd v), bind_ok (writeCell_ok (put_same _ _ _ _ _) (by simpa using hs) _), count_apply]
    simp [S.put, hole, movC, movD, movM, upd_upd]
  · have hr : ((B.set dst (.live v)).cell src).empty cfg.strict = false := by
      rw [set_cell, if_neg (fun h => hne h.symm), hc]; rfl
    simp only [hk]
    rw [bind_ok (constructAt_ok hb hd v), destroyPtr_ok (by rw [hk]; simp) (put_same _ _ _ _ _) (by simpa using hs) hr]
    simp [hole, movC, movD, movM]

theorem moveLoopFwd_ok {b dst src n : Nat} {B : Block α} (hk : cfg.kind.loops) (hb : s.mem.heap b = some B)
    (hd : dst + n ≤ B.len) (hs : src + n ≤ B.len) (hl : LiveOn B src n) (hne : dst < src ∨ src + n ≤ dst) :
    moveLoopFwd cfg ⟨some b, dst⟩ ⟨some b, src⟩ n s = (.ok (), s.put b (shift cfg.kind B dst src n)
      (movC cfg.kind n) (movD cfg.kind n) (movM cfg.kind n)) := by
  induction n generalizing dst src B s with
  | zero =>
    have : shift cfg.kind B dst src 0 = B := by
      refine Block.ext' rfl (fun i => ?_)
      simp only [shift]
      rw [if_neg (by omega), if_neg (by omega)]
    rw [this]
    have : movC cfg.kind 0 = 0 ∧ movD cfg.kind 0 = 0 ∧ movM cfg.kind 0 = 0 := by
      cases cfg.kind <;> simp [movC, movD, movM]
    rw [this.1, this.2.1, this.2.2, put_self hb]
    rfl
  | succ n ih =>
    obtain ⟨v, hv⟩ := hl src (Nat.le_refl _) (by omega)
    simp only [moveLoopFwd]
    rw [bind_ok (moveOne_ok hk hb (by omega) (by omega) hv (by omega))]
    simp only [Ptr.add]
    rw [ih (put_same _ _ _ _ _) (by simp; omega) (by simp; omega) ?_ (by omega)]
    · rw [put_put]
      congr 2
      · refine Block.ext' rfl (fun i => ?_)
        simp only [shift, set_cell]
        by_cases h1 : dst ≤ i ∧ i < dst + (n + 1)
        · rw [if_pos h1]
          by_cases h2 : i = dst
          · subst h2
            rw [if_neg (by omega), if_neg (by omega), if_neg (by omega), if_pos rfl]
            rw [← hv]; congr 1; omega
          · rw [if_pos (by omega), if_neg (by omega), if_neg (by omega)]
            congr 1; omega
        · rw [if_neg h1, if_neg (by omega)]
          by_cases h3 : src ≤ i ∧ i < src + (n + 1)
          · rw [if_pos h3]
            by_cases h4 : i = src
            · subst h4
              rw [if_neg (by omega), if_pos rfl, hv]
            · rw [if_pos (by omega), if_neg h4, if_neg (by omega)]
          · rw [if_neg h3, if_neg (by omega), if_neg (by omega), if_neg (by omega)]
      · cases cfg.kind <;> simp [movC, Nat.add_comm]
      · cases cfg.kind <;> simp [movD, Nat.add_comm]
      · cases cfg.kind <;> simp [movM, Nat.add_comm]
    · intro j h1 h2
      rw [set_cell, if_neg (by omega), set_cell, if_neg (by omega)]
      exact hl j (by omega) (by omega)

theorem moveBack_ok {b dst src : Nat} {B : Block α} {v : α} (hk : cfg.kind ≠ .reloc) (hb : s.mem.heap b = some B)
    (hd : dst < B.len) (hs : src < B.len) (hv : B.cell src = .live v) (hne : dst ≠ src) :
    moveBack cfg ⟨some b, dst⟩ ⟨some b, src⟩ s = (.ok (), s.put b
      ((B.set dst (.live v)).set src (hole cfg.kind (.live v))) (movC cfg.kind 1) (movD cfg.kind 1)
      (movM cfg.kind 1)) := by
  unfold moveBack
  by_cases hr : cfg.kind.relocatable = true
  · have hk' : cfg.kind = .triv := by
      cases h : cfg.kind with
      | triv => rfl
      | reloc => exact absurd h hk
      | mov => rw [h] at hr; cases hr
      | cpy => rw [h] at hr; cases hr
    rw [if_pos hr, bind_ok (load_ok hb hs hv), assignTo_triv hk' hb hd, hk']
    congr 2
    refine Block.ext' rfl (fun i => ?_)
    rw [set_cell, set_cell]
    by_cases h : i = src
    · rw [if_neg (by omega), if_pos h, h, hv]; rfl
    · rw [if_neg h, set_cell]
  · rw [if_neg hr]
    refine moveOne_ok ?_ hb hd hs hv hne
    cases h : cfg.kind with
    | triv => rw [h] at hr; exact absurd rfl hr
    | reloc => exact absurd h hk
    | mov => exact .inl rfl
    | cpy => exact .inr rfl

theorem moveLoopBwd_ok {b dst src n : Nat} {B : Block α} (hk : cfg.kind ≠ .reloc) (hb : s.mem.heap b = some B)
    (hd : dst + n ≤ B.len) (hs : src + n ≤ B.len) (hl : LiveOn B src n) (hne : src < dst) :
    moveLoopBwd cfg ⟨some b, dst⟩ ⟨some b, src⟩ n s = (.ok (), s.put b (shift cfg.kind B dst src n)
      (movC cfg.kind n) (movD cfg.kind n) (movM cfg.kind n)) := by
  induction n generalizing B s with
  | zero =>
    have : shift cfg.kind B dst src 0 = B := by
      refine Block.ext' rfl (fun i => ?_)
      simp only [shift]
      rw [if_neg (by omega), if_neg (by omega)]
    rw [this]
    have : movC cfg.kind 0 = 0 ∧ movD cfg.kind 0 = 0 ∧ movM cfg.kind 0 = 0 := by
      cases cfg.kind <;> simp [movC, movD, movM]
    rw [this.1, this.2.1, this.2.2, put_self hb]
    rfl
  | succ n ih =>
    obtain ⟨v, hv⟩ := hl (src + n) (by omega) (by omega)
    simp only [moveLoopBwd, Ptr.add]
    rw [bind_ok (moveBack_ok hk hb (by omega) (by omega) hv (by omega))]
    rw [ih (put_same _ _ _ _ _) (by simp; omega) (by simp; omega) ?_]
    · rw [put_put]
      congr 2
      · refine Block.ext' rfl (fun i => ?_)
        simp only [shift, set_cell]
        by_cases h1 : dst ≤ i ∧ i < dst + (n + 1)
        · rw [if_pos h1]
          by_cases h2 : i = dst + n
          · subst h2
            rw [if_neg (by omega)]
            by_cases h5 : src ≤ dst + n ∧ dst + n < src + n
            · omega
            · rw [if_neg h5, if_neg (by omega), if_pos rfl, ← hv]; congr 1; omega
          · rw [if_pos (by omega), if_neg (by omega), if_neg (by omega)]
        · rw [if_neg h1, if_neg (by omega)]
          by_cases h3 : src ≤ i ∧ i < src + (n + 1)
          · rw [if_pos h3]
            by_cases h4 : i = src + n
            · subst h4
              rw [if_neg (by omega), if_pos rfl, hv]
            · rw [if_pos (by omega), if_neg h4, if_neg (by omega)]
          · rw [if_neg h3, if_neg (by omega), if_neg (by omega), if_neg (by omega)]
      · cases cfg.kind <;> simp [movC, Nat.add_comm]
      · cases cfg.kind <;> simp [movD, Nat.add_comm]
      · cases cfg.kind <;> simp [movM, Nat.add_comm]
    · intro j h1 h2
      rw [set_cell, if_neg (by omega), set_cell, if_neg (by omega)]
      exact hl j (by omega) (by omega)

/-! ### Destroying and constructing ranges -/

/-- The block after destroying `n` elements. -/
def gone (k : Kind) (B : Block α) (i n : Nat) : Block α :=
  match k with
  | .triv => B
  | _ => over B i n (fun _ => .raw)

/-- The number of destructors that run for `n` elements. -/
def dtorsOf : Kind → Nat → Nat
  | .triv, _ => 0
  | _, n => n

@[simp] theorem gone_len (k : Kind) (B : Block α) (i n : Nat) : (gone k B i n).len = B.len := by
  cases k <;> rfl

theorem over_zero (B : Block α) (i : Nat) (f : Nat → Cell α) : over B i 0 f = B := by
  refine Block.ext' rfl (fun j => ?_)
  simp only [over]
  rw [if_neg (by omega)]

theorem destroyRange_ok {b i n : Nat} {B : Block α} (hb : s.mem.heap b = some B) (hi : i + n ≤ B.len)
    (hl : LiveOn B i n) :
    destroyRange cfg ⟨some b, i⟩ n s = (.ok (), s.put b (gone cfg.kind B i n) 0 (dtorsOf cfg.kind n) 0) := by
  by_cases hk : cfg.kind = .triv
  · have : ∀ n (p : Ptr), destroyRange cfg p n s = (.ok (), s) := by
      intro n
      induction n with
      | zero => intro p; rfl
      | succ n ih => intro p; simp only [destroyRange]; rw [bind_ok (destroyPtr_triv hk p), ih]
    rw [this, hk]
    simp only [gone, dtorsOf, put_self hb]
  · have hg : ∀ B : Block α, ∀ i n, gone cfg.kind B i n = over B i n (fun _ => .raw) := by
      intro B i n; cases h : cfg.kind <;> first | exact absurd h hk | rfl
    have hd : ∀ n, dtorsOf cfg.kind n = n := by
      intro n; cases h : cfg.kind <;> first | exact absurd h hk | rfl
    rw [hg, hd]
    induction n generalizing i B s with
    | zero => rw [over_zero, put_self hb]; rfl
    | succ n ih =>
      obtain ⟨v, hv⟩ := hl i (Nat.le_refl _) (by omega)
      simp only [destroyRange]
      rw [bind_ok (destroyPtr_ok hk hb (by omega) (by rw [hv]; rfl))]
      simp only [Ptr.add]
      rw [ih (put_same _ _ _ _ _) (by simp; omega) ?_]
      · rw [put_put]
        congr 2
        · refine Block.ext' rfl (fun j => ?_)
          simp only [over, set_cell]
          split_ifs <;> first | rfl | omega
        · omega
      · intro j h1 h2
        rw [set_cell, if_neg (by omega)]
        exact hl j (by omega) (by omega)

theorem constructLoop_ok {b i n : Nat} {B : Block α} (hb : s.mem.heap b = some B) (hi : i + n ≤ B.len) (v : α) :
    constructLoop ⟨some b, i⟩ (.ext v) n s = (.ok (), s.put b (over B i n (fun _ => .live v)) n 0 0) := by
  induction n generalizing i B s with
  | zero => rw [over_zero, put_self hb]; rfl
  | succ n ih =>
    simp only [constructLoop]
    rw [bind_ok (show deref (.ext v) s = (.ok v, s) from rfl), bind_ok (constructAt_ok hb (by omega) v)]
    simp only [Ptr.add]
    rw [ih (put_same _ _ _ _ _) (by simp; omega), put_put]
    congr 2
    · refine Block.ext' rfl (fun j => ?_)
      simp only [over, set_cell]
      split_ifs <;> first | rfl | omega
    · omega

/-- The cells of a list of elements. -/
def cellOf (l : List α) (i : Nat) : Cell α :=
  match l[i]? with
  | some v => .live v
  | none => .raw

theorem cellOf_lt {l : List α} {i : Nat} (h : i < l.length) : cellOf l i = .live l[i] := by
  simp [cellOf, h]

theorem cellOf_cons_zero (v : α) (l : List α) : cellOf (v :: l) 0 = .live v := rfl
theorem cellOf_cons_succ (v : α) (l : List α) (i : Nat) : cellOf (v :: l) (i + 1) = cellOf l i := rfl

theorem cellOf_append (l m : List α) (i : Nat) :
    cellOf (l ++ m) i = if i < l.length then cellOf l i else cellOf m (i - l.length) := by
  unfold cellOf
  rw [List.getElem?_append]
  by_cases h : i < l.length
  · rw [if_pos h, if_pos h]
  · rw [if_neg h, if_neg h]

theorem cellOf_take (l : List α) (n i : Nat) (h : i < n) : cellOf (l.take n) i = cellOf l i := by
  unfold cellOf; rw [List.getElem?_take_of_lt h]

theorem cellOf_drop (l : List α) (n i : Nat) : cellOf (l.drop n) i = cellOf l (n + i) := by
  unfold cellOf; rw [List.getElem?_drop]

theorem cellOf_replicate (v : α) {n i : Nat} (h : i < n) : cellOf (List.replicate n v) i = .live v := by
  unfold cellOf; simp [h]

theorem cellOf_set (l : List α) (i : Nat) (v : α) (h : i < l.length) (j : Nat) :
    cellOf (l.set i v) j = if j = i then .live v else cellOf l j := by
  unfold cellOf
  rw [List.getElem?_set]
  by_cases e : i = j
  · subst e; simp [h]
  · rw [if_neg e, if_neg (fun h => e h.symm)]

theorem cellOf_live {l : List α} {i : Nat} (h : i < l.length) : ∃ v, cellOf l i = .live v := ⟨_, cellOf_lt h⟩

theorem cellOf_inj {l m : List α} (hlen : l.length = m.length) (h : ∀ i, i < l.length → cellOf l i = cellOf m i) :
    l = m := by
  refine List.ext_getElem hlen (fun i h1 h2 => ?_)
  have := h i h1
  rw [cellOf_lt h1, cellOf_lt h2] at this
  exact Cell.live.inj this

theorem over_cons (B : Block α) (i : Nat) (v : α) (l : List α) :
    over (B.set i (.live v)) (i + 1) l.length (cellOf l) = over B i (l.length + 1) (cellOf (v :: l)) := by
  refine Block.ext' rfl (fun j => ?_)
  simp only [over, set_cell]
  by_cases h : j = i
  · subst h
    rw [if_neg (by omega), if_pos rfl, if_pos (by omega), Nat.sub_self, cellOf_cons_zero]
  · by_cases h2 : i + 1 ≤ j ∧ j < i + 1 + l.length
    · rw [if_pos h2, if_pos (by omega), show j - i = (j - (i + 1)) + 1 by omega, cellOf_cons_succ]
    · rw [if_neg h2, if_neg h, if_neg (by omega)]

theorem constructList_ok {b i : Nat} {l : List α} {B : Block α} (hb : s.mem.heap b = some B)
    (hi : i + l.length ≤ B.len) :
    constructList ⟨some b, i⟩ l s = (.ok (), s.put b (over B i l.length (cellOf l)) l.length 0 0) := by
  induction l generalizing i B s with
  | nil => rw [List.length_nil, over_zero, put_self hb]; rfl
  | cons v l ih =>
    rw [List.length_cons] at hi
    simp only [constructList]
    rw [bind_ok (constructAt_ok hb (by omega) v)]
    simp only [Ptr.add]
    rw [ih (put_same _ _ _ _ _) (by simp; omega), put_put, over_cons, List.length_cons, Nat.add_comm 1]

theorem writeList_ok {b i : Nat} {l : List α} {B : Block α} (hb : s.mem.heap b = some B)
    (hi : i + l.length ≤ B.len) :
    writeList ⟨some b, i⟩ l s = (.ok (), s.put b (over B i l.length (cellOf l)) 0 0 0) := by
  induction l generalizing i B s with
  | nil => rw [List.length_nil, over_zero, put_self hb]; rfl
  | cons v l ih =>
    rw [List.length_cons] at hi
    simp only [writeList]
    rw [bind_ok (writeCell_ok hb (by omega) _)]
    simp only [Ptr.add]
    rw [ih (put_same _ _ _ _ _) (by simp; omega), put_put, over_cons, List.length_cons]

/-! ### Between two blocks -/

/-- The source block after moving `n` elements out of it. -/
def holes (k : Kind) (B : Block α) (i n : Nat) : Block α :=
  { B with cell := fun j => if i ≤ j ∧ j < i + n then hole k (B.cell j) else B.cell j }

@[simp] theorem holes_len (k : Kind) (B : Block α) (i n : Nat) : (holes k B i n).len = B.len := rfl

theorem holes_zero (k : Kind) (B : Block α) (i : Nat) : holes k B i 0 = B := by
  refine Block.ext' rfl (fun j => ?_)
  simp only [holes]
  rw [if_neg (by omega)]

theorem put_comm {d b : Nat} (h : d ≠ b) (D B : Block α) (c e m c' e' m' : Nat) :
    (s.put d D c e m).put b B c' e' m' = (s.put b B c' e' m').put d D c e m := by
  simp only [S.put, upd_comm _ h]
  congr 2 <;> omega

theorem moveOne_cross {d b dst src : Nat} {D B : Block α} {v : α} (hne : d ≠ b) (hk : cfg.kind.loops)
    (hd : s.mem.heap d = some D) (hb : s.mem.heap b = some B)
    (h1 : dst < D.len) (h2 : src < B.len) (hc : B.cell src = .live v) :
    moveOne cfg ⟨some d, dst⟩ ⟨some b, src⟩ s = (.ok (), (s.put d (D.set dst (.live v)) (movC cfg.kind 1) 0 0).put b
      (B.set src (hole cfg.kind (.live v))) 0 (movD cfg.kind 1) (movM cfg.kind 1)) := by
  have hb' : ∀ D' c e m, (s.put d D' c e m).mem.heap b = some B := by
    intro D' c e m; rw [put_other (Ne.symm hne), hb]
  unfold moveOne
  rw [bind_ok (load_ok hb h2 hc)]
  rcases hk with hk | hk
  · simp only [hk]
    rw [bind_ok (constructAt_ok hd h1 v), bind_ok (writeCell_ok (hb' _ _ _ _) h2 _), count_apply]
    simp [S.put, hole, movC, movD, movM]
  · simp only [hk]
    rw [bind_ok (constructAt_ok hd h1 v), destroyPtr_ok (by rw [hk]; simp) (hb' _ _ _ _) h2 (by rw [hc]; rfl)]
    simp [hole, movC, movD, movM]

theorem moveLoopFwd_cross {d b dst src n : Nat} {D B : Block α} (hne : d ≠ b) (hk : cfg.kind.loops)
    (hd : s.mem.heap d = some D) (hb : s.mem.heap b = some B)
    (h1 : dst + n ≤ D.len) (h2 : src + n ≤ B.len) (hl : LiveOn B src n) :
    moveLoopFwd cfg ⟨some d, dst⟩ ⟨some b, src⟩ n s = (.ok (),
      (s.put d (over D dst n (fun i => B.cell (i + src))) (movC cfg.kind n) 0 0).put b
        (holes cfg.kind B src n) 0 (movD cfg.kind n) (movM cfg.kind n)) := by
  induction n generalizing dst src D B s with
  | zero =>
    have : movC cfg.kind 0 = 0 ∧ movD cfg.kind 0 = 0 ∧ movM cfg.kind 0 = 0 := by
      cases cfg.kind <;> simp [movC, movD, movM]
    rw [over_zero, holes_zero, this.1, this.2.1, this.2.2, put_self hd, put_self hb]
    rfl
  | succ n ih =>
    obtain ⟨v, hv⟩ := hl src (Nat.le_refl _) (by omega)
    simp only [moveLoopFwd]
    rw [bind_ok (moveOne_cross hne hk hd hb (by omega) (by omega) hv)]
    simp only [Ptr.add]
    rw [ih (D := D.set dst (.live v)) (B := B.set src (hole cfg.kind (.live v)))
      (by rw [put_other hne, put_same]) (put_same _ _ _ _ _) (by simp; omega) (by simp; omega) ?_]
    · have e1 : over (D.set dst (.live v)) (dst + 1) n
          (fun i => (B.set src (hole cfg.kind (.live v))).cell (i + (src + 1)))
          = over D dst (n + 1) (fun i => B.cell (i + src)) := by
        refine Block.ext' rfl (fun j => ?_)
        simp only [over, set_cell]
        by_cases h : j = dst
        · subst h
          rw [if_neg (by omega), if_pos rfl, if_pos (by omega), Nat.sub_self, Nat.zero_add, hv]
        · by_cases h3 : dst + 1 ≤ j ∧ j < dst + 1 + n
          · rw [if_pos h3, if_neg (show ¬ (j - (dst + 1) + (src + 1) = src) by omega), if_pos (by omega)]
            congr 1; omega
          · rw [if_neg h3, if_neg h, if_neg (by omega)]
      have e2 : holes cfg.kind (B.set src (hole cfg.kind (.live v))) (src + 1) n
          = holes cfg.kind B src (n + 1) := by
        refine Block.ext' rfl (fun j => ?_)
        simp only [holes, set_cell]
        by_cases h : j = src
        · subst h
          rw [if_neg (by omega), if_pos rfl, if_pos (by omega), hv]
        · by_cases h3 : src + 1 ≤ j ∧ j < src + 1 + n
          · rw [if_pos h3, if_neg h, if_pos (by omega)]
          · rw [if_neg h3, if_neg h, if_neg (by omega)]
      have e3 : movC cfg.kind 1 + movC cfg.kind n = movC cfg.kind (n + 1) := by
        cases cfg.kind <;> simp [movC, Nat.add_comm]
      have e4 : movD cfg.kind 1 + movD cfg.kind n = movD cfg.kind (n + 1) := by
        cases cfg.kind <;> simp [movD, Nat.add_comm]
      have e5 : movM cfg.kind 1 + movM cfg.kind n = movM cfg.kind (n + 1) := by
        cases cfg.kind <;> simp [movM, Nat.add_comm]
      rw [e1, e2, put_comm (Ne.symm hne), put_put, put_put, e3, e4, e5]
    · intro j h3 h4
      rw [set_cell, if_neg (by omega)]
      exact hl j (by omega) (by omega)

theorem copyLoop_cross {d b dst src n : Nat} {D B : Block α} (hne : d ≠ b)
    (hd : s.mem.heap d = some D) (hb : s.mem.heap b = some B)
    (h1 : dst + n ≤ D.len) (h2 : src + n ≤ B.len) (hl : LiveOn B src n) :
    copyLoop ⟨some d, dst⟩ ⟨some b, src⟩ n s = (.ok (),
      s.put d (over D dst n (fun i => B.cell (i + src))) n 0 0) := by
  induction n generalizing dst src D s with
  | zero => rw [over_zero, put_self hd]; rfl
  | succ n ih =>
    obtain ⟨v, hv⟩ := hl src (Nat.le_refl _) (by omega)
    simp only [copyLoop]
    rw [bind_ok (load_ok hb (by omega) hv), bind_ok (constructAt_ok hd (by omega) v)]
    simp only [Ptr.add]
    rw [ih (put_same _ _ _ _ _) (by rw [put_other (Ne.symm hne), hb]) (by simp; omega) (by omega) ?_]
    · rw [put_put, Nat.add_comm 1 n]
      congr 2
      refine Block.ext' rfl (fun j => ?_)
      simp only [over, set_cell]
      by_cases h : j = dst
      · subst h
        rw [if_neg (by omega), if_pos rfl, if_pos (by omega), Nat.sub_self, Nat.zero_add, hv]
      · by_cases h3 : dst + 1 ≤ j ∧ j < dst + 1 + n
        · rw [if_pos h3, if_pos (by omega)]
          congr 1; omega
        · rw [if_neg h3, if_neg h, if_neg (by omega)]
    · intro j h3 h4
      exact hl j (by omega) (by omega)

theorem copyBytes_cross {ov : Bool} {d b dst src n : Nat} {D B : Block α} (hne : d ≠ b)
    (hd : s.mem.heap d = some D) (hb : s.mem.heap b = some B)
    (h1 : dst + n ≤ D.len) (h2 : src + n ≤ B.len) :
    copyBytes ov ⟨some d, dst⟩ ⟨some b, src⟩ n s = (.ok (),
      s.put d (over D dst n (fun i => B.cell (i + src))) 0 0 0) := by
  unfold copyBytes
  by_cases hn : n = 0
  · subst hn; rw [if_pos rfl, over_zero, put_self hd]
  · rw [if_neg hn]
    simp only [hd, hb]
    rw [if_pos ⟨h1, h2⟩, if_neg (fun h => hne h.2.1)]
    rfl

theorem copyBytes_same {b dst src n : Nat} {B : Block α} (hb : s.mem.heap b = some B)
    (h1 : dst + n ≤ B.len) (h2 : src + n ≤ B.len) :
    copyBytes true ⟨some b, dst⟩ ⟨some b, src⟩ n s = (.ok (), s.put b (shift .triv B dst src n) 0 0 0) := by
  unfold copyBytes
  by_cases hn : n = 0
  · subst hn
    have : shift .triv B dst src 0 = B := by
      refine Block.ext' rfl (fun i => ?_)
      simp only [shift]
      rw [if_neg (by omega), if_neg (by omega)]
    rw [if_pos rfl, this, put_self hb]
  · rw [if_neg hn]
    simp only [hb]
    rw [if_pos ⟨h1, h2⟩, if_neg (by simp)]
    simp only [S.put, Nat.add_zero]
    have : (⟨B.len, fun i => if dst ≤ i ∧ i < dst + n then B.cell (i - dst + src) else B.cell i⟩ : Block α)
        = shift .triv B dst src n := by
      refine Block.ext' rfl (fun i => ?_)
      simp only [shift, hole]
      split_ifs <;> rfl
    rw [this]

theorem relocatable_cases (k : Kind) : k.relocatable = true ∨ k.loops := by
  cases k with
  | triv => exact .inl rfl
  | reloc => exact .inl rfl
  | mov => exact .inr (.inl rfl)
  | cpy => exact .inr (.inr rfl)

/-- Elements transferred byte by byte leave their bytes behind, and no constructor or destructor runs. -/
theorem hole_relocatable {k : Kind} (h : k.relocatable = true) (c : Cell α) : hole k c = c := by cases k <;> first | rfl | cases h
theorem shift_relocatable {k : Kind} (h : k.relocatable = true) (B : Block α) (dst src n : Nat) :
    shift k B dst src n = shift .triv B dst src n := by
  cases k <;> first | rfl | cases h
theorem mov_relocatable {k : Kind} (h : k.relocatable = true) (n : Nat) : movC k n = 0 ∧ movD k n = 0 ∧ movM k n = 0 := by
  cases k <;> first | exact ⟨rfl, rfl, rfl⟩ | cases h

theorem not_reloc_cases {k : Kind} (h : k ≠ .reloc) : k = .triv ∨ k.loops := by
  cases k with
  | triv => exact .inl rfl
  | reloc => exact absurd rfl h
  | mov => exact .inr (.inl rfl)
  | cpy => exact .inr (.inr rfl)

/-- Moving forward inside a block, for all kinds. -/
theorem moveRangeForward_ok {b dst src e : Nat} {B : Block α} (hb : s.mem.heap b = some B)
    (hle : src ≤ e) (h64 : e < M64) (hd : dst + (e - src) ≤ B.len) (hs : e ≤ B.len) (hl : LiveOn B src (e - src))
    (hne : dst < src ∨ e ≤ dst) :
    moveRangeForward cfg (some b) dst src e s = (.ok (), s.put b (shift cfg.kind B dst src (e - src))
      (movC cfg.kind (e - src)) (movD cfg.kind (e - src)) (movM cfg.kind (e - src))) := by
  unfold moveRangeForward
  rw [bind_ok (assert_true (by rfl) _), bind_ok (assert_true (by simpa using hle) _),
    bind_ok (assert_true (by simpa using hne) _)]
  simp only [sub64_of_le hle h64]
  rcases relocatable_cases cfg.kind with hr | h
  · obtain ⟨m1, m2, m3⟩ := mov_relocatable hr (e - src)
    rw [if_pos hr, copyBytes_same hb hd (by omega), shift_relocatable hr, m1, m2, m3]
  · rw [if_neg (by rw [loops_relocatable h]; simp)]
    exact moveLoopFwd_ok h hb hd (by omega) hl (by omega)

/-- Moving between blocks, for all kinds. -/
theorem moveRangeNoOverlap_ok {d b n : Nat} {D B : Block α} (hne : d ≠ b)
    (hd : s.mem.heap d = some D) (hb : s.mem.heap b = some B)
    (h1 : n ≤ D.len) (h2 : n ≤ B.len) (hl : LiveOn B 0 n) :
    moveRangeNoOverlap cfg ⟨some d, 0⟩ ⟨some b, 0⟩ n s = (.ok (),
      let s' := (s.put d (over D 0 n B.cell) (movC cfg.kind n) 0 0).put b
        (holes cfg.kind B 0 n) 0 (movD cfg.kind n) (movM cfg.kind n)
      { s' with mem := { s'.mem with relocs := s'.mem.relocs + n } }) := by
  unfold moveRangeNoOverlap
  rw [bind_ok (assert_true (by rfl) _), bind_ok (assert_true (by simp [hne]) _), bind_ok (count_apply _ _ _ _ _)]
  simp only [Nat.add_zero]
  rcases relocatable_cases cfg.kind with hr | h
  · obtain ⟨m1, m2, m3⟩ := mov_relocatable hr n
    rw [if_pos hr, copyBytes_cross (D := D) (B := B) hne (by exact hd) (by exact hb) (by omega) (by omega), m1, m2, m3]
    have hh : holes cfg.kind B 0 n = B := by
      refine Block.ext' rfl (fun j => ?_)
      simp only [holes, hole_relocatable hr]
      split <;> rfl
    have hx : upd (upd s.mem.heap d (some (over D 0 n B.cell))) b (some B)
        = upd s.mem.heap d (some (over D 0 n B.cell)) := upd_self (by
      unfold upd; rw [if_neg (Ne.symm hne), hb])
    simp [S.put, hh, hx]
  · rw [if_neg (by rw [loops_relocatable h]; simp)]
    rw [moveLoopFwd_cross (D := D) (B := B) hne h (by exact hd) (by exact hb) (by omega) (by omega) hl]
    simp [S.put]

/-- Copying between blocks, for all kinds but `reloc`. -/
theorem copyRange_ok {d b n : Nat} {D B : Block α} (hk : cfg.kind ≠ .reloc) (hne : d ≠ b)
    (hd : s.mem.heap d = some D) (hb : s.mem.heap b = some B) (hn : 0 < n)
    (h1 : n ≤ D.len) (h2 : n ≤ B.len) (hl : LiveOn B 0 n) :
    ∃ c, (cfg.kind ≠ .triv → c = n) ∧ copyRange cfg ⟨some d, 0⟩ ⟨some b, 0⟩ n s = (.ok (),
      s.put d (over D 0 n B.cell) c 0 0) := by
  unfold copyRange
  rw [bind_ok (assert_true (by rfl) _), bind_ok (assert_true (by simp [hne]) _),
    bind_ok (assert_true (by simpa using hn) _)]
  rcases not_reloc_cases hk with h | h
  · refine ⟨0, fun h' => absurd h h', ?_⟩
    have hr : cfg.kind.relocatable = true := by rw [h]; rfl
    rw [if_pos hr, copyBytes_cross hne hd hb (by omega) (by omega)]
    rfl
  · refine ⟨n, fun _ => rfl, ?_⟩
    rw [if_neg (by rw [loops_relocatable h]; simp)]
    rw [copyLoop_cross hne hd hb (by omega) (by omega) hl]
    rfl

/-- Reading a range in order. -/
theorem iterate_ok {b i : Nat} {B : Block α} {l : List α} (hb : s.mem.heap b = some B) (hi : i + l.length ≤ B.len)
    (hl : ∀ j, j < l.length → B.cell (i + j) = cellOf l j) :
    iterate ⟨some b, i⟩ l.length s = (.ok l, s) := by
  induction l generalizing i with
  | nil => rfl
  | cons v l ih =>
    rw [List.length_cons] at hi hl ⊢
    have h0 := hl 0 (by omega)
    rw [Nat.add_zero, cellOf_cons_zero] at h0
    simp only [iterate]
    rw [bind_ok (load_ok hb (by omega) h0)]
    simp only [Ptr.add]
    rw [bind_ok (ih (by omega) (fun j hj => by
      have := hl (j + 1) (by omega)
      rw [cellOf_cons_succ] at this
      rw [← this]; congr 1; omega))]
    rfl

/-- Reading a range backwards. -/
theorem iterateRev_ok {b i n : Nat} {B : Block α} {l : List α} (hb : s.mem.heap b = some B) (hi : i + n ≤ B.len)
    (hn : n ≤ l.length) (hl : ∀ j, j < n → B.cell (i + j) = cellOf l j) :
    iterateRev ⟨some b, i⟩ n s = (.ok (l.take n).reverse, s) := by
  induction n with
  | zero => simp [iterateRev]
  | succ n ih =>
    have h0 := hl n (by omega)
    rw [cellOf_lt (by omega)] at h0
    simp only [iterateRev, Ptr.add]
    rw [bind_ok (load_ok hb (by omega) h0), bind_ok (ih (by omega) (by omega) (fun j hj => hl j (by omega)))]
    rw [List.take_succ_eq_append_getElem (by omega), List.reverse_append]
    rfl

end Verif.Vector
