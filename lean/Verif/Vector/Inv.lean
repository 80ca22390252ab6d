import Verif.Vector.Lemmas
import Verif.Vector.Spec

/-!
The relation between a vector and the list of its elements, and what an operation on one vector may
change.
-/

namespace Verif.Vector

open V

variable {α β : Type} {cfg : Cfg α} {s s' s'' : S α} {xs ys zs : List α}

/-- What may be in the storage behind the last element. -/
def TailOK : Kind → Cell α → Prop
  | .triv, _ | .reloc, _ => True
  | .mov, c => ∀ v, c ≠ .live v
  | _, c => c = .raw

/-- A block holds the elements `xs` and nothing else. -/
structure BlockOK (cfg : Cfg α) (B : Block α) (xs : List α) : Prop where
  pos : 0 < B.len
  le : xs.length ≤ B.len
  bound : B.len * cfg.size < 2 ^ 63
  live : ∀ j, j < xs.length → B.cell j = cellOf xs j
  tail : ∀ j, xs.length ≤ j → j < B.len → TailOK cfg.kind (B.cell j)

/-- A vector holds the elements `xs`. -/
def VecOK (cfg : Cfg α) (m : Mem α) (v : Vec) (xs : List α) : Prop :=
  (v = nullVec ∧ xs = []) ∨
  ∃ b B, v = ⟨some b, xs.length, B.len⟩ ∧ m.heap b = some B ∧ BlockOK cfg B xs

/-- Blocks not yet handed out do not exist. -/
def Fresh (m : Mem α) : Prop := ∀ b, m.next ≤ b → m.heap b = none

/-- What a member function does when the contents change from `xs` to `ys`: only storage of this
vector changes; the storage is the old one, or a new block and the old one has been freed; and the
difference of the numbers of constructions and destructions is that of the sizes, up to moved-from
elements. -/
structure Post (cfg : Cfg α) (s s' : S α) (xs ys : List α) : Prop where
  ok : VecOK cfg s'.mem s'.this ys
  frame : ∀ b, s.this.start ≠ some b → s'.this.start ≠ some b → s'.mem.heap b = s.mem.heap b
  start : s'.this.start = s.this.start ∨
    ((∀ b, s.this.start = some b → s'.mem.heap b = none) ∧
     (∀ b, s'.this.start = some b → s.mem.next ≤ b ∧ b < s'.mem.next))
  next : s.mem.next ≤ s'.mem.next
  bal : cfg.kind ≠ .triv → s'.mem.ctors + s.mem.dtors + s.mem.moves + xs.length
    = s.mem.ctors + s'.mem.dtors + s'.mem.moves + ys.length
  cpy : cfg.kind ≠ .mov → s'.mem.moves = s.mem.moves

theorem VecOK.fin_eq {m : Mem α} {v : Vec} (h : VecOK cfg m v xs) : v.fin = xs.length := by
  rcases h with ⟨rfl, rfl⟩ | ⟨b, B, rfl, _, _⟩ <;> rfl

theorem VecOK.fin_le {m : Mem α} {v : Vec} (h : VecOK cfg m v xs) : xs.length ≤ v.edge := by
  rcases h with ⟨rfl, rfl⟩ | ⟨b, B, rfl, _, h⟩
  · simp
  · exact h.le

theorem VecOK.bound {m : Mem α} {v : Vec} (h : VecOK cfg m v xs) : v.edge * cfg.size < 2 ^ 63 := by
  rcases h with ⟨rfl, rfl⟩ | ⟨b, B, rfl, _, h⟩
  · simp [nullVec]
  · exact h.bound

theorem VecOK.start_lt {m : Mem α} {v : Vec} (h : VecOK cfg m v xs) (hf : Fresh m) {b : Nat}
    (hb : v.start = some b) : b < m.next := by
  rcases h with ⟨rfl, rfl⟩ | ⟨b', B, rfl, hB, _⟩
  · simp [nullVec] at hb
  · simp only [Option.some.injEq] at hb
    subst hb
    refine Nat.lt_of_not_le (fun hle => ?_)
    rw [hf b' hle] at hB
    simp at hB

/-- `VecOK` only looks at the vector's own block. -/
theorem VecOK.congr {m m' : Mem α} {v : Vec} (h : VecOK cfg m v xs)
    (he : ∀ b, v.start = some b → m'.heap b = m.heap b) : VecOK cfg m' v xs := by
  rcases h with h | ⟨b, B, rfl, hB, hok⟩
  · exact .inl h
  · exact .inr ⟨b, B, rfl, by rw [he b rfl, hB], hok⟩

theorem Post.fresh (h : Post cfg s s' xs ys) (hx : VecOK cfg s.mem s.this xs) (hf : Fresh s.mem) : Fresh s'.mem := by
  intro b hb
  have hn := h.next
  have h1 : s.this.start ≠ some b := fun e => by have := hx.start_lt hf e; omega
  have h2 : s'.this.start ≠ some b := by
    intro e
    rcases h.start with hs | ⟨_, hs⟩
    · exact h1 (by rw [← hs, e])
    · have := hs b e; omega
  rw [h.frame b h1 h2, hf b (by omega)]

theorem Post.refl (h : VecOK cfg s.mem s.this xs) : Post cfg s s xs xs :=
  ⟨h, fun _ _ _ => rfl, .inl rfl, Nat.le_refl _, fun _ => rfl, fun _ => rfl⟩

theorem Post.trans (hf : Fresh s.mem) (hx : VecOK cfg s.mem s.this xs)
    (h : Post cfg s s' xs ys) (h' : Post cfg s' s'' ys zs) : Post cfg s s'' xs zs := by
  have hf' := h.fresh hx hf
  refine ⟨h'.ok, fun b h1 h2 => ?_, ?_, Nat.le_trans h.next h'.next, fun hk => ?_, fun hk => by rw [h'.cpy hk, h.cpy hk]⟩
  · by_cases h3 : s'.this.start = some b
    · have hne : s'.this.start ≠ s.this.start := by rw [h3]; exact fun e => h1 e.symm
      rcases h.start with hs | ⟨_, hs⟩
      · exact absurd hs hne
      · rcases h'.start with hs' | ⟨hs', _⟩
        · exact absurd (hs'.trans h3) h2
        · rw [hs' b h3, hf b (hs b h3).1]
    · rw [h'.frame b h3 h2, h.frame b h1 h3]
  · rcases h.start with hs | ⟨hs1, hs2⟩
    · rcases h'.start with hs' | ⟨hs1', hs2'⟩
      · exact .inl (hs'.trans hs)
      · refine .inr ⟨fun b hb => hs1' b (hs ▸ hb), fun b hb => ?_⟩
        have := hs2' b hb
        have := h.next
        omega
    · rcases h'.start with hs' | ⟨hs1', hs2'⟩
      · refine .inr ⟨fun b hb => ?_, fun b hb => ?_⟩
        · have hlt := hx.start_lt hf hb
          have h3 : s'.this.start ≠ some b := fun e => by have := hs2 b e; omega
          rw [h'.frame b h3 (by rw [hs']; exact h3), hs1 b hb]
        · have := hs2 b (hs' ▸ hb)
          have := h'.next
          omega
      · refine .inr ⟨fun b hb => ?_, fun b hb => ?_⟩
        · have hlt := hx.start_lt hf hb
          have h3 : s'.this.start ≠ some b := fun e => by have := hs2 b e; omega
          have h4 : s''.this.start ≠ some b := fun e => by have := hs2' b e; have := h.next; omega
          rw [h'.frame b h3 h4, hs1 b hb]
        · have := hs2' b hb
          have := h.next
          omega
  · have := h.bal hk
    have := h'.bal hk
    omega

/-- Operations that keep the block. -/
theorem Post.inplace {b : Nat} {B' : Block α} {c d m : Nat} (hs : s.this.start = some b)
    (hB : BlockOK cfg B' ys)
    (hbal : cfg.kind ≠ .triv → c + xs.length = d + m + ys.length) (hm : cfg.kind ≠ .mov → m = 0) :
    Post cfg s { s.put b B' c d m with this := ⟨some b, ys.length, B'.len⟩ } xs ys := by
  refine ⟨.inr ⟨b, B', rfl, put_same _ _ _ _ _, hB⟩, fun b' h1 _ => ?_, .inl hs.symm, Nat.le_refl _, fun hk => ?_,
    fun hk => ?_⟩
  · exact put_other (fun e => h1 (by rw [hs, e])) _ _ _ _
  · have := hbal hk
    simp only [put_ctors, put_dtors, put_moves]
    omega
  · simp only [put_moves, hm hk, Nat.add_zero]

end Verif.Vector
