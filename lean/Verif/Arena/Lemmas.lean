import Verif.Arena.Spec
import Verif.Align.Lemmas
import Mathlib.Tactic.Linarith

/-!
Arithmetic and single-function lemmas about the arena model.
-/

namespace Verif.Arena

open Verif.Align

@[simp] theorem kCleanupNodeSize_eq : kCleanupNodeSize = 16 := by decide
@[simp] theorem kBlockHeaderSize_eq : kBlockHeaderSize = 32 := by decide
@[simp] theorem kByteSize_eq : kByteSize = 8 := rfl
@[simp] theorem kInt256Size_eq : kInt256Size = 32 := rfl
@[simp] theorem kThresholdHuge_eq : kThresholdHuge = 4 := rfl

@[simp] theorem ok_bind {α β : Type} (a : α) (f : α → Except Fault β) :
    (Except.ok a >>= f) = f a := rfl
@[simp] theorem error_bind {α β : Type} (e : Fault) (f : α → Except Fault β) :
    ((Except.error e : Except Fault α) >>= f) = .error e := rfl
@[simp] theorem pure_eq_ok {α : Type} (a : α) : (pure a : Except Fault α) = .ok a := rfl

theorem bind_eq_ok {α β : Type} {x : Except Fault α} {f : α → Except Fault β} {b : β} :
    (x >>= f) = .ok b ↔ ∃ a, x = .ok a ∧ f a = .ok b := by
  cases x with
  | error e => simp
  | ok a => simp

/-- Padding needed to align `p` to `a`. -/
def padOf (p a : Nat) : Nat := (a - p % a) % a

theorem padOf_lt {p a : Nat} (ha : 0 < a) : padOf p a < a := Nat.mod_lt _ ha

theorem padOf_aligned {p a : Nat} (ha : 0 < a) : a ∣ p + padOf p a := by
  unfold padOf
  have h := Nat.mod_lt p ha
  have h2 := Nat.div_add_mod p a
  rcases Nat.eq_zero_or_pos (p % a) with h0 | h0
  · rw [h0]; simp; exact Nat.dvd_of_mod_eq_zero h0
  · rw [Nat.mod_eq_of_lt (by omega : a - p % a < a)]
    have : p + (a - p % a) = a * (p / a + 1) := by rw [Nat.mul_add]; omega
    rw [this]; exact Nat.dvd_mul_right _ _

theorem padOf_zero {p a : Nat} (h : a ∣ p) : padOf p a = 0 := by
  unfold padOf; rw [Nat.mod_eq_zero_of_dvd h]; simp

theorem alignPos_ok {dbg : Bool} {p a : Nat} (h8 : 8 ≤ a) (h32 : a ≤ 32) (hp : p ≤ 2 ^ 63) :
    alignPos dbg p a = .ok (p + padOf p a, padOf p a) := by
  have ha : a ≠ 0 := by omega
  have hl := Nat.mod_lt p (by omega : 0 < a)
  have hpad : sub64 (mul64 a (if p % a ≠ 0 then 1 else 0)) (p % a) = padOf p a := by
    by_cases h0 : p % a = 0
    · simp [h0, mul64, sub64, padOf]
    · have h1 : mul64 a 1 = a := by rw [mul64_of_lt (by omega)]; omega
      simp only [ne_eq, h0, not_false_eq_true, if_true, h1]
      rw [sub64_of_le (by omega) (by omega)]
      unfold padOf
      rw [Nat.mod_eq_of_lt (a := a - p % a) (by omega)]
  have hpl := @padOf_lt p a (by omega)
  unfold alignPos
  simp only [kByteSize_eq, kInt256Size_eq, h8, h32, decide_true, assertDbg_true, ok_bind, ha, if_false,
    hpad]
  rw [add64_of_lt (by omega)]

/-- The geometry of one block. -/
structure BlockOK (A : Nat) (b : Block) : Prop where
  aligned : A ∣ b.base
  base_pos : 0 < b.base
  fits : b.base + b.size ≤ 2 ^ 63
  hdr : 32 ≤ b.pos
  pos_le : b.pos ≤ b.limit
  limit_le : b.limit ≤ b.size
  pos8 : 8 ∣ b.pos
  size8 : 8 ∣ b.size
  nodes16 : 16 ∣ b.size - b.limit

theorem BlockOK.posPtr {A : Nat} {b : Block} (h : BlockOK A b) : b.posPtr = b.base + b.pos := by
  have := h.fits; have := h.pos_le; have := h.limit_le
  unfold Block.posPtr; exact add64_of_lt (by omega)

theorem hasEnoughSpace_ok {A : Nat} {dbg : Bool} {b : Block} (h : BlockOK A b) {size a : Nat}
    (h8 : 8 ≤ a) (h32 : a ≤ 32) (hs : size ≤ 2 ^ 62 + 8) :
    b.hasEnoughSpace dbg size a
      = .ok (decide (b.pos + padOf (b.base + b.pos) a + size ≤ b.limit)) := by
  have := h.fits; have := h.pos_le; have := h.limit_le
  have hpl := @padOf_lt (b.base + b.pos) a (by omega)
  unfold Block.hasEnoughSpace
  rw [h.posPtr, alignPos_ok h8 h32 (by omega)]
  simp only [ok_bind, pure_eq_ok]
  rw [add64_of_lt (a := b.pos) (by omega), add64_of_lt (by omega)]

theorem alloc_ok {A : Nat} {dbg : Bool} {b : Block} (h : BlockOK A b) {size a : Nat}
    (h8 : 8 ≤ a) (h32 : a ≤ 32) (hs : size ≤ 2 ^ 62 + 8)
    (hfit : b.pos + padOf (b.base + b.pos) a + size ≤ b.limit) :
    b.alloc dbg size a = .ok (b.base + b.pos + padOf (b.base + b.pos) a,
      { b with pos := b.pos + padOf (b.base + b.pos) a + size }) := by
  have := h.fits; have := h.pos_le; have := h.limit_le
  have hpl := @padOf_lt (b.base + b.pos) a (by omega)
  have e1 := hasEnoughSpace_ok (dbg := dbg) h h8 h32 hs
  have e2 := alignPos_ok (dbg := dbg) h8 h32 (p := b.base + b.pos) (by omega)
  have e3 : add64 b.pos (add64 size (padOf (b.base + b.pos) a))
      = b.pos + padOf (b.base + b.pos) a + size := by
    rw [add64_of_lt (a := size) (by omega), add64_of_lt (by omega)]; omega
  unfold Block.alloc
  cases dbg <;> simp [e1, e2, e3, h.posPtr, hfit]

theorem registerCleanup_ok {A : Nat} (hA : 8 ∣ A) {dbg : Bool} {b : Block} (h : BlockOK A b) (n : Node)
    (hfit : b.pos + 16 ≤ b.limit) :
    b.registerCleanup dbg n = .ok { b with
      limit := b.limit - 16,
      cells := fun o => if o = b.limit - 16 then some n else b.cells o } := by
  have := h.fits; have := h.pos_le; have := h.limit_le; have := h.hdr
  have h8 : 8 ∣ b.base := Nat.dvd_trans hA h.aligned
  have hl8 : (b.base + (b.limit - 16)) % 8 = 0 := by
    have := h.nodes16; have := h.size8; omega
  unfold Block.registerCleanup
  simp only [kCleanupNodeSize_eq, kBlockHeaderSize_eq]
  rw [add64_of_lt (by omega), sub64_of_le (by omega) (by omega)]
  simp only [hfit, decide_true, assertDbg_true, ok_bind]
  rw [if_pos ⟨by omega, by omega, hl8⟩]

theorem remain_ok {A : Nat} {dbg : Bool} {b : Block} (h : BlockOK A b) :
    b.remain dbg = .ok (b.limit - b.pos) := by
  have := h.fits; have := h.pos_le; have := h.limit_le
  unfold Block.remain
  rw [sub64_of_le h.pos_le (by omega)]
  simp [h.pos_le]

/-- Decision logic of `newBlock` without overflow. -/
def chosenSize (cfg : Cfg) (m : Nat) (hasPrev : Bool) : Nat :=
  max (m + 32)
    (if hasPrev then
      if m + 32 ≤ cfg.normal then cfg.normal
      else if m + 32 ≤ cfg.huge / 4 then (m + cfg.normal - 1) / cfg.normal * cfg.normal
      else if m + 32 ≤ cfg.huge then cfg.huge
      else 0
    else cfg.init)

theorem alignUp_ok {n b : Nat} (hb : 0 < b) (hn : n ≤ 2 ^ 62 + 8) (hb2 : b ≤ 2 ^ 62) :
    alignUp n b = .ok ((n + b - 1) / b * b) := by
  have hb0 : b ≠ 0 := by omega
  have h1 := Nat.div_add_mod n b
  have h2 := Nat.mod_lt n hb
  have hle : n % b ≤ n := Nat.mod_le _ _
  simp only [alignUp, hb0, if_false]
  congr 1
  rw [sub64_of_le hle (by omega)]
  by_cases hr : n % b = 0
  · have e : (n + b - 1) / b = n / b := by
      have : n + b - 1 = b * (n / b) + (b - 1) := by omega
      rw [this, Nat.mul_add_div hb, Nat.div_eq_of_lt (a := b - 1) (by omega)]; rfl
    simp only [hr, ne_eq, not_true_eq_false, if_false]
    rw [mul64_of_lt (by omega), add64_of_lt (by omega), e, Nat.mul_comm (n / b)]
    omega
  · have e : (n + b - 1) / b = n / b + 1 := by
      have : n + b - 1 = b * (n / b + 1) + (n % b - 1) := by rw [Nat.mul_add]; omega
      rw [this, Nat.mul_add_div hb, Nat.div_eq_of_lt (a := n % b - 1) (by omega)]
    simp only [hr, ne_eq, not_false_eq_true, if_true]
    rw [mul64_of_lt (by omega), add64_of_lt (by omega), e, Nat.add_mul, Nat.mul_comm (n / b)]
    omega

theorem newBlockSize_ok {cfg : Cfg} (hc : GoodCfg cfg) {m : Nat} (hm : m ≤ 2 ^ 62 + 8) (p : Bool) :
    newBlockSize cfg m p = .ok (chosenSize cfg m p) := by
  have := hc.normal_le; have := hc.normal_pos
  unfold newBlockSize chosenSize
  simp only [kBlockHeaderSize_eq, kThresholdHuge_eq]
  rw [add64_of_lt (by omega), alignUp_ok hc.normal_pos hm hc.normal_le]
  cases p
  · simp [Nat.max_comm]
  · simp only [if_true]
    split
    · simp [Nat.max_comm]
    · split
      · simp [Nat.max_comm]
      · rename_i h1 h2
        by_cases h3 : m + 32 ≤ cfg.huge
        · rw [if_pos ⟨by omega, h3⟩, if_pos h3]; simp [Nat.max_comm]
        · rw [if_neg (by omega), if_neg h3]; simp

theorem chosenSize_ge (cfg : Cfg) (m : Nat) (p : Bool) : m + 32 ≤ chosenSize cfg m p :=
  Nat.le_max_left _ _

theorem chosenSize_dvd {cfg : Cfg} (hc : GoodCfg cfg) {m : Nat} (hm : 8 ∣ m) (p : Bool) :
    8 ∣ chosenSize cfg m p := by
  have hmax : ∀ x y : Nat, 8 ∣ x → 8 ∣ y → 8 ∣ max x y := by
    intro x y hx hy; rcases Nat.le_total x y with h | h
    · rwa [Nat.max_eq_right h]
    · rwa [Nat.max_eq_left h]
  unfold chosenSize
  apply hmax _ _ (by omega)
  split
  · split
    · exact hc.normal8
    · split
      · exact Nat.dvd_trans hc.normal8 ⟨_, Nat.mul_comm _ _⟩
      · split
        · exact hc.huge8
        · simp
  · exact hc.init8

end Verif.Arena
