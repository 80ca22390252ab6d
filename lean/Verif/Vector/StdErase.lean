import Verif.Vector.Props

/-!
C127: `std::erase(v, value)` with a value of another type than the elements.
-/

namespace Verif.Vector

open V

variable {α U : Type} [DecidableEq α] {cfg : Cfg α} {w : World α} {i : Nat} {xs : List α}

/-- `std::erase(v, value)`, container/stdb_vector.hpp:1438-1441: calls `v.erase(value)`, whose parameter is
`const T&`; a value of another type `U` is first converted to `T` by `conv`.  (A value of type `T` itself is
passed as it is, see C37.) -/
def stdErase (conv : U → α) (value : U) : Op α := .eraseValue (.ext (conv value))

/-- C127: `std::erase(v, value)` removes the elements `x` with `x == value`, keeps the others in order and
returns how many it removed, if for the elements of the vector `x == value` is the same as
`x == T(value)`. -/
theorem std_erase_partial {conv : U → α} {eq : α → U → Bool} {value : U} (hg : Good cfg) (hk : cfg.kind ≠ .reloc) (hr : Reachable cfg w)
    (hl : Lucky cfg w.mem) (hx : w.Reads i xs) (he : ∀ x ∈ xs, eq x value = decide (x = conv value)) :
    ∃ w', wstep cfg w (.call i (stdErase conv value)) = (.ok (.num (xs.countP (fun x => eq x value))), w') ∧
      Becomes cfg w w' i (xs.filter (fun x => !eq x value)) := by
  obtain ⟨w', e, hb⟩ := erase_value (y := conv value) hg hk hr hl hx
  have h1 : xs.countP (fun x => eq x value) = xs.count (conv value) := by
    unfold List.count
    refine List.countP_congr fun x hx => ?_
    rw [he x hx]
    simp
  have h2 : xs.filter (fun x => !eq x value) = xs.filter (fun x => x ≠ conv value) := by
    refine List.filter_congr fun x hx => ?_
    rw [he x hx]
    simp
  rw [h1, h2]
  exact ⟨w', e, hb⟩

/-- Bytes and a number between 0 and 255. -/
example : ∃ w', wstep (exCfg .mov) (exWorld .mov) (.call 0 (stdErase (fun n : Int => (n % 256).toNat) 3)) = (.ok (.num 2), w') ∧
    Becomes (exCfg .mov) (exWorld .mov) w' 0 [1, 9, 2] :=
  std_erase_partial (xs := [3, 1, 9, 2, 3]) (eq := fun (x : Nat) (n : Int) => (x : Int) == n) exGood (by decide) exReach exLucky exReads.1 (by decide)

/-- The claim without the restriction is false: an element that is not equal to the value, but to what the
value is converted to, is removed. -/
theorem std_erase_violated {conv : U → α} {eq : α → U → Bool} {value : U} {x : α} (hg : Good cfg) (hk : cfg.kind ≠ .reloc)
    (hr : Reachable cfg w) (hl : Lucky cfg w.mem) (hx : w.Reads i xs) (hm : x ∈ xs) (hne : eq x value = false) (hc : conv value = x) :
    ∃ w' zs n, wstep cfg w (.call i (stdErase conv value)) = (.ok (.num n), w') ∧ w'.Reads i zs ∧
      x ∉ zs ∧ zs ≠ xs.filter (fun x => !eq x value) := by
  obtain ⟨w', e, hb⟩ := erase_value (y := conv value) hg hk hr hl hx
  have : x ∉ xs.filter (fun x => x ≠ conv value) := by simp [hc]
  refine ⟨w', _, _, e, hb.reads, this, fun h => this ?_⟩
  rw [h, List.mem_filter]
  exact ⟨hm, by rw [hne]; rfl⟩

/-- Bytes and the number 259: the bytes 3 are removed. -/
example : ∃ w' zs n, wstep (exCfg .mov) (exWorld .mov) (.call 0 (stdErase (fun n : Int => (n % 256).toNat) 259)) = (.ok (.num n), w') ∧
    w'.Reads 0 zs ∧ 3 ∉ zs ∧ zs ≠ [3, 1, 9, 2, 3].filter (fun (x : Nat) => !((x : Int) == 259)) :=
  std_erase_violated (xs := [3, 1, 9, 2, 3]) (eq := fun (x : Nat) (n : Int) => (x : Int) == n) exGood (by decide) exReach exLucky exReads.1 (by decide) (by decide) (by decide)

end Verif.Vector
