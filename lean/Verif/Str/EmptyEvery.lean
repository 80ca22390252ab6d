import Verif.Str.EveryString

/-!
C122 in every state: empty strings of debug builds on the heap.
-/

namespace Verif.Str

open M

variable {cfg : Cfg} {s s' : St} {a a' : Abs} {v : Nat} {xs : List Ch}

/-- C122, violated in every state: where small strings are not kept in the object (debug builds on the heap), an empty string whose
`data()` is in the object has `capacity()` `cfg.ms`, 23 for `string`; but as soon as any calls have put characters in it, `data()` is in a
block on the heap. -/
theorem debug_empty_everywhere_violated (hc : cfg.Ok) (hd : cfg.sso = false) (h : Reach cfg a s) (hv : a v = some [])
    (hp : (dataPtr (.user v) s).1 = .ok (.inl (.user v) 0)) :
    capacity cfg (.user v) s = (.ok cfg.ms, s) ∧
      ∀ a' s' xs, Reach cfg a' s' → a' v = some xs → xs ≠ [] → ∃ d, dataPtr (.user v) s' = (.ok (.blk d 0), s') := by
  constructor
  · have hr := (reach_rel hc h).1
    obtain ⟨ob, l, g, _⟩ := h.holds hc hv
    obtain ⟨c, d1, d2, d3, d4, d5⟩ := g.capM hr.inv
    rw [g.dataM] at hp
    obtain ⟨core, al⟩ := ob
    cases core with
    | small cells =>
      have hx : Excl s (.user v) := fun d n cap al' e => by rw [g.var] at e; cases e
      rw [d1, d4 hx]
      rfl
    | ml d m cap large => cases hp
  · intro a' s' xs h' hv' hne
    have hr := (reach_rel hc h').1
    obtain ⟨ob, l, g, _⟩ := h'.holds hc hv'
    have hcore := hr.inv.core _ _ g.var
    have hs := g.size
    rw [g.dataM]
    obtain ⟨core, al⟩ := ob
    cases core with
    | small cells =>
      obtain ⟨h1, m, hm, h0, ht, hz⟩ := hcore
      rw [smallSize_eq hm ht] at hs
      cases hs
      exact absurd (List.eq_nil_of_length_eq_zero (h0 hd)) hne
    | ml d m cap large => exact ⟨d, rfl⟩

/-- The hypotheses are met by a new string, and `push_back` gives it a character. -/
example : (heapCfg true).sso = false ∧ ∃ a s, Reach (heapCfg true) a s ∧ a 0 = some [] ∧
    (dataPtr (.user 0) s).1 = .ok (.inl (.user 0) 0) ∧ ((Op.pushBack 0 97).run (heapCfg true) s).1 = .ok () := by
  obtain ⟨a, h, e, _⟩ := reached (heapCfg_ok true) (v := 0) (xs := []) (ops := [.makeEmpty 0 0]) (by decide +kernel) (by decide +kernel)
  exact ⟨rfl, a, _, h, e, by decide +kernel, by decide +kernel⟩

end Verif.Str
