import Verif.Str.EveryString
import Verif.Str.FirmNew

/-!
C49 in every state: iterators taken before a copy is made.
-/

namespace Verif.Str

open M

variable {cfg : Cfg} {s s' : St} {a : Abs} {u v : Nat} {xs : List Ch}

/-- C49, violated in every state: after `begin()` of a long string that is not shared, a copy has the same characters, and a character
written through the iterator changes the copy. -/
theorem iterator_shared_everywhere_violated (hc : cfg.Ok) (h : Reach cfg a s) (hv : a v = some xs) (hu : a u = none)
    {d k cap al : Nat} (ho : s.vars (.user v) = some ⟨.ml d k cap true, al⟩) (hs : (isShared (.user v) s).1 = .ok false)
    (hcopy : (Op.copy u v).run cfg s = (.ok (), s')) {i : Nat} (hi : i < xs.length) (c : Ch) :
    ∃ b s'', begin_ cfg (.user v) s = (.ok b, s) ∧ contents cfg u s' = (.ok xs, s') ∧
      writeCells (b.add i) [some c] s' = (.ok (), s'') ∧ contents cfg u s'' = (.ok (xs.set i c), s'') := by
  have hr := (reach_rel hc h).1
  have huv : u ≠ v := by rintro rfl; rw [hu] at hv; cases hv
  obtain ⟨ob, l, g, _⟩ := h.holds hc hv
  have hob := g.var.symm.trans ho
  cases hob
  have hx : Excl s (.user v) := by
    obtain ⟨b, e1, e2⟩ := isShared_ok hr.inv ⟨_, l, _, g, rfl⟩
    rw [e1] at hs
    cases hs
    exact e2 rfl
  have hsp : (Op.copy u v).spec cfg.arena a = some (.done (upd a u (some xs))) := by
    simp [Op.spec, Abs.make, hu, hv]
  have h' : Reach cfg (upd a u (some xs)) s' := .done h hsp hcopy
  have hxu : upd a u (some xs) u = some xs := upd_same ..
  obtain ⟨n, src, cells, _, e⟩ := ctorCopy_large (hr.absent u hu) ho hcopy
  have d1 : (dataPtr (.user u) s').1 = .ok (.blk d 0) := by
    subst e
    unfold dataPtr
    rw [bind_ok (getOb_ok (upd_same ..))]
    rfl
  have d2 : (dataPtr (.user v) s').1 = .ok (.blk d 0) := by
    subst e
    unfold dataPtr
    rw [bind_ok (getOb_ok ((upd_other _ _ (fun e => huv (Obj.user.inj e).symm)).trans ho))]
    rfl
  obtain ⟨s'', e1, e2⟩ := data_shared_everywhere_violated hc h' huv.symm hxu d2 d1 hi c
  exact ⟨.blk d 0, s'', begin_own hr.inv ⟨_, l, _, g, hx, rfl, rfl⟩, contents_reached hc h' hxu, e1, e2⟩

/-- The hypotheses are met by a string of 300 characters. -/
example (d : Bool) : ∃ a s, Reach (heapCfg d) a s ∧ a 0 = some (List.replicate 300 97) ∧ a 1 = none ∧
    s.vars (.user 0) = some ⟨.ml 0 300 300 true, 0⟩ ∧ (isShared (.user 0) s).1 = .ok false ∧
    ((Op.copy 1 0).run (heapCfg d) s).1 = .ok () := by
  obtain ⟨a, h, e, e'⟩ := reached (heapCfg_ok d) (v := 0) (xs := List.replicate 300 97)
    (ops := [.makeFill 0 0 300 97]) (by cases d <;> decide +kernel) (by cases d <;> decide +kernel)
  refine ⟨a, _, h, e, ?_, by cases d <;> decide +kernel, by cases d <;> decide +kernel, by cases d <;> decide +kernel⟩
  have h1 : (specAll (heapCfg d).arena [.makeFill 0 0 300 97] fun _ => none).bind (· 1) = none := by cases d <;> decide +kernel
  rwa [e'] at h1

end Verif.Str
