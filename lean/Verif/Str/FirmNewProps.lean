import Verif.Str.FirmNew

/-!
C148: new strings that could not be made for want of memory.
-/

namespace Verif.Str

open M Firm

variable {cfg : Cfg} {a a' : Abs} {s s' : St} {op : Op} {u v : Nat} {w : String}

/-- C148: when making a string throws for want of memory, nothing has happened: be it from characters, as copies of a character, as a
copy or a part of another, or by `+`.  Nothing is taken and no string counts as shared by what was never made. -/
theorem failed_new (hc : cfg.Ok) (h : Reach cfg a s) (hm : op.makes = true) (ho : op.spec cfg.arena a = some (.done a'))
    (hr : op.run cfg s = (.error (.throw w), s')) : Nothing cfg s s' := (makes_bare hc h hm ho hr).nothing

/-- C148: the same for `clone()` of strings on the heap.  Missing: strings on an arena, for which this is false
(`failed_clone_violated`). -/
theorem failed_clone_partial (hc : cfg.Ok) (ha : cfg.arena = false) (h : Reach cfg a s) (ho : (Op.clone v u).spec cfg.arena a = some (.done a'))
    (hr : (Op.clone v u).run cfg s = (.error (.throw w), s')) : Nothing cfg s s' := by
  have hrel := (reach_rel hc h).1
  simp only [Op.spec, Option.bind_eq_bind, Option.bind_eq_some_iff] at ho
  obtain ⟨xs, _, ho⟩ := ho
  refine (clone_bare ha (hrel.absent v (make_some ho).1) (fun b n src cells hb => ?_) hr).nothing
  obtain ⟨L, _, _, h1, h2⟩ := hrel.inv.own b _ hb
  have := h1 ha
  have := h2.1
  omega

/-- 300 characters. -/
def oneLong (al : Nat) : List Op := [.makeFill 0 al 300 97]

set_option maxRecDepth 4000 in
-- the sum of a long string and itself, for which there is no memory
example : ∀ dbg ∈ [false, true], ∃ a a', Reach (refusing dbg 1) a (runOk (refusing dbg 1) (oneLong 0) St.init).2 ∧
    (Op.concat 1 0 0).spec false a = some (.done a') ∧
    ((Op.concat 1 0 0).run (refusing dbg 1) (runOk (refusing dbg 1) (oneLong 0) St.init).2).1 = .error (.throw "bad_alloc") := by
  intro dbg hd
  obtain ⟨a, h, ha, hs⟩ := reached (refusing_ok dbg 1) (ops := oneLong 0) (v := 0) (xs := List.replicate 300 97)
    (by revert dbg; decide +kernel) (by revert dbg; decide +kernel)
  refine ⟨a, upd a 1 (some (List.replicate 300 97 ++ List.replicate 300 97)), h, ?_, by clear hs ha h; revert dbg; decide +kernel⟩
  simp only [Op.spec, ha, Option.bind_eq_bind, Option.bind_some]
  rw [if_pos (by rw [List.length_replicate]; decide)]
  have h1 : ((specAll false (oneLong 0) fun _ => none).bind (· 1)) = none := by decide +kernel
  rw [show specAll false (oneLong 0) (fun _ => none) = some a from hs] at h1
  exact if_pos (by rw [show a 1 = none from h1]; rfl)

set_option maxRecDepth 4000 in
-- a clone of a long string, for which there is no memory
example : ∀ dbg ∈ [false, true], ∃ a a', Reach (refusing dbg 1) a (runOk (refusing dbg 1) (oneLong 0) St.init).2 ∧
    (Op.clone 1 0).spec false a = some (.done a') ∧
    ((Op.clone 1 0).run (refusing dbg 1) (runOk (refusing dbg 1) (oneLong 0) St.init).2).1 = .error (.throw "bad_alloc") := by
  intro dbg hd
  obtain ⟨a, h, ha, hs⟩ := reached (refusing_ok dbg 1) (ops := oneLong 0) (v := 0) (xs := List.replicate 300 97)
    (by revert dbg; decide +kernel) (by revert dbg; decide +kernel)
  refine ⟨a, upd a 1 (some (List.replicate 300 97)), h, ?_, by clear hs ha h; revert dbg; decide +kernel⟩
  simp only [Op.spec, ha, Option.bind_eq_bind, Option.bind_some]
  have h1 : ((specAll false (oneLong 0) fun _ => none).bind (· 1)) = none := by decide +kernel
  rw [show specAll false (oneLong 0) (fun _ => none) = some a from hs] at h1
  exact if_pos (by rw [show a 1 = none from h1]; rfl)

/-- C148 violated: `clone()` of a long string on an arena counts itself as a copy first; when there is no memory for the characters the call
throws, and the string counts as shared for good, though nothing shares it: the next change copies all of it, where it would not
have before. -/
theorem failed_clone_violated : ∀ dbg ∈ [false, true],
    let cfg := arenaRefusing dbg 1
    let s := (runOk cfg (oneLong 1) St.init).2
    let s' := ((Op.clone 1 0).run cfg s).2
    (storage cfg 0 s).1 = .ok (.blk 0 0, 300, false) ∧ ((Op.clone 1 0).run cfg s).1 = .error (.throw "bad_alloc") ∧
    (contents cfg 0 s').1 = .ok (List.replicate 300 97) ∧ (storage cfg 0 s').1 = .ok (.blk 0 0, 300, true) ∧
    (storage cfg 0 ((Op.setAt 0 5 98).run cfg s).2).1 = .ok (.blk 0 0, 300, false) ∧
    (storage cfg 0 ((Op.setAt 0 5 98).run cfg s').2).1 = .ok (.blk 2 0, 300, false) := by
  decide +kernel

end Verif.Str
