import Verif.Str.RaceEvery
import Verif.Str.EveryString
import Verif.Str.FirmNewProps

/-!
C148 in every state: `clone()` on an arena that has no memory left.
-/

namespace Verif.Str

open M

variable {cfg : Cfg} {s s' : St} {a : Abs} {u v : Nat} {xs : List Ch}

/-- C148, violated in every state: when an arena has no memory left, `clone()` of a long string that is not shared throws; the string
keeps its characters, but counts as shared from then on, though it is the only one that uses its buffer. -/
theorem failed_clone_everywhere_violated (hc : cfg.Ok) (ha : cfg.arena = true) (h : Reach cfg a s) (hv : a v = some xs) (hu : a u = none)
    {d k cap al : Nat} (ho : s.vars (.user v) = some ⟨.ml d k cap true, al⟩) (hs : (isShared (.user v) s).1 = .ok false)
    (hm : Refuses cfg s) :
    ∃ w s', (Op.clone u v).run cfg s = (.error (.throw w), s') ∧ contents cfg v s' = (.ok xs, s') ∧
      (isShared (.user v) s').1 = .ok true ∧ (∀ o, blkOf s' o = some d ↔ o = .user v) := by
  have hr := (reach_rel hc h).1
  have huv : Obj.user u ≠ Obj.user v := fun e => by cases e; rw [hu] at hv; cases hv
  have vu := hr.absent u hu
  have hal := hr.inv.al _ _ ho
  obtain ⟨ob, l, g, e⟩ := h.holds hc hv
  have hob := g.var.symm.trans ho
  cases hob
  have hx : Excl s (.user v) := by
    obtain ⟨b, e1, e2⟩ := isShared_ok hr.inv ⟨_, l, _, g, rfl⟩
    rw [e1] at hs
    cases hs
    exact e2 rfl
  obtain ⟨B, hB, hrc⟩ := hx _ _ _ _ ho
  obtain ⟨rc, src, cells⟩ := B
  simp only at hrc
  subst hrc
  obtain ⟨B', hB', hlen, hk, _⟩ := hr.inv.core _ _ ho
  cases hB.symm.trans hB'
  simp only at hlen
  let s1 : St := ⟨upd s.heap d (some ⟨some 2, src, cells⟩), s.next, upd s.vars (.user u) (some ⟨.ml d k cap true, al⟩), s.refused, s.lost⟩
  have e1 : ctorCopy cfg (.user u) (.user v) s = (.ok (), s1) := by
    rw [← ctorCopyDuring_alone]
    exact ctorCopyDuring_step (n := 1) (n' := 1) (t2 := ⟨s.heap, s.next, upd s.vars (.user u) (some ⟨.ml d k cap true, al⟩), s.refused, s.lost⟩)
      hal vu ho hB (by omega) rfl (upd_same ..) ((upd_other _ _ huv.symm).trans ho) hB
  obtain ⟨w, s2, e2, hb⟩ := create_refused (cfg := cfg) (s := s1) hm al (max 0 cap)
  have h2u : s2.vars (.user u) = some ⟨.ml d k cap true, al⟩ := by rw [hb.vars]; exact upd_same ..
  have e3 : unshare cfg (.user u) 0 s1 = (.error (.throw w), s2) := by
    unfold unshare
    rw [bind_ok (getOb_ok (upd_same ..))]
    simp only
    exact bind_fault e2
  have hal' : (cfg.arena && al != 0) = true := by rw [← hal, ha]; rfl
  have e4 : destroy cfg (.user u) s2 = (.ok (), { s2 with vars := upd s2.vars (.user u) none }) := by
    have : release cfg (.user u) s2 = (.ok (), s2) := by
      unfold release
      rw [bind_ok (getOb_ok h2u)]
      simp only [hal', if_true]
      rfl
    unfold destroy
    rw [bind_ok this]
    rfl
  have hvars : upd s2.vars (.user u) none = s.vars := by
    rw [hb.vars]
    show upd (upd s.vars _ _) _ _ = _
    rw [upd_upd]
    funext o
    by_cases h0 : o = .user u
    · subst h0; rw [upd_same, vu]
    · exact upd_other _ _ h0
  have hheap : s2.heap d = some ⟨some 2, src, cells⟩ := by rw [hb.heap]; exact upd_same ..
  rw [hvars] at e4
  refine ⟨w, { s2 with vars := s.vars }, ?_, ?_, ?_, ?_⟩
  · show clone cfg (.user u) (.user v) s = _
    unfold clone
    rw [bind_ok (getOb_ok ho)]
    simp only
    rw [bind_ok e1]
    unfold building
    rw [e3]
    simp only
    rw [e4]
  · have hcells := g.cells
    simp only [cellsOf, hB, Option.map_some, Option.some.injEq] at hcells
    subst hcells
    have hh : Holds cfg { s2 with vars := s.vars } (.user v) ⟨.ml d k cap true, al⟩ cells xs.length :=
      ⟨ho, by simp [cellsOf, hheap], g.size⟩
    have hrd : Reads cfg _ (.user v) xs := ⟨_, _, _, hh, e⟩
    unfold contents
    rw [bind_ok hh.sizeM]
    have := charsFrom_ok hrd xs.length 0 (by simp)
    simpa using this
  · unfold isShared
    rw [bind_ok (getOb_ok (s := { s2 with vars := s.vars }) ho)]
    simp only
    rw [bind_ok (refs_of (s := { s2 with vars := s.vars }) hheap rfl)]
    rfl
  · intro o
    have hbv : blkOf s (.user v) = some d := blkOf_ml ho
    show blkOf s o = some d ↔ _
    constructor
    · intro h0
      exact hr.inv.only hB (Or.inr rfl) hbv h0
    · rintro rfl
      exact hbv

set_option maxRecDepth 4000 in
/-- The hypotheses are met by a string of 300 characters on an arena without more memory. -/
example : ∀ dbg ∈ [false, true], ∃ a, Reach (arenaRefusing dbg 1) a (runOk (arenaRefusing dbg 1) (oneLong 1) St.init).2 ∧
    a 0 = some (List.replicate 300 97) ∧ a 1 = none ∧
    (runOk (arenaRefusing dbg 1) (oneLong 1) St.init).2.vars (.user 0) = some ⟨.ml 0 300 300 true, 1⟩ ∧
    (isShared (.user 0) (runOk (arenaRefusing dbg 1) (oneLong 1) St.init).2).1 = .ok false ∧
    Refuses (arenaRefusing dbg 1) (runOk (arenaRefusing dbg 1) (oneLong 1) St.init).2 := by
  intro dbg hd
  have h2 : (specAll (arenaRefusing dbg 1).arena (oneLong 1) fun _ => none).bind (· 1) = none := by revert dbg; decide +kernel
  have h3 : (runOk (arenaRefusing dbg 1) (oneLong 1) St.init).2.next = 1 := by clear h2; revert dbg; decide +kernel
  have h4 : (runOk (arenaRefusing dbg 1) (oneLong 1) St.init).2.vars (.user 0) = some ⟨.ml 0 300 300 true, 1⟩ := by
    clear h2 h3; revert dbg; decide +kernel
  have h5 : (isShared (.user 0) (runOk (arenaRefusing dbg 1) (oneLong 1) St.init).2).1 = .ok false := by
    clear h2 h3 h4; revert dbg; decide +kernel
  obtain ⟨a, h, h1, hs⟩ := reached (arenaRefusing_ok dbg 1) (ops := oneLong 1) (v := 0) (xs := List.replicate 300 97)
    (by clear h2 h3 h4 h5; revert dbg; decide +kernel) (by clear h2 h3 h4 h5; revert dbg; decide +kernel)
  rw [hs] at h2
  refine ⟨a, h, h1, h2, h4, h5, fun n => ?_⟩
  rw [h3]
  simp [arenaRefusing, refusing]

end Verif.Str
