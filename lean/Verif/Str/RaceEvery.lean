import Verif.Str.ThreadViolations
import Verif.Str.StringMore

/-!
# The violations of C102 in every state
-/

namespace Verif.Str

open M

variable {cfg : Cfg} {a : Abs} {s : St} {u v d : Nat} {xs ys : List Ch}

theorem refs_of {n : Nat} {B : Blk} (h : s.heap d = some B) (hn : B.rc = some n) : refs d s = (.ok n, s) := by
  unfold refs
  obtain ⟨rc, src, cells⟩ := B
  simp only at hn
  subst hn
  rw [h]

theorem setRefs_of {n m : Nat} {B : Blk} (h : s.heap d = some B) (hn : B.rc = some n) :
    setRefs d m s = (.ok (), { s with heap := upd s.heap d (some ⟨some m, B.src, B.cells⟩) }) := by
  unfold setRefs
  obtain ⟨rc, src, cells⟩ := B
  simp only at hn
  subst hn
  rw [h]

/-- The object and the block of a string whose `data()` is in the block `d`. -/
theorem core_of_data {o : Obj} {ob : Ob} {l : List Cell} {k : Nat} (g : Holds cfg s o ob l k) (hp : (dataPtr o s).1 = .ok (.blk d 0)) :
    ∃ m cap large, ob.core = .ml d m cap large := by
  rw [g.dataM] at hp
  obtain ⟨core, al⟩ := ob
  cases core with
  | small l => cases hp
  | ml d' m cap large =>
    simp only [Core.ptr, Except.ok.injEq, Ptr.blk.injEq] at hp
    exact ⟨m, cap, large, by rw [hp.1]⟩

/-- C102, violated in every state: two threads destroy two strings on the heap that share their characters, `v` being destroyed
between the read and the write of the count by the destructor of `u`.  Both calls end, and the count is one more than the number of
strings left that have these characters: the buffer is never freed. -/
theorem destroy_race_everywhere_violated (hc : cfg.Ok) (ha : cfg.arena = false) (h : Reach cfg a s) (hu : a u = some xs)
    (hv : a v = some ys) (huv : u ≠ v) (hpu : (dataPtr (.user u) s).1 = .ok (.blk d 0))
    (hpv : (dataPtr (.user v) s).1 = .ok (.blk d 0)) :
    ∃ s' B, ∃ L : List Obj, destroyDuring cfg (.user u) ((Op.destroy v).run cfg) s = (.ok (), s') ∧
      s'.vars (.user u) = none ∧ s'.vars (.user v) = none ∧ s'.heap d = some B ∧
      L.Nodup ∧ (∀ o, o ∈ L ↔ blkOf s' o = some d) ∧ B.rc = some (L.length + 1) := by
  have hr := (reach_rel hc h).1
  obtain ⟨ou, lu, gu, _⟩ := h.holds hc hu
  obtain ⟨ov, lv, gv, _⟩ := h.holds hc hv
  obtain ⟨mu, cu, Lu, eu⟩ := core_of_data gu hpu
  obtain ⟨mv, cv, Lv, ev⟩ := core_of_data gv hpv
  have hou := gu.var
  have hov := gv.var
  have hne : Obj.user u ≠ Obj.user v := fun e => huv (Obj.user.inj e)
  have ku := hr.inv.core _ _ hou
  have kv := hr.inv.core _ _ hov
  rw [eu] at ku
  rw [ev] at kv
  obtain ⟨B, hB, _, _, _, hlu, _⟩ := ku
  obtain ⟨B', hB', _, _, _, hlv, _⟩ := kv
  cases hB.symm.trans hB'
  obtain ⟨L0, nd, hL, hk, hcnt⟩ := hr.inv.own d B hB
  have bu : Obj.user u ∈ L0 := (hL _).2 (by unfold blkOf; rw [hou]; simp [eu, Core.blk?])
  have bv : Obj.user v ∈ L0 := (hL _).2 (by unfold blkOf; rw [hov]; simp [ev, Core.blk?])
  have bv' : Obj.user v ∈ L0.erase (.user u) := (nd.mem_erase_iff).2 ⟨Ne.symm hne, bv⟩
  have l1 := List.length_erase_of_mem bu
  have l2 := List.length_erase_of_mem bv'
  have l3 := List.length_pos_of_mem bv'
  cases hrc : B.rc with
  | none => rw [hrc] at hcnt; simp only at hcnt; omega
  | some n =>
    rw [hrc] at hcnt hlu hlv
    simp only [Option.isSome_some] at hlu hlv
    have hn := hcnt.2 ha
    subst hlu hlv
    have hau : (cfg.arena && ou.al != 0) = false := by rw [ha]; rfl
    have hav : (cfg.arena && ov.al != 0) = false := by rw [ha]; rfl
    let s1 : St := { s with heap := upd s.heap d (some ⟨some (n - 1), B.src, B.cells⟩) }
    let s2 : St := { s1 with vars := upd s.vars (.user v) none }
    have hother : (Op.destroy v).run cfg s = (.ok (), s2) := by
      show destroy cfg (.user v) s = _
      unfold destroy
      have : release cfg (.user v) s = (.ok (), s1) := by
        unfold release
        rw [bind_ok (getOb_ok hov)]
        simp only [ev]
        rw [if_neg (by simp [ha]), if_pos trivial]
        unfold decrementRefs
        rw [bind_ok (refs_of hB hrc), bind_ok (assert_ok (by simp; omega) _), if_neg (by omega), bind_ok (setRefs_of hB hrc),
          doIf_neg (by simp; omega)]
        rfl
      rw [bind_ok this]
      rfl
    have hB2 : s2.heap d = some ⟨some (n - 1), B.src, B.cells⟩ := by simp [s2, s1]
    let s3 : St := { s2 with heap := upd s2.heap d (some ⟨some (n - 1), B.src, B.cells⟩) }
    have hrel : releaseDuring cfg (.user u) ((Op.destroy v).run cfg) s = (.ok (), s3) := by
      unfold releaseDuring
      rw [bind_ok (getOb_ok hou)]
      simp only [eu]
      rw [if_neg (by simp [ha]), if_pos trivial]
      unfold decrementRefsDuring
      rw [bind_ok (refs_of hB hrc), bind_ok (assert_ok (by simp; omega) _), if_neg (by omega), bind_ok hother,
        bind_ok (setRefs_of hB2 rfl), doIf_neg (by simp; omega)]
      rfl
    refine ⟨{ s3 with vars := upd s3.vars (.user u) none }, ⟨some (n - 1), B.src, B.cells⟩, (L0.erase (.user u)).erase (.user v), ?_,
      upd_same _ _ _, ?_, upd_same _ _ _, (nd.erase _).erase _, ?_, ?_⟩
    · unfold destroyDuring
      rw [bind_ok hrel]
      rfl
    · show upd (upd s.vars (.user v) none) (.user u) none (.user v) = none
      rw [upd_other _ _ (Ne.symm hne), upd_same]
    · intro o
      rw [(nd.erase _).mem_erase_iff, nd.mem_erase_iff, hL]
      show _ ↔ ((upd (upd s.vars (.user v) none) (.user u) none o).bind fun ob => ob.core.blk?) = some d
      by_cases h1 : o = .user u
      · subst h1; simp
      · by_cases h2 : o = .user v
        · subst h2; rw [upd_other _ _ h1, upd_same]; simp
        · rw [upd_other _ _ h1, upd_other _ _ h2]
          exact ⟨fun h => h.2.2, fun h => ⟨h2, h1, h⟩⟩
    · show some (n - 1) = _
      rw [l2, l1]
      congr 1
      omega

example : ∀ dbg ∈ [false, true],
    (dataPtr (.user 0) (runOk (heapCfg dbg) [.makeFill 0 0 300 97, .copy 1 0, .copy 2 0] St.init).2).1 = .ok (.blk 0 0) ∧
    (dataPtr (.user 1) (runOk (heapCfg dbg) [.makeFill 0 0 300 97, .copy 1 0, .copy 2 0] St.init).2).1 = .ok (.blk 0 0) := by
  decide +kernel

/-- One copy of a long string, with another thread acting between the read and the write of the count. -/
theorem ctorCopyDuring_step {t t2 : St} {x y : Obj} {m cap al n n' src : Nat} {cells : List Cell} {other : M Unit}
    (hal : cfg.arena = (al != 0)) (hx : t.vars x = none) (hy : t.vars y = some ⟨.ml d m cap true, al⟩)
    (hB : t.heap d = some ⟨some n, src, cells⟩) (hm : m ≤ cells.length)
    (ho : other ⟨t.heap, t.next, upd t.vars x (some ⟨.ml d m cap true, al⟩), t.refused, t.lost⟩ = (.ok (), t2))
    (h2x : t2.vars x = some ⟨.ml d m cap true, al⟩) (h2y : t2.vars y = some ⟨.ml d m cap true, al⟩)
    (h2B : t2.heap d = some ⟨some n', src, cells⟩) :
    ctorCopyDuring cfg x y other t = (.ok (), { t2 with heap := upd t2.heap d (some ⟨some (n + 1), src, cells⟩) }) := by
  have hcore : copyCoreDuring cfg x ⟨.ml d m cap true, al⟩ other
      ⟨t.heap, t.next, upd t.vars x (some ⟨.small (List.replicate (cfg.ms + 1) (some 0)), al⟩), t.refused, t.lost⟩ =
      (.ok (), { t2 with heap := upd t2.heap d (some ⟨some (n + 1), src, cells⟩) }) := by
    unfold copyCoreDuring
    simp only
    rw [bind_ok (setCore_ok (upd_same _ _ _))]
    simp only [upd_upd]
    unfold incrementRefsDuring
    rw [bind_ok (refs_of (s := ⟨t.heap, t.next, upd t.vars x (some ⟨.ml d m cap true, al⟩), t.refused, t.lost⟩)
      (B := ⟨some n, src, cells⟩) hB rfl), bind_ok ho]
    exact setRefs_of (B := ⟨some n', src, cells⟩) h2B rfl
  have hcheck : copyCheck cfg x y { t2 with heap := upd t2.heap d (some ⟨some (n + 1), src, cells⟩) } =
      (.ok (), { t2 with heap := upd t2.heap d (some ⟨some (n + 1), src, cells⟩) }) := by
    generalize ht : ({ t2 with heap := upd t2.heap d (some ⟨some (n + 1), src, cells⟩) } : St) = t3
    have gx : Holds cfg t3 x ⟨.ml d m cap true, al⟩ cells m :=
      ⟨by subst ht; exact h2x, by subst ht; simp [cellsOf], rfl⟩
    have gy : Holds cfg t3 y ⟨.ml d m cap true, al⟩ cells m :=
      ⟨by subst ht; exact h2y, by subst ht; simp [cellsOf], rfl⟩
    unfold copyCheck
    rw [bind_ok gx.sizeM, bind_ok gy.sizeM, bind_ok (assert_ok (by simp) _)]
    cases cfg.dbg with
    | false => rfl
    | true =>
      rw [if_pos rfl, bind_ok gx.dataM, bind_ok gy.dataM, bind_ok (gx.read0 hm), bind_ok (gy.read0 hm)]
      exact assert_ok (by simp) _
  have hbody : (do let r ← getOb y
                   construct cfg x r.al do
                     copyCoreDuring cfg x r other
                     copyCheck cfg x y : M Unit) t =
      (.ok (), { t2 with heap := upd t2.heap d (some ⟨some (n + 1), src, cells⟩) }) := by
    rw [bind_ok (getOb_ok hy)]
    unfold construct
    rw [bind_ok (newOb_ok hx hal)]
    unfold constructing
    rw [bind_ok hcore, hcheck]
  unfold ctorCopyDuring noexceptIf
  split
  · unfold noexcept
    rw [hbody]
  · exact hbody

/-- C102, violated in every state: two threads copy the same long string at once, each into a string of its own, the second copy being
made between the read and the write of the count by the first.  Both calls end, and on the heap the count is one less than the number
of strings that have these characters: the buffer is freed while one of them is still there. -/
theorem copies_race_everywhere_violated (hc : cfg.Ok) (ha : cfg.arena = false) (h : Reach cfg a s) (hv : a v = some xs) {p q : Nat}
    (hp : a p = none) (hq : a q = none) (hpq : p ≠ q) {m cap al : Nat} (hlong : s.vars (.user v) = some ⟨.ml d m cap true, al⟩) :
    ∃ s' B, ∃ L : List Obj, ctorCopyDuring cfg (.user p) (.user v) ((Op.copy q v).run cfg) s = (.ok (), s') ∧
      s'.heap d = some B ∧ L.Nodup ∧ (∀ o, o ∈ L ↔ blkOf s' o = some d) ∧ B.rc = some (L.length - 1) ∧ 3 ≤ L.length := by
  have hr := (reach_rel hc h).1
  have hpv : Obj.user p ≠ Obj.user v := fun e => by cases e; rw [hp] at hv; cases hv
  have hqv : Obj.user q ≠ Obj.user v := fun e => by cases e; rw [hq] at hv; cases hv
  have hqp : Obj.user q ≠ Obj.user p := fun e => hpq (Obj.user.inj e).symm
  have vp := hr.absent p hp
  have vq := hr.absent q hq
  have hal := hr.inv.al _ _ hlong
  obtain ⟨B, hB, hlen, hm, _, hl, _⟩ := hr.inv.core _ _ hlong
  obtain ⟨L0, nd, hL, hk, hcnt⟩ := hr.inv.own d B hB
  obtain ⟨rc, src, cells⟩ := B
  simp only at hlen hl hcnt
  cases rc with
  | none => cases hl
  | some n =>
    simp only at hcnt
    have hn := hcnt.2 ha
    have hm' : m ≤ cells.length := by omega
    let ob : Ob := ⟨.ml d m cap true, al⟩
    let sa : St := ⟨s.heap, s.next, upd s.vars (.user p) (some ob), s.refused, s.lost⟩
    let sb : St := ⟨sa.heap, sa.next, upd sa.vars (.user q) (some ob), sa.refused, sa.lost⟩
    let sc : St := { sb with heap := upd sb.heap d (some ⟨some (n + 1), src, cells⟩) }
    have hvb : sb.vars (.user v) = some ob := by
      show upd (upd s.vars (.user p) _) (.user q) _ (.user v) = _
      rw [upd_other _ _ (Ne.symm hqv), upd_other _ _ (Ne.symm hpv)]
      exact hlong
    have hpb : sb.vars (.user p) = some ob := by
      show upd (upd s.vars (.user p) _) (.user q) _ (.user p) = _
      rw [upd_other _ _ (Ne.symm hqp), upd_same]
    have hother : (Op.copy q v).run cfg sa = (.ok (), sc) := by
      show ctorCopy cfg (.user q) (.user v) sa = _
      rw [← ctorCopyDuring_alone]
      refine ctorCopyDuring_step (t := sa) (t2 := sb) (n := n) (n' := n) hal ?_ ?_ hB hm' rfl (upd_same _ _ _) hvb hB
      · show upd s.vars (.user p) _ (.user q) = none
        rw [upd_other _ _ hqp]; exact vq
      · show upd s.vars (.user p) _ (.user v) = _
        rw [upd_other _ _ (Ne.symm hpv)]; exact hlong
    have hall := ctorCopyDuring_step (cfg := cfg) (t := s) (t2 := sc) (n := n) (n' := n + 1) (other := (Op.copy q v).run cfg) hal vp hlong hB hm'
      hother hpb hvb (upd_same _ _ _)
    have nq : Obj.user q ∉ L0 := fun hm => by
      have := (hL _).1 hm
      unfold blkOf at this
      rw [vq] at this
      cases this
    have np : Obj.user p ∉ L0 := fun hm => by
      have := (hL _).1 hm
      unfold blkOf at this
      rw [vp] at this
      cases this
    have hL1 : 1 ≤ L0.length := hk ha
    refine ⟨_, ⟨some (n + 1), src, cells⟩, .user p :: .user q :: L0, hall, upd_same _ _ _, ?_, ?_, ?_, ?_⟩
    · refine List.nodup_cons.2 ⟨?_, List.nodup_cons.2 ⟨nq, nd⟩⟩
      simp only [List.mem_cons, not_or]
      exact ⟨Ne.symm hqp, np⟩
    · intro o
      simp only [List.mem_cons, hL]
      show _ ↔ ((upd (upd s.vars (.user p) (some ob)) (.user q) (some ob) o).bind fun ob => ob.core.blk?) = some d
      by_cases h1 : o = .user q
      · subst h1; simp [ob, Core.blk?]
      · rw [upd_other _ _ h1]
        by_cases h2 : o = .user p
        · subst h2; simp [ob, Core.blk?]
        · rw [upd_other _ _ h2]
          simp only [h1, h2, false_or]
          rfl
    · simp only [List.length_cons]
      congr 1
      omega
    · simp only [List.length_cons]
      omega

example : ∀ dbg ∈ [false, true],
    (runOk (heapCfg dbg) [.makeFill 0 0 300 97, .copy 1 0] St.init).2.vars (.user 0) = some ⟨.ml 0 300 300 true, 0⟩ := by
  decide +kernel

end Verif.Str
