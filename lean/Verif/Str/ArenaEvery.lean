import Verif.Str.StringMore
import Verif.Str.StringViolations
import Verif.Str.RoomProps

/-!
C62 in every state: what `swap`, `replace` with a source in the string itself and assigning a character do with allocators.
-/

namespace Verif.Str

/-! ### Lemmas -/

theorem checker_throws (hw : WInv cfg s) {cs : List Cell} (h : Raw cfg s v cs) {body : M β} {w : String}
    (e : body s = (.error (.throw w), s)) : checker cfg v body s = (.error (.throw w), s) := by
  have hs := sane_ok hw h
  unfold checker
  rw [bind_ok hs]
  unfold checking
  rw [e]
  simp only [hs]

theorem bind_throw {x : M β} {f : β → M γ} {e : Fault} (h : x s = (.error e, s')) : (x >>= f) s = (.error e, s') := by
  rw [bind_apply, h]

/-- Debug builds make no string on the default resource. -/
theorem construct_refused (ha : cfg.arena = true) (hd : cfg.dbg = true) {t : Obj} (ht : s.vars t = none) (body : M Unit) :
    construct cfg t 0 body s = (.error (.throw "logic_error"), s) := by
  refine bind_throw ?_
  unfold newOb
  simp [ht, ha, hd]

/-! ### C62 -/

/-- C62, violated in every state of a debug build: a character assigned to a shared string on an arena throws, and nothing changes. -/
theorem arena_assign_char_everywhere_violated (hc : cfg.Ok) (ha : cfg.arena = true) (hd : cfg.dbg = true) (h : Reach cfg a s)
    (hv : a v = some xs) (hx : xs ≠ []) {p : Ptr} {cap : Nat} (hs : (storage cfg v s).1 = .ok (p, cap, true)) (c : Ch) :
    (Op.assignChar v c).run cfg s = (.error (.throw "logic_error"), s) := by
  have hr := (reach_rel hc h).1
  obtain ⟨ob, l, g, _⟩ := h.holds hc hv
  have hraw : Raw cfg s (.user v) (l.take xs.length) := ⟨ob, l, _, g, rfl⟩
  obtain ⟨b, hb, _⟩ := isShared_ok hr.inv hraw
  have hbt : b = true := by
    obtain ⟨c', d1, _⟩ := g.capM hr.inv
    unfold storage at hs
    rw [bind_ok g.dataM, bind_ok d1, bind_ok hb] at hs
    simp only [pure, M.pure, Except.ok.injEq, Prod.mk.injEq] at hs
    exact hs.2.2
  subst hbt
  have hne : xs.length ≠ 0 := fun e => hx (List.eq_nil_of_length_eq_zero e)
  show assignChar cfg (.user v) c s = _
  refine checker_throws hr.inv hraw ?_
  rw [bind_ok g.sizeM, bind_ok hb]
  simp only [if_neg hne, if_true]
  exact bind_throw (construct_refused ha hd (hr.tmps 4) _)

/-- C62, violated in every state of a debug build: `replace` in a string on an arena that is not shared, with part of the string itself,
throws, and nothing changes. -/
theorem arena_replace_alias_everywhere_violated (hc : cfg.Ok) (ha : cfg.arena = true) (hd : cfg.dbg = true) (h : Reach cfg a s)
    (hv : a v = some xs) {p : Ptr} {cap : Nat} (hs : (storage cfg v s).1 = .ok (p, cap, false)) {pos n1 i n : Nat}
    (hpos : pos ≤ xs.length) (hi : i ≤ xs.length) :
    (Op.replace v pos n1 (.sub v i n)).run cfg s = (.error (.throw "logic_error"), s) := by
  have hr := (reach_rel hc h).1
  obtain ⟨ob, l, g, _⟩ := h.holds hc hv
  have hraw : Raw cfg s (.user v) (l.take xs.length) := ⟨ob, l, _, g, rfl⟩
  obtain ⟨b, hb, hex⟩ := isShared_ok hr.inv hraw
  have hbt : b = false := by
    obtain ⟨c', d1, _⟩ := g.capM hr.inv
    unfold storage at hs
    rw [bind_ok g.dataM, bind_ok d1, bind_ok hb] at hs
    simp only [pure, M.pure, Except.ok.injEq, Prod.mk.injEq] at hs
    exact hs.2.2
  have hbeg := begin_own hr.inv (v := .user v) ⟨ob, l, _, g, hex hbt, rfl, rfl⟩
  have hoff : (ob.core.ptr (.user v)).off = 0 := by
    rcases ob with ⟨_ | _, _⟩ <;> rfl
  have hadd : ∀ j, ((ob.core.ptr (.user v)).add j).off = j := by
    intro j
    rcases ob with ⟨_ | _, _⟩ <;> simp [Core.ptr, Ptr.add, Ptr.off]
  have hsame : ∀ j, ((ob.core.ptr (.user v)).add j).same (ob.core.ptr (.user v)) = true := by
    intro j
    rcases ob with ⟨_ | _, _⟩ <;> simp [Core.ptr, Ptr.add, Ptr.same]
  show (Src.resolve (.sub v i n) >>= fun x => Str.replace cfg (.user v) pos n1 x.1 x.2) s = _
  have e0 : Src.resolve (.sub v i n) s = (.ok ((ob.core.ptr (.user v)).add i, n), s) := by
    show (dataPtr (.user v) >>= fun p => pure (p.add i, n)) s = _
    rw [bind_ok g.dataM]; rfl
  rw [bind_ok e0]
  refine checker_throws hr.inv hraw ?_
  rw [bind_ok g.sizeM]
  have e1 : enforce (decide (pos ≤ xs.length)) s = (.ok (), s) := by
    unfold enforce; rw [if_pos (by simpa using hpos)]; rfl
  have e2 : replaceCheck cfg (.user v) ((ob.core.ptr (.user v)).add pos) (min n1 (xs.length - pos)) s = (.ok (), s) := by
    unfold replaceCheck
    rw [if_pos hd, bind_ok hbeg, bind_ok g.sizeM]
    refine assert_ok ?_ _
    simp only [hsame, hoff, hadd, Bool.true_and, Bool.and_eq_true, decide_eq_true_eq]
    omega
  rw [bind_ok e1]
  simp only
  rw [bind_ok hbeg, bind_ok e2]
  refine checker_throws hr.inv hraw ?_
  rw [bind_ok hbeg, bind_ok g.sizeM]
  have e3 : Ptr.within ((ob.core.ptr (.user v)).add i) (ob.core.ptr (.user v)) (xs.length + 1) = true := by
    simp only [Ptr.within, hsame, hoff, hadd, Bool.true_and, Bool.and_eq_true, decide_eq_true_eq]
    omega
  simp only [e3, if_true]
  exact bind_throw (construct_refused ha hd (hr.tmps 2) _)

/-- C62, violated in every state: `swap` of two strings of different resources exchanges their memory but not their allocators, so that
each string then uses memory of the other's resource. -/
theorem arena_swap_everywhere_violated {u v d : Nat} {ou ov : Ob} {B : Blk} (hne : u ≠ v)
    (hu : s.vars (.user u) = some ou) (hv : s.vars (.user v) = some ov) (hd : ov.core.blk? = some d) (hB : s.heap d = some B)
    (hsrc : B.src = ov.al) (hal : ou.al ≠ ov.al) :
    ∃ s' ob', (Op.swap u v).run cfg s = (.ok (), s') ∧ s'.vars (.user u) = some ob' ∧ ob'.al = ou.al ∧ ob'.core.blk? = some d ∧
      s'.heap d = some B ∧ B.src ≠ ob'.al := by
  have h1 : Obj.user u ≠ .user v := fun e => hne (by cases e; rfl)
  refine ⟨⟨s.heap, s.next, upd (upd s.vars (.user u) (some ⟨ov.core, ou.al⟩)) (.user v) (some ⟨ou.core, ov.al⟩), s.refused, s.lost⟩,
    ⟨ov.core, ou.al⟩, ?_, ?_, rfl, hd, hB, fun e => hal (by rw [← e, hsrc])⟩
  · show Str.swap (.user u) (.user v) s = _
    unfold Str.swap
    rw [bind_ok (getOb_ok hu), bind_ok (getOb_ok hv), bind_ok (setCore_ok hu)]
    exact setCore_ok (by simp [upd, h1.symm, hv])
  · simp [upd, h1]

/-- The hypotheses are met: strings that share an array, a string of its own, strings on two arenas. -/
example : (∃ a s p cap, Reach (arenaCfg true) a s ∧ a 0 = some (List.replicate 300 97) ∧ (storage (arenaCfg true) 0 s).1 = .ok (p, cap, true)) ∧
    (∃ a s p cap, Reach (arenaCfg true) a s ∧ a 0 = some (List.replicate 100 97) ∧ (storage (arenaCfg true) 0 s).1 = .ok (p, cap, false)) ∧
    (∃ a s ou ov B, Reach (arenaCfg true) a s ∧ s.vars (.user 0) = some ou ∧ s.vars (.user 1) = some ov ∧ ov.core.blk? = some 1 ∧
      s.heap 1 = some B ∧ B.src = ov.al ∧ ou.al ≠ ov.al) := by
  refine ⟨?_, ?_, ?_⟩
  · obtain ⟨a, h, e, _⟩ := reached (arenaCfg_ok true) (v := 0) (xs := List.replicate 300 97)
      (ops := [.makeFill 0 1 300 97, .copy 1 0]) (by decide +kernel) (by decide +kernel)
    exact ⟨a, _, .blk 0 0, 300, h, e, by decide +kernel⟩
  · obtain ⟨a, h, e, _⟩ := reached (arenaCfg_ok true) (v := 0) (xs := List.replicate 100 97)
      (ops := [.makeFill 0 1 100 97]) (by decide +kernel) (by decide +kernel)
    exact ⟨a, _, .blk 0 0, 100, h, e, by decide +kernel⟩
  · obtain ⟨a, h, e, _⟩ := reached (arenaCfg_ok true) (v := 0) (xs := List.replicate 100 97)
      (ops := [.makeFill 0 1 100 97, .makeFill 1 2 100 98]) (by decide +kernel) (by decide +kernel)
    refine ⟨a, _, _, _, _, h, Option.eq_some_of_isSome (o := St.vars _ _) ?_, Option.eq_some_of_isSome (o := St.vars _ _) ?_, ?_,
      Option.eq_some_of_isSome (o := St.heap _ 1) ?_, ?_, ?_⟩ <;> decide +kernel

end Verif.Str
