import Verif.Str.Sole
import Verif.Str.Catch
import Verif.Str.StringProps
import Verif.Str.ThreadLemmas

/-!
C85: a program that runs out of memory in a call on a string can catch the exception.
-/

namespace Verif.Str

open M

variable {cfg : Cfg} {a a' : Abs} {s s' : St}

/-! ### Lemmas -/

/-- The strings in `L` are not shared: then the invariant of `Sole` holds. -/
theorem only_of_unshared (hw : WInv cfg s) (ht : ∀ i, s.vars (.tmp i) = none) {L : List Nat}
    (hL : ∀ v ∈ L, (isShared (.user v) s).1 ≠ .ok true) :
    Only (fun o => (∃ v ∈ L, o = .user v) ∨ ∃ i, o = .tmp i)
      (fun b => b < s.next ∧ ∀ v ∈ L, blkOf s (.user v) ≠ some b) s := by
  refine ⟨fun o ob ho h => ?_, fun b h => h.1, fun b B hb hB => ?_⟩
  · rcases ho with ⟨v, hv, rfl⟩ | ⟨i, rfl⟩
    · rcases ob with ⟨c, al⟩
      cases c with
      | small _ => trivial
      | ml d k cap l => exact fun hn => hn.2 v hv (blkOf_ml h)
    · rw [ht] at h; cases h
  · have hlt : b < s.next := by
      by_contra hn
      rw [hw.fresh b (by omega)] at hB
      cases hB
    have : ∃ v ∈ L, blkOf s (.user v) = some b := by
      by_contra hn
      exact hb ⟨hlt, fun v hv e => hn ⟨v, hv, e⟩⟩
    obtain ⟨v, hv, e⟩ := this
    cases ho : s.vars (.user v) with
    | none => simp [blkOf, ho] at e
    | some ob =>
      rcases ob with ⟨c, al⟩
      cases c with
      | small _ => simp [blkOf, ho, Core.blk?] at e
      | ml d k cap l =>
        have : d = b := by simpa [blkOf, ho, Core.blk?] using e
        subst this
        obtain ⟨B', hB', _, _, _, c4, _⟩ := hw.core _ _ ho
        rw [hB] at hB'
        cases hB'
        cases l with
        | false =>
          cases hr : B.rc with
          | none => simp
          | some n => rw [hr] at c4; simp at c4
        | true =>
          obtain ⟨r, hr⟩ := Option.isSome_iff_exists.1 c4
          have h1 := hL v hv
          rcases B with ⟨rc, src, cells⟩
          cases hr
          have e1 : isShared (.user v) s = (.ok (decide (1 < r)), s) := by
            unfold isShared
            rw [bind_ok (getOb_ok ho)]
            simp only
            rw [bind_ok (refs_ok hB)]
            rfl
          rw [e1] at h1
          show r ≤ 1
          by_contra hn
          exact h1 (by simp; omega)

instance {L : List Nat} : Mine (fun o => (∃ v ∈ L, o = Obj.user v) ∨ ∃ i, o = .tmp i) := ⟨fun i => .inr ⟨i, rfl⟩⟩

/-- An exception leaving a `noexcept` function. -/
theorem noexcept_throw {β : Type} {x : M β} {w : String} (h : x s = (.error (.throw w), s')) :
    noexcept x s = (.error (.throw "terminate"), s') := by
  unfold noexcept; rw [h]

/-- A `noexcept` function that throws nothing here. -/
theorem noexcept_calm {β : Type} {x : M β} (h : ∀ w, (x s).1 ≠ .error (.throw w)) (w : String) :
    (noexcept x s).1 ≠ .error (.throw w) := by
  unfold noexcept
  rcases e : x s with ⟨r, s1⟩
  rw [e] at h
  cases r with
  | ok b => simp
  | error f =>
    cases f with
    | throw w' => exact absurd rfl (h w')
    | ub _ => simp
    | assertFail _ => simp

theorem Safe.at {β : Type} {x : M β} (h : Safe (fun _ => True) x) (s : St) (w : String) : (x s).1 ≠ .error (.throw w) := by
  intro e
  rcases hx : x s with ⟨r, s1⟩
  rw [hx] at e
  subst e
  exact h.safe s w s1 hx trivial

/-- `pop_back()` of a string that is not shared throws nothing. -/
theorem popBack_unshared (hw : WInv cfg s) {v : Obj} {cs : List Cell} (hv : Raw cfg s v cs) (h0 : cs ≠ [])
    (hs : (isShared v s).1 ≠ .ok true) (w : String) : (popBack cfg v s).1 ≠ .error (.throw w) := by
  unfold popBack
  refine noexcept_calm (fun w => ?_) w
  have hpos : 0 < cs.length := List.length_pos_of_ne_nil h0
  rw [bind_ok (hv.sizeM hw), bind_ok (assert_ok (decide_eq_true (Nat.ne_of_gt hpos)) _)]
  obtain ⟨b, hb, hx⟩ := isShared_ok hw hv
  rw [hb] at hs
  have hx := hx (by simpa using hs)
  obtain ⟨ob, l, n, h, rfl⟩ := hv
  unfold shrink
  rw [bind_ok (getOb_ok h.var)]
  obtain ⟨core, al⟩ := ob
  cases core with
  | small c => exact (shrinkSmall_safe _ _).at s w
  | ml d m cap large =>
    cases large with
    | false => exact (shrinkMedium_safe ..).at s w
    | true =>
      obtain ⟨B, hB, hr⟩ := hx d m cap al h.var
      obtain ⟨rc, src, cells⟩ := B
      cases hr
      simp only
      rw [bind_ok (refs_ok hB), if_pos rfl]
      exact (shrinkMedium_safe ..).at s w

/-- Nothing thrown: an exception neither. -/
theorem ok_ne {x : Except Fault Unit × St} (h : x = (.ok (), s')) (w : String) : x.1 ≠ .error (.throw w) := by
  rw [h]; simp

/-! ### C85: what holds -/

/-- C85: making a string, appending, `resize`, `reserve`, `shrink_to_fit`, `clear`, `getline`, moving into a new string,
`swap` and the end of a string never end the program, in whatever state.  With an arena, neither does copying. -/
theorem throws_only (op : Op) (h : op.throwsOnly cfg.arena = true) (s : St) : (op.run cfg s).1 ≠ .error (.throw "terminate") := by
  intro e
  rcases hx : op.run cfg s with ⟨r, s1⟩
  rw [hx] at e
  subst e
  exact (op.run_safe cfg h).safe s _ s1 hx rfl

-- no memory for 300 characters; none for the copy of a string on an arena
example : (Op.makeFill 0 0 300 97).throwsOnly false = true ∧
    ((Op.makeFill 0 0 300 97).run ⟨1, true, false, fun _ _ => false⟩ St.init).1 = .error (.throw "bad_alloc") ∧
    (runOk ⟨1, true, true, fun i _ => i == 0⟩ [.makeFill 0 1 100 97, .copy 1 0] St.init).1 = .error (.throw "bad_alloc") := by
  decide +kernel

/-- C85: no operation other than copying ends the program if the strings it changes are not shared. -/
theorem unshared_throws_partial (hc : cfg.Ok) (h : Reach cfg a s) {op : Op} {o : Out} (ho : op.spec cfg.arena a = some o)
    (hcopy : ∀ v u, op ≠ .copy v u ∧ op ≠ .clone v u) (hs : ∀ v ∈ op.targets, (isShared (.user v) s).1 ≠ .ok true) :
    (op.run cfg s).1 ≠ .error (.throw "terminate") := by
  have hr := (reach_rel hc h).1
  by_cases h3 : ∃ v, op = .popBack v
  · obtain ⟨v, rfl⟩ := h3
    simp only [Op.spec] at ho
    cases hv : a v with
    | none => rw [hv] at ho; cases ho
    | some xs =>
      rw [hv] at ho
      have h0 : xs ≠ [] := by
        rintro rfl
        simp at ho
      exact popBack_unshared hr.inv (hr.held v xs hv) (by simpa using h0) (hs v (by simp [Op.targets])) _
  · by_cases h4 : ∃ v u, op = .assignMove v u
    · obtain ⟨v, u, rfl⟩ := h4
      simp only [Op.spec] at ho
      cases hv : a v with
      | none => rw [hv] at ho; cases ho
      | some xs =>
        rw [hv] at ho
        cases hu : a u with
        | none => rw [hu] at ho; cases ho
        | some ys =>
          by_cases huv : Obj.user u = .user v
          · refine ok_ne (s' := s) ?_ _
            show noexcept _ s = _
            exact noexcept_ok (by rw [if_pos huv]; rfl)
          · obtain ⟨s', e, _⟩ := assignMove_ok hr.inv (hr.held v xs hv) (hr.held u ys hu) huv
            exact ok_ne e _
    · have := op_sole (cfg := cfg) (V := fun o => (∃ v ∈ op.targets, o = Obj.user v) ∨ ∃ i, o = .tmp i)
        (N := fun b => b < s.next ∧ ∀ v ∈ op.targets, blkOf s (.user v) ≠ some b) op (fun v hv => .inl ⟨v, hv, rfl⟩)
        (fun v u => (hcopy v u).1) (fun v u => (hcopy v u).2) (fun v e => h3 ⟨v, e⟩) (fun v u e => h4 ⟨v, u, e⟩)
      exact this.safe s (only_of_unshared hr.inv hr.tmps hs)

/-! ### C85: violations -/

/-- From here on `malloc` refuses the next request. -/
def Refuses (cfg : Cfg) (s : St) : Prop := ∀ n, cfg.malloc s.next n = false

theorem bind_fault {β γ : Type} {x : M β} {f : β → M γ} {e : Fault} (h : x s = (.error e, s')) : (x >>= f) s = (.error e, s') := by
  rw [bind_apply, h]

/-- The memory as it was, except for the traces of a refused request. -/
structure Bare (s s' : St) : Prop where
  vars : s'.vars = s.vars
  heap : s'.heap = s.heap
  next : s.next ≤ s'.next

theorem Bare.inv (h : Bare s s') (hw : WInv cfg s) : WInv cfg s' := by
  obtain ⟨hv, hh, hn⟩ := h
  rcases s with ⟨heap, next, vars, refused, lost⟩
  rcases s' with ⟨heap', next', vars', refused', lost'⟩
  simp only at hv hh hn
  subst hv
  subst hh
  exact ⟨fun b hb => hw.fresh b (Nat.le_trans hn hb), hw.core, hw.own, hw.al, hw.src, hw.agree⟩

theorem Bare.raw (h : Bare s s') {v : Obj} {cs : List Cell} (hv : Raw cfg s v cs) : Raw cfg s' v cs := by
  obtain ⟨h1, h2, hn⟩ := h
  rcases s with ⟨heap, next, vars, refused, lost⟩
  rcases s' with ⟨heap', next', vars', refused', lost'⟩
  simp only at h1 h2 hn
  subst h1
  subst h2
  obtain ⟨ob, l, n, h, rfl⟩ := hv
  exact ⟨ob, l, n, ⟨h.var, h.cells, h.size⟩, rfl⟩

/-- A refused request. -/
theorem alloc_refused (hm : Refuses cfg s) (al : Nat) (hdr : Bool) (n : Nat) :
    ∃ w s', alloc cfg al hdr n s = (.error (.throw w), s') ∧ Bare s s' := by
  unfold alloc
  split
  · exact ⟨_, _, rfl, rfl, rfl, Nat.le_refl _⟩
  · rw [if_neg (by simp [hm n])]
    exact ⟨_, _, rfl, rfl, rfl, Nat.le_succ _⟩

theorem create_refused (hm : Refuses cfg s) (al n : Nat) :
    ∃ w s', create cfg al n s = (.error (.throw w), s') ∧ Bare s s' := by
  unfold create largeBytes
  have hl : ∃ w s', (lengthError : M Nat) s = (.error (.throw w), s') ∧ Bare s s' := ⟨_, _, rfl, rfl, rfl, Nat.le_refl _⟩
  split
  · split
    · obtain ⟨w, s', e, hb⟩ := alloc_refused hm al true ((n + 1) * cfg.w + 8)
      refine ⟨w, s', ?_, hb⟩
      show (alloc cfg al true ((n + 1) * cfg.w + 8) >>= fun _ => _) s = _
      exact bind_fault e
    · obtain ⟨w, s', e, hb⟩ := hl
      exact ⟨w, s', bind_fault e, hb⟩
  · obtain ⟨w, s', e, hb⟩ := hl
    exact ⟨w, s', bind_fault e, hb⟩

/-- `begin()` of a shared string ends the program. -/
theorem begin_refused {v : Obj} (hs : isShared v s = (.ok true, s)) (hm : Refuses cfg s) :
    ∃ s', begin_ cfg v s = (.error (.throw "terminate"), s') ∧ Bare s s' := by
  have key : ∃ w s', mutableData cfg v s = (.error (.throw w), s') ∧ Bare s s' := by
    have : ∀ (c : Bool) (x : M Ptr), (∃ w s', x s = (.error (.throw w), s') ∧ Bare s s') →
        ∃ w s', noexceptIf c x s = (.error (.throw w), s') ∧ Bare s s' := by
      rintro c x ⟨w, s', e, hb⟩
      cases c
      · exact ⟨w, s', e, hb⟩
      · exact ⟨_, s', noexcept_throw e, hb⟩
    refine this _ _ ?_
    unfold isShared at hs
    cases ho : s.vars v with
    | none => rw [bind_apply] at hs; simp [getOb, ho] at hs
    | some o =>
      rw [bind_ok (getOb_ok ho)] at hs ⊢
      rcases o with ⟨c, al⟩
      cases c with
      | small _ => simp [pure, M.pure] at hs
      | ml d k cap l =>
        cases l with
        | false => simp [pure, M.pure] at hs
        | true =>
          simp only at hs ⊢
          obtain ⟨r, s1, e1, e2⟩ := bind_ok_inv hs
          have e3 : s1 = s ∧ 1 < r := by
            simp only [pure, M.pure, Prod.mk.injEq, Except.ok.injEq, decide_eq_true_eq] at e2
            exact ⟨e2.2, e2.1⟩
          obtain ⟨rfl, h1⟩ := e3
          rw [bind_ok e1, if_pos h1]
          obtain ⟨w, s', e, hb⟩ := create_refused hm al (max 0 cap)
          refine ⟨w, s', bind_fault ?_, hb⟩
          unfold unshare
          rw [bind_ok (getOb_ok ho)]
          exact bind_fault e
  obtain ⟨w, s', e, hb⟩ := key
  exact ⟨s', noexcept_throw e, hb⟩

theorem checker_begin {β : Type} {body : M β} {v : Obj} {cs : List Cell} {w : String} (hw : WInv cfg s) (hv : Raw cfg s v cs)
    (hb : body s = (.error (.throw w), s')) (hs : Bare s s') : (checker cfg v body s).1 = .error (.throw w) := by
  unfold checker
  rw [bind_ok (sane_ok hw hv)]
  unfold checking
  rw [hb]
  simp only [sane_ok (hs.inv hw) (hs.raw hv)]

/-- The string whose characters an operation is about to write through `begin()`. -/
def Op.edits : Op → Option Nat
  | .setAt v _ _ | .insert v _ _ | .insertFill v _ _ _ | .appendRange v _ | .erase v _ _ | .replace v _ _ _ | .replaceFill v _ _ _ _
  | .assignFill v _ _ => some v
  | _ => none

/-- C85 violated: writing an element, `insert`, `erase`, `replace`, `assign(n, c)` and appending a range end the program
if the string is shared and there is no memory for a copy. -/
theorem shared_edit_violated (hc : cfg.Ok) (h : Reach cfg a s) {op : Op} (ho : op.spec cfg.arena a = some (.done a')) {v : Nat}
    (hv : op.edits = some v) (hs : isShared (.user v) s = (.ok true, s)) (hm : Refuses cfg s) :
    (op.run cfg s).1 = .error (.throw "terminate") := by
  have hr := (reach_rel hc h).1
  obtain ⟨s', eb, hb⟩ := begin_refused hs hm
  have alive : ∀ {o : Option Out} {f : List Ch → Option Out}, (a v).bind f = o → o ≠ none → ∃ xs, a v = some xs ∧ f xs = o := by
    intro o f e hne
    cases hx : a v with
    | none => rw [hx] at e; exact absurd e.symm hne
    | some xs => rw [hx] at e; exact ⟨xs, rfl, e⟩
  have found : ∀ {src : Src} {o : Option Out} {f : List Ch → Option Out}, (src.chars a).bind f = o → o ≠ none →
      ∃ ys, src.chars a = some ys ∧ f ys = o := by
    intro src o f e hne
    cases hx : src.chars a with
    | none => rw [hx] at e; exact absurd e.symm hne
    | some xs => rw [hx] at e; exact ⟨xs, rfl, e⟩
  have pass : ∀ {xs : List Ch} {pos : Nat}, a v = some xs → pos ≤ xs.length → ∀ {β : Type} (f : Nat → M β),
      (do let k ← size cfg (.user v); enforce (decide (pos ≤ k)); f k) s = f xs.length s := by
    intro xs pos hx hp β f
    have h1 := (hr.held v xs hx).sizeM hr.inv
    rw [List.length_map] at h1
    rw [bind_ok h1]
    unfold enforce
    rw [if_pos (by simpa using hp)]
    rfl
  cases op with
  | setAt v' i c =>
    cases hv
    exact congrArg Prod.fst (bind_fault eb)
  | assignFill v' n c =>
    cases hv
    exact congrArg Prod.fst (bind_fault eb)
  | appendRange v' src =>
    cases hv
    obtain ⟨xs, hx, ho⟩ := alive ho (by simp)
    obtain ⟨ys, hy, ho⟩ := found ho (by simp)
    obtain ⟨p, hp, _⟩ := resolve_ok hc hr hy v
    show ((src.resolve >>= _) s).1 = _
    rw [bind_ok hp]
    exact congrArg Prod.fst (bind_fault eb)
  | insert v' pos src =>
    cases hv
    obtain ⟨xs, hx, ho⟩ := alive ho (by simp)
    obtain ⟨ys, hy, ho⟩ := found ho (by simp)
    obtain ⟨p, hp, _⟩ := resolve_ok hc hr hy v
    have hpos : pos ≤ xs.length := by
      by_contra hn
      rw [if_neg hn] at ho
      split at ho <;> cases ho
    show ((src.resolve >>= _) s).1 = _
    rw [bind_ok hp]
    show (insert cfg (.user v) pos p _ s).1 = _
    unfold insert
    rw [pass hx hpos]
    exact congrArg Prod.fst (bind_fault eb)
  | insertFill v' pos n c =>
    cases hv
    obtain ⟨xs, hx, ho⟩ := alive ho (by simp)
    have hpos : pos ≤ xs.length := by
      by_contra hn
      rw [if_neg hn] at ho
      cases ho
    show (insertFill cfg (.user v) pos n c s).1 = _
    unfold insertFill
    rw [pass hx hpos]
    exact congrArg Prod.fst (bind_fault eb)
  | erase v' pos n =>
    cases hv
    obtain ⟨xs, hx, ho⟩ := alive ho (by simp)
    have hpos : pos ≤ xs.length := by
      by_contra hn
      rw [if_neg hn] at ho
      cases ho
    refine checker_begin hr.inv (hr.held v xs hx) ?_ hb
    rw [pass hx hpos]
    exact bind_fault eb
  | replace v' pos n1 src =>
    cases hv
    obtain ⟨xs, hx, ho⟩ := alive ho (by simp)
    obtain ⟨ys, hy, ho⟩ := found ho (by simp)
    obtain ⟨p, hp, _⟩ := resolve_ok hc hr hy v
    have hpos : pos ≤ xs.length := by
      by_contra hn
      rw [if_neg hn] at ho
      split at ho <;> cases ho
    show ((src.resolve >>= _) s).1 = _
    rw [bind_ok hp]
    refine checker_begin hr.inv (hr.held v xs hx) ?_ hb
    rw [pass hx hpos]
    exact bind_fault eb
  | replaceFill v' pos n1 n2 c =>
    cases hv
    obtain ⟨xs, hx, ho⟩ := alive ho (by simp)
    have hpos : pos ≤ xs.length := by
      by_contra hn
      rw [if_neg hn] at ho
      cases ho
    refine checker_begin hr.inv (hr.held v xs hx) ?_ hb
    rw [pass hx hpos]
    exact bind_fault eb
  | _ => cases hv

theorem constructing_ok_inv {v : Obj} {body : M Unit} (h : constructing v body s = (.ok (), s')) : body s = (.ok (), s') := by
  unfold constructing at h
  generalize body s = x at h ⊢
  obtain ⟨x, s1⟩ := x
  cases x with
  | ok _ => exact h
  | error e => cases e <;> cases h

theorem initCheck_still (v : Obj) (p : Ptr) (n : Nat) : Still (initCheck cfg v p n) := by
  unfold initCheck
  stilled

/-- A string made from more characters than fit inside the object, but not too many, has a block of its own. -/
theorem make_medium {v : Obj} {al : Nat} {p : Ptr} {n : Nat} (h1 : cfg.ms < n) (h2 : n ≤ cfg.mm)
    (h : ctorData cfg v al p n s = (.ok (), s')) : ∃ d cap al', s'.vars v = some ⟨.ml d n cap false, al'⟩ := by
  unfold ctorData construct at h
  obtain ⟨_, s1, _, h⟩ := bind_ok_inv h
  obtain ⟨_, s2, h, h'⟩ := bind_ok_inv (constructing_ok_inv h)
  have hst := initCheck_still (cfg := cfg) v p n s2
  rw [h'] at hst
  have hst : s' = s2 := hst
  subst hst
  unfold initData at h
  rw [if_neg (by simp; omega), if_pos h2] at h
  unfold initMedium at h
  obtain ⟨b, s3, _, h⟩ := bind_ok_inv h
  obtain ⟨_, s4, _, h⟩ := bind_ok_inv h
  obtain ⟨_, s5, h5, h⟩ := bind_ok_inv h
  have e5 : ∃ al', s5.vars v = some ⟨.ml b n (mul64 (add64 1 n) cfg.w / cfg.w - 1) false, al'⟩ := by
    unfold setCore at h5
    split at h5
    · cases h5
      exact ⟨_, upd_same _ _ _⟩
    · cases h5
  obtain ⟨al', e5⟩ := e5
  refine ⟨b, mul64 (add64 1 n) cfg.w / cfg.w - 1, al', ?_⟩
  unfold writeCells at h
  simp only at h
  repeat' split at h
  all_goals cases h
  exact e5

/-- C85 violated: copying a string of medium length ends the program if there is no memory. -/
theorem copy_violated (hc : cfg.Ok) (ha : cfg.arena = false) (h : Reach cfg a s) {v u : Nat} {xs : List Ch} {src : Src}
    (hsrc : src.chars a = some xs) (h1 : cfg.ms < xs.length) (h2 : xs.length ≤ cfg.mm) (hu : a u = none)
    (hm : (Op.make u 0 src).run cfg s = (.ok (), s')) (hv : a v = none) (hne : v ≠ u) (hf : Refuses cfg s') :
    ((Op.copy v u).run cfg s').1 = .error (.throw "terminate") := by
  have hr := (reach_rel hc h).1
  have hsp : (Op.make u 0 src).spec cfg.arena a = some (.done (upd a u (some xs))) := by
    simp [Op.spec, hsrc, ha, Abs.make, hu]
  have hr' := (reach_rel hc (Reach.done h hsp hm)).1
  have hv' : s'.vars (.user v) = none := hr'.absent v (by rw [upd_other _ _ hne]; exact hv)
  obtain ⟨p, hp, _⟩ := resolve_ok hc hr hsrc u
  have hm : (src.resolve >>= _) s = (.ok (), s') := hm
  rw [bind_ok hp] at hm
  obtain ⟨d, cap, al, ho⟩ := make_medium (by simpa using h1) (by simpa using h2) hm
  have key : ∃ w s2, construct cfg (.user v) al (do
      copyCore cfg (.user v) ⟨.ml d (xs.map some : List Cell).length cap false, al⟩
      copyCheck cfg (.user v) (.user u)) s' = (.error (.throw w), s2) := by
    unfold construct
    rw [bind_ok (newOb_ok hv' (hr'.inv.al _ _ ho))]
    obtain ⟨w, s2, e, _⟩ := alloc_refused (cfg := cfg)
      (s := { s' with vars := upd s'.vars (.user v) (some ⟨.small (List.replicate (cfg.ms + 1) (some 0)), al⟩) }) hf al false
      (mul64 (add64 1 (xs.map some : List Cell).length) cfg.w)
    refine ⟨w, { s2 with vars := upd s2.vars (.user v) none }, ?_⟩
    unfold constructing
    have : (do
      copyCore cfg (.user v) ⟨.ml d (xs.map some : List Cell).length cap false, al⟩
      copyCheck cfg (.user v) (.user u) : M Unit)
        { s' with vars := upd s'.vars (.user v) (some ⟨.small (List.replicate (cfg.ms + 1) (some 0)), al⟩) } = (.error (.throw w), s2) :=
      bind_fault (bind_fault e)
    rw [this]
  obtain ⟨w, s2, e⟩ := key
  show (ctorCopy cfg (.user v) (.user u) s').1 = _
  unfold ctorCopy
  rw [ha]
  show (noexcept _ s').1 = _
  have : (do
      let r ← getOb (.user u)
      construct cfg (.user v) r.al do
        copyCore cfg (.user v) r
        copyCheck cfg (.user v) (.user u) : M Unit) s' = (.error (.throw w), s2) := by
    rw [bind_ok (getOb_ok ho)]
    exact e
  rw [noexcept_throw this]

theorem construct_fault {v : Obj} {al : Nat} {body : M Unit} {w : String} (hv : s.vars v = none) (ha : cfg.arena = (al != 0))
    (hb : body { s with vars := upd s.vars v (some ⟨.small (List.replicate (cfg.ms + 1) (some 0)), al⟩) } = (.error (.throw w), s')) :
    construct cfg v al body s = (.error (.throw w), { s' with vars := upd s'.vars v none }) := by
  unfold construct
  rw [bind_ok (newOb_ok hv ha)]
  unfold constructing
  rw [hb]

/-- C85 violated: `pop_back()` ends the program if the string is shared and what remains needs memory that there is
not. -/
theorem pop_back_violated (hc : cfg.Ok) (h : Reach cfg a s) {v : Nat} {xs : List Ch} (hv : a v = some xs) (h1 : cfg.ms + 1 < xs.length)
    (hs : isShared (.user v) s = (.ok true, s)) (hm : Refuses cfg s) :
    ((Op.popBack v).run cfg s).1 = .error (.throw "terminate") := by
  have hr := (reach_rel hc h).1
  have hx := hr.held v xs hv
  have hsz := hx.sizeM hr.inv
  rw [List.length_map] at hsz
  have key : ∃ w s', (do
      let k ← size cfg (.user v)
      assert cfg (decide (k ≠ 0)) "pop_back"
      shrink cfg (.user v) 1 : M Unit) s = (.error (.throw w), s') := by
    rw [bind_ok hsz, bind_ok (assert_ok (decide_eq_true (by omega)) _)]
    unfold shrink
    unfold isShared at hs
    cases ho : s.vars (.user v) with
    | none => rw [bind_apply] at hs; simp [getOb, ho] at hs
    | some o =>
      have hal := hr.inv.al _ _ ho
      unfold size at hsz
      rw [bind_ok (getOb_ok ho)] at hs hsz ⊢
      rcases o with ⟨c, al⟩
      cases c with
      | small _ => simp [pure, M.pure] at hs
      | ml d k cap l =>
        cases l with
        | false => simp [pure, M.pure] at hs
        | true =>
          have hk : k = xs.length := by
            simp only [Core.size?, pure, M.pure, Prod.mk.injEq, Except.ok.injEq, and_true] at hsz
            exact hsz
          subst hk
          simp only at hs ⊢
          obtain ⟨r, s1, e1, e2⟩ := bind_ok_inv hs
          have e3 : s1 = s ∧ 1 < r := by
            simp only [pure, M.pure, Prod.mk.injEq, Except.ok.injEq, decide_eq_true_eq] at e2
            exact ⟨e2.2, e2.1⟩
          obtain ⟨rfl, hr1⟩ := e3
          rw [bind_ok e1, if_neg (by omega)]
          unfold shrinkLarge
          rw [bind_ok (assert_ok (decide_eq_true (by omega)) _), if_neg (by omega)]
          have hsub : sub64 xs.length 1 = xs.length - 1 := by
            obtain ⟨_, _, _, c2, _, _, c5⟩ := hr.inv.core _ _ ho
            have hw0 : 0 < cfg.w := by rcases hc.w with h | h | h <;> omega
            have := Nat.le_mul_of_pos_right (cap + 1) hw0
            exact sub64_of_le (by omega) (by show _ < 18446744073709551616; omega)
          rw [hsub]
          have hall : ∃ w s', (do
              initData cfg (.tmp 1) al (.blk d 0) (xs.length - 1)
              initCheck cfg (.tmp 1) (.blk d 0) (xs.length - 1) : M Unit)
              { s1 with vars := upd s1.vars (.tmp 1) (some ⟨.small (List.replicate (cfg.ms + 1) (some 0)), al⟩) } = (.error (.throw w), s') := by
            unfold initData
            rw [if_neg (by simp; omega)]
            split
            · obtain ⟨w, s2, e, _⟩ := alloc_refused (cfg := cfg)
                (s := { s1 with vars := upd s1.vars (.tmp 1) (some ⟨.small (List.replicate (cfg.ms + 1) (some 0)), al⟩) }) hm al false
                (mul64 (add64 1 (xs.length - 1)) cfg.w)
              exact ⟨w, s2, bind_fault (bind_fault e)⟩
            · obtain ⟨w, s2, e, _⟩ := create_refused (cfg := cfg)
                (s := { s1 with vars := upd s1.vars (.tmp 1) (some ⟨.small (List.replicate (cfg.ms + 1) (some 0)), al⟩) }) hm al (xs.length - 1)
              exact ⟨w, s2, bind_fault (bind_fault e)⟩
          obtain ⟨w, s', e⟩ := hall
          exact ⟨w, _, bind_fault (construct_fault (hr.tmps 1) hal e)⟩
  obtain ⟨w, s', e⟩ := key
  show (noexcept _ s).1 = _
  rw [noexcept_throw e]

/-! ### Cases -/

/-- Strings on the heap, in a debug or a release build; the `k`th request for memory and all after it are refused. -/
def scarceCfg (dbg : Bool) (k : Nat) : Cfg := ⟨1, dbg, false, fun i n => decide (i < k) && decide (n < 4611686018427387904)⟩

theorem scarceCfg_ok (dbg : Bool) (k : Nat) : (scarceCfg dbg k).Ok :=
  ⟨.inl rfl, fun _ _ h => by simp [scarceCfg]; omega⟩

-- a string that is not shared: when 300 characters cannot be inserted this can be caught, and `s[3] = c` needs no memory
example : ∃ a s, Reach (scarceCfg true 1) a s ∧ (isShared (.user 0) s).1 ≠ .ok true ∧
    ((Op.insertFill 0 7 300 98).run (scarceCfg true 1) s).1 = .error (.throw "bad_alloc") ∧
    ((Op.setAt 0 3 98).run (scarceCfg true 1) s).1 = .ok () := by
  obtain ⟨a, h, _⟩ := reached (scarceCfg_ok true 1) (ops := [.makeFill 0 0 100 97]) (v := 0) (xs := List.replicate 100 97)
    (by decide +kernel) (by decide +kernel)
  exact ⟨a, _, h, by decide +kernel, by decide +kernel, by decide +kernel⟩

/-- A string of 300 characters and a copy of it. -/
def sharedSt : St := (runOk (scarceCfg true 1) [.makeFill 0 0 300 97, .copy 1 0] St.init).2

theorem sharedSt_reached : ∃ a, Reach (scarceCfg true 1) a sharedSt ∧ a 0 = some (List.replicate 300 97) := by
  have h1 : (specAll false [.makeFill 0 0 300 97, .copy 1 0] fun _ => none).bind (· 0) = some (List.replicate 300 97) := by
    decide +kernel
  have h2 : (runOk (scarceCfg true 1) [.makeFill 0 0 300 97, .copy 1 0] St.init).1 = .ok () := by decide +kernel
  obtain ⟨a, h3, h4, _⟩ := reached (scarceCfg_ok true 1) h1 h2
  exact ⟨a, h3, h4⟩

theorem isShared_pair {v : Obj} {b : Bool} (h : (isShared v s).1 = .ok b) : isShared v s = (.ok b, s) :=
  Prod.ext h (isShared_still v s)

theorem sharedSt_shared : isShared (.user 0) sharedSt = (.ok true, sharedSt) := by
  have h1 : (isShared (.user 0) sharedSt).1 = .ok true := by decide +kernel
  exact isShared_pair h1

theorem sharedSt_refuses : Refuses (scarceCfg true 1) sharedSt := by
  have : sharedSt.next = 1 := by decide +kernel
  intro n
  rw [this]
  rfl

set_option maxRecDepth 4000 in
example : ((Op.setAt 0 3 98).run (scarceCfg true 1) sharedSt).1 = .error (.throw "terminate") ∧
    ((Op.popBack 0).run (scarceCfg true 1) sharedSt).1 = .error (.throw "terminate") := by
  obtain ⟨a, h, ha⟩ := sharedSt_reached
  constructor
  · exact shared_edit_violated (scarceCfg_ok true 1) h (v := 0) (a' := upd a 0 (some ((List.replicate 300 97).set 3 98)))
      (by simp [Op.spec, ha, Abs.set]) rfl sharedSt_shared sharedSt_refuses
  · exact pop_back_violated (scarceCfg_ok true 1) h ha (by rw [List.length_replicate]; decide) sharedSt_shared sharedSt_refuses

-- a string of 40 characters and no memory for its copy
example : ((Op.copy 1 0).run (scarceCfg true 1) ((Op.make 0 0 (.lit (List.replicate 40 97))).run (scarceCfg true 1) St.init).2).1 =
    .error (.throw "terminate") := by
  refine copy_violated (scarceCfg_ok true 1) rfl .start (v := 1) (u := 0) (src := .lit (List.replicate 40 97)) rfl (by decide) (by decide) rfl
    (Prod.ext (by decide +kernel) rfl) rfl (by decide) fun n => ?_
  have : ((Op.make 0 0 (.lit (List.replicate 40 97))).run (scarceCfg true 1) St.init).2.next = 1 := by decide +kernel
  rw [this]
  rfl

end Verif.Str
