import Verif.Vector.Props2

/-!
C145: vectors of elements that own something.
-/

namespace Verif.Vector

open V

variable {α β γ : Type} {cfg : Cfg α}

/-- The same program in which it is a fault to destroy a moved-from element or to assign to one. -/
def Cfg.watched (cfg : Cfg α) : Cfg α := { cfg with strict := true }

/-! ### Watching changes nothing unless it reports a fault -/

namespace Owners

/-- Where `x` succeeds `y` does the same. -/
def Mon (x y : V α β) : Prop := ∀ s b s', x s = (.ok b, s') → y s = (.ok b, s')

theorem Mon.refl (x : V α β) : Mon x x := fun _ _ _ h => h

theorem Mon.bind {x y : V α β} {f g : β → V α γ} (h : Mon x y) (hf : ∀ b, Mon (f b) (g b)) : Mon (x >>= f) (y >>= g) := by
  intro s c s' e
  rw [bind_apply] at e ⊢
  cases hx : x s with
  | mk r t =>
    rw [hx] at e
    cases r with
    | error e' => cases e
    | ok b =>
      rw [h s b t hx]
      exact hf b t c s' e

theorem Mon.ite {c : Prop} [Decidable c] {x y x' y' : V α β} (h : Mon x y) (h' : Mon x' y') :
    Mon (if c then x else x') (if c then y else y') := by
  split
  · exact h
  · exact h'

theorem Mon.doIf {c : Bool} {x y : V α Unit} (h : Mon x y) : Mon (doIf c x) (doIf c y) := .ite h (.refl _)

theorem Mon.noRet {x y : V α Unit} (h : Mon x y) : Mon (noRet x) (noRet y) := .bind h fun _ => .refl _

theorem Mon.numRet {x y : V α Nat} (h : Mon x y) : Mon (numRet x) (numRet y) := .bind h fun _ => .refl _

theorem full_mon (cfg : Cfg α) : Mon (full cfg.watched) (full cfg) := .refl _

theorem checked {c : Cell α} {x y : V α β} {w : String} (h : Mon x y) (strict : Bool) :
    Mon (if c.empty true then ub w else x) (if c.empty strict then ub w else y) := by
  intro s b s' e
  cases c with
  | raw => simp [Cell.empty, ub, fail] at e
  | moved => simp [Cell.empty, ub, fail] at e
  | live v => simpa [Cell.empty] using h s b s' (by simpa [Cell.empty] using e)

theorem destroyPtr_mon (p : Ptr) : Mon (destroyPtr cfg.watched p) (destroyPtr cfg p) := by
  unfold destroyPtr
  show Mon (match cfg.kind with | .triv => _ | _ => _) _
  cases cfg.kind
  · exact .refl _
  all_goals exact .bind (.refl _) fun _ => checked (.refl _) _

theorem assignTo_mon (p : Ptr) (v : α) : Mon (assignTo cfg.watched p v) (assignTo cfg p v) := by
  unfold assignTo
  show Mon (match cfg.kind with | .triv => _ | _ => _) _
  cases cfg.kind
  · exact .refl _
  all_goals exact .bind (.refl _) fun _ => checked (.refl _) _

theorem setAt_mon (i : Nat) (x : α) : Mon (setAt cfg.watched i x) (setAt cfg i x) :=
  .bind (.refl _) fun _ => .bind (.refl _) fun _ => .bind (.refl _) fun _ => checked (.refl _) _

theorem destroyRange_mon (p : Ptr) (n : Nat) : Mon (destroyRange cfg.watched p n) (destroyRange cfg p n) := by
  induction n generalizing p with
  | zero => exact .refl _
  | succ n ih => exact .bind (destroyPtr_mon p) fun _ => ih _

theorem copyCref_mon (p : Ptr) (r : Ref α) : Mon (copyCref cfg.watched p r) (copyCref cfg p r) :=
  .bind (.refl _) fun _ => .bind (.refl _) fun _ => .ite (assignTo_mon _ _) (.refl _)

theorem moveOne_mon (d p : Ptr) : Mon (moveOne cfg.watched d p) (moveOne cfg d p) := by
  unfold moveOne
  refine .bind (.refl _) fun v => ?_
  show Mon (match cfg.kind with | .cpy => _ | _ => _) _
  cases cfg.kind
  case cpy => exact .bind (.refl _) fun _ => destroyPtr_mon _
  all_goals exact .refl _

theorem moveLoopFwd_mon (d p : Ptr) (n : Nat) : Mon (moveLoopFwd cfg.watched d p n) (moveLoopFwd cfg d p n) := by
  induction n generalizing d p with
  | zero => exact .refl _
  | succ n ih => exact .bind (moveOne_mon _ _) fun _ => ih _ _

theorem moveRangeNoOverlap_mon (d p : Ptr) (n : Nat) : Mon (moveRangeNoOverlap cfg.watched d p n) (moveRangeNoOverlap cfg d p n) :=
  .bind (.refl _) fun _ => .bind (.refl _) fun _ => .bind (.refl _) fun _ => .ite (.refl _) (moveLoopFwd_mon _ _ _)

theorem moveRangeForward_mon (b : Option Nat) (d p e : Nat) :
    Mon (moveRangeForward cfg.watched b d p e) (moveRangeForward cfg b d p e) :=
  .bind (.refl _) fun _ => .bind (.refl _) fun _ => .bind (.refl _) fun _ => .ite (.refl _) (moveLoopFwd_mon _ _ _)

theorem coreCopyAssign_mon (rhs : Vec) : Mon (coreCopyAssign cfg.watched rhs) (coreCopyAssign cfg rhs) :=
  .bind (.refl _) fun _ => .ite (.bind (destroyRange_mon _ _) fun _ => .refl _) (.bind (destroyRange_mon _ _) fun _ => .refl _)

theorem coreDestroy_mon : Mon (coreDestroy cfg.watched) (coreDestroy cfg) :=
  .bind (.refl _) fun _ => .bind (destroyRange_mon _ _) fun _ => .refl _

theorem coreMoveAssign_mon (rhs : Vec) : Mon (coreMoveAssign cfg.watched rhs) (coreMoveAssign cfg rhs) :=
  .bind coreDestroy_mon fun _ => .refl _

theorem reallocWithOldData_mon (n : Nat) : Mon (reallocWithOldData cfg.watched n) (reallocWithOldData cfg n) := by
  unfold reallocWithOldData
  refine .bind (.refl _) fun v => .bind (.refl _) fun _ => ?_
  cases v.start with
  | none => exact .refl _
  | some b =>
    refine .bind (.refl _) fun _ => .bind (.refl _) fun p => ?_
    cases p with
    | none => exact .refl _
    | some c => exact .bind (moveRangeNoOverlap_mon _ _ _) fun _ => .refl _

theorem reallocAndEmplaceBack_mon (n : Nat) (r : Ref α) : Mon (reallocAndEmplaceBack cfg.watched n r) (reallocAndEmplaceBack cfg n r) :=
  .bind (.refl _) fun _ => .bind (.refl _) fun _ => .bind (.refl _) fun _ => .bind (.refl _) fun _ => .bind (.refl _) fun _ =>
    .bind (.refl _) fun _ => .bind (.refl _) fun _ => .bind (.doIf (moveRangeNoOverlap_mon _ _ _)) fun _ => .refl _

theorem reallocDropOldData_mon (n : Nat) : Mon (reallocDropOldData cfg.watched n) (reallocDropOldData cfg n) :=
  .bind coreDestroy_mon fun _ => .refl _

theorem destroyAll_mon : Mon (destroyAll cfg.watched) (destroyAll cfg) :=
  .bind (.refl _) fun _ => .bind (.refl _) fun _ => destroyRange_mon _ _

theorem moveForward_mon (d p : Nat) : Mon (moveForward cfg.watched d p) (moveForward cfg d p) :=
  .bind (.refl _) fun _ => .bind (.refl _) fun _ => moveRangeForward_mon _ _ _ _

theorem moveBack_mon (d p : Ptr) : Mon (moveBack cfg.watched d p) (moveBack cfg d p) :=
  .ite (.bind (.refl _) fun _ => assignTo_mon _ _) (moveOne_mon _ _)

theorem moveLoopBwd_mon (d p : Ptr) (n : Nat) : Mon (moveLoopBwd cfg.watched d p n) (moveLoopBwd cfg d p n) := by
  induction n with
  | zero => exact .refl _
  | succ n ih => exact .bind (moveBack_mon _ _) fun _ => ih

theorem moveBackward_mon (d p : Nat) : Mon (moveBackward cfg.watched d p) (moveBackward cfg d p) :=
  .bind (.refl _) fun _ => .bind (.refl _) fun _ => .bind (.refl _) fun _ => .bind (.refl _) fun _ => moveLoopBwd_mon _ _ _

theorem assignN_mon (n : Nat) (r : Ref α) : Mon (assignN cfg.watched n r) (assignN cfg n r) :=
  .bind (.refl _) fun _ => .bind (.ite (reallocDropOldData_mon _) destroyAll_mon) fun _ => .refl _

theorem assignRange_mon (src : Source α) : Mon (assignRange cfg.watched src) (assignRange cfg src) :=
  .bind (.refl _) fun _ => .ite (.bind (reallocDropOldData_mon _) fun _ => .refl _) (.bind destroyAll_mon fun _ => .refl _)

theorem shrinkToFit_mon : Mon (shrinkToFit cfg.watched) (shrinkToFit cfg) :=
  .bind (.refl _) fun _ => .ite (.refl _) (.ite (.bind coreDestroy_mon fun _ => .refl _) (reallocWithOldData_mon _))

theorem reserve_mon (n : Nat) : Mon (reserve cfg.watched n) (reserve cfg n) :=
  .bind (.refl _) fun _ => .doIf (reallocWithOldData_mon _)

theorem fill_mon (s : Bool) (n : Nat) (l : List α) : Mon (fill cfg.watched s n l) (fill cfg s n l) :=
  .bind (.refl _) fun _ => .bind (.doIf (.bind (.refl _) fun _ => reallocWithOldData_mon _)) fun _ => .refl _

theorem getWritebuffer_mon (s : Bool) (n : Nat) : Mon (getWritebuffer cfg.watched s n) (getWritebuffer cfg s n) :=
  .bind (.refl _) fun _ => .bind (.doIf (.bind (.refl _) fun _ => reallocWithOldData_mon _)) fun _ => .refl _

theorem putAt_mon (e : Bool) (p : Ptr) (r : Ref α) : Mon (putAt cfg.watched e p r) (putAt cfg e p r) := .ite (.refl _) (copyCref_mon _ _)

theorem pushBack_mon (s e : Bool) (r : Ref α) : Mon (pushBack cfg.watched s e r) (pushBack cfg s e r) :=
  .bind (.refl _) fun _ => .bind (.refl _) fun _ =>
    .ite (.ite (reallocAndEmplaceBack_mon _ _) (.bind (.refl _) fun _ => putAt_mon _ _ _))
      (.bind (.refl _) fun _ => .bind (.refl _) fun _ => putAt_mon _ _ _)

theorem clear_mon : Mon (clear cfg.watched) (clear cfg) := .bind destroyAll_mon fun _ => .refl _

theorem erase_mon (i : Nat) : Mon (erase cfg.watched i) (erase cfg i) :=
  .bind (.refl _) fun _ => .bind (.refl _) fun _ => .bind (destroyPtr_mon _) fun _ => .bind (moveForward_mon _ _) fun _ => .refl _

theorem eraseRange_mon (i j : Nat) : Mon (eraseRange cfg.watched i j) (eraseRange cfg i j) :=
  .bind (.refl _) fun _ => .bind (.refl _) fun _ => .bind (.refl _) fun _ =>
    .bind (.doIf (.bind (destroyRange_mon _ _) fun _ => .bind (moveForward_mon _ _) fun _ => .refl _)) fun _ => .refl _

theorem eraseLoop_mon (test : α → V α Bool) (d p : Ptr) (n : Nat) : Mon (eraseLoop cfg.watched test d p n) (eraseLoop cfg test d p n) := by
  induction n generalizing d p with
  | zero => exact .refl _
  | succ n ih =>
    exact .bind (.refl _) fun _ => .bind (.refl _) fun _ =>
      .ite (.bind (.ite (.refl _) (destroyPtr_mon _)) fun _ => .bind (ih _ _) fun _ => .refl _)
        (.bind (.ite (.refl _) (moveBack_mon _ _)) fun _ => ih _ _)

theorem popBack_mon : Mon (popBack cfg.watched) (popBack cfg) :=
  .bind (.refl _) fun _ => .ite (.refl _) (.bind (.refl _) fun _ => destroyPtr_mon _)

theorem resize_mon (c : Bool) (n : Nat) (r : Ref α) : Mon (resize cfg.watched c n r) (resize cfg c n r) :=
  .bind (.refl _) fun _ => .ite (.bind (.doIf (reallocWithOldData_mon _)) fun _ => .refl _)
    (.bind (.refl _) fun _ => destroyRange_mon _ _)

theorem insertOne_mon (s e : Bool) (i : Nat) (r : Ref α) : Mon (insertOne cfg.watched s e i r) (insertOne cfg s e i r) :=
  .bind (.refl _) fun _ => .bind (.refl _) fun _ => .bind (.doIf (.bind (.refl _) fun _ => .doIf (reserve_mon _))) fun _ =>
    .bind (.refl _) fun _ => .bind (.refl _) fun _ => .bind (.refl _) fun _ =>
      .ite (.bind (.refl _) fun _ => .bind (putAt_mon _ _ _) fun _ => .refl _)
        (.bind (.ite (moveBackward_mon _ _) (moveForward_mon _ _)) fun _ => .bind (putAt_mon _ _ _) fun _ => .refl _)

theorem makeRoom_mon (s : Bool) (i n : Nat) : Mon (makeRoom cfg.watched s i n) (makeRoom cfg s i n) :=
  .bind (.refl _) fun _ => .bind (.doIf (.bind (.refl _) fun _ => reserve_mon _)) fun _ => .bind (.refl _) fun _ => .bind (.refl _) fun _ =>
    .ite (moveForward_mon _ _) (moveBackward_mon _ _)

theorem insertN_mon (s : Bool) (i n : Nat) (r : Ref α) : Mon (insertN cfg.watched s i n r) (insertN cfg s i n r) :=
  .bind (.refl _) fun _ => .bind (.refl _) fun _ => .bind (.refl _) fun _ => .bind (makeRoom_mon _ _ _) fun _ => .refl _

theorem insertRange_mon (s : Bool) (i : Nat) (src : Source α) : Mon (insertRange cfg.watched s i src) (insertRange cfg s i src) :=
  .ite (.refl _) (.bind (makeRoom_mon _ _ _) fun _ => .refl _)

theorem step_mon [DecidableEq α] (op : Op α) : Mon (step cfg.watched op) (step cfg op) := by
  refine .bind (.refl _) fun v => ?_
  cases op with
  | pushBack s e a => exact .noRet (pushBack_mon _ _ _)
  | insert s e pos a => exact .numRet (insertOne_mon _ _ _ _)
  | insertN s pos n a => exact .numRet (insertN_mon _ _ _ _)
  | insertRange s pos src => exact .numRet (insertRange_mon _ _ _)
  | erase pos => exact .numRet (erase_mon _)
  | eraseRange a b => exact .numRet (eraseRange_mon _ _)
  | eraseValue a => exact .numRet (.bind (.refl _) fun _ => .bind (eraseLoop_mon _ _ _ _) fun _ => .refl _)
  | eraseIf p => exact .numRet (.bind (.refl _) fun _ => .bind (eraseLoop_mon _ _ _ _) fun _ => .refl _)
  | popBack => exact .noRet popBack_mon
  | resize n => exact .noRet (resize_mon _ _ _)
  | resizeValue n a => exact .noRet (resize_mon _ _ _)
  | resizeRaw l => exact .noRet (.bind (resize_mon _ _ _) fun _ => .refl _)
  | assignN n a => exact .noRet (assignN_mon _ _)
  | assignRange src => exact .noRet (assignRange_mon _)
  | clear => exact .noRet clear_mon
  | reserve n => exact .noRet (reserve_mon _)
  | shrinkToFit => exact .noRet shrinkToFit_mon
  | fill s p l => exact .noRet (fill_mon _ _ _)
  | writeBuffer s l => exact .noRet (.bind (getWritebuffer_mon _ _) fun _ => .refl _)
  | set i x => exact .noRet (setAt_mon _ _)

theorem construct_mon {x y : V α Unit} (h : Mon x y) {w w' : World α} {r : Ret} (e : w.construct x = (.ok r, w')) :
    w.construct y = (.ok r, w') := by
  unfold World.construct at e ⊢
  cases hx : x ⟨w.mem, nullVec⟩ with
  | mk b s =>
    rw [hx] at e
    cases b with
    | error e' => cases e
    | ok b => rw [h _ b s hx]; exact e

theorem member_mon {x y : V α Ret} (h : Mon x y) {w w' : World α} {i : Nat} {r : Ret} (e : w.member i x = (.ok r, w')) :
    w.member i y = (.ok r, w') := by
  unfold World.member at e ⊢
  cases hv : w.vecs[i]? with
  | none => rw [hv] at e; cases e
  | some o =>
    rw [hv] at e
    cases o with
    | none => cases e
    | some v =>
      dsimp only at e ⊢
      cases hx : x ⟨w.mem, v⟩ with
      | mk b s =>
        rw [hx] at e
        cases b with
        | error e' => cases e
        | ok b => rw [h _ b s hx]; exact e

theorem wstep_mon [DecidableEq α] {w w' : World α} {op : WOp α} {r : Ret} (e : wstep cfg.watched w op = (.ok r, w')) :
    wstep cfg w op = (.ok r, w') := by
  cases op with
  | ctor => exact e
  | ctorSized n => exact e
  | ctorValue n x => exact e
  | ctorRange src => exact e
  | copyCtor j => exact e
  | moveCtor j => exact e
  | swap i j => exact e
  | call i op => exact member_mon (step_mon op) e
  | copyAssign i j =>
    unfold wstep at e ⊢
    dsimp only at e ⊢
    cases hv : w.vecs[j]? with
    | none => rw [hv] at e; cases e
    | some o =>
      rw [hv] at e
      cases o with
      | none => cases e
      | some u => exact member_mon (.ite (.refl _) (.noRet (coreCopyAssign_mon u))) e
  | moveAssign i j =>
    unfold wstep at e ⊢
    dsimp only at e ⊢
    cases hv : w.vecs[j]? with
    | none => rw [hv] at e; cases e
    | some o =>
      rw [hv] at e
      cases o with
      | none => cases e
      | some u =>
        dsimp only at e ⊢
        by_cases hij : i = j
        · rw [if_pos hij] at e ⊢; exact e
        · rw [if_neg hij] at e ⊢
          cases hm : w.member i (noRet (coreMoveAssign cfg.watched u)) with
          | mk b w1 =>
            rw [hm] at e
            cases b with
            | error e' => cases e
            | ok b => rw [member_mon (.noRet (coreMoveAssign_mon u)) hm]; exact e
  | destroy i =>
    unfold wstep at e ⊢
    dsimp only at e ⊢
    cases hm : w.member i (noRet (coreDestroy cfg.watched)) with
    | mk b w1 =>
      rw [hm] at e
      cases b with
      | error e' => cases e
      | ok b => rw [member_mon (.noRet coreDestroy_mon) hm]; exact e

theorem vecOK_strict (cfg : Cfg α) (a : Bool) {m : Mem α} {v : Vec} {xs : List α} (h : VecOK cfg m v xs) :
    VecOK { cfg with strict := a } m v xs := by
  rcases h with ⟨h1, h2⟩ | ⟨b, B, h1, h2, h3⟩
  · exact .inl ⟨h1, h2⟩
  · exact .inr ⟨b, B, h1, h2, ⟨h3.pos, h3.le, h3.bound, h3.live, h3.tail⟩⟩

theorem winv_strict (cfg : Cfg α) (a : Bool) {w : World α} {ys : Contents α} (h : WInv cfg w ys) :
    WInv { cfg with strict := a } w ys := by
  refine ⟨fun i => ?_, h.sep, h.owned, h.fresh, h.bal, h.cpy⟩
  have hr := h.rel i
  cases hv : w.vecs[i]? with
  | none => rw [hv] at hr; cases hy : ys[i]? <;> rw [hy] at hr <;> exact hr
  | some o =>
    rw [hv] at hr
    cases hy : ys[i]? with
    | none => rw [hy] at hr; cases o <;> exact hr
    | some y =>
      rw [hy] at hr
      cases o <;> cases y
      · trivial
      · exact hr.elim
      · exact hr.elim
      · exact vecOK_strict cfg a hr

theorem run_watched [DecidableEq α] (hg : Good cfg) {ops : List (WOp α)} :
    ∀ {w : World α} {ys : Contents α}, WInv cfg w ys → Legal cfg w ys ops →
      ∃ rs w', run cfg.watched w ops = (.ok rs, w') ∧ run cfg w ops = (.ok rs, w') := by
  induction ops with
  | nil => exact fun {w ys} _ _ => ⟨[], w, rfl, rfl⟩
  | cons op ops ih =>
    intro w ys h hl
    obtain ⟨h1, h2, h3⟩ := hl
    have hg' : Good cfg.watched := hg
    have h1' : Lucky cfg.watched w.mem := h1
    have h' : WInv cfg.watched w ys := winv_strict cfg true h
    have h2' : WContract cfg.watched w.capacity ys op := by cases op <;> exact h2
    obtain ⟨r, w1, e, hw, _⟩ := wstep_ok hg' h1' h' h2'
    have e1 := wstep_mon e
    rw [e1] at h3
    obtain ⟨rs, w2, e2, e3⟩ := ih (w := w1) (winv_strict cfg.watched cfg.strict hw) h3
    exact ⟨r :: rs, w2, by simp only [run, e, e2], by simp only [run, e1, e3]⟩

end Owners

end Verif.Vector
