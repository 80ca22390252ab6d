import Verif.Str.StringPlus

/-!
When memory is never refused: the constructor of a string of `n` times a character succeeds for all lengths whose
block the allocator can hand out.  It gives the long strings that some properties need.
-/

namespace Verif.Str

open M

variable {β γ : Type} {cfg : Cfg}

/-- An action that asks for no memory. -/
structure Asks0 (x : M β) : Prop where
  keep : ∀ s, s.refused = false → (x s).2.refused = false

theorem Asks0.pure (b : β) : Asks0 (pure b : M β) := ⟨fun _ h => h⟩

theorem Asks0.fail (e : Fault) : Asks0 (M.fail e : M β) := ⟨fun _ h => h⟩

theorem Asks0.bind {x : M β} {f : β → M γ} (hx : Asks0 x) (hf : ∀ b, Asks0 (f b)) : Asks0 (x >>= f) := by
  constructor
  intro s hs
  have h1 := hx.keep s hs
  rw [bind_apply]
  rcases hxs : x s with ⟨r, s1⟩
  rw [hxs] at h1
  cases r with
  | error e => exact h1
  | ok b => exact (hf b).keep s1 h1

theorem Asks0.ite {c : Prop} [Decidable c] {x y : M β} (hx : Asks0 x) (hy : Asks0 y) : Asks0 (if c then x else y) := by
  split
  · exact hx
  · exact hy

theorem readCells_asks0 (p : Ptr) (n : Nat) : Asks0 (readCells p n) := by
  constructor
  intro s h
  unfold readCells
  repeat' split
  all_goals exact h

theorem writeCells_asks0 (p : Ptr) (cs : List Cell) : Asks0 (writeCells p cs) := by
  constructor
  intro s h
  unfold writeCells
  repeat' split
  all_goals exact h

theorem room_asks0 (p : Ptr) : Asks0 (room p) := by
  constructor
  intro s h
  unfold room
  repeat' split
  all_goals exact h

theorem getOb_asks0 (v : Obj) : Asks0 (getOb v) := by
  constructor
  intro s h
  unfold getOb
  split <;> exact h

theorem setCore_asks0 (v : Obj) (c : Core) : Asks0 (setCore v c) := by
  constructor
  intro s h
  unfold setCore
  split <;> exact h

theorem refs_asks0 (b : Nat) : Asks0 (refs b) := by
  constructor
  intro s h
  unfold refs
  repeat' split
  all_goals exact h

theorem assert_asks0 (c : Bool) (m : String) : Asks0 (assert cfg c m) := by
  unfold assert
  exact Asks0.ite (Asks0.fail _) (Asks0.pure _)

theorem size_asks0 (v : Obj) : Asks0 (size cfg v) := by
  unfold size
  refine Asks0.bind (getOb_asks0 _) fun o => ?_
  split
  · exact Asks0.pure _
  · exact Asks0.fail _

theorem capacity_asks0 (v : Obj) : Asks0 (capacity cfg v) := by
  unfold capacity
  refine Asks0.bind (getOb_asks0 _) fun o => ?_
  split
  · exact Asks0.pure _
  · exact Asks0.pure _
  · exact Asks0.bind (refs_asks0 _) fun r => Asks0.ite (Asks0.pure _) (Asks0.pure _)

theorem podCopy_asks0 (p : Ptr) (n : Nat) (q : Ptr) : Asks0 (podCopy cfg p n q) := by
  unfold podCopy
  exact Asks0.ite (Asks0.ite (Asks0.fail _) (Asks0.fail _))
    (Asks0.bind (readCells_asks0 _ _) fun _ => writeCells_asks0 _ _)

theorem podFill_asks0 (p : Ptr) (n : Nat) (c : Ch) : Asks0 (podFill p n c) := by
  unfold podFill
  exact Asks0.bind (room_asks0 _) fun _ => Asks0.ite (writeCells_asks0 _ _) (Asks0.fail _)

theorem expandTail_asks0 (v : Obj) (old new : Nat) : Asks0 (expandTail cfg v old new) := by
  unfold expandTail
  refine Asks0.bind (capacity_asks0 _) fun c => Asks0.bind (assert_asks0 _ _) fun _ => Asks0.bind (getOb_asks0 _) fun o => ?_
  split
  · exact Asks0.bind (setCore_asks0 _ _) fun _ => Asks0.bind (writeCells_asks0 _ _) fun _ => Asks0.pure _
  · exact Asks0.ite (Asks0.fail _) (Asks0.fail _)

/-- The allocator hands out every block of less than 2^62 bytes. -/
def Cfg.grants (cfg : Cfg) : Prop := ∀ k n, n < 4611686018427387904 → cfg.malloc k n = true

theorem alloc_asks (hg : cfg.grants) (al : Nat) (hdr : Bool) (bytes : Nat) (hn : bytes < 4611686018427387904) :
    Asks0 (alloc cfg al hdr bytes) := by
  constructor
  intro s h
  unfold alloc
  rw [if_pos (hg s.next bytes hn)]
  split <;> exact h

theorem create_asks (hg : cfg.grants) (al n : Nat) (hn : (n + 1) * cfg.w + 8 < 4611686018427387904) (hw : 1 ≤ cfg.w) :
    Asks0 (create cfg al n) := by
  have h1 : n + 1 ≤ (n + 1) * cfg.w := Nat.le_mul_of_pos_right _ hw
  have e : largeBytes cfg n = Pure.pure ((n + 1) * cfg.w + 8) := by
    unfold largeBytes
    rw [if_pos (by omega), if_pos (by omega)]
  have e' : create cfg al n = alloc cfg al true ((n + 1) * cfg.w + 8) >>= fun b =>
      Pure.pure (b, ((n + 1) * cfg.w + 8 - 8) / cfg.w - 1) := by
    unfold create
    rw [e]
    funext s
    rfl
  rw [e']
  exact Asks0.bind (alloc_asks hg al true _ hn) fun _ => Asks0.pure _

theorem reserveSmall_asks (hg : cfg.grants) (hw : 1 ≤ cfg.w) (v : Obj) (n : Nat) (hn : (n + 1) * cfg.w + 8 < 4611686018427387904) :
    Asks0 (reserveSmall cfg v n) := by
  have h1 : n + 1 ≤ (n + 1) * cfg.w := Nat.le_mul_of_pos_right _ hw
  have e1 : add64 1 n = n + 1 := by
    unfold add64; rw [Nat.mod_eq_of_lt (by omega), Nat.add_comm]
  have e2 : mul64 (n + 1) cfg.w = (n + 1) * cfg.w := by
    unfold mul64; rw [Nat.mod_eq_of_lt (by omega)]
  unfold reserveSmall
  refine Asks0.bind (getOb_asks0 _) fun o => Asks0.ite (Asks0.pure _) (Asks0.ite ?_ ?_)
  · rw [e1, e2]
    exact Asks0.bind (alloc_asks hg _ _ _ (by omega)) fun _ => Asks0.bind (size_asks0 _) fun _ =>
      Asks0.bind (podCopy_asks0 _ _ _) fun _ => setCore_asks0 _ _
  · exact Asks0.bind (create_asks hg _ _ hn hw) fun _ => Asks0.bind (size_asks0 _) fun _ =>
      Asks0.bind (podCopy_asks0 _ _ _) fun _ => Asks0.bind (setCore_asks0 _ _) fun _ =>
      Asks0.bind (capacity_asks0 _) fun _ => assert_asks0 _ _

theorem setSmallSize_asks0 (v : Obj) (n : Nat) : Asks0 (setSmallSize cfg v n) := by
  unfold setSmallSize
  exact Asks0.bind (assert_asks0 _ _) fun _ => Asks0.bind (getOb_asks0 _) fun _ => Asks0.ite (setCore_asks0 _ _) (Asks0.fail _)

/-- The first string of a program on the heap of characters of one byte: `n` times a character. -/
theorem ctorFill_keeps (dbg : Bool) (n : Nat) (c : Ch) (hn : n < 4611686018427387000) :
    (ctorFill (heapCfg dbg) (.user 0) 0 n c St.init).2.refused = false := by
  have hg : (heapCfg dbg).grants := fun _ n h => by simpa [heapCfg] using h
  have hnew : newOb (heapCfg dbg) (.user 0) 0 St.init =
      (.ok (), { St.init with vars := upd St.init.vars (.user 0) (some ⟨.small (List.replicate 24 (some 0)), 0⟩) }) := by
    cases dbg <;> rfl
  generalize hs1 : ({ St.init with vars := upd St.init.vars (.user 0) (some ⟨.small (List.replicate 24 (some 0)), 0⟩) } : St) = s1 at hnew
  have hr1 : s1.refused = false := by rw [← hs1]; rfl
  let cells : List Cell := ((List.replicate 24 (some 0)).set 23 (some 23)).set 0 (some 0)
  generalize hs2 : ({ s1 with vars := upd s1.vars (.user 0) (some ⟨.small cells, 0⟩) } : St) = s2
  have hr2 : s2.refused = false := by rw [← hs2]; exact hr1
  have hinit : initEmpty (heapCfg dbg) (.user 0) s1 = (.ok (), s2) := by
    rw [← hs2, ← hs1]; cases dbg <;> rfl
  have hvar : s2.vars (.user 0) = some ⟨.small cells, 0⟩ := by rw [← hs2]; exact upd_same s1.vars (.user 0) _
  have hcap : capacity (heapCfg dbg) (.user 0) s2 = (.ok 23, s2) := by
    unfold capacity
    have : getOb (.user 0) s2 = (.ok ⟨.small cells, 0⟩, s2) := by unfold getOb; rw [hvar]
    rw [bind_ok this]; cases dbg <;> rfl
  have hsize : size (heapCfg dbg) (.user 0) s2 = (.ok 0, s2) := by
    unfold size
    have : getOb (.user 0) s2 = (.ok ⟨.small cells, 0⟩, s2) := by unfold getOb; rw [hvar]
    rw [bind_ok this]; cases dbg <;> rfl
  have hget : getOb (.user 0) s2 = (.ok ⟨.small cells, 0⟩, s2) := by unfold getOb; rw [hvar]
  have has : assert (heapCfg dbg) (decide (0 ≤ 23)) "expandNoinit: size" s2 = (.ok (), s2) := by cases dbg <;> rfl
  have hadd : add64 0 n = n := by unfold add64; rw [Nat.zero_add, Nat.mod_eq_of_lt (by omega)]
  have hexp : (expandNoinit (heapCfg dbg) (.user 0) n false s2).2.refused = false := by
    unfold expandNoinit
    rw [bind_ok hcap, bind_ok hsize, bind_ok has, bind_ok hget]
    simp only [hadd]
    refine (Asks0.ite (Asks0.bind (setSmallSize_asks0 _ _) fun _ => Asks0.pure _)
      (Asks0.bind (reserveSmall_asks hg (Nat.le_refl 1) _ _ ?_) fun _ => expandTail_asks0 _ _ _)).keep s2 hr2
    show (n + 1) * 1 + 8 < _
    omega
  unfold ctorFill construct
  rw [bind_ok hnew]
  unfold constructing
  have hbody : ((do
      initEmpty (heapCfg dbg) (.user 0)
      let p ← expandNoinit (heapCfg dbg) (.user 0) n false
      podFill p n c) s1).2.refused = false := by
    rw [bind_ok hinit, bind_apply]
    rcases he : expandNoinit (heapCfg dbg) (.user 0) n false s2 with ⟨r, s3⟩
    rw [he] at hexp
    cases r with
    | error e => exact hexp
    | ok p => exact (podFill_asks0 p n c).keep s3 hexp
  split
  · rename_i w s' he
    rw [he] at hbody; exact hbody
  · exact hbody

/-- A string of any length below 2^62, nearly: the state reached by its construction. -/
theorem reach_fill (dbg : Bool) (n : Nat) (c : Ch) (hn : n < 4611686018427387000) :
    ∃ a s, Reach (heapCfg dbg) a s ∧ a 0 = some (List.replicate n c) := by
  have hspec : (Op.makeFill 0 0 n c).spec (heapCfg dbg).arena (fun _ => none) = some (.done (upd (fun _ => none) 0 (some (List.replicate n c)))) := by
    have : n < M64 := by omega
    have e : (heapCfg dbg).arena = false := rfl
    simp [Op.spec, e, this, Abs.make]
  rcases ops_meet_spec (heapCfg_ok dbg) .start hspec with ⟨s', _, h2, _⟩ | ⟨e, s', h1, _, h3, _⟩
  · exact ⟨_, s', h2, upd_same _ _ _⟩
  · have := ctorFill_keeps dbg n c hn
    have h4 : ctorFill (heapCfg dbg) (.user 0) 0 n c St.init = (.error e, s') := h1
    rw [h4] at this
    rw [this] at h3
    cases h3

end Verif.Str
