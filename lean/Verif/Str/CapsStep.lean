import Verif.Str.CapsLine
import Verif.Str.CapsSpec

/-!
How large the capacities of strings get: one operation of a program.
-/

namespace Verif.Str.Caps

open M

variable {cfg : Cfg} {N K : Nat} {a a' : Abs} {s s' : St}

theorem rel_short (hN : cfg.ms ≤ N) (h : Rel cfg a s) (hl : ∀ i xs, a i = some xs → xs.length ≤ N) : Short N s := by
  intro o
  cases o with
  | user i =>
    cases ha : a i with
    | none => rw [h.absent i ha]; trivial
    | some xs => exact Raw.low hN h.inv (h.held i xs ha) (by simpa using hl i xs ha)
  | tmp i => rw [h.tmps i]; trivial

theorem set_le {v : Nat} {xs : List Ch} (h : a.set v xs = some (.done a')) (hl : ∀ i xs, a' i = some xs → xs.length ≤ N) :
    xs.length < M64 ∧ xs.length ≤ N := by
  obtain ⟨h1, h2⟩ := set_some h
  cases h2
  exact ⟨h1, hl v xs (by simp)⟩

theorem make_le {v : Nat} {xs : List Ch} (h : a.make v xs = some (.done a')) (hl : ∀ i xs, a' i = some xs → xs.length ≤ N) :
    a v = none ∧ xs.length ≤ N := by
  obtain ⟨h1, h2⟩ := make_some h
  cases h2
  exact ⟨h1, hl v xs (by simp)⟩

/-- An operation leaves a good state if it leaves no string too long. -/
theorem op_fine (L : Lim cfg N K) (h : Rel cfg a s) (hF : Fit N K s) {op : Op} (ho : op.spec cfg.arena a = some (.done a'))
    (hl : ∀ i xs, a' i = some xs → xs.length ≤ N) (hr : op.asks ≤ K) :
    Ends (op.run cfg) s fun _ s' => Fine N K s' := by
  have hc := L.ok
  cases op <;> simp only [Op.spec, Option.bind_eq_bind, Option.bind_eq_some_iff] at ho <;> unfold Op.run
  case makeEmpty v al => exact (ctorEmpty_fit hF).fine
  case make v al src =>
    obtain ⟨ys, hs, ho⟩ := ho
    obtain ⟨ha, ho⟩ := if_some ho
    obtain ⟨p, k1, k2, k3, _⟩ := resolve_ok hc h hs v
    exact Tri.step k1 (ctorData_fit L hF (by simpa using (make_le ho hl).2)).fine
  case makeFill v al n c => exact (ctorFill_fit L hF).imp fun _ _ g hs => g (Or.inr hs)
  case copy v u => exact (ctorCopy_fit L hF).fine
  case move v u => exact (ctorMove_fit hF).fine
  case clone v u => exact (clone_fit L hF).fine
  case substr v u pos n => exact (substr_fit L hF).fine
  case substrMove v u pos n => exact (substrMove_fit L hF).fine
  case concat v u1 u2 =>
    obtain ⟨xs, hu1, ys, hu2, ho⟩ := ho
    obtain ⟨hn, ho⟩ := if_some ho
    obtain ⟨hv, hle⟩ := make_le ho hl
    exact (concat_fit L hF h.inv h.free (h.absent v hv) (by simp) (by simp) (h.held u1 xs hu1) (h.held u2 ys hu2) (by simpa using hn)
      (by simpa using hle)).fine
  case concatWith v u q1 q2 =>
    obtain ⟨xs, hu, ho⟩ := ho
    obtain ⟨hn, ho⟩ := if_some ho
    have e : ∀ q : Part, q.cells (xs.map some) = (q.of xs).map some := fun q => by cases q <;> rfl
    obtain ⟨hv, hle⟩ := make_le ho hl
    exact (plusNew_fit L hF h.inv h.free (h.absent v hv) (by simp) (by simp) (h.held u xs hu) q1 q2 (by simpa [e] using hn)
      (by simpa [e] using hle)).fine
  case destroy v => exact (destroy_fit hF _).fine
  case swap v u => exact (swap_fit hF _).fine
  case assignStr v u => exact assignStr_fine L hF
  case assignMove v u => exact (assignMove_fit hF).fine
  case assign v src =>
    obtain ⟨xs, hv, ys, hs, ho⟩ := ho
    obtain ⟨p, k1, _⟩ := resolve_ok hc h hs v
    exact Tri.step k1 (assign_fine L hF)
  case assignFill v n c => exact assignFill_fine L hF
  case assignChar v c => exact (assignChar_fit L hF).fine
  case append v src =>
    obtain ⟨xs, hv, ys, hs, ho⟩ := ho
    obtain ⟨p, k1, _⟩ := resolve_ok hc h hs v
    exact Tri.step k1 (append_fine L hF)
  case appendStr v u => exact appendStr_fine L hF
  case appendFill v n c => exact appendFill_fine L hF
  case appendRange v src =>
    obtain ⟨xs, hv, ys, hs, ho⟩ := ho
    obtain ⟨p, k1, _⟩ := resolve_ok hc h hs v
    exact Tri.step k1 (appendRange_fine L hF)
  case pushBack v c => exact pushBack_fine L hF
  case popBack v =>
    obtain ⟨xs, hv, ho⟩ := ho
    obtain ⟨h0, ho⟩ := if_none ho
    exact (popBack_fit L hF ((h.held v xs hv).sizeM h.inv) (by simpa using h0)).fine
  case resize v n c => exact resize_fine L hF
  case reserve v n => exact (reserve_fit L hF hr).fine
  case shrinkToFit v => exact (shrinkToFit_fit L hF).fine
  case clear v => exact resize_fine L hF
  case setAt v i c => exact (setAt_even L).imp fun _ _ v1 => v1.fine hF.fine
  case insert v pos src =>
    obtain ⟨xs, hv, ys, hs, ho⟩ := ho
    obtain ⟨p, k1, _⟩ := resolve_ok hc h hs v
    exact Tri.step k1 (insert_fine L hF)
  case insertFill v pos n c => exact insertFill_fine L hF
  case erase v pos n => exact (erase_fit L hF).fine
  case replace v pos n1 src =>
    obtain ⟨xs, hv, ys, hs, ho⟩ := ho
    obtain ⟨hin, ho⟩ := if_none ho
    obtain ⟨p, k1, k2, k3, k4, k5⟩ := resolve_ok hc h hs v
    split at ho
    · next hp =>
      have hsrc : SrcOk cfg s (.user v) p (ys.map some) ∨ OwnSrc cfg s (.user v) p (ys.map some) ∧ cfg.arena = false := by
        rcases k4 with k4 | k4
        · exact Or.inl k4
        · cases har : cfg.arena with
          | false => exact Or.inr ⟨k4, rfl⟩
          | true => exact Or.inl (k5 (by simpa [har] using hin))
      obtain ⟨hn, hle⟩ := set_le ho hl
      simp [splice] at hn hle
      exact Tri.step k1 (replace_fine L hF h.inv h.free (h.tmps 2) (h.held v xs hv) (by simpa using hp) hsrc (by simp; omega) (by simp; omega))
    · cases ho
  case replaceFill v pos n1 n2 c => exact replaceFill_fine L hF
  case getline v is delim =>
    obtain ⟨xs, hv, ho⟩ := ho
    split at ho
    · next h0 =>
      simp only [IStream.calm, Bool.and_eq_true, Bool.not_eq_true'] at h0
      exact Tri.bind (getline_fit L hr hF h.inv h.free (h.held v xs hv) h0.1.1 ⟨h0.1.2, h0.2⟩ delim (set_le ho hl).2) fun _ _ g => Tri.ret g.fine
    · obtain ⟨h0, ho⟩ := if_some ho
      simp only [IStream.over, Bool.and_eq_true, Bool.not_eq_true'] at h0
      exact Tri.bind (getline_dead_fit L hF h.inv h.free (h.held v xs hv) h0.1.1.1 ⟨h0.1.1.2, h0.1.2, h0.2⟩ delim) fun _ _ g => Tri.ret g.fine
  case extract v is =>
    obtain ⟨xs, hv, ho⟩ := ho
    obtain ⟨⟨h0, h1⟩, ho⟩ := if_some ho
    simp only [IStream.calm, Bool.and_eq_true, Bool.not_eq_true'] at h0
    exact Tri.bind (extract_fit L hF h.inv h.free (h.held v xs hv) h0.1.1 ⟨h0.1.2, h0.2⟩ h1 (set_le ho hl).2) fun _ _ g => Tri.ret g.fine

theorem op_fit (L : Lim cfg N K) (h : Rel cfg a s) (hF : Fit N K s) {op : Op} (ho : op.spec cfg.arena a = some (.done a'))
    (hl : ∀ i xs, a' i = some xs → xs.length ≤ N) (hr : op.asks ≤ K) (hrun : op.run cfg s = (.ok (), s')) :
    Fit N K s' := by
  have h1 := step_refines L.ok h ho
  have h2 := op_fine L h hF ho hl hr
  simp only [Refines, Tri] at h1
  unfold Ends Tri at h2
  rw [hrun] at h1 h2
  exact h2 (rel_short (Nat.le_of_lt L.ms) h1.1 hl)

end Verif.Str.Caps
