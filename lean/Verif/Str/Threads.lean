import Verif.Str.Local
import Verif.Str.Reach

/-!
Strings in several threads.  Operations are the steps; what makes this enough is proved here: an operation neither
reads nor writes what other threads use, so how its parts interleave with theirs makes no difference.
-/

namespace Verif.Str

open M

variable {cfg : Cfg} {s s' : St} {a a' : Abs}

/-! ### Specification -/

/-- `data()` of two strings points into the same memory. -/
def Shares (s : St) (i j : Nat) : Prop :=
  ∃ p q, (dataPtr (.user i) s).1 = .ok p ∧ (dataPtr (.user j) s).1 = .ok q ∧ p.same q = true

/-- The strings and the memory that a thread uses whose strings are those in `W`, besides new memory: its strings and
its local ones. -/
def Uses (W : Nat → Prop) : Obj → Prop
  | .user i => W i
  | .tmp _ => True

/-- `data()` of a string not in `W` points into the block `b`. -/
def Foreign (W : Nat → Prop) (s : St) (b : Nat) : Prop :=
  ∃ i k, ¬ W i ∧ (dataPtr (.user i) s).1 = .ok (.blk b k)

/-- What threads can do: `owner` says whose a string is, or will be once it exists.  A thread calls operations on its
strings.  It may give a string away that shares its characters with no other string. -/
inductive Threads (cfg : Cfg) : (Nat → Nat) → Abs → St → Prop
  | start (owner : Nat → Nat) : Threads cfg owner (fun _ => none) St.init
  | act {owner : Nat → Nat} {a a' : Abs} {s s' : St} {op : Op} (t : Nat) : Threads cfg owner a s →
      (∀ v ∈ op.vars, owner v = t) → op.spec cfg.arena a = some (.done a') → op.run cfg s = (.ok (), s') →
      Threads cfg owner a' s'
  | caught {owner : Nat → Nat} {a a' a1 : Abs} {s s' : St} {op : Op} {w : String} (t : Nat) : Threads cfg owner a s →
      (∀ v ∈ op.vars, owner v = t) → op.spec cfg.arena a = some (.done a1) → op.run cfg s = (.error (.throw w), s') →
      s'.lost = false → (∀ i, a' i = if op.weak = some i then (contents cfg i s').1.toOption else a i) →
      Threads cfg owner a' { s' with refused := false }
  | give {owner : Nat → Nat} {a : Abs} {s : St} (v t : Nat) : Threads cfg owner a s →
      (∀ i, i ≠ v → ¬ Shares s i v) → Threads cfg (fun i => if i = v then t else owner i) a s

/-! ### Lemmas -/

theorem Threads.reach {owner : Nat → Nat} (h : Threads cfg owner a s) : Reach cfg a s := by
  induction h with
  | start => exact .start
  | act _ _ _ ho hr ih => exact .done ih ho hr
  | caught _ _ _ ho hr hl ha ih => exact .caught ih ho hr hl ha
  | give _ _ _ _ ih => exact ih

theorem dataPtr_eq (s : St) (v : Obj) : dataPtr v s = match s.vars v with
    | some ob => (.ok (ob.core.ptr v), s)
    | none => (.error (.ub "use of a dead string"), s) := by
  unfold dataPtr
  rw [bind_apply]
  unfold getOb
  cases s.vars v <;> rfl

theorem Ptr.same_comm (p q : Ptr) : p.same q = q.same p := by
  cases p <;> cases q <;> simp only [Ptr.same] <;> exact Bool.beq_comm

theorem Shares.symm {i j : Nat} (h : Shares s i j) : Shares s j i := by
  obtain ⟨p, q, h1, h2, h3⟩ := h
  exact ⟨q, p, h2, h1, by rw [Ptr.same_comm]; exact h3⟩

theorem shares_iff {i j : Nat} (h : i ≠ j) : Shares s i j ↔ ∃ b, blkOf s (.user i) = some b ∧ blkOf s (.user j) = some b := by
  unfold Shares
  rw [dataPtr_eq, dataPtr_eq]
  unfold blkOf
  cases hi : s.vars (.user i) with
  | none => simp
  | some x =>
    cases hj : s.vars (.user j) with
    | none => simp
    | some y =>
      obtain ⟨c, _⟩ := x
      obtain ⟨c', _⟩ := y
      cases c <;> cases c' <;> simp [Core.ptr, Core.blk?, Ptr.same, h]
      exact eq_comm

theorem foreign_iff {W : Nat → Prop} {b : Nat} : Foreign W s b ↔ ∃ i, ¬ W i ∧ blkOf s (.user i) = some b := by
  unfold Foreign
  constructor
  · rintro ⟨i, k, hi, h⟩
    refine ⟨i, hi, ?_⟩
    rw [dataPtr_eq] at h
    unfold blkOf
    cases hv : s.vars (.user i) with
    | none => rw [hv] at h; cases h
    | some x =>
      obtain ⟨c, _⟩ := x
      rw [hv] at h
      cases c with
      | small _ => cases h
      | ml _ _ _ _ => cases h; rfl
  · rintro ⟨i, hi, h⟩
    refine ⟨i, 0, hi, ?_⟩
    rw [dataPtr_eq]
    unfold blkOf at h
    cases hv : s.vars (.user i) with
    | none => rw [hv] at h; cases h
    | some x =>
      obtain ⟨c, _⟩ := x
      rw [hv] at h
      cases c with
      | small _ => cases h
      | ml _ _ _ _ => cases h; rfl

theorem Core.off_iff {N : Nat → Prop} {c : Core} : c.off N ↔ ∀ b, c.blk? = some b → ¬ N b := by
  cases c <;> simp [Core.off, Core.blk?]

instance (W : Nat → Prop) : Mine (Uses W) := ⟨fun _ => trivial⟩

/-- Strings that share no characters with others stay off what these use. -/
theorem Rel.off (h : Rel cfg a s) {W : Nat → Prop} (hW : ∀ i j, W i → ¬ W j → ¬ Shares s i j) :
    Off (Uses W) (Foreign W s) s := by
  constructor
  · intro o ob ho hob
    rw [Core.off_iff]
    intro b hb hf
    rw [foreign_iff] at hf
    obtain ⟨j, hj, hjb⟩ := hf
    cases o with
    | tmp k => rw [h.tmps k] at hob; cases hob
    | user i =>
      have hi : blkOf s (.user i) = some b := by unfold blkOf; rw [hob]; exact hb
      have hne : i ≠ j := fun e => hj (e ▸ ho)
      exact hW i j ho hj ((shares_iff hne).2 ⟨b, hi, hjb⟩)
  · intro b hb
    rw [foreign_iff] at hb
    obtain ⟨j, _, hjb⟩ := hb
    unfold blkOf at hjb
    cases hv : s.vars (.user j) with
    | none => rw [hv] at hjb; cases hjb
    | some x =>
      obtain ⟨c, al⟩ := x
      rw [hv] at hjb
      cases c with
      | small _ => cases hjb
      | ml d n cap large =>
        cases hjb
        obtain ⟨B, hB, _⟩ := h.inv.core _ _ hv
        by_cases hlt : b < s.next
        · exact hlt
        · rw [h.inv.fresh b (by omega)] at hB; cases hB

/-- Strings apart stay so when one side acts. -/
theorem apart_step (h : Rel cfg a s) {W : Nat → Prop} {op : Op} (hW : ∀ i j, W i → ¬ W j → ¬ Shares s i j)
    (hop : ∀ v ∈ op.vars, W v) : ∀ i j, W i → ¬ W j → ¬ Shares (op.run cfg s).2 i j := by
  have hl : Local (Uses W) (Foreign W s) (fun _ => True) (op.run cfg) := op_local op hop
  have ho := h.off hW
  have h1 := hl.off s ho
  have h2 := hl.spared s ho
  intro i j hi hj hs
  have hne : i ≠ j := fun e => hj (e ▸ hi)
  obtain ⟨b, hb1, hb2⟩ := (shares_iff hne).1 hs
  have hjb : blkOf s (.user j) = some b := by
    unfold blkOf at hb2 ⊢
    rw [h2.vars (.user j) hj] at hb2
    exact hb2
  unfold blkOf at hb1
  cases hv : (op.run cfg s).2.vars (.user i) with
  | none => rw [hv] at hb1; cases hb1
  | some ob =>
    rw [hv] at hb1
    exact Core.off_iff.1 (h1.vars (.user i) ob hi hv) b hb1 (foreign_iff.2 ⟨j, hj, hjb⟩)

/-- Strings apart stay so when the other side acts. -/
theorem apart_step' (h : Rel cfg a s) {W : Nat → Prop} {op : Op} (hW : ∀ i j, W i → ¬ W j → ¬ Shares s i j)
    (hop : ∀ v ∈ op.vars, ¬ W v) : ∀ i j, W i → ¬ W j → ¬ Shares (op.run cfg s).2 i j := by
  intro i j hi hj hs
  exact apart_step h (W := fun k => ¬ W k) (fun i j h1 h2 h3 => hW j i (Classical.not_not.1 h2) h1 h3.symm) hop j i hj
    (fun h => h hi) hs.symm

theorem Shares.calm {b : Bool} {i j : Nat} (h : Shares { s with refused := b } i j) : Shares s i j := by
  unfold Shares at h ⊢
  simp only [dataPtr_eq] at h ⊢
  obtain ⟨p, q, h1, h2, h3⟩ := h
  refine ⟨p, q, ?_, ?_, h3⟩
  · rw [← h1]; cases s.vars (.user i) <;> rfl
  · rw [← h2]; cases s.vars (.user j) <;> rfl

/-! ### Properties -/

/-- Strings of different threads never share characters. -/
theorem threads_apart (hc : cfg.Ok) {owner : Nat → Nat} (h : Threads cfg owner a s) :
    ∀ i j, owner i ≠ owner j → ¬ Shares s i j := by
  induction h with
  | start owner =>
    rintro i j _ ⟨p, _, h, _⟩
    cases h
  | @act owner a a' s s' op t h hop ho hr ih =>
    intro i j hij
    have hrel := (reach_rel hc h.reach).1
    have e : s' = (op.run cfg s).2 := by rw [hr]
    rw [e]
    by_cases hi : owner i = t
    · exact apart_step hrel (W := fun k => owner k = t) (fun i j h1 h2 => ih i j (fun h => h2 (h ▸ h1))) hop i j hi
        (fun hj => hij (hi.trans hj.symm))
    · exact apart_step' hrel (W := fun k => owner k = owner i) (fun i j h1 h2 => ih i j (fun h => h2 (h ▸ h1)))
        (fun v hv h => hi (h.symm.trans (hop v hv))) i j rfl (fun h => hij h.symm)
  | @caught owner a a' a1 s s' op w t h hop ho hr hl ha ih =>
    intro i j hij hs
    replace hs := hs.calm
    revert hs
    have hrel := (reach_rel hc h.reach).1
    have e : s' = (op.run cfg s).2 := by rw [hr]
    rw [e]
    by_cases hi : owner i = t
    · exact apart_step hrel (W := fun k => owner k = t) (fun i j h1 h2 => ih i j (fun h => h2 (h ▸ h1))) hop i j hi
        (fun hj => hij (hi.trans hj.symm))
    · exact apart_step' hrel (W := fun k => owner k = owner i) (fun i j h1 h2 => ih i j (fun h => h2 (h ▸ h1)))
        (fun v hv h => hi (h.symm.trans (hop v hv))) i j rfl (fun h => hij h.symm)
  | @give owner a s v t h hv ih =>
    intro i j hij hs
    by_cases hi : i = v
    · subst hi
      by_cases hj : j = i
      · subst hj; exact hij rfl
      · exact hv j hj hs.symm
    · by_cases hj : j = v
      · subst hj; exact hv i hi hs
      · exact ih i j (by simpa [hi, hj] using hij) hs

/-- What a thread does neither reads nor writes what others use: whatever the strings of other threads are like, and
whatever is in the memory they use, the operation ends in the same way and leaves the same in the thread's own strings
and in all other memory; and the strings of other threads and their memory it leaves as they are. -/
theorem threads_do_not_interfere (hc : cfg.Ok) {owner : Nat → Nat} (h : Threads cfg owner a s) (t : Nat) {op : Op}
    (hop : ∀ v ∈ op.vars, owner v = t) :
    Spared (Uses fun i => owner i = t) (Foreign (fun i => owner i = t) s) s (op.run cfg s).2 ∧
    ∀ s', Alike (Uses fun i => owner i = t) (Foreign (fun i => owner i = t) s) s s' →
      (op.run cfg s').1 = (op.run cfg s).1 ∧
      Alike (Uses fun i => owner i = t) (Foreign (fun i => owner i = t) s) (op.run cfg s).2 (op.run cfg s').2 := by
  have ho := (reach_rel hc h.reach).1.off (W := fun i => owner i = t)
    (fun i j h1 h2 => threads_apart hc h i j (fun h => h2 (h ▸ h1)))
  have hl : Local (Uses fun i => owner i = t) (Foreign (fun i => owner i = t) s) (fun _ => True) (op.run cfg) :=
    op_local op hop
  exact ⟨hl.spared s ho, hl.same s ho⟩

end Verif.Str
