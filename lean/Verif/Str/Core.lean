import Verif.Str.Heap

/-!
The functions of the string cores keep the invariant of the heap and do what they should.
-/

namespace Verif.Str

open M

variable {β γ : Type} {cfg : Cfg} {s s' : St} {v u t : Obj}

/-! ### Failures -/

/-- The exceptions of refused allocations. -/
def AllocThrow (e : Fault) : Prop :=
  e = .throw "bad_alloc" ∨ e = .throw "length_error" ∨ e = .throw "terminate"

/-- The ways to fail: a refused `realloc`, after which nothing is said, or a refused allocation that
leaves all objects outside `X` as they were, and `P`. -/
def Err (cfg : Cfg) (X : Obj → Prop) (P : St → Prop) (s : St) (e : Fault) (s' : St) : Prop :=
  (cfg.arena = false ∧ s'.lost = true) ∨
    (s'.refused = true ∧ AllocThrow e ∧ WInv cfg s' ∧ Frame X s s' ∧ P s')

/-- Failing without any effect on the strings. -/
abbrev Err0 (cfg : Cfg) (s : St) (e : Fault) (s' : St) : Prop := Err cfg (fun _ => False) (fun _ => True) s e s'

theorem Err.mono {X Y : Obj → Prop} {P R : St → Prop} {e : Fault} (h : Err cfg X P s e s') (hX : ∀ o, X o → Y o)
    (hP : WInv cfg s' → Frame X s s' → P s' → R s') : Err cfg Y R s e s' := by
  rcases h with h | ⟨h1, h2, h3, h4, h5⟩
  · exact Or.inl h
  · exact Or.inr ⟨h1, h2, h3, h4.mono hX, hP h3 h4 h5⟩

theorem Err0.to {X : Obj → Prop} {P : St → Prop} {e : Fault} (h : Err0 cfg s e s')
    (hP : Frame (fun _ => False) s s' → P s') : Err cfg X P s e s' :=
  h.mono (fun _ h => h.elim) (fun _ h _ => hP h)

theorem Err.after {X : Obj → Prop} {P : St → Prop} {e : Fault} {s1 : St} (hf : Frame X s s1) (h : Err cfg X P s1 e s') :
    Err cfg X P s e s' := by
  rcases h with h | ⟨h1, h2, h3, h4, h5⟩
  · exact Or.inl h
  · exact Or.inr ⟨h1, h2, h3, hf.trans h4, h5⟩

theorem noexcept_err {x : M β} {Q : β → St → Prop} {X : Obj → Prop} {P : St → Prop}
    (h : Tri x s Q (Err cfg X P s)) : Tri (noexcept x) s Q (Err cfg X P s) := by
  refine noexcept_tri h (fun w s' h => ?_) (fun e s' h hne => h)
  rcases h with h | ⟨h1, h2, h3⟩
  · exact Or.inl h
  · exact Or.inr ⟨h1, Or.inr (Or.inr rfl), h3⟩

theorem noexceptIf_err {c : Bool} {x : M β} {Q : β → St → Prop} {X : Obj → Prop} {P : St → Prop}
    (h : Tri x s Q (Err cfg X P s)) : Tri (noexceptIf c x) s Q (Err cfg X P s) := by
  unfold noexceptIf; split
  · exact noexcept_err h
  · exact h

/-! ### Widths -/

theorem Cfg.Ok.wpos (hc : cfg.Ok) : 0 < cfg.w := by rcases hc.w with h | h | h <;> omega
theorem Cfg.Ok.wle (hc : cfg.Ok) : cfg.w ≤ 4 := by rcases hc.w with h | h | h <;> omega
theorem Cfg.Ok.msle (hc : cfg.Ok) : 5 ≤ cfg.ms ∧ cfg.ms ≤ 23 := by
  unfold Cfg.ms; rcases hc.w with h | h | h <;> rw [h] <;> decide
theorem Cfg.Ok.mmle (hc : cfg.Ok) : cfg.ms ≤ cfg.mm ∧ cfg.mm ≤ 254 := by
  unfold Cfg.mm Cfg.ms; rcases hc.w with h | h | h <;> rw [h] <;> decide

/-! ### Pointers -/

@[simp] theorem Ptr.add_zero (p : Ptr) : p.add 0 = p := by cases p <;> rfl
@[simp] theorem Ptr.add_add (p : Ptr) (i j : Nat) : (p.add i).add j = p.add (i + j) := by
  cases p <;> simp [Ptr.add, Nat.add_assoc]
@[simp] theorem Ptr.off_add (p : Ptr) (i : Nat) : (p.add i).off = p.off + i := by cases p <;> rfl
theorem Ptr.same_add (p q : Ptr) (i j : Nat) : (p.add i).same (q.add j) = p.same q := by
  cases p <;> cases q <;> rfl
@[simp] theorem Core.ptr_off (c : Core) (v : Obj) : (c.ptr v).off = 0 := by cases c <;> rfl
@[simp] theorem Core.ptr_same (c : Core) (v : Obj) : (c.ptr v).same (c.ptr v) = true := by
  cases c <;> simp [Core.ptr, Ptr.same]

/-! ### Reading -/

theorem Holds.read {ob : Ob} {l : List Cell} {n i k : Nat} (h : Holds cfg s v ob l n) (hk : i + k ≤ l.length) :
    readCells ((ob.core.ptr v).add i) k s = (.ok ((l.drop i).take k), s) := by
  obtain ⟨core, al⟩ := ob
  have hv := h.var
  have hc := h.cells
  cases core with
  | small l' =>
    simp only [cellsOf, Option.some.injEq] at hc
    subst hc
    simp [Core.ptr, Ptr.add, readCells, hv, hk]
  | ml d m cap large =>
    simp only [cellsOf, Option.map_eq_some_iff] at hc
    obtain ⟨B, hB, rfl⟩ := hc
    simp [Core.ptr, Ptr.add, readCells, hB, hk]

theorem Holds.read0 {ob : Ob} {l : List Cell} {n k : Nat} (h : Holds cfg s v ob l n) (hk : k ≤ l.length) :
    readCells (ob.core.ptr v) k s = (.ok (l.take k), s) := by
  have := h.read (i := 0) (k := k) (by omega)
  simpa using this

theorem getOb_ok {ob : Ob} (h : s.vars v = some ob) : getOb v s = (.ok ob, s) := by unfold getOb; rw [h]

theorem Holds.sizeM {ob : Ob} {l : List Cell} {n : Nat} (h : Holds cfg s v ob l n) : Str.size cfg v s = (.ok n, s) := by
  unfold Str.size
  rw [bind_ok (getOb_ok h.var), h.size]; rfl

theorem Holds.dataM {ob : Ob} {l : List Cell} {n : Nat} (h : Holds cfg s v ob l n) :
    dataPtr v s = (.ok (ob.core.ptr v), s) := by
  unfold dataPtr
  rw [bind_ok (getOb_ok h.var)]; rfl

/-- What `capacity()` says. -/
theorem Holds.capM (hw : WInv cfg s) {ob : Ob} {l : List Cell} {n : Nat} (h : Holds cfg s v ob l n) :
    ∃ c, capacity cfg v s = (.ok c, s) ∧ n ≤ c ∧ c ≤ ob.core.cap cfg ∧ (Excl s v → c = ob.core.cap cfg) ∧
      (¬ Excl s v → c = n) := by
  obtain ⟨core, al⟩ := ob
  have hv := h.var
  have hc := hw.core v _ hv
  have hs := h.size
  unfold capacity
  rw [bind_ok (getOb_ok hv)]
  cases core with
  | small l' =>
    obtain ⟨h1, m, hm, h0, ht, hz⟩ := hc
    rw [smallSize_eq hm ht] at hs; cases hs
    refine ⟨cfg.ms, rfl, hm, Nat.le_refl _, fun _ => rfl, fun hx => absurd ?_ hx⟩
    intro d n cap al hv2; rw [hv] at hv2; cases hv2
  | ml d m cap large =>
    obtain ⟨B, hB, h1, h2, h3, h4, h5⟩ := hc
    simp only [Core.size?, Option.some.injEq] at hs; subst hs
    cases large with
    | false =>
      refine ⟨cap, rfl, h2, Nat.le_refl _, fun _ => rfl, fun hx => absurd ?_ hx⟩
      intro d n cap al hv2; rw [hv] at hv2; cases hv2
    | true =>
      obtain ⟨rc, src, cells⟩ := B
      obtain ⟨k, rfl⟩ := Option.isSome_iff_exists.1 h4
      have hr : refs d s = (.ok k, s) := by unfold refs; rw [hB]
      simp only
      rw [bind_ok hr]
      by_cases hk : k > 1
      · simp only [hk, if_true]
        refine ⟨m, rfl, Nat.le_refl _, h2, fun hx => ?_, fun _ => rfl⟩
        obtain ⟨B', hB', e⟩ := hx d m cap al hv
        rw [hB] at hB'; cases hB'
        simp at e; omega
      · simp only [hk, if_false]
        refine ⟨cap, rfl, h2, Nat.le_refl _, fun _ => rfl, fun hx => absurd ?_ hx⟩
        intro d' n' cap' al' hv2
        rw [hv] at hv2; cases hv2
        refine ⟨_, hB, ?_⟩
        obtain ⟨L, g1, g2, g3⟩ := hw.own d _ hB
        have g4 := g3.2.1
        have : 0 < L.length := List.length_pos_of_mem ((g2 v).2 (blkOf_ml hv))
        have : k = 1 := by omega
        rw [this]

/-! ### New blocks -/

theorem read_new {p : Ptr} {k b nx : Nat} {cs : List Cell} {x : Option Blk} {rf ls : Bool}
    (h : readCells p k s = (.ok cs, s)) (hb : s.heap b = none) :
    readCells p k ⟨upd s.heap b x, nx, s.vars, rf, ls⟩ = (.ok cs, ⟨upd s.heap b x, nx, s.vars, rf, ls⟩) := by
  cases p with
  | ext m i =>
    unfold readCells at h ⊢
    simp only at h ⊢
    split at h
    · next hi => rw [if_pos hi]; cases h; rfl
    · cases h
  | blk d i =>
    unfold readCells at h ⊢
    simp only at h ⊢
    have hd : d ≠ b := by rintro rfl; rw [hb] at h; cases h
    rw [upd_other _ _ hd]
    split at h
    · split at h
      · next hi => rw [if_pos hi]; cases h; rfl
      · cases h
    · cases h
  | inl o i =>
    unfold readCells at h ⊢
    simp only at h ⊢
    split at h
    · split at h
      · next hi => rw [if_pos hi]; cases h; rfl
      · cases h
    · cases h

theorem read_length {p : Ptr} {k : Nat} {cs : List Cell} (h : readCells p k s = (.ok cs, s')) : cs.length = k ∧ s' = s := by
  cases p with
  | ext m i =>
    unfold readCells at h
    simp only at h
    split at h
    · next hi => cases h; simp; omega
    · cases h
  | blk d i =>
    unfold readCells at h
    simp only at h
    split at h
    · split at h
      · next hi => cases h; simp; omega
      · cases h
    · cases h
  | inl o i =>
    unfold readCells at h
    simp only at h
    split at h
    · split at h
      · next hi => cases h; simp; omega
      · cases h
    · cases h

theorem same_new {p : Ptr} {k b : Nat} {cs : List Cell} (h : readCells p k s = (.ok cs, s)) (hb : s.heap b = none) (i : Nat) :
    p.same (.blk b i) = false := by
  cases p with
  | ext m i => rfl
  | inl o i => rfl
  | blk d i =>
    simp only [Ptr.same, beq_eq_false_iff_ne, ne_eq]
    rintro rfl
    unfold readCells at h
    simp only [hb] at h
    cases h

theorem podCopy_new {p : Ptr} {k b nx src m : Nat} {cs : List Cell} {rc : Option Nat} {rf ls : Bool}
    (h : readCells p k s = (.ok cs, s)) (hb : s.heap b = none) (hk : k ≤ m) :
    podCopy cfg p k (.blk b 0) ⟨upd s.heap b (some ⟨rc, src, List.replicate m none⟩), nx, s.vars, rf, ls⟩ =
      (.ok (), ⟨upd s.heap b (some ⟨rc, src, put (List.replicate m none) 0 cs⟩), nx, s.vars, rf, ls⟩) := by
  unfold podCopy
  rw [same_new h hb]
  simp only [Bool.false_and, Bool.false_eq_true, if_false]
  rw [bind_ok (read_new h hb)]
  have hl := (read_length h).1
  simp [writeCells, hl, hk, upd_upd]

theorem put_new {m : Nat} {cs : List Cell} (h : cs.length ≤ m) :
    (put (List.replicate m none) 0 cs).length = m ∧ (put (List.replicate m none) 0 cs).take cs.length = cs ∧
      ∀ i, i < cs.length → (put (List.replicate m none) 0 cs)[i]? = cs[i]? := by
  refine ⟨by rw [put_length (by simpa using h)]; simp, ?_, fun i hi => ?_⟩
  · unfold put; simp
  · rw [put_getElem? (by simpa using h), if_neg (by omega), if_pos (by omega), Nat.sub_zero]

/-- A refused allocation changes nothing. -/
theorem refusedErr (hw : WInv cfg s) {nx : Nat} (hnx : s.next ≤ nx) {e : Fault} (he : AllocThrow e) :
    Err0 cfg s e ⟨s.heap, nx, s.vars, true, s.lost⟩ := by
  obtain ⟨w1, f1⟩ := hw.count nx hnx true s.lost
  exact Or.inr ⟨rfl, he, w1, f1 _, trivial⟩

/-- An allocation succeeds with a new block or is refused. -/
theorem alloc_raw (hc : cfg.Ok) (s : St) {al : Nat} (bytes : Nat) (hdr : Bool) (ha : cfg.arena = (al != 0)) :
    (bytes < 4611686018427387904 ∧ alloc cfg al hdr bytes s = (.ok s.next, ⟨upd s.heap s.next (some ⟨if hdr then some 1 else none, al,
        List.replicate ((bytes - hdrBytes hdr) / cfg.w) none⟩), s.next + 1, s.vars, s.refused, s.lost⟩)) ∨
    alloc cfg al hdr bytes s = (.error (.throw "bad_alloc"), ⟨s.heap, s.next + 1, s.vars, true, s.lost⟩) := by
  unfold alloc
  have h0 : (cfg.arena && cfg.dbg && al == 0) = false := by
    rw [ha]
    by_cases h : al = 0 <;> simp [h]
  simp only [h0, Bool.false_eq_true, if_false]
  by_cases hm : cfg.malloc s.next bytes = true
  · refine Or.inl ⟨?_, by rw [if_pos hm]⟩
    apply Nat.lt_of_not_le
    intro hle
    rw [hc.malloc _ _ hle] at hm; cases hm
  · exact Or.inr (by rw [if_neg hm])

theorem alloc_cases (hc : cfg.Ok) (hw : WInv cfg s) {al bytes : Nat} (hdr : Bool) (ha : cfg.arena = (al != 0)) :
    (bytes < 4611686018427387904 ∧ alloc cfg al hdr bytes s = (.ok s.next, ⟨upd s.heap s.next (some ⟨if hdr then some 1 else none, al,
        List.replicate ((bytes - hdrBytes hdr) / cfg.w) none⟩), s.next + 1, s.vars, s.refused, s.lost⟩)) ∨
    (∃ s', alloc cfg al hdr bytes s = (.error (.throw "bad_alloc"), s') ∧ Err0 cfg s (.throw "bad_alloc") s') := by
  rcases alloc_raw hc s bytes hdr ha with h | h
  · exact Or.inl h
  · exact Or.inr ⟨_, h, refusedErr hw (by omega) (Or.inl rfl)⟩

/-- A new large block or a refusal. -/
theorem create_raw (hc : cfg.Ok) (s : St) {al : Nat} (n : Nat) (ha : cfg.arena = (al != 0)) :
    ((n + 1) * cfg.w < 4611686018427387904 ∧ create cfg al n s = (.ok (s.next, n), ⟨upd s.heap s.next (some ⟨some 1, al,
        List.replicate (n + 1) none⟩), s.next + 1, s.vars, s.refused, s.lost⟩)) ∨
    (∃ e nx, s.next ≤ nx ∧ AllocThrow e ∧ create cfg al n s = (.error e, ⟨s.heap, nx, s.vars, true, s.lost⟩)) := by
  have hlen : (lengthError : M Nat) s = (.error (.throw "length_error"), ⟨s.heap, s.next, s.vars, true, s.lost⟩) := rfl
  unfold create largeBytes
  split
  · split
    · have hd : (n + 1) * cfg.w + 8 - hdrBytes true = (n + 1) * cfg.w := by simp [hdrBytes]
      have hq : (n + 1) * cfg.w / cfg.w = n + 1 := Nat.mul_div_cancel _ hc.wpos
      rcases alloc_raw hc s ((n + 1) * cfg.w + 8) true ha with ⟨h1, h2⟩ | h1
      · refine Or.inl ⟨by omega, ?_⟩
        rw [bind_ok (pure_apply _ _), bind_ok h2, hd, hq]
        simp [hq]
      · refine Or.inr ⟨_, s.next + 1, by omega, Or.inl rfl, ?_⟩
        rw [bind_ok (pure_apply _ _), bind_apply, h1]
    · exact Or.inr ⟨_, s.next, Nat.le_refl _, Or.inr (Or.inl rfl), by rw [bind_apply, hlen]⟩
  · exact Or.inr ⟨_, s.next, Nat.le_refl _, Or.inr (Or.inl rfl), by rw [bind_apply, hlen]⟩

theorem create_cases (hc : cfg.Ok) (hw : WInv cfg s) {al n : Nat} (ha : cfg.arena = (al != 0)) :
    ((n + 1) * cfg.w < 4611686018427387904 ∧ create cfg al n s = (.ok (s.next, n), ⟨upd s.heap s.next (some ⟨some 1, al,
        List.replicate (n + 1) none⟩), s.next + 1, s.vars, s.refused, s.lost⟩)) ∨
    (∃ e s', create cfg al n s = (.error e, s') ∧ Err0 cfg s e s') := by
  rcases create_raw hc s n ha with h | ⟨e, nx, h1, h2, h3⟩
  · exact Or.inl h
  · exact Or.inr ⟨e, _, h3, refusedErr hw h1 h2⟩

/-! ### Letting go -/

theorem refs_ok {d k src : Nat} {cells : List Cell} (h : s.heap d = some ⟨some k, src, cells⟩) : refs d s = (.ok k, s) := by
  unfold refs; rw [h]

theorem setRefs_ok {d k src n : Nat} {cells : List Cell} (h : s.heap d = some ⟨some k, src, cells⟩) :
    setRefs d n s = (.ok (), ⟨upd s.heap d (some ⟨some n, src, cells⟩), s.next, s.vars, s.refused, s.lost⟩) := by
  unfold setRefs; rw [h]

/-- One owner less. -/
theorem decrementRefs_dec {d k src al : Nat} {cells : List Cell} (h : s.heap d = some ⟨some (k + 1), src, cells⟩) (hk : 1 ≤ k) :
    decrementRefs cfg al d s = (.ok (), ⟨upd s.heap d (some ⟨some k, src, cells⟩), s.next, s.vars, s.refused, s.lost⟩) := by
  unfold decrementRefs
  rw [bind_ok (refs_ok h), bind_ok (assert_ok (by simp) _), if_neg (by omega), bind_ok (setRefs_ok h),
    doIf_neg (by simp; omega)]
  rfl

theorem release_ok (hw : WInv cfg s) {ob : Ob} (hv : s.vars v = some ob) :
    ∃ H, release cfg v s = (.ok (), ⟨H, s.next, s.vars, s.refused, s.lost⟩) ∧ DropOk cfg s ob.core H := by
  unfold release
  rw [bind_ok (getOb_ok hv)]
  obtain ⟨core, al⟩ := ob
  have hc := hw.core v _ hv
  have ha := hw.al v _ hv
  cases core with
  | small l => exact ⟨s.heap, rfl, rfl⟩
  | ml d n cap large =>
    obtain ⟨B, hB, h1, h2, h3, h4, h5⟩ := hc
    simp only
    cases har : cfg.arena with
    | true =>
      have : (al != 0) = true := by rw [← ha, har]
      simp only [this, Bool.and_self, if_true]
      exact ⟨s.heap, rfl, B, hB, Or.inl ⟨rfl, har⟩⟩
    | false =>
      have hal : al = 0 := by
        have : (al != 0) = false := by rw [← ha, har]
        simpa using this
      subst hal
      simp only [Bool.false_and, Bool.false_eq_true, if_false]
      have hsrc := hw.src d B hB har
      cases large with
      | false =>
        have hrc : B.rc = none := by simpa using h4
        refine ⟨upd s.heap d none, ?_, B, hB, Or.inr (Or.inr ⟨har, Or.inl hrc, rfl⟩)⟩
        simp [dealloc, hB, har, hsrc]
      | true =>
        obtain ⟨rc, src, cells⟩ := B
        obtain ⟨k, rfl⟩ := Option.isSome_iff_exists.1 h4
        obtain ⟨L, g1, g2, g3⟩ := hw.own d _ hB
        have hk : k = L.length := g3.2.2 har
        have hk1 : 1 ≤ L.length := g3.1 har
        simp only [if_true]
        obtain ⟨m, rfl⟩ : ∃ m, k = m + 1 := ⟨k - 1, by omega⟩
        by_cases hm : 1 ≤ m
        · exact ⟨_, decrementRefs_dec hB hm, _, hB, Or.inr (Or.inl ⟨m, rfl, hm, rfl⟩)⟩
        · have : m = 0 := by omega
          subst this
          refine ⟨upd s.heap d none, ?_, _, hB, Or.inr (Or.inr ⟨har, Or.inr rfl, rfl⟩)⟩
          simp only at hsrc
          subst hsrc
          unfold decrementRefs
          rw [bind_ok (refs_ok hB), bind_ok (assert_ok (by simp) _), if_neg (by omega), bind_ok (setRefs_ok hB),
            doIf_pos (by rfl)]
          simp [dealloc, har]

/-- Destroying a string keeps everything else. -/
theorem destroy_ok (hw : WInv cfg s) {ob : Ob} (hv : s.vars v = some ob) :
    ∃ s', destroy cfg v s = (.ok (), s') ∧ WInv cfg s' ∧ Frame (· = v) s s' ∧ s'.vars v = none ∧
      (∀ o, o ≠ v → Excl s o → Excl s' o) ∧ s'.refused = s.refused ∧ s'.lost = s.lost := by
  obtain ⟨H, h1, h2⟩ := release_ok hw hv
  obtain ⟨w1, f1⟩ := hw.drop hv h2 s.next (Nat.le_refl _) s.refused s.lost
  refine ⟨_, ?_, w1, f1, by simp, ?_, rfl, rfl⟩
  · unfold destroy
    rw [bind_ok h1]; rfl
  · intro o ho hx d n cap al he
    simp only [upd_other _ _ ho] at he
    obtain ⟨B, hB, hr⟩ := hx d n cap al he
    obtain ⟨B', hB', _, _, _, hr'⟩ := h2.keeps hw hv hB (blkOf_ml he) ho
    exact ⟨B', hB', hr' hr⟩

/-! ### Nothing forgets a refused `realloc` -/

/-- `x` keeps the mark of a refused `realloc`. -/
def KeepsLost (x : M β) : Prop := ∀ s, s.lost = true → (x s).2.lost = true

theorem KeepsLost.bind {x : M β} {f : β → M γ} (hx : KeepsLost x) (hf : ∀ b, KeepsLost (f b)) : KeepsLost (x >>= f) := by
  intro s hs
  have h1 := hx s hs
  rw [bind_apply]
  generalize x s = r at h1 ⊢
  obtain ⟨r, s'⟩ := r
  cases r with
  | ok b => exact hf b s' h1
  | error e => exact h1

theorem KeepsLost.pure (b : β) : KeepsLost (pure b : M β) := fun _ h => h
theorem KeepsLost.fail (e : Fault) : KeepsLost (M.fail e : M β) := fun _ h => h

theorem keepsLost_destroy (v : Obj) : KeepsLost (destroy cfg v) := by
  have h1 : ∀ v, KeepsLost (getOb v) := by
    intro v s h; unfold getOb; split <;> exact h
  have h2 : ∀ b, KeepsLost (refs b) := by
    intro b s h; unfold refs; split <;> exact h
  have h3 : ∀ b n, KeepsLost (setRefs b n) := by
    intro b n s h; unfold setRefs; split <;> exact h
  have h4 : ∀ al b, KeepsLost (dealloc cfg al b) := by
    intro al b s h; unfold dealloc
    split
    · exact h
    · split
      · exact h
      · split <;> exact h
  have h5 : ∀ c m, KeepsLost (assert cfg c m) := by
    intro c m; unfold assert; split
    · exact KeepsLost.fail _
    · exact KeepsLost.pure _
  have h6 : ∀ al b, KeepsLost (decrementRefs cfg al b) := by
    intro al b
    refine (h2 b).bind fun n => (h5 _ _).bind fun _ => ?_
    split
    · exact KeepsLost.fail _
    · refine (h3 _ _).bind fun _ => ?_
      unfold doIf; split
      · exact h4 _ _
      · exact KeepsLost.pure _
  refine KeepsLost.bind ?_ (fun _ s h => h)
  refine (h1 v).bind fun o => ?_
  split
  · exact KeepsLost.pure _
  · split
    · exact KeepsLost.pure _
    · split
      · exact h6 _ _
      · exact h4 _ _

/-- A local object is destroyed in the end. -/
theorem withTemp_tri {body : M β} {Q Q' : β → St → Prop} {X Y : Obj → Prop} {P R : St → Prop} {s0 : St}
    (hb : Tri body s0 Q' (Err cfg Y R s))
    (hq : ∀ r s', Q' r s' → ∃ s'', destroy cfg t s' = (.ok (), s'') ∧ Q r s'')
    (he : ∀ s', WInv cfg s' → Frame Y s s' → R s' → ∃ s'', destroy cfg t s' = (.ok (), s'') ∧
      (s'.refused = true → s''.refused = true) ∧ WInv cfg s'' ∧ Frame X s s'' ∧ P s'') :
    Tri (withTemp cfg t body) s0 Q (Err cfg X P s) := by
  unfold Tri withTemp at *
  generalize body s0 = r at hb ⊢
  obtain ⟨r, s'⟩ := r
  cases r with
  | ok b =>
    simp only at hb ⊢
    obtain ⟨s'', h1, h2⟩ := hq b s' hb
    rw [h1]; exact h2
  | error e =>
    rcases hb with ⟨har, hl⟩ | ⟨h1, h2, h3, h4, h5⟩
    · have hk := keepsLost_destroy (cfg := cfg) t s' hl
      cases e with
      | throw w =>
        simp only
        generalize destroy cfg t s' = r at hk ⊢
        obtain ⟨r, s''⟩ := r
        cases r <;> exact Or.inl ⟨har, hk⟩
      | ub w => exact Or.inl ⟨har, hl⟩
      | assertFail w => exact Or.inl ⟨har, hl⟩
    · obtain ⟨s'', g1, g2, g3, g4, g5⟩ := he s' h3 h4 h5
      have : ∃ w, e = .throw w := by rcases h2 with h | h | h <;> exact ⟨_, h⟩
      obtain ⟨w, rfl⟩ := this
      simp only
      rw [g1]
      exact Or.inr ⟨g2 h1, h2, g3, g4, g5⟩

theorem Frame.vanish (h : Frame (fun o => o = t ∨ o = v) s s') (h1 : s.vars t = none) (h2 : s'.vars t = none) :
    Frame (· = v) s s' := by
  intro o ho
  by_cases e : o = t
  · subst e
    exact ⟨h2.trans h1.symm, fun ob hob => by rw [h1] at hob; cases hob⟩
  · exact h o (fun h => h.elim e ho)

theorem Frame.vanish0 (h : Frame (· = t) s s') (h1 : s.vars t = none) (h2 : s'.vars t = none) :
    Frame (fun _ => False) s s' := by
  intro o _
  by_cases e : o = t
  · subst e
    exact ⟨h2.trans h1.symm, fun ob hob => by rw [h1] at hob; cases hob⟩
  · exact h o e

/-! ### Unshared strings -/

/-- `v` is unshared, its characters are `cs`, at `p`. -/
def Own (cfg : Cfg) (s : St) (v : Obj) (p : Ptr) (cs : List Cell) : Prop :=
  ∃ ob l n, Holds cfg s v ob l n ∧ Excl s v ∧ p = ob.core.ptr v ∧ cs = l.take n

theorem Own.raw {p : Ptr} {cs : List Cell} (h : Own cfg s v p cs) : Raw cfg s v cs := by
  obtain ⟨ob, l, n, h1, _, _, h2⟩ := h
  exact ⟨ob, l, n, h1, h2⟩

theorem Raw.sizeM (hw : WInv cfg s) {cs : List Cell} (h : Raw cfg s v cs) : Str.size cfg v s = (.ok cs.length, s) := by
  obtain ⟨ob, l, n, h1, rfl⟩ := h
  obtain ⟨l', n', h2, h3, h4, _⟩ := hw.view h1.var
  obtain ⟨_, rfl, rfl⟩ := h1.unique h2
  rw [h1.sizeM]
  have : n ≤ l.length := by omega
  simp [this]

theorem Raw.var {cs : List Cell} (h : Raw cfg s v cs) : ∃ ob, s.vars v = some ob := by
  obtain ⟨ob, l, n, h1, _⟩ := h
  exact ⟨ob, h1.var⟩

theorem WInv.raw (hw : WInv cfg s) {ob : Ob} (hv : s.vars v = some ob) : ∃ cs, Raw cfg s v cs := by
  obtain ⟨l, n, h, _⟩ := hw.view hv
  exact ⟨_, ob, l, n, h, rfl⟩

theorem Raw.dataM {cs : List Cell} (h : Raw cfg s v cs) : ∃ p, dataPtr v s = (.ok p, s) ∧ p.off = 0 := by
  obtain ⟨ob, l, n, h1, _⟩ := h
  exact ⟨_, h1.dataM, by simp⟩

/-- Reading the characters of a string. -/
theorem Raw.read {cs : List Cell} (h : Raw cfg s v cs) {p : Ptr} (hp : dataPtr v s = (.ok p, s)) {i k : Nat}
    (hk : i + k ≤ cs.length) : readCells (p.add i) k s = (.ok ((cs.drop i).take k), s) := by
  obtain ⟨ob, l, n, h1, rfl⟩ := h
  rw [h1.dataM] at hp; cases hp
  have hl : i + k ≤ n ∧ i + k ≤ l.length := by simp at hk; omega
  rw [h1.read hl.2]
  congr 2
  rw [List.drop_take, List.take_take]
  congr 1; omega

theorem Own.dataM {p : Ptr} {cs : List Cell} (h : Own cfg s v p cs) : dataPtr v s = (.ok p, s) := by
  obtain ⟨ob, l, n, h1, _, rfl, _⟩ := h
  exact h1.dataM

/-- `v` unshared takes new characters and a new size in the storage it has. -/
theorem setStore (hw : WInv cfg s) {ob : Ob} {l l' : List Cell} {n n' : Nat} (h : Holds cfg s v ob l n) (hx : Excl s v)
    (hl : l'.length = l.length) (hn : n' ≤ ob.core.cap cfg) (hz : l'[n']? = some (some 0)) :
    (∀ d m cap large, ob.core = .ml d m cap large →
      ∃ B, s.heap d = some B ∧ B.cells = l ∧
        WInv cfg ⟨upd s.heap d (some { B with cells := l' }), s.next, upd s.vars v (some ⟨.ml d n' cap large, ob.al⟩), s.refused, s.lost⟩ ∧
        Frame (· = v) s ⟨upd s.heap d (some { B with cells := l' }), s.next, upd s.vars v (some ⟨.ml d n' cap large, ob.al⟩), s.refused, s.lost⟩ ∧
        Own cfg ⟨upd s.heap d (some { B with cells := l' }), s.next, upd s.vars v (some ⟨.ml d n' cap large, ob.al⟩), s.refused, s.lost⟩ v
          (ob.core.ptr v) (l'.take n')) ∧
    (∀ c, ob.core = .small c → l'[cfg.ms]? = some (some (cfg.ms - n')) → (cfg.sso = false → n' = 0) → c = l ∧
        WInv cfg ⟨s.heap, s.next, upd s.vars v (some ⟨.small l', ob.al⟩), s.refused, s.lost⟩ ∧
        Frame (· = v) s ⟨s.heap, s.next, upd s.vars v (some ⟨.small l', ob.al⟩), s.refused, s.lost⟩ ∧
        Own cfg ⟨s.heap, s.next, upd s.vars v (some ⟨.small l', ob.al⟩), s.refused, s.lost⟩ v
          (ob.core.ptr v) (l'.take n')) := by
  obtain ⟨core, al⟩ := ob
  have hv := h.var
  have hcore := hw.core v _ hv
  constructor
  · intro d m cap large e
    simp only at e; subst e
    obtain ⟨B, hB, h1, h2, h3, h4, h5⟩ := hcore
    have hcells : B.cells = l := by
      have := h.cells
      simpa [cellsOf, hB] using this
    have hr : B.rc = none ∨ B.rc = some 1 := by
      cases large with
      | false => left; simpa using h4
      | true =>
        obtain ⟨B', hB', e⟩ := hx d m cap al hv
        rw [hB] at hB'; cases hB'; exact Or.inr e
    obtain ⟨w1, f1⟩ := hw.inBlock hv hB (n' := n') (l' := l') (hr.elim Or.inl (fun h => Or.inr (Or.inl h)))
      (by rw [hl, ← hcells]; exact h1) hn hz
    refine ⟨B, hB, hcells, w1, f1, ⟨.ml d n' cap large, al⟩, l', n', ⟨by simp, by simp [cellsOf], rfl⟩, ?_, rfl, rfl⟩
    intro d' n'' cap' al' he
    simp at he
    obtain ⟨⟨rfl, rfl, rfl, rfl⟩, rfl⟩ := he
    refine ⟨_, upd_same _ _ _, ?_⟩
    rcases hr with hr | hr
    · rw [hr] at h4; cases h4
    · exact hr
  · intro c e ht h0
    simp only at e; subst e
    have hcells : c = l := by
      have := h.cells
      simpa [cellsOf] using this
    obtain ⟨g1, _⟩ := hcore
    have hok : CoreOk cfg s (.small l') := ⟨by rw [hl, ← hcells]; exact g1, n', hn, h0, ht, hz⟩
    obtain ⟨w1, f1⟩ := hw.toSmall hv (H := s.heap) rfl (l := l') hok (hw.al v _ hv)
    refine ⟨hcells, w1, f1, ⟨.small l', al⟩, l', n', ⟨by simp, rfl, smallSize_eq hn ht⟩, ?_, rfl, rfl⟩
    intro d n cap al' he
    simp at he

/-- Writing characters of an unshared string. -/
theorem Own.write (hw : WInv cfg s) {p : Ptr} {cs xs : List Cell} {i : Nat} (h : Own cfg s v p cs) (hi : i + xs.length ≤ cs.length) :
    ∃ s', writeCells (p.add i) xs s = (.ok (), s') ∧ WInv cfg s' ∧ Frame (· = v) s s' ∧ Own cfg s' v p (put cs i xs) ∧
      s'.refused = s.refused ∧ s'.lost = s.lost := by
  obtain ⟨ob, l, n, h1, hx, rfl, rfl⟩ := h
  obtain ⟨l2, n2, h2, h3, h4, h5⟩ := hw.view h1.var
  obtain ⟨_, rfl, rfl⟩ := h1.unique h2
  have hi' : i + xs.length ≤ n := by simp at hi; omega
  have hll : (put l i xs).length = l.length := put_length (by omega)
  have hz : (put l i xs)[n]? = some (some 0) := by
    rw [put_getElem? (by omega), if_neg (by omega), if_neg (by omega)]; exact h5
  obtain ⟨S1, S2⟩ := setStore hw h1 hx hll h4 hz
  have htk : (put l i xs).take n = put (l.take n) i xs := put_take hi' (by omega)
  obtain ⟨core, al⟩ := ob
  have hcore := hw.core v _ h1.var
  cases core with
  | small c =>
    obtain ⟨g1, m, g2, g3, g4, g5⟩ := hcore
    have hsz := h1.size
    rw [smallSize_eq g2 g4] at hsz; cases hsz
    have hcl : c = l := by simpa [cellsOf] using h1.cells
    subst hcl
    have ht : (put c i xs)[cfg.ms]? = some (some (cfg.ms - n)) := by
      rw [put_getElem? (by omega), if_neg (by omega), if_neg (by omega)]; exact g4
    obtain ⟨_, w1, f1, o1⟩ := S2 c rfl ht g3
    refine ⟨_, ?_, w1, f1, htk ▸ o1, rfl, rfl⟩
    have : i + xs.length ≤ c.length := by omega
    simp [writeCells, Core.ptr, Ptr.add, h1.var, this]
  | ml d m cap large =>
    obtain ⟨B, hB, hBl, w1, f1, o1⟩ := S1 d m cap large rfl
    have hm : m = n := by simpa [Core.size?] using h1.size
    subst hm
    have e1 : upd s.vars v (some ⟨.ml d m cap large, al⟩) = s.vars := upd_self h1.var
    simp only [e1] at w1 f1 o1
    refine ⟨_, ?_, w1, f1, htk ▸ o1, rfl, rfl⟩
    have : i + xs.length ≤ l.length := by omega
    simp [writeCells, Core.ptr, Ptr.add, hB, hBl, this]

/-- Moving characters inside an unshared string. -/
theorem Own.move (hw : WInv cfg s) {p : Ptr} {cs : List Cell} {i j k : Nat} (h : Own cfg s v p cs) (hi : i + k ≤ cs.length)
    (hj : j + k ≤ cs.length) :
    ∃ s', podMove (p.add i) k (p.add j) s = (.ok (), s') ∧ WInv cfg s' ∧ Frame (· = v) s s' ∧
      Own cfg s' v p (put cs j ((cs.drop i).take k)) ∧ s'.refused = s.refused ∧ s'.lost = s.lost := by
  have hl : ((cs.drop i).take k).length = k := by simp; omega
  obtain ⟨s', h1, h2⟩ := h.write hw (xs := (cs.drop i).take k) (i := j) (by rw [hl]; exact hj)
  refine ⟨s', ?_, h2⟩
  unfold podMove
  rw [bind_ok (h.raw.read h.dataM hi)]; exact h1

/-- Room in a string. -/
theorem Own.room {p : Ptr} {cs : List Cell} {i : Nat} (h : Own cfg s v p cs) :
    ∃ r, room (p.add i) s = (.ok r, s) ∧ cs.length - i ≤ r := by
  obtain ⟨ob, l, n, h1, hx, rfl, rfl⟩ := h
  obtain ⟨core, al⟩ := ob
  have hl : (l.take n).length ≤ l.length := by simp; omega
  cases core with
  | small c =>
    have hcl : c = l := by simpa [cellsOf] using h1.cells
    subst hcl
    exact ⟨c.length - (0 + i), by simp [Str.room, Core.ptr, Ptr.add, h1.var], by omega⟩
  | ml d m cap large =>
    have := h1.cells
    simp only [cellsOf, Option.map_eq_some_iff] at this
    obtain ⟨B, hB, rfl⟩ := this
    exact ⟨B.cells.length - (0 + i), by simp [Str.room, Core.ptr, Ptr.add, hB], by omega⟩

/-- Filling characters of an unshared string. -/
theorem Own.fill (hw : WInv cfg s) {p : Ptr} {cs : List Cell} {i k : Nat} {c : Ch} (h : Own cfg s v p cs) (hi : i + k ≤ cs.length) :
    ∃ s', podFill (p.add i) k c s = (.ok (), s') ∧ WInv cfg s' ∧ Frame (· = v) s s' ∧
      Own cfg s' v p (put cs i (List.replicate k (some c))) ∧ s'.refused = s.refused ∧ s'.lost = s.lost := by
  obtain ⟨r, h1, h2⟩ := h.room (i := i)
  obtain ⟨s', h3, h4⟩ := h.write hw (xs := List.replicate k (some c)) (i := i) (by simpa using hi)
  refine ⟨s', ?_, h4⟩
  unfold podFill
  rw [bind_ok h1, if_pos (by omega)]; exact h3

end Verif.Str
