import Verif.Str.Replace
import Verif.Str.StreamSpec

/-!
What reading from streams does to the characters of a string.
-/

namespace Verif.Str

open M

variable {β γ : Type} {cfg : Cfg} {s s' : St} {v : Obj}

theorem Tri.and {x : M β} {Q R : β → St → Prop} {E F : Fault → St → Prop} (h : Tri x s Q E) (h' : Tri x s R F) :
    Tri x s (fun b s' => Q b s' ∧ R b s') (fun e s' => E e s' ∧ F e s') := by
  unfold Tri at *
  generalize x s = r at h h' ⊢
  obtain ⟨r, s'⟩ := r
  cases r <;> exact ⟨h, h'⟩

theorem capacity_keeps (cfg : Cfg) (v : Obj) (s : St) : (capacity cfg v s).2 = s := by
  unfold capacity
  rw [bind_apply]
  unfold getOb
  cases hv : s.vars v with
  | none => rfl
  | some o =>
    simp only
    rcases o with ⟨core, al⟩
    cases core with
    | small l => rfl
    | ml d n cap large =>
      cases large with
      | false => rfl
      | true =>
        simp only
        rw [bind_apply]
        unfold refs
        split
        next h =>
          split at h
          · cases h
            split <;> rfl
          · cases h
        next h =>
          split at h
          · cases h
          · cases h; rfl

/-- `expandNoinit` after the room has been made keeps the block and its room. -/
theorem expandTail_core {d n cap al old new : Nat} {large : Bool} (hv : s.vars v = some ⟨.ml d n cap large, al⟩) :
    Tri (expandTail cfg v old new) s (fun _ s' => s'.vars v = some ⟨.ml d new cap large, al⟩ ∧ (Excl s v → Excl s' v))
      (fun _ _ => True) := by
  unfold expandTail
  refine Tri.bind (R := fun _ s' => s' = s) ?_ ?_
  · have := capacity_keeps cfg v s
    unfold Tri
    rcases h : capacity cfg v s with ⟨r, s1⟩
    rw [h] at this
    cases r
    · trivial
    · exact this
  · intro c s1 e
    subst e
    refine Tri.bind (R := fun _ s' => s' = s1) ?_ ?_
    · unfold assert
      split
      · trivial
      · exact rfl
    · intro _ s2 e
      subst e
      refine Tri.step (getOb_ok hv) ?_
      simp only
      refine Tri.step (setCore_ok hv) ?_
      refine Tri.bind (R := fun _ s' => s'.vars v = some ⟨.ml d new cap large, al⟩ ∧ (Excl s2 v → Excl s' v)) ?_ (fun _ s' h => Tri.ret h)
      unfold Tri writeCells
      simp only
      split
      · next h =>
        split at h
        · next B hB =>
          split at h
          · cases h
            refine ⟨by simp, fun hx d' n' cap' al' he => ?_⟩
            simp at he
            obtain ⟨⟨rfl, rfl, rfl, rfl⟩, rfl⟩ := he
            obtain ⟨B', hB', hr⟩ := hx d n cap al hv
            rw [hB] at hB'; cases hB'
            exact ⟨_, upd_same _ _ _, hr⟩
          · cases h
        · cases h
      · trivial

theorem write_core {p : Ptr} {cs : List Cell} {ob : Ob} (hv : s.vars v = some ob) :
    Tri (writeCells p cs) s (fun _ s' => ∃ ob', s'.vars v = some ob' ∧ ob'.core.ptr v = ob.core.ptr v ∧
      ob'.core.cap cfg = ob.core.cap cfg ∧ (Excl s v → Excl s' v)) (fun _ _ => True) := by
  unfold Tri writeCells
  cases p with
  | ext m i => trivial
  | blk b i =>
    simp only
    cases hb : s.heap b with
    | none => trivial
    | some B =>
      simp only
      by_cases hl : i + cs.length ≤ B.cells.length
      · rw [if_pos hl]
        refine ⟨ob, hv, rfl, rfl, fun hx d n cap al he => ?_⟩
        obtain ⟨B', hB', hr⟩ := hx d n cap al he
        by_cases e : d = b
        · subst e
          rw [hb] at hB'; cases hB'
          exact ⟨_, upd_same _ _ _, hr⟩
        · exact ⟨B', by simp only; rw [upd_other _ _ e]; exact hB', hr⟩
      · rw [if_neg hl]; trivial
  | inl o i =>
    simp only
    cases ho : s.vars o with
    | none => trivial
    | some oo =>
      obtain ⟨core, al⟩ := oo
      cases core with
      | ml d n cap large => trivial
      | small cells =>
        simp only
        by_cases hl : i + cs.length ≤ cells.length
        · rw [if_pos hl]
          simp only
          by_cases e : v = o
          · subst e
            rw [ho] at hv; cases hv
            refine ⟨_, upd_same _ _ _, rfl, rfl, fun _ d n cap al' he => ?_⟩
            simp at he
          · refine ⟨ob, by rw [upd_other _ _ e]; exact hv, rfl, rfl, fun hx d n cap al' he => ?_⟩
            simp only at he
            rw [upd_other _ _ e] at he
            exact hx d n cap al' he
        · rw [if_neg hl]; trivial

/-! ### The capacity -/

/-- `capacity()` is that of the block, or the size of a string that shares it. -/
theorem capacity_ml {d n cap al : Nat} {large : Bool} {B : Blk} (hv : s.vars v = some ⟨.ml d n cap large, al⟩)
    (hB : s.heap d = some B) (hr : B.rc.isSome = large) :
    capacity cfg v s = (.ok (match B.rc with
      | none => cap
      | some r => if r > 1 then n else cap), s) := by
  unfold capacity
  rw [bind_ok (getOb_ok hv)]
  obtain ⟨rc, src, cells⟩ := B
  cases rc with
  | none => simp only [Option.isSome_none] at hr; subst hr; rfl
  | some r =>
    simp only [Option.isSome_some] at hr; subst hr
    simp only
    rw [bind_ok (refs_ok hB)]
    split <;> rfl

theorem capacity_small {l : List Cell} {al : Nat} (hv : s.vars v = some ⟨.small l, al⟩) :
    capacity cfg v s = (.ok cfg.ms, s) := by
  unfold capacity
  rw [bind_ok (getOb_ok hv)]; rfl

/-- Writing characters does not change the capacity. -/
theorem write_cap {p : Ptr} {cs : List Cell} {c : Nat} (hw : writeCells p cs s = (.ok (), s'))
    (hi : WInv cfg s) (hi' : WInv cfg s') (h : capacity cfg v s = (.ok c, s)) : capacity cfg v s' = (.ok c, s') := by
  cases hv : s.vars v with
  | none =>
    unfold capacity at h
    rw [bind_apply] at h
    unfold getOb at h
    simp [hv] at h
  | some ob =>
    obtain ⟨core, al⟩ := ob
    have hcore := hi.core v _ hv
    cases p with
    | ext m i => simp [writeCells] at hw
    | blk b i =>
      cases hb : s.heap b with
      | none => simp [writeCells, hb] at hw
      | some B =>
        by_cases hl : i + cs.length ≤ B.cells.length
        · simp only [writeCells, hb, if_pos hl] at hw
          cases hw
          cases core with
          | small l =>
            rw [capacity_small hv] at h; cases h
            exact capacity_small hv
          | ml d n cap large =>
            obtain ⟨B1, hB1, _, _, _, hr, _⟩ := hcore
            rw [capacity_ml hv hB1 hr] at h
            by_cases e : d = b
            · subst e
              rw [hb] at hB1; cases hB1
              rw [capacity_ml (s := { s with heap := upd s.heap d (some { B with cells := put B.cells i cs }) })
                (B := { B with cells := put B.cells i cs }) hv (upd_same _ _ _) hr]
              injection h with h _
              rw [h]
            · rw [capacity_ml (s := { s with heap := upd s.heap b (some { B with cells := put B.cells i cs }) }) (B := B1) hv
                ((upd_other _ _ e).trans hB1) hr]
              injection h with h _
              rw [h]
        · simp [writeCells, hb, if_neg hl] at hw
    | inl o i =>
      cases ho : s.vars o with
      | none => simp [writeCells, ho] at hw
      | some oo =>
        obtain ⟨core', al'⟩ := oo
        cases core' with
        | ml d n cap large => simp [writeCells, ho] at hw
        | small cells =>
          by_cases hl : i + cs.length ≤ cells.length
          · simp only [writeCells, ho, if_pos hl] at hw
            cases hw
            by_cases e : v = o
            · subst e
              rw [ho] at hv; cases hv
              rw [capacity_small ho] at h; cases h
              exact capacity_small (upd_same _ _ _)
            · have hv' : upd s.vars o (some ⟨.small (put cells i cs), al'⟩) v = some ⟨core, al⟩ := by rw [upd_other _ _ e]; exact hv
              cases core with
              | small l =>
                rw [capacity_small hv] at h; cases h
                exact capacity_small hv'
              | ml d n cap large =>
                obtain ⟨B1, hB1, _, _, _, hr, _⟩ := hcore
                rw [capacity_ml hv hB1 hr] at h
                rw [capacity_ml (s := { s with vars := upd s.vars o (some ⟨.small (put cells i cs), al'⟩) }) hv' hB1 hr]
                injection h with h _
                rw [h]
          · simp [writeCells, ho, if_neg hl] at hw

/-- `expandNoinit` after the room has been made keeps the capacity, also that of a shared block if nothing is added. -/
theorem expandTail_cap (hw : WInv cfg s) {d n cap al new c : Nat} {large : Bool} (hv : s.vars v = some ⟨.ml d n cap large, al⟩)
    (hcap : capacity cfg v s = (.ok c, s)) (hn : Excl s v ∨ new = n) :
    Tri (expandTail cfg v n new) s (fun _ s' => capacity cfg v s' = (.ok c, s')) (fun _ _ => True) := by
  obtain ⟨B, hB, h1, h2, h3, hr, _⟩ := hw.core v _ hv
  have hc0 := capacity_ml (cfg := cfg) hv hB hr
  rw [hcap] at hc0
  unfold expandTail
  refine Tri.step hcap ?_
  refine Tri.bind (R := fun _ s' => s' = s) ?_ ?_
  · unfold assert
    split
    · trivial
    · exact rfl
  · intro _ s2 e
    subst e
    refine Tri.step (getOb_ok hv) ?_
    simp only
    refine Tri.step (setCore_ok hv) ?_
    refine Tri.bind (R := fun _ s' => capacity cfg v s' = (.ok c, s')) ?_ (fun _ s' h => Tri.ret h)
    unfold Tri writeCells
    simp only [hB]
    by_cases hl : new + [some 0].length ≤ B.cells.length
    · simp only [List.length_singleton] at hl
      rw [if_pos (by simpa using hl)]
      simp only
      rw [capacity_ml (B := { B with cells := put B.cells new [some 0] }) (d := d) (n := new) (cap := cap) (al := al)
        (large := large) (upd_same _ _ _) (upd_same _ _ _) hr]
      congr 2
      injection hc0 with hc0 _
      injection hc0 with hc0
      rw [hc0]
      obtain ⟨rc, src, cells⟩ := B
      cases rc with
      | none => rfl
      | some r =>
        simp only
        rcases hn with hx | hn
        · simp only [Option.isSome_some] at hr
          obtain ⟨B', hB', er⟩ := hx d n cap al (by rw [hv, ← hr])
          rw [hB] at hB'; cases hB'
          cases er
          rfl
        · rw [hn]
    · rw [if_neg hl]; trivial

/-- An allocation changes no string object. -/
theorem alloc_vars (al : Nat) (hdr : Bool) (bytes : Nat) (s : St) :
    Tri (alloc cfg al hdr bytes) s (fun _ s' => s'.vars = s.vars) (fun _ _ => True) := by
  unfold Tri alloc
  by_cases h1 : (cfg.arena && cfg.dbg && al == 0) = true
  · rw [if_pos h1]; trivial
  · rw [if_neg h1]
    by_cases h2 : cfg.malloc s.next bytes = true
    · rw [if_pos h2]
    · rw [if_neg h2]; trivial

/-- A copy into a block changes no string object. -/
theorem podCopy_blk (p : Ptr) (n b i : Nat) (s : St) :
    Tri (podCopy cfg p n (.blk b i)) s (fun _ s' => s'.vars = s.vars) (fun _ _ => True) := by
  unfold podCopy
  split
  · split <;> trivial
  · refine Tri.bind (R := fun _ s' => s' = s) ?_ ?_
    · unfold Tri
      have : (readCells p n s).2 = s := by
        unfold readCells
        repeat' split
        all_goals rfl
      cases h : readCells p n s with
      | mk r s1 =>
        rw [h] at this
        cases r with
        | ok a => exact this
        | error e => trivial
    · intro cs s1 e
      subst e
      unfold Tri writeCells
      cases hb : s1.heap b with
      | none => simp only [hb]
      | some B =>
        simp only [hb]
        by_cases hl : i + cs.length ≤ B.cells.length
        · rw [if_pos hl]
        · rw [if_neg hl]; trivial

/-- The storage is filled up: the capacity stays what it was. -/
theorem expand_full (hc : cfg.Ok) (hw : WInv cfg s) {ob : Ob} {l : List Cell} {k c : Nat}
    (h : Holds cfg s v ob l k) (hcap : capacity cfg v s = (.ok c, s)) (hk : k ≤ c) (hlt : c < M64) :
    Tri (expandNoinit cfg v (c - k) false) s (fun _ s' => capacity cfg v s' = (.ok c, s')) (fun _ _ => True) := by
  obtain ⟨c', d1, d2, d3, d4, d5⟩ := h.capM hw
  rw [hcap] at d1; cases d1
  have hnew : add64 k (c - k) = c := by rw [add64_of_lt (by omega)]; omega
  unfold expandNoinit
  refine Tri.step hcap (Tri.step h.sizeM (Tri.step (assert_ok (by simpa using d2) _) (Tri.step (getOb_ok h.var) ?_)))
  simp only [hnew, Bool.false_eq_true, if_false]
  obtain ⟨core, al⟩ := ob
  cases core with
  | small c0 =>
    have hcc : c = cfg.ms := d4 (by intro d n cap al' he; rw [h.var] at he; cases he)
    subst hcc
    simp only
    by_cases hs : (cfg.sso && decide (cfg.ms ≤ cfg.ms)) = true
    · rw [if_pos hs]
      refine Tri.step (setSmallSize_small h.var (Nat.le_refl _)) (Tri.ret ?_)
      exact capacity_small (upd_same _ _ _)
    · rw [if_neg hs]
      have := small_cells h
      subst this
      have hmm := hc.mmle
      have hms := hc.msle
      refine Tri.bind (R := fun _ s1 => WInv cfg s1 ∧ Excl s1 v ∧ ∃ b, s1.vars v = some ⟨.ml b k cfg.ms false, al⟩) ?_ ?_
      · have hg := reserveSmall_tri (n := cfg.ms) hc hw h
        refine (hg.and (R := fun _ s1 => ∃ b, s1.vars v = some ⟨.ml b k cfg.ms false, al⟩) (F := fun _ _ => True) ?_).mono
          (fun _ s1 g => ?_) (fun _ _ _ => trivial)
        · unfold reserveSmall
          refine Tri.step (getOb_ok h.var) ?_
          rw [if_neg hs, if_pos hmm.1]
          have hbytes : mul64 (add64 1 cfg.ms) cfg.w = (1 + cfg.ms) * cfg.w := by
            rw [add64_of_lt (by omega), mul64_of_lt]
            rcases hc.w with e | e | e <;> rw [e] <;> omega
          have hdiv : (1 + cfg.ms) * cfg.w / cfg.w - 1 = cfg.ms := by
            rw [Nat.mul_div_cancel _ hc.wpos]; omega
          simp only [hbytes, hdiv]
          refine Tri.bind (R := fun _ s1 => s1.vars v = some ⟨.small c0, al⟩) ?_ ?_
          · exact (alloc_vars _ _ _ _).mono (fun _ s1 e => by rw [e]; exact h.var) (fun _ _ _ => trivial)
          · intro b s1 e1
            refine Tri.bind (R := fun r s2 => r = k ∧ s2 = s1) ?_ ?_
            · unfold Str.size
              refine Tri.step (getOb_ok e1) ?_
              have := h.size
              simp only at this
              simp only [this]
              exact ⟨rfl, rfl⟩
            · rintro n2 s2 ⟨e2, e2'⟩
              rw [e2, e2']
              refine Tri.bind (R := fun _ s3 => s3.vars v = some ⟨.small c0, al⟩) ?_ ?_
              · exact (podCopy_blk _ _ _ _ _).mono (fun _ s3 e => by rw [e]; exact e1) (fun _ _ _ => trivial)
              · intro _ s3 e3
                unfold Tri
                rw [setCore_ok e3]
                exact ⟨b, upd_same _ _ _⟩
        · obtain ⟨⟨w1, _, ob', l', k', a1, a2, _⟩, b, hb⟩ := g
          exact ⟨w1, a2, b, hb⟩
      · rintro _ s1 ⟨w1, hx, b, hb⟩
        refine expandTail_cap w1 hb ?_ (Or.inl hx)
        obtain ⟨B, hB, _, _, _, hr, _⟩ := w1.core v _ hb
        rw [capacity_ml hb hB hr]
        cases e : B.rc with
        | none => rfl
        | some r => rw [e] at hr; cases hr
  | ml d m cap large =>
    have : m = k := by simpa [Core.size?] using h.size
    subst this
    simp only
    rw [doIf_neg (by simp)]
    refine Tri.step (pure_apply _ _) ?_
    refine expandTail_cap hw h.var hcap ?_
    by_cases hx : Excl s v
    · exact Or.inl hx
    · exact Or.inr (d5 hx)

/-! ### Lines -/

theorem lineLoop_eq (delim : Ch) : ∀ (n : Nat) (inp : List Ch),
    lineLoop delim n inp = ((lineOf delim inp).take n, inp.drop ((lineOf delim inp).take n).length)
  | 0, inp => by simp [lineLoop]
  | n + 1, [] => by simp [lineLoop, lineOf]
  | n + 1, c :: t => by
    unfold lineLoop
    by_cases h : c = delim
    · rw [if_pos h]
      simp [lineOf, h]
    · rw [if_neg h]
      have e : lineOf delim (c :: t) = c :: lineOf delim t := by simp [lineOf, h]
      rw [lineLoop_eq delim n t, e]
      simp

/-- Writing the terminator where it is changes nothing. -/
theorem write_end (hw : WInv cfg s) {cs : List Cell} (hv : Raw cfg s v cs) {p : Ptr} (hp : dataPtr v s = (.ok p, s)) :
    writeCells (p.add cs.length) [some 0] s = (.ok (), s) ∧ writeCells (p.add cs.length) [] s = (.ok (), s) := by
  obtain ⟨ob, l, k, h, rfl⟩ := hv
  obtain ⟨l2, n2, h2, h3, h4, h5⟩ := hw.view h.var
  obtain ⟨_, rfl, rfl⟩ := h.unique h2
  have hl := Raw.length_take hw h
  rw [hl]
  rw [h.dataM] at hp; cases hp
  have hnil : ∀ l : List Cell, k ≤ l.length → put l k [] = l := by
    intro l _
    simp [put]
  have hlen : k + 1 ≤ l.length := by omega
  obtain ⟨core, al⟩ := ob
  have hv := h.var
  cases core with
  | small c =>
    have := small_cells h
    subst this
    have e : (Core.ptr v (Core.small c)).add k = .inl v k := by simp [Core.ptr, Ptr.add]
    simp only [e, writeCells, hv]
    constructor
    · rw [if_pos (by simpa using hlen), put_same h5, upd_self hv]
    · rw [if_pos (by simp; omega), hnil c (by omega), upd_self hv]
  | ml d m cap large =>
    obtain ⟨B, hB, _⟩ := hw.core v _ hv
    have hc : B.cells = l := by
      have := h.cells
      simpa [cellsOf, hB] using this
    have e : (Core.ptr v (Core.ml d m cap large)).add k = .blk d k := by simp [Core.ptr, Ptr.add]
    simp only [e, writeCells, hB]
    subst hc
    constructor
    · rw [if_pos (by simpa using hlen), put_same h5, upd_self hB]
    · rw [if_pos (by simp; omega), hnil _ (by omega), upd_self hB]

/-- Writing no characters changes nothing. -/
theorem write_none {p : Ptr} (h : writeCells p [] s = (.ok (), s')) : s' = s := by
  have hnil : ∀ (l : List Cell) (k : Nat), put l k [] = l := by intro l k; simp [put]
  unfold writeCells at h
  split at h
  · cases h
  · split at h
    · next B hB =>
      split at h
      · cases h
        rw [hnil, upd_self hB]
      · cases h
    · cases h
  · split at h
    · next cells al hv =>
      split at h
      · cases h
        rw [hnil, upd_self hv]
      · cases h
    · cases h

/-- What the line read leaves in the string, before it is cut: at `q` the characters `ys` and a NUL character. -/
theorem store_line (hw : WInv cfg s) {cs cs1 ys : List Cell} {p : Ptr} {c : Nat} (hv : Raw cfg s v cs1)
    (hp : dataPtr v s = (.ok p, s)) (ht : cs1.take cs.length = cs) (hy : cs.length + ys.length ≤ cs1.length)
    (ho : cs1.length ≠ cs.length → Own cfg s v p cs1) (hcap : capacity cfg v s = (.ok c, s)) :
    ∃ s' cs2, writeCells (p.add cs.length) ys s = (.ok (), s') ∧
      (∃ s2, writeCells (p.add (cs.length + ys.length)) [some 0] s' = (.ok (), s2) ∧ WInv cfg s2 ∧ Frame (· = v) s s2 ∧
        Raw cfg s2 v cs2 ∧ cs2.length = cs1.length ∧ cs2.take (cs.length + ys.length) = cs ++ ys ∧
        (cs1.length ≠ cs.length → Own cfg s2 v p cs2) ∧ capacity cfg v s2 = (.ok c, s2)) := by
  by_cases he : cs1.length = cs.length
  · have : ys = [] := List.length_eq_zero_iff.1 (by omega)
    subst this
    have : cs1 = cs := by rw [← ht, List.take_of_length_le (by omega)]
    subst this
    obtain ⟨e1, e2⟩ := write_end hw hv hp
    exact ⟨s, cs1, e2, s, by simpa using e1, hw, Frame.refl _ _, hv, rfl, by simp, fun h => absurd rfl h, hcap⟩
  · obtain ⟨s1, e1, e2, e3, e4, _⟩ := (ho he).write hw (xs := ys) (i := cs.length) (by omega)
    have hc1 := write_cap e1 hw e2 hcap
    have hl1 : (put cs1 cs.length ys).length = cs1.length := put_length (by omega)
    have ht1 : (put cs1 cs.length ys).take (cs.length + ys.length) = cs ++ ys := by
      unfold put
      rw [ht, List.append_assoc, ← List.length_append, ← List.append_assoc, List.take_left']
      rfl
    have hp1 : dataPtr v s1 = (.ok p, s1) := by
      obtain ⟨ob, l, k, g1, _, rfl, _⟩ := e4
      exact g1.dataM
    by_cases hf : cs.length + ys.length = cs1.length
    · obtain ⟨d1, _⟩ := write_end e2 e4.raw hp1
      rw [hl1, ← hf] at d1
      exact ⟨s1, _, e1, s1, d1, e2, e3, e4.raw, hl1, ht1, fun _ => e4, hc1⟩
    · obtain ⟨s2, g1, g2, g3, g4, _⟩ := e4.write e2 (xs := [some 0]) (i := cs.length + ys.length) (by rw [hl1]; simp; omega)
      have hc2 := write_cap g1 e2 g2 hc1
      refine ⟨s1, _, e1, s2, g1, g2, e3.trans g3, g4.raw, ?_, ?_, fun _ => g4, hc2⟩
      · rw [put_length (by rw [hl1]; simp; omega), hl1]
      · rw [put, List.append_assoc, List.take_append_of_le_length (by rw [List.length_take, hl1]; omega), List.take_take, Nat.min_self, ht1]

theorem Raw.capM (hw : WInv cfg s) {cs : List Cell} (hv : Raw cfg s v cs) :
    ∃ c, capacity cfg v s = (.ok c, s) ∧ cs.length ≤ c := by
  obtain ⟨ob, l, k, h, rfl⟩ := hv
  obtain ⟨c, d1, d2, _⟩ := h.capM hw
  exact ⟨c, d1, by rw [Raw.length_take hw h]; exact d2⟩

theorem Raw.cap_short (hc : cfg.Ok) (hw : WInv cfg s) {cs : List Cell} (hv : Raw cfg s v cs) {c : Nat}
    (h : capacity cfg v s = (.ok c, s)) : c < 4611686018427387904 := by
  obtain ⟨ob, l, k, h1, rfl⟩ := hv
  obtain ⟨c', d1, d2, d3, _⟩ := h1.capM hw
  rw [h] at d1; cases d1
  have hcore := hw.core v _ h1.var
  obtain ⟨core, al⟩ := ob
  cases core with
  | small l' =>
    have := hc.msle
    simp only [Core.cap] at d3
    omega
  | ml d m cap large =>
    obtain ⟨B, _, _, _, _, _, h5⟩ := hcore
    have := Nat.le_mul_of_pos_right (cap + 1) hc.wpos
    simp only [Core.cap] at d3
    omega

theorem takeWhile_rest {α : Type} (p : α → Bool) : ∀ l : List α, l.drop (l.takeWhile p).length = l.dropWhile p
  | [] => rfl
  | a :: t => by
    by_cases h : p a = true
    · simp [h, takeWhile_rest p t]
    · simp [h]

theorem takeWhile_holds {α : Type} (p : α → Bool) : ∀ (l : List α) (x : α), x ∈ l.takeWhile p → p x = true
  | [], x, h => by simp at h
  | a :: t, x, h => by
    by_cases ha : p a = true
    · simp only [List.takeWhile_cons, ha, if_true, List.mem_cons] at h
      rcases h with rfl | h
      · exact ha
      · exact takeWhile_holds p t x h
    · simp [ha] at h

theorem dropWhile_stop {α : Type} (p : α → Bool) : ∀ l : List α,
    (l.dropWhile p).takeWhile p = [] ∧ (l.dropWhile p).dropWhile p = l.dropWhile p
  | [] => ⟨rfl, rfl⟩
  | a :: t => by
    by_cases ha : p a = true
    · simpa [ha] using dropWhile_stop p t
    · simp [ha]

theorem lineEnd_nil (inp : List Ch) (tb sk : Bool) (w : Nat) (delim : Ch) (k : Nat) (s : St) :
    lineEnd ⟨inp, false, false, false, false, false, tb, w, sk⟩ delim k [] s =
      (.ok (⟨[], true, k == 0, false, false, false, tb, w, sk⟩, k), s) := by
  simp [lineEnd, IStream.setstate, bind_apply]

theorem lineEnd_delim (is : IStream) (delim : Ch) (k : Nat) (t : List Ch) :
    lineEnd is delim k (delim :: t) = pure ({ is with inp := t }, k + 1) := by
  unfold lineEnd
  exact if_pos rfl

theorem lineEnd_more (inp : List Ch) (tb sk : Bool) (w : Nat) (delim : Ch) (k : Nat) {a : Ch} (h : a ≠ delim) (t : List Ch) (s : St) :
    lineEnd ⟨inp, false, false, false, false, false, tb, w, sk⟩ delim k (a :: t) s =
      (.ok (⟨a :: t, false, true, false, false, false, tb, w, sk⟩, k), s) := by
  simp [lineEnd, IStream.setstate, bind_apply, h]

theorem streamGetline_good {is : IStream} (h : is.good = true) (p : Ptr) (n : Nat) (delim : Ch) :
    streamGetline is p n delim = (do
      writeCells p ((lineLoop delim n is.inp).1.map some)
      writeCells (p.add (lineLoop delim n is.inp).1.length) [some 0]
      lineEnd is delim (lineLoop delim n is.inp).1.length (lineLoop delim n is.inp).2) := by
  unfold streamGetline
  rw [if_pos h]

/-- The loop of `getline`: `xs` has been read already. -/
theorem getlineLoop_tri (hc : cfg.Ok) (delim : Ch) (tb sk : Bool) (w : Nat) : ∀ (fuel : Nat) (inp xs : List Ch) (s : St),
    WInv cfg s → Free s → Raw cfg s v (xs.map some) → (xs = [] ∨ inp ≠ []) → inp.length + 1 ≤ fuel →
    (inp.length + 2 ≤ fuel ∨ ∃ c, capacity cfg v s = (.ok c, s) ∧ xs.length < c) →
    Tri (getlineLoop cfg v delim fuel ⟨inp, false, false, false, false, false, tb, w, sk⟩ xs.length) s
      (fun r s' => r = IStream.afterLine ⟨inp, false, false, false, false, false, tb, w, sk⟩ delim ∧
        Done cfg v ((xs ++ lineOf delim inp).map some) s s') (ErrB cfg v s)
  | 0, inp, xs, s, _, _, _, _, h, _ => by omega
  | fuel + 1, inp, xs, s, hw, hf, hv, hne, hfu, hfu2 => by
    have hfull : Full (xs.map some) := ⟨xs, rfl⟩
    obtain ⟨c, hcap, hle⟩ := hv.capM hw
    have hlt := hv.cap_short hc hw hcap
    rw [List.length_map] at hle
    have hsub : sub64 c xs.length = c - xs.length := sub64_of_le hle (by omega)
    unfold getlineLoop
    refine Tri.step hcap ?_
    simp only [hsub]
    have hexp := expand_tri hc hw hf hv (delta := c - xs.length) false (by rw [List.length_map]; omega)
    have hcapk : Tri (expandNoinit cfg v (c - xs.length) false) s (fun _ s' => capacity cfg v s' = (.ok c, s')) (fun _ _ => True) := by
      obtain ⟨ob, l, k, h, e⟩ := hv
      have hk : xs.length = k := by
        have := congrArg List.length e
        rw [Raw.length_take hw h, List.length_map] at this
        exact this
      rw [hk]
      exact expand_full hc hw h hcap (by omega) (by omega)
    refine Tri.bind ((hexp.and hcapk).mono (fun _ _ h => h) (fun _ _ h => h.1.basic hfull)) ?_
    rintro r s1 ⟨⟨w1, f1, p, cs1, r1, hp, hl, ht, rfl, ho⟩, hc1⟩
    rw [List.length_map] at hl ht
    have hT := lineLoop_eq delim (c - xs.length) inp
    have hstore := store_line w1 (cs := xs.map some) (ys := ((lineOf delim inp).take (c - xs.length)).map some) r1 hp
      (by rw [List.length_map]; exact ht) (by simp only [List.length_map, List.length_take]; omega)
      (fun h => ho (by rw [List.length_map] at h; omega)) hc1
    obtain ⟨s2, cs2, e1, s3, e2, w3, f3, r3, hl3, ht3, ho3, hc3⟩ := hstore
    simp only [List.length_map] at e1 e2 ht3 ho3
    have hsg : streamGetline ⟨inp, false, false, false, false, false, tb, w, sk⟩ (p.add xs.length) (c - xs.length) delim s1 =
        lineEnd ⟨inp, false, false, false, false, false, tb, w, sk⟩ delim ((lineOf delim inp).take (c - xs.length)).length
          (inp.drop ((lineOf delim inp).take (c - xs.length)).length) s3 := by
      rw [streamGetline_good rfl]
      simp only [hT]
      rw [bind_ok e1, bind_ok (by rw [Ptr.add_add]; exact e2)]
    have hf3 : Free s3 := hf.frame hv (f1.trans f3)
    have hsplit : inp = lineOf delim inp ++ inp.dropWhile (· != delim) := (List.takeWhile_append_dropWhile).symm
    -- the end: the string is cut
    have fin : ∀ is' : IStream, (lineOf delim inp).length ≤ c - xs.length →
        Tri (do resize cfg v (xs.length + (lineOf delim inp).length) 0; pure is') s3
          (fun r s' => r = is' ∧ Done cfg v ((xs ++ lineOf delim inp).map some) s s') (ErrB cfg v s) := by
      intro is' hle2
      rw [List.take_of_length_le hle2, ← List.map_append] at ht3
      by_cases hd : cs1.length = xs.length
      · have hT0 : lineOf delim inp = [] := List.length_eq_zero_iff.1 (by omega)
        rw [hT0, List.append_nil] at ht3 ⊢
        simp only [List.length_nil, Nat.add_zero] at ht3 ⊢
        have hcs2 : cs2 = xs.map some := by rw [← ht3, List.take_of_length_le (by omega)]
        rw [hcs2] at r3
        refine Tri.bind ((((resize_tri hc w3 hf3 r3 (n := xs.length) (c := 0) (by omega)).basic hfull).later (f1.trans f3))) ?_
        rintro _ s4 ⟨w4, f4, r4⟩
        refine Tri.ret ⟨rfl, w4, (f1.trans f3).trans f4, ?_⟩
        simpa [List.take_of_length_le] using r4
      · obtain ⟨s4, g1, g2, g3, g4⟩ := resize_own hc w3 (ho3 hd) (n := xs.length + (lineOf delim inp).length) (c := 0) (by omega)
        rw [ht3] at g4
        exact Tri.step g1 (Tri.ret ⟨rfl, g2, (f1.trans f3).trans g3, g4.raw⟩)
    by_cases hle2 : (lineOf delim inp).length ≤ c - xs.length
    · rw [List.take_of_length_le hle2] at hsg
      have hdrop : inp.drop (lineOf delim inp).length = inp.dropWhile (· != delim) := takeWhile_rest _ _
      rw [hdrop] at hsg
      cases hD : inp.dropWhile (· != delim) with
      | nil =>
        have hinp : lineOf delim inp = inp := by rw [hD, List.append_nil] at hsplit; exact hsplit.symm
        rw [hD] at hsg
        have hle3 : lineEnd ⟨inp, false, false, false, false, false, tb, w, sk⟩ delim (lineOf delim inp).length [] s3 =
            (.ok (⟨[], true, (lineOf delim inp).length == 0, false, false, false, tb, w, sk⟩, (lineOf delim inp).length), s3) :=
          lineEnd_nil _ _ _ _ _ _ _
        rw [hle3] at hsg
        rw [List.length_map]
        refine Tri.step hsg ?_
        have hadd : add64 xs.length (lineOf delim inp).length = xs.length + (lineOf delim inp).length := add64_of_lt (by omega)
        have := fin ⟨[], true, (lineOf delim inp).length == 0, false, false, false, tb, w, sk⟩ hle2
        simp only [hadd, Bool.true_or, Bool.or_true, if_true, Bool.not_true, Bool.and_false, Bool.false_eq_true, if_false] at this ⊢
        refine this.mono (fun r s' h => ⟨?_, h.2⟩) (fun _ _ h => h)
        rw [h.1]
        unfold IStream.afterLine
        simp only [hD, hinp]
        cases inp <;> rfl
      | cons a t =>
        have ha : a = delim := by
          have := List.head?_dropWhile_not (p := (· != delim)) (l := inp)
          rw [hD] at this
          simpa using this
        subst ha
        rw [hD] at hsg
        have hle3 : lineEnd ⟨inp, false, false, false, false, false, tb, w, sk⟩ a (lineOf a inp).length (a :: t) s3 =
            (.ok (⟨t, false, false, false, false, false, tb, w, sk⟩, (lineOf a inp).length + 1), s3) := by
          rw [lineEnd_delim]; rfl
        rw [hle3] at hsg
        rw [List.length_map]
        refine Tri.step hsg ?_
        have hadd : add64 xs.length ((lineOf a inp).length + 1) = xs.length + (lineOf a inp).length + 1 := by
          rw [add64_of_lt (by omega)]; omega
        have hsub1 : sub64 (xs.length + (lineOf a inp).length + 1) 1 = xs.length + (lineOf a inp).length := by
          rw [sub64_of_le (by omega) (by omega)]; omega
        have := fin ⟨t, false, false, false, false, false, tb, w, sk⟩ hle2
        simp only [hadd, hsub1, Bool.or_self, Bool.not_false, Bool.or_true, if_true, Bool.and_self]
        refine this.mono (fun r s' h => ⟨?_, h.2⟩) (fun _ _ h => h)
        rw [h.1]
        unfold IStream.afterLine
        simp only [hD]
    · -- the line is longer than the room
      have hlen : ((lineOf delim inp).take (c - xs.length)).length = c - xs.length := by rw [List.length_take]; omega
      rw [hlen] at hsg e2 ht3
      have hdl : (lineOf delim inp).drop (c - xs.length) ≠ [] := by
        intro h
        have := List.drop_eq_nil_iff.1 h
        omega
      have hinp' : inp.drop (c - xs.length) = (lineOf delim inp).drop (c - xs.length) ++ inp.dropWhile (· != delim) := by
        conv => lhs; rw [hsplit]
        rw [List.drop_append_of_le_length (by omega)]
      have hall : ∀ x ∈ (lineOf delim inp).drop (c - xs.length), (x != delim) = true := by
        intro x hx
        have := List.mem_of_mem_drop hx
        exact takeWhile_holds (· != delim) inp x this
      have hline' : lineOf delim (inp.drop (c - xs.length)) = (lineOf delim inp).drop (c - xs.length) := by
        rw [hinp', lineOf, List.takeWhile_append_of_pos hall, (dropWhile_stop _ _).1, List.append_nil]
      have hdrop' : (inp.drop (c - xs.length)).dropWhile (· != delim) = inp.dropWhile (· != delim) := by
        rw [hinp', List.dropWhile_append_of_pos hall, (dropWhile_stop _ _).2]
      cases hR : inp.drop (c - xs.length) with
      | nil =>
        rw [hinp'] at hR
        exact absurd (List.append_eq_nil_iff.1 hR).1 hdl
      | cons a t =>
        have ha : a ≠ delim := by
          cases hdd : (lineOf delim inp).drop (c - xs.length) with
          | nil => exact absurd hdd hdl
          | cons b u =>
            rw [hinp', hdd] at hR
            simp only [List.cons_append, List.cons.injEq] at hR
            have := hall b (by rw [hdd]; simp)
            rw [← hR.1]
            simpa using this
        rw [hR] at hsg
        have hle3 : lineEnd ⟨inp, false, false, false, false, false, tb, w, sk⟩ delim (c - xs.length) (a :: t) s3 =
            (.ok (⟨a :: t, false, true, false, false, false, tb, w, sk⟩, c - xs.length), s3) :=
          lineEnd_more _ _ _ _ _ _ ha _ _
        rw [hle3] at hsg
        rw [List.length_map]
        refine Tri.step hsg ?_
        have hadd : add64 xs.length (c - xs.length) = c := by rw [add64_of_lt (by omega)]; omega
        have hmul : mul64 3 c = 3 * c := mul64_of_lt (by omega)
        have hcs2 : cs2 = (xs ++ (lineOf delim inp).take (c - xs.length)).map some := by
          rw [List.map_append, ← ht3, List.take_of_length_le (by omega)]
        have hcl : cs2.length = c := by omega
        simp only [hadd, hmul, Bool.or_self, Bool.not_true, Bool.false_eq_true, if_false]
        refine Tri.step (r3.sizeM w3) (Tri.step (assert_ok (by simp [hcl]) _) (Tri.step hc3 (Tri.step (assert_ok (by simp) _) ?_)))
        have hres := reserve_tri hc w3 hf3 r3 (n := max 63 (3 * c / 2))
        have hcapr : Tri (reserve cfg v (max 63 (3 * c / 2))) s3
            (fun _ s' => ∃ c', capacity cfg v s' = (.ok c', s') ∧ c < c') (fun _ _ => True) := by
          obtain ⟨ob, l, k, h, e⟩ := r3
          refine (reserveCore_tri hc w3 h hf3.1).mono (fun _ s4 g => ?_) (fun _ _ _ => trivial)
          obtain ⟨w4, _, ob', l', k', a1, a2, _, a4, _⟩ := g
          obtain ⟨c', d1, _, _, d4, _⟩ := a1.capM w4
          exact ⟨c', d1, by rw [d4 a2]; omega⟩
        rw [hcs2] at hres r3
        refine Tri.bind (((hres.and hcapr).mono (fun _ _ h => h) (fun _ _ h => h.1.basic ⟨_, rfl⟩)).later (f1.trans f3)) ?_
        rintro _ s4 ⟨⟨w4, f4, r4⟩, c', hc4, hcc⟩
        have hxl : (xs ++ (lineOf delim inp).take (c - xs.length)).length = c := by
          rw [List.length_append, hlen]; omega
        have hil : (a :: t).length + (c - xs.length) = inp.length := by
          rw [← hR, List.length_drop]
          have : (lineOf delim inp).length ≤ inp.length := (List.takeWhile_prefix _).length_le
          omega
        have hclear : IStream.clear ⟨a :: t, false, true, false, false, false, tb, w, sk⟩ =
            ⟨a :: t, false, false, false, false, false, tb, w, sk⟩ := rfl
        rw [hclear]
        have ih := getlineLoop_tri hc delim tb sk w fuel (a :: t) (xs ++ (lineOf delim inp).take (c - xs.length)) s4 w4
          (hf3.frame r3 f4) r4 (Or.inr (by simp)) (by
            rcases hfu2 with h | ⟨c2, h2, h3⟩
            · omega
            · rw [hcap] at h2; cases h2; omega) (Or.inr ⟨c', hc4, by omega⟩)
        rw [hxl] at ih
        refine (ih.later ((f1.trans f3).trans f4)).mono (fun r s' h => ⟨?_, ?_⟩) (fun _ _ h => h)
        · rw [h.1]
          unfold IStream.afterLine
          simp only [← hR, hdrop']
          cases hD : inp.dropWhile (· != delim) with
          | cons b u => rfl
          | nil =>
            have : inp ≠ [] := by
              intro h
              rw [h] at hR
              simp at hR
            rw [hR]
            cases inp with
            | nil => exact absurd rfl this
            | cons _ _ => rfl
        · obtain ⟨w5, f5, r5⟩ := h.2
          refine ⟨w5, ((f1.trans f3).trans f4).trans f5, ?_⟩
          rw [← hR, hline', List.append_assoc, List.take_append_drop] at r5
          exact r5

/-- `getline` on a good stream that does not throw. -/
theorem getline_tri (hc : cfg.Ok) (hw : WInv cfg s) (hf : Free s) {cs : List Cell} (hv : Raw cfg s v cs) (hcs : Full cs)
    {is : IStream} (hg : is.good = true) (ht : is.throwEof = false ∧ is.throwFail = false) (delim : Ch) :
    Tri (getline cfg v is delim) s
      (fun r s' => r = is.afterLine delim ∧ Done cfg v ((lineOf delim is.inp).map some) s s') (ErrB cfg v s) := by
  unfold getline
  refine checker_tri hw hv ?_ (fun _ _ h => h.2.check) (fun _ _ _ h => by obtain ⟨xs, h⟩ := h; exact ⟨_, h⟩)
  refine Tri.bind ((resize_tri hc hw hf hv (n := 0) (c := 0) (by decide)).basic hcs) ?_
  rintro _ s1 ⟨w1, f1, r1⟩
  obtain ⟨inp, e1, e2, e3, t1, t2, t3, w, sk⟩ := is
  simp only [IStream.good, Bool.and_eq_true, Bool.not_eq_true'] at hg ht
  obtain ⟨⟨rfl, rfl⟩, rfl⟩ := hg
  obtain ⟨rfl, rfl⟩ := ht
  have := getlineLoop_tri (v := v) hc delim t3 sk w (inp.length + 3) inp [] s1 w1 (hf.frame hv f1) (by simpa using r1)
    (Or.inl rfl) (by omega) (Or.inl (by omega))
  refine (this.later f1).mono (fun r s' h => ⟨h.1, ?_⟩) (fun _ _ h => h)
  obtain ⟨w2, f2, r2⟩ := h.2
  exact ⟨w2, f1.trans f2, r2⟩

/-- `getline` on a stream at the end or bad, which does not throw: the string is emptied. -/
theorem getline_dead_tri (hc : cfg.Ok) (hw : WInv cfg s) (hf : Free s) {cs : List Cell} (hv : Raw cfg s v cs) (hcs : Full cs)
    {is : IStream} (hg : (is.bad || is.eof) = true) (ht : is.throwEof = false ∧ is.throwFail = false ∧ (is.bad && is.throwBad) = false) (delim : Ch) :
    Tri (getline cfg v is delim) s
      (fun r s' => r = { is with fail := true } ∧ Done cfg v [] s s') (ErrB cfg v s) := by
  unfold getline
  refine checker_tri hw hv ?_ (fun _ _ h => h.2.check) (fun _ _ _ h => by obtain ⟨xs, h⟩ := h; exact ⟨_, h⟩)
  refine Tri.bind ((resize_tri hc hw hf hv (n := 0) (c := 0) (by decide)).basic hcs) ?_
  rintro _ s1 ⟨w1, f1, r1⟩
  simp only [List.take_zero, Nat.zero_sub, List.replicate_zero, List.append_nil] at r1
  have hf1 := hf.frame hv f1
  obtain ⟨c, hcap, _⟩ := r1.capM w1
  have hlt := r1.cap_short hc w1 hcap
  have hsub : sub64 c 0 = c := by rw [sub64_of_le (by omega) (by omega)]; rfl
  unfold getlineLoop
  refine Tri.step hcap ?_
  simp only [hsub]
  have hcapk : Tri (expandNoinit cfg v c false) s1 (fun _ s' => capacity cfg v s' = (.ok c, s')) (fun _ _ => True) := by
    obtain ⟨ob, l, k, h, e⟩ := r1
    have hk : k = 0 := by
      have := congrArg List.length e
      rw [Raw.length_take w1 h] at this
      exact this.symm
    subst hk
    simpa using expand_full hc w1 h hcap (by omega) (by omega)
  refine Tri.bind ((((expand_tri hc w1 hf1 r1 (delta := c) false (by simp; omega)).and hcapk).mono (fun _ _ h => h)
    (fun _ _ h => h.1.basic ⟨[], rfl⟩)).later f1) ?_
  rintro r s2 ⟨⟨w2, f2, p, cs1, r2, hp, hl, ht2, rfl, ho⟩, hc2⟩
  simp only [List.length_nil, Nat.zero_add] at hl
  obtain ⟨s3, cs2, e1, s4, e2, w4, f4, r4, hl4, _, ho4, _⟩ := store_line w2 (cs := []) (ys := []) r2 hp (by simp) (by simp)
    (fun h => ho (by rw [hl] at h; exact h)) hc2
  simp only [List.length_nil, Nat.add_zero, Ptr.add_zero] at e1 e2 ho4 ⊢
  have hs3 : s3 = s2 := write_none e1
  subst hs3
  have hsg : streamGetline is p c delim s3 = (.ok ({ is with fail := true }, 0), s4) := by
    unfold streamGetline
    have hng : is.good = false := by
      unfold IStream.good
      cases hb : is.bad <;> cases he : is.eof <;> simp_all
    rw [if_neg (by simp [hng]), bind_ok e2]
    have : is.setstate false true s4 = (.ok { is with fail := true }, s4) := by
      unfold IStream.setstate
      simp only [ht.1, ht.2.1, ht.2.2, Bool.and_false, Bool.or_self, Bool.false_eq_true, if_false, Bool.or_false, Bool.or_true]
      rfl
    rw [bind_ok this]; rfl
  refine Tri.step hsg ?_
  have hadd : add64 0 0 = 0 := rfl
  have hif : (if !is.bad && !is.eof then sub64 0 1 else 0) = 0 := by
    cases hb : is.bad <;> cases he : is.eof <;> simp_all
  simp only [hadd, hg, Bool.true_or, if_true, hif]
  by_cases hd : cs1.length = 0
  · have hcs2 : cs2 = [] := List.length_eq_zero_iff.1 (by omega)
    subst hcs2
    refine Tri.bind ((((resize_tri hc w4 (hf1.frame r1 (f2.trans f4)) r4 (n := 0) (c := 0) (by decide)).basic ⟨[], rfl⟩).later
      ((f1.trans f2).trans f4))) ?_
    rintro _ s5 ⟨w5, f5, r5⟩
    exact Tri.ret ⟨rfl, w5, ((f1.trans f2).trans f4).trans f5, by simpa using r5⟩
  · obtain ⟨s5, g1, g2, g3, g4⟩ := resize_own hc w4 (ho4 hd) (n := 0) (c := 0) (by omega)
    exact Tri.step g1 (Tri.ret ⟨rfl, g2, ((f1.trans f2).trans f4).trans g3, by simpa using g4.raw⟩)

/-! ### Words -/

theorem extractLoop_tri (hc : cfg.Ok) (is : IStream) : ∀ (inp xs : List Ch) (room : Nat) (s : St),
    WInv cfg s → Free s → Raw cfg s v (xs.map some) → (∀ c ∈ inp, c < 256) →
    Tri (extractLoop cfg v is room inp xs.length) s
      (fun r s' =>
        r = (⟨inp.drop (wordOf room inp).length, is.eof, is.fail, is.bad, is.throwEof, is.throwFail, is.throwBad,
            if inp.all (!isSpace ·) && decide (inp.length < room) then 0 else is.width, is.skipws⟩,
          xs.length + (wordOf room inp).length, inp.all (!isSpace ·) && decide (inp.length < room)) ∧
        Done cfg v ((xs ++ wordOf room inp).map some) s s') (ErrB cfg v s) := by
  intro inp
  induction inp with
  | nil =>
    intro xs room s hw hf hv _
    unfold extractLoop
    by_cases h : room = 0
    · rw [if_pos h]
      subst h
      refine Tri.ret ⟨?_, hw, Frame.refl _ _, ?_⟩
      · simp [wordOf]
      · simpa [wordOf] using hv
    · rw [if_neg h]
      refine Tri.ret ⟨?_, hw, Frame.refl _ _, ?_⟩
      · have : 0 < room := by omega
        simp [wordOf, this]
      · simpa [wordOf] using hv
  | cons c t ih =>
    intro xs room s hw hf hv hr
    unfold extractLoop
    by_cases h : room = 0
    · rw [if_pos h]
      subst h
      refine Tri.ret ⟨?_, hw, Frame.refl _ _, ?_⟩
      · simp [wordOf]
      · simpa [wordOf] using hv
    · rw [if_neg h]
      have hsp : ctypeSpace c s = (.ok (isSpace c), s) := by
        unfold ctypeSpace
        rw [if_pos (hr c (by simp))]; rfl
      refine Tri.step hsp ?_
      by_cases hs : isSpace c = true
      · rw [if_pos hs]
        refine Tri.ret ⟨?_, hw, Frame.refl _ _, ?_⟩
        · simp [wordOf, hs]
        · simpa [wordOf, hs] using hv
      · rw [if_neg hs]
        simp only [Bool.not_eq_true] at hs
        have hsh := hv.short hc hw
        refine Tri.bind ((pushBack_tri hc hw hf hv (c := c) (by omega)).basic ⟨xs, rfl⟩) ?_
        rintro _ s1 ⟨w1, f1, r1⟩
        have hx : xs.map some ++ [some c] = (xs ++ [c]).map some := by simp
        rw [hx] at r1
        have := ih (xs ++ [c]) (room - 1) s1 w1 (hf.frame hv f1) r1 (fun c' h' => hr c' (by simp [h']))
        rw [List.length_append, List.length_singleton] at this
        obtain ⟨m, rfl⟩ : ∃ m, room = m + 1 := ⟨room - 1, by omega⟩
        have hword : wordOf (m + 1) (c :: t) = c :: wordOf m t := by simp [wordOf, hs]
        simp only [Nat.add_sub_cancel] at this ⊢
        refine (this.later f1).mono (fun r s' h => ⟨?_, ?_⟩) (fun _ _ h => h)
        · rw [h.1, hword]
          have e1 : ((c :: t).all (!isSpace ·) && decide ((c :: t).length < m + 1)) = (t.all (!isSpace ·) && decide (t.length < m)) := by
            simp [hs]
          rw [e1]
          simp only [List.length_cons, List.drop_succ_cons]
          rw [show xs.length + 1 + (wordOf m t).length = xs.length + ((wordOf m t).length + 1) by omega]
        · obtain ⟨w2, f2, r2⟩ := h.2
          refine ⟨w2, f1.trans f2, ?_⟩
          rw [hword]
          simpa using r2

theorem setstate_quiet {is : IStream} (ht : is.throwEof = false ∧ is.throwFail = false) (hb : is.bad = false) (e f : Bool) (s : St) :
    is.setstate e f s = (.ok { is with eof := is.eof || e, fail := is.fail || f }, s) := by
  unfold IStream.setstate
  simp only [ht.1, ht.2, hb, Bool.and_false, Bool.false_and, Bool.or_self, Bool.false_eq_true, if_false]
  rfl

/-- `is >> str` on a good stream that does not throw. -/
theorem extract_tri (hc : cfg.Ok) (hw : WInv cfg s) (hf : Free s) {xs : List Ch} (hv : Raw cfg s v (xs.map some))
    {is : IStream} (hg : is.good = true) (ht : is.throwEof = false ∧ is.throwFail = false) (hn : ∀ c ∈ is.inp, c < 256) :
    Tri (extract cfg v is) s
      (fun r s' => r = { is.afterWord with width := if is.wordEof && !is.blank then 0 else is.width } ∧
        Done cfg v ((is.word xs).map some) s s') (ErrB cfg v s) := by
  have hb : is.bad = false := by
    simp only [IStream.good, Bool.and_eq_true, Bool.not_eq_true'] at hg; exact hg.2
  have he : is.eof = false := by
    simp only [IStream.good, Bool.and_eq_true, Bool.not_eq_true'] at hg; exact hg.1.1
  have hfl : is.fail = false := by
    simp only [IStream.good, Bool.and_eq_true, Bool.not_eq_true'] at hg; exact hg.1.2
  have hfull : Full (xs.map some) := ⟨xs, rfl⟩
  unfold extract
  by_cases hbl : is.blank = true
  · have hbl' := hbl
    simp only [IStream.blank, Bool.and_eq_true] at hbl'
    have hempty : (is.inp.dropWhile isSpace).isEmpty = true := by
      have := hbl'.2
      rw [IStream.ready, if_pos hbl'.1] at this
      exact this
    have hse : sentry is s = (.ok ({ is with inp := [], eof := true, fail := true }, false), s) := by
      unfold sentry
      rw [if_pos hg, if_pos hbl'.1]
      simp only [hempty, if_true]
      rw [bind_ok (setstate_quiet (is := { is with inp := [] }) ht hb true true s)]
      simp
    refine Tri.step hse ?_
    simp only [Bool.false_eq_true, if_false]
    unfold extractEnd
    simp only [Bool.false_or, beq_self_eq_true, if_true]
    have hready : is.ready = [] := by simpa using hbl'.2
    refine Tri.of_ok (setstate_quiet (is := { is with inp := [], eof := true, fail := true }) ht hb false true s) ⟨?_, hw, Frame.refl _ _, ?_⟩
    · unfold IStream.afterWord IStream.wordEof
      simp [hbl, hready, wordOf]
    · rw [IStream.word, if_pos hbl]; exact hv
  · have hse : sentry is s = (.ok ({ is with inp := is.ready }, true), s) := by
      unfold sentry IStream.ready
      rw [if_pos hg]
      by_cases hs : is.skipws = true
      · rw [if_pos hs, if_pos hs]
        have : (is.inp.dropWhile isSpace).isEmpty = false := by
          simp only [IStream.blank, hs, Bool.true_and, IStream.ready, if_true] at hbl
          simpa using hbl
        simp only [this, Bool.false_eq_true, if_false]
        rfl
      · rw [if_neg hs, if_neg hs]; rfl
    refine Tri.step hse ?_
    simp only [if_true]
    have herase := erase_tri hc hw hv (pos := 0) (n := M64 - 1) (by omega)
    refine Tri.bind (herase.basic hfull) ?_
    rintro _ s1 ⟨w1, f1, p, o1⟩
    have hsh := hv.short hc hw
    have hnil : (xs.map some).take 0 ++ (xs.map some).drop (0 + min (M64 - 1) ((xs.map some).length - 0)) = ([] : List Ch).map some := by
      rw [Nat.min_eq_right (by omega)]
      simp
    rw [hnil] at o1
    have hr' : ∀ c ∈ is.ready, c < 256 := by
      intro c h
      unfold IStream.ready at h
      split at h
      · exact hn c ((List.dropWhile_suffix _).subset h)
      · exact hn c h
    have := extractLoop_tri (v := v) hc { is with inp := is.ready } is.ready [] is.limit s1 w1 (hf.frame hv f1) o1.raw hr'
    refine Tri.bind (this.later f1) ?_
    rintro r s2 ⟨rfl, w2, f2, r2⟩
    simp only [Bool.not_eq_true] at hbl
    have hweof : is.wordEof = (is.ready.all (!isSpace ·) && decide (is.ready.length < is.limit)) := by
      simp [IStream.wordEof, hbl]
    have hdone : Done cfg v ((is.word xs).map some) s s2 := by
      refine ⟨w2, f1.trans f2, ?_⟩
      rw [IStream.word, hbl]
      simpa using r2
    simp only [← hweof, List.length_nil, Nat.zero_add]
    unfold extractEnd
    by_cases hq : (is.wordEof || (wordOf is.limit is.ready).length == 0) = true
    · rw [if_pos hq]
      refine Tri.of_ok (setstate_quiet (by exact ht) (by exact hb) _ _ _) ⟨?_, hdone⟩
      simp only [IStream.afterWord, he, hfl, hbl, Bool.false_or, Bool.not_false, Bool.and_true]
      congr 1
      cases wordOf is.limit is.ready <;> rfl
    · rw [if_neg hq]
      refine Tri.ret ⟨?_, hdone⟩
      simp only [Bool.not_eq_true, Bool.or_eq_false_iff] at hq
      simp only [IStream.afterWord, he, hfl, hbl, hq.1, Bool.not_false, Bool.and_true]
      congr 1
      have := hq.2
      cases h : wordOf is.limit is.ready with
      | nil => rw [h] at this; simp at this
      | cons _ _ => rfl

/-! ### Writing -/

theorem known_ok (xs : List Ch) (s : St) : known (xs.map some) s = (.ok xs, s) := by
  induction xs with
  | nil => rfl
  | cons c t ih =>
    simp only [List.map_cons, known]
    rw [bind_ok ih]; rfl

theorem ostreamWrite_ok {xs : List Ch} (hv : Raw cfg s v (xs.map some)) {p : Ptr} (hp : dataPtr v s = (.ok p, s))
    (os : OStream) : ostreamWrite os p (xs.length : Int) s = (.ok { os with out := os.out ++ xs }, s) := by
  unfold ostreamWrite
  rw [if_neg (by omega)]
  have hr := hv.read hp (i := 0) (k := xs.length) (by simp)
  rw [Ptr.add_zero] at hr
  have e : ((xs.map some).drop 0).take xs.length = xs.map some := by
    rw [List.drop_zero, List.take_of_length_le (by simp)]
  rw [e] at hr
  have h1 : ((xs.length : Int)).toNat = xs.length := by omega
  rw [h1, bind_ok hr, bind_ok (known_ok xs s)]
  rfl

/-- `os << str`. -/
theorem insertTo_ok (hw : WInv cfg s) {xs : List Ch} (hv : Raw cfg s v (xs.map some)) (hl : xs.length < 2147483648) (os : OStream) :
    insertTo cfg v os s = (.ok (os.written xs), s) := by
  obtain ⟨p, hp, _⟩ := hv.dataM
  unfold insertTo
  rw [bind_ok hp, bind_ok (hv.sizeM hw), List.length_map]
  have hi : toInt32 xs.length = (xs.length : Int) := by
    unfold toInt32
    rw [Nat.mod_eq_of_lt (by omega), if_pos hl]
  rw [hi]
  unfold ostreamInsert OStream.written
  by_cases hok : os.ok = true
  · rw [if_pos hok, if_pos hok]
    by_cases hwd : os.width > (xs.length : Int)
    · rw [if_pos hwd]
      by_cases hleft : os.left = true
      · rw [if_pos hleft, bind_ok (ostreamWrite_ok hv hp os)]
        simp only [hok, if_true, hleft, OStream.pad, List.append_assoc]
        rfl
      · rw [if_neg hleft, bind_ok (ostreamWrite_ok hv hp _)]
        simp only [Bool.not_eq_true] at hleft
        simp only [hleft, Bool.false_eq_true, if_false, OStream.pad, List.append_assoc]
        rfl
    · rw [if_neg hwd, bind_ok (ostreamWrite_ok hv hp os)]
      have : (os.width - (xs.length : Int)).toNat = 0 := by omega
      simp only [this, List.replicate_zero, List.append_nil, List.nil_append, ite_self]
      rfl
  · rw [if_neg hok, if_neg hok]; rfl

end Verif.Str
