import Verif.Vector.Ops3

/-!
The member functions that replace the contents or work at the end, and the special member functions.
-/

namespace Verif.Vector

open V

variable {α β : Type} {cfg : Cfg α} {s s' s'' s1 : S α} {xs ys zs : List α}

/-! ### Blocks -/

theorem BlockOK.gone {B : Block α} (hok : BlockOK cfg B xs) (n : Nat) (hn : n ≤ xs.length) :
    BlockOK cfg (gone cfg.kind B n (xs.length - n)) (xs.take n) := by
  have hl : (xs.take n).length = n := by rw [List.length_take]; omega
  have hle := hok.le
  refine ⟨by simpa using hok.pos, by rw [hl, gone_len]; omega, by simpa using hok.bound, fun j hj => ?_, fun j h1 h2 => ?_⟩
  · rw [hl] at hj
    rw [gone_cell, if_neg (by omega), cellOf_take _ _ _ hj, hok.live j (by omega)]
  · rw [hl] at h1
    rw [gone_len] at h2
    rw [gone_cell]
    by_cases h : j < xs.length
    · by_cases hk : cfg.kind = .triv
      · rw [hk]; trivial
      · rw [if_pos ⟨hk, by omega, by omega⟩]; exact tailOK_raw _
    · rw [if_neg (by omega)]; exact hok.tail j (by omega) h2

theorem BlockOK.append {B : Block α} {l : List α} (hok : BlockOK cfg B xs) (hr : xs.length + l.length ≤ B.len) :
    BlockOK cfg (over B xs.length l.length (cellOf l)) (xs ++ l) := by
  refine ⟨hok.pos, by rw [List.length_append]; exact hr, hok.bound, fun j hj => ?_, fun j h1 h2 => ?_⟩
  · rw [List.length_append] at hj
    rw [cellOf_append]
    simp only [over]
    by_cases h : j < xs.length
    · rw [if_neg (by omega), if_pos h, hok.live j h]
    · rw [if_pos (by omega), if_neg h]
  · rw [List.length_append] at h1
    simp only [over]
    rw [if_neg (by omega)]
    exact hok.tail j (by omega) h2

theorem BlockOK.set {B : Block α} {i : Nat} {x : α} (hok : BlockOK cfg B xs) (hi : i < xs.length) :
    BlockOK cfg (B.set i (.live x)) (xs.set i x) := by
  refine ⟨hok.pos, by rw [List.length_set]; exact hok.le, hok.bound, fun j hj => ?_, fun j h1 h2 => ?_⟩
  · rw [List.length_set] at hj
    rw [set_cell, cellOf_set _ _ _ hi, hok.live j hj]
  · rw [List.length_set] at h1
    rw [set_cell, if_neg (by omega)]
    exact hok.tail j h1 h2

theorem BlockOK.fresh {n : Nat} {l : List α} (h0 : 0 < n) (hn : n * cfg.size < 2 ^ 63) (hl : l.length ≤ n) :
    BlockOK cfg (over ⟨n, fun _ => .raw⟩ 0 l.length (cellOf l)) l := by
  have : BlockOK cfg (⟨n, fun _ => .raw⟩ : Block α) [] := ⟨h0, by simp, hn, by simp, fun _ _ _ => tailOK_raw _⟩
  simpa using this.append (l := l) (by simpa using hl)

/-! ### Giving up the storage -/

/-- All elements have been destroyed and the storage freed. -/
structure Freed (cfg : Cfg α) (s s1 : S α) (xs : List α) : Prop where
  this : s1.this = s.this
  other : ∀ b, s.this.start ≠ some b → s1.mem.heap b = s.mem.heap b
  gone : ∀ b, s.this.start = some b → s1.mem.heap b = none
  next : s1.mem.next = s.mem.next
  ctors : s1.mem.ctors = s.mem.ctors
  moves : s1.mem.moves = s.mem.moves
  dtors : cfg.kind ≠ .triv → s1.mem.dtors = s.mem.dtors + xs.length

theorem destroyFree_ok (hx : VecOK cfg s.mem s.this xs) :
    ∃ s0 s1, destroyRange cfg s.this.startPtr s.this.fin s = (.ok (), s0) ∧ free s.this.start s0 = (.ok (), s1) ∧
      Freed cfg s s1 xs ∧ s0.this = s.this := by
  rcases hx with ⟨hv, rfl⟩ | ⟨b, B, hv, hB, hok⟩
  · refine ⟨s, s, by rw [hv]; rfl, by rw [hv]; rfl, ⟨rfl, fun _ _ => rfl, fun b h => ?_, rfl, rfl, rfl, fun _ => rfl⟩, rfl⟩
    rw [hv] at h; simp [nullVec] at h
  · rw [hv]
    refine ⟨_, _, destroyRange_ok (n := xs.length) hB (by have := hok.le; omega) (hok.liveOn (by omega)),
      free_ok (put_same _ _ _ _ _), ?_, ?_⟩
    · refine ⟨rfl, fun b' h => ?_, fun b' h => ?_, rfl, rfl, rfl, fun hk => ?_⟩
      · have : b' ≠ b := fun e => h (by rw [hv, e])
        simp only [upd]
        rw [if_neg this, put_other this]
      · rw [hv] at h
        simp only [Option.some.injEq] at h
        subst h
        simp [upd]
      · simp only [put_dtors, dtorsOf_eq hk]
    · exact hv

theorem coreDestroy_ok (hx : VecOK cfg s.mem s.this xs) : Ok (coreDestroy cfg) s (fun _ s1 => Freed cfg s s1 xs) := by
  obtain ⟨s0, s1, h1, h2, h3, _⟩ := destroyFree_ok hx
  unfold coreDestroy
  exact Ok.step (this_apply _) (Ok.step h1 (Ok.intro h2 h3))

theorem Freed.lucky (h : Freed cfg s s1 xs) (hl : Lucky cfg s.mem) : Lucky cfg s1.mem := by
  intro n hn; rw [h.next]; exact hl n hn

/-- New storage with new contents after giving up the old one. -/
theorem Freed.renew {n c : Nat} {l : List α} (h : Freed cfg s s1 xs)
    (h0 : 0 < n) (hn : n * cfg.size < 2 ^ 63) (hl : l.length ≤ n) (hc : cfg.kind ≠ .triv → c = l.length) :
    Post cfg s { (s1.grown n).put s1.mem.next (over ⟨n, fun _ => .raw⟩ 0 l.length (cellOf l)) c 0 0 with
      this := ⟨some s1.mem.next, l.length, n⟩ } xs l := by
  refine ⟨.inr ⟨s1.mem.next, _, rfl, put_same _ _ _ _ _, BlockOK.fresh h0 hn hl⟩, fun b h1 h2 => ?_, ?_, ?_, fun hk => ?_, fun hk => ?_⟩
  · have e2 : b ≠ s1.mem.next := fun e => h2 (by rw [e])
    simp only
    rw [put_other e2]
    simp only [S.grown, upd]
    rw [if_neg e2, h.other b h1]
  · by_cases hs : s.this.start = some s1.mem.next
    · exact .inl hs.symm
    · refine .inr ⟨fun b hb => ?_, fun b hb => ?_⟩
      · have e2 : b ≠ s1.mem.next := fun e => hs (by rw [hb, e])
        simp only
        rw [put_other e2]
        simp only [S.grown, upd]
        rw [if_neg e2, h.gone b hb]
      · simp only [Option.some.injEq] at hb
        subst hb
        have := h.next
        simp only [put_next, S.grown]
        omega
  · have := h.next
    simp only [put_next, S.grown]
    omega
  · have := h.ctors
    have := h.moves
    have := h.dtors hk
    have := hc hk
    simp only [put_ctors, put_dtors, put_moves, S.grown]
    omega
  · have := h.moves
    simp only [put_moves, S.grown]
    omega

/-- A vector without storage needs no giving up. -/
theorem Freed.null (h : s.this = nullVec) : Freed cfg s s [] :=
  ⟨rfl, fun _ _ => rfl, fun b hb => by rw [h] at hb; simp [nullVec] at hb, rfl, rfl, rfl, fun _ => rfl⟩

/-! ### `assign`, `clear`, `pop_back`, `resize` -/

theorem destroyAll_ok (hx : VecOK cfg s.mem s.this xs) :
    ∃ s0, destroyAll cfg s = (.ok (), s0) ∧
      ((s0 = s ∧ s.this = nullVec ∧ xs = []) ∨ ∃ b B, s.this = ⟨some b, xs.length, B.len⟩ ∧ BlockOK cfg B [] ∧
        s0 = s.put b B 0 (dtorsOf cfg.kind xs.length) 0) := by
  have hle := hx.fin_le
  have hfin := hx.fin_eq
  have hpre : ∀ s0, destroyRange cfg s.this.startPtr s.this.fin s = (.ok (), s0) → destroyAll cfg s = (.ok (), s0) := by
    intro s0 h
    unfold destroyAll
    rw [bind_ok (this_apply _), bind_ok (assert_true (by rw [hfin]; simpa using hle) _), h]
  rcases hx with ⟨hv, rfl⟩ | ⟨b, B, hv, hB, hok⟩
  · exact ⟨s, hpre _ (by rw [hv]; rfl), .inl ⟨rfl, hv, rfl⟩⟩
  · refine ⟨_, hpre _ (by rw [hv]; exact destroyRange_ok (n := xs.length) hB (by have := hok.le; omega) (hok.liveOn (by omega))), .inr
      ⟨b, _, by rw [gone_len]; exact hv, ?_, rfl⟩⟩
    have := hok.gone 0 (by omega)
    simpa using this

/-- Put the elements of a list into an emptied block. -/
theorem Post.refill {b c : Nat} {B : Block α} {l : List α} (hv : s.this = ⟨some b, xs.length, B.len⟩)
    (hB : BlockOK cfg B []) (hl : l.length ≤ B.len) (hc : cfg.kind ≠ .triv → c = l.length) :
    Post cfg s { (s.put b B 0 (dtorsOf cfg.kind xs.length) 0).put b (over B 0 l.length (cellOf l)) c 0 0 with
      this := ⟨some b, l.length, B.len⟩ } xs l := by
  rw [put_put]
  have := Post.inplace (cfg := cfg) (s := s) (xs := xs) (ys := l) (b := b) (c := 0 + c) (d := dtorsOf cfg.kind xs.length + 0)
    (m := 0) (by rw [hv]) (by simpa using hB.append (l := l) (by simpa using hl))
    (fun hk => by rw [dtorsOf_eq hk, hc hk]; omega) (fun _ => rfl)
  exact this

theorem reallocDropOldData_ok {n : Nat} (hg : Good cfg) (hl : Lucky cfg s.mem)
    (hx : VecOK cfg s.mem s.this xs) (hn : n * cfg.size < 2 ^ 63) (h0 : 0 < n) :
    ∃ s1, Freed cfg s s1 xs ∧ reallocDropOldData cfg n s
      = (.ok (), { s1.grown n with this := ⟨some s1.mem.next, s.this.fin, n⟩ }) := by
  obtain ⟨_, s1, e1, hF⟩ := coreDestroy_ok hx
  refine ⟨s1, hF, ?_⟩
  unfold reallocDropOldData
  rw [bind_ok e1, allocate_ok hg (hF.lucky hl) hn h0, hF.this]

theorem grown_heap (s : S α) (n : Nat) : (s.grown n).mem.heap s.mem.next = some ⟨n, fun _ => .raw⟩ := by
  simp [S.grown, upd]

theorem assignN_ok {n : Nat} {x : α} (hg : Good cfg) (hl : Lucky cfg s.mem)
    (hx : VecOK cfg s.mem s.this xs) (hn : n * cfg.size < 2 ^ 63) (h0 : 0 < n) :
    Ok (assignN cfg n (.ext x)) s (fun _ s' => Post cfg s s' xs (List.replicate n x)) := by
  unfold assignN
  refine Ok.step (this_apply _) ?_
  by_cases hd : n > s.this.edge
  · obtain ⟨s1, hF, e1⟩ := reallocDropOldData_ok hg hl hx hn h0
    rw [if_pos hd]
    refine Ok.step e1 ?_
    refine Ok.step (this_apply _) ?_
    refine Ok.step (setThis_apply _ _) ?_
    simp only [Vec.startPtr]
    refine Ok.intro (constructRange_ok (i := 0) (B := ⟨n, fun _ => .raw⟩) (by exact grown_heap s1 n) (by simp) h0 x) ?_
    have := hF.renew (n := n) (c := n) (l := List.replicate n x) h0 hn (by simp) (fun _ => by simp)
    simpa [S.put, S.grown] using this
  · rw [if_neg hd]
    obtain ⟨s0, e0, h | ⟨b, B, hv, hB, rfl⟩⟩ := destroyAll_ok hx
    · rw [h.2.1] at hd; simp [nullVec] at hd; omega
    · rw [hv] at hd
      refine Ok.step e0 ?_
      refine Ok.step (this_apply _) ?_
      refine Ok.step (setThis_apply _ _) ?_
      simp only [put_this, hv, Vec.startPtr]
      refine Ok.intro (constructRange_ok (i := 0) (B := B) (by exact put_same (s := s) _ _ _ _ _) (by simp only at hd; omega) h0 x) ?_
      have := Post.refill (cfg := cfg) (c := n) (l := List.replicate n x) hv hB (by simp only at hd; simp; omega) (fun _ => by simp)
      simpa [S.put] using this

theorem assignRange_ok {src : Source α} (hg : Good cfg) (hl : Lucky cfg s.mem)
    (hx : VecOK cfg s.mem s.this xs) (hn : src.list.length * cfg.size < 2 ^ 63) (h0 : src.list ≠ [])
    (hs : src.Copied cfg) :
    Ok (assignRange cfg src) s (fun _ s' => Post cfg s s' xs src.list) := by
  have h0' : 0 < src.list.length := List.length_pos_iff.2 h0
  unfold assignRange
  refine Ok.step (this_apply _) ?_
  by_cases hd : src.list.length > s.this.edge
  · obtain ⟨s1, hF, e1⟩ := reallocDropOldData_ok hg hl hx hn h0'
    simp only [if_pos hd]
    refine Ok.step e1 ?_
    refine Ok.step (this_apply _) ?_
    simp only [Vec.startPtr]
    obtain ⟨c, hc, hcopy⟩ := copyFromIterator_ok (s := { s1.grown src.list.length with
      this := ⟨some s1.mem.next, s.this.fin, src.list.length⟩ }) (B := ⟨src.list.length, fun _ => .raw⟩)
      (b := s1.mem.next) (i := 0) hg (grown_heap s1 _) (by simp) h0 hs
    refine Ok.step hcopy ?_
    refine Ok.intro (setThis_apply _ _) ?_
    exact hF.renew (n := src.list.length) (c := c) (l := src.list) h0' hn (Nat.le_refl _) hc
  · simp only [if_neg hd]
    obtain ⟨s0, e0, h | ⟨b, B, hv, hB, rfl⟩⟩ := destroyAll_ok hx
    · rw [h.2.1] at hd
      exact absurd h0' hd
    · refine Ok.step e0 ?_
      rw [if_pos h0']
      rw [hv] at hd ⊢
      simp only [Vec.startPtr] at hd ⊢
      obtain ⟨c, hc, hcopy⟩ := copyFromIterator_ok (src := src) (i := 0) hg
        (put_same (s := s) b B 0 (dtorsOf cfg.kind xs.length) 0) (by omega) h0 hs
      refine Ok.step hcopy ?_
      refine Ok.intro (setThis_apply _ _) ?_
      exact Post.refill hv hB (by omega) hc

theorem clear_ok (hx : VecOK cfg s.mem s.this xs) :
    Ok (clear cfg) s (fun _ s' => Post cfg s s' xs [] ∧ s'.this.start = s.this.start ∧ s'.this.edge = s.this.edge) := by
  unfold clear
  obtain ⟨s0, e0, ⟨rfl, hv, rfl⟩ | ⟨b, B, hv, hB, rfl⟩⟩ := destroyAll_ok hx
  · refine Ok.step e0 (Ok.step (this_apply _) (Ok.intro (setThis_apply _ _) ⟨?_, rfl, rfl⟩))
    have e : ({ s0 with this := { s0.this with fin := 0 } } : S α) = s0 := by
      cases s0; simp only at hv; subst hv; rfl
    rw [e]
    exact Post.refl hx
  · refine Ok.step e0 (Ok.step (this_apply _) (Ok.intro (setThis_apply _ _) ⟨?_, rfl, rfl⟩))
    simp only [put_this, hv]
    exact Post.inplace (cfg := cfg) (s := s) (xs := xs) (ys := []) (b := b) (c := 0) (d := dtorsOf cfg.kind xs.length)
      (m := 0) (by rw [hv]) hB (fun hk => by rw [dtorsOf_eq hk]; simp) (fun _ => rfl)

theorem popBack_ok (hx : VecOK cfg s.mem s.this xs) (h0 : xs ≠ []) :
    Ok (popBack cfg) s (fun _ s' => Post cfg s s' xs xs.dropLast ∧ s'.this.start = s.this.start ∧
      s'.this.edge = s.this.edge) := by
  have h0' : 0 < xs.length := List.length_pos_iff.2 h0
  unfold popBack
  refine Ok.step (this_apply _) ?_
  rcases hx with ⟨hv, rfl⟩ | ⟨b, B, hv, hB, hok⟩
  · exact absurd rfl h0
  · have hle := hok.le
    rw [hv, if_neg (by simp only; omega)]
    refine Ok.step (setThis_apply _ _) ?_
    refine Ok.intro (destroyPtr_gone (i := xs.length - 1) (B := B) hB (by omega) (hok.liveOn (by omega))) ⟨?_, rfl, rfl⟩
    have hb := hok.gone (xs.length - 1) (by omega)
    rw [show xs.length - (xs.length - 1) = 1 by omega, ← List.dropLast_eq_take] at hb
    have := Post.inplace (cfg := cfg) (s := s) (xs := xs) (ys := xs.dropLast) (b := b) (c := 0)
      (d := dtorsOf cfg.kind 1) (m := 0) (by rw [hv]) hb (fun hk => by rw [dtorsOf_eq hk]; simp; omega) (fun _ => rfl)
    rw [gone_len, List.length_dropLast] at this
    exact this

/-- Construct the elements of a list behind the last element. -/
theorem Post.append {l : List α} (hf : Fresh s.mem) (hx : VecOK cfg s.mem s.this xs) (hp : Post cfg s s1 xs xs)
    (hr : xs.length + l.length ≤ s1.this.edge) :
    ∃ s2 : S α, (∀ v, constructList s1.this.finPtr l { s1 with this := v } = (.ok (), { s2 with this := v })) ∧
      Post cfg s { s2 with this := { s1.this with fin := xs.length + l.length } } xs (xs ++ l) := by
  rcases hp.ok with ⟨hv, rfl⟩ | ⟨b, B, hv, hB, hok⟩
  · rw [hv] at hr
    simp [nullVec] at hr
    subst hr
    refine ⟨s1, fun v => rfl, ?_⟩
    have e : ({ s1 with this := { s1.this with fin := 0 } } : S α) = s1 := by
      cases s1; simp only at hv; subst hv; rfl
    simp only [List.length_nil, Nat.add_zero, List.append_nil]
    rw [e]
    exact hp
  · rw [hv] at hr
    refine ⟨s1.put b (over B xs.length l.length (cellOf l)) l.length 0 0, fun v => ?_, ?_⟩
    · rw [hv]
      exact constructList_ok (s := { s1 with this := v }) hB hr
    · refine Post.trans hf hx hp ?_
      have := Post.inplace (cfg := cfg) (s := s1) (xs := xs) (ys := xs ++ l) (b := b) (c := l.length)
        (d := 0) (m := 0) (by rw [hv]) (hok.append hr) (fun hk => by rw [List.length_append]; omega) (fun _ => rfl)
      rw [List.length_append] at this
      rw [hv]
      exact this

theorem growFor_ok {n : Nat} (hg : Good cfg) (hf : Fresh s.mem) (hl : Lucky cfg s.mem)
    (hx : VecOK cfg s.mem s.this xs) (hn : n * cfg.size < 2 ^ 63) (hle : xs.length ≤ n) :
    Ok (doIf (decide (n > s.this.edge)) (reallocWithOldData cfg n)) s (fun _ s1 => Post cfg s s1 xs xs ∧
      n ≤ s1.this.edge) := by
  by_cases h : n > s.this.edge
  · rw [doIf_pos (decide_eq_true h)]
    refine Ok.mono (reallocWithOldData_ok hg hf hl hx hn (by omega) hle) ?_
    rintro _ s1 ⟨h1, h2, _⟩
    exact ⟨h1, by omega⟩
  · rw [doIf_neg (decide_eq_false h)]
    exact Ok.ret ⟨Post.refl hx, by omega⟩

theorem truncate_ok {n : Nat} (hx : VecOK cfg s.mem s.this xs) (hn : n ≤ xs.length) :
    Ok (do setThis { s.this with fin := n }; destroyRange cfg (s.this.ptr n) (s.this.fin - n)) s (fun _ s' =>
      Post cfg s s' xs (xs.take n) ∧ s'.this = { s.this with fin := n }) := by
  refine Ok.step (setThis_apply _ _) ?_
  have hx' := hx
  rcases hx with ⟨hv, rfl⟩ | ⟨b, B, hv, hB, hok⟩
  · simp at hn
    subst hn
    rw [hv]
    refine Ok.intro rfl ⟨?_, rfl⟩
    have e : ({ s with this := { nullVec with fin := 0 } } : S α) = s := by
      cases s; simp only at hv; subst hv; rfl
    rw [e]
    exact Post.refl hx'
  · have hle := hok.le
    have ht : (xs.take n).length = n := by rw [List.length_take]; omega
    rw [hv]
    refine Ok.intro (destroyRange_ok (B := B) hB (by simp only; omega) (hok.liveOn (by simp only; omega))) ⟨?_, rfl⟩
    have := Post.inplace (cfg := cfg) (s := s) (xs := xs) (ys := xs.take n) (b := b) (c := 0)
      (d := dtorsOf cfg.kind (xs.length - n)) (m := 0) (by rw [hv]) (hok.gone n hn)
      (fun hk => by rw [dtorsOf_eq hk, ht]; omega) (fun _ => rfl)
    rw [gone_len, ht] at this
    exact this

theorem resize_ok {n : Nat} {x : α} (hg : Good cfg) (hf : Fresh s.mem) (hl : Lucky cfg s.mem)
    (hx : VecOK cfg s.mem s.this xs) (hn : n * cfg.size < 2 ^ 63) :
    Ok (resize cfg true n (.ext x)) s (fun _ s' =>
      Post cfg s s' xs (xs.take n ++ List.replicate (n - xs.length) x)) := by
  unfold resize
  refine Ok.step (this_apply _) ?_
  by_cases hd : n > s.this.fin
  · rw [if_pos hd]
    rw [hx.fin_eq] at hd
    obtain ⟨_, s1, e1, hp, hroom⟩ := growFor_ok hg hf hl hx hn (by omega)
    refine Ok.step e1 ?_
    refine Ok.step (this_apply _) ?_
    refine Ok.step (setThis_apply _ _) ?_
    rw [doIf_pos rfl]
    rcases hp.ok with ⟨hv, rfl⟩ | ⟨b, B, hv, hB, hok⟩
    · rw [hv] at hroom; simp [nullVec] at hroom; simp at hd; omega
    · rw [hv] at hroom
      simp only at hroom
      rw [hv]
      refine Ok.intro (constructRange_ok (i := xs.length) (n := n - xs.length) (B := B) (by exact hB) (by omega) (by omega) x) ?_
      refine Post.trans hf hx hp ?_
      have hl : (xs ++ List.replicate (n - xs.length) x).length = n := by
        rw [List.length_append, List.length_replicate]; omega
      have := Post.inplace (cfg := cfg) (s := s1) (xs := xs) (ys := xs ++ List.replicate (n - xs.length) x) (b := b)
        (c := n - xs.length) (d := 0) (m := 0) (by rw [hv]) (hok.append (l := List.replicate (n - xs.length) x) (by
          rw [List.length_replicate]; omega)) (fun hk => by rw [hl]; omega) (fun _ => rfl)
      rw [hl, List.length_replicate] at this
      rw [List.take_of_length_le (by omega)]
      exact this
  · rw [if_neg hd]
    rw [hx.fin_eq] at hd
    rw [show n - xs.length = 0 by omega, List.replicate_zero, List.append_nil]
    exact Ok.mono (truncate_ok hx (by omega)) (fun _ _ h => h.1)

theorem resizeRaw_ok {l : List α} {x : α} (hg : Good cfg) (hf : Fresh s.mem) (hl : Lucky cfg s.mem)
    (hx : VecOK cfg s.mem s.this xs) (hn : (xs.length + l.length) * cfg.size < 2 ^ 63) :
    Ok (do
      resize cfg false (s.this.fin + l.length) (.ext x)
      let w ← this
      constructList (w.ptr s.this.fin) l) s (fun _ s' => Post cfg s s' xs (xs ++ l)) := by
  have hfin := hx.fin_eq
  rw [hfin]
  cases l with
  | nil =>
    have : Ok (resize cfg false (xs.length + ([] : List α).length) (.ext x)) s (fun _ s' =>
        Post cfg s s' xs xs) := by
      unfold resize
      refine Ok.step (this_apply _) ?_
      rw [if_neg (by rw [hfin]; simp)]
      refine Ok.mono (truncate_ok hx (by simp)) (fun _ s' h => ?_)
      have h1 := h.1
      simp only [List.length_nil, Nat.add_zero, List.take_length] at h1
      exact h1
    obtain ⟨_, s1, e1, hp⟩ := this
    refine Ok.step e1 (Ok.step (this_apply _) (Ok.intro rfl ?_))
    rw [List.append_nil]; exact hp
  | cons y l =>
    obtain ⟨_, s1, e1, hp, hroom⟩ := growFor_ok hg hf hl hx hn (by omega)
    obtain ⟨s2, e2, hp2⟩ := Post.append hf hx hp hroom
    have hr : resize cfg false (xs.length + (y :: l).length) (.ext x) s
        = (.ok (), { s1 with this := { s1.this with fin := xs.length + (y :: l).length } }) := by
      unfold resize
      rw [bind_ok (this_apply _), if_pos (by rw [hfin, List.length_cons]; omega), bind_ok e1, bind_ok (this_apply _),
        bind_ok (setThis_apply _ _)]
      rfl
    refine Ok.step hr (Ok.step (this_apply _) ?_)
    have : Vec.ptr { s1.this with fin := xs.length + (y :: l).length } xs.length = s1.this.finPtr := by
      have := hp.ok.fin_eq
      simp only [Vec.ptr, Vec.finPtr, this]
    simp only [this]
    exact Ok.intro (e2 _) hp2

theorem fill_ok {safe : Bool} {n : Nat} {l : List α} (hg : Good cfg) (hf : Fresh s.mem) (hl : Lucky cfg s.mem)
    (hx : VecOK cfg s.mem s.this xs) (hln : l.length ≤ n)
    (hc : if safe then Fits cfg (xs.length + n) else xs.length + n ≤ s.this.edge) :
    Ok (fill cfg safe n l) s (fun _ s' => Post cfg s s' xs (xs ++ l)) := by
  have hfin := hx.fin_eq
  have h64 : n + xs.length < M64 := by
    cases safe with
    | true => have := Fits.lt_num hg hc; omega
    | false =>
      have := Nat.le_mul_of_pos_right s.this.edge hg.1
      have := hx.bound
      simp at hc
      omega
  unfold fill
  refine Ok.step (this_apply _) ?_
  have key : Ok (doIf (safe && decide (add64 n s.this.fin > s.this.edge)) (do
      let c ← computeNewCapacity cfg (add64 n s.this.fin)
      reallocWithOldData cfg c)) s (fun _ s1 => Post cfg s s1 xs xs ∧ xs.length + n ≤ s1.this.edge) := by
    rw [hfin, add64_of_lt h64]
    by_cases hd : n + xs.length > s.this.edge
    · cases safe with
      | false => simp at hc; omega
      | true =>
        simp only [if_true] at hc
        rw [doIf_pos (by simpa using hd)]
        refine Ok.step (computeNewCapacity_ok hd) ?_
        have hn := nextCapacity_ok hg (hc.mono (m := s.this.edge) (by omega))
        refine Ok.mono (reallocWithOldData_ok hg hf hl hx ?_ ?_ ?_) ?_
        · rcases Nat.le_total (nextCapacity cfg s.this.edge) (n + xs.length) with h | h
          · rw [Nat.max_eq_right h, Nat.add_comm]; exact hc.lt
          · rw [Nat.max_eq_left h]; exact hn.2
        · omega
        · omega
        · rintro _ s1 ⟨h1, h2, _⟩
          exact ⟨h1, by rw [h2]; omega⟩
    · rw [doIf_neg (by simp; omega)]
      exact Ok.ret ⟨Post.refl hx, by omega⟩
  obtain ⟨_, s1, e1, hp, hroom⟩ := key
  obtain ⟨s2, e2, hp2⟩ := Post.append (l := l) hf hx hp (by omega)
  refine Ok.step e1 (Ok.step (this_apply _) ?_)
  refine Ok.step (e2 s1.this) ?_
  refine Ok.intro (setThis_apply _ _) ?_
  rw [hp.ok.fin_eq]
  exact hp2

theorem writeBuffer_ok {safe : Bool} {l : List α} (hg : Good cfg) (hf : Fresh s.mem) (hl : Lucky cfg s.mem)
    (hx : VecOK cfg s.mem s.this xs) (hfit : Fits cfg (xs.length + l.length))
    (hc : xs.length + l.length ≤ s.this.edge ∨ (safe = true ∧ xs = [])) :
    Ok (do
      let i ← getWritebuffer cfg safe l.length
      let w ← this
      constructList (w.ptr i) l) s (fun _ s' => Post cfg s s' xs (xs ++ l)) := by
  have hfin := hx.fin_eq
  have h64 : l.length + xs.length < M64 := by have := Fits.lt_num hg hfit; omega
  have key : Ok (doIf (safe && decide (add64 l.length s.this.fin > s.this.edge)) (do
      let c ← computeNewCapacity cfg l.length
      reallocWithOldData cfg c)) s (fun _ s1 => Post cfg s s1 xs xs ∧ xs.length + l.length ≤ s1.this.edge) := by
    rw [hfin, add64_of_lt h64]
    by_cases hd : l.length + xs.length > s.this.edge
    · obtain ⟨hs, rfl⟩ : safe = true ∧ xs = [] := hc.resolve_left (by omega)
      subst hs
      simp only [List.length_nil, Nat.add_zero, Nat.zero_add] at hd hfit ⊢
      rw [doIf_pos (by simpa using hd)]
      refine Ok.step (computeNewCapacity_ok hd) ?_
      have hn := nextCapacity_ok hg (hfit.mono (m := s.this.edge) (by omega))
      refine Ok.mono (reallocWithOldData_ok hg hf hl hx ?_ ?_ ?_) ?_
      · rcases Nat.le_total (nextCapacity cfg s.this.edge) l.length with h | h
        · rw [Nat.max_eq_right h]; exact hfit.lt
        · rw [Nat.max_eq_left h]; exact hn.2
      · omega
      · simp
      · rintro _ s1 ⟨h1, h2, _⟩
        exact ⟨h1, by rw [h2]; omega⟩
    · rw [doIf_neg (by simp; omega)]
      exact Ok.ret ⟨Post.refl hx, by omega⟩
  obtain ⟨_, s1, e1, hp, hroom⟩ := key
  obtain ⟨s2, e2, hp2⟩ := Post.append hf hx hp hroom
  have hget : getWritebuffer cfg safe l.length s
      = (.ok xs.length, { s1 with this := { s1.this with fin := xs.length + l.length } }) := by
    unfold getWritebuffer
    rw [bind_ok (this_apply _), bind_ok e1, bind_ok (this_apply _), bind_ok (setThis_apply _ _), hp.ok.fin_eq]
    rfl
  refine Ok.step hget (Ok.step (this_apply _) ?_)
  have : Vec.ptr { s1.this with fin := xs.length + l.length } xs.length = s1.this.finPtr := by
    have := hp.ok.fin_eq
    simp only [Vec.ptr, Vec.finPtr, this]
  simp only [this]
  exact Ok.intro (e2 _) hp2

theorem setAt_ok {i : Nat} {x : α} (hx : VecOK cfg s.mem s.this xs) (hi : i < xs.length) :
    Ok (setAt cfg i x) s (fun _ s' => Post cfg s s' xs (xs.set i x) ∧ s'.this = s.this) := by
  unfold setAt
  refine Ok.step (this_apply _) ?_
  refine Ok.step (assert_true (by rw [hx.fin_eq]; simpa using hi) _) ?_
  rcases hx with ⟨hv, rfl⟩ | ⟨b, B, hv, hB, hok⟩
  · simp at hi
  · have hle := hok.le
    rw [hv]
    refine Ok.step (readCell_ok hB (by omega)) ?_
    rw [hok.live i hi, cellOf_lt hi]
    refine Ok.intro (writeCell_ok hB (by omega) _) ⟨?_, hv⟩
    have := Post.inplace (cfg := cfg) (s := s) (xs := xs) (ys := xs.set i x) (b := b) (c := 0) (d := 0) (m := 0)
      (by rw [hv]) (hok.set (x := x) hi) (fun hk => by rw [List.length_set]) (fun _ => rfl)
    rw [List.length_set, set_len, ← hv] at this
    exact this

theorem shrinkToFit_ok (hg : Good cfg) (hf : Fresh s.mem) (hl : Lucky cfg s.mem)
    (hx : VecOK cfg s.mem s.this xs) :
    Ok (shrinkToFit cfg) s (fun _ s' => Post cfg s s' xs xs ∧ s'.this.edge = xs.length) := by
  have hfin := hx.fin_eq
  unfold shrinkToFit
  refine Ok.step (this_apply _) ?_
  rw [hfin]
  by_cases h1 : xs.length = s.this.edge
  · rw [if_pos h1]
    exact Ok.ret ⟨Post.refl hx, h1.symm⟩
  · rw [if_neg h1]
    by_cases h2 : xs.length = 0
    · rw [if_pos h2]
      obtain rfl := List.length_eq_zero_iff.1 h2
      obtain ⟨_, s1, e1, hF⟩ := coreDestroy_ok hx
      refine Ok.step e1 (Ok.intro (setThis_apply _ _) ⟨⟨.inl ⟨rfl, rfl⟩, fun b h _ => hF.other b h, .inr ⟨hF.gone, fun b hb => ?_⟩,
        by simp only [hF.next, Nat.le_refl], fun hk => ?_, fun hk => hF.moves⟩, rfl⟩)
      · simp [nullVec] at hb
      · have := hF.dtors hk
        have := hF.ctors
        have := hF.moves
        simp only at *
        omega
    · rw [if_neg h2]
      refine Ok.mono (reallocWithOldData_ok hg hf hl hx ?_ (by omega) (Nat.le_refl _)) ?_
      · have := hx.bound
        have := Nat.mul_le_mul_right cfg.size hx.fin_le
        omega
      · rintro _ s1 ⟨h1, h2, _⟩
        exact ⟨h1, h2⟩

end Verif.Vector
