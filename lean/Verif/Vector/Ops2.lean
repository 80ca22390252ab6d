import Verif.Vector.Ops

/-!
The member functions that shift elements.
-/

namespace Verif.Vector

open V

variable {α β : Type} {cfg : Cfg α} {s s' s'' : S α} {xs ys zs : List α}

/-! ### Shifting -/

theorem BlockOK.len_lt {B : Block α} (hg : Good cfg) (h : BlockOK cfg B xs) : B.len < 2 ^ 63 := by
  have := Nat.le_mul_of_pos_right B.len hg.1
  have := h.bound
  omega

theorem moveForward_ok {b dst src : Nat} {B : Block α} (hg : Good cfg) (hB : s.mem.heap b = some B)
    (hv : s.this = ⟨some b, xs.length, B.len⟩) (hlt : B.len < 2 ^ 63) (hle : xs.length ≤ B.len)
    (hlive : LiveOn B src (xs.length - src))
    (h1 : src ≤ xs.length) (h2 : dst + (xs.length - src) ≤ B.len) (h3 : dst < src ∨ xs.length ≤ dst) (h4 : dst ≠ src) :
    moveForward cfg dst src s = (.ok (), s.put b (shift cfg.kind B dst src (xs.length - src))
      (movC cfg.kind (xs.length - src)) (movD cfg.kind (xs.length - src)) (movM cfg.kind (xs.length - src))) := by
  unfold moveForward
  rw [bind_ok (assert_true (by simpa using h4) _), bind_ok (this_apply _)]
  simp only [hv]
  exact moveRangeForward_ok hB h1 (by omega) h2 hle hlive h3

theorem moveBackward_ok {b dst src : Nat} {B : Block α} (hk : cfg.kind ≠ .reloc) (hB : s.mem.heap b = some B)
    (hv : s.this = ⟨some b, xs.length, B.len⟩)
    (hlive : LiveOn B src (xs.length - src))
    (h1 : src + 1 < xs.length) (h2 : dst + (xs.length - src) ≤ B.len) (h3 : src < dst) :
    moveBackward cfg dst src s = (.ok (), s.put b (shift cfg.kind B dst src (xs.length - src))
      (movC cfg.kind (xs.length - src)) (movD cfg.kind (xs.length - src)) (movM cfg.kind (xs.length - src))) := by
  unfold moveBackward
  rw [bind_ok (this_apply _)]
  simp only [hv, Vec.ptr]
  rw [bind_ok (assert_true (by rfl) _), bind_ok (assert_true (by simpa using h1) _),
    bind_ok (assert_true (by simp; omega) _)]
  exact moveLoopBwd_ok hk hB h2 (by omega) hlive h3

theorem hole_tail {k : Kind} (c : Cell α) : TailOK k (hole k c) := by
  cases k <;> simp [TailOK, hole]

/-- A block with `new` put where a gap was made at `pos`. -/
theorem BlockOK.insert {B C : Block α} {pos : Nat} {new : List α} (hok : BlockOK cfg B xs) (hpos : pos ≤ xs.length)
    (hroom : xs.length + new.length ≤ B.len) (hlen : C.len = B.len)
    (hC : ∀ j, C.cell j = if pos ≤ j ∧ j < pos + new.length then cellOf new (j - pos)
      else (shift cfg.kind B (pos + new.length) pos (xs.length - pos)).cell j) :
    BlockOK cfg C (xs.take pos ++ new ++ xs.drop pos) := by
  have hl : (xs.take pos ++ new ++ xs.drop pos).length = xs.length + new.length := by
    simp only [List.length_append, List.length_take, List.length_drop]; omega
  have ht : (xs.take pos).length = pos := by rw [List.length_take]; omega
  have ht' : (xs.take pos ++ new).length = pos + new.length := by rw [List.length_append, ht]
  refine ⟨by rw [hlen]; exact hok.pos, by rw [hl, hlen]; exact hroom, by rw [hlen]; exact hok.bound, fun j hj => ?_,
    fun j h1 h2 => ?_⟩
  · rw [hl] at hj
    rw [hC, cellOf_append, ht', cellOf_append, ht]
    by_cases h1 : j < pos
    · rw [if_neg (by omega), if_pos (by omega), if_pos h1, cellOf_take _ _ _ h1]
      simp only [shift]
      rw [if_neg (by omega), if_neg (by omega), hok.live j (by omega)]
    · by_cases h2 : j < pos + new.length
      · rw [if_pos (by omega), if_pos h2, if_neg h1]
      · rw [if_neg (by omega), if_neg h2, cellOf_drop]
        simp only [shift]
        rw [if_pos (by omega), hok.live _ (by omega)]
        congr 1; omega
  · rw [hl] at h1
    rw [hlen] at h2
    rw [hC, if_neg (by omega)]
    simp only [shift]
    rw [if_neg (by omega), if_neg (by omega)]
    exact hok.tail j (by omega) h2

/-- The state after making room inside block `b`. -/
structure Roomy (cfg : Cfg α) (s s1 : S α) (xs : List α) (n b : Nat) (B : Block α) : Prop where
  post : Post cfg s s1 xs xs
  this : s1.this = ⟨some b, xs.length, B.len⟩
  heap : s1.mem.heap b = some B
  ok : BlockOK cfg B xs
  room : xs.length + n ≤ B.len

/-- Storage with room for `n` more elements is found after an optional `reserve`. -/
theorem roomy {n : Nat} (hp : Post cfg s s' xs xs) (h : xs.length + n ≤ s'.this.edge) (h0 : 0 < n) :
    ∃ b B, Roomy cfg s s' xs n b B := by
  rcases hp.ok with ⟨hv, rfl⟩ | ⟨b, B, hv, hB, hok⟩
  · rw [hv] at h
    simp [nullVec] at h
    omega
  · rw [hv] at h
    exact ⟨b, B, hp, hv, hB, hok, h⟩

/-- Filling the gap. -/
theorem Roomy.fill {s1 : S α} {n b pos c : Nat} {B C : Block α} {new : List α} (h : Roomy cfg s s1 xs n b B)
    (hg : Good cfg) (hf : Fresh s.mem) (hx : VecOK cfg s.mem s.this xs) (hn : new.length = n)
    (hpos : pos ≤ xs.length) (hlen : C.len = B.len)
    (hC : ∀ j, C.cell j = if pos ≤ j ∧ j < pos + new.length then cellOf new (j - pos)
      else (shift cfg.kind B (pos + new.length) pos (xs.length - pos)).cell j)
    (hc : cfg.kind ≠ .triv → c = n) {v : Vec} (hv : v = ⟨some b, xs.length + n, B.len⟩) {k : Nat} :
    Post cfg s { s1.put b C (movC cfg.kind k + c) (movD cfg.kind k) (movM cfg.kind k) with this := v }
      xs (xs.take pos ++ new ++ xs.drop pos) := by
  have hl : (xs.take pos ++ new ++ xs.drop pos).length = xs.length + n := by
    simp only [List.length_append, List.length_take, List.length_drop]; omega
  subst hv
  refine Post.trans hf hx h.post ?_
  have := Post.inplace (cfg := cfg) (s := s1) (xs := xs) (b := b) (c := movC cfg.kind k + c)
    (d := movD cfg.kind k) (m := movM cfg.kind k) (by rw [h.this])
    (BlockOK.insert h.ok hpos (by rw [hn]; exact h.room) hlen hC)
    (fun hk => by have := mov_bal (cfg := cfg) k; rw [hl, hc hk]; omega) (fun hk => movM_cpy hk _)
  rw [hl, hlen] at this
  exact this

theorem over_cell_mk (B : Block α) (i : Nat) (l : List α) (n : Nat) (hn : n = l.length) (j : Nat) :
    (over B i n (cellOf l)).cell j = if i ≤ j ∧ j < i + l.length then cellOf l (j - i) else B.cell j := by
  subst hn; rfl

theorem over_replicate (B : Block α) (i n : Nat) (v : α) :
    over B i n (fun _ => .live v) = over B i n (cellOf (List.replicate n v)) := by
  refine Block.ext' rfl (fun j => ?_)
  simp only [over]
  split
  · rw [cellOf_replicate v (by omega)]
  · rfl

theorem set_eq_over (B : Block α) (i : Nat) (v : α) : B.set i (.live v) = over B i 1 (cellOf [v]) := by
  refine Block.ext' rfl (fun j => ?_)
  simp only [over, set_cell]
  by_cases h : j = i
  · subst h; rw [if_pos rfl, if_pos (by omega), Nat.sub_self]; rfl
  · rw [if_neg h, if_neg (by omega)]

theorem constructRange_ok {b i n : Nat} {B : Block α} (hb : s.mem.heap b = some B) (hi : i + n ≤ B.len) (h0 : 0 < n)
    (v : α) : constructRange cfg ⟨some b, i⟩ n (.ext v) s
      = (.ok (), s.put b (over B i n (cellOf (List.replicate n v))) n 0 0) := by
  unfold constructRange
  rw [bind_ok (assert_true (by rfl) _), bind_ok (assert_true (by simpa using h0) _), constructLoop_ok hb hi,
    over_replicate]

theorem copyFromIterator_ok {b i : Nat} {B : Block α} {src : Source α} (hg : Good cfg) (hb : s.mem.heap b = some B)
    (hi : i + src.list.length ≤ B.len) (h0 : src.list ≠ []) (hs : src.Copied cfg) :
    ∃ c, (cfg.kind ≠ .triv → c = src.list.length) ∧ copyFromIterator cfg ⟨some b, i⟩ src s
      = (.ok (), s.put b (over B i src.list.length (cellOf src.list)) c 0 0) := by
  unfold copyFromIterator
  rw [bind_ok (assert_true (by rfl) _), bind_ok (assert_true (by simpa using h0) _)]
  rcases relocatable_cases cfg.kind with hr | h
  · rw [hr]
    cases src with
    | contiguous l =>
      refine ⟨0, fun h' => ?_, writeList_ok hb hi⟩
      rcases not_reloc_cases hs with h | h
      · exact absurd h h'
      · rw [loops_relocatable h] at hr; cases hr
    | reversed l => simp only [Source.Copied] at hs; rw [hr] at hs; simp at hs
    | forward l => exact ⟨l.length, fun _ => rfl, constructList_ok hb hi⟩
  · rw [loops_relocatable h]
    exact ⟨src.list.length, fun _ => rfl, constructList_ok hb hi⟩

/-! ### `insert` and `emplace` -/

theorem makeRoom_ok {safe : Bool} {pos n : Nat} (hg : Good cfg) (hk : cfg.kind = .reloc → xs.length ≤ pos + n) (hf : Fresh s.mem) (hl : Lucky cfg s.mem)
    (hx : VecOK cfg s.mem s.this xs) (hpos : pos ≤ xs.length) (h0 : 0 < n)
    (hc : if safe then Fits cfg (xs.length + n) else xs.length + n ≤ s.this.edge) :
    ∃ s1 b B, Roomy cfg s s1 xs n b B ∧ makeRoom cfg safe pos n s
      = (.ok (), s1.put b (shift cfg.kind B (pos + n) pos (xs.length - pos)) (movC cfg.kind (xs.length - pos))
          (movD cfg.kind (xs.length - pos)) (movM cfg.kind (xs.length - pos))) := by
  have hfin := hx.fin_eq
  have h64 : xs.length + n < M64 := by
    cases safe with
    | true => have := Fits.lt_num hg hc; omega
    | false =>
      have := Nat.le_mul_of_pos_right s.this.edge hg.1
      have := hx.bound
      simp at hc
      omega
  have key : Ok (doIf (safe && decide (add64 s.this.fin n > s.this.edge)) (do
      let c ← computeNewCapacity cfg (add64 s.this.fin n)
      reserve cfg c)) s (fun _ s1 => Post cfg s s1 xs xs ∧ xs.length + n ≤ s1.this.edge) := by
    rw [hfin, add64_of_lt h64]
    by_cases hd : xs.length + n > s.this.edge
    · cases safe with
      | false => simp at hc; omega
      | true =>
        simp only [if_true] at hc
        rw [doIf_pos (by simpa using hd)]
        refine Ok.step (computeNewCapacity_ok hd) ?_
        have hn := nextCapacity_ok hg (hc.mono (m := s.this.edge) (by omega))
        refine Ok.mono (reserve_ok hg hf hl hx ?_) ?_
        · rcases Nat.le_total (nextCapacity cfg s.this.edge) (xs.length + n) with h | h
          · rw [Nat.max_eq_right h]; exact hc.lt
          · rw [Nat.max_eq_left h]; exact hn.2
        · rintro _ s1 ⟨h1, h2, _⟩
          exact ⟨h1, by rw [h2]; omega⟩
    · rw [doIf_neg (by simp; omega)]
      exact Ok.ret ⟨Post.refl hx, by omega⟩
  obtain ⟨_, s1, e1, hp, hroom⟩ := key
  obtain ⟨b, B, hR⟩ := roomy hp hroom h0
  refine ⟨s1, b, B, hR, ?_⟩
  have hlen := hR.ok.len_lt hg
  unfold makeRoom
  rw [bind_ok (this_apply _), bind_ok e1, bind_ok (this_apply _),
    bind_ok (assert_true (by rw [hfin, add64_of_lt h64]; simpa using hroom) _)]
  have hlive : LiveOn B pos (xs.length - pos) := hR.ok.liveOn (by omega)
  have hr := hR.room
  rw [hR.this]
  by_cases hd : xs.length ≤ pos + n
  · rw [if_pos hd]
    exact moveForward_ok hg hR.heap hR.this hlen hR.ok.le hlive hpos (by omega) (by omega) (by omega)
  · rw [if_neg hd]
    exact moveBackward_ok (fun h => hd (hk h)) hR.heap hR.this hlive (by omega) (by omega) (by omega)

theorem insertN_ok {safe : Bool} {pos n : Nat} {x : α} (hg : Good cfg)
    (hk : cfg.kind = .reloc → xs.length ≤ pos + n) (hf : Fresh s.mem) (hl : Lucky cfg s.mem)
    (hx : VecOK cfg s.mem s.this xs) (hpos : pos ≤ xs.length) (h0 : 0 < n)
    (hc : if safe then Fits cfg (xs.length + n) else xs.length + n ≤ s.this.edge) :
    Ok (insertN cfg safe pos n (.ext x)) s (fun r s' => r = pos ∧
      Post cfg s s' xs (xs.take pos ++ List.replicate n x ++ xs.drop pos)) := by
  obtain ⟨s1, b, B, hR, hm⟩ := makeRoom_ok hg hk hf hl hx hpos h0 hc
  have hr := hR.room
  unfold insertN
  refine Ok.step (assert_true (by simpa using h0) _) ?_
  refine Ok.step (this_apply _) ?_
  refine Ok.step (assert_true (by rw [hx.fin_eq]; simpa using hpos) _) ?_
  refine Ok.step hm ?_
  refine Ok.step (this_apply _) ?_
  simp only [put_this, hR.this, Vec.ptr]
  refine Ok.step (constructRange_ok (put_same _ _ _ _ _) (by simp; omega) h0 x) ?_
  refine Ok.step (setThis_apply _ _) ?_
  refine Ok.ret ⟨rfl, ?_⟩
  rw [put_put]
  refine hR.fill (new := List.replicate n x) hg hf hx ?_ hpos ?_ (fun j => ?_) (fun _ => rfl) rfl
  · simp
  · rfl
  · rw [over_cell_mk _ _ _ _ (by simp)]
    simp

theorem insertRange_ok {safe : Bool} {pos : Nat} {src : Source α} (hg : Good cfg)
    (hk : cfg.kind = .reloc → xs.length ≤ pos + src.list.length) (hf : Fresh s.mem)
    (hl : Lucky cfg s.mem) (hx : VecOK cfg s.mem s.this xs) (hpos : pos ≤ xs.length) (hs : src.Copied cfg)
    (hc : if safe then Fits cfg (xs.length + src.list.length) else xs.length + src.list.length ≤ s.this.edge) :
    Ok (insertRange cfg safe pos src) s (fun r s' => r = pos ∧
      Post cfg s s' xs (xs.take pos ++ src.list ++ xs.drop pos)) := by
  unfold insertRange
  by_cases h0 : src.list.length = 0
  · simp only [h0, if_true]
    refine Ok.ret ⟨rfl, ?_⟩
    rw [List.length_eq_zero_iff.1 h0, List.append_nil, List.take_append_drop]
    exact Post.refl hx
  · simp only [if_neg h0]
    obtain ⟨s1, b, B, hR, hm⟩ := makeRoom_ok hg hk hf hl hx hpos (Nat.pos_of_ne_zero h0) hc
    have hr := hR.room
    refine Ok.step hm ?_
    refine Ok.step (this_apply _) ?_
    simp only [put_this, hR.this, Vec.ptr]
    obtain ⟨c, hc', hcopy⟩ := copyFromIterator_ok (src := src) (i := pos) hg (put_same (s := s1) b
      (shift cfg.kind B (pos + src.list.length) pos (xs.length - pos)) (movC cfg.kind (xs.length - pos))
      (movD cfg.kind (xs.length - pos)) (movM cfg.kind (xs.length - pos))) (by simp; omega) (fun h => h0 (by rw [h]; rfl)) hs
    refine Ok.step hcopy ?_
    refine Ok.step (setThis_apply _ _) ?_
    refine Ok.ret ⟨rfl, ?_⟩
    rw [put_put]
    refine hR.fill (new := src.list) hg hf hx ?_ hpos ?_ (fun j => ?_) hc' rfl
    · rfl
    · rfl
    · exact over_cell_mk _ _ _ _ rfl j

theorem insertOne_ok {safe e : Bool} {pos : Nat} {x : α} (hg : Good cfg)
    (hk : cfg.kind = .reloc → e = true ∧ xs.length ≤ pos + 1) (hf : Fresh s.mem) (hl : Lucky cfg s.mem)
    (hx : VecOK cfg s.mem s.this xs) (hpos : pos ≤ xs.length)
    (hc : if safe then Fits cfg (xs.length + 1) else xs.length < s.this.edge) :
    Ok (insertOne cfg safe e pos (.ext x)) s (fun r s' => r = pos ∧
      Post cfg s s' xs (xs.take pos ++ [x] ++ xs.drop pos)) := by
  have hle := hx.fin_le
  have hfin := hx.fin_eq
  unfold insertOne
  refine Ok.step (this_apply _) ?_
  refine Ok.step (assert_true (by rw [hfin]; simp [hpos]) _) ?_
  have key : Ok (doIf safe (do
      let f ← full cfg
      doIf f (reserve cfg (nextCapacity cfg s.this.edge)))) s (fun _ s1 => Post cfg s s1 xs xs ∧
        xs.length + 1 ≤ s1.this.edge) := by
    cases safe with
    | false =>
      simp at hc
      exact Ok.ret ⟨Post.refl hx, by omega⟩
    | true =>
      simp only [if_true] at hc
      rw [doIf_pos rfl]
      refine Ok.step (full_ok hx) ?_
      by_cases hd : s.this.edge = xs.length
      · rw [doIf_pos (decide_eq_true hd)]
        have hn := nextCapacity_ok hg (hc.mono (m := s.this.edge) (by omega))
        refine Ok.mono (reserve_ok hg hf hl hx hn.2) ?_
        rintro _ s1 ⟨h1, h2, _⟩
        exact ⟨h1, by rw [h2]; omega⟩
      · rw [doIf_neg (decide_eq_false hd)]
        exact Ok.ret ⟨Post.refl hx, by omega⟩
  obtain ⟨_, s1, e1, hp, hroom⟩ := key
  refine Ok.step e1 ?_
  refine Ok.step (full_ok hp.ok) ?_
  refine Ok.step (assert_true (by simp; omega) _) ?_
  refine Ok.step (this_apply _) ?_
  obtain ⟨b, B, hR⟩ := roomy hp hroom (by omega)
  have hlen := hR.ok.len_lt hg
  have hr := hR.room
  rw [hR.this]
  simp only [Vec.ptr]
  by_cases hd : pos = xs.length
  · subst hd
    rw [if_pos rfl]
    refine Ok.step (setThis_apply _ _) ?_
    obtain ⟨c, hc', hput⟩ := putAt_ok (e := e) (s := { s1 with this := ⟨some b, xs.length + 1, B.len⟩ }) (arg := .ext x)
      (i := xs.length) (fun h => (hk h).1) hR.heap (by omega) rfl
    refine Ok.step hput ?_
    refine Ok.ret ⟨rfl, ?_⟩
    rw [List.take_length, List.drop_length, List.append_nil]
    refine Post.trans hf hx hp ?_
    have := Post.inplace (cfg := cfg) (s := s1) (xs := xs) (ys := xs ++ [x]) (c := c) (d := 0) (m := 0)
      (by rw [hR.this]) (hR.ok.push hr x) (fun hk => by rw [hc' hk]; simp; omega) (fun _ => rfl)
    simpa [S.put] using this
  · rw [if_neg hd]
    have hlive : LiveOn B pos (xs.length - pos) := hR.ok.liveOn (by omega)
    have hmove : (if pos + 1 < xs.length then moveBackward cfg (pos + 1) pos else moveForward cfg (pos + 1) pos) s1
        = (.ok (), s1.put b (shift cfg.kind B (pos + 1) pos (xs.length - pos)) (movC cfg.kind (xs.length - pos))
          (movD cfg.kind (xs.length - pos)) (movM cfg.kind (xs.length - pos))) := by
      by_cases h1 : pos + 1 < xs.length
      · rw [if_pos h1]
        exact moveBackward_ok (fun h => by have := (hk h).2; omega) hR.heap hR.this hlive h1 (by omega) (by omega)
      · rw [if_neg h1]
        exact moveForward_ok hg hR.heap hR.this hlen hR.ok.le hlive hpos (by omega) (by omega) (by omega)
    refine Ok.step hmove ?_
    obtain ⟨c, hc', hput⟩ := putAt_ok (cfg := cfg) (e := e) (arg := .ext x) (i := pos) (fun h => (hk h).1) (put_same (s := s1) b
      (shift cfg.kind B (pos + 1) pos (xs.length - pos)) (movC cfg.kind (xs.length - pos))
      (movD cfg.kind (xs.length - pos)) (movM cfg.kind (xs.length - pos))) (by simp; omega) rfl
    refine Ok.step hput ?_
    refine Ok.step (setThis_apply _ _) ?_
    refine Ok.ret ⟨rfl, ?_⟩
    rw [put_put]
    refine hR.fill (new := [x]) hg hf hx ?_ hpos ?_ (fun j => ?_) hc' rfl
    · rfl
    · rfl
    · rw [set_eq_over]
      exact over_cell_mk _ _ [x] 1 rfl j

end Verif.Vector
