import Verif.Vector.Props2

/-! Arguments that refer to an element of the vector itself (C47): the calls for which they are as good as copies. -/

namespace Verif.Vector

open V

variable {α : Type} {cfg : Cfg α} {s : S α} {xs : List α} {w : World α} {i : Nat}

/-- The calls with a reference to element `k` of the vector itself for which that is as good as a copy: there is room, and the
element is before the elements that are moved, or the first of them if they are trivially copyable; for `assign` the elements must
be trivially copyable. -/
def Op.Sound (cfg : Cfg α) (cap : Nat) (xs : List α) : Op α → Prop
  | .insert _ _ pos (.own k) => (k < pos ∨ k = pos ∧ k < xs.length ∧ cfg.kind = .triv) ∧ pos ≤ xs.length ∧ xs.length < cap
  | .insertN _ pos n (.own k) => k < pos ∧ pos ≤ xs.length ∧ 0 < n ∧ xs.length + n ≤ cap
  | .resizeValue n (.own k) => k < xs.length ∧ n ≤ cap
  | .assignN n (.own k) => k < xs.length ∧ 0 < n ∧ n ≤ cap ∧ cfg.kind = .triv
  | _ => False

/-- The same call with the element copied first. -/
def Op.copied (xs : List α) : Op α → Op α
  | .insert safe e pos (.own k) => .insert safe e pos (match xs[k]? with | some x => .ext x | none => .own k)
  | .insertN safe pos n (.own k) => .insertN safe pos n (match xs[k]? with | some x => .ext x | none => .own k)
  | .resizeValue n (.own k) => .resizeValue n (match xs[k]? with | some x => .ext x | none => .own k)
  | .assignN n (.own k) => .assignN n (match xs[k]? with | some x => .ext x | none => .own k)
  | op => op

theorem putAt_congr {e : Bool} {p : Ptr} {r1 r2 : Ref α} (h : deref r1 s = deref r2 s) : putAt cfg e p r1 s = putAt cfg e p r2 s := by
  have hb : ∀ {β : Type} (f : α → V α β), (deref r1 >>= f) s = (deref r2 >>= f) s := by
    intro β f
    show V.bind _ _ s = V.bind _ _ s
    simp only [V.bind, h]
  cases e with
  | true => exact hb _
  | false =>
    show (copyCref cfg p r1) s = (copyCref cfg p r2) s
    unfold copyCref
    show V.bind _ _ s = V.bind _ _ s
    unfold V.bind
    have : ∀ s', (assert cfg p.blk.isSome "dst can not be nullptr" s).2 = s' → s' = s := by
      intro s' h
      rw [← h]
      unfold assert
      split <;> rfl
    cases hq : assert cfg p.blk.isSome "dst can not be nullptr" s with
    | mk r s' =>
      have := this s' (by rw [hq])
      subst this
      cases r with
      | error e => rfl
      | ok u => exact hb _

theorem constructLoop_alias {b k : Nat} {x : α} (n : Nat) : ∀ {i : Nat} {s : S α} {B : Block α}, s.mem.heap b = some B → i + n ≤ B.len →
    k < B.len → B.cell k = .live x →
    constructLoop ⟨some b, i⟩ (.elem ⟨some b, k⟩) n s = constructLoop ⟨some b, i⟩ (.ext x) n s := by
  induction n with
  | zero => intros; rfl
  | succ n ih =>
    intro i s B hb hi hk hc
    simp only [constructLoop]
    rw [bind_ok (show deref (.ext x) s = (.ok x, s) from rfl), bind_ok (show deref (.elem ⟨some b, k⟩) s = (.ok x, s) from load_ok hb hk hc),
      bind_ok (constructAt_ok hb (by omega) x), bind_ok (constructAt_ok hb (by omega) x)]
    refine ih (put_same _ _ _ _ _) (by simp; omega) (by simpa using hk) ?_
    rw [set_cell]
    split
    · rfl
    · exact hc

theorem constructRange_alias {b k i n : Nat} {x : α} {B : Block α} (hb : s.mem.heap b = some B) (hi : i + n ≤ B.len) (h0 : 0 < n)
    (hk : k < B.len) (hc : B.cell k = .live x) :
    constructRange cfg ⟨some b, i⟩ n (.elem ⟨some b, k⟩) s = constructRange cfg ⟨some b, i⟩ n (.ext x) s := by
  unfold constructRange
  rw [bind_ok (assert_true (by rfl) _), bind_ok (assert_true (by simpa using h0) _), bind_ok (assert_true (by rfl) _),
    bind_ok (assert_true (by simpa using h0) _), constructLoop_alias n hb hi hk hc]

/-- What `insert` finds in place of element `k` once it has made room at `pos`. -/
def Found (k : Kind) (xs : List α) (pos i : Nat) (x : α) : Prop :=
  (i < pos ∧ xs[i]? = some x) ∨ (i = pos ∧ k = .triv ∧ xs[i]? = some x) ∨ (pos < i ∧ i < xs.length ∧ xs[i - 1]? = some x)

theorem insertOne_alias {safe e : Bool} {pos k : Nat} {x : α} (hg : Good cfg) (hr : cfg.kind = .reloc → xs.length ≤ pos + 1)
    (hx : VecOK cfg s.mem s.this xs) (hk : Found cfg.kind xs pos k x) (hpos : pos ≤ xs.length) (hroom : xs.length < s.this.edge) :
    insertOne cfg safe e pos (.elem (s.this.ptr k)) s = insertOne cfg safe e pos (.ext x) s := by
  have hfin := hx.fin_eq
  obtain ⟨b, B, hR⟩ := roomy (n := 1) (Post.refl hx) (by omega) (by omega)
  have hlen := hR.ok.len_lt hg
  have hrm := hR.room
  have hlive : ∀ {j y}, xs[j]? = some y → B.cell j = .live y := by
    intro j y h
    rw [hR.ok.live j (lt_of_getElem? h)]; simp [cellOf, h]
  have hkx : k < xs.length := by
    rcases hk with ⟨_, h⟩ | ⟨_, _, h⟩ | ⟨_, h, _⟩
    · exact lt_of_getElem? h
    · exact lt_of_getElem? h
    · exact h
  have hkl : k < B.len := by omega
  have e1 : doIf safe (do
      let f ← full cfg
      doIf f (reserve cfg (nextCapacity cfg s.this.edge))) s = (.ok (), s) := by
    cases safe with
    | false => rfl
    | true =>
      rw [doIf_pos rfl, bind_ok (full_ok hx), doIf_neg (decide_eq_false (by omega))]
      rfl
  have hptr : s.this.ptr k = ⟨some b, k⟩ := by rw [hR.this]; rfl
  have head : ∀ r : Ref α, insertOne cfg safe e pos r s =
      (if pos = s.this.fin then (do
        setThis { s.this with fin := s.this.fin + 1 }
        putAt cfg e (s.this.ptr pos) r
        return pos)
      else (do
        (if pos + 1 < s.this.fin then moveBackward cfg (pos + 1) pos else moveForward cfg (pos + 1) pos)
        putAt cfg e (s.this.ptr pos) r
        setThis { s.this with fin := s.this.fin + 1 }
        return pos)) s := by
    intro r
    unfold insertOne
    rw [bind_ok (this_apply _), bind_ok (assert_true (by rw [hfin]; simp [hpos]) _), bind_ok e1, bind_ok (full_ok hx),
      bind_ok (assert_true (by simp; omega) _), bind_ok (this_apply _)]
  rw [head, head, hptr]
  by_cases hd : pos = s.this.fin
  · rw [if_pos hd, if_pos hd, bind_ok (setThis_apply _ _), bind_ok (setThis_apply _ _)]
    have := putAt_congr (cfg := cfg) (e := e) (p := s.this.ptr pos) (s := { s with this := { s.this with fin := s.this.fin + 1 } })
      (r1 := .elem ⟨some b, k⟩) (r2 := .ext x) (load_ok hR.heap hkl (by
        rcases hk with ⟨_, h⟩ | ⟨_, _, h⟩ | ⟨h, _, _⟩
        · exact hlive h
        · exact hlive h
        · omega))
    show V.bind _ _ _ = V.bind _ _ _
    simp only [V.bind, this]
  · rw [if_neg hd, if_neg hd]
    rw [hfin] at hd
    have hlv : LiveOn B pos (xs.length - pos) := hR.ok.liveOn (by omega)
    have hmove : (if pos + 1 < s.this.fin then moveBackward cfg (pos + 1) pos else moveForward cfg (pos + 1) pos) s
        = (.ok (), s.put b (shift cfg.kind B (pos + 1) pos (xs.length - pos)) (movC cfg.kind (xs.length - pos))
          (movD cfg.kind (xs.length - pos)) (movM cfg.kind (xs.length - pos))) := by
      rw [hfin]
      by_cases h1 : pos + 1 < xs.length
      · rw [if_pos h1]
        exact moveBackward_ok (fun h => by have := hr h; omega) hR.heap hR.this hlv h1 (by omega) (by omega)
      · rw [if_neg h1]
        exact moveForward_ok hg hR.heap hR.this hlen hR.ok.le hlv hpos (by omega) (by omega) (by omega)
    rw [bind_ok hmove, bind_ok hmove]
    have := putAt_congr (cfg := cfg) (e := e) (p := s.this.ptr pos) (s := s.put b (shift cfg.kind B (pos + 1) pos (xs.length - pos))
        (movC cfg.kind (xs.length - pos)) (movD cfg.kind (xs.length - pos)) (movM cfg.kind (xs.length - pos)))
      (r1 := .elem ⟨some b, k⟩) (r2 := .ext x) (load_ok (put_same _ _ _ _ _) hkl (by
        simp only [shift]
        rcases hk with ⟨h, h'⟩ | ⟨h, ht, h'⟩ | ⟨h, h1, h'⟩
        · rw [if_neg (by omega), if_neg (by omega)]; exact hlive h'
        · rw [if_neg (by omega), if_pos (by omega), ht]; exact hlive h'
        · rw [if_pos (by omega), show k - (pos + 1) + pos = k - 1 by omega]; exact hlive h'))
    show V.bind _ _ _ = V.bind _ _ _
    simp only [V.bind, this]

theorem insertN_alias {safe : Bool} {pos n k : Nat} {x : α} (hg : Good cfg) (hr : cfg.kind = .reloc → xs.length ≤ pos + n)
    (hx : VecOK cfg s.mem s.this xs) (hk : k < pos) (hpos : pos ≤ xs.length) (h0 : 0 < n) (hroom : xs.length + n ≤ s.this.edge)
    (hkx : xs[k]? = some x) :
    insertN cfg safe pos n (.elem (s.this.ptr k)) s = insertN cfg safe pos n (.ext x) s := by
  have hfin := hx.fin_eq
  obtain ⟨b, B, hR⟩ := roomy (n := n) (Post.refl hx) hroom h0
  have hlen := hR.ok.len_lt hg
  have hrm := hR.room
  have hcell : B.cell k = .live x := by rw [hR.ok.live k (by omega)]; simp [cellOf, hkx]
  have hkl : k < B.len := by omega
  have h64 : xs.length + n < M64 := by
    have := Nat.le_mul_of_pos_right s.this.edge hg.1
    have := hx.bound
    omega
  have hm : makeRoom cfg safe pos n s = (.ok (), s.put b (shift cfg.kind B (pos + n) pos (xs.length - pos))
      (movC cfg.kind (xs.length - pos)) (movD cfg.kind (xs.length - pos)) (movM cfg.kind (xs.length - pos))) := by
    unfold makeRoom
    have hnot : (safe && decide (add64 s.this.fin n > s.this.edge)) = false := by
      rw [hfin, add64_of_lt h64]; simp; omega
    rw [bind_ok (this_apply _), doIf_neg hnot, bind_ok (show (pure () : V α Unit) s = (.ok (), s) from rfl), bind_ok (this_apply _),
      bind_ok (assert_true (by rw [hfin, add64_of_lt h64]; simpa using hroom) _)]
    have hlive : LiveOn B pos (xs.length - pos) := hR.ok.liveOn (by omega)
    rw [hR.this]
    by_cases hd : xs.length ≤ pos + n
    · rw [if_pos hd]
      exact moveForward_ok hg hR.heap hR.this hlen hR.ok.le hlive hpos (by omega) (by omega) (by omega)
    · rw [if_neg hd]
      exact moveBackward_ok (fun h => hd (hr h)) hR.heap hR.this hlive (by omega) (by omega) (by omega)
  have hptr : s.this.ptr k = ⟨some b, k⟩ := by rw [hR.this]; rfl
  have head : ∀ r : Ref α, insertN cfg safe pos n r s = (do
      constructRange cfg ⟨some b, pos⟩ n r
      setThis { s.this with fin := s.this.fin + n }
      return pos) (s.put b (shift cfg.kind B (pos + n) pos (xs.length - pos))
      (movC cfg.kind (xs.length - pos)) (movD cfg.kind (xs.length - pos)) (movM cfg.kind (xs.length - pos))) := by
    intro r
    unfold insertN
    rw [bind_ok (assert_true (by simpa using h0) _), bind_ok (this_apply _), bind_ok (assert_true (by rw [hfin]; simpa using hpos) _),
      bind_ok hm, bind_ok (this_apply _)]
    simp only [put_this, hR.this, Vec.ptr]
  rw [head, head, hptr]
  have := constructRange_alias (cfg := cfg) (s := s.put b (shift cfg.kind B (pos + n) pos (xs.length - pos))
      (movC cfg.kind (xs.length - pos)) (movD cfg.kind (xs.length - pos)) (movM cfg.kind (xs.length - pos))) (b := b) (k := k) (i := pos)
      (n := n) (x := x) (put_same _ _ _ _ _) (by simp; omega) h0 hkl (by
        simp only [shift]; rw [if_neg (by omega), if_neg (by omega)]; exact hcell)
  show V.bind _ _ _ = V.bind _ _ _
  simp only [V.bind, this]

theorem resize_alias {n k : Nat} {x : α} (hx : VecOK cfg s.mem s.this xs) (hk : k < xs.length) (hroom : n ≤ s.this.edge)
    (hkx : xs[k]? = some x) : resize cfg true n (.elem (s.this.ptr k)) s = resize cfg true n (.ext x) s := by
  have hfin := hx.fin_eq
  have hle := hx.fin_le
  unfold resize
  rw [bind_ok (this_apply _), bind_ok (this_apply _)]
  by_cases hd : n > s.this.fin
  · rw [if_pos hd, if_pos hd, doIf_neg (decide_eq_false (by omega)), bind_ok (show (pure () : V α Unit) s = (.ok (), s) from rfl),
      bind_ok (show (pure () : V α Unit) s = (.ok (), s) from rfl), bind_ok (this_apply _), bind_ok (this_apply _), bind_ok (setThis_apply _ _),
      bind_ok (setThis_apply _ _), doIf_pos rfl, doIf_pos rfl]
    obtain ⟨b, B, hR⟩ := roomy (n := n - xs.length) (Post.refl hx) (by omega) (by omega)
    have hrm := hR.room
    have hcell : B.cell k = .live x := by rw [hR.ok.live k (by omega)]; simp [cellOf, hkx]
    have hp : s.this.ptr k = ⟨some b, k⟩ := by rw [hR.this]; rfl
    have hf : s.this.finPtr = ⟨some b, xs.length⟩ := by rw [hR.this]; rfl
    rw [hp, hf]
    exact constructRange_alias hR.heap (by omega) (by omega) (by omega) hcell
  · rw [if_neg hd, if_neg hd]

theorem assignN_alias {n k : Nat} {x : α} (ht : cfg.kind = .triv) (hx : VecOK cfg s.mem s.this xs) (hk : k < xs.length) (h0 : 0 < n)
    (hroom : n ≤ s.this.edge) (hkx : xs[k]? = some x) : assignN cfg n (.elem (s.this.ptr k)) s = assignN cfg n (.ext x) s := by
  have hfin := hx.fin_eq
  have hle := hx.fin_le
  obtain ⟨b, B, hv, hB, hok⟩ : ∃ b B, s.this = ⟨some b, xs.length, B.len⟩ ∧ s.mem.heap b = some B ∧ BlockOK cfg B xs := by
    rcases hx with ⟨_, rfl⟩ | h
    · simp at hk
    · exact h
  have hroom' : n ≤ B.len := by rw [hv] at hroom; exact hroom
  have hcell : B.cell k = .live x := by rw [hok.live k hk]; simp [cellOf, hkx]
  have hkl : k < B.len := by rw [hv] at hle; simp at hle; omega
  have hp : s.this.ptr k = ⟨some b, k⟩ := by rw [hv]; rfl
  have hf : s.this.startPtr = ⟨some b, 0⟩ := by rw [hv]; rfl
  have hdes : ∀ (m : Nat) (p : Ptr), destroyRange cfg p m s = (.ok (), s) := by
    intro m
    induction m with
    | zero => intro p; rfl
    | succ m ih =>
      intro p
      simp only [destroyRange]
      rw [bind_ok (show destroyPtr cfg p s = (.ok (), s) by unfold destroyPtr; rw [ht]; rfl)]
      exact ih _
  have hda : destroyAll cfg s = (.ok (), s) := by
    unfold destroyAll
    rw [bind_ok (this_apply _), bind_ok (assert_true (by rw [hfin]; simpa using hle) _)]
    exact hdes _ _
  unfold assignN
  have hnot : ¬ n > s.this.edge := by omega
  rw [bind_ok (this_apply _), bind_ok (this_apply _), if_neg hnot, bind_ok hda, bind_ok hda, bind_ok (this_apply _), bind_ok (this_apply _),
    bind_ok (setThis_apply _ _), bind_ok (setThis_apply _ _), hp, hf]
  exact constructRange_alias hB (by omega) h0 hkl hcell

theorem step_alias [DecidableEq α] {op : Op α} (hg : Good cfg) (hx : VecOK cfg s.mem s.this xs) (hp : op.Proper cfg xs)
    (hs : op.Sound cfg s.this.edge xs) : step cfg op s = step cfg (op.copied xs) s := by
  unfold step
  rw [bind_ok (this_apply _), bind_ok (this_apply _)]
  have num : ∀ {x y : V α Nat}, x s = y s → numRet x s = numRet y s := by
    intro x y h
    show V.bind _ _ _ = V.bind _ _ _
    simp only [V.bind, h]
  have no : ∀ {x y : V α Unit}, x s = y s → noRet x s = noRet y s := by
    intro x y h
    show V.bind _ _ _ = V.bind _ _ _
    simp only [V.bind, h]
  cases op with
  | insert safe e pos a =>
    cases a with
    | ext x => exact hs.elim
    | own k =>
      obtain ⟨h1, h2, h3⟩ := hs
      have e1 : xs[k]? = some (xs[k]'(by omega)) := List.getElem?_eq_getElem _
      simp only [Op.copied, e1]
      exact num (insertOne_alias hg (fun h => (hp h).2) hx (h1.elim (fun h => .inl ⟨h, e1⟩) fun h => .inr (.inl ⟨h.1, h.2.2, e1⟩)) h2 h3)
  | insertN safe pos n a =>
    cases a with
    | ext x => exact hs.elim
    | own k =>
      obtain ⟨h1, h2, h3, h4⟩ := hs
      have e1 : xs[k]? = some (xs[k]'(by omega)) := List.getElem?_eq_getElem _
      simp only [Op.copied, e1]
      exact num (insertN_alias hg hp hx h1 h2 h3 h4 e1)
  | resizeValue n a =>
    cases a with
    | ext x => exact hs.elim
    | own k =>
      obtain ⟨h1, h2⟩ := hs
      have e1 : xs[k]? = some (xs[k]'(by omega)) := List.getElem?_eq_getElem _
      simp only [Op.copied, e1]
      exact no (resize_alias hx h1 h2 e1)
  | assignN n a =>
    cases a with
    | ext x => exact hs.elim
    | own k =>
      obtain ⟨h1, h2, h3, h4⟩ := hs
      have e1 : xs[k]? = some (xs[k]'(by omega)) := List.getElem?_eq_getElem _
      simp only [Op.copied, e1]
      exact no (assignN_alias h4 hx h1 h2 h3 e1)
  | _ => exact hs.elim

theorem Op.copied_proper {op : Op α} (h : (op.copied xs).Proper cfg xs) : op.Proper cfg xs := by
  cases op with
  | insert safe e pos a => cases a <;> exact h
  | insertN safe pos n a => cases a <;> exact h
  | resizeValue n a => cases a <;> exact h
  | assignN n a => cases a <;> exact h
  | _ => exact h

theorem copied_spec [DecidableEq α] {op : Op α} (d : α) : specStep d xs (op.copied xs) = specStep d xs op ∧
    specRet xs (op.copied xs) = specRet xs op := by
  have hv : ∀ k, Arg.val xs (match xs[k]? with | some x => (.ext x : Arg α) | none => .own k) = Arg.val xs (.own k) := by
    intro k
    cases h : xs[k]? with
    | none => rfl
    | some x => simp [Arg.val, h]
  cases op with
  | insert safe e pos a => cases a <;> simp [Op.copied, specStep, specRet, hv]
  | insertN safe pos n a => cases a <;> simp [Op.copied, specStep, specRet, hv]
  | resizeValue n a => cases a <;> simp [Op.copied, specStep, specRet, hv]
  | assignN n a => cases a <;> simp [Op.copied, specStep, specRet, hv]
  | _ => exact ⟨rfl, rfl⟩

theorem member_alias [DecidableEq α] {x y : V α Ret} {v : Vec} (hv : w.vecs[i]? = some (some v)) (h : x ⟨w.mem, v⟩ = y ⟨w.mem, v⟩) :
    w.member i x = w.member i y := by
  unfold World.member
  simp only [hv, h]

/-- C47 (partial): `insert`, `emplace`, `insert` of several copies and `resize(n, v[k])` do with a reference to an element of the vector
what they do with a copy, if there is room and the element comes before those that are moved; with trivially copyable elements it may
also be the first of these (`insert` of one), and `assign(n, v[k])` is right too.  Missing are references to elements that are moved and
calls that take new storage, for which it is false. -/
theorem alias_room_partial [DecidableEq α] {op : Op α} (hg : Good cfg) (hr : Reachable cfg w) (hl : Lucky cfg w.mem) (hx : w.Reads i xs)
    (hs : op.Sound cfg (w.capacity i) xs) (hc : InContract cfg (w.capacity i) xs (op.copied xs)) :
    ∃ w', wstep cfg w (.call i op) = (.ok (specRet xs op), w') ∧ Becomes cfg w w' i (specStep cfg.dflt xs op) := by
  obtain ⟨v, hv, hok, _⟩ := hr.vec hg hx
  obtain ⟨r, w', e, hb, hret⟩ := call_ok hg hr hl hx hc
  rw [capacity_eq hv] at hs
  have he : wstep cfg w (.call i op) = wstep cfg w (.call i (op.copied xs)) :=
    member_alias hv (step_alias (s := ⟨w.mem, v⟩) hg hok (Op.copied_proper hc.1) hs)
  rw [(copied_spec cfg.dflt).1] at hb
  refine ⟨w', ?_, hb⟩
  rw [he, e]
  rcases hret with h | ⟨a, b, h, _⟩
  · rw [h, (copied_spec cfg.dflt).2]
  · exfalso
    cases op with
    | insert safe e pos a => cases a <;> simp [Op.copied] at h
    | insertN safe pos n a => cases a <;> simp [Op.copied] at h
    | resizeValue n a => cases a <;> simp [Op.copied] at h
    | assignN n a => cases a <;> simp [Op.copied] at h
    | _ => exact hs.elim

example : ∃ w', wstep (exCfg .mov) (exWorld .mov) (.call 0 (.insert true true 3 (.own 1))) = (.ok (.num 3), w') ∧
    Becomes (exCfg .mov) (exWorld .mov) w' 0 [3, 1, 9, 1, 2, 3] :=
  alias_room_partial (op := .insert true true 3 (.own 1)) exGood exReach exLucky exReads.1
    ⟨.inl (by decide), by decide, by rw [exSizes.1]; decide⟩ ⟨(fun h => by cases h), by decide, rfl, by unfold Fits exCfg; decide⟩

example : ∃ w', wstep (exCfg .mov) (exWorld .mov) (.call 0 (.resizeValue 6 (.own 2))) = (.ok .unit, w') ∧
    Becomes (exCfg .mov) (exWorld .mov) w' 0 [3, 1, 9, 2, 3, 9] :=
  alias_room_partial (op := .resizeValue 6 (.own 2)) exGood exReach exLucky exReads.1
    ⟨by decide, by rw [exSizes.1]; decide⟩ ⟨trivial, rfl, by unfold Fits exCfg; decide⟩

/-- C47 is violated in every state: with room for one more, `insert(pos, v[k])` and `emplace` with `pos < k` insert the element before
element `k`. -/
theorem insert_alias_always_violated [DecidableEq α] {safe e : Bool} {pos k : Nat} {x : α} (hg : Good cfg) (hr : Reachable cfg w)
    (hl : Lucky cfg w.mem) (hx : w.Reads i xs) (hroom : xs.length < w.capacity i) (hfit : Fits cfg (xs.length + 1))
    (hp : cfg.kind = .reloc → e = true ∧ xs.length ≤ pos + 1) (hk : pos < k) (hkl : k < xs.length) (hkx : xs[k - 1]? = some x) :
    ∃ w', wstep cfg w (.call i (.insert safe e pos (.own k))) = (.ok (.num pos), w') ∧
      Becomes cfg w w' i (xs.take pos ++ [x] ++ xs.drop pos) := by
  obtain ⟨v, hv, hok, _⟩ := hr.vec hg hx
  have hc : InContract cfg (w.capacity i) xs (.insert safe e pos (.ext x)) := by
    refine ⟨hp, by omega, rfl, ?_⟩
    cases safe
    · exact hroom
    · exact hfit
  obtain ⟨r, w', e1, hb, hret⟩ := call_ok hg hr hl hx hc
  have he : wstep cfg w (.call i (.insert safe e pos (.own k))) = wstep cfg w (.call i (.insert safe e pos (.ext x))) := by
    refine member_alias (x := step cfg (.insert safe e pos (.own k))) (y := step cfg (.insert safe e pos (.ext x))) hv ?_
    unfold step
    rw [bind_ok (this_apply _), bind_ok (this_apply _)]
    have := insertOne_alias (s := ⟨w.mem, v⟩) (safe := safe) (e := e) hg (fun h => (hp h).2) hok (.inr (.inr ⟨hk, hkl, hkx⟩)) (by omega)
      (by rw [capacity_eq hv] at hroom; exact hroom)
    show V.bind _ _ _ = V.bind _ _ _
    simp only [V.bind]
    rw [show Arg.ref v (.own k) = Ref.elem (v.ptr k) from rfl, this]
    rfl
  refine ⟨w', ?_, by simpa [specStep, Arg.val] using hb⟩
  rw [he, e1]
  rcases hret with h | ⟨a, b, h, _⟩
  · rw [h]; rfl
  · simp at h

example : ∃ w', wstep (exCfg .mov) (exWorld .mov) (.call 0 (.insert true false 0 (.own 3))) = (.ok (.num 0), w') ∧
    Becomes (exCfg .mov) (exWorld .mov) w' 0 [9, 3, 1, 9, 2, 3] :=
  insert_alias_always_violated (xs := [3, 1, 9, 2, 3]) exGood exReach exLucky exReads.1 (by rw [exSizes.1]; decide) (by unfold Fits exCfg; decide)
    (fun h => by cases h) (by decide) (by decide) rfl

end Verif.Vector
