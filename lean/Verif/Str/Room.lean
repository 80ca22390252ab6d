import Verif.Str.ThreadLemmas

/-!
Strings that stay where they are: `In cfg v P c g k Q x` says that `x`, started when the string `v` has its `k`
characters at `P`, room for `c`, the category `g` unless small, and shares them with nobody, neither asks for memory nor throws, and leaves the
characters at `P` with the same room.
-/

namespace Verif.Str

open M

variable {β γ : Type} {cfg : Cfg} {v : Obj} {P : Ptr} {c k : Nat} {g : Bool}

/-- The core has room for `c` characters, holds `k`, and its buffer is used by nobody else. -/
def Core.roomy (cfg : Cfg) (heap : Nat → Option Blk) (c : Nat) (g : Bool) (k : Nat) : Core → Prop
  | .small cells => cfg.sso = true ∧ c = cfg.ms ∧ (Core.small cells).size? cfg = some k
  | .ml d n cap large => c = cap ∧ k = n ∧ large = g ∧ ∃ src cells, heap d = some ⟨if large then some 1 else none, src, cells⟩

/-- The string `v` has its `k` characters at `P`, with room for `c`. -/
structure At (cfg : Cfg) (v : Obj) (P : Ptr) (c : Nat) (g : Bool) (k : Nat) (s : St) : Prop where
  fit : k ≤ c
  big : c < M64
  ob : ∃ o, s.vars v = some o ∧ o.core.ptr v = P ∧ o.core.roomy cfg s.heap c g k

/-- `x` keeps it there; its result and the new length satisfy `Q`. -/
def In (cfg : Cfg) (v : Obj) (P : Ptr) (c : Nat) (g : Bool) (k : Nat) (Q : β → Nat → Prop) (x : M β) : Prop :=
  ∀ s, At cfg v P c g k s → (x s).2.next = s.next ∧ (x s).2.refused = s.refused ∧
    match (x s).1 with
    | .ok b => ∃ k', Q b k' ∧ At cfg v P c g k' (x s).2
    | .error e => ∀ w, e ≠ .throw w

theorem In.weaken {Q R : β → Nat → Prop} {x : M β} (hx : In cfg v P c g k Q x) (h : ∀ b k', Q b k' → R b k') :
    In cfg v P c g k R x := by
  intro s hs
  obtain ⟨h1, h2, h3⟩ := hx s hs
  refine ⟨h1, h2, ?_⟩
  revert h3
  cases (x s).1 with
  | ok b => exact fun ⟨k', h4, h5⟩ => ⟨k', h b k' h4, h5⟩
  | error e => exact id

theorem In.pure {Q : β → Nat → Prop} {b : β} (h : Q b k) : In cfg v P c g k Q (pure b : M β) :=
  fun _ hs => ⟨rfl, rfl, k, h, hs⟩

theorem In.fail {Q : β → Nat → Prop} {e : Fault} (h : ∀ w, e ≠ .throw w) : In cfg v P c g k Q (M.fail e : M β) :=
  fun _ _ => ⟨rfl, rfl, h⟩

theorem In.ub {Q : β → Nat → Prop} (w : String) : In cfg v P c g k Q (M.ub w : M β) := In.fail (by simp)

theorem In.bind {Q : β → Nat → Prop} {R : γ → Nat → Prop} {x : M β} {f : β → M γ} (hx : In cfg v P c g k Q x)
    (hf : ∀ b k', Q b k' → In cfg v P c g k' R (f b)) : In cfg v P c g k R (x >>= f) := by
  intro s hs
  rw [bind_apply]
  obtain ⟨h1, h2, h3⟩ := hx s hs
  rcases hx' : x s with ⟨r, s1⟩
  rw [hx'] at h1 h2 h3
  cases r with
  | error e => exact ⟨h1, h2, h3⟩
  | ok b =>
    obtain ⟨k', h4, h5⟩ := h3
    obtain ⟨g1, g2, g3⟩ := hf b k' h4 s1 h5
    exact ⟨g1.trans h1, g2.trans h2, g3⟩

theorem In.ite {Q : β → Nat → Prop} {p : Prop} [Decidable p] {x y : M β} (hx : p → In cfg v P c g k Q x)
    (hy : ¬ p → In cfg v P c g k Q y) : In cfg v P c g k Q (if p then x else y) := by
  split
  · next h => exact hx h
  · next h => exact hy h

theorem In.doIf {x : M Unit} {p : Bool} (hx : p = true → In cfg v P c g k (fun _ k' => k' = k) x) :
    In cfg v P c g k (fun _ k' => k' = k) (doIf p x) := by
  unfold Str.doIf
  exact In.ite hx fun _ => In.pure rfl

theorem In.noexcept {Q : β → Nat → Prop} {x : M β} (hx : In cfg v P c g k Q x) : In cfg v P c g k Q (noexcept x) := by
  intro s hs
  obtain ⟨h1, h2, h3⟩ := hx s hs
  rcases hx' : x s with ⟨r, s1⟩
  rw [hx'] at h1 h2 h3
  have : Str.noexcept x s = (r, s1) := by
    unfold Str.noexcept
    rw [hx']
    cases r with
    | ok b => rfl
    | error e =>
      cases e with
      | throw w => exact absurd rfl (h3 w)
      | _ => rfl
  rw [this]
  exact ⟨h1, h2, h3⟩

theorem In.noexceptIf {Q : β → Nat → Prop} {x : M β} (p : Bool) (hx : In cfg v P c g k Q x) : In cfg v P c g k Q (noexceptIf p x) := by
  unfold Str.noexceptIf
  exact In.ite (fun _ => hx.noexcept) fun _ => hx

/-- An action that reads only and does not throw. -/
structure Calm (x : M β) : Prop where
  still : Still x
  ok : ∀ s w, (x s).1 ≠ .error (.throw w)

theorem Calm.in {x : M β} (h : Calm x) : In cfg v P c g k (fun _ k' => k' = k) x := by
  intro s hs
  have h1 := h.still s
  have h2 := h.ok s
  rcases hx : x s with ⟨r, s1⟩
  rw [hx] at h1 h2
  cases h1
  refine ⟨rfl, rfl, ?_⟩
  cases r with
  | ok b => exact ⟨k, rfl, hs⟩
  | error e => exact fun w hw => h2 w (by rw [hw])

theorem Calm.pure (b : β) : Calm (pure b : M β) := ⟨Still.pure b, fun _ _ h => by cases h⟩

theorem Calm.fail {e : Fault} (h : ∀ w, e ≠ .throw w) : Calm (M.fail e : M β) :=
  ⟨Still.fail e, fun _ w h' => h w (by cases h'; rfl)⟩

theorem Calm.ub (w : String) : Calm (M.ub w : M β) := Calm.fail (by simp)

theorem Calm.bind {x : M β} {f : β → M γ} (hx : Calm x) (hf : ∀ b, Calm (f b)) : Calm (x >>= f) := by
  refine ⟨Still.bind hx.still fun b => (hf b).still, fun s w => ?_⟩
  rw [bind_apply]
  have h2 := hx.ok s w
  rcases hx' : x s with ⟨r, s1⟩
  rw [hx'] at h2
  cases r with
  | error e => exact fun h => h2 (by cases h; rfl)
  | ok b => exact (hf b).ok s1 w

theorem Calm.ite {p : Prop} [Decidable p] {x y : M β} (hx : Calm x) (hy : Calm y) : Calm (if p then x else y) := by
  split
  · exact hx
  · exact hy

theorem assert_calm (p : Bool) (msg : String) : Calm (assert cfg p msg) := by
  unfold assert
  exact Calm.ite (Calm.fail (by simp)) (Calm.pure _)

theorem readCells_calm (p : Ptr) (n : Nat) : Calm (readCells p n) := by
  refine ⟨readCells_still p n, fun s w => ?_⟩
  unfold readCells
  repeat' split
  all_goals simp

theorem room_calm (p : Ptr) : Calm (room p) := by
  refine ⟨fun s => ?_, fun s w => ?_⟩
  all_goals
    unfold room
    repeat' split
    all_goals simp

theorem getOb_calm (v : Obj) : Calm (getOb v) := by
  refine ⟨getOb_still v, fun s w => ?_⟩
  unfold getOb
  split <;> simp

theorem refs_calm (b : Nat) : Calm (refs b) := by
  refine ⟨refs_still b, fun s w => ?_⟩
  unfold refs
  split <;> simp

theorem size_calm (v : Obj) : Calm (size cfg v) := by
  unfold size
  refine Calm.bind (getOb_calm v) fun o => ?_
  split
  · exact Calm.pure _
  · exact Calm.ub _

theorem dataPtr_calm (v : Obj) : Calm (dataPtr v) := by
  unfold dataPtr
  exact Calm.bind (getOb_calm v) fun o => Calm.pure _

theorem capacity_calm (v : Obj) : Calm (capacity cfg v) := by
  unfold capacity
  refine Calm.bind (getOb_calm v) fun o => ?_
  split
  · exact Calm.pure _
  · exact Calm.pure _
  · exact Calm.bind (refs_calm _) fun r => Calm.ite (Calm.pure _) (Calm.pure _)

theorem sane_calm (v : Obj) : Calm (sane cfg v) := by
  unfold sane
  exact Calm.ite (Calm.bind (size_calm v) fun n => Calm.bind (capacity_calm v) fun c => Calm.bind (dataPtr_calm v) fun p =>
    Calm.bind (readCells_calm _ _) fun cs => assert_calm _ _) (Calm.pure _)

theorem In.checker {Q : β → Nat → Prop} {x : M β} (u : Obj) (hx : In cfg v P c g k Q x) : In cfg v P c g k Q (checker cfg u x) := by
  refine In.bind (sane_calm u).in fun _ k' hk => ?_
  subst hk
  intro s hs
  obtain ⟨h1, h2, h3⟩ := hx s hs
  rcases hx' : x s with ⟨r, s1⟩
  rw [hx'] at h1 h2 h3
  have hst := (sane_calm (cfg := cfg) u).still s1
  have hno := (sane_calm (cfg := cfg) u).ok s1
  rcases hs' : sane cfg u s1 with ⟨r', s2⟩
  rw [hs'] at hst hno
  have hst : s2 = s1 := hst
  subst hst
  unfold checking
  rw [hx']
  cases r with
  | ok b =>
    simp only [hs']
    cases r' with
    | ok _ => exact ⟨h1, h2, h3⟩
    | error e => exact ⟨h1, h2, fun w hw => hno w (by rw [hw])⟩
  | error e =>
    cases e with
    | throw w => exact absurd rfl (h3 w)
    | _ => exact ⟨h1, h2, h3⟩

/-! ### The string itself -/

theorem At.sizeM (hs : At cfg v P c g k s) : size cfg v s = (.ok k, s) := by
  obtain ⟨o, h1, h2, h3⟩ := hs.ob
  have hg : getOb v s = (.ok o, s) := by unfold getOb; rw [h1]
  unfold size
  rw [bind_ok hg]
  rcases o with ⟨core, al⟩
  cases core with
  | small cells => simp only [h3.2.2]; rfl
  | ml d n cap large => obtain ⟨_, rfl, _⟩ := h3; rfl

theorem size_in : In cfg v P c g k (fun n k' => n = k ∧ k' = k) (size cfg v) :=
  fun s hs => by rw [hs.sizeM]; exact ⟨rfl, rfl, k, ⟨rfl, rfl⟩, hs⟩

theorem At.capacityM (hs : At cfg v P c g k s) : capacity cfg v s = (.ok c, s) := by
  obtain ⟨o, h1, h2, h3⟩ := hs.ob
  have hg : getOb v s = (.ok o, s) := by unfold getOb; rw [h1]
  unfold capacity
  rw [bind_ok hg]
  rcases o with ⟨core, al⟩
  cases core with
  | small cells => obtain ⟨_, rfl, _⟩ := h3; rfl
  | ml d n cap large =>
    obtain ⟨rfl, rfl, rfl, h4⟩ := h3
    cases large with
    | false => rfl
    | true =>
      obtain ⟨src, cells, h5⟩ := h4
      have hr : refs d s = (.ok 1, s) := by unfold refs; rw [h5]; rfl
      show (refs d >>= _) s = _
      rw [bind_ok hr]; rfl

theorem capacity_in : In cfg v P c g k (fun n k' => n = c ∧ k' = k) (capacity cfg v) :=
  fun s hs => by rw [hs.capacityM]; exact ⟨rfl, rfl, k, ⟨rfl, rfl⟩, hs⟩

theorem At.dataPtrM (hs : At cfg v P c g k s) : dataPtr v s = (.ok P, s) := by
  obtain ⟨o, h1, h2, h3⟩ := hs.ob
  have hg : getOb v s = (.ok o, s) := by unfold getOb; rw [h1]
  unfold dataPtr
  rw [bind_ok hg, ← h2]; rfl

theorem dataPtr_in : In cfg v P c g k (fun p k' => p = P ∧ k' = k) (dataPtr v) :=
  fun s hs => by rw [hs.dataPtrM]; exact ⟨rfl, rfl, k, ⟨rfl, rfl⟩, hs⟩

/-- The core of the string, as it is. -/
theorem getOb_in {R : γ → Nat → Prop} {f : Ob → M γ}
    (h1 : cfg.sso = true → c = cfg.ms → P = .inl v 0 → ∀ cells al, In cfg v P c g k R (f ⟨.small cells, al⟩))
    (h2 : ∀ d al, P = .blk d 0 → In cfg v P c g k R (f ⟨.ml d k c g, al⟩)) : In cfg v P c g k R (getOb v >>= f) := by
  intro s hs
  obtain ⟨o, g1, g2, g3⟩ := hs.ob
  have hg : getOb v s = (.ok o, s) := by unfold getOb; rw [g1]
  rw [bind_ok hg]
  rcases o with ⟨core, al⟩
  cases core with
  | small cells => exact h1 g3.1 g3.2.1 g2.symm cells al s hs
  | ml d n cap large =>
    obtain ⟨rfl, rfl, rfl, _⟩ := g3
    exact h2 d al g2.symm s hs

/-- The count of the block of the string. -/
theorem refs_in {d : Nat} {R : γ → Nat → Prop} {f : Nat → M γ} (hP : P = .blk d 0) (h : In cfg v P c g k R (f 1)) :
    In cfg v P c g k R (refs d >>= f) := by
  intro s hs
  obtain ⟨o, g1, g2, g3⟩ := hs.ob
  rcases o with ⟨core, al⟩
  cases core with
  | small cells => rw [hP] at g2; cases g2
  | ml d' n cap large =>
    rw [hP] at g2; cases g2
    obtain ⟨rfl, rfl, rfl, g4⟩ := g3
    obtain ⟨src, cells, h5⟩ := g4
    cases large with
    | true =>
      have hr : refs d s = (.ok 1, s) := by unfold refs; rw [h5]; rfl
      rw [bind_ok hr]
      exact h s hs
    | false =>
      have hr : refs d s = (.error (.ub "reference count of a block that has none"), s) := by unfold refs; rw [h5]; rfl
      rw [bind_apply, hr]
      exact ⟨rfl, rfl, by simp⟩

/-! ### Writing -/

theorem At.off (h : At cfg v P c g k s) : P.off = 0 := by
  obtain ⟨o, _, h2, _⟩ := h.ob
  rw [← h2]
  cases o.core <;> rfl

theorem put_get {l cs : List Cell} {i j : Nat} (h : i + cs.length ≤ j) (hl : j ≤ l.length) : (put l i cs)[j]? = l[j]? := by
  unfold put
  have h1 : (l.take i ++ cs).length = i + cs.length := by simp; omega
  rw [List.getElem?_append_right (by omega), h1, List.getElem?_drop]
  congr 1; omega

/-- Writing characters: those of the string only where it has room. -/
theorem writeCells_in {q : Ptr} {cs : List Cell} (h : q.same P = true → q.off + cs.length ≤ c) :
    In cfg v P c g k (fun _ k' => k' = k) (writeCells q cs) := by
  intro s hs
  obtain ⟨o, g1, g2, g3⟩ := hs.ob
  unfold writeCells
  cases q with
  | ext m i => exact ⟨rfl, rfl, by simp⟩
  | blk b i =>
    simp only
    cases hb : s.heap b with
    | none => exact ⟨rfl, rfl, by simp⟩
    | some B =>
      simp only
      by_cases hi : i + cs.length ≤ B.cells.length
      · rw [if_pos hi]
        refine ⟨rfl, rfl, k, rfl, hs.fit, hs.big, o, g1, g2, ?_⟩
        rcases o with ⟨core, al⟩
        cases core with
        | small cells => exact g3
        | ml d n cap large =>
          obtain ⟨e1, e2, e4, src, cells, e3⟩ := g3
          refine ⟨e1, e2, e4, ?_⟩
          by_cases hd : d = b
          · subst hd
            rw [hb] at e3; cases e3
            exact ⟨src, _, by simp [upd]; rfl⟩
          · exact ⟨src, cells, by simp [upd, hd, e3]⟩
      · rw [if_neg hi]; exact ⟨rfl, rfl, by simp⟩
  | inl u i =>
    simp only
    split
    · next cells al hu =>
      by_cases hi : i + cs.length ≤ cells.length
      · rw [if_pos hi]
        by_cases huv : v = u
        · subst huv
          rw [hu] at g1; cases g1
          obtain ⟨e1, e2, e3⟩ := g3
          have hP : P = .inl v 0 := g2.symm
          have hle := h (by rw [hP]; simp [Ptr.same])
          have hle : i + cs.length ≤ cfg.ms := by rw [← e2]; exact hle
          refine ⟨rfl, rfl, k, rfl, hs.fit, hs.big, ⟨.small (put cells i cs), al⟩, by simp [upd], g2, e1, e2, ?_⟩
          have hms : cfg.ms < cells.length := by
            unfold Core.size? at e3
            simp only at e3
            by_contra hn
            rw [List.getElem?_eq_none (by omega)] at e3
            cases e3
          unfold Core.size? at e3 ⊢
          simp only at e3 ⊢
          rw [put_get hle (by omega)]
          exact e3
        · refine ⟨rfl, rfl, k, rfl, hs.fit, hs.big, o, ?_, g2, g3⟩
          simp [upd, huv, g1]
      · rw [if_neg hi]; exact ⟨rfl, rfl, by simp⟩
    · exact ⟨rfl, rfl, by simp⟩

theorem readCells_length {p : Ptr} {n : Nat} {s : St} {cs : List Cell} (h : (readCells p n s).1 = .ok cs) : cs.length = n := by
  unfold readCells at h
  repeat' split at h
  all_goals first
    | (cases h; simp; omega)
    | cases h

theorem readCells_in (p : Ptr) (n : Nat) : In cfg v P c g k (fun cs k' => cs.length = n ∧ k' = k) (readCells p n) := by
  intro s hs
  obtain ⟨h1, h2, h3⟩ := (readCells_calm p n).in (cfg := cfg) s hs
  refine ⟨h1, h2, ?_⟩
  have hl := @readCells_length p n s
  revert h3 hl
  cases (readCells p n s).1 with
  | ok cs => exact fun ⟨k', h4, h5⟩ hl => ⟨k', ⟨hl rfl, h4⟩, h5⟩
  | error e => exact fun h _ => h

theorem podFill_in {p : Ptr} {n : Nat} (ch : Ch) (h : p.same P = true → p.off + n ≤ c) :
    In cfg v P c g k (fun _ k' => k' = k) (podFill p n ch) := by
  refine In.bind (room_calm p).in fun r k' hk => ?_
  subst hk
  exact In.ite (fun _ => writeCells_in (by simpa using h)) fun _ => In.ub _

theorem podMove_in {p q : Ptr} {n : Nat} (h : q.same P = true → q.off + n ≤ c) :
    In cfg v P c g k (fun _ k' => k' = k) (podMove p n q) := by
  refine In.bind (readCells_in p n) fun cs k' hk => ?_
  obtain ⟨hl, rfl⟩ := hk
  exact writeCells_in (by rw [hl]; exact h)

theorem podCopy_in {p q : Ptr} {n : Nat} (h : q.same P = true → q.off + n ≤ c) :
    In cfg v P c g k (fun _ k' => k' = k) (podCopy cfg p n q) := by
  unfold podCopy
  refine In.ite (fun _ => In.ite (fun _ => In.fail (by simp)) fun _ => In.ub _) fun _ => podMove_in h

/-! ### Growing and shrinking in place -/

/-- The core with another length. -/
theorem setCore_in {d n : Nat} (hP : P = .blk d 0) (hn : n ≤ c) : In cfg v P c g k (fun _ k' => k' = n) (setCore v (.ml d n c g)) := by
  intro s hs
  obtain ⟨o, g1, g2, g3⟩ := hs.ob
  rcases o with ⟨core, al⟩
  cases core with
  | small cells => rw [hP] at g2; cases g2
  | ml d' n' cap large =>
    rw [hP] at g2; cases g2
    obtain ⟨rfl, rfl, rfl, g4⟩ := g3
    unfold setCore
    rw [g1]
    exact ⟨rfl, rfl, n, rfl, hn, hs.big, ⟨.ml d n c large, al⟩, by simp [upd], hP.symm, rfl, rfl, rfl, g4⟩

/-- The NUL after the last character. -/
theorem writeEnd_in {d i : Nat} (x : Cell) (hP : P = .blk d 0) : In cfg v P c g k (fun _ k' => k' = k) (writeCells (.blk d i) [x]) := by
  intro s hs
  obtain ⟨o, g1, g2, g3⟩ := hs.ob
  unfold writeCells
  simp only
  cases hb : s.heap d with
  | none => exact ⟨rfl, rfl, by simp⟩
  | some B =>
    simp only
    by_cases hi : i + [x].length ≤ B.cells.length
    · rw [if_pos hi]
      refine ⟨rfl, rfl, k, rfl, hs.fit, hs.big, o, g1, g2, ?_⟩
      rcases o with ⟨core, al⟩
      cases core with
      | small cells => rw [hP] at g2; cases g2
      | ml d' n cap large =>
        rw [hP] at g2; cases g2
        obtain ⟨e1, e2, e4, src, cells, e3⟩ := g3
        rw [hb] at e3; cases e3
        exact ⟨e1, e2, e4, src, _, by simp [upd]; rfl⟩
    · rw [if_neg hi]; exact ⟨rfl, rfl, by simp⟩

theorem set_get_same {l : List Cell} {i : Nat} {x : Cell} (h : i < l.length) : (l.set i x)[i]? = some x := by
  rw [List.getElem?_set_self h]

theorem setSmallSize_in {n : Nat} (hP : P = .inl v 0) : In cfg v P c g k (fun _ k' => k' = n) (setSmallSize cfg v n) := by
  refine In.bind (assert_calm _ _).in fun _ k' hk => ?_
  subst hk
  intro s hs
  obtain ⟨o, g1, g2, g3⟩ := hs.ob
  rcases o with ⟨core, al⟩
  cases core with
  | ml d' n' cap large => rw [hP] at g2; cases g2
  | small cells =>
    have hg : getOb v s = (.ok ⟨.small cells, al⟩, s) := by unfold getOb; rw [g1]
    rw [bind_ok hg]
    simp only
    obtain ⟨e1, e2, e3⟩ := g3
    have hms : cfg.ms < cells.length := by
      unfold Core.size? at e3
      simp only at e3
      by_contra hn
      rw [List.getElem?_eq_none (by omega)] at e3
      cases e3
    by_cases hn : n ≤ cfg.ms
    · rw [if_pos hn]
      unfold setCore
      rw [g1]
      refine ⟨rfl, rfl, n, rfl, by omega, hs.big,
        ⟨.small ((cells.set cfg.ms (some (cfg.ms - n))).set n (some 0)), al⟩, by simp [upd], hP.symm, e1, e2, ?_⟩
      unfold Core.size?
      simp only
      by_cases he : n = cfg.ms
      · subst he
        rw [List.getElem?_set_self (by simpa using hms)]
        simp
      · rw [List.getElem?_set_ne (by omega), List.getElem?_set_self hms]
        simp; omega
    · rw [if_neg hn]; exact ⟨rfl, rfl, by simp [M.ub, M.fail]⟩

theorem expandTail_in {old new : Nat} (hn : new ≤ c) (hs : ∀ v, P ≠ .inl v 0) :
    In cfg v P c g k (fun p k' => p = P.add old ∧ k' = new) (expandTail cfg v old new) := by
  refine In.bind capacity_in fun n k' hk => ?_
  obtain ⟨rfl, rfl⟩ := hk
  refine In.bind (assert_calm _ _).in fun _ k' hk => ?_
  subst hk
  refine getOb_in (fun _ _ h => absurd h (hs v)) fun d al hd => ?_
  refine In.bind (setCore_in hd hn) fun _ k' hk => ?_
  subst hk
  refine In.bind (writeEnd_in _ hd) fun _ k' hk => ?_
  subst hk
  refine In.pure ⟨?_, rfl⟩
  rw [hd]; simp [Ptr.add]

theorem At.fits (h : At cfg v P c g k s) : k ≤ c ∧ c < M64 := ⟨h.fit, h.big⟩

/-- What holds in every such state may be used. -/
theorem In.known {Q : β → Nat → Prop} {x : M β} (h : k ≤ c → c < M64 → In cfg v P c g k Q x) : In cfg v P c g k Q x :=
  fun s hs => h hs.fit hs.big s hs

theorem expandNoinit_in {delta : Nat} {exp : Bool} (hd : k + delta ≤ c) :
    In cfg v P c g k (fun p k' => p = P.add k ∧ k' = k + delta) (expandNoinit cfg v delta exp) := by
  refine In.known fun _ hbig => ?_
  refine In.bind capacity_in fun n k' hk => ?_
  obtain ⟨rfl, rfl⟩ := hk
  refine In.bind size_in fun n k' hk => ?_
  obtain ⟨rfl, rfl⟩ := hk
  refine In.bind (assert_calm _ _).in fun _ k' hk => ?_
  subst hk
  have ha : add64 k' delta = k' + delta := add64_of_lt (by omega)
  refine getOb_in (fun h1 h2 h3 cells al => ?_) fun d al h3 => ?_
  · simp only [ha]
    rw [if_pos (by simp [h1]; omega)]
    refine In.bind (setSmallSize_in h3) fun _ k'' hk => ?_
    subst hk
    exact In.pure ⟨by rw [h3]; simp [Ptr.add], rfl⟩
  · simp only [ha]
    refine In.bind (In.doIf fun h => ?_) fun _ k'' hk => ?_
    · simp at h; omega
    · subst hk
      exact expandTail_in hd (by rw [h3]; simp)

theorem shrink_in {delta : Nat} (hd : delta ≤ k) : In cfg v P c g k (fun _ k' => k' = k - delta) (shrink cfg v delta) := by
  refine In.known fun hfit hbig => ?_
  have hsub : sub64 k delta = k - delta := sub64_of_le hd (by omega)
  refine getOb_in (fun h1 h2 h3 cells al => ?_) fun d al h3 => ?_
  · refine In.bind size_in fun n k' hk => ?_
    obtain ⟨rfl, rfl⟩ := hk
    refine In.bind (assert_calm _ _).in fun _ k' hk => ?_
    subst hk
    rw [hsub]
    exact setSmallSize_in h3
  · have hsh : In cfg v P c g k (fun _ k' => k' = k - delta) (shrinkMedium cfg v d k c g delta) := by
      refine In.bind (assert_calm _ _).in fun _ k' hk => ?_
      subst hk
      rw [hsub]
      refine In.bind (setCore_in h3 (by omega)) fun _ k'' hk => ?_
      subst hk
      exact writeEnd_in _ h3
    cases g with
    | false => exact hsh
    | true =>
      refine refs_in h3 ?_
      exact hsh

theorem mutableData_in : In cfg v P c g k (fun p k' => p = P ∧ k' = k) (mutableData cfg v) := by
  refine In.noexceptIf _ ?_
  refine getOb_in (fun h1 h2 h3 cells al => dataPtr_in) fun d al h3 => ?_
  cases g with
  | false => exact dataPtr_in
  | true => exact refs_in h3 dataPtr_in

theorem begin_in : In cfg v P c g k (fun p k' => p = P ∧ k' = k) (begin_ cfg v) := mutableData_in.noexcept

/-! ### The members -/

theorem off_add (p : Ptr) (i : Nat) : (p.add i).off = p.off + i := by
  cases p <;> rfl

theorem In.zero {Q : β → Nat → Prop} {x : M β} (h : P.off = 0 → In cfg v P c g k Q x) : In cfg v P c g k Q x :=
  fun s hs => h hs.off s hs

theorem resize_in {n : Nat} (ch : Ch) (hn : n ≤ c) : In cfg v P c g k (fun _ k' => k' = n) (resize cfg v n ch) := by
  refine In.zero fun hP => In.checker v ?_
  refine In.bind size_in fun m k' hk => ?_
  obtain ⟨rfl, rfl⟩ := hk
  refine In.ite (fun h => (shrink_in (by omega)).weaken fun _ _ e => by omega) fun h => ?_
  refine In.bind (expandNoinit_in (by omega)) fun p k'' hk => ?_
  obtain ⟨rfl, rfl⟩ := hk
  refine (podFill_in ch fun _ => ?_).weaken fun _ _ e => by omega
  rw [off_add, hP]; omega

theorem appendCopy_in {p q r : Ptr} {n old : Nat} (h : r.off + n ≤ c) :
    In cfg v P c g k (fun _ k' => k' = k) (appendCopy cfg v p n q old r) := by
  unfold appendCopy
  refine In.ite (fun _ => ?_) fun _ => podCopy_in fun _ => h
  refine In.bind (assert_calm _ _).in fun _ k' hk => ?_
  subst hk
  refine In.bind dataPtr_in fun q' k' hk => ?_
  obtain ⟨rfl, rfl⟩ := hk
  exact podMove_in fun _ => h

theorem append_in {p : Ptr} {n : Nat} (hn : k + n ≤ c) : In cfg v P c g k (fun _ k' => k' = k + n) (append cfg v p n) := by
  refine In.zero fun hP => In.checker v ?_
  refine In.ite (fun h => In.pure (by omega)) fun h => ?_
  refine In.bind size_in fun m k' hk => ?_
  obtain ⟨rfl, rfl⟩ := hk
  refine In.bind dataPtr_in fun q k' hk => ?_
  obtain ⟨rfl, rfl⟩ := hk
  refine In.bind (expandNoinit_in hn) fun r k'' hk => ?_
  obtain ⟨rfl, rfl⟩ := hk
  refine In.bind (appendCopy_in (by rw [off_add, hP]; omega)) fun _ k'' hk => ?_
  subst hk
  refine In.bind size_in fun m k'' hk => ?_
  obtain ⟨rfl, rfl⟩ := hk
  exact (assert_calm _ _).in

theorem appendFill_in {n : Nat} (ch : Ch) (hn : k + n ≤ c) : In cfg v P c g k (fun _ k' => k' = k + n) (appendFill cfg v n ch) := by
  refine In.zero fun hP => In.checker v ?_
  refine In.bind (expandNoinit_in hn) fun r k'' hk => ?_
  obtain ⟨rfl, rfl⟩ := hk
  exact podFill_in ch fun _ => by rw [off_add, hP]; omega

theorem pushBack_in (ch : Ch) (hn : k + 1 ≤ c) : In cfg v P c g k (fun _ k' => k' = k + 1) (pushBack cfg v ch) := by
  refine In.zero fun hP => ?_
  refine In.bind (expandNoinit_in hn) fun r k'' hk => ?_
  obtain ⟨rfl, rfl⟩ := hk
  exact writeCells_in fun _ => by rw [off_add, hP]; simp; omega

theorem assign_in {p : Ptr} {n : Nat} (hn : n ≤ c) : In cfg v P c g k (fun _ k' => k' = n) (assign cfg v p n) := by
  refine In.zero fun hP => In.checker v ?_
  refine In.bind size_in fun m k' hk => ?_
  obtain ⟨rfl, rfl⟩ := hk
  refine In.bind (Q := fun _ k'' => k'' = n) ?_ fun _ k'' hk => ?_
  · unfold assignBy
    refine In.ite (fun h => (resize_in 0 (Nat.zero_le _)).weaken fun _ _ e => by omega) fun h => In.ite (fun h1 => ?_) fun h1 => ?_
    · refine In.bind mutableData_in fun q k'' hk => ?_
      obtain ⟨rfl, rfl⟩ := hk
      refine In.bind (podMove_in fun _ => by omega) fun _ k3 hk => ?_
      subst hk
      refine In.bind size_in fun m k3 hk => ?_
      obtain ⟨rfl, rfl⟩ := hk
      exact (shrink_in (by omega)).weaken fun _ _ e => by omega
    · refine In.bind (resize_in 0 (Nat.zero_le _)) fun _ k3 hk => ?_
      subst hk
      refine In.bind (expandNoinit_in (by omega)) fun q k3 hk => ?_
      obtain ⟨rfl, rfl⟩ := hk
      exact (podCopy_in fun _ => by rw [off_add, hP]; omega).weaken fun _ _ e => by omega
  · subst hk
    refine In.bind size_in fun m k3 hk => ?_
    obtain ⟨rfl, rfl⟩ := hk
    exact (assert_calm _ _).in

theorem At.isSharedM (hs : At cfg v P c g k s) : isShared v s = (.ok false, s) := by
  obtain ⟨o, h1, h2, h3⟩ := hs.ob
  have hg : getOb v s = (.ok o, s) := by unfold getOb; rw [h1]
  unfold isShared
  rw [bind_ok hg]
  rcases o with ⟨core, al⟩
  cases core with
  | small cells => rfl
  | ml d n cap large =>
    obtain ⟨rfl, rfl, rfl, src, cells, h5⟩ := h3
    cases large with
    | false => rfl
    | true =>
      have hr : refs d s = (.ok 1, s) := by unfold refs; rw [h5]; rfl
      show (refs d >>= _) s = _
      rw [bind_ok hr]; rfl

theorem isShared_in : In cfg v P c g k (fun b k' => b = false ∧ k' = k) (isShared v) :=
  fun s hs => by rw [hs.isSharedM]; exact ⟨rfl, rfl, k, ⟨rfl, rfl⟩, hs⟩

theorem setFront_in (ch : Ch) (hn : 1 ≤ c) : In cfg v P c g k (fun _ k' => k' = k) (setFront cfg v ch) := by
  refine In.zero fun hP => ?_
  refine In.bind begin_in fun p k' hk => ?_
  obtain ⟨rfl, rfl⟩ := hk
  exact writeCells_in fun _ => by simp; omega

theorem assignChar_in (ch : Ch) (hn : 1 ≤ c) : In cfg v P c g k (fun _ k' => k' = 1) (assignChar cfg v ch) := by
  refine In.checker v ?_
  refine In.bind size_in fun m k' hk => ?_
  obtain ⟨rfl, rfl⟩ := hk
  refine In.bind isShared_in fun m k'' hk => ?_
  obtain ⟨rfl, rfl⟩ := hk
  refine In.ite (fun h => ?_) fun h => ?_
  · refine In.bind (expandNoinit_in (by omega)) fun q k3 hk => ?_
    obtain ⟨rfl, rfl⟩ := hk
    exact (setFront_in ch hn).weaken fun _ _ e => by omega
  · refine In.ite (fun h => by cases h) fun _ => ?_
    refine In.bind (shrink_in (by omega)) fun _ k3 hk => ?_
    subst hk
    exact (setFront_in ch hn).weaken fun _ _ e => by omega

theorem popBack_in (hk : 1 ≤ k) : In cfg v P c g k (fun _ k' => k' = k - 1) (popBack cfg v) := by
  refine In.noexcept ?_
  refine In.bind size_in fun m k' hk => ?_
  obtain ⟨rfl, rfl⟩ := hk
  refine In.bind (assert_calm _ _).in fun _ k' hk => ?_
  subst hk
  exact shrink_in (by omega)

theorem setAt_in {i : Nat} (ch : Ch) (hi : i < c) : In cfg v P c g k (fun _ k' => k' = k) (setAt cfg v i ch) := by
  refine In.zero fun hP => ?_
  refine In.bind begin_in fun p k' hk => ?_
  obtain ⟨rfl, rfl⟩ := hk
  exact writeCells_in fun _ => by rw [off_add, hP]; simp; omega

theorem reserve_in {n : Nat} (hn : n ≤ c) : In cfg v P c g k (fun _ k' => k' = k) (reserve cfg v n) := by
  refine In.bind (Q := fun _ k' => k' = k) ?_ fun _ k' hk => ?_
  · refine getOb_in (fun h1 h2 h3 cells al => ?_) fun d al h3 => ?_
    · show In _ _ _ _ _ _ _ (reserveSmall cfg v n)
      refine In.bind (getOb_calm v).in fun o k' hk => ?_
      subst hk
      rw [if_pos (by simp [h1]; omega)]
      exact In.pure rfl
    · cases g with
      | false =>
        show In _ _ _ _ _ _ _ (reserveMedium cfg v n)
        refine getOb_in (fun _ _ h => by rw [h3] at h; cases h) fun d al h4 => ?_
        simp only
        rw [if_pos hn]
        exact In.pure rfl
      | true =>
        show In _ _ _ _ _ _ _ (reserveLarge cfg v n)
        refine getOb_in (fun _ _ h => by rw [h3] at h; cases h) fun d al h4 => ?_
        refine refs_in h4 ?_
        rw [if_neg (by omega), if_neg (by omega)]
        refine In.bind capacity_in fun m k' hk => ?_
        obtain ⟨rfl, rfl⟩ := hk
        exact (assert_calm _ _).in
  · subst hk
    refine In.bind capacity_in fun m k' hk => ?_
    obtain ⟨rfl, rfl⟩ := hk
    exact (assert_calm _ _).in

theorem posOf_in (i : Ptr) : In cfg v P c g k (fun pos k' => pos ≤ k ∧ k' = k) (posOf cfg v i) := by
  refine In.bind dataPtr_in fun p k' hk => ?_
  obtain ⟨rfl, rfl⟩ := hk
  refine In.bind size_in fun m k' hk => ?_
  obtain ⟨rfl, rfl⟩ := hk
  refine In.ite (fun h => In.pure ⟨?_, rfl⟩) fun _ => In.ite (fun _ => In.fail (by simp)) fun _ => In.ub _
  simp at h
  omega

theorem insertFillAt_in {i : Ptr} {n : Nat} (ch : Ch) (hn : k + n ≤ c) :
    In cfg v P c g k (fun _ k' => k' = k + n) (insertFillAt cfg v i n ch) := by
  refine In.zero fun hP => In.checker v ?_
  refine In.bind (posOf_in i) fun pos k' hk => ?_
  obtain ⟨hpos, rfl⟩ := hk
  refine In.bind size_in fun m k' hk => ?_
  obtain ⟨rfl, rfl⟩ := hk
  refine In.bind (expandNoinit_in hn) fun r k'' hk => ?_
  obtain ⟨-, rfl⟩ := hk
  refine In.bind begin_in fun b k'' hk => ?_
  obtain ⟨rfl, rfl⟩ := hk
  refine In.bind (podMove_in fun _ => by rw [off_add, hP]; omega) fun _ k'' hk => ?_
  subst hk
  exact podFill_in ch fun _ => by rw [off_add, hP]; omega

theorem insertRangeAt_in {i p : Ptr} {n : Nat} (hn : k + n ≤ c) :
    In cfg v P c g k (fun _ k' => k' = k + n) (insertRangeAt cfg v i p n) := by
  refine In.zero fun hP => In.checker v ?_
  refine In.bind (posOf_in i) fun pos k' hk => ?_
  obtain ⟨hpos, rfl⟩ := hk
  refine In.bind size_in fun m k' hk => ?_
  obtain ⟨rfl, rfl⟩ := hk
  refine In.bind (expandNoinit_in hn) fun r k'' hk => ?_
  obtain ⟨-, rfl⟩ := hk
  refine In.bind begin_in fun b k'' hk => ?_
  obtain ⟨rfl, rfl⟩ := hk
  refine In.bind (podMove_in fun _ => by rw [off_add, hP]; omega) fun _ k'' hk => ?_
  subst hk
  exact podMove_in fun _ => by rw [off_add, hP]; omega

theorem enforce_in {b : Bool} (h : b = true) : In cfg v P c g k (fun _ k' => k' = k) (enforce b) := by
  subst h
  exact In.pure rfl

theorem insertFill_in {pos n : Nat} (ch : Ch) (hp : pos ≤ k) (hn : k + n ≤ c) :
    In cfg v P c g k (fun _ k' => k' = k + n) (insertFill cfg v pos n ch) := by
  refine In.bind size_in fun m k' hk => ?_
  obtain ⟨rfl, rfl⟩ := hk
  refine In.bind (enforce_in (by simpa using hp)) fun _ k' hk => ?_
  subst hk
  refine In.bind begin_in fun b k'' hk => ?_
  obtain ⟨rfl, rfl⟩ := hk
  exact insertFillAt_in ch hn

theorem insert_in {p : Ptr} {pos n : Nat} (hp : pos ≤ k) (hn : k + n ≤ c) :
    In cfg v P c g k (fun _ k' => k' = k + n) (insert cfg v pos p n) := by
  refine In.bind size_in fun m k' hk => ?_
  obtain ⟨rfl, rfl⟩ := hk
  refine In.bind (enforce_in (by simpa using hp)) fun _ k' hk => ?_
  subst hk
  refine In.bind begin_in fun b k'' hk => ?_
  obtain ⟨rfl, rfl⟩ := hk
  exact insertRangeAt_in hn

theorem appendRange_in {p : Ptr} {n : Nat} (hn : k + n ≤ c) : In cfg v P c g k (fun _ k' => k' = k + n) (appendRange cfg v p n) := by
  refine In.bind begin_in fun b k'' hk => ?_
  obtain ⟨rfl, rfl⟩ := hk
  refine In.bind size_in fun m k' hk => ?_
  obtain ⟨rfl, rfl⟩ := hk
  exact insertRangeAt_in hn

theorem erase_in {pos n : Nat} (hp : pos ≤ k) : In cfg v P c g k (fun _ k' => k' = k - min n (k - pos)) (erase cfg v pos n) := by
  refine In.known fun hfit hbig => In.zero fun hP => In.checker v ?_
  refine In.bind size_in fun m k' hk => ?_
  obtain ⟨rfl, rfl⟩ := hk
  refine In.bind (enforce_in (by simpa using hp)) fun _ k' hk => ?_
  subst hk
  refine In.bind begin_in fun b k'' hk => ?_
  obtain ⟨rfl, rfl⟩ := hk
  refine In.bind (podMove_in fun _ => by rw [off_add, hP]; omega) fun _ k'' hk => ?_
  subst hk
  exact resize_in 0 (by omega)

theorem eraseAt_in {i : Ptr} {n : Nat} (hp : i.off ≤ k) :
    In cfg v P c g k (fun _ k' => k' = k - min n (k - i.off)) (eraseAt cfg v i n) := by
  refine In.zero fun hP => ?_
  refine In.bind begin_in fun b k'' hk => ?_
  obtain ⟨rfl, rfl⟩ := hk
  refine In.ite (fun _ => ?_) fun _ => In.ub _
  rw [hP, Nat.sub_zero]
  exact erase_in hp

theorem In.sane {Q : Unit → Nat → Prop} {x : M Unit} (hx : In cfg v P c g k Q x) (u : Obj) :
    In cfg v P c g k Q (x >>= fun _ => Str.sane cfg u) :=
  In.bind hx fun _ _ h => (sane_calm u).in.weaken fun _ _ e => by subst e; exact h

theorem replaceImpl_in {i1 p : Ptr} {pos n1 n2 : Nat} (hi : i1.off = pos) (hp : pos + n1 ≤ k) (hn : k - n1 + n2 ≤ c)
    (hout : p.same P = false) : In cfg v P c g k (fun _ k' => k' = k - n1 + n2) (replaceImpl cfg v i1 pos n1 p n2) := by
  refine In.known fun hfit hbig => In.checker v ?_
  refine In.bind begin_in fun b k'' hk => ?_
  obtain ⟨rfl, rfl⟩ := hk
  refine In.bind size_in fun m k' hk => ?_
  obtain ⟨rfl, rfl⟩ := hk
  refine In.ite (fun h => by simp [Ptr.within, hout] at h) fun _ => In.ite (fun h => ?_) fun h => ?_
  · refine In.bind (podMove_in fun _ => by omega) fun _ k'' hk => ?_
    subst hk
    refine In.sane ((eraseAt_in ?_).weaken fun _ _ e => ?_) v
    · rw [off_add]; omega
    · rw [off_add] at e; omega
  · refine In.bind (podMove_in fun _ => by omega) fun _ k'' hk => ?_
    subst hk
    exact In.sane ((insertRangeAt_in (by omega)).weaken fun _ _ e => by omega) v

theorem replaceCheck_in {i1 : Ptr} {n1 : Nat} : In cfg v P c g k (fun _ k' => k' = k) (replaceCheck cfg v i1 n1) := by
  unfold replaceCheck
  refine In.ite (fun _ => ?_) fun _ => In.pure rfl
  refine In.bind begin_in fun b k'' hk => ?_
  obtain ⟨rfl, rfl⟩ := hk
  refine In.bind size_in fun m k' hk => ?_
  obtain ⟨rfl, rfl⟩ := hk
  exact (assert_calm _ _).in

theorem replace_in {p : Ptr} {pos n1 n2 : Nat} (hp : pos ≤ k) (hn : k - min n1 (k - pos) + n2 ≤ c) (hout : p.same P = false) :
    In cfg v P c g k (fun _ k' => k' = k - min n1 (k - pos) + n2) (replace cfg v pos n1 p n2) := by
  refine In.zero fun hP => In.checker v ?_
  refine In.bind size_in fun m k' hk => ?_
  obtain ⟨rfl, rfl⟩ := hk
  refine In.bind (enforce_in (by simpa using hp)) fun _ k' hk => ?_
  subst hk
  refine In.bind begin_in fun b k'' hk => ?_
  obtain ⟨rfl, rfl⟩ := hk
  refine In.bind replaceCheck_in fun _ k'' hk => ?_
  subst hk
  exact replaceImpl_in (by rw [off_add, hP]; omega) (by omega) hn hout

theorem replaceFillAt_in {i1 : Ptr} {n1 n2 : Nat} (ch : Ch) (hp : i1.off + n1 ≤ k) (hn : k - n1 + n2 ≤ c) :
    In cfg v P c g k (fun _ k' => k' = k - n1 + n2) (replaceFillAt cfg v i1 n1 n2 ch) := by
  refine In.known fun hfit hbig => In.ite (fun h => ?_) fun h => ?_
  · refine In.bind (podFill_in ch fun _ => by omega) fun _ k'' hk => ?_
    subst hk
    refine In.sane ((eraseAt_in ?_).weaken fun _ _ e => ?_) v
    · rw [off_add]; omega
    · rw [off_add] at e; omega
  · refine In.bind (podFill_in ch fun _ => by omega) fun _ k'' hk => ?_
    subst hk
    exact In.sane ((insertFillAt_in ch (by omega)).weaken fun _ _ e => by omega) v

theorem replaceFill_in {pos n1 n2 : Nat} (ch : Ch) (hp : pos ≤ k) (hn : k - min n1 (k - pos) + n2 ≤ c) :
    In cfg v P c g k (fun _ k' => k' = k - min n1 (k - pos) + n2) (replaceFill cfg v pos n1 n2 ch) := by
  refine In.zero fun hP => In.checker v ?_
  refine In.bind size_in fun m k' hk => ?_
  obtain ⟨rfl, rfl⟩ := hk
  refine In.bind (enforce_in (by simpa using hp)) fun _ k' hk => ?_
  subst hk
  refine In.bind begin_in fun b k'' hk => ?_
  obtain ⟨rfl, rfl⟩ := hk
  exact replaceFillAt_in ch (by rw [off_add, hP]; omega) hn

theorem assignFill_in {n : Nat} (ch : Ch) (hn : n ≤ c) : In cfg v P c g k (fun _ k' => k' = n) (assignFill cfg v n ch) := by
  refine In.zero fun hP => ?_
  refine In.bind begin_in fun b k'' hk => ?_
  obtain ⟨rfl, rfl⟩ := hk
  refine In.bind size_in fun m k' hk => ?_
  obtain ⟨rfl, rfl⟩ := hk
  exact (replaceFillAt_in ch (by omega) (by omega)).weaken fun _ _ e => by omega

end Verif.Str
