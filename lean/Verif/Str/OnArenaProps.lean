import Verif.Str.OnArena

/-!
C139: strings and everything else on one arena do not get in each other's way.
-/

namespace Verif.Str

open M
open Arena (Region Hist)

variable {cfg : Cfg} {acfg : Arena.Cfg} {A al : Nat} {h h' : Hist} {st st' : Arena.St} {t t' : Pieces} {a a' : Abs} {s s' : St}

/-- The characters of the string `v` are in memory of the allocator `al`. -/
def InArena (al : Nat) (s : St) (v : Nat) : Prop :=
  ∃ b B, dataPtr (.user v) s = (.ok (.blk b 0), s) ∧ s.heap b = some B ∧ B.src = al

/-- The byte with the address `x` belongs to the element number `i` of the string `v`: the characters of a block come after its
reference count, if it has one. -/
def ByteOf (cfg : Cfg) (t : Pieces) (s : St) (v i x : Nat) : Prop :=
  ∃ b B r, dataPtr (.user v) s = (.ok (.blk b 0), s) ∧ s.heap b = some B ∧ (.string b, r) ∈ t ∧
    r.start + hdrBytes B.rc.isSome + i * cfg.w ≤ x ∧ x < r.start + hdrBytes B.rc.isSome + (i + 1) * cfg.w

theorem pieces_apart (hA : 8 ∣ A) (hg : Arena.GoodCfg acfg) (hs : Arena.Sane A acfg) (i : OnInv cfg acfg A al h st t a s)
    {p q : Who × Region} {x : Nat} (hp : p ∈ t) (hq : q ∈ t) (h1 : p.2.Mem x) (h2 : q.2.Mem x) : p = q := by
  have hd := Arena.c06_disjoint hA hg hs i.exec
  rw [← i.live, List.pairwise_map] at hd
  by_contra hne
  have : Std.Symm fun a b : Who × Region => a.2.Disjoint b.2 := ⟨fun a b hab x hx => hab x ⟨hx.2, hx.1⟩⟩
  exact (hd.forall hp hq hne) x ⟨h1, h2⟩

theorem view_block (hr : Rel cfg a s) {v b : Nat} (hd : dataPtr (.user v) s = (.ok (.blk b 0), s)) :
    ∃ B n cap large al', s.vars (.user v) = some ⟨.ml b n cap large, al'⟩ ∧ s.heap b = some B ∧ B.cells.length = cap + 1 ∧
      ∃ k, capacity cfg (.user v) s = (.ok k, s) ∧ n ≤ k ∧ k ≤ cap := by
  cases ho : s.vars (.user v) with
  | none =>
    have : getOb (.user v) s = (.error (.ub "use of a dead string"), s) := by unfold getOb; rw [ho]
    unfold dataPtr at hd
    rw [bind_apply, this] at hd
    cases hd
  | some ob =>
    obtain ⟨l, n, hh, _⟩ := hr.inv.view ho
    rw [hh.dataM] at hd
    obtain ⟨c, h1, h2, h3, _⟩ := hh.capM hr.inv
    have hc := hr.inv.core _ _ ho
    have hsz := hh.size
    obtain ⟨core, al'⟩ := ob
    cases core with
    | small l => cases hd
    | ml d m cap large =>
      cases hd
      cases hsz
      obtain ⟨B, hB, hl, _⟩ := hc
      exact ⟨B, _, cap, large, al', rfl, hB, hl, c, h1, h2, h3⟩

/-- C139: every string reads as it should; if its characters are in the arena, they are in a piece the arena gave out for it, which
has room for `capacity()` characters and the terminator, begins at a multiple of 8 and lies in a block the arena holds. -/
theorem arena_strings_placed (hA : 8 ∣ A) (hg : Arena.GoodCfg acfg) (hs : Arena.Sane A acfg) (hc : cfg.Ok)
    (o : OnArena cfg acfg A al h st t a s) :
    (∀ v xs, a v = some xs → contents cfg v s = (.ok xs, s)) ∧
    ∀ v, InArena al s v → ∃ b B r k, dataPtr (.user v) s = (.ok (.blk b 0), s) ∧ s.heap b = some B ∧ (.string b, r) ∈ t ∧
      capacity cfg (.user v) s = (.ok k, s) ∧ hdrBytes B.rc.isSome + (k + 1) * cfg.w ≤ r.len ∧ 8 ∣ r.start ∧
      ∃ m ∈ Arena.held st.trace, Region.Within r m := by
  have i := onArena_inv hc o
  refine ⟨fun v xs hv => contents_ok i.rel.inv (i.rel.held v xs hv), ?_⟩
  rintro v ⟨b, B, hd, hB, hsrc⟩
  obtain ⟨B', n, cap, large, al', _, hB', hl, k, hk, _, hle⟩ := view_block i.rel hd
  rw [hB] at hB'; cases hB'
  obtain ⟨p, hp⟩ := i.placed b B hB hsrc
  refine ⟨b, B, _, k, hd, hB, hp, hk, ?_, ?_, ?_⟩
  · have hw : 1 ≤ cfg.w := by rcases hc.w with e | e | e <;> omega
    have h1 : (k + 1) * cfg.w ≤ B.cells.length * cfg.w := Nat.mul_le_mul_right _ (by omega)
    have h2 : B.bytes cfg.w ≤ B.bytes cfg.w * cfg.w := Nat.le_mul_of_pos_right _ hw
    simp only [Blk.bytes] at h2 ⊢
    omega
  · have := Arena.c04_aligned hA hg hs i.exec _ (i.aligned b _ hp)
    simp only [Arena.AlignedRet] at this
    have e : max 8 cfg.w = 8 := by rcases hc.w with e | e | e <;> rw [e] <;> rfl
    rw [e] at this
    exact this
  · refine Arena.c05_in_bounds hA hg hs i.exec _ ?_
    rw [← i.live]
    exact List.mem_map_of_mem hp

/-- C139: the bytes of a string in the arena, up to its capacity, belong to no piece given to the program, to no string with another
buffer, and `check` finds them in use (so they are not the arena's own). -/
theorem arena_strings_apart (hA : 8 ∣ A) (hg : Arena.GoodCfg acfg) (hs : Arena.Sane A acfg) (hc : cfg.Ok)
    (o : OnArena cfg acfg A al h st t a s) {v k i x : Nat} (hv : InArena al s v) (hk : capacity cfg (.user v) s = (.ok k, s))
    (hi : i ≤ k) (hx : ByteOf cfg t s v i x) :
    (∀ q, (.program, q) ∈ t → ¬ q.Mem x) ∧
    (∀ u k' j, InArena al s u → capacity cfg (.user u) s = (.ok k', s) → j ≤ k' → ByteOf cfg t s u j x →
      dataPtr (.user u) s = dataPtr (.user v) s ∧ j = i) ∧
    Arena.check st.blocks x = .blockUsed := by
  have inv := onArena_inv hc o
  have hw : 1 ≤ cfg.w := by rcases hc.w with e | e | e <;> omega
  -- the piece the byte is in
  have piece : ∀ {v k i}, InArena al s v → capacity cfg (.user v) s = (.ok k, s) → i ≤ k → ByteOf cfg t s v i x →
      ∃ b B r, dataPtr (.user v) s = (.ok (.blk b 0), s) ∧ s.heap b = some B ∧ (.string b, r) ∈ t ∧ r.Mem x ∧
        r.start + hdrBytes B.rc.isSome + i * cfg.w ≤ x ∧ x < r.start + hdrBytes B.rc.isSome + (i + 1) * cfg.w := by
    intro v k i hv hk hi hx
    obtain ⟨b, B, r, hd, hB, hr, h1, h2⟩ := hx
    refine ⟨b, B, r, hd, hB, hr, ⟨by omega, ?_⟩, h1, h2⟩
    obtain ⟨B', n, cap, large, al', _, hB', hl, k', hk', _, hle⟩ := view_block inv.rel hd
    rw [hB] at hB'; cases hB'
    rw [hk] at hk'; cases hk'
    have hlen := inv.sized b r B hr hB
    have h3 : (i + 1) * cfg.w ≤ B.cells.length * cfg.w := Nat.mul_le_mul_right _ (by omega)
    have h4 : B.bytes cfg.w ≤ B.bytes cfg.w * cfg.w := Nat.le_mul_of_pos_right _ hw
    rw [hlen]
    simp only [Blk.bytes] at h4 ⊢
    omega
  obtain ⟨b, B, r, hd, hB, hr, hm, h1, h2⟩ := piece hv hk hi hx
  refine ⟨fun q hq hqx => ?_, fun u k' j hu hk' hj hux => ?_, ?_⟩
  · have := pieces_apart hA hg hs inv hr hq hm hqx
    cases this
  · obtain ⟨b', B', r', hd', hB', hr', hm', h1', h2'⟩ := piece hu hk' hj hux
    have := pieces_apart hA hg hs inv hr hr' hm hm'
    cases this
    rw [hB] at hB'; cases hB'
    refine ⟨by rw [hd, hd'], ?_⟩
    rcases Nat.lt_trichotomy i j with h3 | h3 | h3
    · have := Nat.mul_le_mul_right cfg.w (show i + 1 ≤ j from h3); omega
    · exact h3.symm
    · have := Nat.mul_le_mul_right cfg.w (show j + 1 ≤ i from h3); omega
  · refine (Arena.c07_bookkeeping hA hg hs inv.exec).2 r ?_ x hm
    rw [← inv.live]
    exact List.mem_map_of_mem (f := Prod.snd) hr

/-! ### A concrete session -/

namespace Sample

/-- A call of the arena or of a string. -/
inductive Act where
  | arena (op : Arena.Op)
  | string (op : Op)

/-- What has happened so far. -/
structure Mix where
  h : Hist
  st : Arena.St
  t : Pieces
  a : Abs
  s : St

/-- Let the arena give out blocks, checking its contract. -/
def serve (acfg : Arena.Cfg) (A w : Nat) (h : Hist) (st : Arena.St) (t : Pieces) : List (Nat × Nat) → Option (Hist × Arena.St × Pieces)
  | [] => some (h, st, t)
  | (b, n) :: bs =>
    if Arena.Contract A h (.pmrAllocate (n * w) w) then
      match Arena.step acfg st (.pmrAllocate (n * w) w) with
      | .ok (.ptr (some p), st1) =>
        serve acfg A w (h ++ [(.pmrAllocate (n * w) w, .ptr (some p))]) st1 ((.string b, ⟨p, n * w⟩) :: t) bs
      | _ => none
    else none

theorem serve_ok {w : Nat} : ∀ {bs : List (Nat × Nat)} {h h' : Hist} {st st' : Arena.St} {t t' : Pieces},
    serve acfg A w h st t bs = some (h', st', t') → Serve acfg A w h st t bs h' st' t'
  | [], _, _, _, _, _, _, e => by cases e; exact .nil
  | (b, n) :: bs, h, h', st, st', t, t', e => by
    simp only [serve] at e
    split at e
    · next hk =>
      split at e
      · next hp => exact .cons hk hp (serve_ok e)
      · cases e
    · cases e

/-- Calls of the arena that only ask for memory. -/
def asks : Arena.Op → Bool
  | .allocate .. | .create .. | .createArray .. | .pmrAllocate .. => true
  | _ => false

/-- One call without failures. -/
def play1 (cfg : Cfg) (acfg : Arena.Cfg) (A al : Nat) (m : Mix) : Act → Option Mix
  | .arena op =>
    if Arena.Contract A m.h op ∧ asks op = true then
      match Arena.step acfg m.st op with
      | .ok (r, st') => some ⟨m.h ++ [(op, r)], st', (Arena.regionsOf (op, r)).map (fun x => (.program, x)) ++ m.t, m.a, m.s⟩
      | .error _ => none
    else none
  | .string op =>
    match op.spec cfg.arena m.a, op.run cfg m.s with
    | some (.done a'), (.ok (), s') =>
      match serve acfg A cfg.w m.h m.st m.t (newBlocks cfg.w al m.s.next s'.next s') with
      | some (h', st', t') => some ⟨h', st', t', a', s'⟩
      | none => none
    | _, _ => none

/-- Calls without failures. -/
def play (cfg : Cfg) (acfg : Arena.Cfg) (A al : Nat) : List Act → Mix → Option Mix
  | [], m => some m
  | x :: xs, m => (play1 cfg acfg A al m x).bind (play cfg acfg A al xs)

/-- The states of the model, for a `Mix`. -/
abbrev Mix.Ok (cfg : Cfg) (acfg : Arena.Cfg) (A al : Nat) (m : Mix) : Prop := OnArena cfg acfg A al m.h m.st m.t m.a m.s

theorem play1_ok {m m' : Mix} {x : Act} (hm : m.Ok cfg acfg A al) (e : play1 cfg acfg A al m x = some m') : m'.Ok cfg acfg A al := by
  cases x with
  | arena op =>
    simp only [play1] at e
    split at e
    · next hk =>
      split at e
      · next hp =>
        cases e
        have h1 : mine m.t op := by cases op <;> first | trivial | cases hk.2
        exact hm.call hk.1 h1 (by rintro rfl; cases hk.2) hp
      · cases e
    · cases e
  | string op =>
    simp only [play1] at e
    split at e
    · next ho hr =>
      split at e
      · next hs => cases e; exact hm.string (.done ho hr) (serve_ok hs)
      · cases e
    · cases e

theorem play_ok : ∀ {xs : List Act} {m m' : Mix}, m.Ok cfg acfg A al → play cfg acfg A al xs m = some m' → m'.Ok cfg acfg A al
  | [], _, _, hm, e => by cases e; exact hm
  | x :: xs, m, m', hm, e => by
    simp only [play] at e
    cases h1 : play1 cfg acfg A al m x with
    | none => rw [h1] at e; cases e
    | some m1 => rw [h1] at e; exact play_ok (play1_ok hm h1) e

/-- Before anything. -/
def none' : Mix := ⟨[], Arena.mkArena none, [], fun _ => none, St.init⟩

/-- An arena with objects, medium and large strings, a copy that shares, and growth. -/
def session : List Act :=
  [.arena (.create 24 none), .string (.makeFill 0 1 100 97), .arena (.allocate 10 32), .string (.makeFill 1 1 300 98), .string (.copy 2 1),
   .string (.append 0 (.lit [1, 2, 3])), .arena (.createArray 4 5), .string (.make 3 1 (.lit [7])), .string (.append 0 (.sub 1 0 300))]

/-- The session and a fact about the end of it. -/
theorem session_such {P : Mix → Prop} [DecidablePred P]
    (e : (play (arenaCfg true) Arena.sampleCfg 32 1 session none').map (fun m => decide (P m)) = some true) :
    ∃ m, m.Ok (arenaCfg true) Arena.sampleCfg 32 1 ∧ P m := by
  cases hx : play (arenaCfg true) Arena.sampleCfg 32 1 session none' with
  | none => rw [hx] at e; cases e
  | some m =>
    rw [hx] at e
    exact ⟨m, play_ok (OnArena.start none) hx, by simpa using e⟩

end Sample

/-- Two strings that share a buffer, one on its own, one small, and an object behind the second. -/
example : ∃ m : Sample.Mix, m.Ok (arenaCfg true) Arena.sampleCfg 32 1 ∧
    InArena 1 m.s 0 ∧ capacity (arenaCfg true) (.user 0) m.s = (.ok 403, m.s) ∧ ByteOf (arenaCfg true) m.t m.s 0 403 1107 ∧
    (.program, ⟨672, 20⟩) ∈ m.t ∧ InArena 1 m.s 1 ∧ InArena 1 m.s 2 ∧ dataPtr (.user 1) m.s = dataPtr (.user 2) m.s ∧ ¬ InArena 1 m.s 3 := by
  obtain ⟨m, hm, h1, h2, h3, h4, h5, h6, h7, h8⟩ := Sample.session_such (P := fun m =>
    (m.s.vars (.user 0)) = some ⟨.ml 3 403 403 true, 1⟩ ∧ (m.s.vars (.user 1)) = some ⟨.ml 1 300 300 true, 1⟩ ∧
    (m.s.vars (.user 2)) = some ⟨.ml 1 300 300 true, 1⟩ ∧ (m.s.heap 3).map (fun B => (B.rc, B.src)) = some (some 1, 1) ∧
    (m.s.heap 1).map (fun B => (B.rc, B.src)) = some (some 2, 1) ∧ ((m.s.vars (.user 3)).bind fun o => o.core.blk?) = none ∧
    (Who.program, (⟨672, 20⟩ : Region)) ∈ m.t ∧ (Who.string 3, (⟨696, 412⟩ : Region)) ∈ m.t) (by decide +kernel)
  obtain ⟨⟨r3, s3, c3⟩, e3, f3⟩ := Option.map_eq_some_iff.1 h4
  obtain ⟨⟨r1, s1, c1⟩, e1, f1⟩ := Option.map_eq_some_iff.1 h5
  cases f3; cases f1
  have d : ∀ {v ob}, m.s.vars (.user v) = some ob → dataPtr (.user v) m.s = (.ok (ob.core.ptr (.user v)), m.s) := by
    intro v ob ho
    unfold dataPtr
    rw [bind_ok (getOb_ok ho)]; rfl
  refine ⟨m, hm, ⟨3, _, d h1, e3, rfl⟩, ?_, ⟨3, _, _, d h1, e3, h8, show 696 + 8 + 403 * 1 ≤ 1107 by decide, show 1107 < 696 + 8 + 404 * 1 by decide⟩, h7, ⟨1, _, d h2, e1, rfl⟩,
    ⟨1, _, d h3, e1, rfl⟩, by rw [d h2, d h3]; rfl, ?_⟩
  · unfold capacity
    rw [bind_ok (getOb_ok h1)]
    have : refs 3 m.s = (.ok 1, m.s) := by unfold refs; rw [e3]
    simp only
    rw [bind_ok this]; rfl
  · rintro ⟨b, B, hb, _⟩
    cases ho : m.s.vars (.user 3) with
    | none =>
      have : getOb (.user 3) m.s = (.error (.ub "use of a dead string"), m.s) := by unfold getOb; rw [ho]
      unfold dataPtr at hb
      rw [bind_apply, this] at hb
      cases hb
    | some ob =>
      rw [d ho] at hb
      rw [ho] at h6
      obtain ⟨core, al⟩ := ob
      cases core with
      | small l => cases hb
      | ml => cases h6

/-- `Reset` while a string that needs no memory of the arena is alive. -/
example : ∃ m : Sample.Mix, m.Ok (arenaCfg true) Arena.sampleCfg 32 1 ∧ (m.a 0).isSome ∧ m.t = [] ∧ m.h.length = 2 := by
  cases hx : Sample.play (arenaCfg true) Arena.sampleCfg 32 1
      [.string (.makeFill 0 1 3 97), .arena (.create 24 none)] Sample.none' with
  | none =>
    have : (Sample.play (arenaCfg true) Arena.sampleCfg 32 1
      [.string (.makeFill 0 1 3 97), .arena (.create 24 none)] Sample.none').isSome = true := by decide +kernel
    rw [hx] at this; cases this
  | some m =>
    have hm := Sample.play_ok (OnArena.start none) hx
    have h1 : (Sample.play (arenaCfg true) Arena.sampleCfg 32 1
        [.string (.makeFill 0 1 3 97), .arena (.create 24 none)] Sample.none').map (fun m =>
        decide (m.h = [(.create 24 none, .ptr (some 64))] ∧ (m.a 0).isSome = true ∧ m.s.next = 0)) = some true := by decide +kernel
    rw [hx] at h1
    simp only [Option.map_some, Option.some.injEq, decide_eq_true_eq] at h1
    obtain ⟨h1, h2, h3⟩ := h1
    have hk : Arena.Contract 32 m.h .reset := ⟨_, by rw [h1]; exact List.mem_cons_self, rfl⟩
    have i := onArena_inv (arenaCfg_ok true) hm
    obtain ⟨n, st', hr⟩ := (Arena.c27_defined (by decide) Arena.sample_good Arena.sample_sane i.exec hk).2
    refine ⟨⟨_, st', [], m.a, _⟩, OnArena.reset (r := .num n) (st' := st') hm hk (fun v b _ B hB => ?_) ?_, h2, rfl, ?_⟩
    · rw [i.rel.inv.fresh b (by omega)] at hB; cases hB
    · simp only [Arena.step]; rw [hr]; rfl
    · simp [h1]

end Verif.Str
