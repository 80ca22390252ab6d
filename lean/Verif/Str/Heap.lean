import Verif.Str.Strings
import Mathlib.Data.List.Nodup

/-!
The invariant of the string heap and the elementary changes of state that keep it.
-/

namespace Verif.Str

open M

variable {β γ : Type} {cfg : Cfg} {s s' : St} {v u t : Obj}

/-! ### Updates -/

section
variable {κ ν : Type} [DecidableEq κ]

@[simp] theorem upd_same (h : κ → ν) (k : κ) (x : ν) : upd h k x k = x := if_pos rfl

theorem upd_other (h : κ → ν) {k i : κ} (x : ν) (hi : i ≠ k) : upd h k x i = h i := if_neg hi

@[simp] theorem upd_upd (h : κ → ν) (k : κ) (x y : ν) : upd (upd h k x) k y = upd h k y := by
  funext i; unfold upd; split <;> rfl

theorem upd_comm (h : κ → ν) {k k' : κ} (hk : k ≠ k') (x y : ν) :
    upd (upd h k x) k' y = upd (upd h k' y) k x := by
  funext i; unfold upd
  by_cases h1 : i = k'
  · subst h1; rw [if_pos rfl, if_neg (fun e => hk e.symm), if_pos rfl]
  · rw [if_neg h1, if_neg h1]

theorem upd_self {h : κ → ν} {k : κ} {x : ν} (e : h k = x) : upd h k x = h := by
  funext i; unfold upd; split
  · subst_vars; rfl
  · rfl
end

/-! ### Overwriting -/

@[simp] theorem put_length {l : List Cell} {i : Nat} {cs : List Cell} (h : i + cs.length ≤ l.length) :
    (put l i cs).length = l.length := by
  unfold put; simp; omega

theorem put_getElem? {l : List Cell} {i : Nat} {cs : List Cell} (h : i + cs.length ≤ l.length) (j : Nat) :
    (put l i cs)[j]? = if j < i then l[j]? else if j < i + cs.length then cs[j - i]? else l[j]? := by
  unfold put
  have h1 : (l.take i).length = i := by simp; omega
  split
  · next hj => rw [List.getElem?_append_left (by simp; omega), List.getElem?_append_left (by omega),
      List.getElem?_take_of_lt hj]
  · next hj =>
    split
    · next hj2 => rw [List.getElem?_append_left (by simp; omega), List.getElem?_append_right (by omega), h1]
    · next hj2 =>
      rw [List.getElem?_append_right (by simp; omega), List.getElem?_drop]
      congr 1; simp; omega

theorem put_take {l : List Cell} {i n : Nat} {cs : List Cell} (h : i + cs.length ≤ n) (hn : n ≤ l.length) :
    (put l i cs).take n = put (l.take n) i cs := by
  apply List.ext_getElem?
  intro j
  rw [put_getElem? (by simp; omega)]
  by_cases hj : j < n
  · rw [List.getElem?_take_of_lt hj, put_getElem? (by omega), List.getElem?_take_of_lt hj]
  · rw [List.getElem?_take_eq_none (by omega), if_neg (by omega), if_neg (by omega),
      List.getElem?_take_eq_none (by omega)]

/-! ### Triples -/

/-- `x` run from `s` returns with `Q` or faults with `E`. -/
def Tri (x : M β) (s : St) (Q : β → St → Prop) (E : Fault → St → Prop) : Prop :=
  match x s with
  | (.ok r, s') => Q r s'
  | (.error e, s') => E e s'

theorem Tri.of_ok {x : M β} {b : β} {Q : β → St → Prop} {E : Fault → St → Prop} (h : x s = (.ok b, s')) (hq : Q b s') :
    Tri x s Q E := by unfold Tri; rw [h]; exact hq

theorem Tri.of_err {x : M β} {e : Fault} {Q : β → St → Prop} {E : Fault → St → Prop} (h : x s = (.error e, s'))
    (hq : E e s') : Tri x s Q E := by unfold Tri; rw [h]; exact hq

theorem Tri.mono {x : M β} {Q R : β → St → Prop} {E F : Fault → St → Prop} (h : Tri x s Q E)
    (hq : ∀ b s', Q b s' → R b s') (he : ∀ e s', E e s' → F e s') : Tri x s R F := by
  unfold Tri at *
  generalize x s = r at h ⊢
  obtain ⟨r, s'⟩ := r
  cases r with
  | ok b => exact hq b s' h
  | error e => exact he e s' h

theorem bind_apply (x : M β) (f : β → M γ) (s : St) :
    (x >>= f) s = match x s with
      | (.ok b, s') => f b s'
      | (.error e, s') => (.error e, s') := rfl

theorem bind_ok {x : M β} {f : β → M γ} {b : β} (h : x s = (.ok b, s')) : (x >>= f) s = f b s' := by
  rw [bind_apply, h]

@[simp] theorem pure_apply (b : β) (s : St) : (pure b : M β) s = (.ok b, s) := rfl

theorem Tri.bind {x : M β} {f : β → M γ} {R : β → St → Prop} {Q : γ → St → Prop} {E : Fault → St → Prop}
    (h : Tri x s R E) (hf : ∀ b s', R b s' → Tri (f b) s' Q E) : Tri (x >>= f) s Q E := by
  unfold Tri at h ⊢
  rw [bind_apply]
  generalize x s = r at h ⊢
  obtain ⟨r, s'⟩ := r
  cases r with
  | ok b => exact hf b s' h
  | error e => exact h

theorem Tri.step {x : M β} {f : β → M γ} {Q : γ → St → Prop} {E : Fault → St → Prop} {b : β} (h : x s = (.ok b, s'))
    (hf : Tri (f b) s' Q E) : Tri (x >>= f) s Q E := by
  unfold Tri; rw [bind_ok h]; exact hf

theorem Tri.ret {b : β} {Q : β → St → Prop} {E : Fault → St → Prop} (h : Q b s) : Tri (pure b : M β) s Q E := h

theorem assert_ok {c : Bool} (h : c = true) (msg : String) : assert cfg c msg s = (.ok (), s) := by
  unfold assert; rw [h]; simp

theorem doIf_pos {c : Bool} (h : c = true) (x : M Unit) : doIf c x = x := if_pos h
theorem doIf_neg {c : Bool} (h : c = false) (x : M Unit) : doIf c x = pure () := if_neg (by simp [h])

theorem noexcept_tri {x : M β} {Q : β → St → Prop} {E F : Fault → St → Prop} (h : Tri x s Q E)
    (ht : ∀ w s', E (.throw w) s' → F (.throw "terminate") s') (ho : ∀ e s', E e s' → (∀ w, e ≠ .throw w) → F e s') :
    Tri (noexcept x) s Q F := by
  unfold Tri noexcept at *
  generalize x s = r at h ⊢
  obtain ⟨r, s'⟩ := r
  cases r with
  | ok b => exact h
  | error e => cases e with
    | throw w => exact ht w s' h
    | ub w => exact ho _ s' h (fun w' e => by cases e)
    | assertFail w => exact ho _ s' h (fun w' e => by cases e)

/-! ### What an object holds -/

/-- The characters (with the terminator and the unused ones) of a core. -/
def cellsOf (s : St) : Core → Option (List Cell)
  | .small l => some l
  | .ml d _ _ _ => (s.heap d).map Blk.cells

/-- The room of a core. -/
def Core.cap (cfg : Cfg) : Core → Nat
  | .small _ => cfg.ms
  | .ml _ _ cap _ => cap

/-- The block of a core. -/
def Core.blk? : Core → Option Nat
  | .small _ => none
  | .ml d _ _ _ => some d

/-- The block of an object. -/
def blkOf (s : St) (o : Obj) : Option Nat := (s.vars o).bind fun ob => ob.core.blk?

/-- A core is well formed: sizes, the block, the terminator. -/
def CoreOk (cfg : Cfg) (s : St) : Core → Prop
  | .small l => l.length = cfg.ms + 1 ∧
      ∃ n, n ≤ cfg.ms ∧ (cfg.sso = false → n = 0) ∧ l[cfg.ms]? = some (some (cfg.ms - n)) ∧ l[n]? = some (some 0)
  | .ml d n cap large => ∃ B, s.heap d = some B ∧ B.cells.length = cap + 1 ∧ n ≤ cap ∧
      B.cells[n]? = some (some 0) ∧ B.rc.isSome = large ∧ (cap + 1) * cfg.w < 4611686018427387904

/-- How the reference count of a block relates to the number of its owners: on the heap they agree and
nothing is without owner; on an arena the count is at least the number of owners. -/
def CountOk (cfg : Cfg) (rc : Option Nat) (k : Nat) : Prop :=
  (cfg.arena = false → 1 ≤ k) ∧
  match rc with
  | none => k ≤ 1
  | some n => k ≤ n ∧ (cfg.arena = false → n = k)

/-- The invariant. -/
structure WInv (cfg : Cfg) (s : St) : Prop where
  fresh : ∀ b, s.next ≤ b → s.heap b = none
  core : ∀ o ob, s.vars o = some ob → CoreOk cfg s ob.core
  own : ∀ b B, s.heap b = some B → ∃ L : List Obj, L.Nodup ∧ (∀ o, o ∈ L ↔ blkOf s o = some b) ∧ CountOk cfg B.rc L.length
  al : ∀ o ob, s.vars o = some ob → cfg.arena = (ob.al != 0)
  src : ∀ b B, s.heap b = some B → cfg.arena = false → B.src = 0
  agree : ∀ o o' ob ob' d, s.vars o = some ob → s.vars o' = some ob' → ob.core.blk? = some d → ob'.core.blk? = some d →
    ob.core.size? cfg = ob'.core.size? cfg

/-- The objects outside `X` are what they were, with the same characters. -/
def Frame (X : Obj → Prop) (s s' : St) : Prop :=
  ∀ o, ¬ X o → s'.vars o = s.vars o ∧ ∀ ob, s.vars o = some ob → cellsOf s' ob.core = cellsOf s ob.core

theorem Frame.refl (X : Obj → Prop) (s : St) : Frame X s s := fun _ _ => ⟨rfl, fun _ _ => rfl⟩

theorem Frame.trans {X : Obj → Prop} {a b c : St} (h1 : Frame X a b) (h2 : Frame X b c) : Frame X a c := by
  intro o ho
  obtain ⟨e1, f1⟩ := h1 o ho
  obtain ⟨e2, f2⟩ := h2 o ho
  refine ⟨e2.trans e1, fun ob hob => ?_⟩
  rw [f2 ob (e1.trans hob), f1 ob hob]

theorem Frame.mono {X Y : Obj → Prop} (h : Frame X s s') (hXY : ∀ o, X o → Y o) : Frame Y s s' :=
  fun o ho => h o (fun hx => ho (hXY o hx))

/-- `v` is the object `ob` with the characters `l` and size `n`. -/
structure Holds (cfg : Cfg) (s : St) (v : Obj) (ob : Ob) (l : List Cell) (n : Nat) : Prop where
  var : s.vars v = some ob
  cells : cellsOf s ob.core = some l
  size : ob.core.size? cfg = some n

/-- The characters of `v` are `cs`. -/
def Raw (cfg : Cfg) (s : St) (v : Obj) (cs : List Cell) : Prop := ∃ ob l n, Holds cfg s v ob l n ∧ cs = l.take n

/-- The contents of `v` are `xs`. -/
def Reads (cfg : Cfg) (s : St) (v : Obj) (xs : List Ch) : Prop := Raw cfg s v (xs.map some)

theorem smallSize_eq {l : List Cell} {n : Nat} (hn : n ≤ cfg.ms) (h : l[cfg.ms]? = some (some (cfg.ms - n))) :
    (Core.small l).size? cfg = some n := by
  have : cfg.ms - n ≤ cfg.ms := Nat.sub_le _ _
  simp only [Core.size?, h, this, if_true]
  congr 1; omega

/-- What the invariant says of one object. -/
theorem WInv.view (hw : WInv cfg s) {ob : Ob} (hv : s.vars v = some ob) :
    ∃ l n, Holds cfg s v ob l n ∧ l.length = ob.core.cap cfg + 1 ∧ n ≤ ob.core.cap cfg ∧ l[n]? = some (some 0) := by
  have hc := hw.core v ob hv
  obtain ⟨core, al⟩ := ob
  cases core with
  | small l =>
    obtain ⟨h1, n, hn, _, ht, hz⟩ := hc
    exact ⟨l, n, ⟨hv, rfl, smallSize_eq hn ht⟩, h1, hn, hz⟩
  | ml d n cap large =>
    obtain ⟨B, hB, h1, h2, h3, _⟩ := hc
    refine ⟨B.cells, n, ⟨hv, ?_, rfl⟩, h1, h2, h3⟩
    simp [cellsOf, hB]

theorem Holds.unique {ob ob' : Ob} {l l' : List Cell} {n n' : Nat} (h : Holds cfg s v ob l n)
    (h' : Holds cfg s v ob' l' n') : ob = ob' ∧ l = l' ∧ n = n' := by
  have e : ob = ob' := Option.some.inj (h.var.symm.trans h'.var)
  subst e
  exact ⟨rfl, Option.some.inj (h.cells.symm.trans h'.cells), Option.some.inj (h.size.symm.trans h'.size)⟩

theorem Raw.unique {cs cs' : List Cell} (h : Raw cfg s v cs) (h' : Raw cfg s v cs') : cs = cs' := by
  obtain ⟨ob, l, n, h1, rfl⟩ := h
  obtain ⟨ob', l', n', h2, rfl⟩ := h'
  obtain ⟨_, rfl, rfl⟩ := h1.unique h2
  rfl

theorem Frame.holds {X : Obj → Prop} (h : Frame X s s') (hv : ¬ X v) {ob : Ob} {l : List Cell} {n : Nat}
    (hh : Holds cfg s v ob l n) : Holds cfg s' v ob l n := by
  obtain ⟨e, f⟩ := h v hv
  exact ⟨e.trans hh.var, (f ob hh.var).trans hh.cells, hh.size⟩

theorem Frame.raw {X : Obj → Prop} (h : Frame X s s') (hv : ¬ X v) {cs : List Cell} (hr : Raw cfg s v cs) :
    Raw cfg s' v cs := by
  obtain ⟨ob, l, n, hh, rfl⟩ := hr
  exact ⟨ob, l, n, h.holds hv hh, rfl⟩

/-- Only `v` owns the block it uses. -/
def Excl (s : St) (v : Obj) : Prop :=
  ∀ d n cap al, s.vars v = some ⟨.ml d n cap true, al⟩ → ∃ B, s.heap d = some B ∧ B.rc = some 1

theorem blkOf_ml {d n cap al : Nat} {large : Bool} (h : s.vars v = some ⟨.ml d n cap large, al⟩) :
    blkOf s v = some d := by simp [blkOf, h, Core.blk?]

theorem WInv.only (hw : WInv cfg s) {d : Nat} {B : Blk} (hB : s.heap d = some B) (hr : B.rc = none ∨ B.rc = some 1)
    (hv : blkOf s v = some d) (hu : blkOf s u = some d) : u = v := by
  obtain ⟨L, hn, hm, hc⟩ := hw.own d B hB
  have hl : L.length ≤ 1 := by
    rcases hr with hr | hr <;> rw [hr] at hc
    · exact hc.2
    · exact hc.2.1
  have h1 := (hm v).2 hv
  have h2 := (hm u).2 hu
  match L, hl with
  | [], _ => cases h1
  | [a], _ => simp at h1 h2; rw [h1, h2]

/-! ### Elementary changes -/

theorem blkOf_upd (s : St) (H : Nat → Option Blk) (nx : Nat) (rf ls : Bool) (v : Obj) (x : Option Ob) (o : Obj) :
    blkOf ⟨H, nx, upd s.vars v x, rf, ls⟩ o = if o = v then x.bind (fun ob => ob.core.blk?) else blkOf s o := by
  unfold blkOf
  by_cases h : o = v
  · subst h; simp
  · simp [upd_other _ _ h, h]

/-- The heap after the object `v` let go of its block. -/
def DropOk (cfg : Cfg) (s : St) (c : Core) (H : Nat → Option Blk) : Prop :=
  match c.blk? with
  | none => H = s.heap
  | some d => ∃ B, s.heap d = some B ∧
      ((H = s.heap ∧ cfg.arena = true) ∨
       (∃ n, B.rc = some (n + 1) ∧ 1 ≤ n ∧ H = upd s.heap d (some { B with rc := some n })) ∨
       (cfg.arena = false ∧ (B.rc = none ∨ B.rc = some 1) ∧ H = upd s.heap d none))

theorem DropOk.fresh (hw : WInv cfg s) {c : Core} {H : Nat → Option Blk} (hd : DropOk cfg s c H) :
    ∀ b, s.next ≤ b → H b = none := by
  intro b hb
  have h0 := hw.fresh b hb
  unfold DropOk at hd
  split at hd
  · rw [hd]; exact h0
  · next d _ =>
    obtain ⟨B, hB, h | ⟨n, h1, h2, h⟩ | ⟨_, _, h⟩⟩ := hd
    · rw [h.1]; exact h0
    · rw [h, upd_other]
      · exact h0
      · rintro rfl; rw [h0] at hB; cases hB
    · rw [h, upd_other]
      · exact h0
      · rintro rfl; rw [h0] at hB; cases hB

/-- The blocks of the others survive with their characters. -/
theorem DropOk.keeps (hw : WInv cfg s) {ob : Ob} (hv : s.vars v = some ob) {H : Nat → Option Blk}
    (hd : DropOk cfg s ob.core H) {b : Nat} {B : Blk} (hb : s.heap b = some B) (hu : blkOf s u = some b) (huv : u ≠ v) :
    ∃ B', H b = some B' ∧ B'.cells = B.cells ∧ B'.rc.isSome = B.rc.isSome ∧ B'.src = B.src ∧ (B.rc = some 1 → B'.rc = some 1) := by
  unfold DropOk at hd
  split at hd
  · rw [hd]; exact ⟨B, hb, rfl, rfl, rfl, id⟩
  · next d he =>
    have hvd : blkOf s v = some d := by simp [blkOf, hv, he]
    obtain ⟨D, hD, h | ⟨n, h1, h2, h⟩ | ⟨_, h1, h⟩⟩ := hd
    · rw [h.1]; exact ⟨B, hb, rfl, rfl, rfl, id⟩
    · by_cases e : b = d
      · subst e
        rw [hb] at hD; cases hD
        rw [h]
        exact ⟨{ B with rc := some n }, by simp, rfl, by simp [h1], rfl, fun h => by rw [h1] at h; simp at h; omega⟩
      · rw [h, upd_other _ _ e]; exact ⟨B, hb, rfl, rfl, rfl, id⟩
    · by_cases e : b = d
      · subst e
        exact absurd (hw.only hD h1 hvd hu) huv
      · rw [h, upd_other _ _ e]; exact ⟨B, hb, rfl, rfl, rfl, id⟩

theorem DropOk.cells (hw : WInv cfg s) {ob : Ob} (hv : s.vars v = some ob) {H : Nat → Option Blk}
    (hd : DropOk cfg s ob.core H) (huv : u ≠ v) {ou : Ob} (hu : s.vars u = some ou) (nx : Nat) (vs : Obj → Option Ob) (rf ls : Bool) :
    cellsOf ⟨H, nx, vs, rf, ls⟩ ou.core = cellsOf s ou.core ∧
      CoreOk cfg ⟨H, nx, vs, rf, ls⟩ ou.core := by
  have hc := hw.core u ou hu
  obtain ⟨core, al⟩ := ou
  cases core with
  | small l => exact ⟨rfl, hc⟩
  | ml d n cap large =>
    obtain ⟨B, hB, h1, h2, h3, h4, h5⟩ := hc
    obtain ⟨B', hB', e1, e2, e3, _⟩ := hd.keeps hw hv hB (blkOf_ml hu) huv
    constructor
    · simp only [cellsOf, hB, hB', Option.map_some, e1]
    · exact ⟨B', hB', by rw [e1]; exact h1, h2, by rw [e1]; exact h3, by rw [e2]; exact h4, h5⟩

/-- What is left of the owners. -/
theorem DropOk.own (hw : WInv cfg s) {ob : Ob} (hv : s.vars v = some ob) {H : Nat → Option Blk}
    (hd : DropOk cfg s ob.core H) {b : Nat} {B' : Blk} (hb : H b = some B') :
    ∃ B, s.heap b = some B ∧ B'.src = B.src ∧ ∃ L : List Obj, L.Nodup ∧ (∀ o, o ∈ L ↔ o ≠ v ∧ blkOf s o = some b) ∧
      CountOk cfg B'.rc L.length := by
  unfold DropOk at hd
  split at hd
  · next he =>
    subst hd
    obtain ⟨L, h1, h2, h3⟩ := hw.own b B' hb
    refine ⟨B', hb, rfl, L, h1, fun o => ?_, h3⟩
    rw [h2]
    refine ⟨fun h => ⟨?_, h⟩, fun h => h.2⟩
    rintro rfl
    simp [blkOf, hv, he] at h
  · next d he =>
    have hvd : blkOf s v = some d := by simp [blkOf, hv, he]
    have other : ∀ {b' : Nat} {C : Blk}, s.heap b' = some C → b' ≠ d → ∃ L : List Obj, L.Nodup ∧
        (∀ o, o ∈ L ↔ o ≠ v ∧ blkOf s o = some b') ∧ CountOk cfg C.rc L.length := by
      intro b' C hC hne
      obtain ⟨L, h1, h2, h3⟩ := hw.own b' C hC
      refine ⟨L, h1, fun o => ?_, h3⟩
      rw [h2]
      refine ⟨fun h => ⟨?_, h⟩, fun h => h.2⟩
      rintro rfl
      rw [hvd] at h; exact hne (Option.some.inj h).symm
    have mine : ∀ {C : Blk}, s.heap d = some C → ∃ L : List Obj, L.Nodup ∧
        (∀ o, o ∈ L ↔ o ≠ v ∧ blkOf s o = some d) ∧ CountOk cfg C.rc (L.length + 1) := by
      intro C hC
      obtain ⟨L, h1, h2, h3⟩ := hw.own d C hC
      have hvL := (h2 v).2 hvd
      refine ⟨L.erase v, h1.erase v, fun o => ?_, ?_⟩
      · rw [h1.mem_erase_iff, h2]
      · rw [List.length_erase_of_mem hvL]
        have : 0 < L.length := List.length_pos_of_mem hvL
        rwa [Nat.sub_add_cancel this]
    obtain ⟨D, hD, h | ⟨n, h1, h2, h⟩ | ⟨har, h1, h⟩⟩ := hd
    · obtain ⟨h, har⟩ := h
      subst h
      by_cases e : b = d
      · subst e
        have e2 : D = B' := Option.some.inj (hD.symm.trans hb)
        subst e2
        obtain ⟨L, g1, g2, g3⟩ := mine hb
        refine ⟨D, hb, rfl, L, g1, g2, fun h => (by rw [har] at h; cases h), ?_⟩
        have g4 := g3.2
        cases hrc : D.rc with
        | none => rw [hrc] at g4; simp only at g4 ⊢; omega
        | some n => rw [hrc] at g4; simp only at g4 ⊢; exact ⟨by omega, fun h => (by rw [har] at h; cases h)⟩
      · obtain ⟨L, g1, g2, g3⟩ := other hb e
        exact ⟨B', hb, rfl, L, g1, g2, g3⟩
    · by_cases e : b = d
      · subst e
        rw [h, upd_same] at hb; cases hb
        obtain ⟨L, g1, g2, g3⟩ := mine hD
        have g4 := g3.2
        rw [h1] at g4
        simp only at g4
        refine ⟨D, hD, rfl, L, g1, g2, fun har => ?_, ?_⟩
        · have := g4.2 har; omega
        · exact ⟨by omega, fun har => by have := g4.2 har; omega⟩
      · rw [h, upd_other _ _ e] at hb
        obtain ⟨L, g1, g2, g3⟩ := other hb e
        exact ⟨B', hb, rfl, L, g1, g2, g3⟩
    · by_cases e : b = d
      · subst e
        rw [h, upd_same] at hb; cases hb
      · rw [h, upd_other _ _ e] at hb
        obtain ⟨L, g1, g2, g3⟩ := other hb e
        exact ⟨B', hb, rfl, L, g1, g2, g3⟩

/-- `v` lets go of its block and ends. -/
theorem WInv.drop (hw : WInv cfg s) {ob : Ob} (hv : s.vars v = some ob) {H : Nat → Option Blk}
    (hd : DropOk cfg s ob.core H) (nx : Nat) (hnx : s.next ≤ nx) (rf ls : Bool) :
    WInv cfg ⟨H, nx, upd s.vars v none, rf, ls⟩ ∧ Frame (· = v) s ⟨H, nx, upd s.vars v none, rf, ls⟩ := by
  constructor
  · constructor
    · exact fun b hb => hd.fresh hw b (Nat.le_trans hnx hb)
    · intro o ob' ho
      by_cases e : o = v
      · subst e; simp at ho
      · simp only [upd_other _ _ e] at ho
        exact (hd.cells hw hv e ho _ _ _ _).2
    · intro b B' hb
      obtain ⟨B, hB, _, L, h1, h2, h3⟩ := hd.own hw hv hb
      refine ⟨L, h1, fun o => ?_, h3⟩
      rw [h2, blkOf_upd]
      by_cases e : o = v
      · simp [e]
      · simp [e]
    · intro o ob' ho
      by_cases e : o = v
      · subst e; simp at ho
      · simp only [upd_other _ _ e] at ho
        exact hw.al o ob' ho
    · intro b B' hb har
      obtain ⟨B, hB, e, _⟩ := hd.own hw hv hb
      rw [e]; exact hw.src b B hB har
    · intro o o' ob1 ob2 d h1 h2 h3 h4
      by_cases e : o = v
      · subst e; simp at h1
      by_cases e' : o' = v
      · subst e'; simp at h2
      simp only [upd_other _ _ e] at h1
      simp only [upd_other _ _ e'] at h2
      exact hw.agree o o' ob1 ob2 d h1 h2 h3 h4
  · intro o ho
    refine ⟨upd_other _ _ ho, fun ob' hob => ?_⟩
    exact (hd.cells hw hv ho hob _ _ _ _).1

/-- A new object without block. -/
theorem WInv.addSmall (hw : WInv cfg s) (hv : s.vars v = none) {l : List Cell} {al : Nat}
    (hc : CoreOk cfg s (.small l)) (ha : cfg.arena = (al != 0)) :
    WInv cfg { s with vars := upd s.vars v (some ⟨.small l, al⟩) } ∧
      Frame (· = v) s { s with vars := upd s.vars v (some ⟨.small l, al⟩) } := by
  constructor
  · constructor
    · exact hw.fresh
    · intro o ob' ho
      by_cases e : o = v
      · subst e; simp at ho; subst ho; exact hc
      · simp only [upd_other _ _ e] at ho
        have := hw.core o ob' ho
        cases hcc : ob'.core <;> rw [hcc] at this <;> exact this
    · intro b B hb
      obtain ⟨L, h1, h2, h3⟩ := hw.own b B hb
      refine ⟨L, h1, fun o => ?_, h3⟩
      rw [h2, blkOf_upd]
      by_cases e : o = v
      · subst e; simp [blkOf, hv, Core.blk?]
      · simp [e]
    · intro o ob' ho
      by_cases e : o = v
      · subst e; simp at ho; subst ho; exact ha
      · simp only [upd_other _ _ e] at ho
        exact hw.al o ob' ho
    · exact hw.src
    · intro o o' ob1 ob2 d h1 h2 h3 h4
      by_cases e : o = v
      · subst e; simp at h1; subst h1; cases h3
      by_cases e' : o' = v
      · subst e'; simp at h2; subst h2; cases h4
      simp only [upd_other _ _ e] at h1
      simp only [upd_other _ _ e'] at h2
      exact hw.agree o o' ob1 ob2 d h1 h2 h3 h4
  · intro o ho
    refine ⟨upd_other _ _ ho, fun ob' hob => ?_⟩
    cases ob'.core <;> rfl

/-- A new object with a new block. -/
theorem WInv.addFresh (hw : WInv cfg s) (hv : s.vars v = none) {n cap al : Nat} {large : Bool} {B : Blk}
    (h1 : B.cells.length = cap + 1) (h2 : n ≤ cap) (h3 : B.cells[n]? = some (some 0))
    (h4 : B.rc = if large then some 1 else none) (h5 : (cap + 1) * cfg.w < 4611686018427387904)
    (ha : cfg.arena = (al != 0)) (hs : cfg.arena = false → B.src = 0) (b nx : Nat) (hb : s.next ≤ b) (hnx : b < nx) :
    WInv cfg { s with heap := upd s.heap b (some B), next := nx, vars := upd s.vars v (some ⟨.ml b n cap large, al⟩) } ∧
      Frame (· = v) s { s with heap := upd s.heap b (some B), next := nx, vars := upd s.vars v (some ⟨.ml b n cap large, al⟩) } := by
  have hb0 := hw.fresh b hb
  have nobody : ∀ o, blkOf s o ≠ some b := by
    intro o ho
    unfold blkOf at ho
    cases hvo : s.vars o with
    | none => rw [hvo] at ho; cases ho
    | some ob =>
      rw [hvo] at ho
      have hc := hw.core o ob hvo
      obtain ⟨core, al⟩ := ob
      cases core with
      | small l => cases ho
      | ml d n cap large =>
        simp [Core.blk?] at ho; subst ho
        obtain ⟨B, hB, _⟩ := hc
        rw [hb0] at hB; cases hB
  have keep : ∀ {d : Nat} {D : Blk}, s.heap d = some D → upd s.heap b (some B) d = some D := by
    intro d D hD
    rw [upd_other]
    · exact hD
    · rintro rfl; rw [hb0] at hD; cases hD
  constructor
  · constructor
    · intro c hc
      show upd s.heap b (some B) c = none
      have hc : nx ≤ c := hc
      rw [upd_other _ _ (by omega)]
      exact hw.fresh c (by omega)
    · intro o ob' ho
      by_cases e : o = v
      · subst e; simp at ho; subst ho
        refine ⟨B, by simp, h1, h2, h3, ?_, h5⟩
        rw [h4]; cases large <;> rfl
      · simp only [upd_other _ _ e] at ho
        have hc := hw.core o ob' ho
        obtain ⟨core, al⟩ := ob'
        cases core with
        | small l => exact hc
        | ml d n cap large =>
          obtain ⟨D, hD, g⟩ := hc
          exact ⟨D, keep hD, g⟩
    · intro c C hC
      by_cases e : c = b
      · subst e
        simp at hC; subst hC
        refine ⟨[v], by simp, fun o => ?_, ?_⟩
        · rw [blkOf_upd]
          by_cases ev : o = v
          · simp [ev, Core.blk?]
          · simp [ev, nobody o]
        · rw [h4]
          refine ⟨fun _ => by simp, ?_⟩
          cases large <;> simp
      · simp only [upd_other _ _ e] at hC
        obtain ⟨L, g1, g2, g3⟩ := hw.own c C hC
        refine ⟨L, g1, fun o => ?_, g3⟩
        rw [g2, blkOf_upd]
        by_cases ev : o = v
        · subst ev
          simp [blkOf, hv, Core.blk?, Ne.symm e]
        · simp [ev]
    · intro o ob' ho
      by_cases e : o = v
      · subst e; simp at ho; subst ho; exact ha
      · simp only [upd_other _ _ e] at ho
        exact hw.al o ob' ho
    · intro c C hC har
      by_cases e : c = b
      · subst e; simp at hC; subst hC; exact hs har
      · simp only [upd_other _ _ e] at hC
        exact hw.src c C hC har
    · intro o o' ob1 ob2 d h1 h2 h3 h4
      have nb : ∀ {o : Obj} {ob : Ob}, s.vars o = some ob → ob.core.blk? ≠ some b := by
        intro o ob ho he
        exact nobody o (by simp [blkOf, ho, he])
      by_cases e : o = v
      · subst e; simp at h1; subst h1
        simp only [Core.blk?, Option.some.injEq] at h3
        by_cases e' : o' = o
        · subst e'; simp at h2; subst h2; rfl
        · simp only [upd_other _ _ e'] at h2
          exact absurd (h4.trans (by rw [h3])) (nb h2)
      simp only [upd_other _ _ e] at h1
      by_cases e' : o' = v
      · subst e'; simp at h2; subst h2
        simp only [Core.blk?, Option.some.injEq] at h4
        exact absurd (h3.trans (by rw [h4])) (nb h1)
      simp only [upd_other _ _ e'] at h2
      exact hw.agree o o' ob1 ob2 d h1 h2 h3 h4
  · intro o ho
    refine ⟨upd_other _ _ ho, fun ob' hob => ?_⟩
    have hc := hw.core o ob' hob
    obtain ⟨core, al⟩ := ob'
    cases core with
    | small l => rfl
    | ml d n cap large =>
      obtain ⟨D, hD, _⟩ := hc
      simp only [cellsOf, hD, keep hD]

/-- `v` lets go of its block, if it has one, and takes a new one. -/
theorem WInv.toFresh (hw : WInv cfg s) {ob : Ob} (hv : s.vars v = some ob) {H : Nat → Option Blk}
    (hd : DropOk cfg s ob.core H) {n cap al : Nat} {large : Bool} {B : Blk}
    (h1 : B.cells.length = cap + 1) (h2 : n ≤ cap) (h3 : B.cells[n]? = some (some 0))
    (h4 : B.rc = if large then some 1 else none) (h5 : (cap + 1) * cfg.w < 4611686018427387904)
    (ha : cfg.arena = (al != 0)) (hs : cfg.arena = false → B.src = 0) (b nx : Nat) (hb : s.next ≤ b) (hnx : b < nx)
    (rf ls : Bool) :
    WInv cfg ⟨upd H b (some B), nx, upd s.vars v (some ⟨.ml b n cap large, al⟩), rf, ls⟩ ∧
      Frame (· = v) s ⟨upd H b (some B), nx, upd s.vars v (some ⟨.ml b n cap large, al⟩), rf, ls⟩ := by
  obtain ⟨w1, f1⟩ := hw.drop hv hd b hb rf ls
  obtain ⟨w2, f2⟩ := w1.addFresh (v := v) (by simp) h1 h2 h3 h4 h5 ha hs b nx (Nat.le_refl _) hnx
  simp only [upd_upd] at w2 f2
  exact ⟨w2, f1.trans f2⟩

/-- `v` lets go of its block, if it has one, and becomes small. -/
theorem WInv.toSmall (hw : WInv cfg s) {ob : Ob} (hv : s.vars v = some ob) {H : Nat → Option Blk}
    (hd : DropOk cfg s ob.core H) {l : List Cell} {al : Nat} (hc : CoreOk cfg s (.small l))
    (ha : cfg.arena = (al != 0)) :
    WInv cfg { s with heap := H, vars := upd s.vars v (some ⟨.small l, al⟩) } ∧
      Frame (· = v) s { s with heap := H, vars := upd s.vars v (some ⟨.small l, al⟩) } := by
  obtain ⟨w1, f1⟩ := hw.drop hv hd s.next (Nat.le_refl _) s.refused s.lost
  obtain ⟨w2, f2⟩ := w1.addSmall (v := v) (by simp) (l := l) hc ha
  simp only [upd_upd] at w2 f2
  exact ⟨w2, f1.trans f2⟩

/-- `v` changes its size and the characters of a block that only it owns. -/
theorem WInv.inBlock (hw : WInv cfg s) {d n cap al : Nat} {large : Bool} (hv : s.vars v = some ⟨.ml d n cap large, al⟩)
    {B : Blk} (hB : s.heap d = some B) {n' : Nat} {l' : List Cell} (hr : B.rc = none ∨ B.rc = some 1 ∨ n = n' ∧ l' = B.cells)
    (h1 : l'.length = cap + 1) (h2 : n' ≤ cap) (h3 : l'[n']? = some (some 0)) :
    WInv cfg { s with heap := upd s.heap d (some { B with cells := l' }), vars := upd s.vars v (some ⟨.ml d n' cap large, al⟩) } ∧
      Frame (· = v) s { s with heap := upd s.heap d (some { B with cells := l' }), vars := upd s.vars v (some ⟨.ml d n' cap large, al⟩) } := by
  have hvd := blkOf_ml hv
  by_cases htriv : n = n' ∧ l' = B.cells
  · obtain ⟨rfl, rfl⟩ := htriv
    have e1 : upd s.heap d (some B) = s.heap := upd_self hB
    have e2 : upd s.vars v (some ⟨.ml d n cap large, al⟩) = s.vars := upd_self hv
    rw [show ({ B with cells := B.cells } : Blk) = B from rfl, e1, e2]
    exact ⟨hw, Frame.refl _ _⟩
  have hr : B.rc = none ∨ B.rc = some 1 := by
    rcases hr with h | h | h
    · exact Or.inl h
    · exact Or.inr h
    · exact absurd h htriv
  have only : ∀ o, blkOf s o = some d → o = v := fun o ho => hw.only hB hr hvd ho
  have notd : ∀ {o : Obj} {e n cap al : Nat} {large : Bool}, o ≠ v → s.vars o = some ⟨.ml e n cap large, al⟩ → e ≠ d := by
    intro o e n cap al large ho hvo he
    subst he
    exact ho (only o (blkOf_ml hvo))
  have hcv := hw.core v _ hv
  obtain ⟨B', hB', c1, c2, c3, c4, c5⟩ := hcv
  rw [hB] at hB'; cases hB'
  constructor
  · constructor
    · intro c hc
      show upd s.heap d _ c = none
      rw [upd_other]
      · exact hw.fresh c hc
      · rintro rfl; rw [hw.fresh _ hc] at hB; cases hB
    · intro o ob' ho
      by_cases e : o = v
      · subst e; simp at ho; subst ho
        exact ⟨{ B with cells := l' }, by simp, h1, h2, h3, c4, c5⟩
      · simp only [upd_other _ _ e] at ho
        have hc := hw.core o ob' ho
        obtain ⟨core, al⟩ := ob'
        cases core with
        | small l => exact hc
        | ml e' n cap large =>
          obtain ⟨D, hD, g⟩ := hc
          refine ⟨D, ?_, g⟩
          show upd s.heap d _ e' = some D
          rw [upd_other _ _ (notd e ho)]; exact hD
    · intro c C hC
      have hbl : ∀ o, blkOf { s with heap := upd s.heap d (some { B with cells := l' }), vars := upd s.vars v (some ⟨.ml d n' cap large, al⟩) } o = blkOf s o := by
        intro o
        rw [blkOf_upd]
        by_cases ev : o = v
        · subst ev; rw [hvd]; simp [Core.blk?]
        · simp [ev]
      by_cases e : c = d
      · subst e
        simp at hC; subst hC
        obtain ⟨L, g1, g2, g3⟩ := hw.own c B hB
        exact ⟨L, g1, fun o => by rw [g2, hbl], g3⟩
      · simp only [upd_other _ _ e] at hC
        obtain ⟨L, g1, g2, g3⟩ := hw.own c C hC
        exact ⟨L, g1, fun o => by rw [g2, hbl], g3⟩
    · intro o ob' ho
      by_cases e : o = v
      · subst e; simp at ho; subst ho; exact hw.al o ⟨.ml d n cap large, al⟩ hv
      · simp only [upd_other _ _ e] at ho
        exact hw.al o ob' ho
    · intro c C hC har
      by_cases e : c = d
      · subst e; simp at hC; subst hC; exact hw.src c B hB har
      · simp only [upd_other _ _ e] at hC
        exact hw.src c C hC har
    · intro o o' ob1 ob2 d' h1 h2 h3 h4
      by_cases e : o = v
      · subst e; simp at h1; subst h1
        simp only [Core.blk?, Option.some.injEq] at h3
        by_cases e' : o' = o
        · subst e'; simp at h2; subst h2; rfl
        · simp only [upd_other _ _ e'] at h2
          exact absurd (only o' (by simp [blkOf, h2, h4, h3])) e'
      simp only [upd_other _ _ e] at h1
      by_cases e' : o' = v
      · subst e'; simp at h2; subst h2
        simp only [Core.blk?, Option.some.injEq] at h4
        exact absurd (only o (by simp [blkOf, h1, h3, h4])) e
      simp only [upd_other _ _ e'] at h2
      exact hw.agree o o' ob1 ob2 d' h1 h2 h3 h4
  · intro o ho
    refine ⟨upd_other _ _ ho, fun ob' hob => ?_⟩
    obtain ⟨core, al⟩ := ob'
    cases core with
    | small l => rfl
    | ml e n cap large =>
      simp only [cellsOf, upd_other _ _ (notd ho hob)]

/-- `v`, new, shares the block of `u`. -/
theorem WInv.share (hw : WInv cfg s) (hv : s.vars v = none) {d n cap al k src : Nat} {cells : List Cell}
    (hu : s.vars u = some ⟨.ml d n cap true, al⟩) (hB : s.heap d = some ⟨some k, src, cells⟩) :
    WInv cfg { s with heap := upd s.heap d (some ⟨some (k + 1), src, cells⟩), vars := upd s.vars v (some ⟨.ml d n cap true, al⟩) } ∧
      Frame (· = v) s { s with heap := upd s.heap d (some ⟨some (k + 1), src, cells⟩), vars := upd s.vars v (some ⟨.ml d n cap true, al⟩) } := by
  have hvd : blkOf s v = none := by simp [blkOf, hv]
  have huv : u ≠ v := by rintro rfl; rw [hv] at hu; cases hu
  have hud := blkOf_ml hu
  have core' : ∀ {o : Obj} {ob : Ob}, s.vars o = some ob →
      CoreOk cfg { s with heap := upd s.heap d (some ⟨some (k + 1), src, cells⟩), vars := upd s.vars v (some ⟨.ml d n cap true, al⟩) } ob.core := by
    intro o ob ho
    have hc := hw.core o ob ho
    obtain ⟨core, al⟩ := ob
    cases core with
    | small l => exact hc
    | ml e m cap' large =>
      obtain ⟨D, hD, g1, g2, g3, g4, g5⟩ := hc
      by_cases he : e = d
      · subst he
        rw [hB] at hD; cases hD
        exact ⟨⟨some (k + 1), src, cells⟩, by simp, g1, g2, g3, by simpa using g4, g5⟩
      · refine ⟨D, ?_, g1, g2, g3, g4, g5⟩
        show upd s.heap d _ e = some D
        rw [upd_other _ _ he]; exact hD
  constructor
  · constructor
    · intro c hc
      show upd s.heap d _ c = none
      rw [upd_other]
      · exact hw.fresh c hc
      · rintro rfl; rw [hw.fresh _ hc] at hB; cases hB
    · intro o ob' ho
      by_cases e : o = v
      · subst e; simp at ho; subst ho
        exact core' hu
      · simp only [upd_other _ _ e] at ho
        exact core' ho
    · intro c C hC
      by_cases e : c = d
      · subst e
        simp at hC; subst hC
        obtain ⟨L, g1, g2, g3⟩ := hw.own c _ hB
        refine ⟨v :: L, ?_, fun o => ?_, ?_⟩
        · refine List.nodup_cons.2 ⟨fun h => ?_, g1⟩
          rw [g2, hvd] at h; cases h
        · rw [List.mem_cons, blkOf_upd]
          by_cases ev : o = v
          · simp [ev, Core.blk?]
          · simp [ev, g2]
        · have g4 := g3.2
          simp only at g4
          refine ⟨fun _ => by simp, ?_⟩
          simp only [List.length_cons]
          exact ⟨by omega, fun h => by rw [g4.2 h]⟩
      · simp only [upd_other _ _ e] at hC
        obtain ⟨L, g1, g2, g3⟩ := hw.own c C hC
        refine ⟨L, g1, fun o => ?_, g3⟩
        rw [g2, blkOf_upd]
        by_cases ev : o = v
        · subst ev; rw [hvd]; simp [Core.blk?, Ne.symm e]
        · simp [ev]
    · intro o ob' ho
      by_cases e : o = v
      · subst e; simp at ho; subst ho; exact hw.al u _ hu
      · simp only [upd_other _ _ e] at ho
        exact hw.al o ob' ho
    · intro c C hC har
      by_cases e : c = d
      · subst e; simp at hC; subst hC; exact hw.src c ⟨some k, src, cells⟩ hB har
      · simp only [upd_other _ _ e] at hC
        exact hw.src c C hC har
    · intro o o' ob1 ob2 d' h1 h2 h3 h4
      have wh : ∀ {o : Obj} {ob : Ob}, upd s.vars v (some ⟨.ml d n cap true, al⟩) o = some ob → ∃ o', s.vars o' = some ob := by
        intro o ob ho
        by_cases e : o = v
        · subst e; simp at ho; subst ho; exact ⟨u, hu⟩
        · rw [upd_other _ _ e] at ho; exact ⟨o, ho⟩
      obtain ⟨w1, g1⟩ := wh h1
      obtain ⟨w2, g2⟩ := wh h2
      exact hw.agree w1 w2 ob1 ob2 d' g1 g2 h3 h4
  · intro o ho
    refine ⟨upd_other _ _ ho, fun ob' hob => ?_⟩
    obtain ⟨core, al⟩ := ob'
    cases core with
    | small l => rfl
    | ml e n cap large =>
      by_cases he : e = d
      · subst he; simp [cellsOf, hB]
      · simp only [cellsOf, upd_other _ _ he]

/-- `u` and `v` exchange their cores. -/
theorem WInv.swap (hw : WInv cfg s) {a b : Ob} (hu : s.vars u = some a) (hv : s.vars v = some b) :
    WInv cfg { s with vars := upd (upd s.vars u (some ⟨b.core, a.al⟩)) v (some ⟨a.core, b.al⟩) } := by
  have look : ∀ o, upd (upd s.vars u (some ⟨b.core, a.al⟩)) v (some ⟨a.core, b.al⟩) o =
      if o = v then some ⟨a.core, b.al⟩ else if o = u then some ⟨b.core, a.al⟩ else s.vars o := fun o => rfl
  have key : ∀ o, blkOf { s with vars := upd (upd s.vars u (some ⟨b.core, a.al⟩)) v (some ⟨a.core, b.al⟩) } o =
      blkOf s (if o = v then u else if o = u then v else o) := by
    intro o
    unfold blkOf
    simp only [look]
    split
    · simp [hu]
    · split
      · simp [hv]
      · rfl
  constructor
  · exact hw.fresh
  · intro o ob ho
    simp only [look] at ho
    have cok : ∀ {c : Core}, CoreOk cfg s c → CoreOk cfg { s with vars := upd (upd s.vars u (some ⟨b.core, a.al⟩)) v (some ⟨a.core, b.al⟩) } c := by
      intro c hc
      cases c <;> exact hc
    split at ho
    · cases ho; exact cok (hw.core u a hu)
    · split at ho
      · cases ho; exact cok (hw.core v b hv)
      · exact cok (hw.core o ob ho)
  · intro c C hC
    obtain ⟨L, g1, g2, g3⟩ := hw.own c C hC
    let f : Obj → Obj := fun o => if o = v then u else if o = u then v else o
    have ff : ∀ o, f (f o) = o := by
      intro o
      simp only [f]
      by_cases e1 : o = v
      · subst e1
        by_cases e2 : u = o
        · simp [e2]
        · simp [e2]
      · by_cases e2 : o = u
        · subst e2; simp [e1]
        · simp [e1, e2]
    have finj : Function.Injective f := fun x y h => by rw [← ff x, ← ff y, h]
    refine ⟨L.map f, (List.nodup_map_iff finj).2 g1, fun o => ?_, by rw [List.length_map]; exact g3⟩
    rw [key]
    show o ∈ L.map f ↔ blkOf s (f o) = some c
    rw [← g2]
    constructor
    · intro h
      obtain ⟨x, hx, e⟩ := List.mem_map.1 h
      rw [← e, ff]; exact hx
    · intro h
      exact List.mem_map.2 ⟨f o, h, ff o⟩
  · intro o ob ho
    simp only [look] at ho
    split at ho
    · cases ho; exact hw.al v b hv
    · split at ho
      · cases ho; exact hw.al u a hu
      · exact hw.al o ob ho
  · exact hw.src
  · intro o o' ob1 ob2 d' h1 h2 h3 h4
    have wh : ∀ {o : Obj} {ob : Ob}, upd (upd s.vars u (some ⟨b.core, a.al⟩)) v (some ⟨a.core, b.al⟩) o = some ob →
        ∃ o' ob', s.vars o' = some ob' ∧ ob'.core = ob.core := by
      intro o ob ho
      rw [look] at ho
      split at ho
      · cases ho; exact ⟨u, a, hu, rfl⟩
      · split at ho
        · cases ho; exact ⟨v, b, hv, rfl⟩
        · exact ⟨o, ob, ho, rfl⟩
    obtain ⟨w1, x1, g1, e1⟩ := wh h1
    obtain ⟨w2, x2, g2, e2⟩ := wh h2
    rw [← e1, ← e2]
    exact hw.agree w1 w2 x1 x2 d' g1 g2 (e1 ▸ h3) (e2 ▸ h4)

theorem Frame.swap {a b : Ob} :
    Frame (fun o => o = u ∨ o = v) s { s with vars := upd (upd s.vars u (some ⟨b.core, a.al⟩)) v (some ⟨a.core, b.al⟩) } := by
  intro o ho
  refine ⟨?_, fun ob _ => by cases ob.core <;> rfl⟩
  show upd (upd s.vars u _) v _ o = _
  rw [upd_other _ _ (fun e => ho (Or.inr e)), upd_other _ _ (fun e => ho (Or.inl e))]

/-- Counting requests and flags do not matter. -/
theorem WInv.count (hw : WInv cfg s) (nx : Nat) (hnx : s.next ≤ nx) (rf ls : Bool) :
    WInv cfg ⟨s.heap, nx, s.vars, rf, ls⟩ ∧ ∀ X, Frame X s ⟨s.heap, nx, s.vars, rf, ls⟩ := by
  constructor
  · constructor
    · exact fun b hb => hw.fresh b (Nat.le_trans hnx hb)
    · intro o ob ho
      have := hw.core o ob ho
      cases hc : ob.core <;> rw [hc] at this <;> exact this
    · exact hw.own
    · exact hw.al
    · exact hw.src
    · exact hw.agree
  · exact fun X o _ => ⟨rfl, fun ob _ => by cases ob.core <;> rfl⟩

end Verif.Str
