import Verif.Str.News
import Verif.Str.StreamOps
import Verif.Str.Prog

/-!
Each operation of a program does what `Op.spec` says.
-/

namespace Verif.Str

open M

variable {cfg : Cfg} {s s' : St} {a a' : Abs}

/-- The memory holds the strings `a`, and no temporaries. -/
structure Rel (cfg : Cfg) (a : Abs) (s : St) : Prop where
  inv : WInv cfg s
  absent : ∀ i, a i = none → s.vars (.user i) = none
  held : ∀ i xs, a i = some xs → Reads cfg s (.user i) xs
  tmps : ∀ i, s.vars (.tmp i) = none

/-- The string whose contents an operation that fails may have changed. -/
def Op.weak : Op → Option Nat
  | .assignStr v _ | .assign v _ | .assignFill v _ _ | .assignChar v _ | .replace v _ _ _ | .replaceFill v _ _ _ _
  | .getline v _ _ | .extract v _ => some v
  | _ => none

/-- The strings an operation is allowed to change: the one it is called on, and the one moved from or
exchanged. -/
def Op.changes : Op → Nat → Bool
  | .move v u, i | .substrMove v u _ _, i | .swap v u, i | .assignMove v u, i => i == v || i == u
  | .makeEmpty v _, i | .make v _ _, i | .makeFill v _ _ _, i | .copy v _, i | .clone v _, i | .substr v _ _ _, i
  | .concat v _ _, i | .concatWith v _ _ _, i | .destroy v, i | .assignStr v _, i | .assign v _, i | .assignFill v _ _, i | .assignChar v _, i
  | .append v _, i | .appendStr v _, i | .appendFill v _ _, i | .appendRange v _, i | .pushBack v _, i | .popBack v, i
  | .resize v _ _, i | .reserve v _, i | .shrinkToFit v, i | .clear v, i | .setAt v _ _, i | .insert v _ _, i
  | .insertFill v _ _ _, i | .erase v _ _, i | .replace v _ _ _, i | .replaceFill v _ _ _ _, i
  | .getline v _ _, i | .extract v _, i => i == v

/-- The objects that an operation does not change. -/
def Kept (op : Op) (s s' : St) : Prop := ∀ i, op.changes i = false → s'.vars (.user i) = s.vars (.user i)

/-- What is left when an operation fails for want of memory: the same strings, with the same
contents except possibly one; or, after a refused `realloc`, nothing is said. -/
def Failed (cfg : Cfg) (op : Op) (a : Abs) (s : St) (e : Fault) (s' : St) : Prop :=
  (cfg.arena = false ∧ s'.lost = true) ∨
    (s'.refused = true ∧ AllocThrow e ∧
      ∃ a', Rel cfg a' s' ∧ (∀ i, op.weak ≠ some i → a' i = a i) ∧ (∀ i, (a' i).isSome = (a i).isSome) ∧ Kept op s s')

/-- An operation from `s` does what `out` says, or memory runs out. -/
def Refines (cfg : Cfg) (op : Op) (a : Abs) (s : St) : Out → Prop
  | .outOfRange => op.run cfg s = (.error (.throw "out_of_range"), s)
  | .done a' => Tri (op.run cfg) s (fun _ s' => Rel cfg a' s' ∧ Kept op s s') (Failed cfg op a s)

theorem Rel.free (h : Rel cfg a s) : Free s := ⟨h.tmps 0, h.tmps 1⟩

theorem rel_init (cfg : Cfg) : Rel cfg (fun _ => none) St.init :=
  ⟨⟨fun _ _ => rfl, by intro o ob h; simp [St.init] at h, by intro b B h; simp [St.init] at h, by intro o ob h; simp [St.init] at h,
    by intro b B h; simp [St.init] at h, by intro o o' ob ob' d h; simp [St.init] at h⟩,
    fun _ _ => rfl, by intro i xs h; simp at h, fun _ => rfl⟩

/-- Nothing but the strings in `X` changes. -/
theorem Rel.change {X : Obj → Prop} (h : Rel cfg a s) (hw : WInv cfg s') (hf : Frame X s s') (ht : ∀ i, ¬ X (.tmp i))
    (hn : ∀ i, X (.user i) → a' i = none → s'.vars (.user i) = none)
    (hs : ∀ i xs, X (.user i) → a' i = some xs → Reads cfg s' (.user i) xs)
    (ho : ∀ i, ¬ X (.user i) → a' i = a i) : Rel cfg a' s' := by
  refine ⟨hw, fun i hi => ?_, fun i xs hi => ?_, fun i => hf.none (ht i) (h.tmps i)⟩
  · by_cases hx : X (.user i)
    · exact hn i hx hi
    · exact hf.none hx (h.absent i ((ho i hx).symm.trans hi))
  · by_cases hx : X (.user i)
    · exact hs i xs hx hi
    · exact hf.raw hx (h.held i xs ((ho i hx).symm.trans hi))

theorem Rel.same (h : Rel cfg a s) (hw : WInv cfg s') (hf : Frame (fun _ => False) s s') : Rel cfg a s' :=
  h.change hw hf (fun _ h => h) (fun _ h => h.elim) (fun _ _ h => h.elim) (fun _ _ => rfl)

theorem Rel.one (h : Rel cfg a s) {v : Nat} {xs : List Ch} (hd : Done cfg (.user v) (xs.map some) s s') :
    Rel cfg (upd a v (some xs)) s' := by
  refine h.change hd.inv hd.frame (by simp) ?_ ?_ ?_
  · intro i hi e
    cases hi
    simp at e
  · intro i ys hi e
    cases hi
    simp at e; subst e
    exact hd.raw
  · intro i hi
    exact upd_other _ _ (fun e => hi (by rw [e]))

theorem Kept.one {op : Op} {v : Nat} (hch : op.changes v = true) (h : Frame (· = .user v) s s') : Kept op s s' := by
  intro i hi
  refine (h (.user i) fun e => ?_).1
  cases e
  rw [hch] at hi; cases hi

theorem Kept.two {op : Op} {v u : Nat} (hv : op.changes v = true) (hu : op.changes u = true)
    (h : Frame (fun o => o = .user v ∨ o = .user u) s s') : Kept op s s' := by
  intro i hi
  refine (h (.user i) fun e => ?_).1
  rcases e with e | e <;> cases e
  · rw [hv] at hi; cases hi
  · rw [hu] at hi; cases hi

theorem Failed.of0 {op : Op} {e : Fault} (h : Rel cfg a s) (he : Err0 cfg s e s') : Failed cfg op a s e s' := by
  rcases he with he | ⟨h1, h2, h3, h4, _⟩
  · exact Or.inl he
  · exact Or.inr ⟨h1, h2, a, h.same h3 h4, fun _ _ => rfl, fun _ => rfl, fun i _ => (h4 (.user i) id).1⟩

theorem Failed.ofS {op : Op} {e : Fault} {v : Nat} {xs : List Ch} (h : Rel cfg a s) (hv : a v = some xs) (hch : op.changes v = true)
    (he : ErrS cfg (.user v) (xs.map some) s e s') : Failed cfg op a s e s' := by
  rcases he with he | ⟨h1, h2, h3, h4, h5⟩
  · exact Or.inl he
  · have := h.one (v := v) (xs := xs) ⟨h3, h4, h5⟩
    rw [upd_self hv] at this
    exact Or.inr ⟨h1, h2, a, this, fun _ _ => rfl, fun _ => rfl, .one hch h4⟩

theorem Failed.ofB {op : Op} {e : Fault} {v : Nat} {xs : List Ch} (h : Rel cfg a s) (hv : a v = some xs)
    (hch : op.changes v = true) (hop : op.weak = some v) (he : ErrB cfg (.user v) s e s') : Failed cfg op a s e s' := by
  rcases he with he | ⟨h1, h2, h3, h4, ys, h5⟩
  · exact Or.inl he
  · refine Or.inr ⟨h1, h2, _, h.one (v := v) (xs := ys) ⟨h3, h4, h5⟩, ?_, ?_, .one hch h4⟩
    · intro i hi
      rw [hop] at hi
      exact upd_other _ _ (fun e => hi (by rw [e]))
    · intro i
      by_cases e : i = v
      · subst e; simp [hv]
      · rw [upd_other _ _ e]

/-- A source gives a pointer to its characters. -/
theorem resolve_ok (hc : cfg.Ok) (h : Rel cfg a s) {src : Src} {ys : List Ch} (hs : src.chars a = some ys) (v : Nat) :
    ∃ p, src.resolve s = (.ok (p, (ys.map some : List Cell).length), s) ∧ ys.length < M64 ∧
      readCells p (ys.map some : List Cell).length s = (.ok (ys.map some), s) ∧
      (SrcOk cfg s (.user v) p (ys.map some) ∨ OwnSrc cfg s (.user v) p (ys.map some)) ∧
      (src.isIn v = false → SrcOk cfg s (.user v) p (ys.map some)) := by
  cases src with
  | lit xs =>
    simp only [Src.chars] at hs
    split at hs
    · next hl =>
      cases hs
      have hsrc : SrcOk cfg s (.user v) (.ext ys 0) (ys.map some) := Or.inl ⟨ys, 0, rfl, by simp, by simp⟩
      exact ⟨.ext ys 0, by simp [Src.resolve], hl, hsrc.read h.inv, Or.inl hsrc, fun _ => hsrc⟩
    · cases hs
  | sub u i n =>
    simp only [Src.chars, Option.bind_eq_bind, Option.bind_eq_some_iff] at hs
    obtain ⟨xs, hu, hs⟩ := hs
    split at hs
    · next hl =>
      cases hs
      have hr := h.held u xs hu
      obtain ⟨q, hq, _⟩ := hr.dataM
      have hlen : ((xs.drop i).take n).length = n := by simp; omega
      have e : ((xs.drop i).take n).map some = ((xs.map some : List Cell).drop i).take n := by simp
      have hread := hr.read hq (i := i) (k := n) (by simpa using hl)
      have hshort := hr.short hc h.inv
      simp only [List.length_map] at hshort
      refine ⟨q.add i, ?_, by omega, ?_, ?_⟩
      · simp only [List.length_map, hlen, Src.resolve]
        rw [bind_ok hq]; rfl
      · rw [List.length_map, hlen, e]; exact hread
      · have h1 : u ≠ v → SrcOk cfg s (.user v) (q.add i) (((xs.drop i).take n).map some) := by
          intro hne
          rw [e]
          exact hr.srcPart h.inv hq (by simpa using hne) (by simpa using hl)
        refine ⟨?_, fun hin => h1 (by simpa [Src.isIn] using hin)⟩
        by_cases hne : u = v
        · subst hne
          right
          obtain ⟨ob, l, m, g, eq⟩ := hr
          rw [g.dataM] at hq; cases hq
          have hm := Raw.length_take h.inv g
          have : xs.length = m := by rw [← hm, ← eq]; simp
          refine ⟨ob, l, m, i, g, rfl, by rw [List.length_map, hlen]; omega, ?_⟩
          rw [List.length_map, hlen, e, eq, List.drop_take, List.take_take, Nat.min_eq_left (by omega)]
        · exact Or.inl (h1 hne)
    · cases hs

theorem full_map {xs : List Ch} : Full (xs.map some) := ⟨xs, rfl⟩

theorem drop_min (xs : List Cell) (pos n : Nat) : xs.drop (pos + min n (xs.length - pos)) = xs.drop (pos + n) := by
  by_cases h : n ≤ xs.length - pos
  · rw [Nat.min_eq_left h]
  · rw [List.drop_of_length_le (by omega), List.drop_of_length_le (by omega)]

theorem set_some {v : Nat} {xs : List Ch} {out : Out} (h : a.set v xs = some out) :
    xs.length < M64 ∧ out = .done (upd a v (some xs)) := by
  unfold Abs.set at h
  split at h
  · next hl => exact ⟨hl, by cases h; rfl⟩
  · cases h

theorem make_some {v : Nat} {xs : List Ch} {out : Out} (h : a.make v xs = some out) :
    a v = none ∧ out = .done (upd a v (some xs)) := by
  unfold Abs.make at h
  split at h
  · next hl => exact ⟨by simpa using hl, by cases h; rfl⟩
  · cases h

/-- New strings. -/
theorem Rel.new {op : Op} {v : Nat} {xs : List Ch} {out : Out} (h : Rel cfg a s) (ho : a.make v xs = some out)
    (hr : s.vars (.user v) = none → Tri (op.run cfg) s (fun _ s' => Done cfg (.user v) (xs.map some) s s') (Err0 cfg s))
    (hch : op.changes v = true := by simp [Op.changes]) :
    Refines cfg op a s out := by
  obtain ⟨h1, rfl⟩ := make_some ho
  exact (hr (h.absent v h1)).mono (fun _ _ g => ⟨h.one g, .one hch g.frame⟩) (fun _ _ g => Failed.of0 h g)

/-- Changes of one string that leave it alone when they fail. -/
theorem Rel.edit {op : Op} {v : Nat} {xs ys : List Ch} {out : Out} (h : Rel cfg a s) (hv : a v = some xs) (ho : a.set v ys = some out)
    (hr : Raw cfg s (.user v) (xs.map some) → ys.length < M64 →
      Tri (op.run cfg) s (fun _ s' => Done cfg (.user v) (ys.map some) s s') (ErrS cfg (.user v) (xs.map some) s))
    (hch : op.changes v = true := by simp [Op.changes]) :
    Refines cfg op a s out := by
  obtain ⟨h1, rfl⟩ := set_some ho
  exact (hr (h.held v xs hv) h1).mono (fun _ _ g => ⟨h.one g, .one hch g.frame⟩) (fun _ _ g => Failed.ofS h hv hch g)

/-- Changes of one string that may change it also when they fail. -/
theorem Rel.editB {op : Op} {v : Nat} {xs ys : List Ch} {out : Out} (h : Rel cfg a s) (hv : a v = some xs) (ho : a.set v ys = some out)
    (hop : op.weak = some v)
    (hr : Raw cfg s (.user v) (xs.map some) → ys.length < M64 →
      Tri (op.run cfg) s (fun _ s' => Done cfg (.user v) (ys.map some) s s') (ErrB cfg (.user v) s))
    (hch : op.changes v = true := by simp [Op.changes]) :
    Refines cfg op a s out := by
  obtain ⟨h1, rfl⟩ := set_some ho
  exact (hr (h.held v xs hv) h1).mono (fun _ _ g => ⟨h.one g, .one hch g.frame⟩) (fun _ _ g => Failed.ofB h hv hch hop g)

/-- Changes of two strings that cannot fail. -/
theorem Rel.two {v u : Nat} {xs ys : List Ch} (h : Rel cfg a s) (hw : WInv cfg s')
    (hf : Frame (fun o => o = .user v ∨ o = .user u) s s') (hv : Reads cfg s' (.user v) xs) (hu : Reads cfg s' (.user u) ys)
    (hvu : v = u → xs = ys) : Rel cfg (upd (upd a v (some xs)) u (some ys)) s' := by
  refine h.change hw hf (by simp) ?_ ?_ ?_
  · intro i hi e
    exfalso
    by_cases e1 : i = u
    · subst e1; simp at e
    · rw [upd_other _ _ e1] at e
      rcases hi with hi | hi
      · cases hi; simp at e
      · cases hi; exact e1 rfl
  · intro i zs hi e
    by_cases e1 : i = u
    · subst e1; simp at e; subst e; exact hu
    · rw [upd_other _ _ e1] at e
      rcases hi with hi | hi
      · cases hi; simp at e; subst e; exact hv
      · cases hi; exact absurd rfl e1
  · intro i hi
    rw [upd_other _ _ (fun e => hi (Or.inr (by rw [e]))), upd_other _ _ (fun e => hi (Or.inl (by rw [e])))]

theorem if_none {α : Type} {c : Prop} [Decidable c] {x : Option α} {y : α} (h : (if c then none else x) = some y) : ¬ c ∧ x = some y := by
  split at h
  · cases h
  · next hc => exact ⟨hc, h⟩

theorem if_some {α : Type} {c : Prop} [Decidable c] {x : Option α} {y : α} (h : (if c then x else none) = some y) : c ∧ x = some y := by
  split at h
  · next hc => exact ⟨hc, h⟩
  · cases h

/-- The operations that make strings. -/
theorem step_new (hc : cfg.Ok) (h : Rel cfg a s) {op : Op} {out : Out} (ho : op.spec cfg.arena a = some out)
    (hop : match op with
      | .makeEmpty .. | .make .. | .makeFill .. | .copy .. | .move .. | .clone .. | .substr .. | .substrMove .. | .concat .. | .concatWith .. => True
      | _ => False) : Refines cfg op a s out := by
  cases op <;> simp only at hop
  case makeEmpty v al =>
    obtain ⟨ha, ho⟩ := if_some ho
    refine h.new ho fun hv => ?_
    obtain ⟨s1, l, e1, e2, e3, e4, _⟩ := ctorEmpty_ok h.inv hv ha
    exact Tri.of_ok e1 ⟨e2, e3, _, _, _, e4, by simp⟩
  case make v al src =>
    simp only [Op.spec, Option.bind_eq_bind, Option.bind_eq_some_iff] at ho
    obtain ⟨ys, hs, ho⟩ := ho
    obtain ⟨ha, ho⟩ := if_some ho
    refine h.new ho fun hv => ?_
    obtain ⟨p, k1, k2, k3, _⟩ := resolve_ok hc h hs v
    refine Tri.step k1 ?_
    exact (ctorData_tri hc h.inv hv ha k3).mono (fun _ _ g => ⟨g.inv, g.frame, g.own.elim fun _ o => o.raw⟩) (fun _ _ g => g)
  case makeFill v al n c =>
    obtain ⟨⟨ha, hn⟩, ho⟩ := if_some ho
    refine h.new ho fun hv => ?_
    exact (ctorFill_tri hc h.inv hv (by simp) (h.tmps 0) ha hn).mono (fun _ _ g => by simpa using g.1) (fun _ _ g => g)
  case copy v u =>
    simp only [Op.spec, Option.bind_eq_bind, Option.bind_eq_some_iff] at ho
    obtain ⟨xs, hu, ho⟩ := ho
    exact h.new ho fun hv => copy_tri hc h.inv hv (h.held u xs hu)
  case clone v u =>
    simp only [Op.spec, Option.bind_eq_bind, Option.bind_eq_some_iff] at ho
    obtain ⟨xs, hu, ho⟩ := ho
    exact h.new ho fun hv => clone_tri hc h.inv hv (h.held u xs hu)
  case move v u =>
    simp only [Op.spec, Option.bind_eq_bind, Option.bind_eq_some_iff] at ho
    obtain ⟨xs, hu, ho⟩ := ho
    obtain ⟨hv, ho⟩ := if_some ho
    cases ho
    have hv : a v = none := by simpa using hv
    obtain ⟨s1, e1, e2, e3, e4, e5, _⟩ := ctorMove_ok h.inv (h.absent v hv) (h.held u xs hu)
    exact Tri.of_ok e1 ⟨h.two e2 e3 e4 e5 (by rintro rfl; rw [hv] at hu; cases hu), Kept.two (by simp [Op.changes]) (by simp [Op.changes]) e3⟩
  case substr v u pos n =>
    simp only [Op.spec, Option.bind_eq_bind, Option.bind_eq_some_iff] at ho
    obtain ⟨xs, hu, ho⟩ := ho
    obtain ⟨hv, ho⟩ := if_none ho
    split at ho
    · next hp =>
      refine h.new ho fun hv => ?_
      exact (substr_tri hc h.inv hv (h.held u xs hu) (by simpa using hp)).mono (fun _ _ g => by simpa using g) (fun _ _ g => g)
    · next hp =>
      cases ho
      show Str.substr cfg _ _ _ _ s = _
      unfold Str.substr
      rw [bind_ok ((h.held u xs hu).sizeM h.inv), bind_apply, enforce_no (by simpa using hp)]
  case substrMove v u pos n =>
    simp only [Op.spec, Option.bind_eq_bind, Option.bind_eq_some_iff] at ho
    obtain ⟨xs, hu, ho⟩ := ho
    obtain ⟨hv, ho⟩ := if_none ho
    have hv : a v = none := by simpa using hv
    split at ho
    · next hp =>
      cases ho
      refine (substrMove_tri hc h.inv (h.absent v hv) (h.held u xs hu) (by simpa using hp)).mono (fun _ s1 g => ?_)
        (fun _ _ g => Failed.ofS h hu (by simp [Op.changes]) g)
      obtain ⟨e2, e3, e4, e5⟩ := g
      exact ⟨h.two e2 e3 (by simpa [Reads] using e4) e5 (by rintro rfl; rw [hv] at hu; cases hu), Kept.two (by simp [Op.changes]) (by simp [Op.changes]) e3⟩
    · next hp =>
      cases ho
      show Str.substrMove cfg _ _ _ _ s = _
      unfold Str.substrMove
      rw [bind_ok ((h.held u xs hu).sizeM h.inv), bind_apply, enforce_no (by simpa using hp)]
  case concat v u1 u2 =>
    simp only [Op.spec, Option.bind_eq_bind, Option.bind_eq_some_iff] at ho
    obtain ⟨xs, hu1, ys, hu2, ho⟩ := ho
    obtain ⟨hl, ho⟩ := if_some ho
    refine h.new ho fun hv => ?_
    exact (concat_tri hc h.inv h.free hv (by simp) (by simp) (h.held u1 xs hu1) (h.held u2 ys hu2) (by simpa using hl)).mono
      (fun _ _ g => by simpa using g) (fun _ _ g => g)

  case concatWith v u q1 q2 =>
    simp only [Op.spec, Option.bind_eq_bind, Option.bind_eq_some_iff] at ho
    obtain ⟨xs, hu, ho⟩ := ho
    obtain ⟨hl, ho⟩ := if_some ho
    have e : ∀ q : Part, q.cells (xs.map some) = (q.of xs).map some := fun q => by cases q <;> rfl
    refine h.new ho fun hv => ?_
    exact (plusNew_tri hc h.inv h.free hv (by simp) (by simp) (h.held u xs hu) q1 q2 (by simpa [e] using hl)).mono
      (fun _ _ g => by simpa [e] using g) (fun _ _ g => g)

theorem checker_out {β : Type} {v : Obj} {body : M β} {cs : List Cell} (hw : WInv cfg s) (hv : Raw cfg s v cs)
    (hb : body s = (.error (.throw "out_of_range"), s)) : checker cfg v body s = (.error (.throw "out_of_range"), s) :=
  checker_throw hw hv hb

/-- The operations on strings that exist. -/
theorem step_old (hc : cfg.Ok) (h : Rel cfg a s) {op : Op} {out : Out} (ho : op.spec cfg.arena a = some out)
    (hop : match op with
      | .makeEmpty .. | .make .. | .makeFill .. | .copy .. | .move .. | .clone .. | .substr .. | .substrMove .. | .concat .. | .concatWith .. => False
      | _ => True) : Refines cfg op a s out := by
  cases op <;> simp only at hop <;> simp only [Op.spec, Option.bind_eq_bind, Option.bind_eq_some_iff] at ho
  case destroy v =>
    obtain ⟨xs, hv, ho⟩ := ho
    cases ho
    obtain ⟨ob, hob⟩ := (h.held v xs hv).var
    obtain ⟨s1, e1, e2, e3, e4, _⟩ := destroy_ok h.inv hob
    refine Tri.of_ok e1 ⟨h.change e2 e3 (by simp) ?_ ?_ ?_, .one (by simp [Op.changes]) e3⟩
    · intro i hi _; cases hi; exact e4
    · intro i ys hi e; cases hi; simp at e
    · intro i hi; exact upd_other _ _ (fun e => hi (by rw [e]))
  case swap v u =>
    obtain ⟨xs, hv, ys, hu, ho⟩ := ho
    cases ho
    obtain ⟨s1, e1, e2, e3, e4, e5, _⟩ := swap_any h.inv (h.held v xs hv) (h.held u ys hu)
    exact Tri.of_ok e1 ⟨h.two e2 e3 e4 e5 (by rintro rfl; rw [hv] at hu; cases hu; rfl), Kept.two (by simp [Op.changes]) (by simp [Op.changes]) e3⟩
  case assignStr v u =>
    obtain ⟨xs, hv, ys, hu, ho⟩ := ho
    exact h.editB hv ho rfl fun r _ => assignStr_tri hc h.inv h.free r full_map (h.held u ys hu)
  case assignMove v u =>
    obtain ⟨xs, hv, ys, hu, ho⟩ := ho
    cases ho
    by_cases e : u = v
    · subst e
      rw [hu] at hv; cases hv
      rw [upd_upd, upd_self hu]
      refine Tri.of_ok (b := ()) (s' := s) ?_ ⟨h, fun _ _ => rfl⟩
      show Str.assignMove cfg _ _ s = _
      unfold Str.assignMove
      exact noexcept_ok (by rw [if_pos rfl]; rfl)
    · obtain ⟨s1, e1, e2, e3, e4, e5, _⟩ := assignMove_ok h.inv (h.held v xs hv) (h.held u ys hu) (by simpa using e)
      exact Tri.of_ok e1 ⟨h.two e2 (e3.mono fun _ h => h.symm) e5 e4 (fun e' => absurd e' e), Kept.two (by simp [Op.changes]) (by simp [Op.changes]) (e3.mono fun _ h => h.symm)⟩
  case assign v src =>
    obtain ⟨xs, hv, ys, hs, ho⟩ := ho
    obtain ⟨p, k1, k2, k3, k4, k5⟩ := resolve_ok hc h hs v
    exact h.editB hv ho rfl fun r _ => Tri.step k1 (assign_tri hc h.inv h.free r full_map k4 (by simpa using k2))
  case assignFill v n c =>
    obtain ⟨xs, hv, ho⟩ := ho
    exact h.editB hv ho rfl fun r hl =>
      (assignFill_tri hc h.inv h.free r full_map (by simpa using hl)).mono (fun _ _ g => by simpa using g) (fun _ _ g => g)
  case assignChar v c =>
    obtain ⟨xs, hv, ho⟩ := ho
    obtain ⟨har, ho⟩ := if_none ho
    exact h.editB hv ho rfl fun r _ => assignChar_tri hc h.inv h.free (h.tmps 4) (by simpa using har) r full_map
  case append v src =>
    obtain ⟨xs, hv, ys, hs, ho⟩ := ho
    obtain ⟨p, k1, k2, k3, k4, k5⟩ := resolve_ok hc h hs v
    exact h.edit hv ho fun r hl => Tri.step k1 ((append_tri hc h.inv h.free r k4 (by simpa using hl)).mono
      (fun _ _ g => by simpa using g) (fun _ _ g => g))
  case appendStr v u =>
    obtain ⟨xs, hv, ys, hu, ho⟩ := ho
    exact h.edit hv ho fun r hl => (appendStr_tri hc h.inv h.free r (h.held u ys hu) (by simpa using hl)).mono
      (fun _ _ g => by simpa using g) (fun _ _ g => g)
  case appendFill v n c =>
    obtain ⟨xs, hv, ho⟩ := ho
    exact h.edit hv ho fun r hl => (appendFill_tri hc h.inv h.free r (by simpa using hl)).mono
      (fun _ _ g => by simpa using g) (fun _ _ g => g)
  case appendRange v src =>
    obtain ⟨xs, hv, ys, hs, ho⟩ := ho
    obtain ⟨hin, ho⟩ := if_none ho
    obtain ⟨p, k1, k2, k3, k4, k5⟩ := resolve_ok hc h hs v
    exact h.edit hv ho fun r hl => Tri.step k1 ((appendRange_tri hc h.inv h.free r (k5 (by simpa using hin)) (by simpa using hl)).mono
      (fun _ _ g => by simpa using g.done) (fun _ _ g => g))
  case pushBack v c =>
    obtain ⟨xs, hv, ho⟩ := ho
    exact h.edit hv ho fun r hl => (pushBack_tri hc h.inv h.free r (by simpa using hl)).mono
      (fun _ _ g => by simpa using g) (fun _ _ g => g)
  case popBack v =>
    obtain ⟨xs, hv, ho⟩ := ho
    obtain ⟨h0, ho⟩ := if_none ho
    exact h.edit hv ho fun r hl => (popBack_tri hc h.inv h.free r (by simpa using h0)).mono
      (fun _ _ g => by simpa using g) (fun _ _ g => g)
  case resize v n c =>
    obtain ⟨xs, hv, ho⟩ := ho
    exact h.edit hv ho fun r hl => (resize_tri hc h.inv h.free r (by simp at hl; omega)).mono
      (fun _ _ g => by simpa using g) (fun _ _ g => g)
  case reserve v n =>
    obtain ⟨xs, hv, ho⟩ := ho
    obtain ⟨h0, ho⟩ := if_some ho
    exact h.edit hv ho fun r hl => reserve_tri hc h.inv h.free r
  case shrinkToFit v =>
    obtain ⟨xs, hv, ho⟩ := ho
    exact h.edit hv ho fun r hl => shrinkToFit_tri hc h.inv (h.tmps 5) r
  case getline v is delim =>
    obtain ⟨xs, hv, ho⟩ := ho
    split at ho
    · next h0 =>
      simp only [IStream.calm, Bool.and_eq_true, Bool.not_eq_true'] at h0
      refine h.editB hv ho rfl fun r _ => Tri.bind (getline_tri hc h.inv h.free r full_map h0.1.1 ⟨h0.1.2, h0.2⟩ delim) ?_
      exact fun _ _ g => Tri.ret g.2
    · obtain ⟨h0, ho⟩ := if_some ho
      simp only [IStream.over, Bool.and_eq_true, Bool.not_eq_true'] at h0
      refine h.editB hv ho rfl fun r _ => Tri.bind (getline_dead_tri hc h.inv h.free r full_map h0.1.1.1 ⟨h0.1.1.2, h0.1.2, h0.2⟩ delim) ?_
      exact fun _ _ g => Tri.ret g.2
  case extract v is =>
    obtain ⟨xs, hv, ho⟩ := ho
    obtain ⟨⟨h0, h1⟩, ho⟩ := if_some ho
    simp only [IStream.calm, Bool.and_eq_true, Bool.not_eq_true'] at h0
    refine h.editB hv ho rfl fun r _ => Tri.bind (extract_tri hc h.inv h.free r h0.1.1 ⟨h0.1.2, h0.2⟩ h1) ?_
    exact fun _ _ g => Tri.ret g.2
  case clear v =>
    obtain ⟨xs, hv, ho⟩ := ho
    exact h.edit hv ho fun r hl => (resize_tri hc h.inv h.free r (n := 0) (c := 0) (by decide)).mono
      (fun _ _ g => by simpa using g) (fun _ _ g => g)
  case setAt v i c =>
    obtain ⟨xs, hv, ho⟩ := ho
    obtain ⟨hi, ho⟩ := if_some ho
    exact h.edit hv ho fun r hl => (setAt_tri hc h.inv r (by simpa using hi)).mono
      (fun _ _ g => by simpa [List.map_set] using g) (fun _ _ g => g)
  case insert v pos src =>
    obtain ⟨xs, hv, ys, hs, ho⟩ := ho
    obtain ⟨hin, ho⟩ := if_none ho
    obtain ⟨p, k1, k2, k3, k4, k5⟩ := resolve_ok hc h hs v
    split at ho
    · next hp =>
      refine h.edit hv ho fun r hl => Tri.step k1 ((insert_tri hc h.inv h.free r (by simpa using hp) (k5 (by simpa using hin)) ?_).mono
        (fun _ _ g => by simpa [splice] using g) (fun _ _ g => g))
      simp [splice] at hl; simp; omega
    · next hp =>
      cases ho
      refine (bind_ok k1).trans ?_
      simp only
      unfold Str.insert
      rw [bind_ok ((h.held v xs hv).sizeM h.inv), bind_apply, enforce_no (by simpa using hp)]
  case insertFill v pos n c =>
    obtain ⟨xs, hv, ho⟩ := ho
    split at ho
    · next hp =>
      refine h.edit hv ho fun r hl => (insertFill_tri hc h.inv h.free r (by simpa using hp) ?_).mono
        (fun _ _ g => by simpa [splice] using g) (fun _ _ g => g)
      simp [splice] at hl; simp; omega
    · next hp =>
      cases ho
      show Str.insertFill cfg _ _ _ _ s = _
      unfold Str.insertFill
      rw [bind_ok ((h.held v xs hv).sizeM h.inv), bind_apply, enforce_no (by simpa using hp)]
  case erase v pos n =>
    obtain ⟨xs, hv, ho⟩ := ho
    split at ho
    · next hp =>
      refine h.edit hv ho fun r hl => (erase_tri hc h.inv r (by simpa using hp)).mono (fun _ _ g => ?_) (fun _ _ g => g)
      rw [drop_min] at g
      simpa [splice] using g.done
    · next hp =>
      cases ho
      show Str.erase cfg _ _ _ s = _
      unfold Str.erase
      refine checker_out h.inv (h.held v xs hv) ?_
      rw [bind_ok ((h.held v xs hv).sizeM h.inv), bind_apply, enforce_no (by simpa using hp)]
  case replace v pos n1 src =>
    obtain ⟨xs, hv, ys, hs, ho⟩ := ho
    obtain ⟨hin, ho⟩ := if_none ho
    obtain ⟨p, k1, k2, k3, k4, k5⟩ := resolve_ok hc h hs v
    split at ho
    · next hp =>
      have hsrc : SrcOk cfg s (.user v) p (ys.map some) ∨ OwnSrc cfg s (.user v) p (ys.map some) ∧ cfg.arena = false := by
        rcases k4 with k4 | k4
        · exact Or.inl k4
        · cases har : cfg.arena with
          | false => exact Or.inr ⟨k4, rfl⟩
          | true => exact Or.inl (k5 (by simpa [har] using hin))
      refine h.editB hv ho rfl fun r hl => Tri.step k1 ((replace_tri hc h.inv h.free (h.tmps 2) r full_map full_map (by simpa using hp) hsrc ?_).mono
        (fun _ _ g => ?_) (fun _ _ g => g))
      · simp [splice] at hl; simp; omega
      · rw [drop_min] at g
        simpa [splice] using g
    · next hp =>
      cases ho
      refine (bind_ok k1).trans ?_
      simp only
      unfold Str.replace
      refine checker_out h.inv (h.held v xs hv) ?_
      rw [bind_ok ((h.held v xs hv).sizeM h.inv), bind_apply, enforce_no (by simpa using hp)]
  case replaceFill v pos n1 n2 c =>
    obtain ⟨xs, hv, ho⟩ := ho
    split at ho
    · next hp =>
      refine h.editB hv ho rfl fun r hl => (replaceFill_tri hc h.inv h.free r full_map (by simpa using hp) ?_).mono
        (fun _ _ g => ?_) (fun _ _ g => g)
      · simp [splice] at hl; simp; omega
      · rw [drop_min] at g
        simpa [splice] using g
    · next hp =>
      cases ho
      show Str.replaceFill cfg _ _ _ _ _ s = _
      unfold Str.replaceFill
      refine checker_out h.inv (h.held v xs hv) ?_
      rw [bind_ok ((h.held v xs hv).sizeM h.inv), bind_apply, enforce_no (by simpa using hp)]

/-- Every operation does what its specification says, or memory runs out. -/
theorem step_refines (hc : cfg.Ok) (h : Rel cfg a s) {op : Op} {out : Out} (ho : op.spec cfg.arena a = some out) :
    Refines cfg op a s out := by
  cases op
  case makeEmpty | make | makeFill | copy | move | clone | substr | substrMove | concat | concatWith => exact step_new hc h ho trivial
  all_goals exact step_old hc h ho trivial

end Verif.Str
