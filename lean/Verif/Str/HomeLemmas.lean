import Verif.Str.Lodge
import Verif.Str.HomeSpec

/-!
The allocators and blocks of the strings of a program: helper lemmas.
-/

namespace Verif.Str

open M

variable {β γ : Type} {cfg : Cfg} {π : Plan} {s s' : St} {a a' : Abs} {v u : Obj} {op : Op}

/-! ### `replace` on arenas, with a source outside the string -/

theorem lodged_step {x : M β} {f : β → M γ} {b : β} (h : x s = (.ok b, s')) (hf : Lodged π (f b s').2) :
    Lodged π ((x >>= f) s).2 := by
  rw [bind_ok h]; exact hf

theorem lodged_checking {body : M β} (h : Lodged π (body s).2) : Lodged π (checking cfg v body s).2 := by
  have hs := fun s (h : Lodged π s) => (sane_lodge (cfg := cfg) v).keeps s h
  unfold checking
  rcases hb : body s with ⟨r, s1⟩
  rw [hb] at h
  have := hs s1 h
  rcases e1 : sane cfg v s1 with ⟨r1, s2⟩
  rw [e1] at this
  rcases r with f | b
  · cases f with
    | ub _ => exact h
    | assertFail _ => exact h
    | throw w =>
      simp only [e1]
      cases r1 <;> exact this
  · simp only [e1]
    cases r1 <;> exact this

theorem lodged_checker {body : M β} {cs : List Cell} (hw : WInv cfg s) (hv : Raw cfg s v cs) (h : Lodged π (body s).2) :
    Lodged π (checker cfg v body s).2 := by
  unfold checker
  exact lodged_step (sane_ok hw hv) (lodged_checking h)

theorem replaceImpl_apart {cs ys : List Cell} {b p : Ptr} (hA : π.A v = π.a) (hl : Lodged π s) (hw : WInv cfg s)
    (hv : Own cfg s v b cs) (hs : SrcOk cfg s v p ys) (i1 : Ptr) (pos n1 n2 : Nat) :
    Lodged π (replaceImpl cfg v i1 pos n1 p n2 s).2 := by
  unfold replaceImpl
  refine lodged_checker hw hv.raw ?_
  refine lodged_step (begin_own hw hv) (lodged_step (hv.raw.sizeM hw) ?_)
  rw [if_neg]
  · have key : Lodge π (fun _ => True) (if n2 < n1 then do
        podMove p n2 i1
        eraseAt cfg v (i1.add n2) (n1 - n2)
        sane cfg v
      else do
        podMove p n1 i1
        insertRangeAt cfg v (i1.add n1) (p.add n1) (n2 - n1)
        sane cfg v) := by
      lodge
    exact key.keeps s hl
  · have := hs.apart hw hv 0
    rw [Ptr.add_zero] at this
    unfold Ptr.within
    rw [this]
    simp

theorem replace_apart {cs ys : List Cell} {p : Ptr} (hA : π.A v = π.a) (hl : Lodged π s) (hc : cfg.Ok) (hw : WInv cfg s)
    (hv : Raw cfg s v cs) (hs : SrcOk cfg s v p ys) (pos n1 n2 : Nat) : Lodged π (replace cfg v pos n1 p n2 s).2 := by
  unfold replace
  refine lodged_checker hw hv ?_
  refine lodged_step (hv.sizeM hw) ?_
  by_cases hp : pos ≤ cs.length
  swap
  · rw [bind_apply, enforce_no (by simpa using hp)]
    exact hl
  refine lodged_step (enforce_ok (by simpa using hp)) ?_
  rw [bind_apply]
  have hb := begin_tri hc hw hv
  have hk := (begin__lodge (cfg := cfg) hA).keeps s hl
  unfold Tri at hb
  rcases e : begin_ cfg v s with ⟨r, s1⟩
  rw [e] at hb hk
  cases r with
  | error e => exact hk
  | ok b =>
    obtain ⟨w1, f1, o1⟩ := hb
    show Lodged π ((replaceCheck cfg v (b.add pos) (min n1 (cs.length - pos)) >>= fun _ =>
      replaceImpl cfg v (b.add pos) pos (min n1 (cs.length - pos)) p n2) s1).2
    have hcheck : ∃ r, replaceCheck cfg v (b.add pos) (min n1 (cs.length - pos)) s1 = (r, s1) := by
      unfold replaceCheck
      split
      · rw [bind_ok (begin_own w1 o1), bind_ok (o1.raw.sizeM w1)]
        unfold assert
        repeat' split
        all_goals exact ⟨_, rfl⟩
      · exact ⟨_, rfl⟩
    obtain ⟨r, hr⟩ := hcheck
    rw [bind_apply, hr]
    cases r with
    | error e => exact hk
    | ok _ => exact replaceImpl_apart hA hk w1 o1 (hs.frame f1) _ _ _ _

/-! ### The plan of an operation -/

/-- The characters of a string lie in the object or in a block of its allocator. -/
def Home (s : St) : Prop := ∀ o ob d, s.vars o = some ob → ob.core.blk? = some d → ∃ B, s.heap d = some B ∧ B.src = ob.al

/-- The plan of a state, with `al` for what is new. -/
def planOf (s : St) (hw : WInv cfg s) (ht : ∀ i, s.vars (.tmp i) = none) (al : Nat) : Plan where
  A o := match s.vars o with
    | some ob => ob.al
    | none => al
  F b := match s.heap b with
    | some B => B.src
    | none => al
  start := s.next
  a := al
  new b hb := by rw [hw.fresh b hb]
  tmp i := by simp [ht i]

theorem planOf_lodged (hw : WInv cfg s) (ht : ∀ i, s.vars (.tmp i) = none) (hh : Home s) (al : Nat) : Lodged (planOf s hw ht al) s where
  vars o ob ho := by
    refine ⟨by simp [planOf, ho], ?_⟩
    have hh := hh o ob
    obtain ⟨core, al'⟩ := ob
    cases core with
    | small l => trivial
    | ml d n cap large =>
      obtain ⟨B, hB, hs⟩ := hh d ho rfl
      simp [Core.lodged, planOf, hB, ho, hs]
  heap b B hb := by simp [planOf, hb]
  next := Nat.le_refl _

/-- What a state as planned has. -/
theorem Lodged.home (h : Lodged π s) (hw : WInv cfg s) : Home s := by
  intro o ob d ho hd
  obtain ⟨h1, h2⟩ := h.vars o ob ho
  have hc := hw.core o ob ho
  obtain ⟨core, al⟩ := ob
  cases core with
  | small l => cases hd
  | ml d' n cap large =>
    cases hd
    obtain ⟨B, hB, _⟩ := hc
    refine ⟨B, hB, ?_⟩
    rw [h.heap _ _ hB, h1]
    exact h2

/-! ### Operations -/

/-- The allocator that an operation is given. -/
def Op.given : Op → Option Nat
  | .makeEmpty _ al | .make _ al _ | .makeFill _ al _ _ => some al
  | _ => none

/-- The strings an operation changes, and the one whose allocator it takes; the last of them has an allocator, or is made. -/
def Op.at : Op → List Nat
  | .makeEmpty v _ | .make v _ _ | .makeFill v _ _ _ | .destroy v | .assignStr v _ | .assign v _ | .assignFill v _ _ | .assignChar v _
  | .append v _ | .appendStr v _ | .appendFill v _ _ | .appendRange v _ | .pushBack v _ | .popBack v
  | .resize v _ _ | .reserve v _ | .shrinkToFit v | .clear v | .setAt v _ _ | .insert v _ _
  | .insertFill v _ _ _ | .erase v _ _ | .replace v _ _ _ | .replaceFill v _ _ _ _
  | .getline v _ _ | .extract v _ => [v]
  | .copy v u | .move v u | .clone v u | .substr v u _ _ | .substrMove v u _ _ | .concat v u _ | .concatWith v u _ _ | .swap v u
  | .assignMove v u => [v, u]

theorem op_lodge (op : Op) (hm : ∀ v u, op ≠ .assignMove v u) (hr : (∃ v p n src, op = .replace v p n src) → π.a = 0)
    (hch : (∃ v c, op = .assignChar v c) → π.a = 0)
    (h0 : cfg.arena = false → π.a = 0) (hg : ∀ al, op.given = some al → al = π.a) (hA : ∀ v ∈ op.at, π.A (.user v) = π.a) :
    Lodge π (fun _ => True) (op.run cfg) := by
  cases op <;> simp only [Op.at, List.mem_cons, List.not_mem_nil, or_false, forall_eq_or_imp, forall_eq, Op.given, Option.some.injEq, forall_eq'] at hA hg <;>
    simp only [Op.run]
  case makeEmpty v al => exact ctorEmpty_lodge _ (hg.trans hA.symm)
  case make v al src => exact Lodge.bind (Src.resolve_lodge _) fun _ _ => ctorData_lodge hA hg _ _
  case makeFill v al n c => exact ctorFill_lodge hA hg _ _
  case copy v u => exact ctorCopy_lodge hA.1 hA.2
  case move v u => exact ctorMove_lodge hA.1 hA.2
  case clone v u => exact clone_lodge hA.1 hA.2
  case substr v u pos n => exact substr_lodge hA.1 hA.2 _ _
  case substrMove v u pos n => exact substrMove_lodge hA.1 hA.2 _ _
  case concat v u w => exact concat_lodge hA.1 hA.2 _
  case concatWith v u q1 q2 => exact plusNew_lodge hA.1 hA.2 _ _
  case destroy v => exact destroy_lodge _
  case swap v u => exact swap_lodge hA.1 hA.2
  case assignMove v u => exact absurd rfl (hm v u)
  case assign v src => exact Lodge.bind (Src.resolve_lodge _) fun _ _ => assign_lodge hA _ _
  case assignChar v c => exact assignChar_lodge hA (hch ⟨_, _, rfl⟩) _
  case append v src => exact Lodge.bind (Src.resolve_lodge _) fun _ _ => append_lodge hA _ _
  case appendRange v src => exact Lodge.bind (Src.resolve_lodge _) fun _ _ => appendRange_lodge hA _ _
  case insert v pos src => exact Lodge.bind (Src.resolve_lodge _) fun _ _ => insert_lodge hA _ _ _
  case replace v pos n src => exact Lodge.bind (Src.resolve_lodge _) fun _ _ => replace_lodge hA (hr ⟨_, _, _, _, rfl⟩) _ _ _ _
  case shrinkToFit v => exact shrinkToFit_lodge hA h0
  all_goals lodge

/-! ### The allocators of the strings -/

/-- `get_allocator()` of the strings alive. -/
def homeOf (s : St) (i : Nat) : Option Nat := (s.vars (.user i)).map (·.al)

/-- What an operation leaves and needs of the allocators, `al` being that of what it makes. -/
def Fits (op : Op) (arena : Bool) (g : Allocs) (a' : Abs) (al : Nat) : Prop :=
  (∀ al', op.given = some al' → al' = al) ∧ (∀ v ∈ op.at, ∀ x, g v = some x → x = al) ∧ (arena = false → al = 0) ∧
    ∀ i, op.allocs g i = if (a' i).isSome then some ((g i).getD al) else none

variable {arena : Bool} {g : Allocs}

theorem Fits.new {v : Nat} {al : Nat} {xs : List Ch} (hga : ∀ i, (g i).isSome = (a i).isSome) (hv : a v = none)
    (hg : ∀ al', op.given = some al' → al' = al) (h0 : arena = false → al = 0)
    (hat : ∀ u ∈ op.at, u ≠ v → g u = some al) (hal : op.allocs g = upd g v (some al)) (ha : ∀ i, (a' i).isSome = (upd a v (some xs) i).isSome) : Fits op arena g a' al := by
  have hgv : g v = none := by have := hga v; rw [hv] at this; simpa using this
  refine ⟨hg, fun u hu x hx => ?_, h0, fun i => ?_⟩
  · by_cases e : u = v
    · rw [e, hgv] at hx; cases hx
    · rw [hat u hu e] at hx; exact (Option.some.inj hx).symm
  · rw [hal, ha]
    by_cases e : i = v
    · subst e; simp [upd, hgv]
    · simp only [upd, e, if_false]
      rw [← hga i]
      cases g i <;> rfl

theorem Fits.old {al : Nat} (hga : ∀ i, (g i).isSome = (a i).isSome)
    (hg : op.given = none) (h0 : arena = false → al = 0)
    (hat : ∀ u ∈ op.at, g u = some al) (hal : op.allocs g = g) (ha : ∀ i, (a' i).isSome = (a i).isSome) : Fits op arena g a' al := by
  refine ⟨fun al' h => by simp [hg] at h, fun u hu x hx => ?_, h0, fun i => ?_⟩
  · rw [hat u hu] at hx; exact (Option.some.inj hx).symm
  · rw [hal, ha, ← hga i]
    cases g i <;> rfl

theorem isSome_upd {v : Nat} {x : Option (List Ch)} (h : x.isSome = (a v).isSome) (i : Nat) : (upd a v x i).isSome = (a i).isSome := by
  by_cases e : i = v
  · subst e; simpa [upd] using h
  · simp [upd, e]

theorem Abs.make_done {v : Nat} {xs : List Ch} (h : a.make v xs = some (.done a')) : a v = none ∧ a' = upd a v (some xs) := by
  unfold Abs.make at h
  split at h
  · next hn => cases h; exact ⟨by simpa using hn, rfl⟩
  · cases h

theorem Abs.set_done {v : Nat} {xs : List Ch} (h : a.set v xs = some (.done a')) : a' = upd a v (some xs) := by
  unfold Abs.set at h
  split at h
  · cases h; rfl
  · cases h

theorem if_done {c : Prop} [Decidable c] {x : Option Out} {a' : Abs} (h : (if c then x else none) = some (.done a')) :
    c ∧ x = some (.done a') := by
  split at h
  · next hc => exact ⟨hc, h⟩
  · cases h

theorem if_range {c : Prop} [Decidable c] {x : Option Out} {a' : Abs} (h : (if c then x else some .outOfRange) = some (.done a')) :
    x = some (.done a') := by
  split at h
  · exact h
  · cases h

/-- Every operation has such an allocator. -/
theorem op_fits (hga : ∀ i, (g i).isSome = (a i).isSome) (hal : ∀ i x, g i = some x → arena = (x != 0))
    (ho : op.spec arena a = some (.done a')) (hm : ∀ v u, op ≠ .assignMove v u) (hs : op.settled g) : ∃ al, Fits op arena g a' al := by
  have get : ∀ {i : Nat} {xs : List Ch}, a i = some xs → ∃ al, g i = some al ∧ (arena = false → al = 0) := by
    intro i xs hi
    have := hga i
    rw [hi] at this
    cases h : g i with
    | none => simp [h] at this
    | some al =>
      refine ⟨al, rfl, fun e => ?_⟩
      have := hal i al h
      rw [e] at this
      simpa using this
  have one : ∀ {v : Nat} {xs : List Ch}, a v = some xs → (∀ i, (a' i).isSome = (a i).isSome) → op.at = [v] → op.given = none →
      op.allocs g = g → ∃ al, Fits op arena g a' al := by
    intro v xs hv ha h1 h2 h3
    obtain ⟨al, hg, h0⟩ := get hv
    refine ⟨al, Fits.old hga h2 h0 (fun u hu => ?_) h3 ha⟩
    rw [h1] at hu
    simp at hu; rw [hu]; exact hg
  have from_ : ∀ {v u : Nat} {xs ys : List Ch}, a u = some xs → a v = none → (∀ i, (a' i).isSome = (upd a v (some ys) i).isSome) →
      op.at = [v, u] → op.given = none → op.allocs g = upd g v (g u) → ∃ al, Fits op arena g a' al := by
    intro v u xs ys hu hv ha h1 h2 h3
    obtain ⟨al, hg, h0⟩ := get hu
    refine ⟨al, Fits.new hga hv (fun _ h => by simp [h2] at h) h0 (fun w hw e => ?_) (by rw [h3, hg]) ha⟩
    rw [h1] at hw
    simp [e] at hw; rw [hw]; exact hg
  have given : ∀ {v al : Nat} {xs : List Ch}, arena = (al != 0) → a v = none → a' = upd a v (some xs) → op.at = [v] → op.given = some al →
      op.allocs g = upd g v (some al) → ∃ al, Fits op arena g a' al := by
    intro v al xs har hv ha h1 h2 h3
    refine ⟨al, Fits.new (xs := xs) hga hv (fun _ h => by rw [h2] at h; cases h; rfl) (fun e => ?_) (fun w hw e => ?_) h3 (by simp [ha])⟩
    · rw [e] at har; simpa using har
    · rw [h1] at hw
      simp [e] at hw
  cases op <;> simp only [Op.spec, Option.bind_eq_bind, Option.bind_eq_some_iff] at ho
  case makeEmpty v al =>
    obtain ⟨h1, h2⟩ := if_done ho
    exact given h1 (Abs.make_done h2).1 (Abs.make_done h2).2 rfl rfl rfl
  case make v al src =>
    obtain ⟨xs, _, ho⟩ := ho
    obtain ⟨h1, h2⟩ := if_done ho
    exact given h1 (Abs.make_done h2).1 (Abs.make_done h2).2 rfl rfl rfl
  case makeFill v al n c =>
    obtain ⟨h1, h2⟩ := if_done ho
    exact given h1.1 (Abs.make_done h2).1 (Abs.make_done h2).2 rfl rfl rfl
  case copy v u =>
    obtain ⟨xs, hu, h2⟩ := ho
    exact from_ hu (Abs.make_done h2).1 (fun i => by rw [(Abs.make_done h2).2]) rfl rfl rfl
  case clone v u =>
    obtain ⟨xs, hu, h2⟩ := ho
    exact from_ hu (Abs.make_done h2).1 (fun i => by rw [(Abs.make_done h2).2]) rfl rfl rfl
  case move v u =>
    obtain ⟨xs, hu, h2⟩ := ho
    obtain ⟨h1, h2⟩ := if_done h2
    have hv : a v = none := by simpa using h1
    cases h2
    refine from_ (ys := xs) hu hv (fun i => isSome_upd ?_ i) rfl rfl rfl
    by_cases e : u = v <;> simp [upd, e, hu]
  case substr v u pos n =>
    obtain ⟨xs, hu, h2⟩ := ho
    obtain ⟨h1, h2⟩ := if_none h2
    have h2 := Abs.make_done (if_range h2)
    exact from_ hu h2.1 (fun i => by rw [h2.2]) rfl rfl rfl
  case substrMove v u pos n =>
    obtain ⟨xs, hu, h2⟩ := ho
    obtain ⟨h1, h2⟩ := if_none h2
    have h2 := if_range h2
    have hv : a v = none := by simpa using h1
    cases h2
    refine from_ (ys := xs) hu hv (fun i => ?_) rfl rfl rfl
    rw [isSome_upd]
    · by_cases e : i = v <;> simp [upd, e]
    · by_cases e : u = v <;> simp [upd, e, hu]
  case concat v u w =>
    obtain ⟨xs, hu, ys, _, h2⟩ := ho
    have h2 := Abs.make_done (if_done h2).2
    exact from_ hu h2.1 (fun i => by rw [h2.2]) rfl rfl rfl
  case concatWith v u q1 q2 =>
    obtain ⟨xs, hu, h2⟩ := ho
    have h2 := Abs.make_done (if_done h2).2
    exact from_ hu h2.1 (fun i => by rw [h2.2]) rfl rfl rfl
  case destroy v =>
    obtain ⟨xs, hv, h2⟩ := ho
    cases h2
    obtain ⟨al, hg, h0⟩ := get hv
    refine ⟨al, fun _ h => by simp [Op.given] at h, fun w hw x hx => ?_, h0, fun i => ?_⟩
    · simp [Op.at] at hw
      rw [hw, hg] at hx; exact (Option.some.inj hx).symm
    · simp only [Op.allocs, upd]
      by_cases e : i = v
      · simp [e]
      · simp only [e, if_false]
        rw [← hga i]
        cases g i <;> rfl
  case swap v u =>
    obtain ⟨xs, hv, ys, hu, h2⟩ := ho
    cases h2
    obtain ⟨al, hg, h0⟩ := get hv
    have hs : g v = g u := hs
    refine ⟨al, Fits.old hga rfl h0 (fun w hw => ?_) rfl fun i => ?_⟩
    · simp [Op.at] at hw
      rcases hw with rfl | rfl
      · exact hg
      · rw [← hs]; exact hg
    · rw [isSome_upd, isSome_upd]
      · simp [hv]
      · by_cases e : u = v <;> simp [upd, e, hu]
  case assignMove v u => exact absurd rfl (hm v u)
  all_goals first
    | obtain ⟨xs, hv, ys, hs, ho⟩ := ho
      first
      | have h2 := Abs.set_done ho
        exact one hv (fun i => by rw [h2]; exact isSome_upd (by simp [hv]) i) rfl rfl rfl
      | have h2 := Abs.set_done (if_none ho).2
        exact one hv (fun i => by rw [h2]; exact isSome_upd (by simp [hv]) i) rfl rfl rfl
      | have h2 := Abs.set_done (if_range (if_none ho).2)
        exact one hv (fun i => by rw [h2]; exact isSome_upd (by simp [hv]) i) rfl rfl rfl
    | obtain ⟨xs, hv, ho⟩ := ho
      first
      | have h2 := Abs.set_done ho
        exact one hv (fun i => by rw [h2]; exact isSome_upd (by simp [hv]) i) rfl rfl rfl
      | have h2 := Abs.set_done (if_none ho).2
        exact one hv (fun i => by rw [h2]; exact isSome_upd (by simp [hv]) i) rfl rfl rfl
      | have h2 := Abs.set_done (if_done ho).2
        exact one hv (fun i => by rw [h2]; exact isSome_upd (by simp [hv]) i) rfl rfl rfl
      | have h2 := Abs.set_done (if_range ho)
        exact one hv (fun i => by rw [h2]; exact isSome_upd (by simp [hv]) i) rfl rfl rfl
      | split at ho
        · have h2 := Abs.set_done ho
          exact one hv (fun i => by rw [h2]; exact isSome_upd (by simp [hv]) i) rfl rfl rfl
        · have h2 := Abs.set_done (if_done ho).2
          exact one hv (fun i => by rw [h2]; exact isSome_upd (by simp [hv]) i) rfl rfl rfl

theorem Rel.alive (h : Rel cfg a s) (i : Nat) : (homeOf s i).isSome = (a i).isSome := by
  unfold homeOf
  cases hi : a i with
  | none => rw [h.absent i hi]; rfl
  | some xs =>
    obtain ⟨ob, hob⟩ := Raw.var (h.held i xs hi)
    rw [hob]; rfl

theorem Rel.al (h : Rel cfg a s) (i x : Nat) (hi : homeOf s i = some x) : cfg.arena = (x != 0) := by
  unfold homeOf at hi
  cases ho : s.vars (.user i) with
  | none => simp [ho] at hi
  | some ob =>
    rw [ho] at hi
    cases hi
    exact h.inv.al _ _ ho

/-- The allocators in a state as planned. -/
theorem Lodged.homeOf {hw : WInv cfg s} {ht : ∀ i, s.vars (.tmp i) = none} {al : Nat} (h : Lodged (planOf s hw ht al) s') (hr : Rel cfg a' s') (i : Nat) :
    Str.homeOf s' i = if (a' i).isSome then some ((Str.homeOf s i).getD al) else none := by
  rw [← hr.alive i]
  unfold Str.homeOf
  cases ho : s'.vars (.user i) with
  | none => rfl
  | some ob =>
    have := (h.vars _ _ ho).1
    simp only [Option.map_some, Option.isSome_some, if_true]
    rw [this]
    simp only [planOf]
    cases s.vars (.user i) <;> rfl

theorem step_lodged (hc : cfg.Ok) (hr : Rel cfg a s) (hh : Home s) (ho : op.spec cfg.arena a = some (.done a'))
    (hm : ∀ v u, op ≠ .assignMove v u) {al : Nat} (hf : Fits op cfg.arena (homeOf s) a' al) :
    Lodged (planOf s hr.inv hr.tmps al) (op.run cfg s).2 := by
  have hl := planOf_lodged hr.inv hr.tmps hh al
  obtain ⟨f1, f2, f3, _⟩ := hf
  have hA : ∀ v ∈ op.at, (planOf s hr.inv hr.tmps al).A (.user v) = al := by
    intro v hv
    have := f2 v hv
    simp only [homeOf] at this
    simp only [planOf]
    cases e : s.vars (.user v) with
    | none => rfl
    | some ob => rw [e] at this; exact this _ rfl
  by_cases hrep : cfg.arena = true ∧ ∃ v p n src, op = .replace v p n src
  · obtain ⟨har, v, pos, n1, src, rfl⟩ := hrep
    simp only [Op.spec, Option.bind_eq_bind, Option.bind_eq_some_iff] at ho
    obtain ⟨xs, hv, ys, hs, ho⟩ := ho
    obtain ⟨hin, ho⟩ := if_none ho
    obtain ⟨p, k1, k2, k3, k4, k5⟩ := resolve_ok hc hr hs v
    simp only [Op.run]
    rw [bind_ok k1]
    exact replace_apart (hA v (by simp [Op.at])) hl hc hr.inv (hr.held v xs hv) (k5 (by simpa [har] using hin)) _ _ _
  · refine (op_lodge op hm (fun h => ?_) (fun h => ?_) f3 f1 hA).keeps s hl
    · refine f3 ?_
      cases har : cfg.arena with
      | false => rfl
      | true => exact absurd ⟨har, h⟩ hrep
    · refine f3 ?_
      obtain ⟨v, c, rfl⟩ := h
      simp only [Op.spec, Option.bind_eq_bind, Option.bind_eq_some_iff] at ho
      obtain ⟨xs, hv, ho⟩ := ho
      simpa using (if_none ho).1

theorem assignMove_home (hr : Rel cfg a s) (hh : Home s) {i j : Nat} (hv : a i ≠ none) (hu : a j ≠ none)
    (e : (Op.assignMove i j).run cfg s = (.ok (), s')) (hr' : Rel cfg a' s') :
    Home s' ∧ ∀ k, homeOf s' k = upd (homeOf s) i (homeOf s j) k := by
  obtain ⟨xs, hv⟩ := Option.ne_none_iff_exists'.1 hv
  obtain ⟨ys, hu⟩ := Option.ne_none_iff_exists'.1 hu
  have e : assignMove cfg (.user i) (.user j) s = (.ok (), s') := e
  by_cases huv : j = i
  · subst huv
    have : assignMove cfg (.user j) (.user j) s = (.ok (), s) := by
      unfold assignMove
      exact noexcept_ok (by rw [if_pos rfl]; rfl)
    rw [this] at e
    cases e
    refine ⟨hh, fun k => ?_⟩
    by_cases e : k = j <;> simp [upd, e]
  have rv := hr.held i xs hv
  have ru := hr.held j ys hu
  obtain ⟨ob, hvar⟩ := Raw.var rv
  obtain ⟨obu, hvu⟩ := Raw.var ru
  have huv' : Obj.user j ≠ Obj.user i := by simpa using huv
  obtain ⟨s1, e1, e2, e3, e4, e5, e6, e7⟩ := destroy_ok hr.inv hvar
  obtain ⟨s2, g1, g2, g3, g4, g5, g6, g7⟩ := ctorMove_ok e2 e4 (e3.raw huv' ru)
  have : assignMove cfg (.user i) (.user j) s = (.ok (), s2) := by
    refine noexcept_ok ?_
    rw [if_neg huv', bind_ok e1]
    exact g1
  rw [this] at e
  cases e
  -- the first half
  have l1 := (destroy_lodge (cfg := cfg) (.user i)).keeps _ (planOf_lodged hr.inv hr.tmps hh 0)
  rw [e1] at l1
  have h1 := l1.home e2
  have t1 : ∀ k, s1.vars (.tmp k) = none := fun k => e3.none (by simp) (hr.tmps k)
  have al1 : ∀ k, k ≠ i → homeOf s1 k = homeOf s k := by
    intro k hk
    unfold homeOf
    rw [(e3 (.user k) (by simpa using hk)).1]
  -- the second half
  have hu1 : s1.vars (.user j) = some obu := ((e3 (.user j) huv').1).trans hvu
  have l2 := (ctorMove_lodge (cfg := cfg) (π := planOf s1 e2 t1 obu.al) (v := .user i) (u := .user j) (by simp [planOf, e4])
    (by simp [planOf, hu1])).keeps _ (planOf_lodged e2 t1 h1 _)
  rw [g1] at l2
  refine ⟨l2.home g2, fun k => ?_⟩
  by_cases ek : k = i
  · subst ek
    obtain ⟨ob', ho'⟩ := Raw.var g4
    have := (l2.vars _ _ ho').1
    simp only [planOf, e4] at this
    simp [homeOf, ho', this, upd, hvu]
  · rw [upd]
    simp only [ek, if_false]
    by_cases ekj : k = j
    · subst ekj
      obtain ⟨ob', ho'⟩ := Raw.var g5
      have := (l2.vars _ _ ho').1
      simp only [planOf, hu1] at this
      simp [homeOf, ho', this, hvu]
    · rw [← al1 k ek]
      unfold homeOf
      rw [(g3 (.user k) (by simp [ek, ekj])).1]

/-- An operation that returns. -/
theorem step_home (hc : cfg.Ok) (hr : Rel cfg a s) (hh : Home s) (ho : op.spec cfg.arena a = some (.done a')) (hs : op.settled (homeOf s))
    (e : op.run cfg s = (.ok (), s')) (hr' : Rel cfg a' s') : Home s' ∧ ∀ k, homeOf s' k = op.allocs (homeOf s) k := by
  by_cases hm : ∃ v u, op = .assignMove v u
  · obtain ⟨v, u, rfl⟩ := hm
    simp only [Op.spec, Option.bind_eq_bind, Option.bind_eq_some_iff] at ho
    obtain ⟨xs, hv, ys, hu, ho⟩ := ho
    exact assignMove_home hr hh (by simp [hv]) (by simp [hu]) e hr'
  · have hm : ∀ v u, op ≠ .assignMove v u := fun v u h => hm ⟨v, u, h⟩
    obtain ⟨al, hf⟩ := op_fits (g := homeOf s) hr.alive hr.al ho hm hs
    have hl := step_lodged hc hr hh ho hm hf
    rw [e] at hl
    exact ⟨hl.home hr'.inv, fun k => (hl.homeOf hr' k).trans (hf.2.2.2 k).symm⟩

/-- An operation that throws. -/
theorem step_home_err (hc : cfg.Ok) (hr : Rel cfg a s) (hh : Home s) (ho : op.spec cfg.arena a = some (.done a')) (hs : op.settled (homeOf s))
    {f : Fault} {a2 : Abs} (e : op.run cfg s = (.error f, s')) (hr' : Rel cfg a2 s') (ha : ∀ i, (a2 i).isSome = (a i).isSome) :
    Home s' ∧ ∀ k, homeOf s' k = homeOf s k := by
  by_cases hm : ∃ v u, op = .assignMove v u
  · exfalso
    obtain ⟨v, u, rfl⟩ := hm
    have h1 := step_refines hc hr ho
    simp only [Op.spec, Option.bind_eq_bind, Option.bind_eq_some_iff] at ho
    obtain ⟨xs, hv, ys, hu, ho⟩ := ho
    have e : assignMove cfg (.user v) (.user u) s = (.error f, s') := e
    by_cases huv : u = v
    · subst huv
      have : assignMove cfg (.user u) (.user u) s = (.ok (), s) := by
        unfold assignMove
        exact noexcept_ok (by rw [if_pos rfl]; rfl)
      rw [this] at e
      cases e
    · obtain ⟨s1, e1, _⟩ := assignMove_ok hr.inv (hr.held v xs hv) (hr.held u ys hu) (by simpa using huv)
      rw [e1] at e
      cases e
  · have hm : ∀ v u, op ≠ .assignMove v u := fun v u h => hm ⟨v, u, h⟩
    obtain ⟨al, hf⟩ := op_fits (g := homeOf s) hr.alive hr.al ho hm hs
    have hl := step_lodged hc hr hh ho hm hf
    rw [e] at hl
    refine ⟨hl.home hr'.inv, fun k => ?_⟩
    rw [hl.homeOf hr' k, ha k, ← hr.alive k]
    cases homeOf s k <;> rfl

/-! ### The end of an arena -/

theorem endArena_heap (A : Nat) {b : Nat} {B : Blk} (hb : s.heap b = some B) (h : B.src ≠ A) : (endArena A s).2.heap b = some B := by
  simp [endArena, hb, h]

theorem endArena_heap_inv (A : Nat) {b : Nat} {B : Blk} (hb : (endArena A s).2.heap b = some B) : s.heap b = some B := by
  simp only [endArena] at hb
  split at hb
  · next B' e =>
    split at hb
    · cases hb
    · rw [e, hb]
  · cases hb

/-- What a string alive may read is still there when an arena ends that holds the characters of none. -/
theorem endArena_keep (hr : Rel cfg a s) {A : Nat}
    (h : ∀ o ob d B, s.vars o = some ob → ob.core.blk? = some d → s.heap d = some B → B.src ≠ A) :
    Rel cfg a (endArena A s).2 := by
  have hb : ∀ o ob d, s.vars o = some ob → ob.core.blk? = some d → (endArena A s).2.heap d = s.heap d := by
    intro o ob d ho hd
    have hc := hr.inv.core o ob ho
    have h := h o ob d
    obtain ⟨core, al⟩ := ob
    cases core with
    | small l => cases hd
    | ml d' n cap large =>
      cases hd
      obtain ⟨B, hB, _⟩ := hc
      rw [hB, endArena_heap A hB (h B ho rfl hB)]
  have hv : (endArena A s).2.vars = s.vars := rfl
  have hcells : ∀ o ob, s.vars o = some ob → cellsOf (endArena A s).2 ob.core = cellsOf s ob.core := by
    intro o ob ho
    have := hb o ob
    obtain ⟨core, al⟩ := ob
    cases core with
    | small l => rfl
    | ml d n cap large => simp only [cellsOf, this d ho rfl]
  refine ⟨⟨fun b hbn => ?_, fun o ob ho => ?_, fun b B hB => ?_, fun o ob ho => hr.inv.al o ob ho, fun b B hB => ?_,
    fun o o' ob ob' d h1 h2 => hr.inv.agree o o' ob ob' d h1 h2⟩, fun i hi => hr.absent i hi, fun i xs hi => ?_, fun i => hr.tmps i⟩
  · have := hr.inv.fresh b hbn
    simp [endArena, this]
  · have hcore := hr.inv.core o ob ho
    have := hb o ob
    obtain ⟨core, al⟩ := ob
    cases core with
    | small l => exact hcore
    | ml d n cap large =>
      simp only [CoreOk, this d ho rfl]
      exact hcore
  · obtain ⟨L, h1, h2, h3⟩ := hr.inv.own b B (endArena_heap_inv A hB)
    exact ⟨L, h1, h2, h3⟩
  · exact hr.inv.src b B (endArena_heap_inv A hB)
  · obtain ⟨ob, l, n, g, e⟩ := hr.held i xs hi
    exact ⟨ob, l, n, ⟨g.var, (hcells _ _ g.var).trans g.cells, g.size⟩, e⟩

theorem endArena_rel (hr : Rel cfg a s) (hh : Home s) {A : Nat} (h : ∀ i, homeOf s i ≠ some A) : Rel cfg a (endArena A s).2 := by
  refine endArena_keep hr fun o ob d B ho hd hB => ?_
  obtain ⟨B', hB', hs⟩ := hh o ob d ho hd
  rw [hB] at hB'; cases hB'
  rw [hs]
  cases o with
  | user i => exact fun e => h i (by simp [homeOf, ho, e])
  | tmp i => rw [hr.tmps i] at ho; cases ho

theorem endArena_home (hh : Home s) (ht : ∀ i, s.vars (.tmp i) = none) {A : Nat} (h : ∀ i, homeOf s i ≠ some A) : Home (endArena A s).2 := by
  intro o ob d ho hd
  have ho : s.vars o = some ob := ho
  obtain ⟨B, hB, hs⟩ := hh o ob d ho hd
  refine ⟨B, endArena_heap A hB ?_, hs⟩
  rw [hs]
  cases o with
  | user i => exact fun e => h i (by simp [homeOf, ho, e])
  | tmp i => rw [ht i] at ho; cases ho

/-! ### Programs -/

theorem life_rel (hc : cfg.Ok) (h : Life cfg a g s) :
    Rel cfg a s ∧ s.refused = false ∧ s.lost = false ∧ Home s ∧ ∀ i, homeOf s i = g i := by
  induction h with
  | start => exact ⟨rel_init cfg, rfl, rfl, (fun o ob d h => by cases h), fun i => rfl⟩
  | @done a a' g s s' op _ hs ho hr ih =>
    obtain ⟨i1, i2, i3, i4, i5⟩ := ih
    have i5 : homeOf s = g := funext i5
    have h1 := step_refines hc i1 ho
    have h2 := (op.run_quiet cfg).flags s
    simp only [Refines, Tri] at h1
    rw [hr] at h1 h2
    subst i5
    obtain ⟨j1, j2⟩ := step_home hc i1 i4 ho hs hr h1.1
    exact ⟨h1.1, h2.1.trans i2, h2.2.trans i3, j1, j2⟩
  | @caught a a' a1 g s s' op w _ hs ho hr hl ha ih =>
    obtain ⟨i1, i2, i3, i4, i5⟩ := ih
    have i5 : homeOf s = g := funext i5
    have h1 := step_refines hc i1 ho
    simp only [Refines, Tri] at h1
    rw [hr] at h1
    rcases h1 with h1 | ⟨_, _, a2, h2, h3, h4, h5⟩
    · rw [hl] at h1; simp at h1
    · have e : a' = a2 := by
        funext i
        rw [ha i]
        split
        · next hw =>
          cases e2 : a2 i with
          | some xs => rw [contents_ok h2.inv (h2.held i xs e2)]; rfl
          | none =>
            have : (contents cfg i s').1 = .error (.ub "use of a dead string") := by
              unfold contents size
              have : getOb (.user i) s' = (.error (.ub "use of a dead string"), s') := by
                unfold getOb; rw [h2.absent i e2]
              rw [bind_apply, bind_apply, this]
            rw [this]; rfl
        · next hw => exact (h3 i hw).symm
      rw [e]
      subst i5
      obtain ⟨j1, j2⟩ := step_home_err hc i1 i4 ho hs hr h2 h4
      exact ⟨h2.calm, rfl, hl, j1, j2⟩
  | @over a g s A _ hA ih =>
    obtain ⟨i1, i2, i3, i4, i5⟩ := ih
    have hA' : ∀ i, homeOf s i ≠ some A := fun i => by rw [i5 i]; exact hA i
    exact ⟨endArena_rel i1 i4 hA', i2, i3, endArena_home i4 i1.tmps hA', i5⟩

end Verif.Str
