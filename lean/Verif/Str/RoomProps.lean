import Verif.Str.Room
import Verif.Str.StringMore

/-!
C122: changes to a string whose result fits into its capacity.
-/

namespace Verif.Str

open M

variable {β γ : Type} {cfg : Cfg} {a a' : Abs} {s s' s1 : St} {xs : List Ch} {op : Op} {P : Ptr} {c k v : Nat} {g : Bool}

/-! ### Specification -/

/-- The members that change the string `v`, other than those that give it the buffer of another string or a smaller
one; `replace` with characters of the string itself makes a copy. -/
def Op.alters (v : Nat) : Op → Bool
  | .append u _ | .appendStr u _ | .appendFill u _ _ | .appendRange u _ | .pushBack u _ | .popBack u | .resize u _ _ | .clear u
  | .setAt u _ _ | .insert u _ _ | .insertFill u _ _ _ | .erase u _ _ | .replaceFill u _ _ _ _ | .assign u _ | .assignStr u _
  | .assignFill u _ _ | .assignChar u _ => u == v
  | .replace u _ _ src => u == v && !src.isIn v
  | _ => false

/-- What a caller can see of the storage of a string: `data()`, `capacity()`, and whether copies share it. -/
def storage (cfg : Cfg) (v : Nat) : M (Ptr × Nat × Bool) := do
  let p ← dataPtr (.user v)
  let c ← capacity cfg (.user v)
  let b ← isShared (.user v)
  pure (p, c, b)

/-- A program of edits of one string whose contents never get longer than `n`. -/
def fits (arena : Bool) (v n : Nat) : List Op → Abs → Bool
  | [], _ => true
  | op :: ops, a => op.alters v &&
      match op.spec arena a with
      | some (.done a') => (a' v).all (fun ys => decide (ys.length ≤ n)) && fits arena v n ops a'
      | _ => false

/-! ### Lemmas -/

/-- `x` run from `s` leaves the string `v` where it is. -/
def InAt (cfg : Cfg) (v : Nat) (P : Ptr) (c : Nat) (g : Bool) (x : M β) (s : St) : Prop :=
  (x s).2.next = s.next ∧ (x s).2.refused = s.refused ∧
    match (x s).1 with
    | .ok _ => ∃ k', At cfg (.user v) P c g k' (x s).2
    | .error e => ∀ w, e ≠ .throw w

theorem In.here {Q : β → Nat → Prop} {x : M β} (h : In cfg (.user v) P c g k Q x) (hs : At cfg (.user v) P c g k s) :
    InAt cfg v P c g x s := by
  obtain ⟨h1, h2, h3⟩ := h s hs
  refine ⟨h1, h2, ?_⟩
  revert h3
  cases (x s).1 with
  | ok b => exact fun ⟨k', _, h⟩ => ⟨k', h⟩
  | error e => exact id

theorem InAt.step {x : M β} {f : β → M γ} {b : β} (h : x s = (.ok b, s)) (hf : InAt cfg v P c g (f b) s) :
    InAt cfg v P c g (x >>= f) s := by
  unfold InAt
  rw [bind_ok h]
  exact hf

theorem At.storage (h : At cfg (.user v) P c g k s) : storage cfg v s = (.ok (P, c, false), s) := by
  unfold Str.storage
  rw [bind_ok h.dataPtrM, bind_ok h.capacityM, bind_ok h.isSharedM]
  rfl

/-- Where the storage of a string that shares nothing is. -/
theorem at_of (hc : cfg.Ok) (hr : Rel cfg a s) {xs : List Ch} (hx : a v = some xs) (hst : (storage cfg v s).1 = .ok (P, c, false))
    (hsso : cfg.sso = true ∨ ∃ b, P = .blk b 0) : ∃ g, At cfg (.user v) P c g xs.length s := by
  obtain ⟨ob, l, n, hh, hn⟩ := hr.held v xs hx
  have hlen : xs.length = n := by
    obtain ⟨l', n', h', h1, h2, _⟩ := hr.inv.view hh.var
    obtain ⟨_, rfl, rfl⟩ := hh.unique h'
    have := congrArg List.length hn
    simp at this; omega
  obtain ⟨c', hcap, h1, h2, h3, _⟩ := hh.capM hr.inv
  obtain ⟨b, hsh, hex⟩ := isShared_ok hr.inv (hr.held v xs hx)
  unfold storage at hst
  rw [bind_ok hh.dataM, bind_ok hcap, bind_ok hsh] at hst
  cases hst
  have hex := hex rfl
  have hcore := hr.inv.core _ _ hh.var
  have hce := h3 hex
  obtain ⟨core, al⟩ := ob
  cases core with
  | small cells =>
    refine ⟨false, ⟨by omega, ?_, ⟨_, hh.var, rfl, ?_, hce, by rw [hlen]; exact hh.size⟩⟩⟩
    · rw [hce]
      have : cfg.ms ≤ 23 := Nat.div_le_self _ _
      show cfg.ms < 18446744073709551616
      omega
    · rcases hsso with h | ⟨b, h⟩
      · exact h
      · cases h
  | ml d m cap large =>
    obtain ⟨B, hB, e1, e2, e3, e4, e5⟩ := hcore
    have hm : m = n := Option.some.inj hh.size
    have hce : c = cap := hce
    refine ⟨large, ⟨by omega, ?_, ⟨_, hh.var, rfl, hce, by omega, rfl, B.src, B.cells, ?_⟩⟩⟩
    · have hw : 1 ≤ cfg.w := by rcases hc.w with h | h | h <;> omega
      have : cap + 1 ≤ (cap + 1) * cfg.w := Nat.le_mul_of_pos_right _ hw
      show c < 18446744073709551616
      omega
    · rw [hB]
      cases large with
      | false =>
        have : B.rc = none := by simpa using e4
        rw [if_neg (by simp), ← this]
      | true =>
        obtain ⟨B', hB', hrc⟩ := hex d m cap al hh.var
        rw [hB] at hB'; cases hB'
        rw [if_pos rfl, ← hrc]

/-- An action that leaves the string where it is and should succeed does. -/
theorem settle (hc : cfg.Ok) (h : Reach cfg a s) (ho : op.spec cfg.arena a = some (.done a')) (hi : InAt cfg v P c g (op.run cfg) s) :
    ∃ s', op.run cfg s = (.ok (), s') ∧ s'.next = s.next ∧ storage cfg v s' = (.ok (P, c, false), s') := by
  rcases ops_meet_spec hc h ho with ⟨s1, e, _⟩ | ⟨f, s1, e, g1, g2, _⟩
  · unfold InAt at hi
    rw [e] at hi
    obtain ⟨h1, h2, k', h3⟩ := hi
    exact ⟨s1, e, h1, h3.storage⟩
  · unfold InAt at hi
    rw [e] at hi
    have := hi.2.1
    simp only at this
    rw [g1, g2] at this
    cases this

theorem same_add (p q : Ptr) (i : Nat) : (p.add i).same q = p.same q := by
  cases p <;> cases q <;> rfl

/-- Characters of other strings are elsewhere. -/
theorem other_source (hr : Rel cfg a s) (h : At cfg (.user v) P c g k s) {p : Ptr} {ys : List Cell} (hp : SrcOk cfg s (.user v) p ys) :
    p.same P = false := by
  rcases hp with ⟨m, i, rfl, _⟩ | ⟨u, ob, l, n, i, hu, hh, rfl, _⟩
  · rfl
  rw [same_add]
  obtain ⟨o, g1, rfl, g3⟩ := h.ob
  obtain ⟨core, al⟩ := ob
  obtain ⟨core', al'⟩ := o
  cases core with
  | small cells =>
    cases core' with
    | small cells' => simpa [Core.ptr, Ptr.same] using hu
    | ml d m cap large => rfl
  | ml d m cap large =>
    cases core' with
    | small cells' => rfl
    | ml d' m' cap' large' =>
      simp only [Core.ptr, Ptr.same, beq_eq_false_iff_ne, ne_eq]
      rintro rfl
      obtain ⟨_, _, rfl, src, cells, hB⟩ := g3
      refine hu (hr.inv.only hB ?_ (blkOf_ml g1) (blkOf_ml hh.var))
      cases large' <;> simp

/-- `checker` around an action known at this state. -/
theorem checker_at {u : Obj} {x : M Unit} (hat : At cfg (.user v) P c g k s) (hx : InAt cfg v P c g x s) : InAt cfg v P c g (checker cfg u x) s := by
  have h0 := (sane_calm (cfg := cfg) u)
  unfold checker
  rcases e : sane cfg u s with ⟨r, s1⟩
  have e1 := h0.still s
  rw [e] at e1
  have e1 : s1 = s := e1
  subst e1
  cases r with
  | error f =>
    unfold InAt
    rw [bind_apply, e]
    exact ⟨rfl, rfl, fun w hw => h0.ok s1 w (by rw [e, hw])⟩
  | ok _ =>
    refine InAt.step e ?_
    obtain ⟨h1, h2, h3⟩ := hx
    rcases hx' : x s1 with ⟨r, s2⟩
    rw [hx'] at h1 h2 h3
    have hst := h0.still s2
    have hno := h0.ok s2
    rcases hs' : sane cfg u s2 with ⟨r', s3⟩
    rw [hs'] at hst hno
    have hst : s3 = s2 := hst
    subst hst
    unfold InAt checking
    rw [hx']
    cases r with
    | ok b =>
      simp only [hs']
      cases r' with
      | ok _ => exact ⟨h1, h2, h3⟩
      | error e => exact ⟨h1, h2, fun w hw => hno w (by rw [hw])⟩
    | error e =>
      cases e with
      | throw w => exact absurd rfl (h3 w)
      | _ => exact ⟨h1, h2, h3⟩

theorem fits_cons {arena : Bool} {n : Nat} {ops : List Op} (h : fits arena v n (op :: ops) a = true) : op.alters v = true ∧
    ∃ a', op.spec arena a = some (.done a') ∧ (∀ ys, a' v = some ys → ys.length ≤ n) ∧ fits arena v n ops a' = true := by
  obtain ⟨h1, h2⟩ := (Bool.and_eq_true _ _).mp h
  refine ⟨h1, ?_⟩
  split at h2
  · obtain ⟨h2, h3⟩ := (Bool.and_eq_true _ _).mp h2
    refine ⟨_, ‹_›, fun ys hy => ?_, h3⟩
    rw [hy] at h2
    simpa using h2
  · cases h2

theorem set_done {a a' : Abs} {v : Nat} {xs : List Ch} (h : a.set v xs = some (.done a')) : a' v = some xs := by
  unfold Abs.set at h
  split at h
  · cases h; exact upd_same _ _ _
  · cases h

theorem splice_length {xs ys : List Ch} {pos n : Nat} (h : pos ≤ xs.length) :
    (splice xs pos n ys).length = xs.length - min n (xs.length - pos) + ys.length := by
  unfold splice
  simp; omega

/-- A string that has a buffer to itself. -/
theorem held_storage (hw : WInv cfg s) {ob : Ob} {l : List Cell} {n : Nat} (h : Holds cfg s (.user v) ob l n) (hx : Excl s (.user v)) :
    storage cfg v s = (.ok (ob.core.ptr (.user v), ob.core.cap cfg, false), s) := by
  obtain ⟨c, hcap, _, _, h3, _⟩ := h.capM hw
  obtain rfl := h3 hx
  unfold storage
  rw [bind_ok h.dataM, bind_ok hcap]
  have : isShared (.user v) s = (.ok false, s) := by
    unfold isShared
    rw [bind_ok (getOb_ok h.var)]
    obtain ⟨core, al⟩ := ob
    cases core with
    | small c => rfl
    | ml d m cap large =>
      cases large with
      | false => rfl
      | true =>
        obtain ⟨r, src, B, hB, hr⟩ := hw.large h.var
        have := (excl_iff h.var hB).1 hx
        simp only
        rw [bind_ok (refs_ok hB), this]
        rfl
  rw [bind_ok this]
  rfl

/-- `reserve` gives a string its own storage, and without small strings a buffer. -/
theorem reserve_block {w : Obj} (hc : cfg.Ok) (hw : WInv cfg s) {ob : Ob} {l : List Cell} {k n : Nat} (h : Holds cfg s w ob l k)
    (h0 : s.vars (.tmp 0) = none) (hs : cfg.sso = false) (hr : reserve cfg w n s = (.ok (), s')) :
    ∃ ob' l' k', Holds cfg s' w ob' l' k' ∧ ∃ d m cap large, ob'.core = .ml d m cap large := by
  have key : Tri (reserveBy cfg w n) s (fun _ s' => Grown cfg w (l.take k) n true s s') (Err0 cfg s) := by
    unfold reserveBy
    refine Tri.step (getOb_ok h.var) ?_
    obtain ⟨core, al⟩ := ob
    cases core with
    | small c =>
      have : c = l := by simpa [cellsOf] using h.cells
      subst this
      exact (reserveSmall_tri hc hw h).mono (fun _ _ g => g.weaken (Nat.le_refl _) fun _ => by simp [hs]) (fun _ _ h => h)
    | ml d m cap large =>
      have : m = k := by simpa [Core.size?] using h.size
      subst this
      cases large with
      | false => exact reserveMedium_tri hc hw h h0
      | true => exact reserveLarge_tri hc hw h
  have h2 : Tri (reserveCore cfg w n) s (fun _ s' => Grown cfg w (l.take k) n true s s') (Err0 cfg s) := by
    unfold reserveCore
    refine Tri.bind key ?_
    rintro _ s' G
    obtain ⟨w1, f1, ob', l', k', a1, a2, a3, a4, a5⟩ := G
    obtain ⟨c, d1, d2, d3, d4, d5⟩ := a1.capM w1
    have := d4 a2
    refine Tri.step d1 ?_
    exact Tri.of_ok (assert_ok (by simp; omega) _) ⟨w1, f1, ob', l', k', a1, a2, a3, a4, a5⟩
  unfold reserve at hr
  simp only [Tri, hr] at h2
  obtain ⟨w1, f1, ob', l', k', a1, a2, a3, a4, a5⟩ := h2
  exact ⟨ob', l', k', a1, a5 rfl⟩

/-- What `reserve` should do to the contents: nothing. -/
theorem reserve_spec_same {n : Nat} (hx : a v = some xs) (hl : xs.length ≤ c) (hn : n ≤ c) (hc : c < M64) :
    (Op.reserve v n).spec cfg.arena a = some (.done a) := by
  have h1 : n < M64 := Nat.lt_of_le_of_lt hn hc
  have h2 : xs.length < M64 := Nat.lt_of_le_of_lt hl hc
  have h3 : upd a v (some xs) = a := upd_self hx
  simp [Op.spec, hx, h1, Abs.set, h2, h3]

/-! ### C122 -/

/-- C122: if the string shares nothing and its new contents fit into the capacity, an edit succeeds whatever the
allocator would say, since it is not asked; `data()` and `capacity()` are as before.  In debug builds of strings on the
heap this is so only for strings that have a buffer. -/
theorem edits_in_place_partial (hc : cfg.Ok) (h : Reach cfg a s) (hv : op.alters v = true) (ho : op.spec cfg.arena a = some (.done a'))
    (hst : (storage cfg v s).1 = .ok (P, c, false)) (hsso : cfg.sso = true ∨ ∃ b, P = .blk b 0)
    (hfit : ∀ ys, a' v = some ys → ys.length ≤ c) :
    ∃ s', op.run cfg s = (.ok (), s') ∧ s'.next = s.next ∧ storage cfg v s' = (.ok (P, c, false), s') := by
  have hr := (reach_rel hc h).1
  have ho' := ho
  cases op with
  | append v' src =>
    have hv := beq_iff_eq.1 hv; subst hv
    simp only [Op.spec, Option.bind_eq_bind, Option.bind_eq_some_iff] at ho
    obtain ⟨xs, hx, ys, hy, ho⟩ := ho
    obtain ⟨g, hat⟩ := at_of hc hr hx hst hsso
    obtain ⟨p, hp, -, -, -, hsrc⟩ := resolve_ok hc hr hy v'
    have hl := hfit _ (set_done ho)
    simp at hl
    exact settle hc h ho' (InAt.step hp ((append_in (by simpa using hl)).here hat))
  | appendStr v' u =>
    have hv := beq_iff_eq.1 hv; subst hv
    simp only [Op.spec, Option.bind_eq_bind, Option.bind_eq_some_iff] at ho
    obtain ⟨xs, hx, ys, hy, ho⟩ := ho
    obtain ⟨g, hat⟩ := at_of hc hr hx hst hsso
    have hl := hfit _ (set_done ho)
    simp at hl
    obtain ⟨q, hq, _⟩ := (hr.held u ys hy).dataM
    have hsz := (hr.held u ys hy).sizeM hr.inv
    rw [List.length_map] at hsz
    refine settle (g := g) hc h ho' (InAt.step hat.sizeM (InAt.step hsz (InAt.step hq ?_)))
    refine (In.bind (append_in hl) fun _ k' hk => ?_ : In _ _ _ _ _ _ (fun _ _ => True) _).here hat
    refine In.bind size_in fun m k' hk => ?_
    exact (assert_calm _ _).in.weaken fun _ _ _ => trivial
  | appendFill v' n ch =>
    have hv := beq_iff_eq.1 hv; subst hv
    simp only [Op.spec, Option.bind_eq_bind, Option.bind_eq_some_iff] at ho
    obtain ⟨xs, hx, ho⟩ := ho
    obtain ⟨g, hat⟩ := at_of hc hr hx hst hsso
    have hl := hfit _ (set_done ho)
    simp at hl
    exact settle hc h ho' ((appendFill_in ch hl).here hat)
  | appendRange v' src =>
    have hv := beq_iff_eq.1 hv; subst hv
    simp only [Op.spec, Option.bind_eq_bind, Option.bind_eq_some_iff] at ho
    obtain ⟨xs, hx, ys, hy, ho⟩ := ho
    split at ho
    case isTrue => cases ho
    obtain ⟨g, hat⟩ := at_of hc hr hx hst hsso
    obtain ⟨p, hp, -, -, -, hsrc⟩ := resolve_ok hc hr hy v'
    have hl := hfit _ (set_done ho)
    simp at hl
    exact settle hc h ho' (InAt.step hp ((appendRange_in (by simpa using hl)).here hat))
  | pushBack v' ch =>
    have hv := beq_iff_eq.1 hv; subst hv
    simp only [Op.spec, Option.bind_eq_bind, Option.bind_eq_some_iff] at ho
    obtain ⟨xs, hx, ho⟩ := ho
    obtain ⟨g, hat⟩ := at_of hc hr hx hst hsso
    have hl := hfit _ (set_done ho)
    simp at hl
    exact settle hc h ho' ((pushBack_in ch hl).here hat)
  | popBack v' =>
    have hv := beq_iff_eq.1 hv; subst hv
    simp only [Op.spec, Option.bind_eq_bind, Option.bind_eq_some_iff] at ho
    obtain ⟨xs, hx, ho⟩ := ho
    split at ho
    case isTrue => cases ho
    rename_i hne
    obtain ⟨g, hat⟩ := at_of hc hr hx hst hsso
    have : 1 ≤ xs.length := by cases xs with
      | nil => exact absurd rfl hne
      | cons x xs => simp
    exact settle hc h ho' ((popBack_in this).here hat)
  | resize v' n ch =>
    have hv := beq_iff_eq.1 hv; subst hv
    simp only [Op.spec, Option.bind_eq_bind, Option.bind_eq_some_iff] at ho
    obtain ⟨xs, hx, ho⟩ := ho
    obtain ⟨g, hat⟩ := at_of hc hr hx hst hsso
    have hl := hfit _ (set_done ho)
    simp at hl
    exact settle hc h ho' ((resize_in ch (by omega)).here hat)
  | clear v' =>
    have hv := beq_iff_eq.1 hv; subst hv
    simp only [Op.spec, Option.bind_eq_bind, Option.bind_eq_some_iff] at ho
    obtain ⟨xs, hx, ho⟩ := ho
    obtain ⟨g, hat⟩ := at_of hc hr hx hst hsso
    exact settle hc h ho' ((resize_in 0 (Nat.zero_le _)).here hat)
  | setAt v' i ch =>
    have hv := beq_iff_eq.1 hv; subst hv
    simp only [Op.spec, Option.bind_eq_bind, Option.bind_eq_some_iff] at ho
    obtain ⟨xs, hx, ho⟩ := ho
    split at ho
    case isFalse => cases ho
    rename_i hpos
    obtain ⟨g, hat⟩ := at_of hc hr hx hst hsso
    have hl := hfit _ (set_done ho)
    simp at hl
    exact settle hc h ho' ((setAt_in ch (by omega)).here hat)
  | insert v' pos src =>
    have hv := beq_iff_eq.1 hv; subst hv
    simp only [Op.spec, Option.bind_eq_bind, Option.bind_eq_some_iff] at ho
    obtain ⟨xs, hx, ys, hy, ho⟩ := ho
    split at ho
    case isTrue => cases ho
    split at ho
    case isFalse => cases ho
    rename_i hpos
    obtain ⟨g, hat⟩ := at_of hc hr hx hst hsso
    obtain ⟨p, hp, -, -, -, hsrc⟩ := resolve_ok hc hr hy v'
    have hl := hfit _ (set_done ho)
    rw [splice_length hpos] at hl
    simp at hl
    exact settle hc h ho' (InAt.step hp ((insert_in hpos (by simpa using hl)).here hat))
  | insertFill v' pos n ch =>
    have hv := beq_iff_eq.1 hv; subst hv
    simp only [Op.spec, Option.bind_eq_bind, Option.bind_eq_some_iff] at ho
    obtain ⟨xs, hx, ho⟩ := ho
    split at ho
    case isFalse => cases ho
    rename_i hpos
    obtain ⟨g, hat⟩ := at_of hc hr hx hst hsso
    have hl := hfit _ (set_done ho)
    rw [splice_length hpos] at hl
    simp at hl
    exact settle hc h ho' ((insertFill_in ch hpos hl).here hat)
  | erase v' pos n =>
    have hv := beq_iff_eq.1 hv; subst hv
    simp only [Op.spec, Option.bind_eq_bind, Option.bind_eq_some_iff] at ho
    obtain ⟨xs, hx, ho⟩ := ho
    split at ho
    case isFalse => cases ho
    rename_i hpos
    obtain ⟨g, hat⟩ := at_of hc hr hx hst hsso
    exact settle hc h ho' ((erase_in hpos).here hat)
  | replaceFill v' pos n1 n2 ch =>
    have hv := beq_iff_eq.1 hv; subst hv
    simp only [Op.spec, Option.bind_eq_bind, Option.bind_eq_some_iff] at ho
    obtain ⟨xs, hx, ho⟩ := ho
    split at ho
    case isFalse => cases ho
    rename_i hpos
    obtain ⟨g, hat⟩ := at_of hc hr hx hst hsso
    have hl := hfit _ (set_done ho)
    rw [splice_length hpos] at hl
    simp at hl
    exact settle hc h ho' ((replaceFill_in ch hpos hl).here hat)
  | assign v' src =>
    have hv := beq_iff_eq.1 hv; subst hv
    simp only [Op.spec, Option.bind_eq_bind, Option.bind_eq_some_iff] at ho
    obtain ⟨xs, hx, ys, hy, ho⟩ := ho
    obtain ⟨g, hat⟩ := at_of hc hr hx hst hsso
    obtain ⟨p, hp, -, -, -, hsrc⟩ := resolve_ok hc hr hy v'
    have hl := hfit _ (set_done ho)
    exact settle hc h ho' (InAt.step hp ((assign_in (by simpa using hl)).here hat))
  | assignStr v' u =>
    have hv := beq_iff_eq.1 hv; subst hv
    simp only [Op.spec, Option.bind_eq_bind, Option.bind_eq_some_iff] at ho
    obtain ⟨xs, hx, ys, hy, ho⟩ := ho
    obtain ⟨g, hat⟩ := at_of hc hr hx hst hsso
    have hl := hfit _ (set_done ho)
    refine settle (g := g) hc h ho' ?_
    show InAt _ _ _ _ _ (checker cfg (.user v') _) s
    by_cases huv : Obj.user u = Obj.user v'
    · rw [if_pos huv]
      exact (In.checker (Q := fun _ _ => True) _ (In.pure trivial)).here hat
    rw [if_neg huv]
    obtain ⟨q, hq, _⟩ := (hr.held u ys hy).dataM
    have hsz := (hr.held u ys hy).sizeM hr.inv
    rw [List.length_map] at hsz
    refine checker_at (k := xs.length) hat ?_
    exact InAt.step hsz (InAt.step hq ((assign_in hl).here hat))
  | assignFill v' n ch =>
    have hv := beq_iff_eq.1 hv; subst hv
    simp only [Op.spec, Option.bind_eq_bind, Option.bind_eq_some_iff] at ho
    obtain ⟨xs, hx, ho⟩ := ho
    obtain ⟨g, hat⟩ := at_of hc hr hx hst hsso
    have hl := hfit _ (set_done ho)
    simp at hl
    exact settle hc h ho' ((assignFill_in ch hl).here hat)
  | assignChar v' ch =>
    have hv := beq_iff_eq.1 hv; subst hv
    simp only [Op.spec, Option.bind_eq_bind, Option.bind_eq_some_iff] at ho
    obtain ⟨xs, hx, ho⟩ := ho
    split at ho
    case isTrue => cases ho
    obtain ⟨g, hat⟩ := at_of hc hr hx hst hsso
    have hl := hfit _ (set_done ho)
    simp at hl
    exact settle hc h ho' ((assignChar_in ch hl).here hat)
  | replace v' pos n1 src =>
    obtain ⟨hv, hin⟩ := (Bool.and_eq_true _ _).mp hv
    have hv := beq_iff_eq.1 hv; subst hv
    have hin : src.isIn v' = false := by simpa using hin
    simp only [Op.spec, Option.bind_eq_bind, Option.bind_eq_some_iff] at ho
    obtain ⟨xs, hx, ys, hy, ho⟩ := ho
    split at ho
    case isTrue => cases ho
    split at ho
    case isFalse => cases ho
    rename_i hpos
    obtain ⟨g, hat⟩ := at_of hc hr hx hst hsso
    obtain ⟨p, hp, -, -, -, hsrc⟩ := resolve_ok hc hr hy v'
    have hl := hfit _ (set_done ho)
    rw [splice_length hpos] at hl
    exact settle hc h ho' (InAt.step hp ((replace_in hpos (by simpa using hl) (other_source hr hat (hsrc hin))).here hat))
  | _ => cases hv

/-- A string of 40 characters with room for 100. -/
def roomy : List Op := [.make 1 0 (.lit [120, 121, 122]), .makeFill 0 0 40 97, .reserve 0 100]

/-- Its hypotheses hold of that string, for an edit of each kind. -/
example : ∃ a s, Reach (heapCfg false) a s ∧ (storage (heapCfg false) 0 s).1 = .ok (.blk 1 0, 100, false) ∧
    ∀ op ∈ [Op.append 0 (.sub 0 3 30), .replace 0 2 5 (.sub 1 0 2), .insert 0 7 (.lit [98, 99]), .assignStr 0 1, .resize 0 100 9],
      op.alters 0 = true ∧ ∃ a', op.spec false a = some (.done a') ∧ ∀ ys, a' 0 = some ys → ys.length ≤ 100 := by
  obtain ⟨a, h, _, hs⟩ := reached (heapCfg_ok false) (ops := roomy) (v := 0) (xs := List.replicate 40 97)
    (by decide +kernel) (by decide +kernel)
  refine ⟨a, _, h, by decide +kernel, fun op hop => ?_⟩
  have key : ∀ op ∈ [Op.append 0 (.sub 0 3 30), .replace 0 2 5 (.sub 1 0 2), .insert 0 7 (.lit [98, 99]), .assignStr 0 1,
      .resize 0 100 9], ((specAll false roomy fun _ => none).all fun a => fits false 0 100 [op] a) = true := by decide +kernel
  have := key op hop
  rw [show specAll false roomy (fun _ => none) = some a from hs] at this
  obtain ⟨h1, a', h2, h3, _⟩ := fits_cons this
  exact ⟨h1, a', h2, h3⟩

/-- C122: `reserve(n)` of a string that shares nothing and has the capacity already does nothing. -/
theorem reserve_in_place_partial (hc : cfg.Ok) (h : Reach cfg a s) (hx : a v = some xs)
    (hst : (storage cfg v s).1 = .ok (P, c, false)) (hsso : cfg.sso = true ∨ ∃ b, P = .blk b 0) {n : Nat} (hn : n ≤ c) :
    ∃ s', (Op.reserve v n).run cfg s = (.ok (), s') ∧ s'.next = s.next ∧ storage cfg v s' = (.ok (P, c, false), s') := by
  obtain ⟨g, hat⟩ := at_of hc (reach_rel hc h).1 hx hst hsso
  refine settle (a' := a) hc h ?_ ((reserve_in hn).here hat)
  exact reserve_spec_same hx hat.fit hn hat.big

/-- Its hypotheses hold of the string with room for 100. -/
example : ∃ a s, Reach (heapCfg false) a s ∧ a 0 = some (List.replicate 40 97) ∧
    (storage (heapCfg false) 0 s).1 = .ok (.blk 1 0, 100, false) := by
  obtain ⟨a, h, ha, _⟩ := reached (heapCfg_ok false) (ops := roomy) (v := 0) (xs := List.replicate 40 97)
    (by decide +kernel) (by decide +kernel)
  exact ⟨a, _, h, ha, by decide +kernel⟩

/-- C122: a string with room to spare shares its storage with no copy. -/
theorem spare_unshared (hc : cfg.Ok) (h : Reach cfg a s) (hx : a v = some xs) :
    ∃ P c b, storage cfg v s = (.ok (P, c, b), s) ∧ xs.length ≤ c ∧ (xs.length < c → b = false) := by
  have hr := (reach_rel hc h).1
  obtain ⟨ob, l, hh, _⟩ := h.holds hc hx
  obtain ⟨c, hcap, h1, h2, h3, h4⟩ := hh.capM hr.inv
  by_cases he : Excl s (.user v)
  · exact ⟨_, _, _, held_storage hr.inv hh he, by rw [← h3 he]; exact h1, fun _ => rfl⟩
  · obtain ⟨b, hsh, _⟩ := isShared_ok hr.inv (hr.held v xs hx)
    refine ⟨ob.core.ptr (.user v), c, b, ?_, h1, fun hlt => ?_⟩
    · unfold storage
      rw [bind_ok hh.dataM, bind_ok hcap, bind_ok hsh]
      rfl
    · have := h4 he; omega

/-- It has 40 characters and room for 100; a string with a copy says that it has room for its 300 characters. -/
example : (storage (heapCfg false) 0 (runOk (heapCfg false) roomy St.init).2).1 = .ok (.blk 1 0, 100, false) ∧
    (storage (heapCfg false) 0 (runOk (heapCfg false) [.makeFill 0 0 300 97, .reserve 0 400, .copy 1 0] St.init).2).1 =
      .ok (.blk 1 0, 300, true) := by decide +kernel

/-- C122: after `reserve(n)` the string has room for `n` characters and shares its storage with no copy. -/
theorem reserved_room (hc : cfg.Ok) (h : Reach cfg a s) (hx : a v = some xs) {n : Nat} (hrun : (Op.reserve v n).run cfg s = (.ok (), s')) :
    ∃ P c, storage cfg v s' = (.ok (P, c, false), s') ∧ n ≤ c ∧ (cfg.sso = true ∨ ∃ b, P = .blk b 0) := by
  have hrel := (reach_rel hc h).1
  obtain ⟨ob, l, g, _⟩ := h.holds hc hx
  have h1 := reserveCore_tri (n := n) hc hrel.inv g (hrel.tmps 0)
  have hrun : reserve cfg (.user v) n s = (.ok (), s') := hrun
  have hrun' : reserveCore cfg (.user v) n s = (.ok (), s') := hrun
  simp only [Tri, hrun'] at h1
  obtain ⟨w1, _, ob', l', k', a1, a2, _, a4, _⟩ := h1
  refine ⟨_, _, held_storage w1 a1 a2, a4, ?_⟩
  cases hs : cfg.sso with
  | true => exact .inl rfl
  | false =>
    obtain ⟨ob2, l2, k2, b1, d, m, cap, large, b2⟩ := reserve_block hc hrel.inv g (hrel.tmps 0) hs hrun
    have : ob2 = ob' := by have := b1.var; rw [a1.var] at this; cases this; rfl
    subst this
    rw [b2]
    exact .inr ⟨d, rfl⟩

theorem fits_in_place (hc : cfg.Ok) {n : Nat} (hn : n ≤ c) (hsso : cfg.sso = true ∨ ∃ b, P = .blk b 0) :
    ∀ {ops : List Op} {a : Abs} {s : St}, Reach cfg a s → storage cfg v s = (.ok (P, c, false), s) → fits cfg.arena v n ops a = true →
      ∃ s', runOk cfg ops s = (.ok (), s') ∧ s'.next = s.next ∧ storage cfg v s' = (.ok (P, c, false), s')
  | [], _, s, _, hst, _ => ⟨s, rfl, rfl, hst⟩
  | op :: ops, a, s, h, hst, hfit => by
    obtain ⟨hv, a', ho, hf, hrest⟩ := fits_cons hfit
    obtain ⟨s1, e1, e2, e3⟩ := edits_in_place_partial hc h hv ho (by rw [hst]) hsso fun ys hy => Nat.le_trans (hf ys hy) hn
    obtain ⟨s2, g1, g2, g3⟩ := fits_in_place hc hn hsso (h.done ho e1) e3 hrest
    refine ⟨s2, ?_, g2.trans e2, g3⟩
    show (op.run cfg >>= fun _ => runOk cfg ops) s = _
    rw [bind_ok e1]
    exact g1

/-- `reserve` of a string that has a copy. -/
example : ((Op.reserve 0 100).run (heapCfg false) (runOk (heapCfg false) [.makeFill 0 0 300 97, .copy 1 0] St.init).2).1 = .ok () ∧
    (storage (heapCfg false) 0 (runOk (heapCfg false) [.makeFill 0 0 300 97, .copy 1 0, .reserve 0 100] St.init).2).1 =
      .ok (.blk 1 0, 300, false) := by decide +kernel

/-- C122: once `reserve(n)` has succeeded, edits that keep the string within `n` characters need no memory, so none
fails, and `data()` stays the same all along. -/
theorem reserve_suffices (hc : cfg.Ok) (h : Reach cfg a s) {n : Nat} (ho : (Op.reserve v n).spec cfg.arena a = some (.done a'))
    (hrun : (Op.reserve v n).run cfg s = (.ok (), s1)) {ops : List Op} (hf : fits cfg.arena v n ops a' = true) :
    ∃ P c s', (storage cfg v s1).1 = .ok (P, c, false) ∧ n ≤ c ∧ runOk cfg ops s1 = (.ok (), s') ∧ s'.next = s1.next ∧
      (storage cfg v s').1 = .ok (P, c, false) := by
  obtain ⟨xs, hx⟩ : ∃ xs, a v = some xs := by
    simp only [Op.spec, Option.bind_eq_bind, Option.bind_eq_some_iff] at ho
    exact ⟨_, ho.choose_spec.1⟩
  obtain ⟨P, c, h1, h2, h3⟩ := reserved_room hc h hx hrun
  obtain ⟨s', e1, e2, e3⟩ := fits_in_place hc h2 h3 (h.done ho hrun) h1 hf
  exact ⟨P, c, s', by rw [h1], h2, e1, e2, by rw [e3]⟩

/-- Its hypotheses hold: 40 characters become 100, one by one and at once, then none. -/
example : ∃ a s s1 a', Reach (heapCfg false) a s ∧ (Op.reserve 0 100).spec false a = some (.done a') ∧
    (Op.reserve 0 100).run (heapCfg false) s = (.ok (), s1) ∧
    fits false 0 100 [.pushBack 0 98, .appendFill 0 59 99, .clear 0, .append 0 (.lit [100])] a' = true := by
  obtain ⟨a, h, ha, hs⟩ := reached (heapCfg_ok false) (ops := [.makeFill 0 0 40 97]) (v := 0) (xs := List.replicate 40 97)
    (by decide +kernel) (by decide +kernel)
  refine ⟨a, _, _, _, h, reserve_spec_same (c := 100) (cfg := heapCfg false) ha (by decide) (by decide) (by decide),
    Prod.ext (by decide +kernel) rfl, ?_⟩
  have : ((specAll false [.makeFill 0 0 40 97] fun _ => none).all
      (fits false 0 100 [.pushBack 0 98, .appendFill 0 59 99, .clear 0, .append 0 (.lit [100])])) = true := by decide +kernel
  rw [show specAll false [.makeFill 0 0 40 97] (fun _ => none) = some a from hs] at this
  exact this

/-! ### C122 violated -/

/-- C122 violated: a string of 300 characters that has a copy needs memory, and moves, for a change of one character or
the removal of one. -/
theorem shared_moves_violated : ∀ op ∈ [Op.setAt 0 0 98, .popBack 0],
    let s := (runOk (heapCfg false) [.makeFill 0 0 300 97, .copy 1 0] St.init).2
    let t := (op.run (heapCfg false) s).2
    (storage (heapCfg false) 0 s).1 = .ok (.blk 0 0, 300, true) ∧ (op.run (heapCfg false) s).1 = .ok () ∧ t.next = s.next + 1 ∧
    (storage (heapCfg false) 0 t).1.toOption.map (·.1) = some (.blk 1 0) := by
  decide +kernel

/-- C122 violated: in debug builds an empty string says it has room for 23 characters, but it needs memory for the first
one, and for `reserve(5)`, after which it has room for 5. -/
theorem debug_empty_violated :
    let s := (runOk (heapCfg true) [.makeEmpty 0 0] St.init).2
    (storage (heapCfg true) 0 s).1 = .ok (.inl (.user 0) 0, 23, false) ∧ s.next = 0 ∧
    ((Op.pushBack 0 97).run (heapCfg true) s).1 = .ok () ∧ ((Op.pushBack 0 97).run (heapCfg true) s).2.next = 1 ∧
    ((Op.reserve 0 5).run (heapCfg true) s).1 = .ok () ∧ ((Op.reserve 0 5).run (heapCfg true) s).2.next = 1 ∧
    (storage (heapCfg true) 0 ((Op.reserve 0 5).run (heapCfg true) s).2).1 = .ok (.blk 0 0, 5, false) := by
  decide +kernel

/-- C122 violated: `replace` with characters of the string itself takes a new buffer, however much room there is, and
the room that was reserved is lost. -/
theorem replace_own_violated :
    let s := (runOk (heapCfg false) [.makeFill 0 0 60 97, .reserve 0 100] St.init).2
    let op := Op.replace 0 0 1 (.sub 0 3 30)
    (storage (heapCfg false) 0 s).1 = .ok (.blk 1 0, 100, false) ∧ (op.run (heapCfg false) s).1 = .ok () ∧
    (op.run (heapCfg false) s).2.next = s.next + 1 ∧
    (storage (heapCfg false) 0 (op.run (heapCfg false) s).2).1 = .ok (.blk 2 0, 89, false) := by
  decide +kernel

end Verif.Str
