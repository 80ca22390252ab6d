import Verif.Str.CatchProps
import Verif.Str.GrowProps
import Verif.Str.CapsFns

/-!
Calls that, when they fail for want of memory, leave the memory as it was.
-/

namespace Verif.Str

open M

variable {β γ : Type} {cfg cfg' : Cfg} {a a' : Abs} {s s' : St} {xs : List Ch} {op : Op} {P : Ptr} {c k v : Nat} {o : Obj}

/-- When `x` throws, a `realloc` was refused (never for strings on an arena) or the memory is as it was. -/
def Firm (cfg : Cfg) (x : M β) (s : St) : Prop := ∀ w s', x s = (.error (.throw w), s') → cfg.arena = false ∧ s'.lost = true ∨ Bare s s'

/-- `x` does not throw. -/
def Calls (x : M β) (s : St) : Prop := ∀ w s', x s ≠ (.error (.throw w), s')

namespace Firm

theorem Bare.refl (s : St) : Bare s s := ⟨rfl, rfl, Nat.le_refl _⟩

theorem of_calls {x : M β} (h : Calls x s) : Firm cfg x s := fun w s' e => absurd e (h w s')

theorem calls_safe {x : M β} (h : Safe (fun _ => True) x) : Calls x s := fun w s' e => h.safe s w s' e trivial

theorem of_safe {x : M β} (h : Safe (fun _ => True) x) : Firm cfg x s := of_calls (calls_safe h)

theorem of_same {x : M β} (h : (x s).2 = s) : Firm cfg x s := by
  intro w s' e
  rw [e] at h
  cases h
  exact Or.inr (Bare.refl _)

/-- Something that changes nothing, then `f`. -/
theorem look {x : M β} {f : β → M γ} (hx : (x s).2 = s) (hf : ∀ b, x s = (.ok b, s) → Firm cfg (f b) s) : Firm cfg (x >>= f) s := by
  intro w s' e
  rw [bind_apply] at e
  rcases e1 : x s with ⟨r, s1⟩
  rw [e1] at e hx
  cases hx
  cases r with
  | error _ => cases e; exact Or.inr (Bare.refl _)
  | ok b => exact hf b e1 w s' e

/-- `x`, then something that does not throw. -/
theorem then_ {x : M β} {f : β → M γ} (hx : Firm cfg x s) (hf : ∀ b s1, x s = (.ok b, s1) → Calls (f b) s1) : Firm cfg (x >>= f) s := by
  intro w s' e
  rw [bind_apply] at e
  rcases e1 : x s with ⟨r, s1⟩
  rw [e1] at e
  cases r with
  | error _ => cases e; exact hx _ _ e1
  | ok b => exact absurd e (hf b s1 e1 w s')

theorem _root_.Verif.Str.Calls.bind {x : M β} {f : β → M γ} (hx : Calls x s) (hf : ∀ b s1, x s = (.ok b, s1) → Calls (f b) s1) :
    Calls (x >>= f) s := by
  intro w s' e
  rw [bind_apply] at e
  rcases e1 : x s with ⟨r, s1⟩
  rw [e1] at e
  cases r with
  | error _ => cases e; exact hx _ _ e1
  | ok b => exact hf b s1 e1 w s' e

theorem ite {p : Prop} [Decidable p] {x y : M β} (hx : p → Firm cfg x s) (hy : ¬p → Firm cfg y s) : Firm cfg (if p then x else y) s := by
  split
  · exact hx ‹_›
  · exact hy ‹_›

theorem lengthError_firm : Firm cfg' (lengthError : M β) s := by
  intro w s' e
  cases e
  exact Or.inr ⟨rfl, rfl, Nat.le_refl _⟩

theorem alloc_firm (al : Nat) (hdr : Bool) (n : Nat) : Firm cfg' (alloc cfg al hdr n) s := by
  intro w s' e
  unfold alloc at e
  split at e
  · cases e; exact Or.inr (Bare.refl _)
  · split at e
    · cases e
    · cases e; exact Or.inr ⟨rfl, rfl, Nat.le_succ _⟩

theorem largeBytes_cases (n : Nat) : (∃ m, (largeBytes cfg n : M Nat) = pure m) ∨ (largeBytes cfg n : M Nat) = lengthError := by
  unfold largeBytes
  split
  · split
    · exact Or.inl ⟨_, rfl⟩
    · exact Or.inr rfl
  · exact Or.inr rfl

theorem large_then {n : Nat} {f : Nat → M β} (hf : ∀ m, Firm cfg' (f m) s) : Firm cfg' (largeBytes cfg n >>= f) s := by
  rcases largeBytes_cases (cfg := cfg) n with ⟨m, e⟩ | e
  · rw [e]; exact hf m
  · rw [e]; exact lengthError_firm (β := β)

theorem create_firm (al n : Nat) : Firm cfg' (create cfg al n) s :=
  large_then fun _ => then_ (alloc_firm _ _ _) fun _ _ _ => calls_safe (Safe.pure _)

theorem checkedRealloc_firm (d : Nat) (hdr : Bool) (n : Nat) (ha : cfg.arena = false) : Firm cfg (checkedRealloc cfg d hdr n) s := by
  intro w s' e
  unfold checkedRealloc at e
  split at e
  · cases e
  · split at e
    · cases e
    · cases e; exact Or.inl ⟨ha, rfl⟩

theorem smartRealloc_firm (al d : Nat) (hdr : Bool) (cur cap new : Nat) : Firm cfg (smartRealloc cfg al d hdr cur cap new) s := by
  unfold smartRealloc
  refine look (assert_still _ _ s) fun _ _ => ite (fun _ => ?_) fun ha => ite (fun _ => ?_) fun _ => checkedRealloc_firm _ _ _ (by simpa using ha)
  · exact then_ (alloc_firm _ _ _) fun _ _ _ => calls_safe (by safe)
  · exact then_ (alloc_firm _ _ _) fun _ _ _ => calls_safe (by safe)

theorem reserveSmall_firm (n : Nat) : Firm cfg' (reserveSmall cfg o n) s := by
  unfold reserveSmall
  refine look (getOb_still o s) fun ob _ => ite (fun _ => of_safe (Safe.pure _)) fun _ => ite (fun _ => ?_) fun _ => ?_
  · exact then_ (alloc_firm _ _ _) fun _ _ _ => calls_safe (by safe)
  · exact then_ (create_firm _ _) fun _ _ _ => calls_safe (by safe)

theorem unshare_firm (n : Nat) : Firm cfg' (unshare cfg o n) s := by
  unfold unshare
  refine look (getOb_still o s) fun ob _ => ?_
  obtain ⟨core, al⟩ := ob
  rcases core with l | ⟨d, m, cap, large⟩
  · exact of_safe (by safe)
  · cases large
    · exact of_safe (by safe)
    · exact then_ (create_firm _ _) fun _ _ _ => calls_safe (by safe)

theorem reallocate_firm (al d size cap n : Nat) : Firm cfg (reallocate cfg al d size cap n) s :=
  look (assert_still _ _ s) fun _ _ => large_then fun _ => look (refs_still d s) fun _ _ => look (assert_still _ _ s) fun _ _ =>
    then_ (smartRealloc_firm _ _ _ _ _ _) fun _ _ _ => calls_safe (Safe.pure _)

theorem reserveLarge_firm (n : Nat) : Firm cfg (reserveLarge cfg o n) s := by
  unfold reserveLarge
  refine look (getOb_still o s) fun ob _ => ?_
  obtain ⟨core, al⟩ := ob
  rcases core with l | ⟨d, m, cap, large⟩
  · exact of_safe (by safe)
  · cases large
    · exact of_safe (by safe)
    · refine look (refs_still d s) fun _ _ => ite (fun _ => unshare_firm _) fun _ => ite (fun _ => ?_) fun _ => ?_
      · exact then_ (reallocate_firm _ _ _ _ _) fun _ _ _ => calls_safe (by safe)
      · exact of_safe (by safe)

theorem growNascent_firm (t u : Obj) (d k n : Nat) : Firm cfg (growNascent cfg t u d k n) s := by
  unfold growNascent
  exact then_ (reserveSmall_firm _) fun _ _ _ => calls_safe (by safe)

theorem newOb_cases {t : Obj} {al : Nat} (ht : s.vars t = none) :
    newOb cfg t al s = (.error (.throw "logic_error"), s) ∨
      newOb cfg t al s = (.ok (), { s with vars := upd s.vars t (some ⟨.small (List.replicate (cfg.ms + 1) (some 0)), al⟩) }) := by
  unfold newOb
  rw [ht]
  dsimp only
  split
  · exact Or.inl rfl
  · exact Or.inr rfl

theorem ctorEmpty_firm {t : Obj} {al : Nat} (ht : s.vars t = none) : Firm cfg' (ctorEmpty cfg t al) s := by
  intro w s' e
  unfold ctorEmpty construct at e
  rw [bind_apply] at e
  rcases newOb_cases (cfg := cfg) (al := al) ht with h | h
  · rw [h] at e; cases e; exact Or.inr (Bare.refl _)
  · rw [h] at e
    exact absurd trivial ((constructing_safe (F := fun _ => True) t _ (initEmpty_safe t)).safe _ _ _ e)

theorem withTemp_firm {t : Obj} {s0 : St} {cells : List Cell} {al : Nat} {x : M β} (ht : s0.vars t = none)
    (e0 : s = { s0 with vars := upd s0.vars t (some ⟨.small cells, al⟩) }) (hx : Firm cfg x s) :
    ∀ w s', withTemp cfg t x s = (.error (.throw w), s') → cfg.arena = false ∧ s'.lost = true ∨ Bare s0 s' := by
  intro w s' e
  unfold withTemp at e
  rcases e1 : x s with ⟨r, s1⟩
  rw [e1] at e
  have hd : ∀ {s1 s2 : St} {w' : String}, destroy cfg t s1 ≠ (.error (.throw w'), s2) := fun {_ _ _} h =>
    absurd trivial ((destroy_safe (F := fun _ => True) t).safe _ _ _ h)
  cases r with
  | ok b =>
    dsimp only at e
    rcases e2 : destroy cfg t s1 with ⟨r2, s2⟩
    rw [e2] at e
    cases r2 with
    | ok _ => cases e
    | error f => cases e; exact absurd e2 hd
  | error f =>
    cases f with
    | throw w' =>
      dsimp only at e
      rcases e2 : destroy cfg t s1 with ⟨r2, s2⟩
      rw [e2] at e
      cases r2 with
      | error f => cases e; exact absurd e2 hd
      | ok _ =>
        cases e
        rcases hx _ _ e1 with ⟨ha, hl⟩ | ⟨b1, b2, b3⟩
        · have := (destroy_quiet (cfg := cfg) t).flags s1
          rw [e2] at this
          exact Or.inl ⟨ha, this.2.trans hl⟩
        · right
          subst e0
          have hv : s1.vars t = some ⟨.small cells, al⟩ := by rw [b1]; exact upd_same _ _ _
          unfold destroy release at e2
          rw [bind_apply, bind_ok (getOb_ok hv)] at e2
          cases e2
          refine ⟨?_, b2, b3⟩
          show upd s1.vars t none = s0.vars
          rw [b1]
          simp only [upd_upd]
          exact upd_self ht
    | ub _ => cases e
    | assertFail _ => cases e

theorem reserveMedium_firm (ht : s.vars (.tmp 0) = none) (n : Nat) : Firm cfg (reserveMedium cfg o n) s := by
  unfold reserveMedium
  refine look (getOb_still o s) fun ob _ => ?_
  obtain ⟨core, al⟩ := ob
  rcases core with l | ⟨d, m, cap, large⟩
  · exact of_safe (by safe)
  · cases large
    · refine ite (fun _ => of_safe (Safe.pure _)) fun _ => ite (fun _ => ?_) fun _ => ?_
      · exact then_ (smartRealloc_firm _ _ _ _ _ _) fun _ _ _ => calls_safe (by safe)
      · intro w s' e
        rw [bind_apply] at e
        rcases e1 : ctorEmpty cfg (.tmp 0) al s with ⟨r, s1⟩
        rw [e1] at e
        cases r with
        | error _ => cases e; exact ctorEmpty_firm ht _ _ e1
        | ok _ =>
          have h1 := Caps.ctorEmpty_ends (cfg := cfg) (v := .tmp 0) (s := s) (al := al)
          simp only [Caps.Ends, Tri, e1] at h1
          obtain ⟨_, cells, h1⟩ := h1
          exact withTemp_firm ht h1 (growNascent_firm _ _ _ _ _) w s' e
    · exact of_safe (by safe)

theorem reserveCore_firm (ht : s.vars (.tmp 0) = none) (n : Nat) : Firm cfg (reserveCore cfg o n) s := by
  unfold reserveCore
  refine then_ ?_ fun _ _ _ => calls_safe (by safe)
  unfold reserveBy
  refine look (getOb_still o s) fun ob _ => ?_
  obtain ⟨core, al⟩ := ob
  rcases core with l | ⟨d, m, cap, large⟩
  · exact reserveSmall_firm _
  · cases large
    · exact reserveMedium_firm ht _
    · exact reserveLarge_firm _

theorem expandTail_any (v : Obj) (old new : Nat) : Safe (fun _ => True) (expandTail cfg v old new) := by
  unfold expandTail
  safe

theorem expand_firm (ht : s.vars (.tmp 0) = none) (n : Nat) (exp : Bool) : Firm cfg (expandNoinit cfg o n exp) s := by
  unfold expandNoinit
  refine look (capacity_still o s) fun c _ => look (size_still o s) fun old _ => look (assert_still _ _ s) fun _ _ => look (getOb_still o s) fun ob _ => ?_
  obtain ⟨core, al⟩ := ob
  dsimp only
  rcases core with l | ⟨d, m, cap, large⟩
  · refine ite (fun _ => of_safe (by safe)) fun _ => ?_
    exact then_ (reserveSmall_firm _) fun _ _ _ => calls_safe (expandTail_any _ _ _)
  · refine then_ ?_ fun _ _ _ => calls_safe (expandTail_any _ _ _)
    unfold doIf
    exact ite (fun _ => reserveCore_firm ht _) fun _ => of_safe (Safe.pure _)

/-! ### Members -/

theorem checker_firm {u : Obj} {x : M β} (hx : Firm cfg x s) : Firm cfg (checker cfg u x) s := by
  refine look ((sane_calm u).still s) fun _ _ => ?_
  intro w s' e
  unfold checking at e
  rcases e1 : x s with ⟨r, s1⟩
  rw [e1] at e
  have h1 := (sane_calm (cfg := cfg) u).still s1
  have h2 := (sane_calm (cfg := cfg) u).ok s1
  rcases e2 : sane cfg u s1 with ⟨r2, s2⟩
  rw [e2] at h1 h2
  cases h1
  cases r with
  | ok b =>
    simp only [e2] at e
    cases r2 with
    | ok _ => cases e
    | error f => cases e; exact absurd rfl (h2 w)
  | error f =>
    cases f with
    | throw w' =>
      simp only [e2] at e
      cases r2 with
      | ok _ => cases e; exact hx _ _ e1
      | error f => cases e; exact absurd rfl (h2 w)
    | ub _ => cases e
    | assertFail _ => cases e

theorem checker_calls {u : Obj} {x : M β} (hx : Calls x s) : Calls (checker cfg u x) s := by
  intro w s' e
  unfold checker at e
  rw [bind_apply] at e
  have h1 := (sane_calm (cfg := cfg) u).still s
  have h2 := (sane_calm (cfg := cfg) u).ok s
  rcases e2 : sane cfg u s with ⟨r2, s2⟩
  rw [e2] at h1 h2 e
  subst h1
  cases r2 with
  | error f => cases e; exact absurd rfl (h2 w)
  | ok _ =>
    dsimp only at e
    unfold checking at e
    rcases e1 : x s2 with ⟨r, s1⟩
    rw [e1] at e
    have h2 := (sane_calm (cfg := cfg) u).ok s1
    rcases e3 : sane cfg u s1 with ⟨r3, s3⟩
    rw [e3] at h2
    cases r with
    | ok b =>
      simp only [e3] at e
      cases r3 with
      | ok _ => cases e
      | error f => cases e; exact absurd rfl (h2 w)
    | error f =>
      cases f with
      | throw w' => exact absurd e1 (hx _ _)
      | ub _ => cases e
      | assertFail _ => cases e

theorem noexcept_calls {x : M β} (hx : Calls x s) : Calls (noexcept x) s := by
  intro w s' e
  unfold noexcept at e
  rcases e1 : x s with ⟨r, s1⟩
  rw [e1] at e
  cases r with
  | ok _ => cases e
  | error f =>
    cases f with
    | throw w' => exact absurd e1 (hx _ _)
    | ub _ => cases e
    | assertFail _ => cases e

theorem begin_calls (hx : Excl s o) : Calls (begin_ cfg o) s := by
  unfold begin_ mutableData
  refine noexcept_calls ?_
  have key : ∀ (b : Bool) (x : M Ptr), Calls x s → Calls (noexceptIf b x) s := by
    intro b x h
    cases b
    · exact h
    · exact noexcept_calls h
  refine key _ _ ?_
  intro w s' e
  rw [bind_apply] at e
  unfold getOb at e
  cases hv : s.vars o with
  | none => rw [hv] at e; cases e
  | some ob =>
    rw [hv] at e
    obtain ⟨core, al⟩ := ob
    cases core with
    | small l => exact calls_safe (dataPtr_safe o) _ _ e
    | ml d n cap large =>
      cases large with
      | false => exact calls_safe (dataPtr_safe o) _ _ e
      | true =>
        obtain ⟨⟨rc, src, cells⟩, hB, hr⟩ := hx d n cap al hv
        have hr : rc = some 1 := hr
        subst hr
        dsimp only at e
        rw [bind_ok (show refs d s = (.ok 1, s) by simp only [refs, hB])] at e
        exact calls_safe (dataPtr_safe o) _ _ e

theorem shrink_calls (hx : Excl s o) (n : Nat) : Calls (shrink cfg o n) s := by
  intro w s' e
  unfold shrink at e
  rw [bind_apply] at e
  unfold getOb at e
  cases hv : s.vars o with
  | none => rw [hv] at e; cases e
  | some ob =>
    rw [hv] at e
    obtain ⟨core, al⟩ := ob
    cases core with
    | small l => exact calls_safe (shrinkSmall_safe _ _) _ _ e
    | ml d m cap large =>
      cases large with
      | false => exact calls_safe (shrinkMedium_safe _ _ _ _ _ _) _ _ e
      | true =>
        obtain ⟨⟨rc, src, cells⟩, hB, hr⟩ := hx d m cap al hv
        have hr : rc = some 1 := hr
        subst hr
        dsimp only at e
        rw [bind_ok (show refs d s = (.ok 1, s) by simp only [refs, hB]), if_pos rfl] at e
        exact calls_safe (shrinkMedium_safe _ _ _ _ _ _) _ _ e

theorem resize_calls {n k : Nat} {ch : Ch} (hk : size cfg o s = (.ok k, s)) (hn : n ≤ k) (hx : Excl s o) : Calls (resize cfg o n ch) s := by
  unfold resize
  refine checker_calls ((calls_safe (size_safe o)).bind fun b s1 e => ?_)
  rw [hk] at e
  cases e
  rw [if_pos hn]
  exact shrink_calls hx _

theorem appendCopy_any (v : Obj) (p : Ptr) (n : Nat) (q : Ptr) (old : Nat) (r : Ptr) : Safe (fun _ => True) (appendCopy cfg v p n q old r) := by
  unfold appendCopy
  safe

theorem append_firm (ht : s.vars (.tmp 0) = none) (p : Ptr) (n : Nat) : Firm cfg (append cfg o p n) s := by
  unfold append
  refine checker_firm (ite (fun _ => of_safe (Safe.pure _)) fun _ => look (size_still o s) fun _ _ => look (dataPtr_still o s) fun _ _ => ?_)
  refine then_ (expand_firm ht _ _) fun _ _ _ => calls_safe (Safe.bind (appendCopy_any _ _ _ _ _ _) fun _ => by safe)

theorem appendFill_firm (ht : s.vars (.tmp 0) = none) (n : Nat) (ch : Ch) : Firm cfg (appendFill cfg o n ch) s :=
  checker_firm (then_ (expand_firm ht _ _) fun _ _ _ => calls_safe (by safe))

theorem pushBack_firm (ht : s.vars (.tmp 0) = none) (ch : Ch) : Firm cfg (pushBack cfg o ch) s :=
  then_ (expand_firm ht _ _) fun _ _ _ => calls_safe (by safe)

theorem appendStr_firm (ht : s.vars (.tmp 0) = none) (u : Obj) : Firm cfg (appendStr cfg o u) s :=
  look (size_still o s) fun _ _ => look (size_still u s) fun _ _ => look (dataPtr_still u s) fun _ _ =>
    then_ (append_firm ht _ _) fun _ _ _ => calls_safe (by safe)

theorem insertAt_firm (hc : cfg.Ok) (h : Here cfg o P c k s) {i : Ptr} {n : Nat} (hn : k + n < M64) {f : Nat → Nat → Ptr → M Unit}
    (hf : ∀ pos old b, Safe (fun _ => True) (f pos old b)) :
    Firm cfg (checker cfg o do
      let pos ← posOf cfg o i
      let old ← size cfg o
      let _ ← expandNoinit cfg o n true
      let b ← begin_ cfg o
      f pos old b) s := by
  refine checker_firm (look (posOf_still i s) fun pos _ => look (size_still o s) fun old _ => then_ (expand_firm h.free _ _) fun _ s1 e => ?_)
  have h1 := expand_moved hc h hn
  simp only [Tri, e] at h1
  obtain ⟨P', c', ⟨hx, _⟩, _⟩ := h1
  exact (begin_calls hx).bind fun _ _ _ => calls_safe (hf _ _ _)

theorem insertRangeAt_firm (hc : cfg.Ok) (h : Here cfg o P c k s) {i p : Ptr} {n : Nat} (hn : k + n < M64) :
    Firm cfg (insertRangeAt cfg o i p n) s := insertAt_firm hc h hn (f := fun pos old b => do
    podMove (b.add pos) (old - pos) (b.add (pos + n))
    podMove p n (b.add pos)) fun _ _ _ => by safe

theorem insertFillAt_firm (hc : cfg.Ok) (h : Here cfg o P c k s) {i : Ptr} {n : Nat} {ch : Ch} (hn : k + n < M64) :
    Firm cfg (insertFillAt cfg o i n ch) s := insertAt_firm hc h hn (f := fun pos old b => do
    podMove (b.add pos) (old - pos) (b.add (pos + n))
    podFill (b.add pos) n ch) fun _ _ _ => by safe

theorem erase_calls (h : Here cfg o P c k s) {pos n : Nat} (hp : pos ≤ k) : Calls (erase cfg o pos n) s := by
  obtain ⟨cs, ho, rfl⟩ := h.own
  have hw := h.inv
  unfold erase
  refine checker_calls ?_
  intro w s' e
  rw [bind_ok (ho.raw.sizeM hw), bind_ok (enforce_ok (by simpa using hp))] at e
  rw [bind_ok (begin_own hw ho)] at e
  obtain ⟨s1, e1, e2, e3, e4, _⟩ := ho.move hw (i := pos + min n (cs.length - pos)) (j := pos) (k := cs.length - (pos + min n (cs.length - pos))) (by omega) (by omega)
  have hl : (put cs pos ((cs.drop (pos + min n (cs.length - pos))).take (cs.length - (pos + min n (cs.length - pos))))).length = cs.length :=
    put_length (by simp; omega)
  have hs1 := podMove_leaves (P.add (pos + min n (cs.length - pos))) (cs.length - (pos + min n (cs.length - pos))) (P.add pos) P c s h.lies
  simp only [Tri, e1] at hs1
  have hz := e4.raw.sizeM e2
  rw [hl] at hz
  rw [bind_ok e1] at e
  exact resize_calls hz (by omega) hs1.1 _ _ e

/-! ### Strings that may be shared -/

theorem noexcept_firm {x : M β} (hx : Firm cfg x s) : Firm cfg (noexcept x) s := by
  intro w s' e
  unfold noexcept at e
  rcases e1 : x s with ⟨r, s1⟩
  rw [e1] at e
  cases r with
  | ok _ => cases e
  | error f =>
    cases f with
    | throw w' => cases e; exact hx _ _ e1
    | ub _ => cases e
    | assertFail _ => cases e

theorem withTemp_calls {t : Obj} {x : M β} (hx : Safe (fun _ => True) x) : Calls (withTemp cfg t x) s := by
  intro w s' e
  unfold withTemp at e
  rcases e1 : x s with ⟨r, s1⟩
  rw [e1] at e
  have hd : ∀ {s1 s2 : St} {w' : String}, destroy cfg t s1 ≠ (.error (.throw w'), s2) := fun {_ _ _} h =>
    absurd trivial ((destroy_safe (F := fun _ => True) t).safe _ _ _ h)
  cases r with
  | ok b =>
    dsimp only at e
    rcases e2 : destroy cfg t s1 with ⟨r2, s2⟩
    rw [e2] at e
    cases r2 with
    | ok _ => cases e
    | error f => cases e; exact hd e2
  | error f =>
    cases f with
    | throw w' => exact calls_safe hx _ _ e1
    | ub _ => cases e
    | assertFail _ => cases e

theorem initSmall_any (v : Obj) (p : Ptr) (n : Nat) : Safe (fun _ => True) (initSmall cfg v p n) := by
  unfold initSmall
  safe

theorem initCheck_any (v : Obj) (p : Ptr) (n : Nat) : Safe (fun _ => True) (initCheck cfg v p n) := by
  unfold initCheck
  safe

theorem initData_firm {t : Obj} {al : Nat} {p : Ptr} {n : Nat} : Firm cfg' (initData cfg t al p n) s := by
  unfold initData initMedium initLarge
  refine ite (fun _ => of_safe (initSmall_any _ _ _)) fun _ => ite (fun _ => ?_) fun _ => ?_
  · exact then_ (alloc_firm _ _ _) fun _ _ _ => calls_safe (by safe)
  · exact then_ (create_firm _ _) fun _ _ _ => calls_safe (by safe)

theorem ctorData_firm {t : Obj} {al : Nat} {p : Ptr} {n : Nat} (ht : s.vars t = none) : Firm cfg' (ctorData cfg t al p n) s := by
  intro w s' e
  unfold ctorData construct at e
  rw [bind_apply] at e
  rcases newOb_cases (cfg := cfg) (al := al) ht with h | h
  · rw [h] at e; cases e; exact Or.inr (Bare.refl _)
  rw [h] at e
  dsimp only at e
  unfold constructing at e
  have hf : Firm cfg' (initData cfg t al p n >>= fun _ => initCheck cfg t p n)
      { s with vars := upd s.vars t (some ⟨.small (List.replicate (cfg.ms + 1) (some 0)), al⟩) } :=
    then_ initData_firm fun _ _ _ => calls_safe (initCheck_any _ _ _)
  rcases e1 : (initData cfg t al p n >>= fun _ => initCheck cfg t p n)
      { s with vars := upd s.vars t (some ⟨.small (List.replicate (cfg.ms + 1) (some 0)), al⟩) } with ⟨r, s1⟩
  rw [e1] at e
  cases r with
  | ok _ => cases e
  | error f =>
    cases f with
    | throw w' =>
      cases e
      rcases hf _ _ e1 with ⟨ha, hl⟩ | ⟨b1, b2, b3⟩
      · exact Or.inl ⟨ha, hl⟩
      · refine Or.inr ⟨?_, b2, b3⟩
        show upd s1.vars t none = s.vars
        rw [b1]
        simp only [upd_upd]
        exact upd_self ht
    | ub _ => cases e
    | assertFail _ => cases e

theorem swap_any (u v : Obj) : Safe (fun _ => True) (swap u v) := swap_safe u v

theorem shrink_firm (ht : s.vars (.tmp 1) = none) (n : Nat) : Firm cfg (shrink cfg o n) s := by
  unfold shrink
  refine look (getOb_still o s) fun ob _ => ?_
  rcases ob with ⟨l | ⟨d, m, cap, large⟩, al⟩
  · exact of_safe (shrinkSmall_safe _ _)
  · cases large
    · exact of_safe (shrinkMedium_safe _ _ _ _ _ _)
    · refine look (refs_still d s) fun _ _ => ite (fun _ => of_safe (shrinkMedium_safe _ _ _ _ _ _)) fun _ => ?_
      unfold shrinkLarge
      exact look (assert_still _ _ s) fun _ _ => ite (fun _ => of_safe (Safe.pure _)) fun _ =>
        then_ (ctorData_firm ht) fun _ _ _ => withTemp_calls (swap_any _ _)

theorem resize_firm (ht : s.vars (.tmp 0) = none) (ht1 : s.vars (.tmp 1) = none) (n : Nat) (ch : Ch) : Firm cfg (resize cfg o n ch) s := by
  unfold resize
  refine checker_firm (look (size_still o s) fun _ _ => ite (fun _ => shrink_firm ht1 _) fun _ => ?_)
  exact then_ (expand_firm ht _ _) fun _ _ _ => calls_safe (by safe)

theorem shrinkToFit_firm (ht : s.vars (.tmp 5) = none) : Firm cfg (shrinkToFit cfg o) s := by
  unfold shrinkToFit
  refine ite (fun _ => of_safe (Safe.pure _)) fun _ => look (capacity_still o s) fun _ _ => look (size_still o s) fun _ _ =>
    ite (fun _ => of_safe (Safe.pure _)) fun _ => look (dataPtr_still o s) fun _ _ => ?_
  exact then_ (ctorData_firm ht) fun _ _ _ => withTemp_calls (swap_any _ _)

theorem begin_firm : Firm cfg (begin_ cfg o) s := by
  unfold begin_ mutableData
  have key : ∀ (b : Bool) (x : M Ptr), Firm cfg x s → Firm cfg (noexceptIf b x) s := by
    intro b x h
    cases b
    · exact h
    · exact noexcept_firm h
  refine noexcept_firm (key _ _ (look (getOb_still o s) fun ob _ => ?_))
  rcases ob with ⟨l | ⟨d, m, cap, large⟩, al⟩
  · exact of_safe (dataPtr_safe o)
  · cases large
    · exact of_safe (dataPtr_safe o)
    · exact look (refs_still d s) fun _ _ => ite (fun _ => then_ (unshare_firm _) fun _ _ _ => calls_safe (dataPtr_safe o)) fun _ =>
        of_safe (dataPtr_safe o)

end Firm

open Firm

/-! ### Calls -/

/-- The members that change the length or the room of the string `v` by one request to the allocator at most, before which nothing is
written. -/
def Op.growsOnly (v : Nat) : Op → Bool
  | .append u _ | .appendStr u _ | .appendFill u _ _ | .pushBack u _ | .resize u _ _ | .reserve u _ | .shrinkToFit u | .clear u
  | .popBack u | .setAt u _ _ => u == v
  | _ => false

/-- The members that insert a range or copies of a character, which call `begin()` first. -/
def Op.insertsAt (v : Nat) : Op → Bool
  | .appendRange u _ | .insert u _ _ | .insertFill u _ _ _ => u == v
  | _ => false

theorem grows_firm (hc : cfg.Ok) (h : Reach cfg a s) (hv : op.growsOnly v = true) (ho : op.spec cfg.arena a = some (.done a')) :
    Firm cfg (op.run cfg) s := by
  have hrel := (reach_rel hc h).1
  have t0 := hrel.tmps 0
  have t1 := hrel.tmps 1
  have t5 := hrel.tmps 5
  cases op with
  | append v' src =>
    simp only [Op.spec, Option.bind_eq_bind, Option.bind_eq_some_iff] at ho
    obtain ⟨xs, hx, ys, hy, ho⟩ := ho
    obtain ⟨p, hp, -⟩ := resolve_ok hc hrel hy v'
    exact look (by rw [hp]) fun b e => append_firm t0 _ _
  | appendStr v' u => exact appendStr_firm t0 _
  | appendFill v' n ch => exact appendFill_firm t0 _ _
  | pushBack v' ch => exact pushBack_firm t0 _
  | resize v' n ch => exact resize_firm t0 t1 _ _
  | reserve v' n => exact reserveCore_firm t0 _
  | shrinkToFit v' => exact shrinkToFit_firm t5
  | clear v' => exact resize_firm t0 t1 _ _
  | popBack v' =>
    exact noexcept_firm (look (size_still _ s) fun _ _ => look (assert_still _ _ s) fun _ _ => shrink_firm t1 _)
  | setAt v' i ch => exact then_ begin_firm fun _ _ _ => calls_safe (by safe)
  | _ => cases hv

/-- `insert` on a string that shares nothing. -/
theorem inserts_firm (hc : cfg.Ok) (h : Reach cfg a s) (hv : op.insertsAt v = true) (ho : op.spec cfg.arena a = some (.done a'))
    (hx : a v = some xs) (hh : Here cfg (.user v) P c xs.length s) : Firm cfg (op.run cfg) s := by
  have hrel := (reach_rel hc h).1
  have lt : ∀ ys, a.set v ys = some (.done a') → ys.length < M64 := by
    intro ys hs
    unfold Abs.set at hs
    split at hs
    · assumption
    · cases hs
  cases op with
  | appendRange v' src =>
    have hv := beq_iff_eq.1 hv; subst hv
    simp only [Op.spec, hx, Option.bind_eq_bind, Option.bind_some, Option.bind_eq_some_iff] at ho
    obtain ⟨ys, hy, ho⟩ := ho
    split at ho
    case isTrue => cases ho
    obtain ⟨p, hp, -⟩ := resolve_ok hc hrel hy v'
    refine look (by rw [hp]) fun b e => ?_
    rw [hp] at e
    cases e
    have := lt _ ho
    simp only [List.length_append] at this
    simp only [List.length_map]
    unfold appendRange
    exact look (begin_same hh.lies.1) fun _ _ => look (size_still _ s) fun _ _ => insertRangeAt_firm hc hh this
  | insert v' pos src =>
    have hv := beq_iff_eq.1 hv; subst hv
    simp only [Op.spec, hx, Option.bind_eq_bind, Option.bind_some, Option.bind_eq_some_iff] at ho
    obtain ⟨ys, hy, ho⟩ := ho
    split at ho
    case isTrue => cases ho
    split at ho
    case isFalse => cases ho
    rename_i hpos
    obtain ⟨p, hp, -⟩ := resolve_ok hc hrel hy v'
    refine look (by rw [hp]) fun b e => ?_
    rw [hp] at e
    cases e
    have := lt _ ho
    rw [splice_length hpos] at this
    simp only [List.length_map]
    unfold insert
    exact look (size_still _ s) fun _ _ => look (enforce_still _ s) fun _ _ => look (begin_same hh.lies.1) fun _ _ =>
      insertRangeAt_firm hc hh (by omega)
  | insertFill v' pos n ch =>
    have hv := beq_iff_eq.1 hv; subst hv
    simp only [Op.spec, hx, Option.bind_eq_bind, Option.bind_some] at ho
    split at ho
    case isFalse => cases ho
    rename_i hpos
    have := lt _ ho
    rw [splice_length hpos, List.length_replicate] at this
    simp only [Op.run, insertFill]
    exact look (size_still _ s) fun _ _ => look (enforce_still _ s) fun _ _ => look (begin_same hh.lies.1) fun _ _ =>
      insertFillAt_firm hc hh (by omega)
  | _ => cases hv

/-- A call that builds up a string that shares nothing, or takes characters away, either does not throw for want of memory or leaves
the memory as it was. -/
theorem builds_firm (hc : cfg.Ok) (h : Reach cfg a s) (hv : op.builds v = true) (ho : op.spec cfg.arena a = some (.done a'))
    (hx : a v = some xs) (hh : Here cfg (.user v) P c xs.length s) : Firm cfg (op.run cfg) s := by
  cases op with
  | appendRange v' src => exact inserts_firm hc h hv ho hx hh
  | insert v' pos src => exact inserts_firm hc h hv ho hx hh
  | insertFill v' pos n ch => exact inserts_firm hc h hv ho hx hh
  | erase v' pos n =>
    have hv := beq_iff_eq.1 hv; subst hv
    simp only [Op.spec, hx, Option.bind_eq_bind, Option.bind_some] at ho
    split at ho
    case isFalse => cases ho
    rename_i hpos
    exact of_calls (erase_calls hh hpos)
  | append v' src => exact grows_firm (v := v) hc h hv ho
  | appendStr v' u => exact grows_firm (v := v) hc h hv ho
  | appendFill v' n ch => exact grows_firm (v := v) hc h hv ho
  | pushBack v' ch => exact grows_firm (v := v) hc h hv ho
  | popBack v' => exact grows_firm (v := v) hc h hv ho
  | clear v' => exact grows_firm (v := v) hc h hv ho
  | setAt v' i ch => exact grows_firm (v := v) hc h hv ho
  | _ => cases hv

/-! ### What is read afterwards -/

/-- What `x` yields depends on the objects and the blocks only. -/
def Seen (x : M β) : Prop := ∀ s s', Bare s s' → (x s').1 = (x s).1

theorem Seen.pure (b : β) : Seen (pure b : M β) := fun _ _ _ => rfl

theorem Seen.fail (e : Fault) : Seen (M.fail e : M β) := fun _ _ _ => rfl

theorem Seen.bind {x : M β} {f : β → M γ} (hs : Still x) (hx : Seen x) (hf : ∀ b, Seen (f b)) : Seen (x >>= f) := by
  intro s s' h
  have h1 := hx s s' h
  have h2 := hs s
  have h3 := hs s'
  rw [bind_apply, bind_apply]
  rcases e : x s with ⟨r, s1⟩
  rcases e' : x s' with ⟨r', s1'⟩
  rw [e] at h1 h2
  rw [e'] at h1 h3
  cases h1
  cases h2
  cases h3
  cases r with
  | error _ => rfl
  | ok b => exact hf b _ _ h

theorem getOb_seen (v : Obj) : Seen (getOb v) := by
  intro s s' h
  unfold getOb
  rw [h.vars]
  cases s.vars v <;> rfl

theorem refs_seen (b : Nat) : Seen (refs b) := by
  intro s s' h
  unfold refs
  rw [h.heap]
  rcases s.heap b with _ | ⟨_ | n, src, cells⟩ <;> rfl

theorem readCells_seen (p : Ptr) (n : Nat) : Seen (readCells p n) := by
  intro s s' h
  unfold readCells
  rw [h.heap, h.vars]
  repeat' split
  all_goals rfl

theorem dataPtr_seen (v : Obj) : Seen (dataPtr v) := Seen.bind (getOb_still v) (getOb_seen v) fun _ => Seen.pure _

theorem capacity_seen (v : Obj) : Seen (capacity cfg v) := by
  refine Seen.bind (getOb_still v) (getOb_seen v) fun ob => ?_
  rcases ob with ⟨l | ⟨d, m, cap, large⟩, al⟩
  · exact Seen.pure _
  · cases large
    · exact Seen.pure _
    · refine Seen.bind (refs_still d) (refs_seen d) fun r => ?_
      split <;> exact Seen.pure _

theorem isShared_seen (v : Obj) : Seen (isShared v) := by
  refine Seen.bind (getOb_still v) (getOb_seen v) fun ob => ?_
  rcases ob with ⟨l | ⟨d, m, cap, large⟩, al⟩
  · exact Seen.pure _
  · cases large
    · exact Seen.pure _
    · exact Seen.bind (refs_still d) (refs_seen d) fun r => Seen.pure _

theorem storage_seen (v : Nat) : Seen (storage cfg v) :=
  Seen.bind (dataPtr_still _) (dataPtr_seen _) fun _ => Seen.bind (capacity_still _) (capacity_seen _) fun _ =>
    Seen.bind (isShared_still _) (isShared_seen _) fun _ => Seen.pure _

theorem Bare.lies (h : Bare s s') (hl : Lies cfg o P c s) : Lies cfg o P c s' := by
  obtain ⟨h1, h2, _⟩ := h
  obtain ⟨hx, ob, e1, e2, e3⟩ := hl
  refine ⟨fun d n cap al hv => ?_, ob, by rw [h1]; exact e1, e2, e3⟩
  rw [h1] at hv
  rw [h2]
  exact hx d n cap al hv

theorem lies_storage (hc : cfg.Ok) (h : Reach cfg a s) (hx : a v = some xs) (hl : Lies cfg (.user v) P c s) :
    storage cfg v s = (.ok (P, c, false), s) := by
  obtain ⟨hx', ob, e1, rfl, rfl⟩ := hl
  obtain ⟨ob2, l2, g2, _⟩ := h.holds hc hx
  have e3 := Option.some.inj (g2.var.symm.trans e1)
  subst e3
  exact held_storage (reach_rel hc h).1.inv g2 hx'

end Verif.Str
