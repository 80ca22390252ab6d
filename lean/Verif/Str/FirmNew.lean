import Verif.Str.FirmProps

/-!
New strings that could not be made for want of memory: lemmas.
-/

namespace Verif.Str

open M Firm

variable {β γ : Type} {cfg cfg' : Cfg} {a a' : Abs} {s s' : St} {xs : List Ch} {op : Op} {P : Ptr} {c v : Nat} {o u : Obj} {w : String}

namespace Firm

/-- Nothing but the object `o`, which did not exist, has changed. -/
structure BareBut (o : Obj) (s s' : St) : Prop where
  vars : upd s'.vars o none = s.vars
  heap : s'.heap = s.heap
  next : s.next ≤ s'.next

theorem BareBut.of_bare {ob : Ob} (ho : s.vars o = none) {s1 : St} (e : s1 = { s with vars := upd s.vars o (some ob) }) (h : Bare s1 s') :
    BareBut o s s' := by
  subst e
  refine ⟨?_, h.heap, h.next⟩
  rw [h.vars, upd_upd]
  exact upd_self ho

/-- A constructor whose body has changed nothing but the object when it throws. -/
theorem construct_firm {al : Nat} {body : M Unit} (ho : s.vars o = none)
    (hb : ∀ w s', body { s with vars := upd s.vars o (some ⟨.small (List.replicate (cfg.ms + 1) (some 0)), al⟩) } = (.error (.throw w), s') →
      BareBut o s s') : Firm cfg' (construct cfg o al body) s := by
  intro w s' e
  unfold construct at e
  rw [bind_apply] at e
  rcases newOb_cases (cfg := cfg) (al := al) ho with h | h
  · rw [h] at e; cases e; exact Or.inr (Bare.refl _)
  rw [h] at e
  dsimp only at e
  unfold constructing at e
  rcases e1 : body { s with vars := upd s.vars o (some ⟨.small (List.replicate (cfg.ms + 1) (some 0)), al⟩) } with ⟨r, s1⟩
  rw [e1] at e
  cases r with
  | ok _ => cases e
  | error f =>
    cases f with
    | throw w' =>
      cases e
      obtain ⟨b1, b2, b3⟩ := hb _ _ e1
      exact Or.inr ⟨b1, b2, b3⟩
    | ub _ => cases e
    | assertFail _ => cases e

/-- `Firm` for every configuration: nothing has changed. -/
theorem bare {x : M β} (h : ∀ cfg', Firm cfg' x s) (e : x s = (.error (.throw w), s')) : Bare s s' := by
  rcases h { w := 1, dbg := false, arena := true, malloc := fun _ _ => false } w s' e with ⟨h1, _⟩ | h1
  · cases h1
  · exact h1

theorem copyCore_firm (r : Ob) : Firm cfg' (copyCore cfg o r) s := by
  unfold copyCore
  rcases r with ⟨l | ⟨d, m, cap, large⟩, al⟩
  · exact of_safe (by safe)
  · cases large
    · exact then_ (alloc_firm _ _ _) fun _ _ _ => calls_safe (by safe)
    · exact of_safe (by safe)

theorem copyCheck_any (o u : Obj) : Safe (fun _ => True) (copyCheck cfg o u) := by
  unfold copyCheck
  safe

theorem noexceptIf_firm {b : Bool} {x : M β} (h : Firm cfg' x s) : Firm cfg' (noexceptIf b x) s := by
  cases b
  · exact h
  · exact noexcept_firm h

theorem ctorCopy_firm (ho : s.vars o = none) : Firm cfg' (ctorCopy cfg o u) s := by
  unfold ctorCopy
  refine noexceptIf_firm (look (getOb_still u s) fun r _ => construct_firm ho fun w s' e => ?_)
  exact BareBut.of_bare ho rfl (bare (fun _ => then_ (copyCore_firm r) fun _ _ _ => calls_safe (copyCheck_any _ _)) e)

theorem initEmpty_small {cells : List Cell} {al : Nat} (hv : s.vars o = some ⟨.small cells, al⟩) (e : initEmpty cfg o s = (.ok (), s')) :
    ∃ cells', s' = { s with vars := upd s.vars o (some ⟨.small cells', al⟩) } := by
  unfold initEmpty setSmallSize at e
  rw [bind_ok (assert_ok (by simp) _), bind_ok (getOb_ok hv)] at e
  simp only [Nat.zero_le, if_true] at e
  unfold setCore at e
  rw [hv] at e
  cases e
  exact ⟨_, rfl⟩

theorem expand_small {cells : List Cell} {al : Nat} (hv : s.vars o = some ⟨.small cells, al⟩) (n : Nat) (exp : Bool) :
    Firm cfg' (expandNoinit cfg o n exp) s := by
  unfold expandNoinit
  refine look (capacity_still o s) fun c _ => look (size_still o s) fun old _ => look (assert_still _ _ s) fun _ _ => look (getOb_still o s) fun ob e => ?_
  rw [getOb_ok hv] at e
  cases e
  dsimp only
  refine ite (fun _ => of_safe (by safe)) fun _ => ?_
  exact then_ (reserveSmall_firm _) fun _ _ _ => calls_safe (expandTail_any _ _ _)

theorem reserve_small {cells : List Cell} {al : Nat} (hv : s.vars o = some ⟨.small cells, al⟩) (n : Nat) :
    Firm cfg' (reserve cfg o n) s := by
  unfold reserve reserveCore
  refine then_ ?_ fun _ _ _ => calls_safe (by safe)
  unfold reserveBy
  refine look (getOb_still o s) fun ob e => ?_
  rw [getOb_ok hv] at e
  cases e
  exact reserveSmall_firm _

theorem ctorFill_firm {al n : Nat} {ch : Ch} (ho : s.vars o = none) : Firm cfg' (ctorFill cfg o al n ch) s := by
  unfold ctorFill
  refine construct_firm ho fun w s' e => ?_
  rw [bind_apply] at e
  rcases e1 : initEmpty cfg o { s with vars := upd s.vars o (some ⟨.small (List.replicate (cfg.ms + 1) (some 0)), al⟩) } with ⟨r, s1⟩
  rw [e1] at e
  cases r with
  | error f => cases e; exact absurd e1 (calls_safe (initEmpty_safe o) _ _)
  | ok _ =>
    obtain ⟨cells, h1⟩ := initEmpty_small (upd_same _ _ _) e1
    simp only [upd_upd] at h1
    refine BareBut.of_bare ho h1 (bare (fun _ => then_ (expand_small (cells := cells) (al := al) ?_ _ _) fun _ _ _ => calls_safe (by safe)) e)
    rw [h1]
    exact upd_same _ _ _

theorem substr_firm {pos n : Nat} (ho : s.vars o = none) : Firm cfg' (substr cfg o u pos n) s := by
  unfold substr
  exact look (size_still u s) fun _ _ => look (enforce_still _ s) fun _ _ => look (dataPtr_still u s) fun _ _ => look (getOb_still u s) fun _ _ =>
    ctorData_firm ho

/-- A new string that is filled: if the filling has changed nothing when it throws, or has left the string as it was made. -/
theorem building_bare {cells : List Cell} {al : Nat} {body : M Unit} {s1 : St} (ho : s.vars o = none)
    (e1 : s1 = { s with vars := upd s.vars o (some ⟨.small cells, al⟩) }) (hb : ∀ w s', body s1 = (.error (.throw w), s') → Bare s1 s')
    (e : building cfg o body s1 = (.error (.throw w), s')) : Bare s s' := by
  unfold building at e
  rcases e2 : body s1 with ⟨r, s2⟩
  rw [e2] at e
  have hd : ∀ {s1 s2 : St} {w' : String}, destroy cfg o s1 ≠ (.error (.throw w'), s2) := fun {_ _ _} h =>
    absurd trivial ((destroy_safe (F := fun _ => True) o).safe _ _ _ h)
  cases r with
  | ok _ => cases e
  | error f =>
    cases f with
    | ub _ => cases e
    | assertFail _ => cases e
    | throw w' =>
      dsimp only at e
      rcases e3 : destroy cfg o s2 with ⟨r3, s3⟩
      rw [e3] at e
      cases r3 with
      | error f => cases e; exact absurd e3 hd
      | ok _ =>
        cases e
        obtain ⟨b1, b2, b3⟩ := hb _ _ e2
        subst e1
        have hv : s2.vars o = some ⟨.small cells, al⟩ := by rw [b1]; exact upd_same _ _ _
        unfold destroy release at e3
        rw [bind_apply, bind_ok (getOb_ok hv)] at e3
        cases e3
        refine ⟨?_, b2, b3⟩
        show upd s2.vars o none = s.vars
        rw [b1]
        simp only [upd_upd]
        exact upd_self ho

end Firm

/-- Appending to a string for which room has been made does not throw. -/
theorem room_made (hc : cfg.Ok) {n : Nat} {ops : List Op} {s1 : St} (h : Reach cfg a s) (hx : a v = some xs) (hn : n < M64) (hl : xs.length < M64)
    (hr : (Op.reserve v n).run cfg s = (.ok (), s1)) (hf : fits cfg.arena v n ops a = true) : ∃ s', runOk cfg ops s1 = (.ok (), s') := by
  obtain ⟨P, c, h1, h2, h3⟩ := reserved_room hc h hx hr
  have h4 : Reach cfg a s1 := by
    refine h.done (op := .reserve v n) ?_ hr
    simp only [Op.spec, hx, Option.bind_eq_bind, Option.bind_some, if_pos hn]
    rw [Abs.set, if_pos hl, upd_self hx]
  obtain ⟨s', e, _⟩ := fits_in_place hc h2 h3 h4 h1 hf
  exact ⟨s', e⟩

theorem runOk_two {op1 op2 : Op} (h : runOk cfg [op1, op2] s = (.ok (), s')) : (op1.run cfg >>= fun _ => op2.run cfg) s = (.ok (), s') := by
  unfold runOk runOk runOk at h
  rw [bind_apply] at h ⊢
  rcases e : op1.run cfg s with ⟨r, s1⟩
  rw [e] at h
  cases r with
  | error _ => cases h
  | ok _ =>
    dsimp only at h ⊢
    rw [bind_apply] at h
    rcases e2 : op2.run cfg s1 with ⟨r2, s2⟩
    rw [e2] at h
    cases r2 with
    | error _ => cases h
    | ok _ => exact h

/-- A new string of two parts, appended one after the other by `op1` and `op2`. -/
theorem two_parts (hc : cfg.Ok) {al n : Nat} {op1 op2 : Op} {cells : List Cell} (h : Reach cfg (upd a v (some [])) s)
    (hv : s.vars (.user v) = some ⟨.small cells, al⟩) (hn : n < M64) (hf : fits cfg.arena v n [op1, op2] (upd a v (some [])) = true)
    (e : (do reserve cfg (.user v) n; op1.run cfg; op2.run cfg) s = (.error (.throw w), s')) : Bare s s' := by
  rw [bind_apply] at e
  rcases e3 : reserve cfg (.user v) n s with ⟨r, s2⟩
  rw [e3] at e
  cases r with
  | error f =>
    cases e
    exact bare (fun _ => reserve_small hv n) e3
  | ok _ =>
    obtain ⟨s3, e4⟩ := room_made hc h (upd_same _ _ _) hn (by decide) e3 hf
    have := runOk_two e4
    dsimp only at e
    rw [this] at e
    cases e

/-- Making a string of two parts. -/
theorem parts_bare (hc : cfg.Ok) (h : Reach cfg a s) {al n : Nat} {op1 op2 : Op} (hv : a v = none) (hal : cfg.arena = (al != 0)) (hn : n < M64)
    (hf : fits cfg.arena v n [op1, op2] (upd a v (some [])) = true) {body : M Unit}
    (hb : ∀ s1, Reach cfg (upd a v (some [])) s1 → body s1 = (do reserve cfg (.user v) n; op1.run cfg; op2.run cfg) s1)
    (e : (do ctorEmpty cfg (.user v) al; building cfg (.user v) body) s = (.error (.throw w), s')) : Bare s s' := by
  have ho := (reach_rel hc h).1.absent v hv
  rw [bind_apply] at e
  rcases e1 : ctorEmpty cfg (.user v) al s with ⟨r, s1⟩
  rw [e1] at e
  cases r with
  | error f => cases e; exact bare (fun _ => ctorEmpty_firm ho) e1
  | ok _ =>
    have h1 := Caps.ctorEmpty_ends (cfg := cfg) (v := .user v) (s := s) (al := al)
    simp only [Caps.Ends, Tri, e1] at h1
    obtain ⟨_, cells, h1⟩ := h1
    have h2 : Reach cfg (upd a v (some [])) s1 := by
      refine h.done (op := .makeEmpty v al) ?_ e1
      simp only [Op.spec, if_pos hal, Abs.make, hv, Option.isNone_none, if_true]
    refine building_bare ho h1 (fun w s' e2 => ?_) e
    rw [hb s1 h2] at e2
    exact two_parts hc h2 (by rw [h1]; exact upd_same _ _ _) hn hf e2

theorem Reach.size (hc : cfg.Ok) (h : Reach cfg a s) (hx : a v = some xs) : size cfg (.user v) s = (.ok xs.length, s) := by
  have h3 := ((reach_rel hc h).1.held v xs hx).sizeM (reach_rel hc h).1.inv
  simpa only [List.length_map] using h3

theorem concat_bare (hc : cfg.Ok) (h : Reach cfg a s) {u1 u2 : Nat} (ho : (Op.concat v u1 u2).spec cfg.arena a = some (.done a'))
    (e : (Op.concat v u1 u2).run cfg s = (.error (.throw w), s')) : Bare s s' := by
  have hrel := (reach_rel hc h).1
  simp only [Op.spec, Option.bind_eq_bind, Option.bind_eq_some_iff] at ho
  obtain ⟨xs, h1, ys, h2, ho⟩ := ho
  split at ho
  case isFalse => cases ho
  rename_i hn
  have hv := (make_some ho).1
  have n1 : u1 ≠ v := by rintro rfl; rw [hv] at h1; cases h1
  have n2 : u2 ≠ v := by rintro rfl; rw [hv] at h2; cases h2
  obtain ⟨ob, hob⟩ := (hrel.held u1 xs h1).var
  have e : concat cfg (.user v) (.user u1) (.user u2) s = (.error (.throw w), s') := e
  unfold concat at e
  rw [bind_ok (getOb_ok hob)] at e
  refine parts_bare hc h (n := xs.length + ys.length) (op1 := .appendStr v u1) (op2 := .appendStr v u2) hv (hrel.inv.al _ _ hob) hn ?_ ?_ e
  · simp [fits, Op.alters, Op.spec, upd_other, n1, n2, h1, h2, Abs.set, hn, show xs.length < M64 by omega]
  · intro s1 r1
    rw [bind_ok (r1.size hc (v := u1) (xs := xs) (by rw [upd_other _ _ n1]; exact h1)),
      bind_ok (r1.size hc (v := u2) (xs := ys) (by rw [upd_other _ _ n2]; exact h2)), add64_of_lt hn]
    rfl

/-- The call that appends a part. -/
def Part.call (v u : Nat) : Part → Op
  | .str => .appendStr v u
  | .chars ys => .append v (.lit ys)
  | .char ch => .pushBack v ch

theorem Part.call_run {u : Nat} (q : Part) : (q.call v u).run cfg = addPart cfg (.user v) (.user u) q := by
  cases q <;> rfl

theorem Part.call_spec {u : Nat} {q : Part} {arena : Bool} {zs : List Ch} (hv : a v = some zs) (hu : a u = some xs)
    (hn : (zs ++ q.of xs).length < M64) : (q.call v u).spec arena a = some (.done (upd a v (some (zs ++ q.of xs)))) := by
  cases q <;> simp only [Part.call, Part.of, Op.spec, hv, hu, Src.chars, Option.bind_eq_bind, Option.bind_some]
  case chars ys =>
    rw [if_pos (by simp only [Part.of, List.length_append] at hn; omega)]
    exact if_pos hn
  all_goals exact if_pos hn

theorem Part.call_alters {u : Nat} (q : Part) : (q.call v u).alters v = true := by
  cases q <;> simp [Part.call, Op.alters]

theorem plus_bare (hc : cfg.Ok) (h : Reach cfg a s) {u : Nat} {q1 q2 : Part} (ho : (Op.concatWith v u q1 q2).spec cfg.arena a = some (.done a'))
    (e : (Op.concatWith v u q1 q2).run cfg s = (.error (.throw w), s')) : Bare s s' := by
  have hrel := (reach_rel hc h).1
  simp only [Op.spec, Option.bind_eq_bind, Option.bind_eq_some_iff] at ho
  obtain ⟨xs, h1, ho⟩ := ho
  split at ho
  case isFalse => cases ho
  rename_i hn
  have hv := (make_some ho).1
  have n1 : u ≠ v := by rintro rfl; rw [hv] at h1; cases h1
  obtain ⟨ob, hob⟩ := (hrel.held u xs h1).var
  have e : plusNew cfg (.user v) (.user u) q1 q2 s = (.error (.throw w), s') := e
  unfold plusNew at e
  rw [bind_ok (getOb_ok hob)] at e
  refine parts_bare hc h (n := (q1.of xs).length + (q2.of xs).length) (op1 := q1.call v u) (op2 := q2.call v u) hv (hrel.inv.al _ _ hob) hn ?_ ?_ e
  · have g1 := Part.call_spec (a := upd a v (some [])) (q := q1) (arena := cfg.arena) (upd_same _ _ _) (by rw [upd_other _ _ n1]; exact h1)
      (by simp; omega)
    have g2 := Part.call_spec (a := upd a v (some (q1.of xs))) (q := q2) (arena := cfg.arena) (upd_same _ _ _) (by rw [upd_other _ _ n1]; exact h1)
      (by simp; omega)
    simp only [upd_upd, List.nil_append] at g1 g2
    simp [fits, Part.call_alters, g1, g2]
  · intro s1 r1
    have k : ∀ q : Part, partSize cfg (.user u) q s1 = (.ok (q.of xs).length, s1) := by
      intro q
      cases q with
      | str => exact r1.size hc (by rw [upd_other _ _ n1]; exact h1)
      | chars _ => rfl
      | char _ => rfl
    rw [bind_ok (k q1), bind_ok (k q2), add64_of_lt hn, Part.call_run, Part.call_run]
    rfl

/-! ### `clone` -/

/-- What a copy of a string that has a counted block leaves. -/
theorem ctorCopy_large {d m cap al : Nat} (ho : s.vars o = none) (hu : s.vars u = some ⟨.ml d m cap true, al⟩)
    (e : ctorCopy cfg o u s = (.ok (), s')) : ∃ n src cells, s.heap d = some ⟨some n, src, cells⟩ ∧
      s' = { s with vars := upd s.vars o (some ⟨.ml d m cap true, al⟩), heap := upd s.heap d (some ⟨some (n + 1), src, cells⟩) } := by
  have e1 : (do let r ← getOb u; construct cfg o r.al do copyCore cfg o r; copyCheck cfg o u) s = (.ok (), s') := by
    unfold ctorCopy noexceptIf at e
    split at e
    · unfold noexcept at e
      split at e
      · cases e
      · exact e
    · exact e
  rw [bind_ok (getOb_ok hu)] at e1
  unfold construct at e1
  rw [bind_apply] at e1
  rcases newOb_cases (cfg := cfg) (al := al) ho with h | h
  · rw [h] at e1; cases e1
  rw [h] at e1
  dsimp only at e1
  unfold constructing at e1
  split at e1
  · cases e1
  unfold copyCore at e1
  dsimp only at e1
  rw [bind_apply, bind_apply] at e1
  unfold setCore at e1
  simp only [upd_same] at e1
  unfold incrementRefs at e1
  rw [bind_apply] at e1
  unfold refs at e1
  rcases hd : s.heap d with _ | ⟨_ | n, src, cells⟩
  · simp only [hd] at e1; cases e1
  · simp only [hd] at e1; cases e1
  · simp only [hd] at e1
    unfold setRefs at e1
    simp only [hd] at e1
    have h2 := copyCheck_still (cfg := cfg) o u { s with vars := upd s.vars o (some ⟨.ml d m cap true, al⟩), heap := upd s.heap d (some ⟨some (n + 1), src, cells⟩) }
    refine ⟨n, src, cells, rfl, ?_⟩
    simp only [upd_upd] at e1
    rw [e1] at h2
    exact h2

theorem clone_bare (ha : cfg.arena = false) (ho : s.vars o = none) (hpos : ∀ b n src cells, s.heap b = some ⟨some n, src, cells⟩ → 0 < n)
    (e : clone cfg o u s = (.error (.throw w), s')) : Bare s s' := by
  unfold clone at e
  rw [bind_apply] at e
  unfold getOb at e
  cases hu : s.vars u with
  | none => rw [hu] at e; cases e
  | some ob =>
    rw [hu] at e
    rcases ob with ⟨l | ⟨d, m, cap, large⟩, al⟩
    · exact bare (fun _ => ctorCopy_firm ho) e
    · cases large with
      | false => exact bare (fun _ => ctorCopy_firm ho) e
      | true =>
        dsimp only at e
        rw [bind_apply] at e
        rcases e1 : ctorCopy cfg o u s with ⟨r, s1⟩
        rw [e1] at e
        cases r with
        | error f => cases e; exact bare (fun _ => ctorCopy_firm ho) e1
        | ok _ =>
          obtain ⟨n, src, cells, hd, h1⟩ := ctorCopy_large ho hu e1
          dsimp only at e
          unfold building at e
          rcases e2 : unshare cfg o 0 s1 with ⟨r, s2⟩
          rw [e2] at e
          cases r with
          | ok _ => cases e
          | error f =>
            cases f with
            | ub _ => cases e
            | assertFail _ => cases e
            | throw w' =>
              obtain ⟨b1, b2, b3⟩ := bare (fun _ => unshare_firm 0) e2
              dsimp only at e
              have hp := hpos d n src cells hd
              have hv : s2.vars o = some ⟨.ml d m cap true, al⟩ := by rw [b1, h1]; exact upd_same _ _ _
              have hh : s2.heap d = some ⟨some (n + 1), src, cells⟩ := by rw [b2, h1]; exact upd_same _ _ _
              have e3 : destroy cfg o s2 = (.ok (), { s2 with heap := upd s2.heap d (some ⟨some n, src, cells⟩), vars := upd s2.vars o none }) := by
                unfold destroy release
                rw [bind_apply, bind_ok (getOb_ok hv)]
                simp only [ha, Bool.false_and, Bool.false_eq_true, if_false, if_true]
                unfold decrementRefs
                rw [bind_ok (show refs d s2 = (.ok (n + 1), s2) by simp only [refs, hh]), bind_ok (assert_ok (by simp) _)]
                simp only [Nat.add_eq_zero_iff, Nat.succ_ne_self, and_false, if_false, Nat.add_sub_cancel]
                rw [bind_ok (show setRefs d n s2 = (.ok (), { s2 with heap := upd s2.heap d (some ⟨some n, src, cells⟩) }) by
                  simp only [setRefs, hh])]
                have : (n + 1 == 1) = false := by simp; omega
                rw [this]
                rfl
              rw [e3] at e
              cases e
              refine ⟨?_, ?_, ?_⟩
              · show upd s2.vars o none = s.vars
                rw [b1, h1]
                simp only [upd_upd]
                exact upd_self ho
              · show upd s2.heap d _ = s.heap
                rw [b2, h1]
                simp only [upd_upd]
                exact upd_self hd
              · rw [h1] at b3
                exact b3

/-! ### Calls that make a string -/

/-- The calls that make a new string without changing another, but for `clone`. -/
def Op.makes : Op → Bool
  | .makeEmpty .. | .make .. | .makeFill .. | .copy .. | .substr .. | .concat .. | .concatWith .. => true
  | _ => false

theorem makes_bare (hc : cfg.Ok) (h : Reach cfg a s) (hm : op.makes = true) (ho : op.spec cfg.arena a = some (.done a'))
    (e : op.run cfg s = (.error (.throw w), s')) : Bare s s' := by
  have hrel := (reach_rel hc h).1
  have key : ∀ {v : Nat}, a v = none → s.vars (.user v) = none := fun h => hrel.absent _ h
  cases op with
  | makeEmpty v al =>
    simp only [Op.spec] at ho
    split at ho
    case isFalse => cases ho
    exact bare (fun _ => ctorEmpty_firm (key (make_some ho).1)) e
  | make v al src =>
    simp only [Op.spec, Option.bind_eq_bind, Option.bind_eq_some_iff] at ho
    obtain ⟨ys, hy, ho⟩ := ho
    split at ho
    case isFalse => cases ho
    obtain ⟨p, hp, -⟩ := resolve_ok hc hrel hy v
    exact bare (fun _ => look (by rw [hp]) fun b _ => ctorData_firm (key (make_some ho).1)) e
  | makeFill v al n ch =>
    simp only [Op.spec] at ho
    split at ho
    case isFalse => cases ho
    exact bare (fun _ => ctorFill_firm (key (make_some ho).1)) e
  | copy v u =>
    simp only [Op.spec, Option.bind_eq_bind, Option.bind_eq_some_iff] at ho
    obtain ⟨xs, _, ho⟩ := ho
    exact bare (fun _ => ctorCopy_firm (key (make_some ho).1)) e
  | substr v u pos n =>
    simp only [Op.spec, Option.bind_eq_bind, Option.bind_eq_some_iff] at ho
    obtain ⟨xs, _, ho⟩ := ho
    split at ho
    case isTrue => cases ho
    rename_i hv
    exact bare (fun _ => substr_firm (key (by simpa using hv))) e
  | concat v u1 u2 => exact concat_bare hc h ho e
  | concatWith v u q1 q2 => exact plus_bare hc h ho e
  | _ => cases hm

end Verif.Str
