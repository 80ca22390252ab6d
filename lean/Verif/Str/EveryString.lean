import Verif.Str.StringPlus
import Verif.Str.StringViolations
import Verif.Str.RoomProps
import Verif.Str.CatchProps

/-!
C49, C81, C84 in every state: writes through `data()` of a string with copies, a refused `realloc`, `std::to_string` of strings with NULs.
-/

namespace Verif.Str

open M

variable {cfg : Cfg} {s s' : St} {a a' : Abs} {u v : Nat} {xs ys : List Ch}

/-! ### Lemmas -/

theorem put_one {l : List Cell} {i : Nat} {x : Cell} (h : i < l.length) : put l i [x] = l.set i x := by
  rw [List.set_eq_take_append_cons_drop, if_pos h]
  simp [put]

theorem take_set_lt {l : List Cell} {i k : Nat} {x : Cell} : (l.set i x).take k = (l.take k).set i x := List.take_set ..

/-! ### C49 -/

/-- C49, violated in every state: if `data()` of two strings is the same pointer, as after a copy of a long string, a character written
through the one's `data()` changes the other. -/
theorem data_shared_everywhere_violated (hc : cfg.Ok) (h : Reach cfg a s) (hne : u ≠ v) (hv : a v = some xs) {p : Ptr}
    (hpu : (dataPtr (.user u) s).1 = .ok p) (hpv : (dataPtr (.user v) s).1 = .ok p) {i : Nat} (hi : i < xs.length) (c : Ch) :
    ∃ s', writeCells (p.add i) [some c] s = (.ok (), s') ∧ contents cfg v s' = (.ok (xs.set i c), s') := by
  have hr := (reach_rel hc h).1
  obtain ⟨ob, l, g, e⟩ := h.holds hc hv
  rw [g.dataM] at hpv
  cases hpv
  obtain ⟨core, al⟩ := ob
  cases core with
  | small l' =>
    exfalso
    unfold dataPtr at hpu
    cases hu : s.vars (.user u) with
    | none =>
      rw [bind_apply] at hpu
      simp only [getOb, hu] at hpu
      cases hpu
    | some ou =>
      rw [bind_ok (getOb_ok hu)] at hpu
      obtain ⟨core, al'⟩ := ou
      cases core with
      | small _ =>
        simp only [pure, M.pure, Core.ptr, Except.ok.injEq, Ptr.inl.injEq, Obj.user.injEq] at hpu
        exact hne hpu.1
      | ml _ _ _ _ => cases hpu
  | ml d k cap large =>
    obtain ⟨B, hB, hlen, hk, _⟩ := hr.inv.core _ _ g.var
    have hs := g.size
    cases hs
    have hcells := g.cells
    simp only [cellsOf, hB, Option.map_some, Option.some.injEq] at hcells
    subst hcells
    have hle : i + [some c].length ≤ B.cells.length := by simp; omega
    refine ⟨⟨upd s.heap d (some { B with cells := put B.cells i [some c] }), s.next, s.vars, s.refused, s.lost⟩, ?_, ?_⟩
    · simp only [Core.ptr, Ptr.add, writeCells, hB, Nat.zero_add, if_pos hle]
    · have hh : Holds cfg ⟨upd s.heap d (some { B with cells := put B.cells i [some c] }), s.next, s.vars, s.refused, s.lost⟩ (.user v)
          ⟨.ml d xs.length cap large, al⟩ (put B.cells i [some c]) xs.length := by
        refine ⟨g.var, ?_, g.size⟩
        simp [cellsOf, upd]
      have hrd : Reads cfg _ (.user v) (xs.set i c) := ⟨_, _, _, hh, by
        rw [put_one (by omega), take_set_lt, ← e, List.map_set]⟩
      unfold contents
      rw [bind_ok hh.sizeM]
      have := charsFrom_ok hrd xs.length 0 (by simp)
      simpa using this

/-- The hypotheses are met after a copy of a long string. -/
example (d : Bool) : ∃ a s, Reach (heapCfg d) a s ∧ a 1 = some (List.replicate 300 97) ∧
    (dataPtr (.user 0) s).1 = .ok (.blk 0 0) ∧ (dataPtr (.user 1) s).1 = .ok (.blk 0 0) := by
  obtain ⟨a, h, e, _⟩ := reached (heapCfg_ok d) (v := 1) (xs := List.replicate 300 97)
    (ops := [.makeFill 0 0 300 97, .copy 1 0]) (by cases d <;> decide +kernel) (by cases d <;> decide +kernel)
  exact ⟨a, _, h, e, by cases d <;> decide +kernel, by cases d <;> decide +kernel⟩

/-! ### C84 -/

/-- C84, violated in every state: `std::to_string` of any string with a NUL is shorter than the string. -/
theorem to_string_everywhere_violated (hc : cfg.Ok) (h : Reach cfg a s) (hv : a v = some xs) (h0 : (0 : Ch) ∈ xs) :
    ∃ ys, toStdString (.user v) s = (.ok ys, s) ∧ ys.length < xs.length := by
  refine ⟨_, to_string_spec hc h hv, ?_⟩
  rw [List.length_map]
  have hle := (List.takeWhile_prefix (l := xs) (· ≠ (0 : Ch))).length_le
  rcases Nat.lt_or_eq_of_le hle with hlt | he
  · exact hlt
  · have e := (List.takeWhile_prefix (l := xs) (· ≠ (0 : Ch))).eq_of_length he
    rw [← e] at h0
    have := List.all_takeWhile (p := fun x => decide (x ≠ (0 : Ch))) (l := xs)
    have := List.all_eq_true.1 this 0 h0
    simp at this

/-! ### C81 -/

/-- C81, violated in every state: a long string that no other string shares, with little spare room, loses its characters when `reserve`
needs memory and is refused; reading the string afterwards, or destroying it, is undefined. -/
theorem realloc_refused_everywhere_violated (hc : cfg.Ok) (ha : cfg.arena = false) (h : Reach cfg a s) (hv : a v = some xs) (hx : xs ≠ [])
    {d k cap al n : Nat} (ho : s.vars (.user v) = some ⟨.ml d k cap true, al⟩) (hs : (isShared (.user v) s).1 = .ok false)
    (hroom : 2 * (cap - xs.length) ≤ xs.length) (hn : cap < n) (hfit : (n + 1) * cfg.w + 8 < 2 ^ 64) (hm : Refuses cfg s) :
    ∃ s' m m', (Op.reserve v n).run cfg s = (.error (.throw "bad_alloc"), s') ∧ (contents cfg v s').1 = .error (.ub m) ∧
      ((Op.destroy v).run cfg s').1 = .error (.ub m') := by
  have hr := (reach_rel hc h).1
  obtain ⟨ob, l, g, _⟩ := h.holds hc hv
  have hob := g.var
  rw [ho] at hob
  cases hob
  have hsz := g.size
  cases hsz
  obtain ⟨B, hB, hlen, hk, hz, hrc, hcap⟩ := hr.inv.core _ _ ho
  obtain ⟨b, hb, hex⟩ := isShared_ok hr.inv ⟨_, l, _, g, rfl⟩
  rw [hb] at hs
  cases hs
  obtain ⟨B', hB', hrc1⟩ := hex rfl _ _ _ _ ho
  rw [hB] at hB'
  cases hB'
  obtain ⟨rc, src, cells⟩ := B
  simp only at hrc1 hlen hz
  subst hrc1
  have hrefs : refs d s = (.ok 1, s) := by simp only [refs, hB]
  have hw := hc.w
  have e1 : mul64 (add64 xs.length 1) cfg.w = (xs.length + 1) * cfg.w := by
    unfold mul64 add64
    rw [Nat.mod_eq_of_lt (a := xs.length + 1) (by rcases hw with e | e | e <;> rw [e] at hcap <;> omega)]
    exact Nat.mod_eq_of_lt (by rcases hw with e | e | e <;> rw [e] at hcap ⊢ <;> omega)
  have e2 : mul64 (add64 cap 1) cfg.w = (cap + 1) * cfg.w := by
    unfold mul64 add64
    rw [Nat.mod_eq_of_lt (a := cap + 1) (by rcases hw with e | e | e <;> rw [e] at hcap <;> omega)]
    exact Nat.mod_eq_of_lt (by rcases hw with e | e | e <;> rw [e] at hcap ⊢ <;> omega)
  have hbig : largeBytes cfg n s = (.ok ((n + 1) * cfg.w + 8), s) := by
    unfold largeBytes
    rw [if_pos (by rcases hw with e | e | e <;> rw [e] at hfit <;> omega), if_pos hfit]
    rfl
  have hsr : smartRealloc cfg al d true (8 + (xs.length + 1) * cfg.w) (8 + (cap + 1) * cfg.w) ((n + 1) * cfg.w + 8) s =
      (.error (.throw "bad_alloc"), ⟨upd s.heap d none, s.next + 1, s.vars, true, true⟩) := by
    unfold smartRealloc
    rw [bind_ok (assert_ok (by
      simp only [Bool.and_eq_true, decide_eq_true_eq]
      rcases hw with e | e | e <;> rw [e] <;> omega) _)]
    have hno : ¬ mul64 (sub64 (8 + (cap + 1) * cfg.w) (8 + (xs.length + 1) * cfg.w)) 2 > 8 + (xs.length + 1) * cfg.w := by
      unfold mul64 sub64
      rcases hw with e | e | e <;> rw [e] at hcap ⊢ <;> omega
    simp only [ha, Bool.false_eq_true, if_false, if_neg hno]
    simp only [checkedRealloc, hB, hm _, Bool.false_eq_true, if_false]
  have hrun : (Op.reserve v n).run cfg s =
      (.error (.throw "bad_alloc"), ⟨upd s.heap d none, s.next + 1, s.vars, true, true⟩) := by
    show reserveCore cfg (.user v) n s = _
    refine bind_fault ?_
    show reserveBy cfg (.user v) n s = _
    unfold reserveBy
    rw [bind_ok (getOb_ok ho)]
    show reserveLarge cfg (.user v) n s = _
    unfold reserveLarge
    rw [bind_ok (getOb_ok ho)]
    simp only
    rw [bind_ok hrefs]
    simp only [gt_iff_lt, Nat.lt_irrefl, if_false, if_pos hn]
    refine bind_fault ?_
    unfold reallocate
    rw [bind_ok (assert_ok (by simp only [Bool.and_eq_true, decide_eq_true_eq]; omega) _), bind_ok hbig, bind_ok hrefs,
      bind_ok (assert_ok (by simp) _), e1, e2]
    exact bind_fault hsr
  have hg : getOb (.user v) ⟨upd s.heap d none, s.next + 1, s.vars, true, true⟩ = (.ok ⟨.ml d xs.length cap true, al⟩, ⟨upd s.heap d none, s.next + 1, s.vars, true, true⟩) :=
    getOb_ok ho
  refine ⟨_, "read of a freed block", "reference count of a block that has none", hrun, ?_, ?_⟩
  · have hsize : size cfg (.user v) ⟨upd s.heap d none, s.next + 1, s.vars, true, true⟩ = (.ok xs.length, ⟨upd s.heap d none, s.next + 1, s.vars, true, true⟩) := by
      unfold size
      rw [bind_ok hg]
      rfl
    unfold contents
    rw [bind_ok hsize]
    obtain ⟨m, hm1⟩ : ∃ m, xs.length = m + 1 := ⟨xs.length - 1, by
      have : xs.length ≠ 0 := fun e => hx (List.eq_nil_of_length_eq_zero e)
      omega⟩
    rw [hm1]
    unfold charsFrom
    refine congrArg Prod.fst (bind_fault (s' := ⟨upd s.heap d none, s.next + 1, s.vars, true, true⟩) ?_)
    have hd : dataPtr (.user v) ⟨upd s.heap d none, s.next + 1, s.vars, true, true⟩ = (.ok (.blk d 0), ⟨upd s.heap d none, s.next + 1, s.vars, true, true⟩) := by
      unfold dataPtr
      rw [bind_ok hg]
      rfl
    unfold getAt
    rw [bind_ok hd]
    refine bind_fault ?_
    simp [Ptr.add, readCells, upd]
  · show (destroy cfg (.user v) _).1 = _
    refine congrArg Prod.fst (bind_fault (s' := ⟨upd s.heap d none, s.next + 1, s.vars, true, true⟩) ?_)
    unfold release
    rw [bind_ok hg]
    simp only [ha, Bool.false_and, Bool.false_eq_true, if_false, if_true]
    unfold decrementRefs
    refine bind_fault ?_
    simp only [refs, upd, if_true]

/-- The hypotheses are met by a string of 300 characters, when the second request is refused. -/
example (d : Bool) : ∃ a s, Reach (refusing d 1) a s ∧ a 0 = some (List.replicate 300 97) ∧
    s.vars (.user 0) = some ⟨.ml 0 300 300 true, 0⟩ ∧ (isShared (.user 0) s).1 = .ok false ∧ Refuses (refusing d 1) s := by
  obtain ⟨a, h, e, _⟩ := reached (refusing_ok d 1) (v := 0) (xs := List.replicate 300 97)
    (ops := [.makeFill 0 0 300 97]) (by cases d <;> decide +kernel) (by cases d <;> decide +kernel)
  refine ⟨a, _, h, e, by cases d <;> decide +kernel, by cases d <;> decide +kernel, fun n => ?_⟩
  have : (runOk (refusing d 1) [.makeFill 0 0 300 97] St.init).2.next = 1 := by cases d <;> decide +kernel
  rw [this]
  simp [refusing]

end Verif.Str
