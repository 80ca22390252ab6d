import Verif.Str.StayProps
import Verif.Str.RoomProps

/-!
C122, C123 in every state: strings whose characters are shared move when one is changed, and when they are accessed.
-/

namespace Verif.Str

open M

variable {cfg : Cfg} {s s' : St} {a a' : Abs} {u v : Nat} {xs ys : List Ch} {P : Ptr}

/-- Two strings with the same `data()` have the same characters. -/
theorem same_data_same_chars (hc : cfg.Ok) (h : Reach cfg a s) (hu : a u = some xs) (hv : a v = some ys)
    (hpu : (dataPtr (.user u) s).1 = .ok P) (hpv : (dataPtr (.user v) s).1 = .ok P) : xs = ys := by
  have hr := (reach_rel hc h).1
  obtain ⟨ou, lu, gu, eu⟩ := h.holds hc hu
  obtain ⟨ov, lv, gv, ev⟩ := h.holds hc hv
  rw [gu.dataM] at hpu
  rw [gv.dataM] at hpv
  cases hpu
  obtain ⟨cu, au⟩ := ou
  obtain ⟨cv, av⟩ := ov
  cases cu with
  | small l1 =>
    cases cv with
    | small l2 =>
      simp only [Core.ptr, Except.ok.injEq, Ptr.inl.injEq, Obj.user.injEq] at hpv
      obtain ⟨rfl, _⟩ := hpv
      rw [hu] at hv
      exact Option.some.inj hv
    | ml d2 n2 c2 L2 => cases hpv
  | ml d n c L =>
    cases cv with
    | small l2 => cases hpv
    | ml d2 n2 c2 L2 =>
      simp only [Core.ptr, Except.ok.injEq, Ptr.blk.injEq] at hpv
      obtain ⟨rfl, _⟩ := hpv
      have hs := hr.inv.agree _ _ _ _ d2 gu.var gv.var rfl rfl
      have h1 := gu.size
      have h2 := gv.size
      rw [hs, h2] at h1
      have h3 := gu.cells
      have h4 := gv.cells
      simp only [cellsOf] at h3 h4
      rw [h3] at h4
      cases h4
      have hlen : ys.length = xs.length := by simpa using h1
      rw [hlen, ← eu] at ev
      exact ((List.map_inj_right (fun _ _ h => Option.some.inj h)).1 ev).symm

/-- C122, C123, violated in every state: if a copy shares the characters of a string, any call, or sequence of calls, that
gives the string other characters and leaves the copy alone moves the string: `data()` is another pointer, whatever
`capacity()` was. -/
theorem shared_moves_everywhere_violated (hc : cfg.Ok) (h : Reach cfg a s) (hu : a u = some xs)
    (hpu : (dataPtr (.user u) s).1 = .ok P) (_hpv : (dataPtr (.user v) s).1 = .ok P) (hl : Later cfg u a s a' s')
    (hv : a' v = some ys) (hne : ys ≠ xs) : ∃ Q, dataPtr (.user v) s' = (.ok Q, s') ∧ Q ≠ P := by
  obtain ⟨h', hu', hvar⟩ := later_same hc h hl hu
  obtain ⟨ou, lu, gu, eu⟩ := h'.holds hc hu'
  obtain ⟨ov, lv, gv, ev⟩ := h'.holds hc hv
  refine ⟨_, gv.dataM, fun e => hne ?_⟩
  have hg := gu.var
  rw [hvar] at hg
  have hp : (dataPtr (.user u) s').1 = .ok P := by
    rw [← hpu]
    unfold dataPtr
    rw [bind_ok (getOb_ok gu.var), bind_ok (getOb_ok hg)]
    rfl
  exact (same_data_same_chars hc h' hu' hv hp (by rw [gv.dataM, e])).symm

/-- The hypotheses are met: 300 characters, a copy, and then one character less. -/
example : ∃ a s a' s', Reach (heapCfg false) a s ∧ a 0 = some (List.replicate 300 97) ∧ (dataPtr (.user 0) s).1 = .ok (.blk 0 0) ∧
    (dataPtr (.user 1) s).1 = .ok (.blk 0 0) ∧ Later (heapCfg false) 0 a s a' s' ∧ a' 1 = some (List.replicate 299 97) := by
  obtain ⟨a, h, ha, hs⟩ := reached (heapCfg_ok false) (ops := [.makeFill 0 0 300 97, .copy 1 0]) (v := 0) (xs := List.replicate 300 97)
    (by decide +kernel) (by decide +kernel)
  have key : ∃ a1, specAll false [.popBack 1] a = some a1 ∧ a1 1 = some (List.replicate 299 97) := by
    have : ((specAll false [.makeFill 0 0 300 97, .copy 1 0] fun _ => none).bind fun a =>
        (specAll false [.popBack 1] a).bind (· 1)) = some (List.replicate 299 97) := by
      decide +kernel
    rw [show specAll false [.makeFill 0 0 300 97, .copy 1 0] (fun _ => none) = some a from hs] at this
    exact Option.bind_eq_some_iff.1 this
  obtain ⟨a1, h1, h2⟩ := key
  exact ⟨a, _, a1, _, h, ha, by decide +kernel, by decide +kernel,
    later_runOk (heapCfg_ok false) h ha .start (by decide) h1 (pair_of (by decide +kernel)), h2⟩

/-- C123, violated in every state: if a copy shares the characters of a string, `s[0]`, `begin()` and so on of the string, even
to read only, move it: the pointer taken from `data()` before is no longer the string's; unless memory is refused. -/
theorem access_moves_everywhere_violated (hc : cfg.Ok) (h : Reach cfg a s) (hne : u ≠ v) (hu : a u = some xs) (hv : a v = some ys)
    (hpu : (dataPtr (.user u) s).1 = .ok P) (_hpv : (dataPtr (.user v) s).1 = .ok P) :
    (∃ Q s', begin_ cfg (.user v) s = (.ok Q, s') ∧ dataPtr (.user v) s' = (.ok Q, s') ∧ Q ≠ P ∧
      (dataPtr (.user u) s').1 = .ok P) ∨
    ∃ e s', begin_ cfg (.user v) s = (.error e, s') ∧ Err0 cfg s e s' := by
  have hr := (reach_rel hc h).1
  have ht := begin_tri hc hr.inv (hr.held v ys hv)
  unfold Tri at ht
  rcases e : begin_ cfg (.user v) s with ⟨r, s1⟩
  rw [e] at ht
  cases r with
  | error f => exact Or.inr ⟨f, s1, rfl, ht⟩
  | ok Q =>
    obtain ⟨w1, f1, ob, l, n, g, hx, rfl, _⟩ := ht
    obtain ⟨ou, lu, gu, _⟩ := h.holds hc hu
    have hvar := (f1 (.user u) (by simpa using hne)).1
    have hgu := gu.var
    rw [← hvar] at hgu
    have hpu' : (dataPtr (.user u) s1).1 = .ok P := by
      rw [← hpu]
      unfold dataPtr
      rw [bind_ok (getOb_ok gu.var), bind_ok (getOb_ok hgu)]
      rfl
    refine Or.inl ⟨_, s1, rfl, g.dataM, fun e' => ?_, hpu'⟩
    unfold dataPtr at hpu'
    rw [bind_ok (getOb_ok hgu)] at hpu'
    have hpu2 : ou.core.ptr (.user u) = P := by
      simpa [pure, M.pure] using hpu'
    rw [← e'] at hpu2
    obtain ⟨cu, au⟩ := ou
    obtain ⟨cv, av⟩ := ob
    cases cv with
    | small l2 =>
      cases cu with
      | small l1 =>
        simp only [Core.ptr, Ptr.inl.injEq, Obj.user.injEq] at hpu2
        exact hne hpu2.1
      | ml d n c L => cases hpu2
    | ml d2 n2 c2 L2 =>
      cases cu with
      | small l1 => cases hpu2
      | ml d n c L =>
        simp only [Core.ptr, Ptr.blk.injEq] at hpu2
        obtain ⟨rfl, _⟩ := hpu2
        obtain ⟨B, hB, _, _, _, hL, _⟩ := w1.core _ _ g.var
        have hrc : B.rc = none ∨ B.rc = some 1 := by
          cases L2 with
          | true =>
            obtain ⟨B', hB', h1⟩ := hx _ _ _ _ g.var
            rw [hB] at hB'
            cases hB'
            exact Or.inr h1
          | false => left; simpa using hL
        have := w1.only hB hrc (blkOf_ml g.var) (blkOf_ml hgu)
        simp only [Obj.user.injEq] at this
        exact hne this

/-- The hypotheses are met after a copy of a long string. -/
example (d : Bool) : ∃ a s, Reach (heapCfg d) a s ∧ a 1 = some (List.replicate 300 97) ∧
    (dataPtr (.user 0) s).1 = .ok (.blk 0 0) ∧ (begin_ (heapCfg d) (.user 1) s).1 = .ok (.blk 1 0) := by
  obtain ⟨a, h, e, _⟩ := reached (heapCfg_ok d) (v := 1) (xs := List.replicate 300 97)
    (ops := [.makeFill 0 0 300 97, .copy 1 0]) (by cases d <;> decide +kernel) (by cases d <;> decide +kernel)
  exact ⟨a, _, h, e, by cases d <;> decide +kernel, by cases d <;> decide +kernel⟩

end Verif.Str
