import Verif.Str.RoomProps

/-!
C123: how long pointers to the characters of a string are good.
-/

namespace Verif.Str

open M

variable {cfg : Cfg} {a a' : Abs} {s s' : St} {xs : List Ch} {P : Ptr} {c v : Nat}

/-! ### Specification -/

/-- What a program may do, from the strings `a` in the memory `s`, without calling a function on the string `v` that is
not const, moving from it or destroying it.  It may copy `v`, use it as an argument, go on after exceptions, and call
const functions, which leave the memory as it is. -/
inductive Later (cfg : Cfg) (v : Nat) (a : Abs) (s : St) : Abs → St → Prop
  | start : Later cfg v a s a s
  | done {a1 a2 : Abs} {s1 s2 : St} {op : Op} : Later cfg v a s a1 s1 → op.changes v = false →
      op.spec cfg.arena a1 = some (.done a2) → op.run cfg s1 = (.ok (), s2) → Later cfg v a s a2 s2
  | range {a1 : Abs} {s1 s2 : St} {op : Op} {e : Fault} : Later cfg v a s a1 s1 → op.changes v = false →
      op.spec cfg.arena a1 = some .outOfRange → op.run cfg s1 = (.error e, s2) → Later cfg v a s a1 s2
  | caught {a1 a2 a3 : Abs} {s1 s2 : St} {op : Op} {w : String} : Later cfg v a s a1 s1 → op.changes v = false →
      op.spec cfg.arena a1 = some (.done a3) → op.run cfg s1 = (.error (.throw w), s2) → s2.lost = false →
      (∀ i, a2 i = if op.weak = some i then (contents cfg i s2).1.toOption else a1 i) →
      Later cfg v a s a2 { s2 with refused := false }

/-! ### Lemmas -/

theorem later_same (hc : cfg.Ok) (h : Reach cfg a s) (hl : Later cfg v a s a' s') (hv : a v = some xs) :
    Reach cfg a' s' ∧ a' v = some xs ∧ s'.vars (.user v) = s.vars (.user v) := by
  induction hl with
  | start => exact ⟨h, hv, rfl⟩
  | @done a1 a2 s1 s2 op _ hch ho hr ih =>
    obtain ⟨h1, h2, h3⟩ := ih
    refine ⟨h1.done ho hr, (spec_other ho hch).trans h2, ?_⟩
    have h4 := step_refines hc (reach_rel hc h1).1 ho
    simp only [Refines, Tri, hr] at h4
    exact (h4.2 v hch).trans h3
  | @range a1 s1 s2 op e _ hch ho hr ih =>
    obtain ⟨h1, h2, h3⟩ := ih
    have h4 := step_refines hc (reach_rel hc h1).1 ho
    simp only [Refines, hr] at h4
    cases h4
    exact ⟨h1, h2, h3⟩
  | @caught a1 a2 a3 s1 s2 op w _ hch ho hr hlost ha ih =>
    obtain ⟨h1, h2, h3⟩ := ih
    refine ⟨h1.caught ho hr hlost ha, ?_, ?_⟩
    · rw [ha v, if_neg (fun e => by rw [weak_changes e] at hch; cases hch)]
      exact h2
    · have h4 := step_refines hc (reach_rel hc h1).1 ho
      simp only [Refines, Tri, hr] at h4
      rcases h4 with h4 | ⟨_, _, _, _, _, _, h5⟩
      · rw [hlost] at h4; simp at h4
      · exact (h5 v hch).trans h3

theorem pair_of {α β : Type} {x : α × β} {b : α} (h : x.1 = b) : x = (b, x.2) := Prod.ext h rfl

/-- A program none of whose operations fails. -/
theorem later_runOk (hc : cfg.Ok) {a0 : Abs} {s0 : St} (h0 : Reach cfg a0 s0) (hv : a0 v = some xs) : ∀ {ops : List Op} {a a' : Abs} {s s' : St}, Later cfg v a0 s0 a s →
    (∀ op ∈ ops, op.changes v = false) → specAll cfg.arena ops a = some a' → runOk cfg ops s = (.ok (), s') → Later cfg v a0 s0 a' s'
  | [], a, a', s, s', h, _, hs, hr => by cases hs; cases hr; exact h
  | op :: ops, a, a', s, s', h, hch, hs, hr => by
    obtain ⟨_, s1, e, hr⟩ := bind_ok_inv hr
    unfold specAll at hs
    split at hs
    · next a1 ho => exact later_runOk hc h0 hv (h.done (hch op List.mem_cons_self) ho e) (fun x hx => hch x (List.mem_cons_of_mem _ hx)) hs hr
    · next ho =>
      have h1 := step_refines hc (reach_rel hc (later_same hc h0 h hv).1).1 ho
      simp only [Refines] at h1
      rw [h1] at e; cases e
    · cases hs

/-! ### C123 -/

/-- C123: while nothing but const functions are called on a string, `data()` is the same, whatever is done to other
strings and to copies of this one, and the characters and the terminator can be read there. -/
theorem pointers_stay (hc : cfg.Ok) (h : Reach cfg a s) (hv : a v = some xs) (hp : dataPtr (.user v) s = (.ok P, s))
    (hl : Later cfg v a s a' s') :
    dataPtr (.user v) s' = (.ok P, s') ∧ readCells P (xs.length + 1) s' = (.ok (xs.map some ++ [some 0]), s') := by
  obtain ⟨h1, h2, h3⟩ := later_same hc h hl hv
  have h4 : dataPtr (.user v) s' = (.ok P, s') := by
    obtain ⟨ob, hob⟩ := ((reach_rel hc h).1.held v xs hv).var
    unfold dataPtr at hp ⊢
    rw [bind_ok (getOb_ok hob)] at hp
    rw [bind_ok (getOb_ok (h3.trans hob))]
    cases hp; rfl
  refine ⟨h4, ?_⟩
  obtain ⟨p, e1, e2⟩ := (storage_ok hc h1 h2).2.2
  rw [h4] at e1; cases e1
  exact e2

/-- Its hypotheses hold of a string of 300 characters that is copied; the copy is changed, another string is made from
its characters, and memory for a third is refused. -/
example : ∃ a s a' s', Reach (refusing false 3) a s ∧ a 0 = some (List.replicate 300 97) ∧
    dataPtr (.user 0) s = (.ok (.blk 0 0), s) ∧ Later (refusing false 3) 0 a s a' s' ∧ s'.next = 4 := by
  obtain ⟨a, h, ha, hs⟩ := reached (refusing_ok false 3) (ops := [.makeFill 0 0 300 97]) (v := 0) (xs := List.replicate 300 97)
    (by decide +kernel) (by decide +kernel)
  have key : ∃ a1, specAll false [.copy 1 0, .pushBack 1 98, .make 2 0 (.sub 0 3 40)] a = some a1 ∧ a1 2 = some (List.replicate 40 97) := by
    have : ((specAll false [.makeFill 0 0 300 97] fun _ => none).bind fun a =>
        (specAll false [.copy 1 0, .pushBack 1 98, .make 2 0 (.sub 0 3 40)] a).bind (· 2)) = some (List.replicate 40 97) := by
      decide +kernel
    rw [show specAll false [.makeFill 0 0 300 97] (fun _ => none) = some a from hs] at this
    exact Option.bind_eq_some_iff.1 this
  obtain ⟨a1, h1, h2⟩ := key
  obtain ⟨P, hP, _⟩ := (storage_ok (refusing_ok false 3) h ha).2.2
  have hd : (dataPtr (.user 0) (runOk (refusing false 3) [.makeFill 0 0 300 97] St.init).2).1 = .ok (.blk 0 0) := by decide +kernel
  rw [hP] at hd; cases hd
  refine ⟨a, _, a1, _, h, ha, hP, Later.caught (op := .append 2 (.lit (List.replicate 300 99)))
    (w := "bad_alloc") (later_runOk (refusing_ok false 3) h ha .start (by decide) h1 (pair_of (by decide +kernel))) rfl
    (a3 := upd a1 2 (some (List.replicate 40 97 ++ List.replicate 300 99)))
    ?_ (pair_of (by decide +kernel)) (by decide +kernel) (fun i => (if_neg (by simp [Op.weak])).symm), ?_⟩
  swap
  · decide +kernel
  have e1 : Src.chars a1 (.lit (List.replicate 300 99)) = some (List.replicate 300 99) := by
    unfold Src.chars; simp only
    rw [if_pos (by rw [List.length_replicate]; decide)]
  simp only [Op.spec, h2, e1, Option.bind_eq_bind, Option.bind_some]
  have e2 : (List.replicate 40 97 ++ List.replicate 300 99 : List Ch).length < M64 := by
    rw [List.length_append, List.length_replicate, List.length_replicate]; decide
  exact if_pos e2

/-- C123: `operator[]`, `at`, `front`, `back`, `begin` and so on of a string that is not const neither move the
characters nor change anything, if no copy shares them. -/
theorem access_stays_partial (hc : cfg.Ok) (h : Reach cfg a s) (hv : a v = some xs) (hst : (storage cfg v s).1 = .ok (P, c, false)) :
    begin_ cfg (.user v) s = (.ok P, s) := by
  have hr := (reach_rel hc h).1
  obtain ⟨ob, l, hh, _⟩ := h.holds hc hv
  obtain ⟨c', hcap, _⟩ := hh.capM hr.inv
  obtain ⟨b, hsh, hex⟩ := isShared_ok hr.inv (hr.held v xs hv)
  unfold storage at hst
  rw [bind_ok hh.dataM, bind_ok hcap, bind_ok hsh] at hst
  cases hst
  exact begin_own hr.inv ⟨ob, l, _, hh, hex rfl, rfl, rfl⟩

/-- Its hypotheses hold of a string whose copy is gone. -/
example : ∃ a s, Reach (heapCfg false) a s ∧ a 0 = some (List.replicate 300 97) ∧
    (storage (heapCfg false) 0 s).1 = .ok (.blk 0 0, 300, false) := by
  obtain ⟨a, h, ha, _⟩ := reached (heapCfg_ok false) (ops := [.makeFill 0 0 300 97, .copy 1 0, .destroy 1]) (v := 0)
    (xs := List.replicate 300 97) (by decide +kernel) (by decide +kernel)
  exact ⟨a, _, h, ha, by decide +kernel⟩

/-! ### C123 violated -/

/-- C123 violated: reading `s[0]` of a string that is not const moves its characters if a copy shares them.  A pointer
from `c_str()` then is good only as long as the copy. -/
theorem access_moves_violated :
    let s := (runOk (heapCfg false) [.makeFill 0 0 300 97, .copy 1 0] St.init).2
    let s1 := (begin_ (heapCfg false) (.user 0) s).2
    let s2 := ((Op.destroy 1).run (heapCfg false) s1).2
    (dataPtr (.user 0) s).1 = .ok (.blk 0 0) ∧ (begin_ (heapCfg false) (.user 0) s).1 = .ok (.blk 1 0) ∧
    (readCells (.blk 0 0) 1 s1).1 = .ok [some 97] ∧ ((Op.destroy 1).run (heapCfg false) s1).1 = .ok () ∧
    ∃ w, (readCells (.blk 0 0) 1 s2).1 = .error (.ub w) := by
  refine ⟨by decide +kernel, by decide +kernel, by decide +kernel, by decide +kernel, "read of a freed block", by decide +kernel⟩

end Verif.Str
