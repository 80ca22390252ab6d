import Verif.Str.Firm
import Verif.Str.MemProps

/-!
C148: where a string is after a call has failed.
-/

namespace Verif.Str

open M Firm

variable {cfg : Cfg} {a a' : Abs} {s s' : St} {xs : List Ch} {op : Op} {P : Ptr} {c v : Nat} {w : String}

/-- Nothing has happened: every string is where it was, with the room it had and sharing what it shared; every pointer reads what
it read; the blocks held are those held before. -/
def Nothing (cfg : Cfg) (s s' : St) : Prop :=
  (∀ u, (storage cfg u s').1 = (storage cfg u s).1) ∧ (∀ p n, (readCells p n s').1 = (readCells p n s).1) ∧
    ∀ b, s'.heap b = s.heap b

theorem Bare.nothing (h : Bare s s') : Nothing cfg s s' :=
  ⟨fun u => storage_seen u s s' h, fun p n => readCells_seen p n s s' h, fun b => by rw [h.heap]⟩

/-- C148: when `append`, `+=`, `push_back`, `resize`, `reserve` or `shrink_to_fit` throws for want of memory, nothing has happened,
shared or not.  Missing: refused `realloc`s, after which nothing holds (`realloc_refused_violated`). -/
theorem failed_call_partial (hc : cfg.Ok) (h : Reach cfg a s) (hv : op.growsOnly v = true) (ho : op.spec cfg.arena a = some (.done a'))
    (hr : op.run cfg s = (.error (.throw w), s')) (hl : s'.lost = false) : Nothing cfg s s' := by
  rcases grows_firm hc h hv ho w s' hr with ⟨_, h1⟩ | h1
  · rw [hl] at h1; cases h1
  · exact h1.nothing

/-- C148: strings on an arena need no such exception. -/
theorem failed_call_arena (hc : cfg.Ok) (ha : cfg.arena = true) (h : Reach cfg a s) (hv : op.growsOnly v = true)
    (ho : op.spec cfg.arena a = some (.done a')) (hr : op.run cfg s = (.error (.throw w), s')) : Nothing cfg s s' := by
  rcases grows_firm hc h hv ho w s' hr with ⟨h1, _⟩ | h1
  · rw [ha] at h1; cases h1
  · exact h1.nothing

/-- C148: the same for `insert` and for appending a range, on a string that shares nothing.  Missing: strings that share their
characters, for which this is false (`failed_insert_violated`), and refused `realloc`s. -/
theorem failed_insert_partial (hc : cfg.Ok) (h : Reach cfg a s) (hv : op.insertsAt v = true) (ho : op.spec cfg.arena a = some (.done a'))
    (hx : a v = some xs) (hst : (storage cfg v s).1 = .ok (P, c, false)) (hr : op.run cfg s = (.error (.throw w), s'))
    (hl : cfg.arena = true ∨ s'.lost = false) : Nothing cfg s s' := by
  rcases inserts_firm hc h hv ho hx (h.here hc hx hst) w s' hr with ⟨h1, h2⟩ | h1
  · rcases hl with hl | hl
    · rw [hl] at h1; cases h1
    · rw [hl] at h2; cases h2
  · exact h1.nothing

/-- Strings on an arena that refuses request number `k`. -/
def arenaRefusing (dbg : Bool) (k : Nat) : Cfg := { refusing dbg k with arena := true }

theorem arenaRefusing_ok (dbg : Bool) (k : Nat) : (arenaRefusing dbg k).Ok := ⟨Or.inl rfl, fun _ n h => by simp [arenaRefusing, refusing]; omega⟩

/-- A string of 30 characters with room for 50 or more, and another. -/
def spareRoom : List Op := [.makeFill 1 0 40 99, .makeEmpty 0 0, .reserve 0 50, .appendFill 0 30 97]

-- appending 40 characters is refused
example : ∃ a a', Reach (refusing false 2) a (runOk (refusing false 2) spareRoom St.init).2 ∧
    (Op.appendFill 0 40 98).spec false a = some (.done a') ∧ a 0 = some (List.replicate 30 97) ∧
    (storage (refusing false 2) 0 (runOk (refusing false 2) spareRoom St.init).2).1 = .ok (.blk 1 0, 50, false) ∧
    ((Op.appendFill 0 40 98).run (refusing false 2) (runOk (refusing false 2) spareRoom St.init).2).1 = .error (.throw "bad_alloc") ∧
    ((Op.appendFill 0 40 98).run (refusing false 2) (runOk (refusing false 2) spareRoom St.init).2).2.lost = false := by
  obtain ⟨a, h, ha, hs⟩ := reached (refusing_ok false 2) (ops := spareRoom) (v := 0)
    (xs := List.replicate 30 97) (by decide +kernel) (by decide +kernel)
  refine ⟨a, upd a 0 (some (List.replicate 30 97 ++ List.replicate 40 98)), h, ?_, ha, by decide +kernel, by decide +kernel, by decide +kernel⟩
  simp only [Op.spec, ha, Option.bind_eq_bind, Option.bind_some]
  exact if_pos (by decide)

-- inserting 40 characters is refused as well
example : ∃ a a', Reach (refusing false 2) a (runOk (refusing false 2) spareRoom St.init).2 ∧
    (Op.insertFill 0 3 40 98).spec false a = some (.done a') ∧ a 0 = some (List.replicate 30 97) ∧
    (storage (refusing false 2) 0 (runOk (refusing false 2) spareRoom St.init).2).1 = .ok (.blk 1 0, 50, false) ∧
    ((Op.insertFill 0 3 40 98).run (refusing false 2) (runOk (refusing false 2) spareRoom St.init).2).1 = .error (.throw "bad_alloc") ∧
    ((Op.insertFill 0 3 40 98).run (refusing false 2) (runOk (refusing false 2) spareRoom St.init).2).2.lost = false := by
  obtain ⟨a, h, ha, hs⟩ := reached (refusing_ok false 2) (ops := spareRoom) (v := 0)
    (xs := List.replicate 30 97) (by decide +kernel) (by decide +kernel)
  refine ⟨a, upd a 0 (some (splice (List.replicate 30 97) 3 0 (List.replicate 40 98))), h, ?_, ha, by decide +kernel, by decide +kernel,
    by decide +kernel⟩
  simp only [Op.spec, ha, Option.bind_eq_bind, Option.bind_some]
  rw [if_pos (by decide)]
  exact if_pos (by decide)

-- a string on an arena that shares its 300 characters; there is no memory for ten more
example : ∃ a a', Reach (arenaRefusing true 1) a (runOk (arenaRefusing true 1) [.makeFill 0 1 300 97, .copy 1 0] St.init).2 ∧
    (Op.appendFill 0 10 98).spec true a = some (.done a') ∧
    (storage (arenaRefusing true 1) 0 (runOk (arenaRefusing true 1) [.makeFill 0 1 300 97, .copy 1 0] St.init).2).1 =
      .ok (.blk 0 0, 300, true) ∧
    ((Op.appendFill 0 10 98).run (arenaRefusing true 1)
      (runOk (arenaRefusing true 1) [.makeFill 0 1 300 97, .copy 1 0] St.init).2).1 = .error (.throw "bad_alloc") := by
  obtain ⟨a, h, ha, hs⟩ := reached (arenaRefusing_ok true 1) (ops := [.makeFill 0 1 300 97, .copy 1 0]) (v := 0)
    (xs := List.replicate 300 97) (by decide +kernel) (by decide +kernel)
  refine ⟨a, upd a 0 (some (List.replicate 300 97 ++ List.replicate 10 98)), h, ?_, by decide +kernel, by decide +kernel⟩
  simp only [Op.spec, ha, Option.bind_eq_bind, Option.bind_some]
  exact if_pos (by rw [List.length_append, List.length_replicate, List.length_replicate]; decide)

/-- C148 violated: `insert` on a string that shares its characters first makes a copy of its own; when there is no memory for the
longer string after that, the call throws and the string is elsewhere than it was, in memory of the arena that is not given back. -/
theorem failed_insert_violated : ∀ dbg ∈ [false, true],
    let cfg := arenaRefusing dbg 2
    let s := (runOk cfg [.makeFill 0 1 300 97, .copy 1 0] St.init).2
    let s' := ((Op.insertFill 0 5 10 98).run cfg s).2
    (storage cfg 0 s).1 = .ok (.blk 0 0, 300, true) ∧ ((Op.insertFill 0 5 10 98).run cfg s).1 = .error (.throw "bad_alloc") ∧
    (contents cfg 0 s').1 = .ok (List.replicate 300 97) ∧ (storage cfg 0 s').1 = .ok (.blk 1 0, 300, false) := by
  decide +kernel

end Verif.Str
