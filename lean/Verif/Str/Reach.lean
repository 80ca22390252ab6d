import Verif.Str.Refine
import Verif.Str.Flags

/-!
Histories of a program that uses strings, and what it can read.
-/

namespace Verif.Str

open M

variable {cfg : Cfg} {s s' : St} {a a' : Abs}

/-- `s[i], s[i + 1], …`, `n` of them, read through `operator[]`. -/
def charsFrom (v : Obj) : Nat → Nat → M (List Ch)
  | _, 0 => pure []
  | i, n + 1 => do
    let c ← getAt v i
    let cs ← charsFrom v (i + 1) n
    pure (c :: cs)

/-- The contents of a string as a caller sees them: `s[0], …, s[size() - 1]`. -/
def contents (cfg : Cfg) (v : Nat) : M (List Ch) := do
  let n ← size cfg (.user v)
  charsFrom (.user v) 0 n

/-- The states a program can reach whose calls respect the preconditions, with the contents its strings
should have.  An operation may fail for want of memory and the program go on; then the contents of the
string it was changing are whatever can be read there.  Operations that throw `out_of_range` lead to
the state they started from (`ops_meet_spec`), so they need no case.  The flag `refused` is cleared
when a failure was caught, so that in a state reached it is `false`. -/
inductive Reach (cfg : Cfg) : Abs → St → Prop
  | start : Reach cfg (fun _ => none) St.init
  | done {a a' : Abs} {s s' : St} {op : Op} : Reach cfg a s → op.spec cfg.arena a = some (.done a') →
      op.run cfg s = (.ok (), s') → Reach cfg a' s'
  | caught {a a' a1 : Abs} {s s' : St} {op : Op} {w : String} : Reach cfg a s → op.spec cfg.arena a = some (.done a1) →
      op.run cfg s = (.error (.throw w), s') → s'.lost = false →
      (∀ i, a' i = if op.weak = some i then (contents cfg i s').1.toOption else a i) →
      Reach cfg a' { s' with refused := false }

theorem charsFrom_ok {xs : List Ch} {v : Obj} (h : Reads cfg s v xs) : ∀ (n i : Nat), i + n = xs.length →
    charsFrom v i n s = (.ok (xs.drop i), s)
  | 0, i, hi => by
    have : xs.drop i = [] := List.drop_eq_nil_iff.2 (by omega)
    rw [this]; rfl
  | n + 1, i, hi => by
    obtain ⟨p, hp, _⟩ := h.dataM
    have hlt : i < xs.length := by omega
    have hr := h.read hp (i := i) (k := 1) (by simp; omega)
    have e : ((xs.map some : List Cell).drop i).take 1 = [some xs[i]] := by
      rw [← List.map_drop, List.drop_eq_getElem_cons hlt, List.map_cons]; rfl
    rw [e] at hr
    have hg : getAt v i s = (.ok xs[i], s) := by
      unfold getAt readChar
      rw [bind_ok hp, bind_ok hr]; rfl
    unfold charsFrom
    rw [bind_ok hg, bind_ok (charsFrom_ok h n (i + 1) (by omega))]
    rw [List.drop_eq_getElem_cons hlt]; rfl

theorem contents_ok {xs : List Ch} {v : Nat} (hw : WInv cfg s) (h : Reads cfg s (.user v) xs) :
    contents cfg v s = (.ok xs, s) := by
  unfold contents
  rw [bind_ok (h.sizeM hw)]
  have := charsFrom_ok h xs.length 0 (by omega)
  simpa using this

theorem Rel.calm {b : Bool} (h : Rel cfg a s) : Rel cfg a { s with refused := b } :=
  ⟨⟨h.inv.fresh, h.inv.core, h.inv.own, h.inv.al, h.inv.src, h.inv.agree⟩, h.absent,
    fun i xs hi => let ⟨ob, l, n, g, e⟩ := h.held i xs hi; ⟨ob, l, n, ⟨g.var, g.cells, g.size⟩, e⟩, h.tmps⟩

/-- In every state reached the memory holds the strings. -/
theorem reach_rel (hc : cfg.Ok) (h : Reach cfg a s) : Rel cfg a s ∧ s.refused = false ∧ s.lost = false := by
  induction h with
  | start => exact ⟨rel_init cfg, rfl, rfl⟩
  | @done a a' s s' op _ ho hr ih =>
    have h1 := step_refines hc ih.1 ho
    have h2 := (op.run_quiet cfg).flags s
    simp only [Refines, Tri] at h1
    rw [hr] at h1 h2
    exact ⟨h1.1, h2.1.trans ih.2.1, h2.2.trans ih.2.2⟩
  | @caught a a' a1 s s' op w _ ho hr hl ha ih =>
    have h1 := step_refines hc ih.1 ho
    simp only [Refines, Tri] at h1
    rw [hr] at h1
    rcases h1 with h1 | ⟨_, _, a2, h2, h3, h4⟩
    · rw [hl] at h1; simp at h1
    · have e : a' = a2 := by
        funext i
        rw [ha i]
        split
        · next hw =>
          cases e2 : a2 i with
          | some xs => rw [contents_ok h2.inv (h2.held i xs e2)]; rfl
          | none =>
            have : (contents cfg i s').1 = .error (.ub "use of a dead string") := by
              unfold contents size
              have : getOb (.user i) s' = (.error (.ub "use of a dead string"), s') := by
                unfold getOb; rw [h2.absent i e2]
              rw [bind_apply, bind_apply, this]
            rw [this]; rfl
        · next hw => exact (h3 i hw).symm
      rw [e]
      exact ⟨h2.calm, rfl, hl⟩

/-! ### Programs -/

/-- A program: `out_of_range` is caught, other faults end it. -/
def runAll (cfg : Cfg) : List Op → M Unit
  | [] => pure ()
  | op :: ops => fun s =>
    match op.run cfg s with
    | (.ok _, s') => runAll cfg ops s'
    | (.error e, s') => if e = .throw "out_of_range" then runAll cfg ops s' else (.error e, s')

/-- What a program should do to the contents. -/
def specAll (arena : Bool) : List Op → Abs → Option Abs
  | [], a => some a
  | op :: ops, a =>
    match op.spec arena a with
    | some (.done a') => specAll arena ops a'
    | some .outOfRange => specAll arena ops a
    | none => none

/-- A program none of whose operations fails. -/
def runOk (cfg : Cfg) : List Op → M Unit
  | [] => pure ()
  | op :: ops => do
    op.run cfg
    runOk cfg ops

/-- The state after a program without failures is reached. -/
theorem reach_runOk (hc : cfg.Ok) : ∀ {ops : List Op} {a a' : Abs} {s s' : St}, Reach cfg a s →
    specAll cfg.arena ops a = some a' → runOk cfg ops s = (.ok (), s') → Reach cfg a' s'
  | [], a, a', s, s', h, hs, hr => by cases hs; cases hr; exact h
  | op :: ops, a, a', s, s', h, hs, hr => by
    simp only [specAll] at hs
    unfold runOk at hr
    rw [bind_apply] at hr
    rcases e : op.run cfg s with ⟨r, s1⟩
    rw [e] at hr
    cases r with
    | error f => cases hr
    | ok _ =>
      split at hs
      · next a1 ho => exact reach_runOk hc (h.done ho e) hs hr
      · next ho =>
        have h1 := step_refines hc (reach_rel hc h).1 ho
        simp only [Refines] at h1
        rw [h1] at e; cases e
      · cases hs

/-- A concrete state reached. -/
theorem reached (hc : cfg.Ok) {ops : List Op} {v : Nat} {xs : List Ch}
    (h1 : (specAll cfg.arena ops fun _ => none).bind (· v) = some xs) (h2 : (runOk cfg ops St.init).1 = .ok ()) :
    ∃ a, Reach cfg a (runOk cfg ops St.init).2 ∧ a v = some xs ∧ specAll cfg.arena ops (fun _ => none) = some a := by
  obtain ⟨a, h3, h4⟩ := Option.bind_eq_some_iff.1 h1
  exact ⟨a, reach_runOk hc .start h3 (Prod.ext h2 rfl), h4, h3⟩

/-- Strings on the heap, in a debug or a release build, `w` bytes per character; memory is never
refused. -/
def heapCfg (dbg : Bool) (w : Nat := 1) : Cfg := ⟨w, dbg, false, fun _ n => decide (n < 4611686018427387904)⟩

/-- Strings on arenas. -/
def arenaCfg (dbg : Bool) : Cfg := ⟨1, dbg, true, fun _ n => decide (n < 4611686018427387904)⟩

theorem heapCfg_ok (dbg : Bool) : (heapCfg dbg).Ok := ⟨Or.inl rfl, fun _ _ h => by simpa [heapCfg] using h⟩

theorem heapCfg_ok2 (dbg : Bool) : (heapCfg dbg 2).Ok := ⟨Or.inr (Or.inl rfl), fun _ _ h => by simpa [heapCfg] using h⟩

theorem arenaCfg_ok (dbg : Bool) : (arenaCfg dbg).Ok := ⟨Or.inl rfl, fun _ _ h => by simpa [arenaCfg] using h⟩

/-- A program with copies, moves, aliases, an exception and the three kinds of storage. -/
def demo : List Op :=
  [.make 0 0 (.lit [97, 98, 99]), .copy 1 0, .append 0 (.sub 0 1 2), .makeFill 2 0 300 97, .copy 3 2, .insert 3 900 (.lit [1]),
   .setAt 2 7 98, .resize 1 200 120, .assignStr 1 3, .insertFill 1 0 1 100, .move 4 2, .swap 0 4, .erase 0 3 9, .shrinkToFit 0]

/-- The same, with the strings destroyed. -/
def demoEnd : List Op := demo ++ [.destroy 0, .destroy 1, .destroy 2, .destroy 3, .destroy 4]

end Verif.Str
