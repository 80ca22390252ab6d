import Verif.Metrics.Model
import Mathlib.Algebra.BigOperators.Fin
import Mathlib.Data.Fin.VecNotation

/-!
Specification of the metrics: what each hook must contribute to each cell, in terms of the arguments
of the hook only.
-/

namespace Verif.Metrics

/-- The documented upper bounds of the size buckets. -/
def sizeUpper : Fin 8 → Nat := ![64, 128, 256, 512, 1024, 2048, 4096, 1048576]

/-- The documented upper bounds of the lifetime buckets, in milliseconds. -/
def lifeUpper : Fin 8 → Nat := ![1, 5, 10, 50, 100, 200, 500, 1000]

/-- `i` is the bucket of `v`: the least one whose upper bound is not below `v`. -/
def InBucket (upper : Fin 8 → Nat) (i : Fin 8) (v : Nat) : Prop :=
  v ≤ upper i ∧ ∀ j, j < i → upper j < v

instance (upper : Fin 8 → Nat) (i : Fin 8) (v : Nat) : Decidable (InBucket upper i v) :=
  inferInstanceAs (Decidable (_ ∧ _))

/-- The size of an allocation. -/
def sizeOf? : Probe → Option Nat
  | .allocated s _ => some s
  | _ => none

/-- The lifetime of a destroyed arena, in whole milliseconds. -/
def lifeOf? : Probe → Option Nat
  | .destroyed _ _ (some c) now => some ((now - c.time) / 1000000)
  | _ => none

/-- What a hook must contribute to a cell. -/
def adds (e : Probe) : Cell → Nat
  | .ctr .init => match e with | .init => 1 | _ => 0
  | .ctr .alloc => match e with | .allocated _ _ => 1 | _ => 0
  | .ctr .newblock => match e with | .newblock => 1 | _ => 0
  | .ctr .reset => match e with | .reset _ _ => 1 | _ => 0
  | .ctr .destruct => match e with | .destroyed _ _ _ _ => 1 | _ => 0
  | .ctr .spaceAllocated => match e with | .allocated s _ => s | _ => 0
  | .ctr .spaceResettled => match e with | .reset u _ => u | _ => 0
  | .ctr .spaceUsed => match e with | .destroyed u _ _ _ => u | _ => 0
  | .ctr .spaceWasted => match e with | .reset _ w => w | .destroyed _ w _ _ => w | _ => 0
  | .ctr (.size i) => match sizeOf? e with
    | some v => if InBucket sizeUpper i v then 1 else 0
    | none => 0
  | .ctr (.life i) => match lifeOf? e with
    | some v => if InBucket lifeUpper i v then 1 else 0
    | none => 0
  | .key k => match e with
    | .allocated s (some c) => if locKey c.loc = k then s else 0
    | _ => 0

/-- What a list of hooks must contribute to a cell. -/
def totalAdds (es : List Probe) (x : Cell) : Nat := (es.map (fun e => adds e x)).sum

/-- The hook was given a cookie if it needs one. -/
def HasCookie : Probe → Prop
  | .allocated _ c => c ≠ none
  | .destroyed _ _ c _ => c ≠ none
  | _ => True

instance : DecidablePred HasCookie := fun e => by
  cases e <;> unfold HasCookie <;> infer_instance

/-- The hooks run by a thread along a schedule. -/
def hooksOf {n : Nat} (t : Fin n) (s : List (Fin n × Act)) : List Probe :=
  s.filterMap (fun x => if x.1 = t then (match x.2 with | .hook e => some e | _ => none) else none)

/-- All hooks run along a schedule. -/
def allHooks {n : Nat} (s : List (Fin n × Act)) : List Probe :=
  s.filterMap (fun x => match x.2 with | .hook e => some e | _ => none)

/-- A thread that has reported everything: it is not reporting and its local metrics are zero. -/
def Thread.Flushed (t : Thread) : Prop := t.todo = none ∧ t.loc = .zero

/-- A data race on the container: two accesses from different threads, one of which modifies it.
Nothing orders accesses of different threads (all atomic operations are relaxed, and there is no
lock), so any such pair is a race. -/
def Race {n : Nat} (as : List (Access n)) : Prop :=
  ∃ a ∈ as, ∃ b ∈ as, a.thread ≠ b.thread ∧ a.modifies = true

end Verif.Metrics
