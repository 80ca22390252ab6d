import Verif.Arena.Replay

/-!
Several arenas over one `block_alloc`: construction, calls, moves (arena/arena.hpp:156-163), use of
the memory resources and destruction, in any interleaving.
-/

namespace Verif.Arena

open Verif.Align

/-- The sizes of `Arena::Options`, arena/arena.hpp:170-218. -/
structure Opts where
  normal : Nat
  huge : Nat
  init : Nat
  deriving DecidableEq, Repr

/-- An arena object: its options, its state, and its `_resource` (arena/arena.hpp:661), represented
by the identity of the arena the `memory_resource` points to (its `_arena`, line 347); `none` is a
null `_resource`.  The trace in `st` is the history of the blocks the object owns; it moves with
them. -/
structure Obj where
  opts : Opts
  st : St
  res : Option Nat

/-- The life of one object: not yet constructed, alive, destroyed. -/
inductive Slot where
  | unused
  | alive (o : Obj)
  | dead

/-- All arenas of a program, and everything they did, newest first. -/
structure World where
  objs : Nat → Slot
  trace : List (Nat × Ev)

/-- The environment: build mode and one `block_alloc` for all arenas, which may answer depending on
everything that happened. -/
structure Env where
  dbg : Bool
  blockAlloc : List (Nat × Ev) → Nat → Option Nat

/-- Operations of a program on its arenas. -/
inductive WOp where
  | construct (i : Nat) (opts : Opts) (cookie : Option Nat)
  | call (i : Nat) (op : Op)
  | resAllocate (i bytes alignment : Nat)
  | move (src dst : Nat)
  | destroy (i : Nat)
  deriving DecidableEq, Repr

/-- The events of `new` that are not yet in `old`, attributed to arena `i`. -/
def newEvents (i : Nat) (old new : List Ev) : List (Nat × Ev) :=
  (new.take (new.length - old.length)).map (fun e => (i, e))

/-- What arena `i` sees of the environment while it runs a call. -/
def localCfg (env : Env) (w : World) (i : Nat) (o : Obj) : Cfg :=
  { normal := o.opts.normal, huge := o.opts.huge, init := o.opts.init, dbg := env.dbg,
    blockAlloc := fun tr s => env.blockAlloc (newEvents i o.st.trace tr ++ w.trace) s }

/-- Replace one object. -/
def World.set (w : World) (i : Nat) (s : Slot) (new : List (Nat × Ev)) : World :=
  { objs := fun j => if j = i then s else w.objs j, trace := new ++ w.trace }

/-- A call on arena `i`; using an object that is not alive is undefined behaviour. -/
def callOn (env : Env) (w : World) (i : Nat) (op : Op) : Except Fault (Ret × World) :=
  match w.objs i with
  | .alive o => do
    let (r, st) ← step (localCfg env w i o) o.st op
    return (r, w.set i (.alive { o with st := st }) (newEvents i o.st.trace st.trace))
  | _ => .error (.ub "arena used outside its lifetime")

/-- One operation.  Construction: arena/arena.hpp:353-363 with `init` (lines 540-550); `new
memory_resource` is assumed to succeed.  `resAllocate`: `get_memory_resource()->allocate(…)`
(lines 511-515, 330-332), which runs on the arena the resource points to.  Move: lines 156-163; the
moved-from object keeps its options and is otherwise as if newly constructed with a null cookie and
a null resource (its ghost trace restarts; no hook runs).  Destruction: lines 369-378. -/
def wstep (env : Env) (w : World) : WOp → Except Fault (Ret × World)
  | .construct i opts cookie =>
    match w.objs i with
    | .unused => .ok (.unit, w.set i (.alive ⟨opts, mkArena cookie, some i⟩) [(i, .init)])
    | _ => .error (.ub "object constructed twice")
  | .call i op => callOn env w i op
  | .resAllocate i b a =>
    match w.objs i with
    | .alive o =>
      match o.res with
      | some k => callOn env w k (.pmrAllocate b a)
      | none => do
        assertDbg env.dbg false "memory_resource should make sure _resource is not nullptr"
        .error (.ub "null memory_resource dereferenced")
    | _ => .error (.ub "arena used outside its lifetime")
  | .move src dst =>
    match w.objs src, w.objs dst with
    | .alive o, .unused =>
      .ok (.unit, ((w.set dst (.alive o) []).set src (.alive ⟨o.opts, mkArena none, none⟩) []))
    | _, _ => .error (.ub "move from or to an object outside its lifetime")
  | .destroy i =>
    match w.objs i with
    | .alive o => do
      let tr ← destroy (localCfg env w i o) o.st
      return (.unit, w.set i .dead (newEvents i o.st.trace tr))
    | _ => .error (.ub "arena used outside its lifetime")

/-! ### Specification -/

/-- The events of all arenas, newest first. -/
def World.events (w : World) : List Ev := w.trace.map Prod.snd

/-- Contract of the common `block_alloc`: as `Sane`, with respect to the blocks of all arenas. -/
structure WSane (A : Nat) (env : Env) : Prop where
  aligned : ∀ W s p, env.blockAlloc W s = some p → A ∣ p
  nonnull : ∀ W s p, env.blockAlloc W s = some p → 0 < p
  fits : ∀ W s p, env.blockAlloc W s = some p → p + s ≤ 2 ^ 63
  fresh : ∀ W s p, env.blockAlloc W s = some p →
    ∀ r ∈ held (W.map Prod.snd), Region.Disjoint ⟨p, s⟩ r

/-- Contract on the options of an arena, as `GoodCfg`. -/
structure GoodOpts (o : Opts) : Prop where
  normal_pos : 0 < o.normal
  normal8 : 8 ∣ o.normal
  huge8 : 8 ∣ o.huge
  init8 : 8 ∣ o.init
  normal_le : o.normal ≤ 2 ^ 62
  huge_le : o.huge ≤ 2 ^ 62
  init_le : o.init ≤ 2 ^ 62

/-- Contract of an operation, given the API histories of the arenas: objects are used within their
lifetime, calls respect the single-arena contract, and a resource is used only while it exists and
the arena it points to is alive. -/
def WContract (A : Nat) (H : Nat → Hist) (w : World) : WOp → Prop
  | .construct i opts _ => w.objs i = .unused ∧ GoodOpts opts
  | .call i op => (∃ o, w.objs i = .alive o) ∧ Contract A (H i) op
  | .resAllocate i b a => ∃ o k o', w.objs i = .alive o ∧ o.res = some k ∧ w.objs k = .alive o' ∧
      Contract A (H k) (.pmrAllocate b a)
  | .move src dst => (∃ o, w.objs src = .alive o) ∧ w.objs dst = .unused
  | .destroy i => ∃ o, w.objs i = .alive o

/-- Replace one history. -/
def setH (H : Nat → Hist) (i : Nat) (h : Hist) : Nat → Hist := fun j => if j = i then h else H j

/-- How an operation changes the histories: a call is recorded with the arena it ran on, a move
hands the history over. -/
def histStep (H : Nat → Hist) (w : World) (r : Ret) : WOp → Nat → Hist
  | .construct i _ _ => setH H i []
  | .call i op => setH H i (H i ++ [(op, r)])
  | .resAllocate i b a =>
    match w.objs i with
    | .alive o =>
      match o.res with
      | some k => setH H k (H k ++ [(.pmrAllocate b a, r)])
      | none => H
    | _ => H
  | .move src dst => setH (setH H dst (H src)) src []
  | .destroy i => setH H i []

/-- All in-contract executions of a program with any number of arenas. -/
inductive WExec (env : Env) (A : Nat) : (Nat → Hist) → World → Prop where
  | start : WExec env A (fun _ => []) ⟨fun _ => .unused, []⟩
  | step {H : Nat → Hist} {w w' : World} {op : WOp} {r : Ret} :
      WExec env A H w → WContract A H w op → wstep env w op = .ok (r, w') →
      WExec env A (histStep H w r op) w'

end Verif.Arena
