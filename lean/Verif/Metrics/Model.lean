import Verif.Arena.Model

/-!
Model of `arena/metrics.hpp`.
-/

namespace Verif.Metrics

/-- The scalar counters (`atomic<uint64_t>` of `GlobalArenaMetrics`, arena/metrics.hpp:87-95, and
`uint64_t` of `LocalArenaMetrics`, lines 173-182) and the cells of the two histograms (lines 102-104
and 187-189). -/
inductive Ctr where
  | init | destruct | alloc | newblock | reset
  | spaceAllocated | spaceResettled | spaceUsed | spaceWasted
  | size (i : Fin 8)
  | life (i : Fin 8)
  deriving DecidableEq, Repr

/-- A key of `arena_alloc_counter`: a string. -/
abbrev Key := List Char

/-- `std::unordered_map<std::string, uint64_t>` (arena/metrics.hpp:105 and 190), as the list of its
entries in some order. -/
abbrev AllocMap := List (Key × Nat)

/-- `map[key] += v`. -/
def mapAdd : AllocMap → Key → Nat → AllocMap
  | [], k, v => [(k, add64 0 v)]
  | (k', x) :: m, k, v => if k' = k then (k', add64 x v) :: m else (k', x) :: mapAdd m k v

/-- `LocalArenaMetrics` (arena/metrics.hpp:171-190), and likewise `GlobalArenaMetrics`
(lines 85-105). -/
structure Metrics where
  ctr : Ctr → Nat
  map : AllocMap

/-- All counters zero and no map entry: the initial value of both (arena/metrics.cc:36-38), and the
effect of `LocalArenaMetrics::reset`, arena/metrics.hpp:192-207. -/
def Metrics.zero : Metrics := { ctr := fun _ => 0, map := [] }

/-- `GlobalArenaMetrics::reset`, arena/metrics.hpp:107-126: the map keeps its keys. -/
def globalReset (g : Metrics) : Metrics :=
  { ctr := fun _ => 0, map := g.map.map (fun x => (x.1, 0)) }

/-- Add to one counter, modulo `2^64`. -/
def Metrics.add (m : Metrics) (c : Ctr) (v : Nat) : Metrics :=
  { m with ctr := fun d => if d = c then add64 (m.ctr d) v else m.ctr d }

/-- `alloc_size_bucket`, arena/metrics.hpp:70-75. -/
def allocSizeBucket : List Nat := [64, 128, 256, 512, 1024, 2048, 4096, 2 ^ 20]

/-- `destruct_lifetime_bucket` in milliseconds, arena/metrics.hpp:77-83. -/
def destructLifetimeBucket : List Nat := [1, 5, 10, 50, 100, 200, 500, 1000]

/-- The loops of `increase_alloc_size_counter` (arena/metrics.hpp:209-216) and
`increase_destruct_lifetime_counter` (lines 218-226): the index of the first bound that is not
below the value, `none` if the loop runs to its end. -/
def bucketIndex (i : Nat) : List Nat → Nat → Option Nat
  | [], _ => none
  | b :: bs, v => if v ≤ b then some i else bucketIndex (i + 1) bs v

/-- `increase_alloc_size_counter`, arena/metrics.hpp:209-216.  `.at(i)` throws out of range. -/
def increaseAllocSize (m : Metrics) (size : Nat) : Except Fault Metrics :=
  match bucketIndex 0 allocSizeBucket size with
  | none => .ok m
  | some i => if h : i < 8 then .ok (m.add (.size ⟨i, h⟩) 1) else .error (.throw "out_of_range")

/-- `increase_destruct_lifetime_counter`, arena/metrics.hpp:218-226. -/
def increaseLifetime (m : Metrics) (ms : Nat) : Except Fault Metrics :=
  match bucketIndex 0 destructLifetimeBucket ms with
  | none => .ok m
  | some i => if h : i < 8 then .ok (m.add (.life ⟨i, h⟩) 1) else .error (.throw "out_of_range")

/-- A `boost::source_location`: file name and line. -/
structure Loc where
  file : List Char
  line : Nat
  deriving DecidableEq, Repr

/-- The key made in `increase_arena_alloc_counter`, arena/metrics.hpp:228-229: `file ":" line`, the line
in decimal. -/
def locKey (l : Loc) : Key := l.file ++ ':' :: Nat.toDigits 10 l.line

/-- `ArenaMetricsCookie`, arena/metrics.hpp:262-268; times are nanoseconds of `steady_clock`. -/
structure Cookie where
  time : Nat
  loc : Loc
  deriving DecidableEq, Repr

/-- A call of a hook, as the probes see it.  The cookie is a pointer; `none` is null. -/
inductive Probe where
  | init
  | allocated (size : Nat) (cookie : Option Cookie)
  | newblock
  | reset (used wasted : Nat)
  | destroyed (used wasted : Nat) (cookie : Option Cookie) (now : Nat)
  deriving DecidableEq, Repr

/-- The probes `metrics_probe_on_arena_*`, arena/metrics.hpp:270-308.  Both the allocation and the
destruction probe dereference the cookie.  `duration_cast<milliseconds>` (line 306) truncates; the clock is steady, so
the difference is not negative. -/
def probe (m : Metrics) : Probe → Except Fault Metrics
  | .init => .ok (m.add .init 1)
  | .allocated size cookie => do
    let m := (m.add .alloc 1).add .spaceAllocated size
    let m ← increaseAllocSize m size
    match cookie with
    | none => .error (.ub "null cookie dereferenced")
    | some c => .ok { m with map := mapAdd m.map (locKey c.loc) size }
  | .newblock => .ok (m.add .newblock 1)
  | .reset used wasted => .ok (((m.add .reset 1).add .spaceResettled used).add .spaceWasted wasted)
  | .destroyed used wasted cookie now => do
    let m := ((m.add .destruct 1).add .spaceUsed used).add .spaceWasted wasted
    match cookie with
    | none => .error (.ub "null cookie dereferenced")
    | some c => increaseLifetime m ((now - c.time) / 1000000)

/-- Running probes in order. -/
def probes (m : Metrics) : List Probe → Except Fault Metrics
  | [] => .ok m
  | e :: es => do
    let m ← probe m e
    probes m es

/-- The counters in the order in which `report_to_global_metrics` (arena/metrics.hpp:233-251) adds
them. -/
def reportOrder : List Ctr :=
  [.init, .reset, .alloc, .newblock, .destruct, .spaceAllocated, .spaceUsed, .spaceWasted,
   .spaceResettled] ++ (List.finRange 8).map .size ++ (List.finRange 8).map .life

/-- `report_to_global_metrics`, arena/metrics.hpp:233-257: (global, local) before and after. -/
def report (g l : Metrics) : Metrics × Metrics :=
  let g := reportOrder.foldl (fun g c => g.add c (l.ctr c)) g
  let g := { g with map := l.map.foldl (fun m x => mapAdd m x.1 x.2) g.map }
  (g, .zero)

/-- The loops of `GlobalArenaMetrics::string`, arena/metrics.hpp:145-157: for every bucket, the value
read from it is added to the cumulated count, which is multiplied by 100 and divided by the total;
the total is read again for every bucket.  The list holds the values read: (bucket, total).  Division
by zero is undefined behaviour. -/
def percentLoop : Nat → List (Nat × Nat) → Except Fault (List Nat)
  | _, [] => .ok []
  | count, (c, total) :: cs =>
    let count := add64 count c
    if total = 0 then .error (.ub "division by zero")
    else do
      let rest ← percentLoop count cs
      return mul64 count 100 / total :: rest

/-- The percentages printed by `GlobalArenaMetrics::string`, arena/metrics.hpp:128-165, if nothing
changes while it runs.  Simplification: the text around them is left out. -/
def percentages (g : Metrics) : Except Fault (List Nat × List Nat) := do
  let a ← percentLoop 0 ((List.finRange 8).map (fun i => (g.ctr (.size i), g.ctr .alloc)))
  let b ← percentLoop 0 ((List.finRange 8).map (fun i => (g.ctr (.life i), g.ctr .destruct)))
  return (a, b)

/-! ### Threads -/

/-- What a `fetch_add` works on: a counter, or the entry of a key of `arena_alloc_counter`. -/
inductive Cell where
  | ctr (c : Ctr)
  | key (k : Key)
  deriving DecidableEq, Repr

/-- The value stored under a key; an absent key counts as zero. -/
def mapGet : AllocMap → Key → Nat
  | [], _ => 0
  | (k', x) :: m, k => if k' = k then x else mapGet m k

/-- The value of a cell. -/
def Metrics.get (m : Metrics) : Cell → Nat
  | .ctr c => m.ctr c
  | .key k => mapGet m.map k

/-- `fetch_add` on a cell; for a key, `arena_alloc_counter[key]` first inserts it if it is absent. -/
def Metrics.fetchAdd (m : Metrics) (x : Cell) (v : Nat) : Metrics :=
  match x with
  | .ctr c => m.add c v
  | .key k => { m with map := mapAdd m.map k v }

/-- A thread: its `thread_local` metrics, and the cells it still has to add while it is in the
middle of a report (`none`: it is not reporting). -/
structure Thread where
  loc : Metrics
  todo : Option (List Cell)

/-- The cells a report adds, in order. -/
def reportCells (l : Metrics) : List Cell :=
  reportOrder.map .ctr ++ l.map.map (fun x => .key x.1)

/-- What a thread can do: run a hook, start a report, do the next `fetch_add`, finish the report by
resetting the local metrics.  Each is taken to be atomic: the `fetch_add`s of counters are, hooks and
the final reset touch only the thread's own data.  The lookup of a key in the global map is not
atomic; see `Proc.access` and C73 for when taking it as atomic is justified. -/
inductive Act where
  | hook (e : Probe)
  | start
  | fetchAdd
  | finish
  deriving DecidableEq, Repr

/-- The process: global metrics and threads. -/
structure Proc (n : Nat) where
  global : Metrics
  threads : Fin n → Thread

/-- Replace a thread. -/
def Proc.set {n : Nat} (p : Proc n) (t : Fin n) (x : Thread) : Proc n :=
  { p with threads := fun u => if u = t then x else p.threads u }

/-- One atomic step of thread `t`, arena/metrics.hpp:233-257 cut into its atomic operations;
`none` if the thread cannot do it now. -/
def Proc.act {n : Nat} (p : Proc n) (t : Fin n) : Act → Option (Proc n)
  | .hook e =>
    match (p.threads t).todo, probe (p.threads t).loc e with
    | none, .ok m => some (p.set t { loc := m, todo := none })
    | _, _ => none
  | .start =>
    match (p.threads t).todo with
    | some _ => none
    | none => some (p.set t { (p.threads t) with todo := some (reportCells (p.threads t).loc) })
  | .fetchAdd =>
    match (p.threads t).todo with
    | some (x :: xs) => some
        { (p.set t { (p.threads t) with todo := some xs }) with
          global := p.global.fetchAdd x ((p.threads t).loc.get x) }
    | _ => none
  | .finish =>
    match (p.threads t).todo with
    | some [] => some (p.set t { loc := .zero, todo := none })
    | _ => none

/-- A schedule: which thread does what, in which order. -/
def Proc.run {n : Nat} (p : Proc n) : List (Fin n × Act) → Option (Proc n)
  | [] => some p
  | (t, a) :: s => (p.act t a).bind (fun p => p.run s)

/-- The process at the start, with some keys already in the global map. -/
def Proc.start (n : Nat) (keys : List Key) : Proc n :=
  { global := { ctr := fun _ => 0, map := keys.map (fun k => (k, 0)) },
    threads := fun _ => { loc := .zero, todo := none } }

/-- An access to the global `std::unordered_map` object itself (not to the atomic counters in it):
`operator[]` (arena/metrics.hpp:253) reads the container if the key is there and modifies it if it
is not. -/
structure Access (n : Nat) where
  thread : Fin n
  modifies : Bool
  deriving DecidableEq, Repr

/-- The access to the map made by a step. -/
def Proc.access {n : Nat} (p : Proc n) (t : Fin n) : Act → Option (Access n)
  | .fetchAdd =>
    match (p.threads t).todo with
    | some (.key k :: _) => some ⟨t, decide (k ∉ p.global.map.map Prod.fst)⟩
    | _ => none
  | _ => none

/-- The accesses to the map made along a schedule. -/
def Proc.accesses {n : Nat} (p : Proc n) : List (Fin n × Act) → List (Access n)
  | [] => []
  | (t, a) :: s => (p.access t a).toList ++
      match p.act t a with
      | some p => p.accesses s
      | none => []

end Verif.Metrics
