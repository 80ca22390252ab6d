import Verif.Opt.Reg
import Verif.Vector.Refs

/-!
The options of a parser in memory, and the references `add_option` returns.  `OptionParser` keeps its
options in a `stdb_vector<Option>` (optparse/optparse.hpp:50-51, 306).  Here this vector is the one of
`Verif.Vector.Model`, with its growth, and a reference is an address; `Verif.Opt.Model` has a list
instead, and positions.
-/

namespace Verif.Opt

open _root_.Verif.Vector (Ptr V)

/-- An `OptionParser` with the memory its options are in.  The member `_options` is `s.this`; `p.opts`
is not used.  The memory of the strings an option owns is not modelled. -/
structure Stored where
  p : Parser
  s : Vector.S Opt

/-- A parser without options. -/
def Stored.new (p : Parser) : Stored :=
  ⟨{ p with opts := [] }, ⟨(Vector.World.empty : Vector.World Opt).mem, Vector.nullVec⟩⟩

/-- `OptionParser::add_option(Option)` (optparse.cc:126-149): the reference to the last element is
returned.  The names are those of the option appended. -/
def Stored.addOpt (cfg : Vector.Cfg Opt) (q : Stored) (o : Opt) : Except Fault Ptr × Stored :=
  match Vector.pushBack cfg true true (.ext o) q.s with
  | (.error f, s) => (.error f, ⟨q.p, s⟩)
  | (.ok (), s) =>
    match registerNames (s.this.fin - 1) o.names q.p with
    | (.error f, p) => (.error f, ⟨p, s⟩)
    | (.ok (), p) => (.ok (s.this.ptr (s.this.fin - 1)), ⟨p, s⟩)

/-- `add_option(initializer_list)`, `add_option(string, string)`, `add_option(string)`
(optparse.cc:151-159, 200-203). -/
def Stored.addOption (cfg : Vector.Cfg Opt) (q : Stored) (names : List Text) : Except Fault Ptr × Stored :=
  q.addOpt cfg { owner := q.p.id, names := names }

/-- Read an option through a reference and change it there. -/
def editAt (r : Ptr) (f : Opt → Opt) : V Opt Unit := do
  let o ← Vector.load r
  Vector.writeCell r (.live (f o))

/-- A setter of `Option` (optparse.hpp:190-257) called through a reference; it returns the same
reference. -/
def Stored.set (q : Stored) (r : Ptr) (f : Opt → Opt) : Except Fault Unit × Stored :=
  let (e, s) := editAt r f q.s
  (e, ⟨q.p, s⟩)

/-- The flags `parse_args` adds: `add_usage_option`, `add_help_option`, `add_version_option`
(optparse.cc:161-198); the setters are called through the reference just returned. -/
def Stored.addFlag (cfg : Vector.Cfg Opt) (q : Stored) (c : Char) (name : Text) (help : Text) :
    Except Fault Unit × Stored :=
  let sn := [q.p.pre, c]
  let ln := q.p.longPre ++ name
  if (q.p.shorts sn).isNone ∧ (q.p.longs ln).isNone then
    match q.addOption cfg [sn, ln] with
    | (.error f, q) => (.error f, q)
    | (.ok r, q) =>
      q.set r fun o => { o with dest := name, action := .storeTrue, type := .bool, help := help }
  else (.ok (), q)

/-- `add_usage_option` (optparse.cc:174-185). -/
def Stored.addUsage (cfg : Vector.Cfg Opt) (q : Stored) (msg : Text) : Except Fault Unit × Stored :=
  q.addFlag cfg 'u' "usage".toList
    (if msg.isEmpty then "show usage of the ".toList ++ q.p.program else msg)

/-- `add_help_option` (optparse.cc:161-172). -/
def Stored.addHelp (cfg : Vector.Cfg Opt) (q : Stored) (msg : Text) : Except Fault Unit × Stored :=
  q.addFlag cfg 'h' "help".toList
    (if msg.isEmpty then "show the help of the ".toList ++ q.p.program else msg)

/-- `add_version_option` (optparse.cc:187-198). -/
def Stored.addVersion (cfg : Vector.Cfg Opt) (q : Stored) (msg : Text) : Except Fault Unit × Stored :=
  Stored.addFlag cfg ⟨{ q.p with version := msg }, q.s⟩ 'v' "version".toList
    ("show version of the ".toList ++ q.p.program)

/-- The three calls that add the flags (optparse.cc:226-228). -/
def Stored.addFlags (cfg : Vector.Cfg Opt) (q : Stored) : Except Fault Unit × Stored :=
  match q.addUsage cfg [] with
  | (.error f, q) => (.error f, q)
  | (.ok (), q) =>
    match q.addHelp cfg [] with
    | (.error f, q) => (.error f, q)
    | (.ok (), q) => q.addVersion cfg []

/-- The validation loop of `parse_args` (optparse.cc:221-225), from position `i` on for `n` options;
each option is changed where it is. -/
def validateFrom (env : Env) (p : Parser) (i : Nat) : Nat → V Opt Unit
  | 0 => pure ()
  | n + 1 => do
    let v ← Vector.this
    let o ← Vector.load (v.ptr i)
    match validate env p o with
    | .error f => V.fail f
    | .ok (b, o') => do
      Vector.writeCell (v.ptr i) (.live o')
      if b then validateFrom env p (i + 1) n
      else if o'.names.isEmpty then V.ub "front of an empty vector"
      else V.fail (.throw "incomplete option")

/-- The part of `parse_args` before the loop (optparse.cc:218-228). -/
def Stored.prepare (cfg : Vector.Cfg Opt) (env : Env) (q : Stored) : Except Fault Unit × Stored :=
  let p := { q.p with invalid := [] }
  match validateFrom env p 0 q.s.this.fin q.s with
  | (.error f, s) => (.error f, ⟨p, s⟩)
  | (.ok (), s) => Stored.addFlags cfg ⟨p, s⟩

/-! ### Programs -/

/-- What a program does with a parser: register an option and keep the reference; call a setter
through the reference returned by the `k`-th registration of the program; register the standard flags;
start parsing (the rest of `parse_args` only reads the options). -/
inductive Use where
  | add (names : List Text)
  | set (k : Nat) (f : Opt → Opt)
  | usage (msg : Text)
  | help (msg : Text)
  | version (msg : Text)
  | parse (env : Env)

/-- Exceptions are caught, and the program goes on; other faults end it. -/
def caught {β σ : Type} (r : Except Fault β × σ) : Except Fault (Option β × σ) :=
  match r with
  | (.ok b, s) => .ok (some b, s)
  | (.error (.throw _), s) => .ok (none, s)
  | (.error f, _) => .error f

/-- One step of a program; `refs` are the references returned so far (`none`: an exception
instead). -/
def Use.run (cfg : Vector.Cfg Opt) : Use → Stored × List (Option Ptr) → Except Fault (Stored × List (Option Ptr))
  | .add names, (q, refs) =>
    match caught (q.addOption cfg names) with
    | .ok (r, q) => .ok (q, refs ++ [r])
    | .error f => .error f
  | .set k f, (q, refs) =>
    match refs[k]? with
    | some (some r) =>
      match caught (q.set r f) with
      | .ok (_, q) => .ok (q, refs)
      | .error f => .error f
    | _ => .ok (q, refs)
  | .usage m, (q, refs) =>
    match caught (q.addUsage cfg m) with
    | .ok (_, q) => .ok (q, refs)
    | .error f => .error f
  | .help m, (q, refs) =>
    match caught (q.addHelp cfg m) with
    | .ok (_, q) => .ok (q, refs)
    | .error f => .error f
  | .version m, (q, refs) =>
    match caught (q.addVersion cfg m) with
    | .ok (_, q) => .ok (q, refs)
    | .error f => .error f
  | .parse env, (q, refs) =>
    match caught (q.prepare cfg env) with
    | .ok (_, q) => .ok (q, refs)
    | .error f => .error f

/-- A program. -/
def runUses (cfg : Vector.Cfg Opt) : List Use → Stored × List (Option Ptr) → Except Fault (Stored × List (Option Ptr))
  | [], st => .ok st
  | u :: us, st =>
    match u.run cfg st with
    | .ok st => runUses cfg us st
    | .error f => .error f

end Verif.Opt
