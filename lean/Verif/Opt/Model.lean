import Verif.Base

/-!
# Model of the command line parser (optparse/optparse.hpp, optparse/optparse.cc)

A `std::string` is the list of its characters, a `std::map`/`std::set` a function or a list.
Exceptions, undefined behaviour and `std::terminate` are faults (`Verif.Fault`).  A pointer into
`argv` is its index.  Decimal extraction from a `std::stringstream` is modelled character by
character for the default ("C") locale; the values of `float` and `double` are an arbitrary
function of the text (`Env.flt`, `Env.dbl`).
-/

namespace Verif.Opt

/-- A `std::string`. -/
abbrev Text := List Char

/-- `Value` (optparse.hpp:53): `std::variant<bool, int32_t, int64_t, float, double, string>`.
Floating point values are kept as codes. -/
inductive Val where
  | bool (b : Bool)
  | int (i : Int)
  | long (i : Int)
  | float (code : Nat)
  | double (code : Nat)
  | str (t : Text)
  deriving Repr, DecidableEq

/-- The alternatives of `Value`: the template arguments `get<T>` can be called with. -/
inductive Alt where
  | bool | int | long | float | double | str
  deriving Repr, DecidableEq

/-- The alternative a `Value` holds. -/
def Val.alt : Val → Alt
  | .bool _ => .bool
  | .int _ => .int
  | .long _ => .long
  | .float _ => .float
  | .double _ => .double
  | .str _ => .str

/-- `enum Action` (optparse.hpp:139-149). -/
inductive Action where
  | null | store | storeTrue | storeFalse | append | count | help | version
  deriving Repr, DecidableEq

/-- `enum Type` (optparse.hpp:151-160). -/
inductive Typ where
  | bool | int | long | float | double | choice | string
  deriving Repr, DecidableEq

/-- `enum ConflictHandler` (optparse.hpp:261-265). -/
inductive Handler where
  | error | replace
  deriving Repr, DecidableEq

/-- `enum OptionType` (optparse.hpp:267-272). -/
inductive Kind where
  | short | long | invalid
  deriving Repr, DecidableEq

/-- `class Option` (optparse.hpp:162-259).  `owner` identifies the parser object the reference
member `_parser` is bound to. -/
structure Opt where
  owner : Nat
  names : List Text
  action : Action := .null
  type : Typ := .string
  dest : Text := []
  dflt : Text := []
  choices : List Text := []
  help : Text := []
  env : Text := []
  deriving Repr, DecidableEq

/-- `class ValueStore` (optparse.hpp:55-137): the maps `_values` and `_list_values` and the set
`_usr_set`. -/
structure Store where
  values : Text → Option Val
  lists : Text → Option (List Val)
  usr : Text → Bool

/-- `class OptionParser` (optparse.hpp:296-402).  `id` is the identity (address) of the object.
`_argv` is null until `parse_args(int, const char**)` has been called: `argv = none`.  The
`_invalid_args` pointers are indices into `argv`. -/
structure Parser where
  id : Nat
  pre : Char := '-'
  longPre : Text := ['-', '-']
  argc : Nat := 0
  argv : Option (List Text) := none
  program : Text := []
  usage : Text := []
  version : Text := []
  opts : List Opt := []
  longs : Text → Option Nat := fun _ => none
  shorts : Text → Option Nat := fun _ => none
  invalid : List Nat := []
  handler : Handler := .error

/-- What the parser depends on from outside: the values of floating point texts, the process
environment, and the prefixes of the other parser objects (`none` once destroyed), which are read
through the reference member of options that were copied or moved along with a parser. -/
structure Env where
  flt : Text → Nat
  dbl : Text → Nat
  getenv : Text → Option Text
  peer : Nat → Option (Char × Text)

/-! ## Strings -/

/-- The characters `" \t\n\r\f\v"` (optparse.cc:45,46), which are also those skipped by `>>`. -/
def ws (c : Char) : Bool :=
  c == ' ' || c == '\t' || c == '\n' || c == '\r' || c == '\x0c' || c == '\x0b'

/-- `std::string_view::find_first_not_of`, as a position; `none` for `npos`. -/
def findFirstNot (p : Char → Bool) : Text → Option Nat
  | [] => none
  | c :: t => if p c then (findFirstNot p t).map (· + 1) else some 0

/-- `std::string_view::find_last_not_of`. -/
def findLastNot (p : Char → Bool) : Text → Option Nat
  | [] => none
  | c :: t =>
    match findLastNot p t with
    | some i => some (i + 1)
    | none => if p c then none else some 0

/-- `std::string_view::substr(pos, n)` for `pos <= size()`. -/
def substr (t : Text) (pos n : Nat) : Text := (t.drop pos).take n

/-- `trim_string` (optparse.cc:44-51). -/
def trimString (input : Text) : Text :=
  match findLastNot ws input, findFirstNot ws input with
  | some e, some s => substr input s (e - s + 1)
  | _, _ => []

/-- Is the delimiter at the start of the text. -/
def startsWith (pre : Text) (t : Text) : Bool := pre.isPrefixOf t

/-- `starts_with(char)`. -/
def startsWithChar (c : Char) : Text → Bool
  | [] => false
  | d :: _ => d == c

/-- `std::string_view::find(delimiter, 0)`; `none` for `npos`. -/
def find (d : Text) : Text → Option Nat
  | [] => if d.isEmpty then some 0 else none
  | c :: t => if startsWith d (c :: t) then some 0 else (find d t).map (· + 1)

/-- `std::string_view::find(delimiter, pos)` for `pos <= size()`. -/
def findFrom (d t : Text) (pos : Nat) : Option Nat := (find d (t.drop pos)).map (· + pos)

/-- The loop of `split` (optparse.cc:60-71).  `none` means that `fuel` iterations were not
enough. -/
def splitLoop (str delim : Text) (skip : Bool) : Nat → Nat → List Text → Option (List Text)
  | 0, _, _ => none
  | fuel + 1, last, toks =>
    let cur := (findFrom delim str last).getD str.length
    let len := cur - last
    let toks := if !skip || len != 0 then toks ++ [trimString (substr str last len)] else toks
    if cur = str.length then some toks
    else splitLoop str delim skip fuel (cur + delim.length) toks

/-- `split` (optparse.cc:53-73) run for at most `fuel` iterations of its loop. -/
def splitFuel (fuel : Nat) (str delim : Text) (skip : Bool) : Option (List Text) :=
  splitLoop str delim skip fuel 0 []

/-- `find(',') != npos` and the like: does the text contain the character. -/
def hasChar (c : Char) (t : Text) : Bool := t.contains c

/-- `extract_opt_name` (optparse.cc:397-403): everything before the first `'='`. -/
def extractName (t : Text) : Text :=
  match find ['='] t with
  | none => t
  | some i => substr t 0 i

/-- `extract_opt_value` (optparse.cc:405-411): everything after the first `'='`. -/
def extractValue (t : Text) : Text :=
  match find ['='] t with
  | none => []
  | some i => t.drop (i + 1)

/-! ## Values -/

/-- The C string at `str.data()`: the characters before the first NUL. -/
def cstr (t : Text) : Text := t.takeWhile (· != '\x00')

/-- The decimal number at the start of a text: an optional sign and at least one digit. -/
def decimal (t : Text) : Option Int :=
  let (neg, t) := match t with
    | '-' :: t => (true, t)
    | '+' :: t => (false, t)
    | t => (false, t)
  let ds := t.takeWhile (fun c => c.isDigit)
  if ds.isEmpty then none
  else
    let n : Nat := ds.foldl (fun n c => 10 * n + (c.toNat - 48)) 0
    some (if neg then - (n : Int) else (n : Int))

/-- The text that `sst >> val` starts to convert, after the sentry has skipped white space; `val`
is not written when nothing is left (optparse.cc:277-283), so that reading it is undefined. -/
def toConvert (t : Text) : Except Fault Text :=
  let t := (cstr t).dropWhile ws
  if t.isEmpty then .error (.ub "uninitialised value read") else .ok t

/-- `std::num_get` for an integer type with the given range: 0 if there is no number, and the
nearest bound if the number is out of range (the stream's failure state is ignored by
`parse_string`). -/
def getInt (lo hi : Int) (t : Text) : Int :=
  match decimal t with
  | none => 0
  | some n => if n < lo then lo else if hi < n then hi else n

/-- The bounds of `int64_t` and `int32_t`. -/
def long_min : Int := -9223372036854775808
/-- See `long_min`. -/
def long_max : Int := 9223372036854775807
/-- See `long_min`. -/
def int_min : Int := -2147483648
/-- See `long_min`. -/
def int_max : Int := 2147483647

/-- `parse_value` (optparse.cc:286-313) with `parse_string` (277-283).  Extraction of a `bool`
without `boolalpha` converts an integer and yields false exactly for 0. -/
def parseValue (env : Env) (val : Text) (o : Opt) : Except Fault (Option Val) :=
  match o.type with
  | .bool => do
    let t ← toConvert val
    return some (.bool (getInt long_min long_max t != 0))
  | .int => do
    let t ← toConvert val
    return some (.int (getInt int_min int_max t))
  | .long => do
    let t ← toConvert val
    return some (.long (getInt long_min long_max t))
  | .float => do
    let t ← toConvert val
    return some (.float (env.flt t))
  | .double => do
    let t ← toConvert val
    return some (.double (env.dbl t))
  | .choice => return if o.choices.contains val then some (.str val) else none
  | .string => return some (.str val)

/-! ## ValueStore -/

/-- Update of a map at a key. -/
def upd {α : Type} (f : Text → α) (k : Text) (v : α) : Text → α := fun x => if x = k then v else f x

/-- `ValueStore()` (optparse.hpp:63). -/
def Store.empty : Store := ⟨fun _ => none, fun _ => none, fun _ => false⟩

/-- `ValueStore::set` (optparse.hpp:72-75). -/
def Store.set (s : Store) (k : Text) (v : Val) : Store :=
  { s with values := upd s.values k (some v), usr := upd s.usr k true }

/-- `ValueStore::append(string, Value)` (optparse.hpp:77-86). -/
def Store.append (s : Store) (k : Text) (v : Val) : Store :=
  { s with lists := upd s.lists k (some (match s.lists k with
                                          | none => [v]
                                          | some l => l ++ [v])),
           usr := upd s.usr k true }

/-- `ValueStore::increment` (optparse.hpp:101-108): does not mark the key as set by the user;
`std::get<int>` throws for another alternative; incrementing `INT_MAX` overflows. -/
def Store.increment (s : Store) (k : Text) : Except Fault Store :=
  match s.values k with
  | none => .ok { s with values := upd s.values k (some (.int 1)) }
  | some (.int n) =>
    if n = int_max then .error (.ub "signed overflow")
    else .ok { s with values := upd s.values k (some (.int (n + 1))) }
  | some _ => .error (.throw "bad_variant_access")

/-- `ValueStore::get<T>` (optparse.hpp:110-116): `std::get<T>` throws if the value holds another
alternative, and `get` is `noexcept`. -/
def Store.get (s : Store) (T : Alt) (k : Text) : Except Fault (Option Val) :=
  match s.values k with
  | none => .ok none
  | some v => if v.alt = T then .ok (some v) else .error (.throw "terminate")

/-- `ValueStore::get_list` (optparse.hpp:118-123). -/
def Store.getList (s : Store) (k : Text) : Option (List Val) := s.lists k

/-- `ValueStore::get_list<T>` (optparse.hpp:125-135). -/
def Store.getListOf (s : Store) (T : Alt) (k : Text) : Except Fault (Option (List Val)) :=
  match s.getList k with
  | none => .ok none
  | some l =>
    if l.all (fun v => v.alt == T) then .ok (some l) else .error (.throw "bad_variant_access")

/-! ## Processing one option -/

/-- The loop over the pieces of a multiple value (optparse.cc:364-371): the values before the first
one that is refused are kept. -/
def appendAll (env : Env) (o : Opt) : List Text → Store → Except Fault (Bool × Store)
  | [], s => .ok (true, s)
  | t :: ts, s => do
    match ← parseValue env t o with
    | some v => appendAll env o ts (s.append o.dest v)
    | none => return (false, s)

/-- A value of a `StoreTrue`/`StoreFalse`/`Store` option (optparse.cc:321-326 and the like). -/
def setParsed (env : Env) (o : Opt) (s : Store) (t : Text) : Except Fault (Bool × Store) := do
  match ← parseValue env t o with
  | some v => return (true, s.set o.dest v)
  | none => return (false, s)

/-- `OptionParser::process_opt` (optparse.cc:315-395). -/
def processOpt (env : Env) (o : Opt) (s : Store) (t : Text) : Except Fault (Bool × Store) :=
  match o.action with
  | .store => setParsed env o s t
  | .storeTrue => if t.isEmpty then .ok (true, s.set o.dest (.bool true)) else setParsed env o s t
  | .storeFalse => if t.isEmpty then .ok (true, s.set o.dest (.bool false)) else setParsed env o s t
  | .append =>
    if hasChar ',' t then
      match splitFuel (t.length + 1) t [','] true with
      | none => .error (.ub "split does not terminate")
      | some ts => appendAll env o ts s
    else do
      match ← parseValue env t o with
      | some v => return (true, s.append o.dest v)
      | none => return (false, s)
  | .count => do
    let s ← s.increment o.dest
    return (true, s)
  | .help => .error (.throw "Help action is not supported yet.")
  | .version => .error (.throw "Version action is not supported yet.")
  | .null => .error (.throw "Null action is init value of Action, that was incorrect.")

/-! ## Registering options -/

/-- `OptionParser()` (optparse.hpp:327) and `OptionParser(ConflictHandler)` (optparse.cc:99). -/
def Parser.new (id : Nat) (h : Handler := .error) : Parser := { id := id, handler := h }

/-- `OptionParser(char)` (optparse.cc:91-97). -/
def Parser.newPrefix (id : Nat) (c : Char) : Except Fault Parser :=
  if ['-', '+', '#', '$', '&', '%'].contains c then
    .ok { id := id, pre := c, longPre := [c, c] }
  else .error (.throw "Invalid prefix")

/-- `OptionParser(char, ConflictHandler)` (optparse.cc:101,102): the prefix is not checked and
`_long_prefix` keeps its initial value `"--"`. -/
def Parser.newPrefixHandler (id : Nat) (c : Char) (h : Handler) : Parser :=
  { id := id, pre := c, handler := h }

/-- The copy constructor (optparse.hpp:330): the options are copied with their references to the
original parser.  A move (optparse.hpp:332) gives the new object the same contents. -/
def Parser.copyTo (p : Parser) (id : Nat) : Parser := { p with id := id }

/-- `extract_option_type` (optparse.cc:104-114); `opt[0]` of an empty string is the NUL
character. -/
def kindOf (pre : Char) (longPre : Text) (name : Text) : Kind :=
  if name.length > 2 ∧ substr name 0 2 = longPre then .long
  else if name.headD '\x00' = pre then .short
  else .invalid

/-- `extract_arg_type` (optparse.cc:116-124). -/
def argKind (p : Parser) (arg : Text) : Kind :=
  if !startsWithChar p.pre arg then .invalid
  else if startsWith p.longPre arg then .long
  else .short

/-- Registration of the names of the option at position `i` (optparse.cc:129-146). -/
def registerNames (i : Nat) : List Text → Parser → Except Fault Unit × Parser
  | [], p => (.ok (), p)
  | n :: ns, p =>
    match kindOf p.pre p.longPre n with
    | .short =>
      if p.handler = .error ∧ (p.shorts n).isSome then
        (.error (.throw "Short option is already registered"), p)
      else registerNames i ns { p with shorts := upd p.shorts n (some i) }
    | .long =>
      if p.handler = .error ∧ (p.longs n).isSome then
        (.error (.throw "Long option is already registered"), p)
      else registerNames i ns { p with longs := upd p.longs n (some i) }
    | .invalid => (.error (.throw "Invalid option name"), p)

/-- `OptionParser::add_option(Option)` (optparse.cc:126-149): the option is appended first.  After
an exception the parser is left as `.2`. -/
def addOpt (p : Parser) (o : Opt) : Except Fault Unit × Parser :=
  registerNames p.opts.length o.names { p with opts := p.opts ++ [o] }

/-- `add_option(initializer_list)`, `add_option(string, string)`, `add_option(string)`
(optparse.cc:151-159, 200-203). -/
def addOption (p : Parser) (names : List Text) : Except Fault Unit × Parser :=
  addOpt p { owner := p.id, names := names }

/-- The setters of `Option` (optparse.hpp:190-257), applied to the option at a position through the
reference `add_option` returned (see `Verif.Opt.Handles` for when that reference is valid). -/
def Parser.edit (p : Parser) (i : Nat) (f : Opt → Opt) : Parser :=
  { p with opts := p.opts.modify i f }

/-- `choices(...)` (optparse.hpp:228-240). -/
def Opt.addChoices (o : Opt) (cs : List Text) : Opt :=
  { o with choices := o.choices ++ cs, type := .choice }

/-- The flags `parse_args` adds: `add_usage_option`, `add_help_option`, `add_version_option`
(optparse.cc:161-198).  `c` is the short letter, `name` the destination and
the long name. -/
def addFlag (p : Parser) (c : Char) (name : Text) (help : Text) : Except Fault Unit × Parser :=
  let sn := [p.pre, c]
  let ln := p.longPre ++ name
  if (p.shorts sn).isNone ∧ (p.longs ln).isNone then
    match addOption p [sn, ln] with
    | (.error f, p) => (.error f, p)
    | (.ok (), p) =>
      (.ok (), p.edit (p.opts.length - 1) fun o =>
        { o with dest := name, action := .storeTrue, type := .bool, help := help })
  else (.ok (), p)

/-- `add_usage_option` (optparse.cc:174-185). -/
def addUsage (p : Parser) (msg : Text) : Except Fault Unit × Parser :=
  addFlag p 'u' "usage".toList
    (if msg.isEmpty then "show usage of the ".toList ++ p.program else msg)

/-- `add_help_option` (optparse.cc:161-172). -/
def addHelp (p : Parser) (msg : Text) : Except Fault Unit × Parser :=
  addFlag p 'h' "help".toList
    (if msg.isEmpty then "show the help of the ".toList ++ p.program else msg)

/-- `add_version_option` (optparse.cc:187-198): overwrites `_version` in any case. -/
def addVersion (p : Parser) (msg : Text) : Except Fault Unit × Parser :=
  addFlag { p with version := msg } 'v' "version".toList
    ("show version of the ".toList ++ p.program)

/-- The three calls that add the flags (optparse.cc:226-228). -/
def addFlags (p : Parser) : Except Fault Unit × Parser :=
  match addUsage p [] with
  | (.error f, p) => (.error f, p)
  | (.ok (), p) =>
    match addHelp p [] with
    | (.error f, p) => (.error f, p)
    | (.ok (), p) => addVersion p []

/-- The prefixes an option's `_parser` reference gives access to. -/
def prefixesOf (env : Env) (p : Parser) (owner : Nat) : Except Fault (Char × Text) :=
  if owner = p.id then .ok (p.pre, p.longPre)
  else match env.peer owner with
    | some x => .ok x
    | none => .error (.ub "destroyed parser read")

/-- The destination `Option::validate` takes from the names (optparse.cc:77-84). -/
def destFrom (pre : Char) (longPre : Text) : List Text → Text
  | [] => []
  | n :: ns => if kindOf pre longPre n = .long then n.drop 2 else destFrom pre longPre ns

/-- `Option::validate` (optparse.cc:75-89).  The reference is only read if there is a name to look
at. -/
def validate (env : Env) (p : Parser) (o : Opt) : Except Fault (Bool × Opt) := do
  let o ←
    if o.dest.isEmpty ∧ !o.names.isEmpty then do
      let (c, l) ← prefixesOf env p o.owner
      pure { o with dest := destFrom c l o.names }
    else pure o
  if o.names.isEmpty ∨ o.action = .null ∨ o.dest.isEmpty ∨ (o.type ≠ .choice ∧ !o.choices.isEmpty)
  then return (false, o)
  else return (true, o)

/-- The validation loop of `parse_args` (optparse.cc:221-225).  The message of the exception reads
`names().front()`, undefined for an option without names.  `done` are the options already
validated. -/
def validateAll (env : Env) (p : Parser) : List Opt → List Opt → Except Fault Unit × List Opt
  | [], done => (.ok (), done)
  | o :: os, done =>
    match validate env p o with
    | .error f => (.error f, done ++ o :: os)
    | .ok (true, o') => validateAll env p os (done ++ [o'])
    | .ok (false, o') =>
      if o'.names.isEmpty then (.error (.ub "front of an empty vector"), done ++ o' :: os)
      else (.error (.throw "incomplete option"), done ++ o' :: os)

/-! ## Parsing -/

/-- `find_opt` (optparse.cc:417-428), as the position of the option. -/
def findOpt (p : Parser) (name : Text) : Option Nat :=
  if startsWith p.longPre name then p.longs name
  else if startsWithChar p.pre name then p.shorts name
  else none

/-- The state of the parse loop: the `ValueStore`, the rest of the `ArgList` and its `pos()`
(optparse.hpp:274-294), and `_invalid_args`. -/
structure Run where
  store : Store
  args : List Text
  pos : Nat
  invalid : List Nat

/-- `argv_span[i]` (optparse.cc:231): the span has `_argc` elements. -/
def argvAt (p : Parser) (i : Nat) : Except Fault Nat :=
  if i < p.argc then .ok i else .error (.ub "span index out of range")

/-- `_invalid_args.push_back(argv_span[args.pos()])`. -/
def Run.reject (p : Parser) (r : Run) : Except Fault Run := do
  let i ← argvAt p r.pos
  return { r with invalid := r.invalid ++ [i] }

/-- The loop over the following values of `handle_opt` (optparse.cc:463-480). -/
def following (env : Env) (p : Parser) (o : Opt) :
    List Text → Store → Nat → List Nat → Except Fault Run
  | [], s, pos, inv => .ok ⟨s, [], pos, inv⟩
  | a :: as, s, pos, inv =>
    if startsWithChar p.pre a then .ok ⟨s, a :: as, pos, inv⟩
    else if o.action ≠ .append then do
      let i ← argvAt p (pos + 1)
      following env p o as s (pos + 1) (inv ++ [i])
    else do
      let (_, s) ← processOpt env o s a
      following env p o as s (pos + 1) inv

/-- `has_value_to_process` (optparse.cc:413-415). -/
def hasValue (p : Parser) (cur : Text) (args : List Text) : Bool :=
  hasChar '=' cur || match args with
    | [] => false
    | a :: _ => !startsWithChar p.pre a

/-- `handle_opt` (optparse.cc:430-484).  A false result is reported by the caller. -/
def handleOpt (env : Env) (p : Parser) (r : Run) : Except Fault (Bool × Run) :=
  match r.args with
  | [] => .ok (false, r)
  | front :: args =>
    let pos := r.pos + 1
    match findOpt p (trimString (extractName front)) with
    | none => .ok (false, { r with args := args, pos := pos })
    | some i =>
      match p.opts[i]? with
      | none => .error (.ub "vector index out of range")
      | some o =>
        if !hasValue p front args then
          if o.type = .bool then do
            let (_, s) ← processOpt env o r.store []
            return (true, ⟨s, args, pos, r.invalid⟩)
          else .error (.throw "option is not Bool, so requires an value-argument")
        else
          let val := extractValue front
          if val.isEmpty then
            match args with
            | [] => .ok (false, ⟨r.store, [], pos, r.invalid⟩)
            | nv :: args => do
              let (_, s) ← processOpt env o r.store nv
              let r ← following env p o args s (pos + 1) r.invalid
              return (true, r)
          else do
            let (_, s) ← processOpt env o r.store val
            let r ← following env p o args s pos r.invalid
            return (true, r)

/-- The loop of `parse_args` (optparse.cc:232-247).  Running out of `fuel` is a fault of its own:
`parse_ends` shows that one iteration per argument suffices. -/
def argLoop (env : Env) (p : Parser) : Nat → Run → Except Fault Run
  | 0, r => if r.args.isEmpty then .ok r else .error (.ub "out of fuel")
  | fuel + 1, r =>
    match r.args with
    | [] => .ok r
    | front :: args => do
      let r ←
        if argKind p front = .invalid then
          Run.reject p { r with args := args, pos := r.pos + 1 }
        else do
          let (ok, r) ← handleOpt env p r
          if ok then pure r else Run.reject p r
      argLoop env p fuel r

/-- The defaults (optparse.cc:249-256). -/
def applyDefaults (env : Env) : List Opt → Store → Except Fault Store
  | [], s => .ok s
  | o :: os, s => do
    let s ←
      if !o.dflt.isEmpty ∧ !s.usr o.dest then do
        let (_, s) ← processOpt env o s o.dflt
        pure s
      else pure s
    applyDefaults env os s

/-- The environment variables (optparse.cc:258-269). -/
def applyEnv (env : Env) : List Opt → Store → Except Fault Store
  | [], s => .ok s
  | o :: os, s => do
    let s ←
      if !o.env.isEmpty ∧ !s.usr o.dest then
        match env.getenv (cstr o.env) with
        | some t => do
          let (_, s) ← processOpt env o s t
          pure s
        | none => pure s
      else pure s
    applyEnv env os s

/-- `parse_args(vector<string>, const char**)` (optparse.cc:218-271), the part before the loop:
the options are validated and the three flags added. -/
def prepare (env : Env) (p : Parser) : Except Fault Unit × Parser :=
  let p := { p with invalid := [] }
  match validateAll env p p.opts [] with
  | (.error f, os) => (.error f, { p with opts := os })
  | (.ok (), os) => addFlags { p with opts := os }

/-- The part from the loop on: the argument loop, the defaults and the environment. -/
def parseLoop (env : Env) (p : Parser) (args : List Text) : Except Fault Run := do
  let r ← argLoop env p args.length ⟨Store.empty, args, 0, []⟩
  let s ← applyDefaults env p.opts r.store
  let s ← applyEnv env p.opts s
  return { r with store := s }

/-- `parse_args(vector<string>, const char**)` (optparse.cc:218-271).  After an exception from the
argument loop or later, the contents of `_invalid_args` are not modelled (left empty). -/
def parseVec (env : Env) (p : Parser) (args : List Text) : Except Fault Store × Parser :=
  match prepare env p with
  | (.error f, p) => (.error f, p)
  | (.ok (), p) =>
    match parseLoop env p args with
    | .error f => (.error f, p)
    | .ok r => (.ok r.store, { p with invalid := r.invalid })

/-- `parse_args(int, const char**)` (optparse.cc:205-216) with `argc` the length of `argv`. -/
def parseArgs (env : Env) (p : Parser) (argv : List Text) : Except Fault Store × Parser :=
  match argv with
  | [] => (.error (.throw "argc is 0"), p)
  | a0 :: args =>
    let p := { p with program := if p.program.isEmpty then a0 else p.program,
                      argc := argv.length, argv := some argv }
    parseVec env p args

/-- `invalid_args()` (optparse.cc:626): pointers into `argv`, as indices. -/
def invalidArgs (p : Parser) : List Nat := p.invalid

/-- `get_raw_argc()` (optparse.cc:628-631). -/
def getRawArgc (p : Parser) : Nat := p.invalid.length + 1

/-- `get_raw_argv()` (optparse.cc:633-642): `_argv[0]` of a null `_argv` is undefined. -/
def getRawArgv (p : Parser) : Except Fault (List Nat) :=
  match p.argv with
  | none => .error (.ub "null argv read")
  | some _ => .ok (0 :: p.invalid)

/-! ## Messages -/

/-- The formatter of `Type` (optparse.hpp:395-424). -/
def Typ.label : Typ → Text
  | .bool => "bool".toList
  | .int => "int".toList
  | .long => "long".toList
  | .float => "float".toList
  | .double => "double".toList
  | .choice => "choice".toList
  | .string => "string".toList

/-- The parts of the usage message for the options (optparse.cc:560-570), with `to_upper` (551-554)
for ASCII letters; `names().front()` of an option without names is undefined. -/
def usageParts : List Opt → Except Fault Text
  | [] => .ok []
  | o :: os => do
    match o.names with
    | [] => .error (.ub "front of an empty vector")
    | n :: _ =>
      let rest ← usageParts os
      if o.type = .bool then
        return " [".toList ++ n ++ " ".toList ++ o.dest.map Char.toUpper ++ "]".toList ++ rest
      else return " [".toList ++ n ++ "]".toList ++ rest

/-- `format_usage` (optparse.cc:556-574): the message is computed once and kept in `_usage`.  After
a fault the state is not modelled (left unchanged). -/
def formatUsage (p : Parser) : Except Fault Text × Parser :=
  if p.usage.isEmpty then
    match usageParts p.opts with
    | .error f => (.error f, p)
    | .ok t =>
      let u := "usage: ".toList ++ p.program ++ t ++ "\n".toList
      (.ok u, { p with usage := u })
  else (.ok p.usage, p)

/-- `format_verison` (optparse.cc:576-581). -/
def formatVersion (p : Parser) : Text × Parser :=
  if p.version.isEmpty then
    let v := p.program ++ " : 0.0.0".toList
    (v, { p with version := v })
  else (p.version, p)

/-- `format_opt_names` (optparse.cc:583-596). -/
def formatNames : List Text → Except Fault Text
  | [] => .error (.throw "names should not be empty vector")
  | n :: ns => .ok (ns.foldl (fun msg n => msg ++ ", ".toList ++ n) n)

/-- The lines of the help message without the help texts (optparse.cc:601-605). -/
def helpLines : List Opt → Except Fault (List (Text × Text))
  | [] => .ok []
  | o :: os => do
    let n ← formatNames o.names
    let rest ← helpLines os
    return (n ++ "=<".toList ++ o.type.label ++ ">".toList, o.help) :: rest

/-- The length of the longest line (optparse.cc:607-611): dereferencing the result of `max_element`
over no lines is undefined. -/
def longest : List (Text × Text) → Except Fault Nat
  | [] => .error (.ub "end iterator dereferenced")
  | l :: ls => .ok (ls.foldl (fun m x => if m < x.1.length then x.1.length else m) l.1.length)

/-- `format_help` (optparse.cc:598-619). -/
def formatHelp (p : Parser) : Except Fault Text × Parser :=
  match helpLines p.opts with
  | .error f => (.error f, p)
  | .ok lines =>
    match longest lines with
    | .error f => (.error f, p)
    | .ok m =>
      match formatUsage p with
      | (.error f, p) => (.error f, p)
      | (.ok u, p) =>
        (.ok (lines.foldl (fun content x => content ++ ("  ".toList ++ x.1 ++
            List.replicate (m + 1 - x.1.length) ' ' ++ x.2 ++ "\n".toList))
          (u ++ " \n options: \n".toList)), p)

end Verif.Opt
