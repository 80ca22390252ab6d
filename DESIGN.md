# Formal model of stdbio/memory — design

## 1. Method

The C++ sources are read as text and transcribed, function by function, into total computable
Lean 4 functions (`lean/Verif/**`).  Every model definition cites the file and lines it
transcribes and lists its simplifications.  Three conventions apply everywhere:

* **Machine integers.**  `uint64_t`/`size_t` values are natural numbers together with explicit
  reduction modulo 2^64 at every arithmetic operation that can leave the range, or `BitVec` where
  the code uses bit operations.  Nothing is silently unbounded.
* **Undefined behaviour and assertions are outcomes.**  Operations return `Except Fault α`, with
  `Fault.ub` (out-of-bounds access, use of a dead object, null dereference, uninitialised read,
  division by zero, signed overflow, …), `Fault.assertFail` (an `Assert` of a debug build) and
  `Fault.throw` (a C++ exception, also `terminate` for an exception leaving a `noexcept` function).
  A safety property is "the outcome is not a fault"; each precondition that the code relies on
  appears as a hypothesis of the theorem.  Debug and release builds are both modelled where they
  differ.
* **Nondeterminism is quantified.**  The answers of `malloc`/`realloc`/`block_alloc` (addresses and
  refusals), uninitialised memory, thread interleavings, the environment variables, the hash
  function and floating point conversion are parameters over which the theorems quantify.

Loops whose termination is not structural take a number of iterations; running out of it is a fault
of its own, and the theorems show that it does not happen (or, for `split` with an empty delimiter,
that it always does).

Properties are stated against small specifications written without the model's helpers (lists,
histories of API calls, first-occurrence predicates, a grammar of command lines, …).  Property
theorems are in the files named `*Props*`, `*More*`, `*Plus*` and `*Violations*` (and `Growth`,
`Race`, `Link`, `Threads`, `Failure`); the other files hold the model, specifications and lemmas.
Next to the property theorems, `example`s show that the hypotheses can be met.

Where the code violates the property a user would expect, the property's theorem is split in
two: the negation with a concrete witness (`…_violated`), and a theorem with the guard under which
it does hold (`…_partial` if the guard narrows the English statement).

Whole programs: the arena, the vector and the string each come with a small language of programs
over any number of objects (`Arena/World`, `Vector/Prog`, `Str/Prog`), the parser with sequences of
calls (`Opt/Reg`); invariants are proved by induction over all of them.

## 2. Trusted base

* The Lean 4.33 kernel; axioms at most `propext`, `Classical.choice`, `Quot.sound` (checked for every
  theorem of the manifest).  No axioms of our own, no `sorry`, `native_decide`, `bv_decide`.  Concrete
  witnesses and examples are evaluated by the kernel (`decide`, `decide +kernel`, `rfl`).
* The transcription itself (C++ → Lean), reviewed by hand and cross-checked by the mutation log in
  `seeded/LOG.jsonl`.
* The C++ platform assumed: LP64, two's complement, `sizeof(void*) = 8`, `char` one byte, the C
  locale.  `Assert` is `assert` (present in debug, absent under `NDEBUG`).

### What is modelled

| area | code | Lean |
|---|---|---|
| align | `align/align.hpp` | `Verif/Align` |
| literals | `memory.hpp` | `Verif/Literals` |
| arena | `arena/arena.hpp`, `arena/arena.cc` (all member functions, options, hooks, memory resource, concepts), `arena/arenahelper.hpp` | `Verif/Arena` |
| metrics | `arena/metrics.hpp`, `arena/metrics.cc` | `Verif/Metrics` |
| vector | `container/stdb_vector.hpp`: storage core, all members, comparison, `erase`, `erase_if` | `Verif/Vector` |
| string | `string/string.hpp`: layout, core, all editing members, search, comparison, hash, `operator+`, conversion | `Verif/Str` |
| arena_string | `string/arena_string.hpp`: its core (the rest is shared with `string.hpp`) | `Verif/Str` (the `arena` flag of a string) |
| optparse | `optparse/optparse.hpp`, `optparse/optparse.cc` | `Verif/Opt` |

### What is not modelled

* The C++ type system layer, but for the arena's concepts and traits (`Arena/Traits`, C110 to C112) and
  `IsZeroInitable` of the vector (C106), which are modelled for small languages of class declarations.
  Elsewhere, which overload is chosen is an input of the model (the element kind of the vector, the
  argument kinds of the string, …).
* Refusal of memory inside `std::` containers. Exceptions thrown by constructors of elements are in
  `Verif/Vector/Throw` only (C104, C105), not in the programs of the other vector properties; those
  thrown by the predicate or the comparison of `erase`/`erase_if` are in `Verif/Vector/EraseThrow` (C137);
  those thrown by the function given to `fill` in `Verif/Vector/FillThrow` (C149); those
  thrown by assignments are not modelled, an iterator that throws acts like a constructor that does.
* `fmt` itself (any function; the formatter of `string` that calls it is modelled, C143), terminal output (`print_help` and the like),
  XXH3 (any function), the digits of floating point numbers,
  `std::unordered_map` internals, real time, logging.
* References returned by `add_option` are positions in `Opt/Model`; C116 has them as addresses and proves
  when the two agree.
* Threads: operations on strings are interleaved as a whole, and what each of them reads and writes is
  proved (C101); the non-atomic reference counts are split into read and write only in C102. The metrics
  map has its own model of threads (C73). Other code is not modelled with threads. Allocators are taken
  to be safe for threads. The checks of `CROSS_THREAD_CHECKING` are modelled for `string` only (C103);
  for `arena_string` `clone` does not compile with them, since `std::thread::id` has no `swap`.
* `string`: iterators of strings are positions; ranges of other iterators that may throw have their own model (C147). Streams: a buffer of characters with the bits of `rdstate()` and `exceptions()`, `width()`, `skipws`, `fill()`; the library functions called (`istream::getline`, `sentry`, `__ostream_insert`) are modelled as libstdc++ implements them in the C locale; the branches for libc++ and MSVC are not modelled; after an exception the stream's own state is not modelled.

### Simplifications worth knowing

* Characters of the parser are Unicode scalar values (`Char`); the code's bytes are those below 256.
  White space is that of the C locale, as in `isspace` and `std::ws`.
* Objects of the arena are opaque sizes with an optional destructor; their contents are modelled only
  where a write could reach bookkeeping data (C07).
* The vector's elements are values of an arbitrary type with a lifetime state per cell; what a copy
  constructor does besides copying is not.
* After a fault the state is not modelled unless the fault is an exception from which a program can go
  on (vector and string failures, parser exceptions).


## 3. Properties: what is modelled and how it is proved

Status and theorem names are those of `MANIFEST.json`; axioms: every theorem listed depends on at most
`propext`, `Classical.choice`, `Quot.sound`.

| id | property | modelled | method | status |
|---|---|---|---|---|
| C01 | AlignUpTo rounds up to the next multiple of N | `Align/Model`: `AlignUpTo` on `BitVec 64`, `AlignUp` on wrapped naturals | decision logic: masks reduced to division | proved |
| C02 | AlignUp rounds up to the next multiple of any block size | `Align/Model`: `AlignUpTo` on `BitVec 64`, `AlignUp` on wrapped naturals | decision logic: masks reduced to division | proved |
| C03 | Size literals denote their decimal value times the unit | `Literals/Model`: `stoi_impl` and the five literals over character lists | induction over the digits against a decimal-value specification | proved |
| C04 | Every pointer handed out is aligned as requested | `Arena/Model`: blocks with base, position, limit, nodes at the end; answers of `block_alloc` are inputs | invariant (`Arena/Inv`) by induction over all call histories | proved |
| C05 | Every returned region lies inside memory obtained from block_alloc | `Arena/Model`: blocks with base, position, limit, nodes at the end; answers of `block_alloc` are inputs | invariant (`Arena/Inv`) by induction over all call histories | proved |
| C06 | Live allocations never overlap | `Arena/Model`: blocks with base, position, limit, nodes at the end; answers of `block_alloc` are inputs | invariant (`Arena/Inv`) by induction over all call histories | proved |
| C07 | User memory never overlaps the arena's own bookkeeping | `Arena/Model`: blocks with base, position, limit, nodes at the end; answers of `block_alloc` are inputs | invariant (`Arena/Inv`) by induction over all call histories | proved |
| C08 | In-contract use never asserts and never has undefined behaviour | `Arena/Model`: blocks with base, position, limit, nodes at the end; answers of `block_alloc` are inputs | invariant (`Arena/Inv`) by induction over all call histories | proved |
| C09 | Allocation returns null exactly when block_alloc does, and then nothing changed | `Arena/Model`, one step | decision logic over all reachable states | proved |
| C10 | Destroying the arena runs every pending destructor exactly once, last registered first | `Arena/Model` with the trace of cleanups, block requests/releases and hooks | invariant: the projection of the trace equals a specification computed from the call history (`Arena/Trace`, `Replay`) | proved |
| C11 | Reset runs every pending destructor exactly once, last registered first | `Arena/Model` with the trace of cleanups, block requests/releases and hooks | invariant: the projection of the trace equals a specification computed from the call history (`Arena/Trace`, `Replay`) | proved |
| C12 | A destructor runs while its object's memory and all older memory is still allocated | `Arena/Model` with the trace of cleanups, block requests/releases and hooks | invariant: the projection of the trace equals a specification computed from the call history (`Arena/Trace`, `Replay`) | proved |
| C13 | Every block is given back exactly once | `Arena/Model` with the trace of cleanups, block requests/releases and hooks | invariant: the projection of the trace equals a specification computed from the call history (`Arena/Trace`, `Replay`) | proved |
| C14 | Reset keeps only the first block and rewinds it | `Arena/Model` with the trace of cleanups, block requests/releases and hooks | invariant: the projection of the trace equals a specification computed from the call history (`Arena/Trace`, `Replay`) | proved |
| C15 | SpaceAllocated equals the memory currently held from block_alloc | `Arena/Model` with the trace of cleanups, block requests/releases and hooks | invariant: the projection of the trace equals a specification computed from the call history (`Arena/Trace`, `Replay`) | proved |
| C16 | Block size policy | `Arena/Model`, one step | decision logic over all reachable states | proved |
| C17 | Hook accounting is exact | `Arena/Model` with the trace of cleanups, block requests/releases and hooks | invariant: the projection of the trace equals a specification computed from the call history (`Arena/Trace`, `Replay`) | proved |
| C18 | check() classifies every address correctly | `check` | decision logic with the invariant | proved |
| C19 | After Reset the arena behaves like a new one | two executions | simulation up to the base address (`Arena/Sim`) | proved |
| C20 | A request too large for the address space is refused | `Arena/Model` | counterexample execution, and the same in every state (`Arena/EveryState`); invariant under a guard | partial |
| C21 | Alignment-32 requests fit the block created for them | `Arena/Model` | counterexample execution, and the same in every state (`Arena/EveryState`); invariant under a guard | partial |
| C22 | CreateArray of an impossible length is refused | `Arena/Model` | counterexample execution, and the same in every state (`Arena/EveryState`); invariant under a guard | partial |
| C23 | A constructed object is either returned or destroyed | `Arena/Model` | counterexample execution, and the same in every state (`Arena/EveryState`); invariant under a guard | partial |
| C24 | Moving an arena transfers its blocks and destructors exactly once | `Arena/World`: any number of arenas, move constructor | invariant; for the memory resource a counterexample, and that every move in every state is one (`Arena/MovedResource`) | partial |
| C25 | The memory resource is a conforming arena view | memory resource functions | from C04 to C09 | proved |
| C26 | SpaceRemains tells whether the next allocation needs a new block | `Arena/Model`, one step | decision logic over all reachable states | proved |
| C27 | Reset and SpaceRemains need a first block | `Arena/Model`, one step | decision logic over all reachable states | proved |
| C28 | Space accounting is exact | ghost accounting | invariant | proved |
| C29 | Allocation-size histogram | `Metrics/Model`: counters as finite maps | induction over the list of events | proved |
| C30 | Reporting conserves every counter | `Metrics/Model`: counters as finite maps | induction over the list of events | proved |
| C31 | Concurrent reports lose nothing | `Metrics/Threads`: any interleaving of atomic additions | conservation invariant over all interleavings | proved |
| C32 | Percentages in the report string are cumulative and well defined | percentages | counterexamples; bound under a guard, also for concurrent reads | partial |
| C33 | Metrics agree with what the arenas did | `Metrics/Link` | the metrics of the hook trace of the arena model | proved |
| C34 | push_back / emplace_back append exactly one element | `Vector/Model`: cell-level storage, element lifetimes, four element kinds, debug and release | refinement to lists, per operation, all kinds; `insert(pos, 0, v)` is refuted with a witness | proved |
| C35 | insert places elements at the position and shifts the tail | `Vector/Model`: cell-level storage, element lifetimes, four element kinds, debug and release | refinement to lists, per operation, all kinds; `insert(pos, 0, v)` is refuted with a witness | partial |
| C36 | erase removes exactly the requested elements | as C34 | refinement; counterexamples, and `Vector/Everywhere`: the violations hold in every reachable state | partial |
| C37 | erase(value) and erase_if filter the vector | `Vector/Model`: cell-level storage, element lifetimes, four element kinds, debug and release | refinement to lists, per operation, all kinds; `insert(pos, 0, v)` is refuted with a witness | proved |
| C38 | resize, assign, clear, pop_back | as C34 | refinement; counterexamples, and `Vector/Everywhere`: the violations hold in every reachable state | partial |
| C39 | Capacity management never changes contents | `Vector/Model`: cell-level storage, element lifetimes, four element kinds, debug and release | refinement to lists, per operation, all kinds; `insert(pos, 0, v)` is refuted with a witness | proved |
| C40 | No out-of-bounds or lifetime error in in-contract vector use | `Vector/Prog`: programs over any number of vectors | invariant and refinement of whole programs | proved |
| C41 | Every constructed element is destroyed exactly once | construction/destruction counters | invariant; counterexample and the exact defect for movable elements | partial |
| C42 | Growth is geometric, so push_back is amortised O(1) | growth policy | potential argument; every element type above 128 KiB is a counterexample (`Vector/BigElements`) | partial |
| C43 | Copy, move, swap have value semantics | `Vector/World`: several vectors in one heap | refinement | proved |
| C44 | Comparison agrees with lexicographic order | as C34; `Vector/Failure` for refused memory | refinement; counterexamples where violated, in every state in `Vector/EverywhereAlloc` and `Vector/EverywhereMore` | proved |
| C45 | Access is bounds-checked where promised | as C34; `Vector/Failure` for refused memory | refinement; counterexamples where violated, in every state in `Vector/EverywhereAlloc` and `Vector/EverywhereMore` | partial |
| C46 | get_writebuffer provides room for the requested elements | as C34; `Vector/Failure` for refused memory | refinement; counterexamples where violated, in every state in `Vector/EverywhereAlloc` and `Vector/EverywhereMore` | partial |
| C47 | Self-aliasing arguments | as C34; `Vector/Failure` for refused memory | refinement; counterexamples where violated, in every state in `Vector/EverywhereAlloc` and `Vector/EverywhereMore` | partial |
| C48 | SSO encoding round-trips | `Str/Layout`: the 24 bytes | round trip, both byte orders, three character widths | proved |
| C49 | Copies are independent values | `Str/Model`, `Strings`, `Prog`: heap of reference-counted buffers (and arena buffers), environment of string variables, 33 operations | refinement to a map from variables to lists, and an invariant on the reference counts, by induction over all programs | partial |
| C50 | Buffers are freed exactly once | `Str/Model`, `Strings`, `Prog`: heap of reference-counted buffers (and arena buffers), environment of string variables, 33 operations | refinement to a map from variables to lists, and an invariant on the reference counts, by induction over all programs | proved |
| C51 | In-contract string operations stay in bounds | `Str/Model`, `Strings`, `Prog`: heap of reference-counted buffers (and arena buffers), environment of string variables, 33 operations | refinement to a map from variables to lists, and an invariant on the reference counts, by induction over all programs | partial |
| C52 | push_back/append/assign/resize/clear/pop_back/erase/insert/replace implement the standard results | `Str/Model`, `Strings`, `Prog`: heap of reference-counted buffers (and arena buffers), environment of string variables, 33 operations | refinement to a map from variables to lists, and an invariant on the reference counts, by induction over all programs | proved |
| C53 | find returns the first occurrence | `Str/Search`: loops over bounded reads | refinement to least/greatest occurrence; termination of each loop; what `contains(string_view)` decides for any view (`Str/ContainsView`) | proved |
| C54 | rfind and find_*_of meet their specifications | `Str/Search`: loops over bounded reads | refinement to least/greatest occurrence; termination of each loop; what `contains(string_view)` decides for any view (`Str/ContainsView`) | proved |
| C55 | compare is the lexicographic order | compare, hash, conversion | refinement; hash function a parameter | proved |
| C56 | Equal strings have equal hashes | compare, hash, conversion | refinement; hash function a parameter | proved |
| C57 | Growth never loses characters and is geometric | `Str/Model`, `Strings`, `Prog`: heap of reference-counted buffers (and arena buffers), environment of string variables, 33 operations | refinement to a map from variables to lists, and an invariant on the reference counts, by induction over all programs | proved |
| C58 | Self-aliasing arguments of append, assign, replace and insert | `Str/Model`, `Strings`, `Prog`: heap of reference-counted buffers (and arena buffers), environment of string variables, 33 operations | refinement to a map from variables to lists, and an invariant on the reference counts, by induction over all programs | partial |
| C59 | contains(needle) means find(needle) != npos | `Str/Search`: loops over bounded reads | refinement to least/greatest occurrence; termination of each loop; what `contains(string_view)` decides for any view (`Str/ContainsView`) | partial |
| C60 | Length arithmetic is overflow-checked | length arithmetic modulo 2^64 | guarded theorem; `append(n, c)` shown undefined in every state whose new length passes 2^64; counterexample for `insert` | partial |
| C61 | substr / operator+ / starts_with / ends_with / copy | `Str/Model`, `Strings`, `Prog`: heap of reference-counted buffers (and arena buffers), environment of string variables, 33 operations | refinement to a map from variables to lists, and an invariant on the reference counts, by induction over all programs | proved |
| C62 | arena_string behaves as a value while its arena lives | `Str/Model`, `Strings`, `Prog`: heap of reference-counted buffers (and arena buffers), environment of string variables, 33 operations | refinement to a map from variables to lists, and an invariant on the reference counts, by induction over all programs | partial |
| C63 | Parsing terminates and consumes every argument | `Opt/Model`: parser, options, argument loop; `Opt/Spec`, `Grammar`: the grammar of command lines | the loop refines the grammar (induction over the arguments), for all reachable parsers | proved |
| C64 | Leftover arguments are reported in order | `Opt/Model`: parser, options, argument loop; `Opt/Spec`, `Grammar`: the grammar of command lines | the loop refines the grammar (induction over the arguments), for all reachable parsers | proved |
| C65 | Option lookup finds the option registered under the name | `Opt/Model`: parser, options, argument loop; `Opt/Spec`, `Grammar`: the grammar of command lines | the loop refines the grammar (induction over the arguments), for all reachable parsers | proved |
| C66 | The last store wins and append accumulates | `ValueStore`, `process_opt`, defaults, environment | the store equals a function of the events (`Opt/Effects`) | partial |
| C67 | Precedence: command line over default over environment | `ValueStore`, `process_opt`, defaults, environment | the store equals a function of the events (`Opt/Effects`) | partial |
| C68 | split and trim | `split`, `trim_string` | induction; uniqueness of the pieces; termination | proved |
| C69 | A choice option only ever stores an allowed value | `ValueStore`, `process_opt`, defaults, environment | the store equals a function of the events (`Opt/Effects`) | proved |
| C70 | '--opt=' must not swallow the next option | `Opt/Model`: parser, options, argument loop; `Opt/Spec`, `Grammar`: the grammar of command lines | the loop refines the grammar (induction over the arguments), for all reachable parsers | partial |
| C71 | Created objects are aligned for their type | `Create` | counterexample; guarded invariant | partial |
| C72 | Arenas sharing a block_alloc do not interfere | `Arena/World` | invariant over all interleavings of calls on any number of arenas | proved |
| C73 | Reporting metrics from several threads is free of data races | `Metrics/Race`: accesses to the shared map with happens-before | counterexample interleaving; guarded theorem | partial |
| C74 | Arenas with metrics probes may be moved | `Arena/World` with hooks | for all programs that move an arena | partial |
| C75 | A failed allocation leaves every vector as it was | as C34; `Vector/Failure` for refused memory | refinement; counterexamples where violated, in every state in `Vector/EverywhereAlloc` and `Vector/EverywhereMore` | partial |
| C76 | Declaring a type Relocatable changes only the speed | as C34; `Vector/Failure` for refused memory | refinement; counterexamples where violated, in every state in `Vector/EverywhereAlloc` and `Vector/EverywhereMore` | partial |
| C77 | Ranges given by any random access iterators are copied | as C34; `Vector/Failure` for refused memory | refinement; counterexamples where violated, in every state in `Vector/EverywhereAlloc` and `Vector/EverywhereMore` | partial |
| C78 | Operations that add no elements keep the storage | `Vector/Prog`: programs over any number of vectors | invariant and refinement of whole programs | proved |
| C79 | Storage is owned by exactly one vector and never leaks | `Vector/Prog`: programs over any number of vectors | invariant and refinement of whole programs | proved |
| C80 | A vector never pretends to have more room than was allocated | as C34; `Vector/Failure` for refused memory | refinement; counterexamples where violated, in every state in `Vector/EverywhereAlloc` and `Vector/EverywhereMore` | partial |
| C81 | A string survives refused memory | answers of the allocator are inputs | for all programs and all refusals; counterexamples | partial |
| C82 | The hash depends on all characters | compare, hash, conversion | refinement; hash function a parameter | partial |
| C83 | Failed operations change nothing | answers of the allocator are inputs | for all programs and all refusals; counterexamples | proved |
| C84 | std::to_string gives the contents | compare, hash, conversion | refinement; hash function a parameter | partial |
| C85 | Refused memory is reported by an exception | `Str/Model`, `Str/Strings` as they are: an exception leaving a `noexcept` function is the fault `terminate` | for the calls without `noexcept` parts a syntactic closure in all states; for the others an invariant (the strings changed use buffers that nobody shares) carried through every function; for the violations the run up to the refused request | partial |
| C86 | Parsing has no undefined behaviour | uninitialised reads, overflow and the like are faults | the exact causes of each fault (`Opt/Causes`) | partial |
| C87 | Numbers are read as written | extraction of integers from a stream | round trip with decimal numerals | partial |
| C88 | A rejected registration has no effect | exceptions leave the modified parser behind | invariant over all later calls | partial |
| C89 | Every registered name can be used on the command line | name tables | from the grammar | partial |
| C90 | A copied parser works like the original | identity of parsers, option references | simulation up to identity | partial |
| C91 | Typed access succeeds for the registered type | variant alternatives | invariant of the store | partial |
| C92 | The overload of parse_args taking a vector | span over argv | from the refinement | partial |
| C93 | Usage and help messages | message formatting | equational, for all option lists | partial |
| C94 | The version message | message formatting | equational, for all option lists | partial |
| C95 | getline reads exactly the next line | getline loop over a stream buffer with state bits | loop invariant; refinement to lineOf; induction on the text for the reading loop | proved |
| C96 | getline leaves the string usable on streams that are not good or that throw | the same in other stream states | witnesses; refinement for ended streams | partial |
| C97 | operator>> reads the next word | sentry, extraction loop, width | loop invariant; refinement to wordOf | partial |
| C98 | operator<< writes the whole string | __ostream_insert with the int32_t length | equational; long strings reached by a proof that memory is granted | partial |
| C99 | What is written is what is read | composition of C95, C97, C98 | from the refinements | proved |
| C100 | A clone shares nothing | clone: copy, then unshare | triples; the block of the result has count one or none, so by the invariant one owner | proved |
| C101 | Threads whose strings share nothing do not disturb each other | all operations of the program language, each by the thread that owns the strings | locality of every function (what it reads and writes), invariant that strings of different threads have different blocks; locality of the specification | proved |
| C102 | Different string objects may be used by different threads, and const functions at once | const functions; increments and decrements with another action between read and write | the state is returned unchanged; witnesses for the races, and proofs that without another action the split functions are the ordinary ones | partial |
| C103 | CROSS_THREAD_CHECKING stops exactly the dangerous uses | cpu_ tags on top of the string model | invariants of the tags; witnesses | partial |
| C104 | An element constructor that throws leaves the vector usable | `Vector/Throw`: the functions of the vector model with element constructors that may throw | symbolic execution from any reachable state; equality with the model when nothing throws; witnesses | partial |
| C105 | A vector constructor that fails leaks nothing | `Vector/Throw`: the functions of the vector model with element constructors that may throw | symbolic execution from any reachable state; equality with the model when nothing throws; witnesses | partial |
| C106 | New elements of resize(n) and vector(n) equal T() | `Vector/Zero`: a language of element types with their value initialisation ([dcl.init], Itanium ABI for pointers to data members) and the zero filling of `construct_range` | structural induction over the types, then the theorems about `resize` and the constructors | partial |
| C107 | While a destructor runs, the memory its object got from the arena during its life is still allocated | `Arena/Nested`: the blocks held at every event of a teardown | invariant relating each cleanup node to the blocks below it, kept by every call; then induction over the teardown; witness | partial |
| C108 | Constructors may call the arena that creates their object | `Arena/Nested`: `Create` split around its constructor, which may be any code that makes in-contract calls | the halves are operations of the executions, so all theorems about executions apply; composition theorem for code that calls the arena | proved |
| C109 | Destructors may call the arena that runs them | `Arena/Reentrant`: destruction and `Reset` with destructors that make calls while `_last_block` is stale | equality with the model when no calls are made; invariant of the newest block under allocations that fit; witnesses | partial |
| C110 | The arena runs the destructor of every object it created unless the class opted out | `Arena/Traits`: class declarations with tags, bases, members, destructors and constructors; lookup and access of the tags, the type traits, the concepts and `Construct` | induction over declarations; case analysis; witnesses; C110 joined to the executions of the arena | partial |
| C111 | Create accepts tagged classes, simple structs and containers, and nothing else | `Arena/Traits`: class declarations with tags, bases, members, destructors and constructors; lookup and access of the tags, the type traits, the concepts and `Construct` | induction over declarations; case analysis; witnesses; C110 joined to the executions of the arena | partial |
| C112 | Create passes the caller's arguments, and this arena exactly to the constructors that want it | `Arena/Traits`: class declarations with tags, bases, members, destructors and constructors; lookup and access of the tags, the type traits, the concepts and `Construct` | induction over declarations; case analysis; witnesses; C110 joined to the executions of the arena | partial |
| C113 | Ranges of other element types and ranges in several pieces are converted element by element | `Vector/Ranges`: `copy_from_iterator` on bytes, ranges as addresses of elements of any size | induction over the bytes read; the violations are proved for all ranges of their kind | partial |
| C114 | Hooks may use the arena they are given | `Arena/Hooks`: the destructor, `Reset`, `newBlock` and `init` with hooks that make any calls; `Arena/HookCalls`: all calls that obtain memory with a block hook that makes calls, and executions in which every block hook does | simulation (`Arena/Like`: a shadow arena with the same blocks whose past and space counter are as the invariant wants them), then the step lemmas of the arena; invariant of the executions with hooks (the invariant of the arena, the calls of a hook counted before the call that needed the block); violations for all hooks of their kind (a block held but not in the chain stays so) | partial |
| C115 | References to elements are good until the elements are moved | `Vector/Refs`: addresses of elements | the step lemmas of the vector, which say whether the block of memory is the old one or the old one was freed | proved |
| C116 | The reference add_option returns may be kept | `Opt/Handles`: the parser with its options in a `stdb_vector` (the model of `Vector/Model`), references as addresses, programs that keep them | refinement to the parser with a list of options and positions (`Opt/Model`); the relation says where each reference leads | partial |
| C117 | Hooks may be left out | `Arena/Callbacks`: the functions of the arena with each function pointer of `Options` set or null | simulation with the model in which all are set: the same blocks, and the history without the calls of functions that are not set | proved |
| C118 | The logger may be left out | `Arena/Callbacks`: the functions of the arena with each function pointer of `Options` set or null | simulation with the model in which all are set: the same blocks, and the history without the calls of functions that are not set | partial |
| C119 | Calls whose result fits into the capacity move nothing and need no memory | `Vector/Model` as it is | the actions on elements leave the pointers, the names of the blocks and their lengths alone; every function is run side by side with one that has other answers of `malloc`, so that the step lemmas for a `malloc` that always succeeds apply; induction over the sequence | proved |
| C120 | Comparison operators with C strings and std::string follow the dictionary order | `Str/Mixed`: the operators for C strings and `std::string`, and the overloads that take a C string, with a null pointer as a value of its own | every overload reduced to one comparison and its sign; the C string of an argument is resolved in the memory of the string it points into | proved |
| C121 | A null pointer given as a C string is reported by an exception | `Str/Mixed`: the operators for C strings and `std::string`, and the overloads that take a C string, with a null pointer as a value of its own | every overload reduced to one comparison and its sign; the C string of an argument is resolved in the memory of the string it points into | partial |
| C122 | String calls whose result fits into capacity() move nothing and need no memory | `Str/Model`, `Str/Strings` as they are | `Str/Room`: a triple that says that an action neither asks for memory nor throws and leaves the characters where they are, for every function down to the writes into cells; with it the other outcome of `ops_meet_spec` (memory refused) is impossible; induction over the sequence | partial |
| C123 | Pointers to the characters of a string are good until the string is changed | `Str/Model`, `Str/Strings` as they are | `step_refines` also says which objects an operation leaves as they are, also when it fails; induction over what the program does later | partial |
| C124 | An arena holds at most about twice what was asked of it | `Arena/Model` as it is | invariant over executions: every block but the newest has less idle than the next newer one has in use, since a block is given up only for a request that did not fit; sum over the blocks with the accounting of C28 | proved |
| C125 | Building a string piece by piece moves linearly many characters | `Str/Model`, `Str/Strings` as they are; the cost counted is the size whenever `data()` changes | `Str/GrowProps`: every call either leaves pointer and capacity or there was too little room and the capacity is half as much again (`expand_core`, for any number of characters; what follows it in each call leaves the characters where they are); then induction over the calls with the invariants moved <= 2 * capacity and moved <= 3 * (characters there were or were added) | partial |
| C126 | Iterators of a vector are positions | `Vector/Iter`: iterators as pointers, pointer arithmetic that is undefined outside the block | simulation: every operation on pointers agrees with the one on positions (`istep_ok`), induction over the program; the loops by induction over the elements left | partial |
| C127 | std::erase compares with the value it is given | `Vector/StdErase`: `std::erase` as `erase` of the converted value | from C37; the violation for all conversions that are not exact | partial |
| C128 | A default given as a number is the value of the option | `Opt/Defaults`: `default_value` of numbers, with `std::to_string` as a library function | from C67 (the default is used) and the round trip of numerals (C87); for floating point numbers the text is read back and compared with the number | partial |
| C129 | A parser may be used again | `Verif/Opt/Again.lean`, `Verif/Opt/AgainProps.lean`: the model of C63; `after` is the parser after any sequence of `parse_args` calls. Help texts, program name and `argv` are shown to have no influence (`strip`). | Preparation is idempotent: validated options are validated again without change, and flags whose names are taken are not added. The first call of a sequence is removed by induction. For C130 the tables agree at all names but those of the flags. | proved |
| C130 | Parsing does not take names away | `Verif/Opt/Again.lean`, `Verif/Opt/AgainProps.lean`: the model of C63; `after` is the parser after any sequence of `parse_args` calls. Help texts, program name and `argv` are shown to have no influence (`strip`). | Preparation is idempotent: validated options are validated again without change, and flags whose names are taken are not added. The first call of a sequence is removed by induction. For C130 the tables agree at all names but those of the flags. | partial |
| C131 | Left over arguments hide no option | `Verif/Opt/AgainProps.lean`: the same. | By induction over the grammar: the left over arguments are read as left over arguments; then C129 to go back to the unused parser. | proved |
| C132 | The order of options does not matter | `Verif/Opt/Order.lean`: the same. `Closed` says that a part does not end with `--name=`. | The grammar reads the two parts one after the other. Processing an option is a function of, and changes, only what the store holds for its destination (`Local`), so that steps on different destinations commute. | partial |
| C133 | Building a vector piece by piece moves linearly many elements | `Verif/Vector/GrowProps.lean`: the model of C34. `moved` counts all elements whenever `data()` changes; shifting elements within the storage is not counted. | A call that fits moves nothing (C119); one that does not makes at least as much room as `compute_next_capacity` says (`grown_step`). Then induction over the calls with the invariant that at most twice the capacity has been moved, and nothing while the capacity is below the initial one. The violation is proved for every number of calls by induction. | partial |
| C134 | The spellings of an option are interchangeable | `Verif/Opt/Spelling.lean`: the same. `Spelled` lists the three ways to write an option with its value. | In the grammar all spellings are read as the same event but for the arguments taken up (`spelled_reads`), which neither the values nor the left over arguments depend on; what comes before is read by itself, or stops the parse by itself. | partial |
| C135 | A vector has room for at most twice as many elements as were ever asked for | `Verif/Vector/CapProps.lean`: the model of C34. `WOp.asks` says what each operation asks room for. | Invariant over all programs: no capacity exceeds the bound. A call that fits keeps the capacity (C119); one that does not makes room for what is asked, or for what `compute_next_capacity` says, which is at most twice the old capacity, which is less than what is asked. | proved |
| C136 | shrink_to_fit gives back the spare room | `Verif/Str/ShrinkProps.lean`: the model of C51. | `CapLe` bounds the capacity a core records; the constructor from characters makes a core that records what the object holds or exactly the number of characters, writes keep it, `swap` hands it over. The case that returns early is the comparison itself. That the characters are the same is part of `ops_meet_spec`. | partial |
| C137 | A predicate that throws in erase_if leaves the vector usable | `Verif/Vector/EraseThrow.lean`: the loop of `erase_if` and `erase(value)` with a test that may throw (with one that does not it is the function of the model, `eraseIfThrowing_never`). | Induction over the elements before the one at which the predicate throws, for each kind of element; the state left is given exactly for trivial elements, and for the others as far as the dead element. | partial |
| C138 | A string on an arena needs that arena only | `Verif/Str/HomeSpec.lean`: histories as in `Reach` in which arenas end, and what each operation should do to the allocators. The end of an arena removes the blocks whose `src` is that arena; it is modelled here for strings, apart from the model of the arena itself. | `Verif/Str/Lodge.lean` shows for every function of the string model that it leaves blocks with the allocator of their strings, `Verif/Str/HomeLemmas.lean` puts this together for every operation (`replace` on arenas with the source outside the string, move assignment in two halves) and by induction for programs. | partial |
| C139 | Strings and objects on one arena do not get in each other's way | `Verif/Str/OnArena.lean` puts the two models together: each block a string call makes is a piece that `do_allocate` of the arena model gives out, in the order of the requests; requests that are refused change nothing (C09) and are left out; `Reset` removes the blocks. Which requests are refused is arbitrary, so the refusals of the arena are among them. The contract of the arena limits one request to 2^62 bytes. | `Verif/Str/Track.lean`: a relation that is reflexive and transitive and holds across the elementary steps holds across every string operation; with it, blocks keep their size. The invariant pairs every block with its piece, and C04-C07 of the arena then apply to the pieces of strings. | proved |
| C140 | Capacities stay within half as much again as the longest contents | `Within` (Verif/Str/CapsSpec.lean) collects the states of programs in which all calls succeed and lengths and requests keep to `N` and `R`; `Lasting` (Verif/Str/CapsCaught.lean) adds calls that fail and are caught, for the calls of C148 that leave nothing behind. | `Verif/Str/Caps*.lean`: an invariant on all objects, temporaries too, that sizes stay within `N` and capacities within `K`; most functions keep it whatever happens, those that make strings longer keep it if no string is too long afterwards, which the refinement to lists gives; functions of several steps (`operator+`, `operator>>`, `replace` with a part of the string itself) use what each step does. `getline` makes the string as long as its capacity before it reads, so it is followed through its loop. | proved |
| C141 | A string may be moved in memory byte by byte | `relocate` (Verif/Str/Relocate.lean) puts the object of one string in the place of another number; the pointers into objects of the model name the object, so one that was stored would be wrong afterwards. `Relocating` adds such steps to `Reach`. | `relocate_is_move` compares the states after both ways; hence programs that relocate reach no other states than programs that do not, and C50 to C52 apply. An example shows that using the old place as well frees a buffer twice. | proved |
| C142 | Building a string on an arena takes memory linear in its greatest length | `bytesTaken` adds up the requests of the blocks made between two states (`newBlocks` of C139, which is what the arena is asked for); `peak` is the greatest length in a program of the calls of C125. | `Verif/Str/MemFns.lean` follows `expandNoinit` and shows that it makes at most one block, which the string is in afterwards; `MemProps.lean` carries that through the calls, and with the growth by half of C125 (`builds_step`) shows by induction that what was taken is covered by four times the room there is. `resize` is refuted with a witness. `MemCaught.lean` repeats the induction over runs in which calls that failed are caught (`Builds`), with `builds_firm` of C148 for those calls. | partial |
| C143 | Conversions to and from std::string and string_view, and formatted output, lose nothing and report errors | `view`, `toStd` and `format` in `Verif/Str/Convert.lean`; what `fmt` makes of a view is a parameter, any function to a text or an exception. The `std::string` made always gets its memory. | From `storage_ok` (data and length of a reachable string) and `pointers_stay` of C123 for the view; `read_part` shows that what can be read in one piece can be read in parts. `format` is followed through its `noexcept`. | partial |
| C144 | An arena_string that is given no arena is refused | `ctorDefault` and `ctorStd` in `Verif/Str/NoArena.lean`; what is written to `std::cerr` is left out. | The constructor and the destructor are followed on a state that need not satisfy the invariant of arena strings (`Left`, `init_left`), as the string made is on the default resource; what is left is compared with what there was. | partial |
| C145 | A vector of owners releases what they own exactly once | `Cfg.watched` is the same program in which destroying or assigning to a moved-from element is a fault (`Cfg.strict`, `Cell.empty` in `Model.lean`; in C++ it is none, and with `strict` off it is none in the model either). | `Verif/Vector/Owners.lean` shows function by function that a watched call that succeeds does the same unwatched, and that legal programs succeed watched, since the invariant of C40 does not depend on it. `OwnersProps.lean` adds that cells outside the vectors hold no values (from the invariant) and the balance of C41 when all vectors are gone. | proved |
| C146 | Comparisons of vectors are as coherent as those of their elements | `Verif/Vector/CompareBy.lean`: `operator==` and `operator<=>` with arbitrary functions for the operators of the elements; the comparison of C44 is shown to be a case of it (`vecCmp_eq_by`, `vecEq_eq_by`). | The loops refine the dictionary order on lists (`dictionary`); symmetry and transitivity by induction over the lists from the laws of a strict weak order; the violation is run on numbers with a NaN. | partial |
| C147 | A range is taken as a whole or not at all | `Verif/Str/Ranges.lean`: the functions for input iterators, and `insert` and `append` for forward iterators that throw; `Verif/Str/RangeForward.lean`: `replace`, `assign` and the constructor for these. A range is the list of what its iterators give, `none` where one throws; `std::distance` over the range is taken not to throw (if it does, nothing has happened yet). | Triples for the new functions (`Verif/Str/RangeTri.lean`) on top of those of `push_back`, `append` and `swap`; `replace` calls `end()` after its temporary was filled, so `Verif/Str/RangeLow.lean` shows that none of the functions called makes an unshared string shared. Then refinement over histories `ReachR`, in which exceptions of iterators and of the allocator are caught (`Verif/Str/RangeProps.lean`). | partial |
| C148 | A call that failed for lack of memory has not happened | `storage` (`data()`, `capacity()`, whether shared) of every string, what `readCells` yields at every address, and the blocks held, before and after the call. | `Verif/Str/Firm.lean`: in every call the request to the allocator comes before anything is written, and what follows it cannot throw (`Safe` of C85); `reserveMedium` builds a local string first, which is destroyed again. `grows_firm` and `inserts_firm` put the calls together, `Seen` says that what is read depends on objects and blocks only. `Verif/Str/FirmNew.lean` does the same for new strings: what a constructor that throws leaves differs in the object only, which goes away; in `operator+` the room is made first and the rest needs none (C122). `Verif/Str/FirmProps.lean` and `FirmNewProps.lean` have the theorems and the witnesses. | partial |
| C149 | A function that cannot fill a vector does not harm it | `Verif/Vector/FillThrow.lean`: `fill` with a function that may throw (with one that does not it is the function of the model, `fillThrowing_never`), and the caller of `get_writebuffer` who throws. | The state a failed `fill` leaves is the one that a successful `fill` followed by `resize` to the old size leaves, so it is reachable and everything proved about reachable states applies; the violation is followed from any state. | partial |
| C150 | A standard container on the arena's memory resource is told when there is no memory | `Verif/Arena/Refused.lean`: a standard container growing on the resource (`stdGrow`, the only part that is not code of /repo). | From the specification of `allocateAligned` and C25; the write is the `write` of the model. | partial |

Why a property is only partial:

* **C20** violated: sizes near 2^64 wrap (witness, and in every state of an arena that holds a block); holds for sizes that do not wrap
* **C21** violated: a new block ignores alignment waste (witness, and in every state); holds with the slack
* **C22** violated: product overflow is only logged (witness, and in every state); holds without overflow
* **C23** violated: object lost when registration fails (witness, and in every state); holds when the block has room
* **C24** blocks, destructors and space move exactly once, both destruction orders; violated part: the memory resource keeps pointing to the moved-from arena (witness, and for every move in every state)
* **C32** violated: division by zero when nothing was allocated or destroyed (witness, and in every such state), and percentages read during reports can decrease (witness); holds once both counters are non-zero
* **C35** all forms of insert, safe and unsafe; violated in every state: insert(pos, 0, v) fails an assertion in debug builds, and loses the elements from pos on in release builds unless they are moved with memcpy
* **C36** contents for both overloads; violated: the range overload returns the wrong iterator, in every state and for every range that is not empty
* **C38** violated in every state: assign of an empty range, and assign(0, v) in debug builds
* **C41** holds for copy-only and Relocatable elements; violated for movable ones: moved-from elements are never destroyed (witness, and the exact number)
* **C42** violated for elements above 128 KiB (witness, and for every such type in every state)
* **C45** violated in every state: at() never throws; valid indices read the contents
* **C46** violated: too little storage when the vector is not empty (in every state for buffers of at least 64 elements and twice the capacity), and a failing assertion for buffers up to the capacity
* **C47** holds for push_back and emplace_back, and for the others if there is room and the element is not moved; violated otherwise, by insert in every state
* **C49** any number of strings, heap and arena, debug and release, with failures; violated for writes through data() (in every state in which two strings share their characters) and through iterators taken before a copy (for every long string that is not shared)
* **C51** every access outside a buffer is a fault of the model, in which the word-wise copy of release builds is a copy of the characters; that copy itself reads outside (witness), with no effect on the result
* **C58** the specification covers own characters for append, assign and (heap) replace; insert and append(first, last) do the same as with a copy of the characters when the string has room, shares nothing and the source ends before the place of the insertion; violated otherwise (witnesses)
* **C59** violated for views (witness, and every string and view that differ so); what it decides for any view is proved; holds for strings, characters, and views ended by their first NUL
* **C60** holds when the new length fits in 64 bits; violated when it does not: append(n, c) and, of strings that are not shared, insert(pos, n, c) in every state
* **C62** the general theorems hold for arenas too; violated in the three cases (witnesses, and in every state; replace and assigning a character in debug builds)
* **C66** violated for flags followed by a plain argument (witnesses, and for every parser); the theorems say exactly what is stored
* **C67** violated for Count (witness); holds for the other actions
* **C70** violated (witness, and for every parser and command line): only the argument right after an empty value can be an option
* **C71** violated: alignof(T) above 8 is ignored (witness, and in every state whose block has room); holds up to 8
* **C73** violated: two threads reporting a new location race on the shared unordered_map; no race when all locations are registered already
* **C74** violated: every program that moves an arena and ends dereferences a null cookie; holds without moves
* **C75** holds for the constructors and for insert, resize, reserve, shrink_to_fit, fill with storage; violated for the others, in every state
* **C76** violated (witnesses; copying is wrong for every vector that is not empty); proved for programs that avoid the operations named in the statement
* **C77** violated for elements moved with memcpy and reverse iterators (every range, every state); the other theorems cover all other combinations
* **C80** violated when the number of bytes exceeds 64 bits, on every vector without storage
* **C81** holds when the refused request is not a realloc; violated otherwise (witness, and by reserve in every state of a long unshared string with little spare room)
* **C82** holds for char; violated for wider characters
* **C84** holds without NUL; violated otherwise (every string with a NUL)
* **C85** violated by copies of medium strings and by changes of shared ones, for all reachable states and all calls concerned; proved for all other calls
* **C86** violated (witnesses); holds under the stated conditions, and blank_read shows that they are needed
* **C87** integers and truth values; floating point numbers are a parameter of the model; violated: no text but blank ones is refused and texts that are no numbers become 0 (for every text); negative numbers as arguments of their own (witness)
* **C88** violated (witness, and for all parsers and later calls)
* **C89** violated for one constructor (witness, and for every parser, which names are never found); holds for the others
* **C90** holds while the original exists or if every option has its destination; afterwards violated for every parser with an option registered without dest(), whatever the command line
* **C91** violated for flags without type(Bool) (witness, and for every parser)
* **C92** violated without an earlier call of the other overload (witness, and for every parser)
* **C93** violated without options, and for the cached usage message (witnesses, and for every parser)
* **C94** violated after parse_args (witness, and for all parsers)
* **C96** violated (witnesses; in every state for good streams that throw and, in debug builds where the emptied string has room, for failed streams; getline_over_spec says that ended streams empty every string); the theorems cover good streams that do not throw and ended streams
* **C97** violated for width() and wide characters, with witnesses and for every state; holds otherwise
* **C98** holds below 2^31 characters; violated for all longer strings up to 2^32+2^31, which are reachable (reach_fill)
* **C102** violated for long strings (witnesses, and in every state what the count is after two copies or two destructions at once); the partial theorems say what is safe
* **C103** violated in both directions (witnesses); of the operations that swap with a temporary inside, replace and the growth in append and the like are not in the model of the checks
* **C104** violated: push_back, resize, assign, copy assignment and all forms of insert in all states with room (push_back and assign(n, value) also when they grow), reserve and erase in all states of vectors of elements without a move constructor; the partial theorems say what is safe; throws_never ties the functions to the model
* **C105** violated in all states; the partial theorem says what is left
* **C106** violated for all trivially default constructible types with pointers to data members and all unions with a constructor or default member initialiser; holds for all other types
* **C107** violated: later memory in newer blocks is freed before the destructor runs; which blocks are held when a destructor runs is proved exactly
* **C109** violated: leak, use after free and lost registrations, at destruction and Reset; destroyWith_none and resetWith_none tie the functions to the model
* **C110** violated: the tag is inherited; the rules of C++ for member lookup, access and trivial destruction are modelled for a language of class declarations without virtual base classes
* **C111** violated: every trivially destructible type is accepted
* **C112** violated by constructors that take anything or a memory_resource*, and by arenas passed by hand; a call is taken to be valid if one constructor accepts the arguments, ambiguities are not modelled
* **C113** violated for all element types moved with memcpy and ranges of smaller or reinterpreted elements or in pieces; proved on bytes for all other combinations
* **C114** violated whenever a hook called at destruction, at Reset or for a new block obtains a block (proved for all arenas and all such hooks); holds when it obtains none, and always for the init hook; the block hook for every call that obtains memory and in whole executions (newblock_calls_*), Create and AllocateAlignedAndAddCleanup with hooks that make calls as their two halves
* **C116** holds until the next registration; violated after it; the exact lifetime of every reference is proved
* **C118** holds in executions that obey the contracts; violated for every CreateArray whose size overflows, in every state
* **C121** holds for constructors, assign, append, insert, replace, compare; violated by searches, contains and operators, which are noexcept, and by starts_with, ends_with and operator+, for all strings
* **C122** holds for strings that share nothing and (debug builds on the heap) have a buffer, and for every sequence of edits after reserve(n); violated for long strings with copies and for empty strings in debug builds (both in every state), and by replace with own characters
* **C123** pointers_stay for all programs; element access keeps the characters where they are unless a copy shares them (witness of a pointer to freed memory; in every state a shared string moves)
* **C125** holds for all the calls named but resize; a realloc is counted as moving everything
* **C126** holds but for negative subscripts, which are undefined
* **C127** holds where the conversion of the value agrees with the comparison on the elements of the vector
* **C128** holds for bool and integers; floating point defaults are rounded to millionths, characters become numbers
* **C130** holds for all names but the six of the built-in flags
* **C132** holds if neither part ends with an option argument that ends in =
* **C133** holds for all the calls named but resize, which is quadratic for every n
* **C134** holds for values that are neither empty nor look like an option, after a part that does not end with an option argument that ends in =
* **C136** Partial because arena_string does not shrink at all, in any state (shrink_to_fit_everywhere_violated); proved for string.
* **C137** Partial because elements that are not trivially copyable leave dead elements in the vector (erase_if_throws_violated).
* **C138** Partial because swap of strings with different allocators exchanges the buffers only (own_arena_violated).
* **C142** False for resize, with a witness. building_memory_caught_partial has also the calls that fail for lack of memory and are caught (unless a realloc was refused, which strings on an arena never make).
* **C143** Errors of fmt end the program, in every state.
* **C144** The default constructor ends the program in debug builds, and release builds make the string, for all states.
* **C146** False for elements that are not ordered (NaN), with a witness.
* **C147** Proved for single pass iterators and for ranges that do not throw. For forward iterators that throw in insert, append, replace and assign the negation is proved in every reachable state; forward_throw_partial and replace_throw_partial say what does hold. The constructor holds for forward iterators too (make_forward).
* **C148** New strings: without condition. On an arena without condition for all calls but insert, which needs a string that shares nothing; on the heap unless the refused request was a realloc (C81). For insert on a shared string the negation is proved with a witness, for clone() on an arena in every state and for every long string that is not shared.
* **C149** Holds for fill; violated for get_writebuffer in every state. fillThrowing_never ties the function to the model.
* **C150** Holds unless block_alloc refuses a request of the same call; violated in every state in which it does and the current block has no room.

## 4. Disagreements between code and expectation

Each is proved with a concrete witness, in the theorem named.

* **C20** `huge_granted_violated` (`Arena/EveryState.lean`): C20 is violated in every state of an arena that holds a block: each of the last seven sizes below `2^64` is granted, without a new block; the memory granted is in no block.
* **C20** `header_granted_violated` (`Arena/EveryState.lean`): C20 is violated in every state of an arena that holds a block: some size above half the address space is granted, and the next request is served with the start of a block, where writing overwrites the arena's own data.
* **C20** `c20_violated` (`Arena/Violations.lean`): C20 is violated: after one small allocation, `AllocateAligned(2^64 - 1)` returns a pointer.
* **C20** `c20_corrupts` (`Arena/Violations.lean`): C20, consequence: the request `2^64 - 40` makes the position wrap to the start of the block, in debug as well as release builds: the next allocation returns the block header itself, and writing to it is undefined behaviour.
* **C21** `align32_everywhere_violated` (`Arena/EveryState.lean`): C21 is violated in every state: a request with alignment 32 that is larger than the sizes in the options and than every block held gets a block of its own, and if that block is not at a multiple of 32 the request does not fit into it: a debug build stops with an assertion, a release build returns memory that is in no block.
* **C21** `c21_violated` (`Arena/Violations.lean`): C21 is violated: on a first block at an address that is 16 modulo 32, a request for the whole block trips an assertion in debug builds.
* **C21** `c21_release` (`Arena/Violations.lean`): C21, release builds: the same call returns memory that ends 16 bytes past the only block.
* **C22** `array_wraps_violated` (`Arena/EveryState.lean`): C22 is violated in every state: when the byte count does not fit into 64 bits, the objects are constructed past every block as soon as `block_alloc` serves the wrapped count (here up to `2^62`). Null is returned only when it refuses a block for that; never when the arena holds a block and the count is a multiple of `2^64`.
* **C22** `c22_violated` (`Arena/Violations.lean`): C22 is violated: `CreateArray<uint64_t>(2^61 + 1)` logs, obtains 8 bytes and constructs `2^61 + 1` objects from there on.
* **C23** `lost_object_violated` (`Arena/EveryState.lean`): C23 is violated in every state in which the object's memory is obtained but no destructor can be registered after that (`Own`, right after the constructor, would return false): `Create` returns null for the object it constructed, and destroying the arena runs the destructors it would have run without that object.
* **C23** `c23_violated` (`Arena/Violations.lean`): C23 is violated: the object fills the first block, the block for the registration is refused: null is returned for the constructed object, and destroying the arena runs no destructor.
* **C24** `moved_resource_violated` (`Arena/MovedResource.lean`): C24 is violated by every move, in every state: whatever the memory resource of the new arena hands out, it does not come from the new arena, which stays as it is; once no other arena is alive the resource cannot be used at all; and the moved-from arena, which may be used again, has no resource.
* **C24** `c24_violated` (`Arena/WorldProps.lean`): C24, violated part: after a move the resource of the new arena still hands out memory of the moved-from arena.
* **C24** `c24_dangling` (`Arena/WorldProps.lean`): C24, violated part: once the moved-from arena is destroyed, the resource of the new arena dangles: using it is undefined behaviour, although the new arena is alive.
* **C32** `c32_everywhere_violated` (`Metrics/Every.lean`): C32 is violated in every state in which nothing was allocated or no arena was destroyed: printing the metrics divides by zero.
* **C32** `c32_violated` (`Metrics/Props.lean`): C32 as claimed is violated: a process that has not allocated anything divides by zero when it prints its metrics, and so does one that has allocated but not destroyed an arena.
* **C35** `insert_none_everywhere_violated` (`Vector/Everywhere.lean`): C35 is violated in every state of a debug build: inserting no copies of a value fails an assertion.
* **C35** `insert_none_release_violated` (`Vector/EverywhereMore.lean`): C35 is violated in every state of a release build: inserting no copies of a value before the end of a vector whose elements are moved one by one succeeds, and the elements from the position on cannot be read any more.
* **C35** `insert_none_violated` (`Vector/Violations.lean`): C35 is violated: `insert(pos, 0, value)` fails an assertion of debug builds. In release builds it moves the elements from `pos` on to the places they are in: they end up moved from, or destroyed if they can only be copied.
* **C36** `erase_range_return_everywhere_violated` (`Vector/Everywhere.lean`): C36 is violated in every state: `erase(first, last)` of a range that is not empty removes the right elements, but the iterator it returns is `last - first` elements behind the one that follows the erased elements.
* **C36** `erase_range_return_violated` (`Vector/Violations.lean`): C36 is violated: `erase(first, last)` returns the position `last` had, not that of the element behind the erased ones. Here it returns 3, which is `end()`, though the element 4 that followed the erased ones is at 1.
* **C38** `assign_zero_everywhere_violated` (`Vector/Everywhere.lean`): C38 is violated in every state of a debug build: `assign(0, value)` fails an assertion.
* **C38** `assign_empty_everywhere_violated` (`Vector/Everywhere.lean`): C38 is violated in every state: assigning an empty range keeps the size and destroys the elements, unless they are trivial. No element can be read afterwards, and the destructor of the vector destroys them again.
* **C38** `assign_empty_trivial_everywhere_violated` (`Vector/Everywhere.lean`): C38 is violated in every state: assigning an empty range to a vector of trivial elements changes nothing.
* **C38** `assign_empty_violated` (`Vector/Violations.lean`): C38 is violated: assigning an empty range destroys the elements and keeps the size; reading the vector reads destroyed elements, and its destructor destroys them again.
* **C38** `assign_empty_trivial_violated` (`Vector/Violations.lean`): C38 is violated: the same for trivial elements, which are still there.
* **C38** `assign_zero_violated` (`Vector/Violations.lean`): C38 is violated: `assign(0, value)` fails an assertion of debug builds.
* **C41** `moved_elements_leak_violated` (`Vector/Props2.lean`): C41, violated: elements that are moved from during reallocation, insertion or erasure are never destroyed.
* **C42** `first_push_big_violated` (`Vector/BigElements.lean`): C42 is violated for every element type of more than 128 KiB, in every state: `push_back` on a vector without capacity never succeeds. A debug build stops with an assertion; a release build writes where there is no memory, or `malloc(0)` gives null and it throws.
* **C42** `growth_big_violated` (`Vector/Violations.lean`): C42 is violated for elements of more than 128 KiB: the first `push_back` asks for a capacity of 0. It fails an assertion of debug builds, and writes behind the storage in release builds.
* **C45** `at_never_throws_violated` (`Vector/EverywhereAlloc.lean`): C45 is violated in every state: `at` never throws. In a debug build an index out of range fails an assertion; in a release build it reads what is there, and an index beyond the capacity is undefined.
* **C45** `at_does_not_throw_violated` (`Vector/Props2.lean`): C45, violated: `at` with an index out of range does not throw. In a debug build the program is aborted; in a release build, here, the value of an erased element is returned.
* **C46** `writebuffer_everywhere_violated` (`Vector/EverywhereMore.lean`): C46 is violated in every state: on a vector that is not empty, filling a buffer of `get_writebuffer` that is large in comparison with the storage writes behind the new storage.
* **C46** `writebuffer_assert_violated` (`Vector/EverywhereMore.lean`): C46 is violated in every state of a debug build: a buffer that does not fit behind the elements but is not larger than the capacity fails an assertion.
* **C46** `writebuffer_overflow_violated` (`Vector/Props2.lean`): C46, violated: the buffer reaches beyond the storage, because the new capacity is computed from the number of new elements alone.
* **C47** `insert_alias_always_violated` (`Vector/Alias.lean`): C47 is violated in every state: with room for one more, `insert(pos, v[k])` and `emplace` with `pos < k` insert the element before element `k`.
* **C47** `insert_alias_violated` (`Vector/Violations.lean`): C47 is violated: inserting an element of the vector at an earlier position inserts its predecessor.
* **C47** `insert_alias_full_violated` (`Vector/Violations.lean`): C47 is violated: when the vector is full, `insert` reads the element from the storage it has freed.
* **C47** `insert_count_alias_violated` (`Vector/Violations.lean`): C47 is violated: `insert(pos, count, v[i])`.
* **C47** `resize_alias_violated` (`Vector/Violations.lean`): C47 is violated: `resize(n, v[i])` reads the element from the storage it has freed.
* **C47** `assign_alias_violated` (`Vector/Violations.lean`): C47 is violated: `assign(n, v[i])` reads the element after destroying it.
* **C47** `erase_alias_violated` (`Vector/Violations.lean`): C47 is violated: `erase(v[0])` compares with whatever is first in the vector during the loop; it erases one of three equal elements.
* **C48** `word_copy_reads_past_violated` (`Str/LayoutProps.lean`): The word-wise copy reads past the source: constructing from 17 aligned one-byte characters reads 24 bytes of the source's memory. (C51's bound on reads does not hold for this path; the extra bytes never become visible, by `word_copy_round_trip`.)
* **C49** `data_shared_everywhere_violated` (`Str/EveryString.lean`): C49, violated in every state: if `data()` of two strings is the same pointer, as after a copy of a long string, a character written through the one's `data()` changes the other.
* **C49** `iterator_shared_everywhere_violated` (`Str/IterEvery.lean`): C49, violated in every state: after `begin()` of a long string that is not shared, a copy has the same characters, and a character written through the iterator changes the copy.
* **C49** `data_shared_violated` (`Str/StringViolations.lean`): C49, violated for `data()` of a string that is not const: writing through it changes a copy.
* **C49** `iterator_shared_violated` (`Str/StringViolations.lean`): C49, violated for iterators taken before a copy is made: writing through them changes the copy.
* **C51** `word_copy_outside_violated` (`Str/WordCopy.lean`): C51 is violated in release builds: `substr(8)` of a string of 25 characters copies 17 characters from `data() + 8`, which is a multiple of 8 as `data()` is, and `initSmall` reads 24 bytes there; the buffer has 26 bytes. What it reads past the end does not become visible (`Layout.word_copy_round_trip`).
* **C58** `insert_alias_violated` (`Str/StringViolations.lean`): C58, violated for `insert`: the result is wrong (in place), or freed memory is read.
* **C58** `append_range_alias_violated` (`Str/StringViolations.lean`): C58, violated for `append(first, last)` with iterators into the string itself.
* **C58** `append_terminator_violated` (`Str/StringViolations.lean`): C58, violated for `append` with a range that includes the terminator of the string itself.
* **C59** `contains_view_everywhere_violated` (`Str/ContainsView.lean`): C59 is violated for every string without NUL and every view with one, if the part of the view before its NUL occurs: the view is reported as contained. And it is violated for every view that occurs but continues in memory, before the next NUL, to something that does not occur: it is reported as missing.
* **C59** `contains_view_violated` (`Str/SearchProps.lean`): C59 is violated, with three witnesses: a view holding a NUL is found though it does not occur; a view that is the beginning of a longer string is not found though it occurs; and a view of memory without any NUL reads past it.
* **C60** `append_wraps_violated` (`Str/StringViolations.lean`): C60, violated for `append(n, c)` and `insert(pos, n, c)`: `size() + n` wraps, no exception is thrown and memory outside the string is written.
* **C60** `insert_wraps_violated` (`Str/StringViolations.lean`): C60, violated for `insert(pos, n, c)`.
* **C60** `insert_wraps_everywhere_violated` (`Str/WrapInsert.lean`): C60, violated in every state: `insert(pos, n, c)` at any place of a string that is not shared, when the new length does not fit in 64 bits, throws nothing; it writes outside the array.
* **C60** `append_wraps_everywhere_violated` (`Str/Wraps.lean`): C60, violated in every state: `append(n, c)` to any string, when the new length does not fit in 64 bits, throws nothing; it writes outside the array.
* **C62** `arena_assign_char_everywhere_violated` (`Str/ArenaEvery.lean`): C62, violated in every state of a debug build: a character assigned to a shared string on an arena throws, and nothing changes.
* **C62** `arena_replace_alias_everywhere_violated` (`Str/ArenaEvery.lean`): C62, violated in every state of a debug build: `replace` in a string on an arena that is not shared, with part of the string itself, throws, and nothing changes.
* **C62** `arena_swap_everywhere_violated` (`Str/ArenaEvery.lean`): C62, violated in every state: `swap` of two strings of different resources exchanges their memory but not their allocators, so that each string then uses memory of the other's resource.
* **C62** `arena_swap_violated` (`Str/StringViolations.lean`): C62, violated: after `swap` of strings on two arenas each uses the memory of the other's arena.
* **C62** `arena_replace_alias_violated` (`Str/StringViolations.lean`): C62, violated: `replace` with a source in the string itself throws in debug builds; in release builds a block of the default resource ends up in the string.
* **C62** `arena_assign_char_violated` (`Str/StringViolations.lean`): C62, violated: assigning a character to a shared string throws in debug builds.
* **C64** `missing_value_inconsistent` (`Opt/OptViolations.lean`): An option given without its value at the end of the command line as `--num=` is left over and otherwise ignored, while `--num` makes `parse_args` throw.
* **C66** `flag_takes_argument_everywhere_violated` (`Opt/EveryParser.lean`): C66, violated for every parser: if the command line begins with an option without a value, such as a flag, and an argument that is not an option, and the option is known (it is not left over), the argument is not left over either: the option takes it for its value.
* **C66** `flag_takes_argument_violated` (`Opt/OptViolations.lean`): A flag followed by an argument that is not an option takes that argument for its value: the flag is stored as false and the argument is not among those left over.
* **C66** `flag_true_violated` (`Opt/OptViolations.lean`): `--flag=true` stores false: only numbers are read as truth values.
* **C67** `count_default_violated` (`Opt/OptViolations.lean`): The default of a `Count` option is not a value: it counts as one occurrence, on top of those on the command line.
* **C70** `empty_value_swallows_everywhere_violated` (`Opt/EveryParser.lean`): C70, violated for every parser and every command line: an option given as `--name=` takes up the argument after it as its value, whatever that looks like, also if it is an option.
* **C70** `empty_value_first_violated` (`Opt/EveryParser.lean`): C70, violated for every parser: if the command line begins with `--name=` and any other argument, and the name is known (the argument is not left over), the other argument is not left over either.
* **C70** `empty_value_swallows_violated` (`Opt/OptViolations.lean`): `--name=` with an empty value takes up the next argument, although that is an option.
* **C71** `align16_everywhere_violated` (`Arena/AlignEvery.lean`): C71 is violated in every state: where the current block has room for an object of any type and 8 bytes more (`Create` of so many bytes would take no new block), `Create` puts the object at the next free address, and 8 bytes further on after `Create` of an 8-byte object. So a type with alignment 16, or any multiple of that, is misaligned in one of the two programs.
* **C71** `c71_violated` (`Arena/Violations.lean`): C71 is violated: the requested alignment is always 8 (arena/arena.hpp:431), so after an 8-byte object a type with alignment 16 is created at an address that is 8 modulo 16.
* **C73** `c73_violated` (`Metrics/Race.lean`): C73 as claimed is violated, and not only in special cases: whenever two threads have allocated and reported, and any of the source locations was not already in the global map before, there is a data race on the map.
* **C74** `c74_violated` (`Metrics/Link.lean`): C74 as claimed is violated: every program that moves an arena and then ends (all arenas destroyed) makes the probes dereference a null cookie.
* **C75** `push_back_refused_violated` (`Vector/EverywhereAlloc.lean`): C75 is violated in every state: when `push_back` or `emplace_back` on a full vector gets no memory, the exception is thrown, but no element of the vector can be read any more, the vector cannot be destroyed, and its storage is lost: it stays allocated, and no vector has it.
* **C75** `assign_refused_violated` (`Vector/EverywhereAlloc.lean`): C75 is violated in every state: the same for `assign` with more elements than there is room for.
* **C75** `copy_assign_refused_violated` (`Vector/EverywhereAlloc.lean`): C75 is violated in every state: the same for the copy assignment of a vector with more elements than there is room for.
* **C75** `reserve_refused_violated` (`Vector/EverywhereAlloc.lean`): C75 is violated in every state: `reserve` on a vector without storage does not report that there is no memory, and the vector claims to have the capacity. The next `emplace_back`, and in a release build the next `push_back`, dereferences a null pointer.
* **C75** `push_back_bad_alloc_violated` (`Vector/Failure.lean`): C75 is violated: when `push_back` gets no memory, the vector claims to have its elements still, but reading them dereferences a null pointer, and so does destroying the vector; their storage is lost, no vector has it.
* **C75** `assign_bad_alloc_violated` (`Vector/Failure.lean`): C75 is violated: the same for `assign`; here the elements have been destroyed as well.
* **C75** `copy_assign_bad_alloc_violated` (`Vector/Failure.lean`): C75 is violated: the same for copy assignment.
* **C75** `reserve_bad_alloc_violated` (`Vector/Failure.lean`): C75 is violated: `reserve` on a vector without storage does not report that there is no memory. The vector claims to have the capacity, and the next `push_back` dereferences a null pointer.
* **C76** `relocatable_every_copy_violated` (`Vector/Reloc.lean`): C76 is violated by every copy of a vector that is not empty: the copy has the right contents, but no element of it has been constructed, so that the vectors now have more elements than live objects and will destroy `xs.length` of them twice.
* **C76** `relocatable_copy_assign_violated` (`Vector/Reloc.lean`): C76 is violated: copy assignment duplicates the elements in the same way: five destructions of three objects.
* **C76** `relocatable_range_violated` (`Vector/Reloc.lean`): C76 is violated: so do the constructor, `assign` and `insert` from a contiguous range: two destructions of elements that were never constructed.
* **C76** `relocatable_erase_if_violated` (`Vector/Reloc.lean`): C76 is violated: `erase_if` and `erase(value)` never destroy the elements they remove: one destruction of three objects.
* **C76** `relocatable_insert_violated` (`Vector/Reloc.lean`): C76 is violated: `insert` before more elements than are inserted moves them one by one, by assignment to memory that holds no object.
* **C76** `relocatable_push_back_violated` (`Vector/Violations.lean`): C76 is violated: for `Relocatable` types that are not trivial, `push_back` into free room assigns to memory that holds no object.
* **C76** `relocatable_copy_violated` (`Vector/Violations.lean`): C76 is violated: copying a vector of such elements copies bytes and runs no constructor, and the destructors of both vectors destroy every element: four destructions of two constructed objects.
* **C77** `reverse_ctor_everywhere_violated` (`Vector/EverywhereMore.lean`): C77 is violated for every range: a vector of elements moved with `memcpy` that is constructed from reverse iterators has the right size, but none of its elements has a value.
* **C77** `reverse_assign_everywhere_violated` (`Vector/EverywhereMore.lean`): C77 is violated in every state: `assign` from reverse iterators to a vector of trivial elements keeps the old elements, as many as are assigned.
* **C77** `reverse_ctor_violated` (`Vector/Violations.lean`): C77 is violated: a vector of trivial elements constructed from reverse iterators has the right size, but no element has been written.
* **C77** `reverse_assign_violated` (`Vector/Violations.lean`): C77 is violated: `assign` from reverse iterators keeps the old elements.
* **C80** `reserve_huge_everywhere_violated` (`Vector/EverywhereMore.lean`): C80 is violated in every state: when `n` elements have more than 2^64 bytes, `reserve(n)` on a vector without storage asks for the number of bytes modulo 2^64 and, if it gets them, claims to have room for `n` elements. Writing more elements than fit into those bytes is undefined.
* **C80** `reserve_huge_violated` (`Vector/Violations.lean`): C80 is violated: when the number of bytes does not fit in 64 bits, `reserve` asks `malloc` for the number modulo 2^64, here 0 bytes for 2^60 elements, and succeeds; the next `push_back` writes behind the storage.
* **C81** `realloc_refused_everywhere_violated` (`Str/EveryString.lean`): C81, violated in every state: a long string that no other string shares, with little spare room, loses its characters when `reserve` needs memory and is refused; reading the string afterwards, or destroying it, is undefined.
* **C81** `realloc_refused_violated` (`Str/StringViolations.lean`): C81, violated: when `realloc` is refused the buffer is freed although the string goes on using it; reading the string afterwards, or destroying it, is undefined.
* **C82** `hash_ignores_tail_violated` (`Str/StringPlus.lean`): C82, violated: for wider characters, strings of equal length that agree in their first half have equal hashes, whatever the hash function.
* **C82** `hash_collision_violated` (`Str/StringViolations.lean`): C82, violated: two different strings of `char16_t` have equal hashes whatever the hash function.
* **C84** `to_string_everywhere_violated` (`Str/EveryString.lean`): C84, violated in every state: `std::to_string` of any string with a NUL is shorter than the string.
* **C84** `to_string_truncates_violated` (`Str/StringViolations.lean`): C84, violated: characters after a NUL are lost.
* **C85** `shared_edit_violated` (`Str/CatchProps.lean`): C85 violated: writing an element, `insert`, `erase`, `replace`, `assign(n, c)` and appending a range end the program if the string is shared and there is no memory for a copy.
* **C85** `copy_violated` (`Str/CatchProps.lean`): C85 violated: copying a string of medium length ends the program if there is no memory.
* **C85** `pop_back_violated` (`Str/CatchProps.lean`): C85 violated: `pop_back()` ends the program if the string is shared and what remains needs memory that there is not.
* **C85** `copy_terminates_violated` (`Str/StringViolations.lean`): C85, violated: copying a string of medium length calls `std::terminate` when memory is refused.
* **C85** `write_terminates_violated` (`Str/StringViolations.lean`): C85, violated: so does writing to a character of a shared string.
* **C86** `blank_value_violated` (`Opt/OptViolations.lean`): A blank value for a number is undefined behaviour: an uninitialised variable is read.
* **C86** `no_names_violated` (`Opt/OptViolations.lean`): An option without names is undefined behaviour.
* **C86** `shared_counter_violated` (`Opt/OptViolations.lean`): A counter that shares its destination with a stored number can overflow; with a stored text, it throws `bad_variant_access`.
* **C87** `any_number_everywhere_violated` (`Opt/NumberEvery.lean`): C87, violated for every text: an option that takes a number, a truth value or a floating point number makes a value of every text with anything but white space in it; none is refused.
* **C87** `malformed_number_everywhere_violated` (`Opt/NumberEvery.lean`): C87, violated for every text that is not a number: if the first character after white space is neither a digit nor a sign the option is given 0 or false, as if that had been written.
* **C87** `malformed_number_violated` (`Opt/OptViolations.lean`): A text that is not a number is stored as 0, one that is too large as the largest number: neither is reported, and the text is not among the arguments left over.
* **C87** `negative_number_violated` (`Opt/OptViolations.lean`): A negative number cannot be given as an argument of its own: it is taken for an option.
* **C88** `rejected_option_violated` (`Opt/OptViolations.lean`): A registration that throws makes every later `parse_args` throw.
* **C89** `unusable_names_everywhere_violated` (`Opt/EveryParser.lean`): C89, violated for every parser and every command line: an option is never found by a name that has `'='` in it, that is the long prefix, or that does not begin with the prefix character, as `--name` does not for a parser made with another character and a conflict handler; `add_option` accepts such names (see `accepted_unusable`). So options that have no other names are never used.
* **C89** `plus_prefix_long_violated` (`Opt/OptViolations.lean`): A parser with the prefix `'+'` and a conflict handler accepts the registration of `--num` (the long prefix stays `"--"`), but `--num` is not recognised on the command line; `++num` is registered as a short name.
* **C89** `double_dash_violated` (`Opt/OptViolations.lean`): The name `--` can be registered (as a short name) but is never found.
* **C89** `equals_in_name_violated` (`Opt/OptViolations.lean`): A name with `'='` in it can be registered but is never found.
* **C90** `copy_outlives_everywhere_violated` (`Opt/OptMore.lean`): A copy of a parser that parses: once the original has been destroyed, parsing with the copy is undefined exactly if an option was registered without `dest()`, whatever the command line.
* **C90** `copy_outlives_violated` (`Opt/OptViolations.lean`): Parsing with a copy reads the original parser, also after it has been destroyed.
* **C91** `typed_get_everywhere_violated` (`Opt/EveryParser.lean`): C91, violated for every parser: if a flag that keeps the type text is given as `--flag=w`, whatever the parser's other options are, `get<bool>` of its destination ends the program.
* **C91** `typed_get_violated` (`Opt/OptViolations.lean`): A flag registered without `type(Bool)`, given as `--flag=1`, holds a text: `get<bool>` ends the program.
* **C92** `vector_overload_everywhere_violated` (`Opt/EveryParser.lean`): C92, violated for every parser that has not parsed yet: `get_raw_argv()` reads through a null pointer, and `parse_args(vector, argv)`, which works without arguments, reads outside of an empty span if the first argument is not an option, whatever the options and the other arguments are.
* **C92** `vector_overload_violated` (`Opt/OptViolations.lean`): `parse_args(vector, argv)` on a parser that has not parsed before indexes an empty span as soon as an argument is left over.
* **C92** `raw_argv_violated` (`Opt/OptViolations.lean`): `get_raw_argv()` before `parse_args(argc, argv)` reads through a null pointer.
* **C93** `help_empty_everywhere_violated` (`Opt/EveryParser.lean`): C93, violated for every parser without options: `format_help()` dereferences the end iterator.
* **C93** `usage_stale_everywhere_violated` (`Opt/EveryParser.lean`): C93, violated for every parser: once the usage message has been asked for, it stays the same, whatever options are registered later.
* **C93** `help_empty_violated` (`Opt/OptViolations.lean`): `format_help()` on a parser without options dereferences the end iterator.
* **C93** `usage_stale_violated` (`Opt/OptViolations.lean`): The usage message is computed once: options added later are missing from it.
* **C94** `version_lost_violated` (`Opt/OptViolations.lean`): A version set with `version()` is not reported any more after `parse_args`.
* **C96** `getline_failed_everywhere_violated` (`Str/LineEvery.lean`): C96, violated in every state: in debug builds `getline` on a stream whose `failbit` is set (and that does not throw for it) does not return: it stops at an assertion, if memory is not refused, wherever the emptied string has room for a character.
* **C96** `getline_throws_everywhere_violated` (`Str/LineEvery.lean`): C96, violated in every state: a good stream that throws at its end, when the rest of the input is no longer than the capacity of the emptied string, or that throws when reading fails, when the line is longer than that: `getline` throws, and the string is as long as its capacity, whatever was read.
* **C96** `getline_failed_violated` (`Str/StreamViolations.lean`): C96, violated: `getline` on a stream whose `failbit` is set: debug builds stop at an assertion; release builds clear the bit, report success, and the string, which should be as before, holds a NUL character.
* **C96** `getline_end_violated` (`Str/StreamViolations.lean`): C96, violated: when nothing can be read as the stream has seen its end, `std::getline` leaves the string as it is; here it is emptied.
* **C96** `getline_throw_violated` (`Str/StreamViolations.lean`): C96, violated: when the stream throws at its end, the string is as long as its capacity: what was read is followed by what was in the memory before.
* **C96** `getline_long_violated` (`Str/StreamViolations.lean`): C96, violated: a stream told to throw when reading fails throws although a line of 30 characters is there.
* **C97** `extract_width_violated` (`Str/StreamViolations.lean`): C97, violated: `width()` stays after `is >> setw(2) >> a`, so that the next word is cut as well.
* **C97** `extract_wide_violated` (`Str/StreamViolations.lean`): C97, violated: a character beyond 255 is passed to `isspace` of `<cctype>`, which is not defined for it.
* **C97** `extract_width_everywhere_violated` (`Str/WordEvery.lean`): C97, violated in every state, whatever the string: when a word ends before the end of the input - white space follows, or `width()` characters have been read -, `width()` is not reset, so the next word is cut as well.
* **C97** `extract_wide_everywhere_violated` (`Str/WordEvery.lean`): C97, violated in every state, whatever the string: a character beyond 255 that is met in the input, after white space that is skipped and any start `w` of a word, is passed to `isspace` of `<cctype>`, which is not defined for it; unless memory is refused before.
* **C98** `insert_long_violated` (`Str/StreamViolations.lean`): C98, violated: of a string of 2^31 up to 2^32 characters `os << str` writes none; it writes `fill()` characters instead, 2^32 less the length of the string, and the stream goes bad.
* **C98** `insert_cut_violated` (`Str/StreamViolations.lean`): C98, violated: of a string of 2^32 characters or more `os << str` writes only the first few, without an error.
* **C102** `destroy_race_everywhere_violated` (`Str/RaceEvery.lean`): C102, violated in every state: two threads destroy two strings on the heap that share their characters, `v` being destroyed between the read and the write of the count by the destructor of `u`. Both calls end, and the count is one more than the number of strings left that have these characters: the buffer is never freed.
* **C102** `copies_race_everywhere_violated` (`Str/RaceEvery.lean`): C102, violated in every state: two threads copy the same long string at once, each into a string of its own, the second copy being made between the read and the write of the count by the first. Both calls end, and on the heap the count is one less than the number of strings that have these characters: the buffer is freed while one of them is still there.
* **C102** `copies_race_violated` (`Str/ThreadViolations.lean`): Two threads copy the same string of 300 characters at once, each into a string of its own. After that the string and one of the copies are destroyed, and to read the other copy is undefined behaviour: the buffer is gone.
* **C102** `clone_race_corrupts` (`Str/ThreadViolations.lean`): A thread clones a string of 300 characters while another one copies it. The clone is a string of its own, but the string and the copy now share a buffer whose count is one: a character written to the string is changed in the copy.
* **C102** `destroy_race_violated` (`Str/ThreadViolations.lean`): Two threads destroy two strings that share their characters. No string is left and the buffer is never freed.
* **C102** `copy_during_destroy_violated` (`Str/ThreadViolations.lean`): A thread destroys its string while another one copies the string it shares the characters with: the count comes out one too small, and the copy outlives its buffer.
* **C103** `later_copies_are_not_guarded_violated` (`Str/CpuCheck.lean`): Copies of a string that was copied before are not guarded. The strings 2 and 3 share their characters, one thread copies the first, another one destroys the second, and no check stops them.
* **C103** `writes_are_not_guarded_violated` (`Str/CpuCheck.lean`): A thread that writes to a string is not checked, though the count of the buffer changes: thread 2 writes to string 1, which shares its characters with string 0 of thread 1.
* **C103** `harmless_copy_is_stopped_violated` (`Str/CpuCheck.lean`): Strings that share nothing are guarded all the same. A string of two characters was copied by thread 1, the copy is moved to thread 2, and thread 2 is stopped when it destroys it. Its buffer has no count (debug builds do not store short strings in the object).
* **C103** `harmless_growth_is_stopped_violated` (`Str/CpuCheck.lean`): Growing a string is stopped, though it shares nothing: a string of two characters was copied by thread 1, thread 2 reserves room for 300 characters in the copy.
* **C103** `sole_owner_is_stopped_violated` (`Str/CpuCheck.lean`): The same for a long string that has become the only owner of its characters.
* **C104** `assign_count_throws_violated` (`Vector/ThrowMore.lean`): C104 is violated by `assign(n, value)` in every state: when the construction of the `k`-th element throws, the old elements are gone, the vector has its new size all the same, and the elements from the `k`-th on were never constructed; the destructor of the vector is undefined if they replace old ones, lie in new storage, or are of a type without a move constructor.
* **C104** `assign_range_throws_violated` (`Vector/ThrowMore.lean`): C104 is violated by `assign(first, last)` in every state: when there is room and the copy of the `k`-th element throws, the old elements are gone but still counted, and the vector can neither be read nor destroyed.
* **C104** `copy_assign_in_place_throws_violated` (`Vector/ThrowMore.lean`): C104 is violated by copy assignment in every state in the same way; the source keeps its elements.
* **C104** `insert_in_place_throws_violated` (`Vector/ThrowMore.lean`): C104 is violated by `insert(pos, value)` and `emplace` in the middle in every state with room: when the construction of the new element throws, the elements from `pos` on have been moved back by one; the vector still counts as many elements as before, the one at `pos` must not be read (nor, without a move constructor, destroyed), and the last one is lost.
* **C104** `insert_many_throws_violated` (`Vector/ThrowMore.lean`): C104 is violated by `insert(pos, n, value)` and `insert(pos, first, last)` in the middle in every state with room: when the construction of the `k`-th new element throws and this is where an element was, then the vector still counts as many elements as before, and the one at `pos + k` must not be read, nor, without a move constructor, destroyed.
* **C104** `reserve_throws_violated` (`Vector/ThrowMore.lean`): C104 is violated by `reserve` in every state of vectors whose elements have no move constructor: when the copy of an element throws, the program ends.
* **C104** `erase_throws_violated` (`Vector/ThrowMore.lean`): C104 is violated by `erase` in every state of vectors whose elements have no move constructor: when the copy of the `k`-th element behind the one erased throws, the vector still counts all elements, one of which must be neither read nor destroyed.
* **C104** `push_back_throws_violated` (`Vector/ThrowProps.lean`): C104 is violated by `push_back(const T&)` and `emplace_back` in every state: when the element's constructor throws and there is room, `size()` has grown by one all the same, and `back()` is an element that was never constructed. What is left of the promise: the elements from before and the other vectors are untouched.
* **C104** `push_back_full_throws_violated` (`Vector/ThrowProps.lean`): C104 is violated by `push_back(const T&)` and `emplace_back` on a full vector, in every state: when the element's constructor throws, all elements are out of reach. The vector has new storage in which nothing was constructed, and a size of one more than before; reading any of its elements is undefined, and so is its destructor. The old storage with the elements in it belongs to no vector any more.
* **C104** `resize_throws_violated` (`Vector/ThrowProps.lean`): C104 is violated by `resize` in every state with room: when the construction of the `k`-th new element throws, the vector has its new size all the same, the elements from the `k`-th new one on were never constructed, and the destructor of the vector is undefined for elements without a move constructor.
* **C104** `insert_throws_violated` (`Vector/ThrowProps.lean`): C104 is violated by `insert(pos, const T&)` in the middle: elements with a move constructor have been moved when the exception comes. The vector `[1, 2, 3]` still has three elements, of which the second has been moved from, and 3 is behind its end.
* **C104** `insert_hole_throws_violated` (`Vector/ThrowProps.lean`): C104 is violated by all forms of `insert` in the middle for elements without a move constructor: they leave a hole, and the destructor of the vector is undefined.
* **C104** `assign_throws_violated` (`Vector/ThrowProps.lean`): C104 is violated by both forms of `assign`: the old elements are destroyed first, and the destructor of the vector destroys elements that were not constructed.
* **C104** `copy_assign_throws_violated` (`Vector/ThrowProps.lean`): C104 is violated by copy assignment in the same way: here from the vector `[4, 13, 6]`.
* **C104** `copying_throws_violated` (`Vector/ThrowProps.lean`): C104 is violated for elements without a move constructor by functions that construct no new element: an exception in `reserve` ends the program, and after one in `erase` the destructor of the vector is undefined.
* **C105** `copy_ctor_throws_violated` (`Vector/ThrowProps.lean`): C105 is violated by the copy constructor in every state: when the copy of an element throws there is no new vector, but the elements copied so far are never destroyed and their storage is never freed. What is left of the promise: all vectors keep their contents.
* **C105** `ctor_sized_throws_violated` (`Vector/ThrowProps.lean`): C105 is violated by `stdb_vector(n)` and `stdb_vector(n, value)` in every state: when the construction of an element throws, the behaviour is undefined, because the base class destroys all `n` elements.
* **C105** `ctor_range_throws_violated` (`Vector/ThrowProps.lean`): C105 is violated by `stdb_vector(first, last)` and the initializer list in every state: when the copy of an element throws, the behaviour is undefined, because the base class destroys from the first element on without knowing the end.
* **C106** `member_pointers_violated` (`Vector/Zero.lean`): C106 is violated for every trivially default constructible type with a pointer to a data member: the elements added by `resize` are not `T()`.
* **C106** `unions_violated` (`Vector/Zero.lean`): C106 is violated for every union with a default constructor or a default member initialiser: its elements have zero bytes instead of what the constructor writes.
* **C107** `c107_violated` (`Arena/Nested.lean`): C107 is violated: an object with a destructor is created and later gets 5000 bytes from the arena's memory resource, as a growing container does; these lie in a second block. Destruction and `Reset` deallocate the second block first and then run the destructor, which uses freed memory.
* **C109** `c109_leak_violated` (`Arena/Reentrant.lean`): C109 is violated: a block obtained by a destructor is never given back (memory leak).
* **C109** `c109_freed_violated` (`Arena/Reentrant.lean`): C109 is violated: a destructor that asks for 8 bytes after a newer block has been given back reads that block through `_last_block` (use after free).
* **C109** `c109_chain_violated` (`Arena/Reentrant.lean`): C109 is violated: a destructor that needs a block, when an earlier one got a block and a block in between has been given back, makes `newBlock` walk through the block given back to count the blocks (use after free).
* **C109** `c109_lost_violated` (`Arena/Reentrant.lean`): C109 is violated: an object handed to `Own` by a destructor during destruction is never deleted.
* **C109** `c109_reset_violated` (`Arena/Reentrant.lean`): C109 is violated at `Reset`: a block obtained by a destructor while a newer block is given up is lost, and a destructor in a middle block reads a block given back.
* **C109** `c109_reset_lost_violated` (`Arena/Reentrant.lean`): C109 is violated at `Reset`: an object handed to `Own` by a destructor of the first block is never deleted, not even when the arena is destroyed later.
* **C110** `c110_violated` (`Arena/TraitsProps.lean`): C110 is violated: a class derived from one with the tag is taken for one with the tag; its string is never destroyed.
* **C111** `c111_violated` (`Arena/TraitsProps.lean`): C111 is violated: `own_arena` of the README, said to be safe from creation in an arena, can be created.
* **C111** `c111_private_violated` (`Arena/TraitsProps.lean`): C111 is violated: the class `with_container` of the README has its tags in its private part and cannot be created.
* **C111** `c111_array_violated` (`Arena/TraitsProps.lean`): C111 is violated: `CreateArray` takes classes with references and constructors.
* **C112** `c112_violated` (`Arena/TraitsProps.lean`): C112 is violated: `Create<std::any>()` does not make an empty `std::any` but one that holds the address of the memory resource.
* **C112** `c112_other_violated` (`Arena/TraitsProps.lean`): C112 is violated: the call compiles, also with another arena, which the object then uses though it lives in this one.
* **C112** `c112_resource_violated` (`Arena/TraitsProps.lean`): C112 is violated: it is asked for constructors with a `polymorphic_allocator` only.
* **C113** `narrow_violated` (`Vector/Ranges.lean`): C113 is violated for all ranges of an array of elements smaller than those of the vector: a `stdb_vector<int>` made from an array of `short` reads beyond the end of the array.
* **C113** `reinterpreted_violated` (`Vector/Ranges.lean`): C113 is violated for all ranges of an array of another type of the same size: the elements are reinterpreted, not converted. A `stdb_vector<float>` made from an array of `int` has the integers' bytes.
* **C113** `segmented_violated` (`Vector/Ranges.lean`): C113 is violated for ranges that do not lie side by side, such as those of a `std::deque`: with the second segment at a higher address the bytes after the first segment are read.
* **C113** `descending_violated` (`Vector/Ranges.lean`): C113 is violated for ranges whose end is not at a higher address, such as those of a `std::deque` whose second segment is at a lower address and those of reverse iterators: nothing is copied, and the new elements are uninitialised.
* **C113** `ranges_converted_violated` (`Vector/Ranges.lean`): C113 is violated.
* **C114** `newblock_calls_violated` (`Arena/HookCallsProps.lean`): C114 violated, for every such execution and every call that obtains memory: whenever the calls of its block hook obtain a block themselves, a block stays allocated after the arena is destroyed.
* **C114** `own_hook_lost_violated` (`Arena/HookCallsProps.lean`): C114 violated: `Own` needs a block, and so does its hook: the destructor that the hook registered is not run, and its block stays allocated.
* **C114** `destruction_hook_violated` (`Arena/HooksProps.lean`): C114 violated, for every arena: whenever a call of `on_arena_destruction` succeeds, a block stays allocated after the destruction, and no destructor the hook registers is run: those run are the ones owed before.
* **C114** `reset_hook_violated` (`Arena/HooksProps.lean`): C114 violated, for every arena: whenever the calls of `on_arena_reset` obtain a block, `Reset` keeps more than one block and the space counter is smaller than the memory held.
* **C114** `newblock_hook_violated` (`Arena/HooksProps.lean`): C114 violated, for every arena: whenever the calls of `on_arena_newblock` obtain a block themselves, that block stays allocated after the arena is destroyed.
* **C114** `destruction_hook_lost_violated` (`Arena/HooksProps.lean`): C114 violated: both destructors are run and both blocks given back, but the block got by the destruction hook is not, and the destructor it registered is not run.
* **C114** `reset_hook_lost_violated` (`Arena/HooksProps.lean`): C114 violated: a reset hook creates an object, which goes into the first block, and then needs a new block: `Reset` rewinds the new block, runs neither the destructor of the object in the first block nor that of the object of the hook, and says 8192 bytes are allocated while it holds 12288.
* **C114** `newblock_hook_lost_violated` (`Arena/HooksProps.lean`): C114 violated: the block hook asks for memory that needs another block, with a destructor: that block is lost, so the destruction of the arena gives back two blocks of three and does not run the destructor.
* **C116** `kept_reference_violated` (`Opt/HandlesProps.lean`): C116, violated: the reference the first registration returns cannot be used after the second registration.
* **C116** `every_reference_dies_violated` (`Opt/HandlesProps.lean`): C116: no reference can be kept for good: whatever the program has done, once enough options have been registered using it is undefined.
* **C118** `logger_optional_violated` (`Arena/CallbacksProps.lean`): C118 is violated: `AllocateAligned(2^64 - 16)` calls the null pointer.
* **C118** `array_logger_violated` (`Arena/CallbacksProps.lean`): C118 is violated in every state: `CreateArray` of too many elements calls the null pointer instead of the logger.
* **C118** `init_logger_violated` (`Arena/CallbacksProps.lean`): C118 is violated: so does the constructor of an arena when there is no memory for its `memory_resource`.
* **C121** `null_terminates_violated` (`Str/MixedProps.lean`): C121 violated: searching for null, or comparing with it by an operator, ends the program.
* **C121** `contains_empty_view_violated` (`Str/MixedProps.lean`): C121 violated: a view that holds nothing, as default-constructed ones do, is contained in every string, but asking for it ends the program.
* **C121** `null_undefined_violated` (`Str/MixedProps.lean`): C121 violated: null given to `starts_with`, `ends_with`, or to `operator+` of a const string is undefined behaviour.
* **C122** `debug_empty_everywhere_violated` (`Str/EmptyEvery.lean`): C122, violated in every state: where small strings are not kept in the object (debug builds on the heap), an empty string whose `data()` is in the object has `capacity()` `cfg.ms`, 23 for `string`; but as soon as any calls have put characters in it, `data()` is in a block on the heap.
* **C122** `shared_moves_everywhere_violated` (`Str/MoveEvery.lean`): C122, C123, violated in every state: if a copy shares the characters of a string, any call, or sequence of calls, that gives the string other characters and leaves the copy alone moves the string: `data()` is another pointer, whatever `capacity()` was.
* **C122** `shared_moves_violated` (`Str/RoomProps.lean`): C122 violated: a string of 300 characters that has a copy needs memory, and moves, for a change of one character or the removal of one.
* **C122** `debug_empty_violated` (`Str/RoomProps.lean`): C122 violated: in debug builds an empty string says it has room for 23 characters, but it needs memory for the first one, and for `reserve(5)`, after which it has room for 5.
* **C122** `replace_own_violated` (`Str/RoomProps.lean`): C122 violated: `replace` with characters of the string itself takes a new buffer, however much room there is, and the room that was reserved is lost.
* **C123** `access_moves_everywhere_violated` (`Str/MoveEvery.lean`): C123, violated in every state: if a copy shares the characters of a string, `s[0]`, `begin()` and so on of the string, even to read only, move it: the pointer taken from `data()` before is no longer the string's; unless memory is refused.
* **C123** `access_moves_violated` (`Str/StayProps.lean`): C123 violated: reading `s[0]` of a string that is not const moves its characters if a copy shares them. A pointer from `c_str()` then is good only as long as the copy.
* **C125** `resize_moves_violated` (`Str/GrowProps.lean`): C125 violated: `resize` makes just the room needed, so making a string longer by one character at a time with `resize` moves all of it every time; thirty times from 300 characters is 9435 characters, for the 330 there are in the end.
* **C126** `subscript_negative_violated` (`Vector/IterProps.lean`): The claim without the restriction to subscripts that are not negative is false: whenever `*(it + n)` is an element before `it`, `it[n]` is undefined.
* **C127** `std_erase_violated` (`Vector/StdErase.lean`): The claim without the restriction is false: an element that is not equal to the value, but to what the value is converted to, is removed.
* **C128** `char_default_violated` (`Opt/Defaults.lean`): The claim for a default given as a `char` is false: the option has the number of the character for its value.
* **C128** `real_default_violated` (`Opt/Defaults.lean`): The claim for floating point defaults is false: all defaults from 0 to below half a millionth are kept as the same text, so that whatever `parse_args` makes of it, at most one of them is found again.
* **C130** `register_after_parse_violated` (`Opt/AgainProps.lean`): An option called `-v` may be registered with a new parser, but not once `parse_args` has been called.
* **C132** `order_violated` (`Opt/Order.lean`): After `--list=` the option `-q` is taken for a value, in the other order it is an option.
* **C133** `resize_moves_violated` (`Vector/GrowProps.lean`): C133 violated: `resize` makes just the room needed. Growing a full vector of `m` elements with `resize`, by one element at a time and `n` times, moves `m + (m + 1) + ... + (m + n - 1)` elements, for every `n`.
* **C134** `spelling_violated` (`Opt/Spelling.lean`): A negative number can be given with `=` only.
* **C136** `shrink_to_fit_violated` (`Str/ShrinkProps.lean`): C136, the violation: on an `arena_string` `shrink_to_fit()` does nothing.
* **C136** `shrink_to_fit_everywhere_violated` (`Str/ShrinkProps.lean`): C136, the violation in every state: an `arena_string` that was given room for `n` characters by `reserve(n)`, however many it has, keeps it when told to `shrink_to_fit()`.
* **C137** `erase_if_throws_violated` (`Vector/EraseThrow.lean`): C137 is violated by elements that are not trivially copyable, in every state: when the predicate throws at the element after one it has chosen, the vector still has its old size, the chosen element has been destroyed, and reading it or destroying the vector is undefined.
* **C138** `own_arena_violated` (`Str/HomeProps.lean`): C138, violated: after `swap` with a string on arena 2, which is then destroyed, a string with the allocator of arena 1 can no longer be read when arena 2 ends.
* **C142** `resize_memory_violated` (`Str/MemProps.lean`): C142 violated: `resize` makes just the room needed, so making a string longer by one character at a time with `resize` takes a new block every time; thirty times from 300 characters takes 9735 bytes, for the 330 there are in the end.
* **C143** `format_violated` (`Str/Convert.lean`): C143 violated: if `fmt` reports an error the program ends, instead of the exception reaching the caller as it does for `std::string`.
* **C144** `default_ctor_violated` (`Str/NoArena.lean`): C144 violated: in a debug build, the default constructor without an arena ends the program, as it is `noexcept`: the exception cannot be caught.
* **C144** `no_arena_violated` (`Str/NoArena.lean`): C144 violated: in a release build the string is made, and will take its memory from the default resource.
* **C146** `comparison_violated` (`Vector/CompareBy.lean`): C146 violated, by elements some of which are not ordered: with `a = {2.0}`, `b = {NaN}`, `c = {1.0}` it is said that `a <= b` and `b <= c`, but `a > c`; and `a <=> b` is equal although `a == b` is false. So a `std::map` or `std::sort` of vectors of floating point numbers goes wrong, without any sign of it: the result type is `std::strong_ordering`.
* **C147** `replace_ends_violated` (`Str/RangeForward.lean`): C147 does not hold for `replace` and `assign` with forward iterators: a range that is at least as long as what it replaces, and throws before it gave as many characters, ends the program, since they are copied by a function that is `noexcept`.
* **C147** `replace_throw_violated` (`Str/RangeForward.lean`): C147 does not hold for `replace` and `assign` with forward iterators: whenever the exception of one comes out, the contents of the string are not what they were, unless the characters given before are those that stood there.
* **C147** `forward_throw_violated` (`Str/RangeProps.lean`): C147 does not hold for forward iterators: whenever a range of them throws, the contents of the string are not what they were.
* **C148** `failed_clone_everywhere_violated` (`Str/CloneEvery.lean`): C148, violated in every state: when an arena has no memory left, `clone()` of a long string that is not shared throws; the string keeps its characters, but counts as shared from then on, though it is the only one that uses its buffer.
* **C148** `failed_clone_violated` (`Str/FirmNewProps.lean`): C148 violated: `clone()` of a long string on an arena counts itself as a copy first; when there is no memory for the characters the call throws, and the string counts as shared for good, though nothing shares it: the next change copies all of it, where it would not have before.
* **C148** `failed_insert_violated` (`Str/FirmProps.lean`): C148 violated: `insert` on a string that shares its characters first makes a copy of its own; when there is no memory for the longer string after that, the call throws and the string is elsewhere than it was, in memory of the arena that is not given back.
* **C149** `write_buffer_throws_violated` (`Vector/FillThrow.lean`): C149 is violated by `get_writebuffer`, in every state: the size has grown before there are elements, so a caller who cannot make all of them leaves a vector with elements that must not be read, nor, if they cannot be moved, destroyed.
* **C150** `refused_memory_violated` (`Arena/Refused.lean`): C150, violated in every state: if the current block has no room and `block_alloc` refuses, the resource returns null instead of throwing, and the container writes through it.

## 5. Mutation tests

`seeded/LOG.jsonl` lists edits of the model as realistic bugs would make them, the claim each
breaks, the theorems that failed to build, and the theorems tightened where none did.

## 6. Building

`lake build` in `lean/` (about six minutes from scratch on four cores).

