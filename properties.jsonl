{"id": "C01", "title": "AlignUpTo rounds up to the next multiple of N", "statement": "AlignUpTo<N>(n) is the least multiple of N that is >= n whenever such a multiple fits in 64 bits; when it does not fit the result is exactly 0.", "quantifier": "all 64-bit n and all powers of two N with 8 <= N <= 2^63", "why_tests_cant": "2^64 inputs for each of 61 legal N; the bit trick (n+N-1)&-N has to be right for every one, and the boundary where it wraps has to be located exactly.", "anchors": ["align/align.hpp: AlignUpTo"]}
{"id": "C02", "title": "AlignUp rounds up to the next multiple of any block size", "statement": "AlignUp(n, b) is the least multiple of b that is >= n for every non-zero b (power of two or not) whenever that multiple fits in 64 bits; otherwise the result is that multiple minus 2^64. b = 0 is undefined behaviour (division by zero).", "quantifier": "all 64-bit n and b", "why_tests_cant": "2^128 input pairs; tests use a few sizes.", "anchors": ["align/align.hpp: AlignUp"]}
{"id": "C03", "title": "Size literals denote their decimal value times the unit", "statement": "N_KB, N_MB, N_GB equal N*2^10, N*2^20, N*2^30 for every decimal digit string whose product fits in 64 bits; any non-digit character is rejected; and when the product does not fit the literal silently wraps modulo 2^64 (it is not rejected).", "quantifier": "all character strings", "why_tests_cant": "the set of literal spellings is infinite; tests check 4_KB, 4_MB, 4_GB.", "anchors": ["memory.hpp: is_digit, stoi_impl, stoi, operator\"\"_KB, operator\"\"_MB, operator\"\"_GB"]}
{"id": "C04", "title": "Every pointer handed out is aligned as requested", "statement": "In every run of API calls each non-null pointer returned by AllocateAligned(bytes, alignment) is a multiple of alignment, and every pointer returned by Create, CreateArray, AllocateAlignedAndAddCleanup or by the memory resource is a multiple of 8 (memory resource: of max(8, alignment)).", "quantifier": "all finite sequences of arena API calls, all block sizes in the options, all behaviours of block_alloc meeting its contract (including failures)", "why_tests_cant": "depends on the residue of block base addresses, which malloc chooses, and on the whole history of earlier allocations in the block.", "anchors": ["arena/arena.hpp: Arena::AllocateAligned, Block::alloc", "arena/arena.cc: Block::AlignPos, Arena::allocateAligned"]}
{"id": "C05", "title": "Every returned region lies inside memory obtained from block_alloc", "statement": "Each region [p, p+bytes) returned since the last Reset lies wholly inside one block currently obtained from block_alloc and not yet given back.", "quantifier": "all finite sequences of arena API calls with in-contract sizes and alignments, all block_alloc behaviours", "why_tests_cant": "an out-of-bounds pointer only shows up when a request lands exactly at a block edge under some base address; the space of histories is unbounded.", "anchors": ["arena/arena.hpp: Block::alloc, Block::has_enough_space, Arena::need_create_new_block", "arena/arena.cc: Arena::newBlock, Arena::allocateAligned"]}
{"id": "C06", "title": "Live allocations never overlap", "statement": "Any two regions returned since the last Reset, by any mix of AllocateAligned, Create, CreateArray, AllocateAlignedAndAddCleanup and the memory resource, are disjoint.", "quantifier": "all finite sequences of arena API calls, all pairs of live regions", "why_tests_cant": "quantifies over all pairs in all histories.", "anchors": ["arena/arena.hpp: Block::alloc", "arena/arena.cc: Arena::allocateAligned"]}
{"id": "C07", "title": "User memory never overlaps the arena's own bookkeeping", "statement": "No live user region intersects a block header or a registered cleanup node, so a client that writes only inside its regions cannot corrupt the block chain or the list of destructors.", "quantifier": "all finite sequences of arena API calls; all live regions against all headers and nodes", "why_tests_cant": "cleanup nodes grow down from the block end towards the bump pointer; a collision needs a particular interleaving of allocations and registrations at the very edge of a block.", "anchors": ["arena/arena.hpp: Block::alloc_cleanup, Block::register_cleanup, Arena::addCleanup, kBlockHeaderSize"]}
{"id": "C08", "title": "In-contract use never asserts and never has undefined behaviour", "statement": "With non-zero block sizes that are multiples of 8, requests of at most 2^62 bytes, alignments 8, 16 or 32 that divide the alignment guaranteed by block_alloc, and no Reset before the first block exists, no sequence of API calls followed by destruction trips an Assert or reaches an undefined operation, in debug or release builds.", "quantifier": "all finite sequences of in-contract arena API calls, all block_alloc behaviours, debug and release", "why_tests_cant": "absence of UB over all histories is not observable by running some of them.", "anchors": ["arena/arena.hpp: Arena (whole class)", "arena/arena.cc: Block::AlignPos, Arena::newBlock"]}
{"id": "C09", "title": "Allocation returns null exactly when block_alloc does, and then nothing changed", "statement": "AllocateAligned returns nullptr only if a new block was needed and block_alloc returned nullptr; in that case SpaceAllocated, the blocks, the remaining space and the pending destructors are unchanged, and no allocation hook fires. A request that fits in the remaining space of the current block always succeeds without calling block_alloc.", "quantifier": "all reachable arena states, all request sizes/alignments in contract, all block_alloc behaviours", "why_tests_cant": "requires fault injection at every possible allocation in every state.", "anchors": ["arena/arena.cc: Arena::allocateAligned, Arena::newBlock", "arena/arena.hpp: Arena::AllocateAligned"]}
{"id": "C10", "title": "Destroying the arena runs every pending destructor exactly once, last registered first", "statement": "When the arena is destroyed, the cleanups registered since the last Reset (by Create of a non-skippable type, Own, or AllocateAlignedAndAddCleanup) run exactly once each, in exactly the reverse of registration order, across block boundaries; nothing else runs.", "quantifier": "all finite sequences of API calls followed by destruction", "why_tests_cant": "number of blocks and nodes is unbounded; order across blocks depends on where each node landed.", "anchors": ["arena/arena.hpp: Block::run_cleanups, Arena::free_all_blocks, Arena::~Arena"]}
{"id": "C11", "title": "Reset runs every pending destructor exactly once, last registered first", "statement": "Reset runs exactly the cleanups registered since the previous Reset, each once, in reverse registration order, and none of them runs again at a later Reset or at destruction.", "quantifier": "all finite sequences of API calls containing any number of Resets", "why_tests_cant": "same as C10 plus arbitrary numbers of Reset cycles.", "anchors": ["arena/arena.hpp: Arena::Reset, Arena::free_blocks_except_head", "arena/arena.cc: Block::Reset"]}
{"id": "C12", "title": "A destructor runs while its object's memory and all older memory is still allocated", "statement": "Whenever the arena invokes a cleanup, no block that contains memory handed out before its registration and since the last Reset has yet been passed to block_dealloc: neither that of the object itself (Create, AllocateAlignedAndAddCleanup) nor what its constructor got from the arena nor what older objects got.", "quantifier": "all finite sequences of API calls including Resets and destruction; all cleanup invocations", "why_tests_cant": "use-after-free here needs the node and the object to be in different blocks, which depends on the exact fill level of the block.", "anchors": ["arena/arena.hpp: Arena::Create, Arena::addCleanup, Arena::free_all_blocks, Arena::free_blocks_except_head"]}
{"id": "C13", "title": "Every block is given back exactly once", "statement": "Over the life of an arena every block obtained from block_alloc is passed to block_dealloc exactly once: never twice, never a foreign pointer, and none is left when the destructor returns.", "quantifier": "all finite sequences of API calls followed by destruction, all block_alloc behaviours", "why_tests_cant": "leaks and double frees must be excluded for all histories and all failure points.", "anchors": ["arena/arena.hpp: Arena::free_all_blocks, Arena::free_blocks_except_head, Arena::~Arena"]}
{"id": "C14", "title": "Reset keeps only the first block and rewinds it", "statement": "Reset frees every block but the first one ever allocated, returns the previous SpaceAllocated, leaves SpaceAllocated equal to the size of that first block, zero cleanup nodes, and SpaceRemains equal to that size minus the 32-byte header.", "quantifier": "all reachable states with at least one block", "why_tests_cant": "unbounded number of blocks.", "anchors": ["arena/arena.hpp: Arena::Reset, Arena::free_blocks_except_head", "arena/arena.cc: Block::Reset"]}
{"id": "C15", "title": "SpaceAllocated equals the memory currently held from block_alloc", "statement": "At every point SpaceAllocated() equals the sum of the sizes requested from block_alloc for blocks not yet deallocated.", "quantifier": "all finite sequences of API calls, all block_alloc behaviours including failures", "why_tests_cant": "an invariant over all reachable states.", "anchors": ["arena/arena.hpp: Arena::SpaceAllocated", "arena/arena.cc: Arena::newBlock"]}
{"id": "C16", "title": "Block size policy", "statement": "A new block asked to hold a request of m (8-aligned) bytes has size max(base, m+32) where base is suggested_init_block_size for the first block, normal_block_size if m+32 fits in it, m rounded up to a multiple of normal_block_size if m+32 <= huge_block_size/4, huge_block_size if m+32 <= huge_block_size, and otherwise the block is exactly m+32; hence the block always has room for the header and the request.", "quantifier": "all option values and all request sizes without 64-bit overflow", "why_tests_cant": "three thresholds and a max over 64-bit values; boundary behaviour for all options.", "anchors": ["arena/arena.cc: Arena::newBlock"]}
{"id": "C17", "title": "Hook accounting is exact", "statement": "on_arena_newblock fires once per block obtained, numbered by the count of blocks then held, with its size; on_arena_allocation fires exactly once per successful AllocateAligned/Create/CreateArray/AllocateAlignedAndAddCleanup with the requested byte count and never for a failed one or for memory-resource allocations; on_arena_reset / on_arena_destruction receive the SpaceAllocated just before and the sum of the unused bytes of all blocks.", "quantifier": "all finite sequences of API calls, all block_alloc behaviours", "why_tests_cant": "event-trace property over all histories.", "anchors": ["arena/arena.hpp: Arena::Create, Arena::CreateArray, Arena::AllocateAligned, Arena::AllocateAlignedAndAddCleanup, Arena::Reset, Arena::~Arena", "arena/arena.cc: Arena::newBlock"]}
{"id": "C18", "title": "check() classifies every address correctly", "statement": "check(p) is BlockHeader / BlockUsed / BlockUnUsed / BlockCleanup / NotContain exactly according to where p falls in the (unique) live block containing it; in particular every byte of every live region is BlockUsed and every byte of a registered node is BlockCleanup.", "quantifier": "all reachable states and all addresses", "why_tests_cant": "all addresses times all histories.", "anchors": ["arena/arena.cc: Arena::check"]}
{"id": "C19", "title": "After Reset the arena behaves like a new one", "statement": "After Reset, the sequence of in-block offsets returned for any sequence of requests is the same as that of a newly constructed arena whose first block is the retained one.", "quantifier": "all reachable states, all subsequent request sequences", "why_tests_cant": "equivalence over all continuations.", "anchors": ["arena/arena.hpp: Arena::Reset", "arena/arena.cc: Block::Reset"]}
{"id": "C20", "title": "A request too large for the address space is refused", "statement": "A request whose size (with rounding and header) exceeds 64 bits returns nullptr and leaves existing allocations intact. (VIOLATED: rounding, has_enough_space and newBlock wrap modulo 2^64; the overflow is only logged.)", "quantifier": "all 64-bit request sizes", "why_tests_cant": "the failing sizes are a few values at the top of a 64-bit range.", "anchors": ["arena/arena.cc: Arena::newBlock, Arena::allocateAligned", "arena/arena.hpp: Block::has_enough_space, Arena::align_size"]}
{"id": "C21", "title": "Alignment-32 requests fit the block created for them", "statement": "A request with alignment 32 never extends past the block that was created for it. (VIOLATED when block_alloc returns memory aligned to 16 only: newBlock does not reserve room for alignment waste.)", "quantifier": "all request sizes, all block base addresses allowed by malloc", "why_tests_cant": "depends on malloc's returned address modulo 32.", "anchors": ["arena/arena.cc: Arena::newBlock, Arena::allocateAligned", "arena/arena.hpp: Block::alloc"]}
{"id": "C22", "title": "CreateArray of an impossible length is refused", "statement": "CreateArray<T>(num) with sizeof(T)*num over 64 bits returns nullptr. (VIOLATED: the overflow is logged and a too-small region is returned, then num objects are constructed in it.)", "quantifier": "all num, all sizeof(T)", "why_tests_cant": "the failing pairs need num > 2^64/sizeof(T).", "anchors": ["arena/arena.hpp: Arena::CreateArray"]}
{"id": "C23", "title": "A constructed object is either returned or destroyed", "statement": "If Create<T> constructs a T that needs destruction, then the destructor is registered and the pointer returned. (VIOLATED when registering the destructor needs a block and block_alloc fails: the object has been constructed, nullptr is returned and its destructor never runs.)", "quantifier": "all reachable states, all block_alloc behaviours", "why_tests_cant": "needs a block_alloc failure exactly between object placement and node placement.", "anchors": ["arena/arena.hpp: Arena::Create, Arena::RegisterDestructor, Arena::addCleanup"]}
{"id": "C24", "title": "Moving an arena transfers its blocks and destructors exactly once", "statement": "After move construction the new arena owns every block, pending destructor and the allocated-space count; destroying the moved-from arena frees no block and runs no cleanup; destroying both frees each block and runs each cleanup exactly once. (The memory resource handed over still refers to the moved-from arena: allocations through it go to the old arena — VIOLATED part.)", "quantifier": "all reachable states of the source arena", "why_tests_cant": "unbounded states; the memory-resource part needs an aliasing argument.", "anchors": ["arena/arena.hpp: Arena::Arena(Arena&&), Arena::get_memory_resource, memory_resource"]}
{"id": "C25", "title": "The memory resource is a conforming arena view", "statement": "do_allocate returns memory with all guarantees of AllocateAligned with alignment max(8, requested); deallocate has no effect on the arena; is_equal holds exactly between resources of the same arena (an equivalence relation).", "quantifier": "all reachable states, sizes, alignments; all pairs of resources", "why_tests_cant": "quantifies over all states and pairs.", "anchors": ["arena/arena.hpp: memory_resource::do_allocate, do_deallocate, do_is_equal"]}
{"id": "C26", "title": "SpaceRemains tells whether the next allocation needs a new block", "statement": "For an arena with a block, AllocateAligned(bytes) with alignment 8 calls block_alloc if and only if bytes rounded up to 8 exceeds SpaceRemains().", "quantifier": "all reachable states, all in-contract sizes", "why_tests_cant": "an iff over all states.", "anchors": ["arena/arena.hpp: Arena::SpaceRemains, Block::remain, Block::has_enough_space"]}
{"id": "C27", "title": "Reset and SpaceRemains need a first block", "statement": "Calling Reset or SpaceRemains on an arena that has not allocated yet is a precondition violation: Reset trips an Assert in debug and dereferences a null block in release; SpaceRemains dereferences null in both. After any successful allocation both are defined.", "quantifier": "all arenas without a block; all arenas with one", "why_tests_cant": "UB cannot be tested for; the complementary safety claim is over all states.", "anchors": ["arena/arena.hpp: Arena::Reset, Arena::SpaceRemains, Arena::free_blocks_except_head"]}
{"id": "C28", "title": "Space accounting is exact", "statement": "At destruction, space_used - space_wasted (hook arguments) = 32 bytes per live block + 16 per pending cleanup + the 8-rounded sizes of all regions placed since the last Reset + alignment padding, where the padding for alignment a is at most a-8 per allocation.", "quantifier": "all finite sequences of API calls", "why_tests_cant": "a conservation law over all histories.", "anchors": ["arena/arena.hpp: Arena::free_all_blocks, Block::remain, Block::alloc"]}
{"id": "C29", "title": "Allocation-size histogram", "statement": "Every allocation of at most 1 MiB is counted in exactly one bucket, the one with the least upper bound >= its size; larger allocations are counted in no bucket; so the buckets sum to alloc_count minus the number of allocations above 1 MiB (not to alloc_count).", "quantifier": "all sequences of allocation sizes", "why_tests_cant": "all sequences of 64-bit sizes.", "anchors": ["arena/metrics.hpp: LocalArenaMetrics::increase_alloc_size_counter, alloc_size_bucket"]}
{"id": "C30", "title": "Reporting conserves every counter", "statement": "report_to_global_metrics adds each local counter (including histograms and the per-location map) to its global counterpart and zeroes the local one: global+local is unchanged per counter, and reporting twice in a row is the same as once.", "quantifier": "all local and global metric states", "why_tests_cant": "27 counters times all 64-bit values, and a map of unbounded size.", "anchors": ["arena/metrics.hpp: LocalArenaMetrics::report_to_global_metrics, LocalArenaMetrics::reset"]}
{"id": "C31", "title": "Concurrent reports lose nothing", "statement": "For any number of threads each performing its reports as a sequence of atomic fetch_adds, every interleaving leaves each scalar and histogram counter of the global metrics equal to the initial value plus the sum of everything the threads had locally (mod 2^64).", "quantifier": "all numbers of threads, all local states, all interleavings of the atomic steps", "why_tests_cant": "a stress test samples a vanishing fraction of interleavings.", "anchors": ["arena/metrics.hpp: LocalArenaMetrics::report_to_global_metrics, GlobalArenaMetrics"]}
{"id": "C32", "title": "Percentages in the report string are cumulative and well defined", "statement": "In string(), when alloc_count > 0 and no counter overflows, the printed percentages are non-decreasing and at most 100; with alloc_count = 0 or destruct_count = 0 it divides by zero (VIOLATED: a fresh process that prints its metrics has undefined behaviour).", "quantifier": "all global metric states consistent with some history", "why_tests_cant": "quantifies over all metric states.", "anchors": ["arena/metrics.hpp: GlobalArenaMetrics::string"]}
{"id": "C33", "title": "Metrics agree with what the arenas did", "statement": "With the metrics probes installed, after any run: alloc_count is the number of successful allocation calls, space_allocated the sum of their byte counts, newblock_count the number of blocks obtained, reset_count and destruct_count the numbers of Resets and destructions, and the per-location counters sum to space_allocated (mod 2^64).", "quantifier": "all finite sequences of arena API calls, all block_alloc behaviours", "why_tests_cant": "joint property of arena and probes over all histories.", "anchors": ["arena/metrics.hpp: metrics_probe_on_arena_init, metrics_probe_on_arena_allocation, metrics_probe_on_arena_newblock, metrics_probe_on_arena_reset, metrics_probe_on_arena_destruction"]}
{"id": "C34", "title": "push_back / emplace_back append exactly one element", "statement": "After push_back(v) or emplace_back(args) the contents are the old contents followed by the new element, whether or not the storage was reallocated; size grows by one; nothing else changes.", "quantifier": "all contents, all capacities, element types that are trivially copyable, movable or copy-only (for types declared Relocatable see C76), both growth paths; elements of at most 128 KiB (for larger ones see C42); while memory lasts (see C75)", "why_tests_cant": "reallocation only at certain sizes; element kinds change the code path.", "anchors": ["container/stdb_vector.hpp: stdb_vector::push_back, stdb_vector::emplace_back, core::realloc_and_emplace_back"]}
{"id": "C35", "title": "insert places elements at the position and shifts the tail", "statement": "insert(pos, v), insert(pos, n, v), insert(pos, first, last), insert(pos, {..}) and emplace yield take(pos) ++ new ++ drop(pos) and return an iterator to the first inserted element, for arguments not aliasing the vector, for every element kind, with and without reallocation. (VIOLATED for insert(pos, 0, v), which should do nothing: debug builds abort, and release builds move the elements from pos on to where they are, which leaves them destroyed or moved from.)", "quantifier": "all contents, positions, counts, capacities, element kinds (for types declared Relocatable see C76); elements of at most 128 KiB (for larger ones see C42); while memory lasts (see C75)", "why_tests_cant": "four regimes (realloc or not, overlap or not) times three element kinds times all sizes.", "anchors": ["container/stdb_vector.hpp: stdb_vector::insert, stdb_vector::emplace, core::move_backward, core::move_forward"]}
{"id": "C36", "title": "erase removes exactly the requested elements", "statement": "erase(pos) and erase(first,last) leave take(first) ++ drop(last), and erase(pos) returns an iterator to the element after the removed one. erase(first,last) with a non-empty range returns an iterator to the removed range's start as the standard requires. (VIOLATED for the range overload: it returns an iterator to the old last position.)", "quantifier": "all contents, all positions and ranges, all element kinds (for types declared Relocatable see C76); elements of at most 128 KiB (for larger ones see C42); while memory lasts (see C75)", "why_tests_cant": "all ranges of all vectors.", "anchors": ["container/stdb_vector.hpp: stdb_vector::erase"]}
{"id": "C37", "title": "erase(value) and erase_if filter the vector", "statement": "erase(v) and erase_if(p) keep exactly the elements not equal to v / not satisfying p in their original order and return the number removed, for v not referring into the vector.", "quantifier": "all contents, predicates, values, element kinds (for types declared Relocatable see C76); elements of at most 128 KiB (for larger ones see C42); while memory lasts (see C75)", "why_tests_cant": "all vectors and predicates.", "anchors": ["container/stdb_vector.hpp: stdb_vector::erase(const T&), stdb_vector::erase_if"]}
{"id": "C38", "title": "resize, assign, clear, pop_back", "statement": "resize(n) / resize(n,v) truncates or pads to exactly n; assign(n,v) (n>0) yields n copies; assign(first,last) of a non-empty range yields that range; clear yields the empty vector; pop_back drops the last element. (assign from an empty range keeps the old size over destroyed elements, and assign(0,v) trips an Assert: VIOLATED parts.)", "quantifier": "all contents, counts, capacities, element kinds (for types declared Relocatable see C76); elements of at most 128 KiB (for larger ones see C42); while memory lasts (see C75)", "why_tests_cant": "all sizes and capacities.", "anchors": ["container/stdb_vector.hpp: stdb_vector::resize, stdb_vector::assign, stdb_vector::clear, stdb_vector::pop_back"]}
{"id": "C39", "title": "Capacity management never changes contents", "statement": "reserve and shrink_to_fit leave the contents unchanged; after reserve(n) capacity() >= n; after shrink_to_fit capacity() = size(); while size() < capacity() push_back does not reallocate (addresses stay valid).", "quantifier": "all contents, capacities, n; types declared Relocatable that are not trivially copyable: as far as C76 allows; elements of at most 128 KiB (for larger ones see C42); while memory lasts (see C75)", "why_tests_cant": "all sizes and capacities.", "anchors": ["container/stdb_vector.hpp: stdb_vector::reserve, stdb_vector::shrink_to_fit, core::realloc_with_old_data"]}
{"id": "C40", "title": "No out-of-bounds or lifetime error in in-contract vector use", "statement": "No sequence of in-contract operations reads an unconstructed element, constructs or assigns outside the allocated storage, destroys an element that is not alive, or leaves size() > capacity().", "quantifier": "all finite sequences of in-contract vector operations, all element kinds (for types declared Relocatable see C76); elements of at most 128 KiB (for larger ones see C42); while memory lasts (see C75)", "why_tests_cant": "memory safety over all histories.", "anchors": ["container/stdb_vector.hpp: core, stdb_vector"]}
{"id": "C41", "title": "Every constructed element is destroyed exactly once", "statement": "At every point of a program the number of constructed elements minus the number of destroyed ones is the number of elements in all vectors, and when all vectors are destroyed every constructed element has been destroyed. (VIOLATED for move-constructible non-relocatable kinds: reallocation, insert and erase move elements and never destroy the moved-from objects.)", "quantifier": "all finite sequences of operations ending in destruction; elements of at most 128 KiB (for larger ones see C42); while memory lasts (see C75)", "why_tests_cant": "a balance law over all histories.", "anchors": ["container/stdb_vector.hpp: move_range_without_overlap, move_range_forward, core::move_backward, realloc_with_move"]}
{"id": "C42", "title": "Growth is geometric, so push_back is amortised O(1)", "statement": "When full, the capacity grows to at least 1.5 times the old one (2x for big vectors) and strictly grows, for sizeof(T) <= 131072; consequently n push_backs into a vector with m elements move at most 3(m+n) elements in total. (VIOLATED for sizeof(T) > 131072: the next capacity of an empty vector is 0. A capacity below the initial one, left by shrink_to_fit, grows to the initial one, which may be less than 1.5 times.)", "quantifier": "all capacities, all element sizes; all n; types declared Relocatable that are not trivially copyable: as far as C76 allows; while memory lasts (see C75)", "why_tests_cant": "asymptotic claim over all n.", "anchors": ["container/stdb_vector.hpp: stdb_vector::compute_next_capacity"]}
{"id": "C43", "title": "Copy, move, swap have value semantics", "statement": "A copied or copy-assigned vector has equal contents and independent storage (mutating one never affects the other); a moved-to vector has the source's contents and the source becomes empty; swap exchanges contents; self-assignment keeps contents.", "quantifier": "all pairs of vectors, all subsequent operations; types declared Relocatable that are not trivially copyable: as far as C76 allows; elements of at most 128 KiB (for larger ones see C42); while memory lasts (see C75)", "why_tests_cant": "independence quantifies over all later mutations.", "anchors": ["container/stdb_vector.hpp: core copy/move constructors and assignments, core::swap"]}
{"id": "C44", "title": "Comparison agrees with lexicographic order", "statement": "== holds iff sizes and all elements are equal; <=> is the lexicographic order, so it is a total order when the element order is.", "quantifier": "all pairs/triples of vectors; types declared Relocatable that are not trivially copyable: as far as C76 allows; elements of at most 128 KiB (for larger ones see C42)", "why_tests_cant": "all triples for transitivity.", "anchors": ["container/stdb_vector.hpp: operator==, operator<=>"]}
{"id": "C45", "title": "Access is bounds-checked where promised", "statement": "at(i) throws exactly when i >= size() (VIOLATED: it aborts in debug builds and reads outside the vector in release builds); operator[](i), front, back, data agree with the contents for valid positions; iterators traverse the contents in order and reverse iterators in reverse order.", "quantifier": "all vectors and indices; elements of at most 128 KiB (for larger ones see C42)", "why_tests_cant": "all indices.", "anchors": ["container/stdb_vector.hpp: stdb_vector::at, operator[], front, back, begin, rbegin"]}
{"id": "C46", "title": "get_writebuffer provides room for the requested elements", "statement": "After get_writebuffer(n) the returned span has n writable slots at the end of the vector inside its storage. (VIOLATED: capacity is computed from n instead of size()+n, e.g. size=cap=16, n=30 gives storage for 30 but extends to 46.)", "quantifier": "all sizes, capacities, n; types declared Relocatable that are not trivially copyable: as far as C76 allows; elements of at most 128 KiB (for larger ones see C42); while memory lasts (see C75)", "why_tests_cant": "fails only in a window of n between capacity-size and capacity growth.", "anchors": ["container/stdb_vector.hpp: stdb_vector::get_writebuffer, compute_new_capacity"]}
{"id": "C47", "title": "Self-aliasing arguments", "statement": "Inserting or erasing by a reference to one of the vector's own elements behaves as if the argument were copied first. (VIOLATED: the argument is read after elements have been moved or overwritten; with room for one more, insert(pos, v[k]) with pos < k always inserts the element before v[k]. Holds for push_back and emplace_back, and for insert, emplace and resize if there is room and the element comes before those that are moved.)", "quantifier": "all vectors, positions and aliased indices; types declared Relocatable that are not trivially copyable: as far as C76 allows; elements of at most 128 KiB (for larger ones see C42); while memory lasts (see C75)", "why_tests_cant": "depends on which element is aliased and whether reallocation happens.", "anchors": ["container/stdb_vector.hpp: stdb_vector::insert(const_iterator, const T&), stdb_vector::erase(const T&), push_back"]}
{"id": "C48", "title": "SSO encoding round-trips", "statement": "The 24-byte representation decodes to what was stored: for a small string of n <= 23 chars category is small and size() = n (including n = 23 where the tag byte doubles as terminator); for a medium/large string with capacity < 2^62 category, size() and capacity() are those stored; the three categories are never confused.", "quantifier": "all n, all contents, all sizes and capacities below 2^62; char widths 1, 2, 4", "why_tests_cant": "2^62 capacities; tag byte overlaps the data.", "anchors": ["string/string.hpp: string_core::category, size, capacity, setSmallSize, setCapacity, smallSize"]}
{"id": "C49", "title": "Copies are independent values", "statement": "A string and its copies (including copies sharing one reference-counted buffer) behave as independent values: any modifying operation on one never changes the contents observed through another. (VIOLATED for writes through pointers: the non-const data() does not unshare, and an iterator taken before a copy was made still writes to the shared buffer.)", "quantifier": "all families of strings produced by any sequence of constructions, copies, moves, swaps, assignments, modifications and destructions", "why_tests_cant": "copy-on-write bugs need particular sharing patterns and sizes above 254.", "anchors": ["string/string.hpp: string_core copy/move ctors, unshare, mutableDataLarge, basic_string"]}
{"id": "C50", "title": "Buffers are freed exactly once", "statement": "Over any sequence of operations on any number of strings ended by destroying all of them, each heap buffer is freed exactly once, never used after being freed; the reference count of a shared buffer always equals the number of strings using it.", "quantifier": "all sequences of operations on all families of strings", "why_tests_cant": "ownership over all histories.", "anchors": ["string/string.hpp: RefCounted::incrementRefs, decrementRefs, destroyMediumLarge, unshare, reserveLarge"]}
{"id": "C51", "title": "In-contract string operations stay in bounds", "statement": "No in-contract operation reads or writes outside the string's inline or heap buffer or reads a freed one; size() <= capacity() always, and the element after the last is the terminator. (VIOLATED for reads in release builds: making a short string from a source at a multiple of 8 reads whole words, up to 7 bytes past the source, so substr can read past the end of the buffer; what it reads there never becomes visible.)", "quantifier": "all sequences of operations, all lengths", "why_tests_cant": "memory safety over all histories and all category transitions.", "anchors": ["string/string.hpp: string_core, basic_string"]}
{"id": "C52", "title": "push_back/append/assign/resize/clear/pop_back/erase/insert/replace implement the standard results", "statement": "Each modifier transforms the contents as std::string specifies (append = concatenation, erase(pos,n) removes min(n,size-pos) chars, insert at pos, replace(pos,n,s) etc.), throws out_of_range exactly when pos > size(), independent of representation category and sharing.", "quantifier": "all contents, positions, counts and arguments not aliasing the string", "why_tests_cant": "all lengths across the 23 and 254 thresholds.", "anchors": ["string/string.hpp: basic_string::append, assign, insert, erase, replace, resize, push_back, pop_back"]}
{"id": "C53", "title": "find returns the first occurrence", "statement": "find(needle, pos) returns the least index i >= pos at which needle occurs, or npos iff there is none; empty needle gives pos iff pos <= size(). The Boyer-Moore style skip never jumps over a match and never reads outside the haystack.", "quantifier": "all haystacks, needles and start positions over any alphabet", "why_tests_cant": "correctness of the skip table over all pairs of strings.", "anchors": ["string/string.hpp: basic_string::find"]}
{"id": "C54", "title": "rfind and find_*_of meet their specifications", "statement": "rfind returns the greatest index <= pos at which the needle occurs; find_first_of / find_last_of / find_first_not_of / find_last_not_of return the least/greatest index in range whose char is / is not in the set; npos iff none.", "quantifier": "all strings, sets and positions", "why_tests_cant": "all strings.", "anchors": ["string/string.hpp: basic_string::rfind, find_first_of, find_last_of, find_first_not_of, find_last_not_of"]}
{"id": "C55", "title": "compare is the lexicographic order", "statement": "compare()<0, ==0, >0 agree with lexicographic comparison of unsigned chars with shorter prefix first; it is a total order consistent with == ; comparison with std::string agrees.", "quantifier": "all pairs/triples of strings", "why_tests_cant": "transitivity over all triples.", "anchors": ["string/string.hpp: basic_string::compare, operator==, operator<"]}
{"id": "C56", "title": "Equal strings have equal hashes", "statement": "hash(a) = hash(b) whenever a == b, independent of representation (small/medium/large, shared or not).", "quantifier": "all pairs of equal strings in any representation", "why_tests_cant": "all representations.", "anchors": ["string/string.hpp: std::hash<basic_string>"]}
{"id": "C57", "title": "Growth never loses characters and is geometric", "statement": "reserve/shrink_to_fit/expandNoinit preserve contents; after reserve(n) capacity() >= n; push_back keeps the buffer or makes the capacity at least 1.5 times as large, so adding n characters one by one to a string of length k moves at most 3*(k+n) characters in total.", "quantifier": "all states and n", "why_tests_cant": "category transitions at 23 and 254.", "anchors": ["string/string.hpp: string_core::reserve, reserveSmall, reserveMedium, reserveLarge, expandNoinit"]}
{"id": "C58", "title": "Self-aliasing arguments of append, assign, replace and insert", "statement": "append(s.data()+i, n), assign, replace and insert with a source range inside the string itself give the result as if the source had been copied first. (VIOLATED for insert, for append(first, last), and for a range that includes the string's own terminator; holds for append, assign and, on the heap, replace, and for insert and append(first, last) of a string that shares nothing and has room, if the source ends before the place of insertion.)", "quantifier": "all strings and all sub-ranges", "why_tests_cant": "depends on whether growth reallocates.", "anchors": ["string/string.hpp: basic_string::append, assign, replaceImpl, insertImpl"]}
{"id": "C59", "title": "contains(needle) means find(needle) != npos", "statement": "contains(sv) is true iff sv occurs in the string. (VIOLATED when the view contains a NUL or is not NUL-terminated: only the part up to the first NUL in memory is searched.)", "quantifier": "all strings and views", "why_tests_cant": "embedded NULs and unterminated views.", "anchors": ["string/string.hpp: basic_string::contains"]}
{"id": "C60", "title": "Length arithmetic is overflow-checked", "statement": "An operation whose result would be too long to be stored throws (length_error or bad_alloc) instead of allocating a short buffer. (VIOLATED for append(n, c) and insert(pos, n, c) when size() + n exceeds 64 bits: no exception, memory outside the string is written.)", "quantifier": "all 64-bit sizes", "why_tests_cant": "values near 2^64.", "anchors": ["string/string.hpp: checked_add, checked_muladd, RefCounted::create, expandNoinit, append"]}
{"id": "C61", "title": "substr / operator+ / starts_with / ends_with / copy", "statement": "substr(pos,n) is the slice and throws iff pos > size(); every overload of operator+ (strings, C strings, characters, lvalues and rvalues) yields the concatenation and changes at most the rvalue operands; at(i) yields the character or throws; front() and back() are the first and last characters; starts_with/ends_with hold iff the prefix/suffix matches; copy(dst,n,pos) writes min(n,size-pos) chars.", "quantifier": "all strings and positions", "why_tests_cant": "all strings.", "anchors": ["string/string.hpp: basic_string::substr, operator+, starts_with, ends_with, copy"]}
{"id": "C62", "title": "arena_string behaves as a value while its arena lives", "statement": "Strings built with an arena allocator have the same value semantics as C49-C52; the buffer a string uses is never freed before the arena; the count of a shared buffer is never less than the number of strings using it. (VIOLATED: swapping strings of different allocators exchanges buffers but not allocators; replace with a source in the string itself and assigning a character to a shared string use a temporary on the default resource, which throws in debug builds and corrupts memory in release builds.)", "quantifier": "all families of arena strings, all operation sequences", "why_tests_cant": "ownership over all histories with two allocators.", "anchors": ["string/arena_string.hpp: arena_string_core, destroyMediumLarge, unshare, swap"]}
{"id": "C63", "title": "Parsing terminates and consumes every argument", "statement": "parse_args ends on every argument vector, with a result or an exception, and stays within argv and the options; each argument is either consumed by an option (as its name or its value) or recorded as invalid, never both, never dropped.", "quantifier": "all argument lists, all sets of registered options", "why_tests_cant": "unbounded inputs.", "anchors": ["optparse/optparse.cc: OptionParser::parse_args, handle_opt", "optparse/optparse.hpp: OptionParser, Option, ValueStore"]}
{"id": "C64", "title": "Leftover arguments are reported in order", "statement": "invalid_args() lists the unconsumed arguments in their original order as the original argv pointers; get_raw_argc() is their number plus one and get_raw_argv() is argv[0] followed by them.", "quantifier": "all argument lists and option sets", "why_tests_cant": "unbounded inputs.", "anchors": ["optparse/optparse.cc: OptionParser::parse_args, invalid_args, get_raw_argc, get_raw_argv", "optparse/optparse.hpp: OptionParser, Option, ValueStore"]}
{"id": "C65", "title": "Option lookup finds the option registered under the name", "statement": "An argument that begins with the prefix character is taken for an option iff its part before '=', trimmed, equals one of its registered names (the long prefix alone names nothing; a last argument that ends in '=' is left over); with ConflictHandler::Replace the latest registration wins, with Error a duplicate name throws.", "quantifier": "all option sets without rejected registrations (see C88) and all names", "why_tests_cant": "all sets of names.", "anchors": ["optparse/optparse.cc: find_opt, add_option, extract_opt_name", "optparse/optparse.hpp: OptionParser, Option, ValueStore"]}
{"id": "C66", "title": "The last store wins and append accumulates", "statement": "For Store options the stored value is the one of the last occurrence; Append collects all values (comma separated ones split) in order; StoreTrue/StoreFalse set the constant; Count counts occurrences. (VIOLATED for flags: a flag followed by a plain argument takes it as its value, stores false and swallows it; so does --flag=true.)", "quantifier": "all argument lists; all option sets in which the options with one destination have the same kind of action", "why_tests_cant": "unbounded inputs.", "anchors": ["optparse/optparse.cc: process_opt, ValueStore", "optparse/optparse.hpp: OptionParser, Option, ValueStore"]}
{"id": "C67", "title": "Precedence: command line over default over environment", "statement": "A value given on the command line is never overridden by a default or the environment; an absent option gets its default if it has one. (The environment variable is consulted only when there is no default. VIOLATED for Count options: the default counts as one more occurrence, also of an option that was given.)", "quantifier": "all argument lists, defaults, environments", "why_tests_cant": "combinatorial.", "anchors": ["optparse/optparse.cc: parse_args, process_opt, ValueStore::user_set", "optparse/optparse.hpp: OptionParser, Option, ValueStore"]}
{"id": "C68", "title": "split and trim", "statement": "split(s, d, skip_empty) with non-empty d yields the pieces between successive leftmost occurrences of d, trimmed; joining is inverse; trim removes exactly leading and trailing whitespace. An empty delimiter never terminates (precondition).", "quantifier": "all strings and delimiters", "why_tests_cant": "unbounded inputs; termination.", "anchors": ["optparse/optparse.cc: split, trim_string", "optparse/optparse.hpp: OptionParser, Option, ValueStore"]}
{"id": "C69", "title": "A choice option only ever stores an allowed value", "statement": "For Type::Choice, any stored value is one of the declared choices. (An invalid choice is silently ignored rather than reported.)", "quantifier": "all argument lists and choice sets", "why_tests_cant": "unbounded inputs.", "anchors": ["optparse/optparse.cc: process_opt", "optparse/optparse.hpp: OptionParser, Option, ValueStore"]}
{"id": "C70", "title": "'--opt=' must not swallow the next option", "statement": "An option argument is never consumed as the value of the preceding option. (VIOLATED: '--opt=' followed by '--other' takes '--other' as the value.)", "quantifier": "all argument lists", "why_tests_cant": "a specific spelling combined with any following argument.", "anchors": ["optparse/optparse.cc: handle_opt, has_value_to_process", "optparse/optparse.hpp: OptionParser, Option, ValueStore"]}
{"id": "C71", "title": "Created objects are aligned for their type", "statement": "Create<T> and CreateArray<T> return memory aligned to alignof(T). (VIOLATED for alignof(T) > 8: the arena always asks for alignment 8; holds for alignment up to 8.)", "quantifier": "all reachable arena states, all object sizes and alignments", "why_tests_cant": "whether a particular over-aligned object is misaligned depends on what was allocated before.", "anchors": ["arena/arena.hpp: Arena::Create, Arena::CreateArray, Creatable"]}
{"id": "C72", "title": "Arenas sharing a block_alloc do not interfere", "statement": "With any number of arenas constructed, used, moved, reset and destroyed in any interleaving over one block_alloc: each arena behaves as if it were alone, memory handed out by different arenas never overlaps, each block is given back exactly once and by an arena that owns it, and when every arena is destroyed no block is left.", "quantifier": "all numbers of arenas, all interleavings of their API calls, all block_alloc behaviours", "why_tests_cant": "unbounded interleavings of several objects.", "anchors": ["arena/arena.hpp: Arena::Arena(Arena&&), Arena::~Arena", "arena/arena.cc: Arena::newBlock"]}
{"id": "C73", "title": "Reporting metrics from several threads is free of data races", "statement": "Threads that each use their own arenas with the metrics probes may report their local metrics to the global metrics at the same time without a data race on the per-location counters.", "quantifier": "all numbers of threads, all schedules, all sequences of allocations, all source locations", "why_tests_cant": "a data race depends on the schedule; a passing run shows one schedule only.", "anchors": ["arena/metrics.hpp: LocalArenaMetrics::report_to_global_metrics, GlobalArenaMetrics::arena_alloc_counter", "arena/metrics.hpp: metrics_probe_on_arena_destruction"]}
{"id": "C74", "title": "Arenas with metrics probes may be moved", "statement": "A program that installs the metrics probes and constructs, uses, moves, resets and destroys arenas never makes a probe dereference a null cookie.", "quantifier": "all numbers of arenas, all interleavings of API calls including moves, all block_alloc behaviours", "why_tests_cant": "unbounded programs; the fault needs the combination of a move with installed probes.", "anchors": ["arena/arena.hpp: Arena::Arena(Arena&&), Arena::~Arena", "arena/metrics.hpp: metrics_probe_on_arena_destruction, metrics_probe_on_arena_allocation"]}
{"id": "C75", "title": "A failed allocation leaves every vector as it was", "statement": "When memory runs out, an operation that needs storage throws std::bad_alloc and every vector keeps its contents, so that the program can go on. (VIOLATED for push_back, emplace_back, assign and copy assignment, after which the vector refers to a null pointer with its old size, and for reserve and resize of a vector without storage, which do not notice the failure. Holds for insert, resize, reserve, shrink_to_fit and fill of a vector with storage and for the constructors.)", "quantifier": "all programs, all vectors, all points at which memory runs out, all element types; types declared Relocatable that are not trivially copyable: as far as C76 allows; elements of at most 128 KiB (for larger ones see C42)", "why_tests_cant": "allocation failure cannot be produced at every point of every program.", "anchors": ["container/stdb_vector.hpp: stdb_vector::push_back, assign, reserve, resize, insert; core::allocate, core::realloc_with_old_data; realloc_with_move"]}
{"id": "C76", "title": "Declaring a type Relocatable changes only the speed", "statement": "A vector of elements whose type is declared Relocatable behaves like a vector of any other elements: every element is constructed before it is assigned to, and is destroyed once. (VIOLATED: push_back into free room and insert in the middle assign to memory without an object; every copy of a vector and every contiguous range duplicates the elements byte by byte without running constructors; erase_if and erase(value) never destroy what they remove. Holds for programs that do not use these.)", "quantifier": "all programs, all Relocatable types that are not trivially copyable; elements of at most 128 KiB (for larger ones see C42); while memory lasts (see C75)", "why_tests_cant": "undefined behaviour that usually goes unnoticed.", "anchors": ["container/stdb_vector.hpp: IsRelocatable, copy_cref, copy_range, core::move_backward, stdb_vector::erase_if"]}
{"id": "C77", "title": "Ranges given by any random access iterators are copied", "statement": "The range constructor, assign(first, last) and insert(pos, first, last) put copies of the elements of the range in the vector whatever the type of the iterators. (VIOLATED: for trivially copyable elements and reverse iterators nothing is copied.)", "quantifier": "all ranges, all vectors, all element types, forward and reverse iterators; types declared Relocatable that are not trivially copyable: as far as C76 allows; elements of at most 128 KiB (for larger ones see C42); while memory lasts (see C75)", "why_tests_cant": "depends on the combination of iterator and element type.", "anchors": ["container/stdb_vector.hpp: copy_from_iterator, stdb_vector(first, last), assign, insert"]}
{"id": "C78", "title": "Operations that add no elements keep the storage", "statement": "erase, erase_if, pop_back, clear, resize to a smaller size, and assignment to an element neither allocate nor free memory, keep data() and capacity(), and so keep references to the remaining elements in front of the change valid.", "quantifier": "all programs, all vectors, all such operations; types declared Relocatable that are not trivially copyable: as far as C76 allows; elements of at most 128 KiB (for larger ones see C42)", "why_tests_cant": "unbounded sequences of operations.", "anchors": ["container/stdb_vector.hpp: stdb_vector::erase, erase_if, pop_back, clear, resize"]}
{"id": "C79", "title": "Storage is owned by exactly one vector and never leaks", "statement": "At every point of a program every allocated block is the storage of exactly one living vector, and when all vectors are destroyed no block is allocated.", "quantifier": "all programs with any number of vectors, including copies, moves, swaps and assignments; types declared Relocatable that are not trivially copyable: as far as C76 allows; elements of at most 128 KiB (for larger ones see C42)", "why_tests_cant": "unbounded programs.", "anchors": ["container/stdb_vector.hpp: core constructors, destructor and assignment, realloc_with_move, core::realloc_and_emplace_back, core::realloc_drop_old_data"]}
{"id": "C80", "title": "A vector never pretends to have more room than was allocated", "statement": "reserve(n) either provides room for n elements or throws, also when n * sizeof(T) exceeds what can be allocated. (VIOLATED when the product exceeds 64 bits: reserve(2^60) of 16-byte elements succeeds with storage of 0 bytes. Holds for vectors with storage when the product fits; vectors without storage do not notice a failure, see C75.)", "quantifier": "all vectors, all n, all element sizes", "why_tests_cant": "sizes of this order cannot be reached by ordinary tests.", "anchors": ["container/stdb_vector.hpp: stdb_vector::reserve, realloc_with_move, core::allocate"]}
{"id": "C81", "title": "A string survives refused memory", "statement": "When an operation that grows a string throws bad_alloc, the string can still be read and destroyed. (VIOLATED when the refused request is a realloc: the old buffer is freed while the string keeps pointing to it.)", "quantifier": "all strings, all growing operations, all points where memory may be refused", "why_tests_cant": "needs allocation failures at particular points; the damage is a dangling pointer.", "anchors": ["string/string.hpp: checkedRealloc, smartRealloc, RefCounted::reallocate"]}
{"id": "C82", "title": "The hash depends on all characters", "statement": "std::hash of a string is computed from all its characters. (VIOLATED for char16_t, char32_t and wchar_t: only the first size() bytes are hashed, so strings that differ in the second half only always collide. Holds for char.)", "quantifier": "all strings of all character types, all hash functions", "why_tests_cant": "hash values of samples do not show what they depend on.", "anchors": ["string/string.hpp: std::hash<basic_string<char16_t>>, std::hash<basic_string<char32_t>>, std::hash<basic_string<wchar_t>>"]}
{"id": "C83", "title": "Failed operations change nothing", "statement": "An operation that throws because memory was refused leaves the contents of every string as they were, except that an assignment or replace may leave its own string with other contents; that string can still be used. (Refused realloc is excluded, see C81.)", "quantifier": "all programs, all operations, all points where memory may be refused", "why_tests_cant": "all points of failure of all operations in all states.", "anchors": ["string/string.hpp: basic_string, string_core"]}
{"id": "C84", "title": "std::to_string gives the contents", "statement": "std::to_string(s) has the same characters as s. (VIOLATED for strings that contain a NUL character: the rest is dropped. Holds without NUL characters.)", "quantifier": "all strings", "why_tests_cant": "embedded NUL characters.", "anchors": ["string/string.hpp: std::to_string(const stdb::memory::string&)"]}
{"id": "C85", "title": "Refused memory is reported by an exception", "statement": "If a call on a string needs memory that is refused, it reports this by an exception that the program can catch; it does not end the process. (VIOLATED: copying a string of 24 to 254 characters, and, for a string that shares its buffer with a copy, writing an element, insert, erase, replace, assign(n, c), appending a range and pop_back end the program by std::terminate, because begin(), the copy constructor and pop_back are noexcept. Holds for all other calls in all states, and for these too, except copying, if the string is not shared. On arenas copying is fine.)", "quantifier": "all reachable states, all operations within their contracts, all sequences of refusals", "why_tests_cant": "the exception has to occur in a shared string at exactly the call that makes the copy; with enough memory all these calls behave alike.", "anchors": ["string/string.hpp: string_core(const string_core&), copyMedium, mutableData, unshare, begin, operator[], insert, erase, replace, assign, append, pop_back, shrinkLarge"]}
{"id": "C86", "title": "Parsing has no undefined behaviour", "statement": "parse_args has no undefined behaviour, whatever the command line. (VIOLATED: a blank value or blank list element for a number option reads an uninitialised variable; an option without names, and a Count option sharing its destination with a stored INT_MAX, are undefined as well. Holds when no number option gets a blank text, options have names and belong to the parser, and counters are not shared.)", "quantifier": "all parsers reachable through the API, all command lines and environments", "why_tests_cant": "the input is chosen by whoever calls the program; reading an uninitialised variable usually goes unnoticed.", "anchors": ["optparse/optparse.cc: parse_string, parse_value, process_opt, OptionParser::parse_args, ValueStore::increment", "optparse/optparse.hpp: OptionParser, Option, ValueStore"]}
{"id": "C87", "title": "Numbers are read as written", "statement": "An integer in the range of the option's type, written in decimal, is stored as that integer. (White space before and any text after the number are ignored, numbers out of range are clamped and texts that are no numbers stored as 0, all without report: VIOLATED as to reporting; negative numbers must be given with '='.)", "quantifier": "all integers, all surrounding texts", "why_tests_cant": "infinitely many inputs; the boundary cases of two types.", "anchors": ["optparse/optparse.cc: parse_string, parse_value", "optparse/optparse.hpp: OptionParser, Option, ValueStore"]}
{"id": "C88", "title": "A rejected registration has no effect", "statement": "If add_option throws, the parser can be used as if the call had not been made. (VIOLATED: the rejected option stays in the parser without an action, so every later parse_args throws, whatever else is called.)", "quantifier": "all reachable parsers, all later calls", "why_tests_cant": "the effect is delayed and holds for all later call sequences.", "anchors": ["optparse/optparse.cc: OptionParser::add_option, parse_args, Option::validate", "optparse/optparse.hpp: OptionParser, Option, ValueStore"]}
{"id": "C89", "title": "Every registered name can be used on the command line", "statement": "A name that add_option accepted, if it contains no '=' and no white space at its ends, is recognised on the command line, alone or followed by '=value'. (VIOLATED for OptionParser(char, ConflictHandler): the long prefix stays '--', so long names are accepted but never recognised; also the name '--' and names with '='.)", "quantifier": "all parsers built without rejected registrations, all names and values", "why_tests_cant": "quantifies over names, prefixes and constructors.", "anchors": ["optparse/optparse.cc: OptionParser::OptionParser, extract_option_type, extract_arg_type, find_opt", "optparse/optparse.hpp: OptionParser, Option, ValueStore"]}
{"id": "C90", "title": "A copied parser works like the original", "statement": "A copy of a parser parses every command line like the original. (VIOLATED when the original no longer exists: the copied options refer to it.)", "quantifier": "all parsers, all command lines, all environments", "why_tests_cant": "a dangling reference is usually still readable.", "anchors": ["optparse/optparse.cc: OptionParser(const OptionParser&), Option, Option::validate", "optparse/optparse.hpp: OptionParser, Option, ValueStore"]}
{"id": "C91", "title": "Typed access succeeds for the registered type", "statement": "If all options with a destination store values of type T, get<T> and get_list<T> on the result succeed: the program is not terminated and nothing is thrown. (VIOLATED for a StoreTrue option registered without type(Bool): --flag=1 stores a text and get<bool>, being noexcept, terminates.)", "quantifier": "all command lines, environments and options", "why_tests_cant": "depends on every way a value can reach the store.", "anchors": ["optparse/optparse.cc: ValueStore::get, ValueStore::get_list, process_opt, parse_value", "optparse/optparse.hpp: OptionParser, Option, ValueStore"]}
{"id": "C92", "title": "The overload of parse_args taking a vector", "statement": "parse_args(args, argv) stays within argv. (VIOLATED on a parser that has not parsed before, where any left-over argument is looked up in an empty span; also get_raw_argv() then reads through a null pointer. Holds when the last parse_args(argc, argv) had more arguments.)", "quantifier": "all reachable parsers and argument vectors", "why_tests_cant": "out-of-bounds reads usually go unnoticed.", "anchors": ["optparse/optparse.cc: OptionParser::parse_args(vector<string>, const char**), get_raw_argv", "optparse/optparse.hpp: OptionParser, Option, ValueStore"]}
{"id": "C93", "title": "Usage and help messages", "statement": "format_help lists the usage message and then every option in order of registration, with all its names, its type and its help text, all help texts in one column; calling it again gives the same text; after a successful parse_args it always succeeds. (VIOLATED: without options it dereferences an end iterator; the usage message is computed once, so options added later are missing from it.)", "quantifier": "all parsers and options", "why_tests_cant": "unbounded sets of options; alignment depends on all of them.", "anchors": ["optparse/optparse.cc: format_help, format_usage, format_opt_names", "optparse/optparse.hpp: OptionParser, Option, ValueStore"]}
{"id": "C94", "title": "The version message", "statement": "format_verison reports the version set by the program, or '<program> : 0.0.0' if none was set. (VIOLATED after parse_args, which forgets the version: from then on it is always '<program> : 0.0.0'.)", "quantifier": "all parsers and command lines", "why_tests_cant": "needs the interaction of two calls for all parsers.", "anchors": ["optparse/optparse.cc: format_verison, add_version_option, parse_args", "optparse/optparse.hpp: OptionParser, Option, ValueStore"]}
{"id": "C95", "title": "getline reads exactly the next line", "statement": "getline(is, str, delim) on a good stream stores the characters before the next delimiter (all that are left if there is none) and leaves the stream right behind the delimiter, with eof and fail set as std::getline does, whatever the length of the line and whatever capacity, sharing or representation the string had. The loop while(getline(is, str, delim)) gives exactly the lines of the text.", "quantifier": "all texts, delimiters, strings reached by any sequence of operations, debug and release builds", "why_tests_cant": "the line is read in pieces into a buffer that grows; lines of every length relative to the capacity.", "anchors": ["string/string.hpp: getline, basic_string::getlineImpl"]}
{"id": "C96", "title": "getline leaves the string usable on streams that are not good or that throw", "statement": "On a stream that has failed, has ended, or throws (exceptions()), getline behaves like std::getline: it reports the failure, and the string holds its old contents or what was read. (VIOLATED: on a failed stream debug builds abort and release builds clear failbit, report success and store a NUL; on an ended stream the string is emptied; if the stream throws at its end the string is left as long as its capacity with leftover characters; with exceptions(failbit) any line longer than the capacity throws.)", "quantifier": "all states of the stream, all strings", "why_tests_cant": "combinations of stream states, exception masks, capacities and line lengths.", "anchors": ["string/string.hpp: getline, basic_string::getlineImpl"]}
{"id": "C97", "title": "operator>> reads the next word", "statement": "is >> str on a good stream skips white space if skipws is set, stores the characters up to the next white space, at most width() of them if it is set, leaves the rest in the stream, sets eof and fail as for std::string and resets width(). (VIOLATED: width() is only reset if the end of the stream was met, so the next extraction is cut as well; for wide characters beyond 255 the classification is undefined behaviour.)", "quantifier": "all inputs of characters below 256, widths, strings", "why_tests_cant": "unbounded inputs and widths.", "anchors": ["string/string.hpp: operator>>(basic_istream&, basic_string&)"]}
{"id": "C98", "title": "operator<< writes the whole string", "statement": "os << str writes the characters of str padded to width() with fill() on the side asked for, and resets width(). (VIOLATED for strings of 2^31 characters or more: up to 2^32 nothing but billions of fill characters is written and the stream goes bad; beyond, only the length modulo 2^32 characters are written, and no error is reported.)", "quantifier": "all strings and stream settings", "why_tests_cant": "needs strings of more than 2 GiB and all widths.", "anchors": ["string/string.hpp: operator<<(basic_ostream&, const basic_string&)"]}
{"id": "C99", "title": "What is written is what is read", "statement": "A string without the delimiter written with << and followed by the delimiter is read back by getline, and a non-empty string without white space followed by white space is read back by >>; what follows is left in the stream. No other string changes.", "quantifier": "all strings below 2^31 characters, all delimiters and white space, all following input", "why_tests_cant": "round trip for all strings.", "anchors": ["string/string.hpp: operator<<, operator>>, getline"]}
{"id": "C100", "title": "A clone shares nothing", "statement": "The string made by clone() shares its characters with no other string, the one it was made from included; all other strings keep their contents. So the two may be used by different threads from then on.", "quantifier": "all strings and clones in all states reached by any sequence of operations, debug and release builds, heap and arena", "why_tests_cant": "sharing is invisible in the contents; a test sees it only if it happens to change one of the strings, and the source may share its buffer with any number of strings.", "anchors": ["string/string.hpp: basic_string::clone, string_core::unshare, string_core copy constructor"]}
{"id": "C101", "title": "Threads whose strings share nothing do not disturb each other", "statement": "If each thread uses only strings of its own, and strings are handed from one thread to another only while they share their characters with no other string, then strings of different threads never share characters; every operation of a thread leaves the strings and buffers of the others as they are and has a result that does not depend on them; and the contents of the strings of a thread are those its own operations give, however the operations of the threads are interleaved.", "quantifier": "all programs of all threads, all interleavings of their operations, all failures of allocations", "why_tests_cant": "interleavings and sharing patterns cannot be enumerated, and a race shows only now and then.", "anchors": ["string/string.hpp: basic_string, string_core::RefCounted, string_core::unshare"]}
{"id": "C102", "title": "Different string objects may be used by different threads, and const functions at once", "statement": "As for std::string, several threads may call const functions of one string at once, copying included, and use different string objects without synchronisation. (VIOLATED: copies of long strings share a count that is not atomic. Two copies made at once leave the count too small, and a copy is read after its buffer was freed; a clone made during a copy lets a later write to the string change the copy; two strings destroyed at once leak their buffer. The comment in the code says so. All const functions except copying and cloning write nothing, and copying a string without counted buffer writes nothing that existed before.)", "quantifier": "all strings and states; interleavings of the reads and writes of the count", "why_tests_cant": "needs an interleaving within one increment.", "anchors": ["string/string.hpp: string_core::RefCounted::incrementRefs, string_core::RefCounted::decrementRefs, string_core copy constructor, basic_string::clone"]}
{"id": "C103", "title": "CROSS_THREAD_CHECKING stops exactly the dangerous uses", "statement": "In a debug build with CROSS_THREAD_CHECKING a program is stopped when a thread changes the count of a buffer shared by another thread's string, and never otherwise. (VIOLATED: only the first copy of a string is marked, so strings sharing a buffer can both be unmarked and be copied and destroyed by different threads; writing an element, which changes the count too, is never checked; strings that share nothing are stopped because of an earlier copy, even for growing. A program in one thread is never stopped; the string first copied and its copy are guarded until they are swapped or made anew, or get a new core by pop_back, reserve, shrink_to_fit or a move assignment.)", "quantifier": "all programs of makes, copies, moves, move assignments, clones, swaps, writes of elements, pop_back, reserve, shrink_to_fit and destructions by any threads", "why_tests_cant": "needs sequences of copies and destructions in several threads.", "anchors": ["string/string.hpp: string_core::cpu_, string_core copy constructor, string_core::~string_core, basic_string::clone"]}
{"id": "C104", "title": "An element constructor that throws leaves the vector usable", "statement": "When the copy or move constructor of an element throws in push_back, emplace_back, insert, resize, assign, reserve, erase or copy assignment, the vector is left in a valid state: every element counted by size() can be read, and the vector can be destroyed; push_back, emplace_back and reserve leave it as it was. (VIOLATED by all functions that construct elements: push_back with room leaves size() one too large and back() unconstructed; a push_back that grows loses all elements; resize, insert, assign and copy assignment leave vectors that cannot be read or destroyed. Holds for reserve and erase when the elements have a move constructor, which must be noexcept; with room push_back keeps the elements from before.)", "quantifier": "all states reached by any sequence of operations, all elements, all patterns of constructors that throw (iterators that throw act alike), debug and release builds; types declared Relocatable that are not trivially copyable: as far as C76 allows; elements of at most 128 KiB (for larger ones see C42)", "why_tests_cant": "a throwing constructor can strike at any element of any operation in any state; the damage shows only when the vector is used or destroyed afterwards.", "anchors": ["container/stdb_vector.hpp: stdb_vector::push_back, emplace_back, insert, resize, assign, reserve, erase; core::realloc_and_emplace_back; construct_range, copy_range, move_range_without_overlap"]}
{"id": "C105", "title": "A vector constructor that fails leaks nothing", "statement": "When the constructor of an element throws in a constructor of stdb_vector, the elements constructed so far are destroyed, the storage is freed, and the other vectors are as they were. (VIOLATED: the copy constructor frees neither storage nor elements; stdb_vector(n), stdb_vector(n, value) and stdb_vector(first, last) destroy elements that were never constructed. The other vectors keep their contents.)", "quantifier": "all states, all sizes, all elements and sources, all elements at which the constructor throws; types declared Relocatable that are not trivially copyable: as far as C76 allows; elements of at most 128 KiB (for larger ones see C42)", "why_tests_cant": "leaks and destructors run on raw memory are not visible in results; the failure can strike at every element.", "anchors": ["container/stdb_vector.hpp: stdb_vector constructors; core copy constructor; core::~core; construct_range, copy_range, copy_from_iterator"]}
{"id": "C106", "title": "New elements of resize(n) and vector(n) equal T()", "statement": "The elements that stdb_vector(n) and resize(n) add equal the value initialised T(), whatever the type T. (VIOLATED: types without a class of their own, unions and trivially default constructible classes are filled with zero bytes. So null pointers to data members, whose representation is not zero, come out as pointers to the first member; and unions with a constructor or a default member initialiser do not get the value it gives. Holds for all other types.)", "quantifier": "all element types built from scalars, pointers to members, classes and unions; all states and sizes; elements of at most 128 KiB (for larger ones see C42); while memory lasts (see C75)", "why_tests_cant": "the set of element types is infinite; a test tries a few.", "anchors": ["container/stdb_vector.hpp: construct_range, IsZeroInitable, stdb_vector::resize, stdb_vector(size)"]}
{"id": "C107", "title": "While a destructor runs, the memory its object got from the arena during its life is still allocated", "statement": "Whenever the arena invokes a cleanup, at destruction or at Reset, all memory handed out since the last Reset is still allocated; so the destructor of a container created in the arena may use the storage the container got from the arena's memory resource as it grew. (VIOLATED: blocks are given back newest first, each right after its own cleanups; a destructor runs when exactly the blocks held at its registration are still held, so later memory in newer blocks is freed before the destructor uses it. Holds for the memory handed out up to the registration and for that in the blocks held then.)", "quantifier": "all finite sequences of API calls including Resets and destruction; all cleanups; all calls made between registration and run", "why_tests_cant": "whether the later memory lies in a newer block depends on how full the block was; the freed block usually still holds the old bytes.", "anchors": ["arena/arena.hpp: Arena::free_all_blocks, Arena::free_blocks_except_head, Arena::Create, Arena::memory_resource::do_allocate"]}
{"id": "C108", "title": "Constructors may call the arena that creates their object", "statement": "A Create whose constructor itself allocates from the arena, creates further objects there (to any depth) or registers cleanups goes through without fault; the object, what its constructor got and all older memory are disjoint and stay allocated; its destructor runs before those of the objects its constructor created, while all their memory is still allocated.", "quantifier": "all finite sequences of API calls; all constructors that make any in-contract calls other than Reset, nested to any depth; all block_alloc behaviours", "why_tests_cant": "the calls of a constructor fall between obtaining the memory and registering the destructor, in every fill level of the block; the constructors are arbitrary code.", "anchors": ["arena/arena.hpp: Arena::Create, Arena::Construct, Arena::RegisterDestructor, Arena::CreateArray"]}
{"id": "C109", "title": "Destructors may call the arena that runs them", "statement": "A destructor that the arena runs, at destruction or Reset, may get memory from that arena and register further destructors: nothing faults, all blocks are given back, and what is registered is run. (VIOLATED: a block obtained by a destructor is never given back; what a destructor registers is never run; and once a newer block has been given back, any request reads that block through the stale pointer to the newest block. Holds when the arena has one block and the memory asked for fits in what remains of it; then destruction is as without these calls.)", "quantifier": "all finite sequences of API calls; all destructors and all calls they make; destruction and Reset", "why_tests_cant": "the freed block usually still holds its bytes, a leaked block is invisible, and which block a destructor sits in depends on all sizes before.", "anchors": ["arena/arena.hpp: Arena::free_all_blocks, Arena::free_blocks_except_head, Arena::Reset, Block::run_cleanups, Arena::need_create_new_block", "arena/arena.cc: Block::Reset, Arena::newBlock"]}
{"id": "C110", "title": "The arena runs the destructor of every object it created unless the class opted out", "statement": "The destructor of each object made by Create runs when the arena is destroyed or Reset, if destroying the object does anything, unless its class has ArenaManagedCreateOnlyTag among its public members; with that tag it is skipped; CreateArray accepts no type whose destruction does anything. (VIOLATED: a class that inherits publicly from one with the tag, and says nothing itself, is skipped too, so its own members are never destroyed. Holds for classes without the tag in a base class, a tag that is not public counting as none.)", "quantifier": "all class types built from scalars, references, members, base classes, tags with any access, destructors and std::variant; all finite sequences of API calls", "why_tests_cant": "the types are infinitely many and the decision is made by overload resolution when the program is compiled; a destructor that is skipped leaves no trace but a leak.", "anchors": ["arena/arenahelper.hpp: ArenaHelper::DestructionSkippable, is_destructor_skippable, ArenaManagedCreateOnlyTag", "arena/arena.hpp: Arena::RegisterDestructor, Arena::CreateArray, TriviallyDestructible"]}
{"id": "C111", "title": "Create accepts tagged classes, simple structs and containers, and nothing else", "statement": "Create accepts every class with one of the two tags as a public member, every trivial type with standard layout, and types constructible from an allocator; it rejects all others; CreateArray accepts trivial types with standard layout only. (VIOLATED: every type with a trivial destructor is accepted by both, also classes with references and constructors such as own_arena, which the README declares safe from being created; the README's with_container has its tags in its private part and is rejected. Holds for classes whose destruction is not trivial.)", "quantifier": "all class types as in C110 with any set of constructors", "why_tests_cant": "a concept is a statement about all types; tests instantiate a few, and a program that should be rejected cannot be in the test suite.", "anchors": ["arena/arenahelper.hpp: Constructable, is_arena_full_managable, is_destructor_skippable", "arena/arena.hpp: Creatable, VariantWithString, Arena::Create, Arena::CreateArray"]}
{"id": "C112", "title": "Create passes the caller's arguments, and this arena exactly to the constructors that want it", "statement": "Create<T>(args...) constructs T(args...), with this arena's memory resource added at the end if T has such a constructor taking an allocator, else with this arena added in front if T has such a constructor taking an Arena&, else with nothing added. (VIOLATED: a constructor that takes anything, such as that of std::any, gets the memory resource though it does not want it; a constructor taking a memory_resource* does not get it; and passing an arena by hand, said to fail, is accepted even when it is another arena.)", "quantifier": "all class types as in C110 with any set of constructors, all argument lists", "why_tests_cant": "the choice depends on the constructors of each type and on the arguments; it is made when the program is compiled.", "anchors": ["arena/arena.hpp: Arena::Construct, Arena::Create, Arena::get_memory_resource"]}
{"id": "C113", "title": "Ranges of other element types and ranges in several pieces are converted element by element", "statement": "The range constructor, assign(first, last) and insert(pos, first, last) put in the vector T(*it) for each iterator it of the range, also when the iterators refer to another type than T and when the elements do not lie side by side, as in a std::deque; they read only the elements of the range. (VIOLATED for element types that are moved with memcpy: from an array of smaller elements, such as a stdb_vector<int> from an array of short, the end of the array is overrun; from an array of elements of the same size, such as a stdb_vector<float> from an array of int, the bytes are reinterpreted; from a deque, memory after its first segment is read, or nothing is copied and the new elements are uninitialised. Holds for element types that are not moved with memcpy, for iterators without random access, and for arrays of T.)", "quantifier": "all memory contents, all ranges, all element sizes and conversions", "why_tests_cant": "reading beyond an array seldom crashes, the results depend on where the allocator put the segments, and every pair of types is another program.", "anchors": ["container/stdb_vector.hpp: copy_from_iterator, get_ptr_from_iter, PointerCompatibleIterator, stdb_vector(first, last), assign, insert"]}
{"id": "C114", "title": "Hooks may use the arena they are given", "statement": "If a hook (on_arena_init, on_arena_newblock, on_arena_reset, on_arena_destruction) allocates memory or creates objects in the arena it is called for, then every block that the arena obtains is given back when the arena is destroyed, every destructor registered by then is run by the next Reset or by the destruction, the request during which the hook was called is served correctly, and SpaceAllocated says what the arena holds.", "quantifier": "all block sizes and block_alloc behaviours within their contracts, all histories of calls before the hook, all lists of calls (other than Reset) that the hook makes, all calls made afterwards", "why_tests_cant": "Which hook calls are harmless depends on whether they happen to fit in the block at hand, so a test hook that makes one small allocation passes; a leak of a block or of a destructor call has no visible effect in a test that does not count them.", "anchors": ["arena/arena.hpp: Arena::Reset, Arena::~Arena, Arena::init, Arena::Options", "arena/arena.cc: Arena::newBlock"]}
{"id": "C115", "title": "References to elements are good until the elements are moved", "statement": "A reference, pointer or iterator to an element of a vector refers to the element at the same position for as long as data() does not change, whatever member functions are called in between; a call that changes data() leaves every reference taken before it dangling; calls on one vector never affect references into another. push_back and emplace_back change data() exactly if the vector was full.", "quantifier": "all programs, all vectors, all in-contract calls, all element kinds; types declared Relocatable that are not trivially copyable: as far as C76 allows; elements of at most 128 KiB (for larger ones see C42); while memory lasts (see C75)", "why_tests_cant": "a dangling reference usually still shows the old value, and whether a call moves the elements depends on the whole history of the vector.", "anchors": ["container/stdb_vector.hpp: stdb_vector::operator[], data, push_back, emplace_back, insert, erase, resize, reserve, shrink_to_fit, assign, fill, get_writebuffer"]}
{"id": "C116", "title": "The reference add_option returns may be kept", "statement": "The reference returned by add_option may be used to set up the option at any time before the parser is used: each setter called through it changes this option and no other. (VIOLATED: the reference is only good until the memory for the options is exchanged. There is memory for 1, 2, 3, 5, 8, 12, ... options, so using the first reference after the second registration is undefined, and so is, after enough registrations, using any reference. add_help_option, add_usage_option, add_version_option and parse_args count as registrations. Holds until the next registration, so for chained setters.)", "quantifier": "all sequences of registrations, setters called through any of the references returned, standard flags and parses, with exceptions caught in between", "why_tests_cant": "whether a kept reference dangles depends on the number of options, and writing through one seldom crashes: the option just keeps its old settings.", "anchors": ["optparse/optparse.cc: OptionParser::add_option, add_help_option, add_usage_option, add_version_option, parse_args, Option", "optparse/optparse.hpp: OptionParser, Option, ValueStore"]}
{"id": "C117", "title": "Hooks may be left out", "statement": "Any of the five hooks of Options (on_arena_init, on_arena_reset, on_arena_allocation, on_arena_newblock, on_arena_destruction) may be a null pointer. Every program then gets the same addresses and values from the arena as with all hooks set, or ends with the same fault, and the functions that are set are called in the same order with the same arguments, from the construction of the arena to its destruction. Without on_arena_init the cookie handed to the other hooks is null.", "quantifier": "All subsets of the hooks, all block sizes, all behaviours of block_alloc that do not depend on the hooks, all finite sequences of calls (also outside their contracts), both builds.", "why_tests_cant": "There are 32 subsets of the hooks and unboundedly many programs for each; a test fixes one subset and one program, and a missing test for null shows only in the combination that reaches it.", "anchors": ["arena/arena.hpp:Arena::Options", "arena/arena.hpp:Arena::init", "arena/arena.hpp:Arena::Reset", "arena/arena.hpp:Arena::~Arena", "arena/arena.cc:Arena::newBlock"]}
{"id": "C118", "title": "The logger may be left out", "statement": "logger_func of Options may be a null pointer (its default): a program that runs with a logger runs without one, with the same results. (Violated: when a size is so large that the arena wants to log it, and when there is no memory for the memory_resource, the null pointer is called.) block_alloc is needed for the first request, block_dealloc once the arena has a block.", "quantifier": "All options without logger, all executions in contract (then it holds), all arenas and all sizes whose product exceeds 64 bits (then it is violated).", "why_tests_cant": "The message is written only for sizes near 2^64 or when memory is exhausted, which tests do not provoke; and the tests use GetDefaultOptions, which has a logger.", "anchors": ["arena/arena.hpp:Arena::Options", "arena/arena.hpp:Arena::CreateArray", "arena/arena.hpp:Arena::init", "arena/arena.cc:Arena::newBlock"]}
{"id": "C119", "title": "Calls whose result fits into the capacity move nothing and need no memory", "statement": "A call on a vector that needs room for at most capacity() elements - the number of elements after push_back, insert, resize, assign, erase, clear and so on, the number asked for with reserve, the size plus the number promised with fill - leaves data() and capacity() as they are and allocates nothing, whatever it does. A sequence of such calls without shrink_to_fit, each within its contract, therefore succeeds even if no memory is left, and pointers and references to element k taken before refer to element k afterwards. In particular this holds after reserve(n) for all calls that need room for at most n elements.", "quantifier": "all vectors in all states; all member functions except shrink_to_fit with all arguments; all sequences of calls of any length; all answers of malloc; all element kinds; types declared Relocatable that are not trivially copyable: as far as C76 allows; elements of at most 128 KiB (for larger ones see C42)", "why_tests_cant": "A test shows that data() stays the same for some sequence after some reserve(); here it is all sequences and all capacities, with a malloc that fails from then on.", "anchors": ["container/stdb_vector.hpp: reserve, push_back, emplace_back, insert, emplace, erase, erase_if, resize, assign, clear, pop_back, fill, get_writebuffer, shrink_to_fit, data, capacity"]}
{"id": "C120", "title": "Comparison operators with C strings and std::string follow the dictionary order", "statement": "The operators ==, !=, <, >, <=, >= and <=> between a string and a C string, a std::string or another string, on either side, compare the characters held in dictionary order (of the unsigned values of the characters). What they answer does not depend on how an operand is held. A C string holds the characters before its NUL; so a string equals its own c_str() exactly if it contains no NUL.", "quantifier": "all operators, all kinds of operands on both sides, all character sequences including those with NULs", "why_tests_cant": "there are dozens of overloads, each with its own code that swaps or negates; a test with a few words per overload does not show that they agree with one order on all pairs.", "anchors": ["string/string.hpp: operator==, operator!=, operator<, operator>, operator<=, operator>=, operator<=>, compare"]}
{"id": "C121", "title": "A null pointer given as a C string is reported by an exception", "statement": "Every member function that takes a C string reads it up to its NUL and nothing beyond, also if it points into the string itself. A null pointer is reported by std::logic_error and changes nothing. (VIOLATED: searching for null with find, rfind, find_first_of and so on, contains(null), and comparing with null by an operator end the program, because these functions are noexcept; contains of an empty default-constructed string_view does so too; starts_with, ends_with and operator+ with null are undefined behaviour. Holds for constructors, assign, append, insert, replace and compare.)", "quantifier": "all C strings (in memory of their own, within any string, null), all strings, all member functions that take one", "why_tests_cant": "the exception is thrown in functions declared noexcept, which nothing but a death test with each of the overloads would show.", "anchors": ["string/string.hpp: traitsLength, find, rfind, find_first_of, find_last_of, find_first_not_of, find_last_not_of, contains, starts_with, ends_with, compare, operator==, operator+, assign, append, insert, replace"]}
{"id": "C122", "title": "String calls whose result fits into capacity() move nothing and need no memory", "statement": "A call that changes the characters of a string - append, +=, push_back, pop_back, resize, clear, erase, insert, replace, assign, =, operator[] - and leaves at most capacity() of them asks for no memory, so it succeeds whatever the allocator would say, and data() and capacity() stay as they are. reserve(n) with n at most capacity() does nothing. After reserve(n) the string has storage of its own for n characters, and any sequence of such calls that never makes it longer than n succeeds and keeps data(). A string with room to spare shares its storage with no copy. (VIOLATED: a long string that has a copy needs new memory, and moves, when one character is changed or removed; in debug builds an empty string says that it has room for 23 characters but asks for memory for the first, and reserve(5) lowers capacity() to 5; replace with characters of the string itself takes a new buffer and loses the room reserved. Holds for strings that share nothing and, in debug builds, have a buffer, and for replace with characters from elsewhere.)", "quantifier": "all strings reached by any program, on the heap and on arenas, debug and release builds; all edits with all arguments; all sequences of edits of any length; all answers of the allocator", "why_tests_cant": "A test shows that data() stays the same for some sequence after some reserve(); here it is all sequences and all capacities, with an allocator that refuses everything from then on.", "anchors": ["string/string.hpp: reserve, capacity, data, push_back, pop_back, append, operator+=, insert, erase, replace, assign, operator=, resize, clear, operator[]"]}
{"id": "C123", "title": "Pointers to the characters of a string are good until the string is changed", "statement": "The pointer that c_str() or data() returned for a string points to its characters and their terminator, and data() is the same, as long as only const functions are called on the string - whatever is done meanwhile to other strings and to copies of this one, also if calls fail - and while its characters are read or written one by one with operator[], at, front, back and iterators. (VIOLATED for long strings that have a copy: reading s[0] or calling begin() of a string that is not const moves the characters, so pointers taken before point to characters of the copy, and to freed memory when the copy is gone. Holds for access to strings that share nothing.)", "quantifier": "all strings reached by any program, on the heap and on arenas; all later sequences of calls on other strings, with the string as argument or source of copies, including calls that throw; all answers of the allocator", "why_tests_cant": "Which string a buffer was shared with, and who gives it up last, depends on the whole history; tests follow one history, and reading freed memory usually gives the right characters.", "anchors": ["string/string.hpp: c_str, data, begin, end, operator[], at, front, back, basic_string"]}
{"id": "C124", "title": "An arena holds at most about twice what was asked of it", "statement": "The memory an arena holds is at most twice the bytes asked for since the last Reset - sizes rounded up to 8, padding of at most alignment - 8 per request, 16 per destructor owed - plus 56 bytes per block and what SpaceRemains() says can still be handed out. The number of blocks is bounded likewise: block_normal_size times the number of blocks but two is at most twice the bytes asked for plus 56 per block. No order of small and large requests makes an arena leave more than this idle in the blocks it has given up.", "quantifier": "all configurations within contract, all block_alloc behaviours, all sequences of in-contract calls of any length, with failures and Resets", "why_tests_cant": "How much is left idle in each block depends on the order of all requests; tests try few orders, and a wasteful one goes unnoticed because everything still works.", "anchors": ["arena/arena.cc: newBlock, allocateAligned", "arena/arena.hpp: need_create_new_block, addCleanup, SpaceAllocated, SpaceRemains, Block::remain"]}
{"id": "C125", "title": "Building a string piece by piece moves linearly many characters", "statement": "However a string that shares its storage with no copy is built by append, += (characters, C strings, ranges, other strings or parts of itself), push_back and insert, mixed with pop_back, erase, clear and s[i] = c, the characters moved to new storage are in all at most three for each character there was or was added: the cost is linear, however the pieces are cut. (VIOLATED for resize: it makes just the room needed, so making a string longer with resize, one character at a time, moves all of it every time - 30 times from 300 characters moves 9435 characters.)", "quantifier": "all strings reached by any program, on the heap and on arenas, debug and release builds; all sequences of such calls of any length with all arguments", "why_tests_cant": "The bound is about sums over whole histories; a test measures one history, and a growth policy that is wrong for one kind of call shows only as slowness.", "anchors": ["string/string.hpp: append, operator+=, push_back, insert, resize, string_core::expandNoinit"]}
{"id": "C126", "title": "Iterators of a vector are positions", "statement": "Whatever a program does with iterators of vectors (begin, end, copy, move, ++, --, +=, -=, +, -): as long as the positions stay between 0 and the size, nothing is undefined, *it is the element at the position of it, it[n] is *(it + n), and differences, comparisons and equality of iterators into one vector are those of their positions; a loop from begin() until it == end() ends after size() turns and sees the elements in order, one from rbegin() until rend() in reverse order. (VIOLATED: the argument of it[n] is unsigned, so that it[-1] is undefined although *(it - 1) is an element.)", "quantifier": "all reachable vectors, all programs of iterator operations, all positions and distances; types declared Relocatable that are not trivially copyable: as far as C76 allows; elements of at most 128 KiB (for larger ones see C42)", "why_tests_cant": "Needs all sequences of iterator operations, the null pointers of vectors without storage, and undefined pointer arithmetic that happens to work on usual machines.", "anchors": ["container/stdb_vector.hpp: IteratorT, begin, end, cbegin, cend, rbegin, rend, crbegin, crend"]}
{"id": "C127", "title": "std::erase compares with the value it is given", "statement": "std::erase(v, value) removes the elements x of v with x == value, keeps the others in order and returns how many it removed. (VIOLATED when value has another type than the elements: it is converted to the type of the elements first, so that std::erase(bytes, 259) removes the bytes 3, although none of them equals 259.)", "quantifier": "all vectors, all values of all types that convert to the type of the elements; types declared Relocatable that are not trivially copyable: as far as C76 allows; elements of at most 128 KiB (for larger ones see C42); while memory lasts (see C75)", "why_tests_cant": "Depends on pairs of types and on the few values on which their conversion is not exact.", "anchors": ["container/stdb_vector.hpp: std::erase(stdb_vector<T>&, const U&), stdb_vector::erase(const T&)"]}
{"id": "C128", "title": "A default given as a number is the value of the option", "statement": "An option that is not on the command line and was given a default as a bool, int or int64_t of its own type has exactly this value: get returns the number itself. (VIOLATED for defaults of type char: default_value(';') makes the default the text 59. VIOLATED for float and double: the default is kept with six digits after the point, at most half a millionth off, so that for example all defaults below half a millionth become 0.)", "quantifier": "all parsers, all command lines without the option, all numbers in the range of the type", "why_tests_cant": "Needs all numbers to be written and read back, and all other options and arguments to be without influence.", "anchors": ["optparse/optparse.cc: Option::default_value, OptionParser::parse_args, parse_value, parse_string", "optparse/optparse.hpp: OptionParser, Option, ValueStore"]}
{"id": "C129", "title": "A parser may be used again", "statement": "parse_args may be called any number of times on one parser, with any arguments and environments: each call returns the values, throws the exception and reports the left over arguments that a parser with the same options would that has not been used before, even if earlier calls threw.", "quantifier": "all parsers that are not copies, all sequences of parse_args calls before, successful or not, all command lines and environments", "why_tests_cant": "Each call changes the parser (destinations are filled in, flags are added, the program name is kept); tests parse once, or a second time on one sample.", "anchors": ["optparse/optparse.cc: OptionParser::parse_args, Option::validate, add_usage_option, add_help_option, add_version_option", "optparse/optparse.hpp: OptionParser, Option, ValueStore"]}
{"id": "C130", "title": "Parsing does not take names away", "statement": "Which options may be registered with a parser, and what add_option throws otherwise, does not change when parse_args is called. (VIOLATED for the names of the built-in flags -u, -h, -v, --usage, --help and --version: an option called -v can be registered before the first parse_args, but throws afterwards. Holds for all other names.)", "quantifier": "all parsers, all command lines, all lists of names", "why_tests_cant": "Tests register first and parse then.", "anchors": ["optparse/optparse.cc: OptionParser::parse_args, OptionParser::add_option, add_usage_option, add_help_option, add_version_option", "optparse/optparse.hpp: OptionParser, Option, ValueStore"]}
{"id": "C131", "title": "Left over arguments hide no option", "statement": "The arguments get_raw_argv() returns, given once more to a parser with the same options, are all left over again, and the values (or the exception) are those of an empty command line: what is passed on to another consumer contains nothing that this parser would have understood.", "quantifier": "all parsers that are not copies, all command lines that parse, all environments for the second parse", "why_tests_cant": "Whether an argument is taken up depends on its neighbours, and leaving arguments out changes the neighbours; tests cannot try all command lines.", "anchors": ["optparse/optparse.cc: OptionParser::parse_args, invalid_args, get_raw_argv, handle_opt", "optparse/optparse.hpp: OptionParser, Option, ValueStore"]}
{"id": "C132", "title": "The order of options does not matter", "statement": "Two parts of a command line, each beginning with an option, that concern different destinations can be exchanged: the values of all destinations are the same, and the same arguments are left over. (VIOLATED if a part ends with an argument --name=: it takes up the first argument of the next part, so --list= -q does not set quiet but -q --list= does. Holds if neither part ends so.)", "quantifier": "all parsers, all pairs of parts of command lines, all environments", "why_tests_cant": "Relates the results for two different command lines; all pairs of parts and all combinations of options would have to be tried.", "anchors": ["optparse/optparse.cc: OptionParser::parse_args, handle_opt, process_opt", "optparse/optparse.hpp: OptionParser, Option, ValueStore"]}
{"id": "C133", "title": "Building a vector piece by piece moves linearly many elements", "statement": "However a vector is built by push_back, emplace_back, insert, emplace (single elements, counts, ranges), fill and get_writebuffer, mixed with erase, erase_if, pop_back, clear and v[i] = x, the elements moved to new storage are in all at most three for each element there was or was added. (VIOLATED for resize: it makes just the room needed, so making a full vector of m elements longer with resize, by one and n times, moves m + (m+1) + ... + (m+n-1) elements, for every n.)", "quantifier": "all reachable vectors, all element types up to 128 KiB, all sequences of such calls within their contracts with all arguments; types declared Relocatable that are not trivially copyable: as far as C76 allows", "why_tests_cant": "The bound is about sums over whole histories with several kinds of calls; a test measures one history, and a growth policy that is wrong for one kind of call shows only as slowness.", "anchors": ["container/stdb_vector.hpp: compute_next_capacity, compute_new_capacity, push_back, emplace_back, insert, emplace, fill, get_writebuffer, resize"]}
{"id": "C134", "title": "The spellings of an option are interchangeable", "statement": "Writing an option with its value as --name=value, as --name value or as --name= value, and under whichever of its names, makes no difference: the parse gives the same values (or fails in the same way) and leaves the same arguments over, whatever comes before and after. (VIOLATED if the value begins with the prefix character: --num=-5 gives -5, --num -5 is an exception; if the value is empty: --name= takes up the next argument; and if the argument before ends in = and so takes up the name.)", "quantifier": "all parsers, all options and all their names, all values not empty and not looking like an option, all command lines before and after, all environments", "why_tests_cant": "Relates the results for pairs of command lines; options of every type and action would have to be tried in every context.", "anchors": ["optparse/optparse.cc: OptionParser::parse_args, handle_opt, process_opt, extract_name, extract_value", "optparse/optparse.hpp: OptionParser, Option, ValueStore"]}
{"id": "C135", "title": "A vector has room for at most twice as many elements as were ever asked for", "statement": "Whatever a program does with its vectors, capacity() of each is at most the larger of 64 bytes' worth of elements (at least one) and twice the largest number of elements any operation of the program asked room for: the size given to a constructor, to resize or assign, the number copied, the size after push_back, emplace_back, insert, fill or get_writebuffer, the capacity given to reserve.", "quantifier": "all element types up to 128 KiB, all programs of any number of vectors, of all operations within their contracts, with all arguments, while memory lasts; types declared Relocatable that are not trivially copyable: as far as C76 allows", "why_tests_cant": "The bound is over all histories; a policy that adds up or squares shows only after unusual mixtures of calls, as memory use that no test asserts.", "anchors": ["container/stdb_vector.hpp: compute_next_capacity, compute_new_capacity, reserve, realloc_with_old_data, realloc_and_emplace_back, realloc_drop_old_data, shrink_to_fit, operator=, swap"]}
{"id": "C136", "title": "shrink_to_fit gives back the spare room", "statement": "After s.shrink_to_fit() returns, s.capacity() is at most the larger of what the object itself holds and half as many characters again as s.size(); the characters are the same. On an arena_string it does nothing: the room stays.", "quantifier": "string and arena_string, all character widths, all configurations, all states a program can reach, all strings, while memory lasts", "why_tests_cant": "The capacity depends on how the string was made, on sharing and on the size class; a test sees a few sizes, and the tests of the library check only that the contents survive.", "anchors": ["string/string.hpp: shrink_to_fit, capacity, swap, string_core(data, size), initSmall, initMedium, initLarge"]}
{"id": "C137", "title": "A predicate that throws in erase_if leaves the vector usable", "statement": "When the predicate passed to erase_if, or the comparison that erase(value) makes, throws, the vector is left in a valid state: every element counted by size() can be read, and the vector can be destroyed; the other vectors are as they were. (VIOLATED for element types that are not trivially copyable: the elements chosen so far have been destroyed, or have had others moved into their place, but size() is still the old one, so that reading a destroyed element or destroying the vector is undefined. Holds for trivially copyable types, where the elements kept so far are at the front and some appear twice; and nothing has happened when the predicate throws before it has chosen an element.)", "quantifier": "all states reached by any sequence of operations, all element types, all predicates and all elements at which they throw; types declared Relocatable that are not trivially copyable: as far as C76 allows; elements of at most 128 KiB (for larger ones see C42)", "why_tests_cant": "The exception can strike at every element, after every pattern of kept and chosen ones; the damage shows when the vector is destroyed, as a destructor run on dead memory.", "anchors": ["container/stdb_vector.hpp: erase_if, erase(const value_type&)"]}
{"id": "C138", "title": "A string on an arena needs that arena only", "statement": "get_allocator() of a string is the allocator it was made with: the one given, for copies, clones, moves, substr and operator+ that of the string they are made from, after move assignment that of the source, and no other call changes it. The characters are in the object or in memory of that allocator. So when an arena ends that is the allocator of no string alive, all strings still read as they should and can be used, also those whose characters came from strings on the arena that ended. (VIOLATED by swap of strings with different allocators, which exchanges the buffers but not the allocators: a string with the allocator of one arena then becomes unreadable when the other arena ends. Holds for programs that swap only strings with the same allocator.)", "quantifier": "all programs over any number of strings and arenas, with exceptions for want of memory and ends of arenas anywhere, debug and release builds", "why_tests_cant": "A test runs a few calls before it ends an arena; memory freed too early mostly still holds the old characters, and which call let a buffer cross from one arena to another shows only when that very arena ends.", "anchors": ["string/string.hpp: get_allocator, swap, operator=, arena_string, basic_string(const basic_string&), substr, Arena::~Arena, Arena::Reset"]}
{"id": "C139", "title": "Strings and objects on one arena do not get in each other's way", "statement": "A program may use one arena both for strings and for anything else, in any order: every string reads as it should, and if its characters are in the arena, then all capacity() + 1 of them are in one piece of memory that the arena gave out for this string, in a block it holds, beginning at a multiple of 8. No byte of them belongs to memory the program got from the arena itself, nor to a string with another buffer, nor to the arena's own data (check() says BlockUsed). Reset is allowed as soon as no string has its characters in the arena.", "quantifier": "all interleavings of arena calls within their contracts and string calls, with any block_alloc, memory refused anywhere, swaps, copies that share, and Reset; all character widths, debug and release builds", "why_tests_cant": "The two classes are tested apart; whether a byte of a string also belongs to an object depends on the sizes of all requests so far, and an overlap shows only when both are written.", "anchors": ["string/string.hpp: arena_string, Arena::get_memory_resource, memory_resource::do_allocate, Arena::AllocateAligned, Arena::Create, Arena::check, RefCounted::create, capacity, data"]}
{"id": "C140", "title": "Capacities stay within half as much again as the longest contents", "statement": "In a program in which no string is ever longer than N characters and nobody calls reserve with more than R (a getline counts as asking for 63), no string ever has a capacity() above the largest of R, twice what fits in the object itself, and 1 + (N - 1) * 3 / 2. However long the program runs, and however often strings are emptied, filled again, copied, swapped and read from streams, capacities do not creep up; the bound is met. Calls that make a string, lengthen or shorten it or ask for room may fail for lack of memory and be caught, refused reallocs (C81) apart: what they asked for in vain does not count.", "quantifier": "all programs of any length over any number of strings with all modelled operations, for all N and R, in states reached by successful calls and by caught failures of the calls named; all character widths, strings on the heap and on arenas, debug and release builds", "why_tests_cant": "A test runs one sequence of calls and looks at a capacity; creeping shows only in long runs of a particular mixture of calls, such as clear and append in turn, and no finite set of runs bounds the next one.", "anchors": ["string/string.hpp: basic_string, capacity, reserve, append, push_back, insert, assign, replace, resize, erase, getline, operator>>, operator+, shrink_to_fit, string_core::expandNoinit, string_core::reserve, arena_string_core::expandNoinit"]}
{"id": "C141", "title": "A string may be moved in memory byte by byte", "statement": "basic_string says of its objects that they are relocatable (IsRelocatable). Copying the bytes of a string to a place where no object is and forgetting the old place never fails, and leaves the memory exactly as calling the move constructor for the new place and the destructor for the old one would. So in a program that relocates strings, whenever and however often, all strings have the contents they should have, calls on them do what they should, no buffer is lost or freed twice, and pointers to characters stay good unless these are in the object itself.", "quantifier": "all reachable states, all strings, small, with a buffer of their own and with a shared one; programs of any length with calls that fail, and relocations anywhere in between; heap and arenas, all character widths, debug and release builds", "why_tests_cant": "Whether bytes may be moved depends on what is stored in the object in every state it can get into; a pointer into the object itself shows only when the old place is used for something else, so a test may pass by luck.", "anchors": ["string/string.hpp: basic_string, IsRelocatable, string_core, arena_string_core, ~string_core, MediumLarge"]}
{"id": "C142", "title": "Building a string on an arena takes memory linear in its greatest length", "statement": "Memory on an arena is not given back before the arena is reset, so every block a growing string leaves behind stays taken. However a string that shares nothing is built by append, +=, push_back and insert, mixed with pop_back, erase, clear and s[i] = c, and however many such calls are made, the bytes it asks of its allocator in all are at most six times the bytes of its contents when they were longest, and 312 more. A string that is filled and emptied again and again as a buffer does not use up the arena, and neither do calls that fail for lack of memory when the program goes on. Building with resize should be as good, but is not: every call takes a new block with just the room needed.", "quantifier": "all programs of any length of those calls on one string, going on after calls that fail for lack of memory, from any reachable state in which the string shares nothing, all contents and character widths, all answers of the allocator, debug and release builds", "why_tests_cant": "A test can add up the requests of one run; that the blocks left behind sum up to a fixed multiple for every mixture of calls, however long, needs the growth rule summed over all runs.", "anchors": ["string/string.hpp: arena_string_core::expandNoinit, arena_string_core::reserve, arena_smartRealloc, basic_string::append, push_back, insert, erase, clear, resize, Arena::memory_resource::do_deallocate"]}
{"id": "C143", "title": "Conversions to and from std::string and string_view, and formatted output, lose nothing and report errors", "statement": "The string_view of a string has its length and shows its characters for as long as only const functions are called on the string, even while other strings, copies of it among them, are changed or destroyed. toStdString gives all the characters, those of value 0 too, and changes nothing. A string made from the characters of a std::string or of a view and converted back gives the same characters. Formatting a string with fmt gives what fmt makes of its characters. An error fmt reports should reach the caller as it does for std::string, but does not: format is noexcept and the program ends.", "quantifier": "all strings in all reachable states, all contents, lengths, widths of character and allocators, all later calls that leave the string alone, every behaviour of fmt, debug and release builds", "why_tests_cant": "A test converts a few strings; that a view stays good through any later calls on strings that share its block, and that no error of fmt can be caught, is about all of them.", "anchors": ["string/string.hpp: basic_string::operator std::basic_string_view, basic_string::toStdString, toStdString, fmt::formatter::format (string/string.hpp, string/arena_string.hpp)"]}
{"id": "C144", "title": "An arena_string that is given no arena is refused", "statement": "An arena_string made without an allocator, or with one that belongs to no arena, would take its memory from the default resource, so the library means to refuse it with an exception. Making one from a std::string alone throws in every build, leaves no string and no memory behind, and all strings there are hold what they held; a heap string made from a std::string holds its characters. In debug builds the constructors from characters throw and change nothing. But the default constructor is noexcept, so in debug builds the program ends instead, and in release builds the string is made and quietly uses the default resource. With an arena the default constructor never fails and gives an empty string.", "quantifier": "all reachable states of programs of strings, all contents and character widths, every behaviour of the allocator, debug and release builds", "why_tests_cant": "A test sees the exception for one text; that no memory stays behind when a constructor that has already made its block throws, for all lengths and all refusals of memory, needs every path of the constructor followed.", "anchors": ["string/string.hpp: basic_string::basic_string(), basic_string(const std::basic_string&), arena_string_core constructors (string/string.hpp, string/arena_string.hpp)"]}
{"id": "C145", "title": "A vector of owners releases what they own exactly once", "statement": "Moved-from elements are never destroyed (C41), which is harmless when they own nothing, as with unique_ptr or a string. For elements that own something while they have a value it then holds that nothing is released twice and nothing is forgotten: no destructor and no assignment ever meets a moved-from element; every value left in storage is an element of exactly one vector, so none is left behind outside the vectors; and when all vectors are gone, every element ever made has either been destroyed while it had its value or been moved from, once, and all storage has been freed.", "quantifier": "all programs of any length within the contract over any number of vectors, all operations of the vector model, element types with a move constructor or only a copy constructor; elements of at most 128 KiB (for larger ones see C42); while memory lasts (see C75)", "why_tests_cant": "A test can count releases in the runs it makes; that no sequence of insertions, erasures, reallocations, copies, moves and swaps forgets a value or meets a shell needs an invariant over all of them.", "anchors": ["container/stdb_vector.hpp: stdb_vector, stdb_vector_core, destroy_ptr, destroy_range, move_range_without_overlap, move_range_forward, move_range_backward, copy_cref, stdb_vector_core::~core, erase, insert, realloc_with_old_data, realloc_and_emplace_back"]}
{"id": "C146", "title": "Comparisons of vectors are as coherent as those of their elements", "statement": "Comparing two vectors of elements with any comparison operators never fails: a == b says that the sizes are the same and no two elements at the same place differ, a <=> b gives the dictionary order that < and > of the elements make. If the elements have an order up to equivalence, so have the vectors: b <=> a is the opposite of a <=> b, a <= b and b <= c give a <= c, and if elements differ exactly when one is less then a == b exactly when a <=> b is equal. (VIOLATED for elements of which some are not ordered, as floating point numbers with NaN: for {2.0}, {NaN}, {1.0} it is said that a <= b, b <= c and a > c, and that a <=> b is equal though a == b is false; std::vector says unordered, here the result type is strong_ordering. So sorting such vectors, or using them as keys of a map, goes wrong.)", "quantifier": "all reachable states, all pairs and triples of vectors of any lengths, all element types with any operators <, > and != that return normally; the laws of order for all operators that form a strict weak order; types declared Relocatable that are not trivially copyable: as far as C76 allows", "why_tests_cant": "A test compares samples; that transitivity and symmetry hold for all triples of vectors of all lengths, from the laws of the elements alone, needs an induction.", "anchors": ["container/stdb_vector.hpp: operator==, operator<=>"]}
{"id": "C147", "title": "A range is taken as a whole or not at all", "statement": "A string can be made from, assigned, or have inserted, appended or replaced by a range of single pass iterators, each read once. It then holds the characters the range gave, where they belong; if an iterator throws, that exception comes out and every string holds what it held, also those that share characters with the one called; a string under construction is not left behind. If memory is refused nothing changes either (unless it was a realloc, C81). (VIOLATED for insert and append of forward iterators that throw: the room is made first, so the string stays longer by the whole length of the range, with characters between that nobody gave or that were never written; the other strings are unharmed and the string can be destroyed. VIOLATED for replace and assign of forward iterators: a range at least as long as what it replaces that throws before it gave as many characters ends the program, because the function that copies them is noexcept; one that throws later leaves a gap as insert does; a shorter one leaves the characters it gave in place of as many old ones. The constructor from forward iterators does hold.)", "quantifier": "all histories of calls of all string operations and of calls with ranges, going on after exceptions of iterators and of the allocator; all ranges of any length that throw at any place; heap and arena strings, debug and release builds, all character widths, all answers of the allocator", "why_tests_cant": "A test throws at a few places in a few strings; that no place leaves a trace, whatever the storage of the string and whoever shares it, is a statement over all histories.", "anchors": ["string/string.hpp: basic_string::insertImpl (input_iterator_tag, forward_iterator_tag), basic_string::replaceImpl (input_iterator_tag, forward_iterator_tag), string_detail::copy_n, basic_string::append(InputIterator, InputIterator), basic_string::assign(ItOrLength, ItOrChar), basic_string(InIt, InIt, const A&)"]}
{"id": "C148", "title": "A call that failed for lack of memory has not happened", "statement": "When append, +=, push_back, resize, reserve or shrink_to_fit throws because memory was refused, nothing has happened at all, whether the string shares its characters or not: data() and capacity() of every string are what they were, every string shares what it shared, every pointer and iterator into any string still reads what it read, and no block has been taken or given back. The same holds for insert on a string that shares nothing, for every way to make a new string (from characters, copies of a character, a copy, substr, +), and for clone() of a string on the heap. (VIOLATED in three ways: after a refused realloc, C81, which only strings on the heap make; and by insert on a string that shares its characters, which first makes a copy of its own and stays there when the call then throws, so iterators got before point into another string and the memory taken from the arena stays taken; and by clone() of a long arena_string, which counts itself as a copy first and is not discounted when it throws, so the string counts as shared for good and the next change copies all of it.)", "quantifier": "all reachable states of any number of strings, also after earlier failures; all calls with any arguments, including parts of the string itself; all answers of the allocator; heap and arena strings, debug and release builds, all character widths", "why_tests_cant": "A test refuses a few requests and looks at the contents; that no request refused at any point in any state moves a string, changes its room or keeps a block is a statement over all states.", "anchors": ["string/string.hpp: basic_string::append, basic_string::push_back, basic_string::insert, basic_string::clone, basic_string::substr, operator+, string_core::expandNoinit, arena_string_core::expandNoinit, reserveSmall, reserveMedium, reserveLarge, smartRealloc, arena_smartRealloc"]}
{"id": "C149", "title": "A function that cannot fill a vector does not harm it", "statement": "If the function given to fill throws - when it is asked how many elements there will be, or while it makes them, having destroyed those it had made - the exception reaches the caller, every vector holds the elements it had, and the program can go on with all of them; the vector may have more room than before. (VIOLATED for the room obtained by get_writebuffer(n): the size has grown by n before there are elements, so if the caller cannot make them all the vector contains elements that must not be read, and if they cannot be moved the destructor of the vector is undefined behaviour.)", "quantifier": "all reachable states, all element types, fill with and without Safety::Unsafe, all promised numbers that fit, all elements made before the exception; for get_writebuffer all states, all sizes with room, all numbers of elements made; types declared Relocatable that are not trivially copyable: as far as C76 allows", "why_tests_cant": "The exception may come in any state, at any element, with or without a reallocation; that all later calls still work is a statement about all continuations.", "anchors": ["container/stdb_vector.hpp: fill, get_writebuffer"]}
{"id": "C150", "title": "A standard container on the arena's memory resource is told when there is no memory", "statement": "Asked for memory through get_memory_resource(), the arena gives aligned memory that is apart from all other and can be written, or throws an exception, as std::pmr::memory_resource promises and standard containers rely on. (VIOLATED in every state: when the current block has no room and block_alloc refuses, the resource returns a null pointer, and the container, which need not compare it with null, writes through it.)", "quantifier": "all reachable states of the arena, all options, all block_alloc functions, all sizes and alignments within the contract", "why_tests_cant": "Memory is refused only when block_alloc fails, which may be at any request of any program; a test with the default malloc never sees it.", "anchors": ["arena/arena.hpp: memory_resource::do_allocate, Arena::get_memory_resource", "arena/arena.cc: Arena::allocateAligned"]}
