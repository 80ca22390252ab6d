{"claims": [
{"property": "C01", "status": "proved", "theorems": ["Verif.Align.c01_alignUpTo", "Verif.Align.c01_exists"], "note": "least multiple, all n and N a power of two; wraps only above 2^64-N"},
{"property": "C02", "status": "proved", "theorems": ["Verif.Align.c02_alignUp", "Verif.Align.c02_alignUp_zero"], "note": "exact value; division by zero is a distinct outcome"},
{"property": "C03", "status": "proved", "theorems": ["Verif.Literals.c03_literals", "Verif.Literals.c03_exact", "Verif.Literals.c03_rejects", "Verif.Literals.c03_wraps_silently"], "note": "literals"},
{"property": "C04", "status": "proved", "theorems": ["Verif.Arena.c04_aligned"], "note": "all executions"},
{"property": "C05", "status": "proved", "theorems": ["Verif.Arena.c05_in_bounds"], "note": "all executions"},
{"property": "C06", "status": "proved", "theorems": ["Verif.Arena.c06_disjoint"], "note": "all executions"},
{"property": "C07", "status": "proved", "theorems": ["Verif.Arena.c07_bookkeeping", "Verif.Arena.c07_write"], "note": "headers and nodes never handed out; writes do not change teardown"},
{"property": "C08", "status": "proved", "theorems": ["Verif.Arena.c08_safe"], "note": "no assertion or undefined behaviour within the contract"},
{"property": "C09", "status": "proved", "theorems": ["Verif.Arena.c09_null_unchanged", "Verif.Arena.c09_failure_cause", "Verif.Arena.c09_fits_succeeds"], "note": "failure exactly when block_alloc fails"},
{"property": "C10", "status": "proved", "theorems": ["Verif.Arena.c10_destroy"], "note": "once each, reverse order"},
{"property": "C11", "status": "proved", "theorems": ["Verif.Arena.c11_reset", "Verif.Arena.c11_life"], "note": "Reset and the whole life"},
{"property": "C12", "status": "proved", "theorems": ["Verif.Arena.c12_alive"], "note": "teardown protocol; memory handed out before the registration"},
{"property": "C13", "status": "proved", "theorems": ["Verif.Arena.c13_balanced"], "note": "at the end and at every moment"},
{"property": "C14", "status": "proved", "theorems": ["Verif.Arena.c14_reset"], "note": "first block kept and rewound"},
{"property": "C15", "status": "proved", "theorems": ["Verif.Arena.c15_space"], "note": "sum of held blocks"},
{"property": "C16", "status": "proved", "theorems": ["Verif.Arena.c16_policy"], "note": "block size policy"},
{"property": "C17", "status": "proved", "theorems": ["Verif.Arena.c17_hooks", "Verif.Arena.c17_reset_destroy"], "note": "hook accounting"},
{"property": "C18", "status": "proved", "theorems": ["Verif.Arena.c18_check"], "note": "classification of every address"},
{"property": "C19", "status": "proved", "theorems": ["Verif.Arena.c19_like_new", "Verif.Arena.c19_environment"], "note": "an arena after Reset simulates a new one holding the kept block"},
{"property": "C20", "status": "partial", "theorems": ["Verif.Arena.c20_violated", "Verif.Arena.c20_corrupts", "Verif.Arena.c20_partial", "Verif.Arena.huge_granted_violated", "Verif.Arena.header_granted_violated"], "note": "violated: sizes near 2^64 wrap (witness, and in every state of an arena that holds a block); holds for sizes that do not wrap"},
{"property": "C21", "status": "partial", "theorems": ["Verif.Arena.c21_violated", "Verif.Arena.c21_release", "Verif.Arena.c21_partial", "Verif.Arena.align32_everywhere_violated"], "note": "violated: a new block ignores alignment waste (witness, and in every state); holds with the slack"},
{"property": "C22", "status": "partial", "theorems": ["Verif.Arena.c22_violated", "Verif.Arena.c22_partial", "Verif.Arena.array_wraps_violated"], "note": "violated: product overflow is only logged (witness, and in every state); holds without overflow"},
{"property": "C23", "status": "partial", "theorems": ["Verif.Arena.c23_violated", "Verif.Arena.c23_partial", "Verif.Arena.lost_object_violated"], "note": "violated: object lost when registration fails (witness, and in every state); holds when the block has room"},
{"property": "C24", "status": "partial", "theorems": ["Verif.Arena.c24_partial", "Verif.Arena.c24_violated", "Verif.Arena.c24_dangling", "Verif.Arena.moved_resource_violated"], "note": "blocks, destructors and space move exactly once, both destruction orders; violated part: the memory resource keeps pointing to the moved-from arena (witness, and for every move in every state)"},
{"property": "C25", "status": "proved", "theorems": ["Verif.Arena.c25_allocate", "Verif.Arena.c25_guarantees", "Verif.Arena.c25_deallocate", "Verif.Arena.c25_equal"], "note": "allocate, deallocate and is_equal of the memory resource"},
{"property": "C26", "status": "proved", "theorems": ["Verif.Arena.c26_space_remains"], "note": "SpaceRemains decides whether a block is requested"},
{"property": "C27", "status": "proved", "theorems": ["Verif.Arena.c27_needs_block", "Verif.Arena.c27_defined"], "note": "undefined on a fresh arena, defined after a success"},
{"property": "C28", "status": "proved", "theorems": ["Verif.Arena.c28_accounting", "Verif.Arena.c28_exact"], "note": "space accounting"},
{"property": "C29", "status": "proved", "theorems": ["Verif.Metrics.c29_histogram", "Verif.Metrics.c29_one_bucket"], "note": "size and lifetime histograms count exactly the allocations and destructions in their range; sizes above 1 MiB and lifetimes above 1000 ms are in no bucket, as stated"},
{"property": "C30", "status": "proved", "theorems": ["Verif.Metrics.c30_report", "Verif.Metrics.c30_keys"], "note": "report moves every local counter to the global one and empties the local one"},
{"property": "C31", "status": "proved", "theorems": ["Verif.Metrics.c31_conserved", "Verif.Metrics.c31_concurrent"], "note": "any number of threads in any interleaving of single atomic additions"},
{"property": "C32", "status": "partial", "theorems": ["Verif.Metrics.c32_violated", "Verif.Metrics.c32_everywhere_violated", "Verif.Metrics.c32_partial", "Verif.Metrics.c32_concurrent_partial", "Verif.Metrics.c32_decreasing"], "note": "violated: division by zero when nothing was allocated or destroyed (witness, and in every such state), and percentages read during reports can decrease (witness); holds once both counters are non-zero"},
{"property": "C33", "status": "proved", "theorems": ["Verif.Metrics.c33_metrics"], "note": "links the arena model to the metrics model, any number of arenas"},
{"property": "C34", "status": "proved", "theorems": ["Verif.Vector.push_back_appends", "Verif.Vector.push_back_unsafe_appends"], "note": "both overloads and emplace_back, with and without reallocation, also for arguments inside the vector"},
{"property": "C35", "status": "partial", "theorems": ["Verif.Vector.insert_one", "Verif.Vector.insert_count_partial", "Verif.Vector.insert_range", "Verif.Vector.insert_none_violated", "Verif.Vector.insert_none_everywhere_violated", "Verif.Vector.insert_none_release_violated"], "note": "all forms of insert, safe and unsafe; violated in every state: insert(pos, 0, v) fails an assertion in debug builds, and loses the elements from pos on in release builds unless they are moved with memcpy"},
{"property": "C36", "status": "partial", "theorems": ["Verif.Vector.erase_one", "Verif.Vector.erase_range_partial", "Verif.Vector.erase_range_return_violated", "Verif.Vector.erase_range_return_everywhere_violated"], "note": "contents for both overloads; violated: the range overload returns the wrong iterator, in every state and for every range that is not empty"},
{"property": "C37", "status": "proved", "theorems": ["Verif.Vector.erase_value", "Verif.Vector.erase_if"], "note": ""},
{"property": "C38", "status": "partial", "theorems": ["Verif.Vector.resize_default", "Verif.Vector.resize_value", "Verif.Vector.assign_count_partial", "Verif.Vector.assign_range_partial", "Verif.Vector.clear_empties", "Verif.Vector.pop_back_drops", "Verif.Vector.set_element", "Verif.Vector.assign_zero_violated", "Verif.Vector.assign_empty_violated", "Verif.Vector.assign_empty_trivial_violated", "Verif.Vector.assign_zero_everywhere_violated", "Verif.Vector.assign_empty_everywhere_violated", "Verif.Vector.assign_empty_trivial_everywhere_violated", "Verif.Vector.assign_zero_release"], "note": "violated in every state: assign of an empty range, and assign(0, v) in debug builds"},
{"property": "C39", "status": "proved", "theorems": ["Verif.Vector.reserve_keeps", "Verif.Vector.shrink_to_fit_keeps", "Verif.Vector.push_back_in_place"], "note": ""},
{"property": "C40", "status": "proved", "theorems": ["Verif.Vector.legal_programs_run", "Verif.Vector.size_le_capacity"], "note": "every legal program runs without fault and refines the list specification"},
{"property": "C41", "status": "partial", "theorems": ["Verif.Vector.lifetimes_balance_partial", "Verif.Vector.all_destroyed_partial", "Verif.Vector.moved_elements_leak_violated", "Verif.Vector.lifetimes_with_moves"], "note": "holds for copy-only and Relocatable elements; violated for movable ones: moved-from elements are never destroyed (witness, and the exact number)"},
{"property": "C42", "status": "partial", "theorems": ["Verif.Vector.nextCapacity_grows", "Verif.Vector.push_back_step", "Verif.Vector.growth_factor", "Verif.Vector.push_back_amortised_partial", "Verif.Vector.growth_big_violated", "Verif.Vector.first_push_big_violated"], "note": "violated for elements above 128 KiB (witness, and for every such type in every state)"},
{"property": "C43", "status": "proved", "theorems": ["Verif.Vector.copy_construct", "Verif.Vector.copy_assign", "Verif.Vector.move_construct", "Verif.Vector.move_assign", "Verif.Vector.swap_exchanges", "Verif.Vector.storage_is_own"], "note": ""},
{"property": "C44", "status": "proved", "theorems": ["Verif.Vector.equality", "Verif.Vector.comparison"], "note": ""},
{"property": "C45", "status": "partial", "theorems": ["Verif.Vector.at_reads_partial", "Verif.Vector.front_back", "Verif.Vector.reverse_iteration", "Verif.Vector.at_does_not_throw_violated", "Verif.Vector.at_never_throws_violated"], "note": "violated in every state: at() never throws; valid indices read the contents"},
{"property": "C46", "status": "partial", "theorems": ["Verif.Vector.writebuffer_partial", "Verif.Vector.writebuffer_overflow_violated", "Verif.Vector.writebuffer_everywhere_violated", "Verif.Vector.writebuffer_assert_violated", "Verif.Vector.fill_appends", "Verif.Vector.resize_raw_appends"], "note": "violated: too little storage when the vector is not empty (in every state for buffers of at least 64 elements and twice the capacity), and a failing assertion for buffers up to the capacity"},
{"property": "C47", "status": "partial", "theorems": ["Verif.Vector.push_back_alias_partial", "Verif.Vector.alias_room_partial", "Verif.Vector.insert_alias_always_violated", "Verif.Vector.insert_alias_violated", "Verif.Vector.insert_alias_full_violated", "Verif.Vector.insert_count_alias_violated", "Verif.Vector.resize_alias_violated", "Verif.Vector.assign_alias_violated", "Verif.Vector.erase_alias_violated"], "note": "holds for push_back and emplace_back, and for the others if there is room and the element is not moved; violated otherwise, by insert in every state"},
{"property": "C48", "status": "proved", "theorems": ["Verif.Str.Layout.small_round_trip", "Verif.Str.Layout.ml_round_trip", "Verif.Str.Layout.categories_distinct", "Verif.Str.Layout.capacity_bound_needed", "Verif.Str.Layout.word_copy_round_trip", "Verif.Str.Layout.word_copy_reads_past_violated"], "note": "at the level of the 24 bytes, for both byte orders and 1-, 2- and 4-byte characters; the word-wise copy of the release build also reads up to 7 bytes after the source (witness)"},
{"property": "C49", "status": "partial", "theorems": ["Verif.Str.other_strings_untouched_partial", "Verif.Str.contents_reached", "Verif.Str.data_shared_violated", "Verif.Str.data_shared_everywhere_violated", "Verif.Str.iterator_shared_violated", "Verif.Str.iterator_shared_everywhere_violated"], "note": "any number of strings, heap and arena, debug and release, with failures; violated for writes through data() (in every state in which two strings share their characters) and through iterators taken before a copy (for every long string that is not shared)"},
{"property": "C50", "status": "proved", "theorems": ["Verif.Str.reference_counts", "Verif.Str.buffers_used", "Verif.Str.no_leaks"], "note": "programs in which no realloc is refused; freeing twice and use after free are faults of the model, excluded by ops_meet_spec"},
{"property": "C51", "status": "partial", "theorems": ["Verif.Str.ops_meet_spec", "Verif.Str.storage_ok", "Verif.Str.Layout.word_copy_round_trip", "Verif.Str.word_copy_reads_partial", "Verif.Str.word_copy_outside_violated"], "note": "every access outside a buffer is a fault of the model, in which the word-wise copy of release builds is a copy of the characters; that copy itself reads outside (witness), with no effect on the result"},
{"property": "C52", "status": "proved", "theorems": ["Verif.Str.ops_meet_spec", "Verif.Str.out_of_range", "Verif.Str.out_of_range_only", "Verif.Str.programs_meet_spec", "Verif.Str.append_sub_spec", "Verif.Str.assign_sub_spec", "Verif.Str.insert_sub_spec", "Verif.Str.replace_sub_spec", "Verif.Str.sub_out_of_range"], "note": "33 operations refined to lists, and whole programs"},
{"property": "C53", "status": "proved", "theorems": ["Verif.Str.find_least", "Verif.Str.find_empty", "Verif.Str.findChar_least", "Verif.Str.findCStr_least"], "note": "all overloads"},
{"property": "C54", "status": "proved", "theorems": ["Verif.Str.rfind_greatest", "Verif.Str.find_first_of_least", "Verif.Str.find_first_not_of_least", "Verif.Str.find_last_of_greatest", "Verif.Str.find_last_not_of_greatest"], "note": ""},
{"property": "C55", "status": "proved", "theorems": ["Verif.Str.compare_lexicographic", "Verif.Str.compareSub_lexicographic", "Verif.Str.compareSub2_lexicographic", "Verif.Str.compareCStr_lexicographic", "Verif.Str.operators_lexicographic", "Verif.Str.std_operators_agree", "Verif.Str.order_total", "Verif.Str.order_transitive"], "note": ""},
{"property": "C56", "status": "proved", "theorems": ["Verif.Str.hash_spec", "Verif.Str.equal_hashes"], "note": "for every hash function in place of XXH3"},
{"property": "C57", "status": "proved", "theorems": ["Verif.Str.ops_meet_spec", "Verif.Str.reserve_capacity", "Verif.Str.push_back_step", "Verif.Str.push_back_amortised"], "note": ""},
{"property": "C58", "status": "partial", "theorems": ["Verif.Str.append_sub_spec", "Verif.Str.assign_sub_spec", "Verif.Str.replace_sub_spec", "Verif.Str.ops_meet_spec", "Verif.Str.insert_alias_violated", "Verif.Str.append_range_alias_violated", "Verif.Str.append_terminator_violated", "Verif.Str.insert_own_partial", "Verif.Str.append_range_own_partial"], "note": "the specification covers own characters for append, assign and (heap) replace; insert and append(first, last) do the same as with a copy of the characters when the string has room, shares nothing and the source ends before the place of the insertion; violated otherwise (witnesses)"},
{"property": "C59", "status": "partial", "theorems": ["Verif.Str.contains_str", "Verif.Str.contains_char", "Verif.Str.contains_view_partial", "Verif.Str.contains_view_violated", "Verif.Str.contains_view_spec", "Verif.Str.contains_view_everywhere_violated"], "note": "violated for views (witness, and every string and view that differ so); what it decides for any view is proved; holds for strings, characters, and views ended by their first NUL"},
{"property": "C60", "status": "partial", "theorems": ["Verif.Str.lengths_fit", "Verif.Str.too_long_fails_partial", "Verif.Str.append_wraps_violated", "Verif.Str.append_wraps_everywhere_violated", "Verif.Str.insert_wraps_violated", "Verif.Str.insert_wraps_everywhere_violated"], "note": "holds when the new length fits in 64 bits; violated when it does not: append(n, c) and, of strings that are not shared, insert(pos, n, c) in every state"},
{"property": "C61", "status": "proved", "theorems": ["Verif.Str.ops_meet_spec", "Verif.Str.out_of_range", "Verif.Str.starts_with_spec", "Verif.Str.ends_with_spec", "Verif.Str.at_spec", "Verif.Str.front_back_spec", "Verif.Str.copy_spec", "Verif.Str.plus_spec", "Verif.Str.plus_move_left_spec", "Verif.Str.plus_move_right_spec", "Verif.Str.plus_with_spec", "Verif.Str.plus_prefix_spec", "Verif.Str.plus_prefix_char_spec", "Verif.Str.plus_suffix_spec", "Verif.Str.plus_suffix_char_spec"], "note": "all twelve overloads of operator+; substr is among the operations of ops_meet_spec; s + std::move(s) is excluded"},
{"property": "C62", "status": "partial", "theorems": ["Verif.Str.ops_meet_spec", "Verif.Str.other_strings_untouched_partial", "Verif.Str.arena_buffers_alive", "Verif.Str.arena_counts", "Verif.Str.arena_swap_violated", "Verif.Str.arena_swap_everywhere_violated", "Verif.Str.arena_replace_alias_violated", "Verif.Str.arena_replace_alias_everywhere_violated", "Verif.Str.arena_assign_char_violated", "Verif.Str.arena_assign_char_everywhere_violated"], "note": "the general theorems hold for arenas too; violated in the three cases (witnesses, and in every state; replace and assigning a character in debug builds)"},
{"property": "C63", "status": "proved", "theorems": ["Verif.Opt.parse_ends", "Verif.Opt.parse_reads", "Verif.Opt.parse_options"], "note": "parse_reads: the arguments are read by the grammar of command lines, every argument in exactly one event"},
{"property": "C64", "status": "proved", "theorems": ["Verif.Opt.leftAt_texts", "Verif.Opt.leftAt_sorted", "Verif.Opt.parse_left_over", "Verif.Opt.Bad.missing_value_inconsistent"], "note": ""},
{"property": "C65", "status": "proved", "theorems": ["Verif.Opt.add_option_ok", "Verif.Opt.reads_names", "Verif.Opt.parse_names", "Verif.Opt.valid_iff"], "note": "for parsers without rejected registrations (C88 says what those do)"},
{"property": "C66", "status": "partial", "theorems": ["Verif.Opt.parse_store_gives", "Verif.Opt.parse_stored_partial", "Verif.Opt.parse_appended", "Verif.Opt.parse_counted", "Verif.Opt.Bad.flag_takes_argument_violated", "Verif.Opt.Bad.flag_true_violated", "Verif.Opt.flag_takes_argument_everywhere_violated"], "note": "violated for flags followed by a plain argument (witnesses, and for every parser); the theorems say exactly what is stored"},
{"property": "C67", "status": "partial", "theorems": ["Verif.Opt.command_line_wins_partial", "Verif.Opt.default_used", "Verif.Opt.parse_stored_partial", "Verif.Opt.parse_appended", "Verif.Opt.parse_counted", "Verif.Opt.Bad.count_default_violated"], "note": "violated for Count (witness); holds for the other actions"},
{"property": "C68", "status": "proved", "theorems": ["Verif.Opt.trim_spec", "Verif.Opt.split_spec", "Verif.Opt.split_empty_delimiter"], "note": ""},
{"property": "C69", "status": "proved", "theorems": ["Verif.Opt.parse_choice"], "note": ""},
{"property": "C70", "status": "partial", "theorems": ["Verif.Opt.reads_taken", "Verif.Opt.option_taken_as_value_partial", "Verif.Opt.Bad.empty_value_swallows_violated", "Verif.Opt.empty_value_swallows_everywhere_violated", "Verif.Opt.empty_value_first_violated"], "note": "violated (witness, and for every parser and command line): only the argument right after an empty value can be an option"},
{"property": "C71", "status": "partial", "theorems": ["Verif.Arena.c71_violated", "Verif.Arena.align16_everywhere_violated", "Verif.Arena.c71_partial"], "note": "violated: alignof(T) above 8 is ignored (witness, and in every state whose block has room); holds up to 8"},
{"property": "C72", "status": "proved", "theorems": ["Verif.Arena.c72_safe", "Verif.Arena.c72_alone", "Verif.Arena.c72_disjoint", "Verif.Arena.c72_blocks", "Verif.Arena.c72_end", "Verif.Arena.c72_owner"], "note": "any number of arenas in any interleaving"},
{"property": "C73", "status": "partial", "theorems": ["Verif.Metrics.c73_violated", "Verif.Metrics.c73_partial"], "note": "violated: two threads reporting a new location race on the shared unordered_map; no race when all locations are registered already"},
{"property": "C74", "status": "partial", "theorems": ["Verif.Metrics.c74_violated", "Verif.Metrics.c74_partial"], "note": "violated: every program that moves an arena and ends dereferences a null cookie; holds without moves"},
{"property": "C75", "status": "partial", "theorems": ["Verif.Vector.bad_alloc_partial", "Verif.Vector.bad_alloc_goes_on", "Verif.Vector.ctor_bad_alloc", "Verif.Vector.push_back_bad_alloc_violated", "Verif.Vector.assign_bad_alloc_violated", "Verif.Vector.copy_assign_bad_alloc_violated", "Verif.Vector.reserve_bad_alloc_violated", "Verif.Vector.push_back_refused_violated", "Verif.Vector.assign_refused_violated", "Verif.Vector.copy_assign_refused_violated", "Verif.Vector.reserve_refused_violated"], "note": "holds for the constructors and for insert, resize, reserve, shrink_to_fit, fill with storage; violated for the others, in every state"},
{"property": "C76", "status": "partial", "theorems": ["Verif.Vector.relocatable_partial", "Verif.Vector.relocatable_push_back_violated", "Verif.Vector.relocatable_copy_violated", "Verif.Vector.relocatable_every_copy_violated", "Verif.Vector.relocatable_copy_assign_violated", "Verif.Vector.relocatable_range_violated", "Verif.Vector.relocatable_erase_if_violated", "Verif.Vector.relocatable_insert_violated"], "note": "violated (witnesses; copying is wrong for every vector that is not empty); proved for programs that avoid the operations named in the statement"},
{"property": "C77", "status": "partial", "theorems": ["Verif.Vector.insert_range", "Verif.Vector.assign_range_partial", "Verif.Vector.reverse_ctor_violated", "Verif.Vector.reverse_assign_violated", "Verif.Vector.reverse_ctor_everywhere_violated", "Verif.Vector.reverse_assign_everywhere_violated"], "note": "violated for elements moved with memcpy and reverse iterators (every range, every state); the other theorems cover all other combinations"},
{"property": "C78", "status": "proved", "theorems": ["Verif.Vector.shrinking_in_place", "Verif.Vector.fitting_in_place"], "note": "fitting_in_place: nothing is allocated; that the elements are right is C36 and C37, that references are good is C115"},
{"property": "C79", "status": "proved", "theorems": ["Verif.Vector.blocks_are_owned", "Verif.Vector.no_storage_leaks"], "note": ""},
{"property": "C80", "status": "partial", "theorems": ["Verif.Vector.reserve_too_big_partial", "Verif.Vector.reserve_huge_violated", "Verif.Vector.reserve_huge_everywhere_violated"], "note": "violated when the number of bytes exceeds 64 bits, on every vector without storage"},
{"property": "C81", "status": "partial", "theorems": ["Verif.Str.failure_keeps_string_partial", "Verif.Str.realloc_refused_violated", "Verif.Str.realloc_refused_everywhere_violated"], "note": "holds when the refused request is not a realloc; violated otherwise (witness, and by reserve in every state of a long unshared string with little spare room)"},
{"property": "C82", "status": "partial", "theorems": ["Verif.Str.hash_of_all_partial", "Verif.Str.hash_ignores_tail_violated", "Verif.Str.hash_collision_violated"], "note": "holds for char; violated for wider characters"},
{"property": "C83", "status": "proved", "theorems": ["Verif.Str.failure_changes_nothing", "Verif.Str.failure_keeps_string"], "note": ""},
{"property": "C84", "status": "partial", "theorems": ["Verif.Str.to_string_spec", "Verif.Str.to_string_all_partial", "Verif.Str.to_string_truncates_violated", "Verif.Str.to_string_everywhere_violated"], "note": "holds without NUL; violated otherwise (every string with a NUL)"},
{"property": "C85", "status": "partial", "theorems": ["Verif.Str.ops_meet_spec", "Verif.Str.throws_only", "Verif.Str.unshared_throws_partial", "Verif.Str.copy_violated", "Verif.Str.shared_edit_violated", "Verif.Str.pop_back_violated", "Verif.Str.copy_terminates_violated", "Verif.Str.write_terminates_violated"], "note": "violated by copies of medium strings and by changes of shared ones, for all reachable states and all calls concerned; proved for all other calls"},
{"property": "C86", "status": "partial", "theorems": ["Verif.Opt.parse_no_ub_partial", "Verif.Opt.blank_read", "Verif.Opt.counting_safe", "Verif.Opt.parse_ends", "Verif.Opt.Bad.blank_value_violated", "Verif.Opt.Bad.no_names_violated", "Verif.Opt.Bad.shared_counter_violated"], "note": "violated (witnesses); holds under the stated conditions, and blank_read shows that they are needed"},
{"property": "C87", "status": "partial", "theorems": ["Verif.Opt.number_value", "Verif.Opt.number_round_trip_partial", "Verif.Opt.Bad.malformed_number_violated", "Verif.Opt.Bad.negative_number_violated", "Verif.Opt.any_number_everywhere_violated", "Verif.Opt.malformed_number_everywhere_violated"], "note": "integers and truth values; floating point numbers are a parameter of the model; violated: no text but blank ones is refused and texts that are no numbers become 0 (for every text); negative numbers as arguments of their own (witness)"},
{"property": "C88", "status": "partial", "theorems": ["Verif.Opt.rejected_rest_partial", "Verif.Opt.rejected_option_poisons", "Verif.Opt.Bad.rejected_option_violated"], "note": "violated (witness, and for all parsers and later calls)"},
{"property": "C89", "status": "partial", "theorems": ["Verif.Opt.names_usable_partial", "Verif.Opt.new_fits", "Verif.Opt.newPrefix_fits", "Verif.Opt.Bad.plus_prefix_long_violated", "Verif.Opt.Bad.double_dash_violated", "Verif.Opt.Bad.equals_in_name_violated", "Verif.Opt.unusable_names_everywhere_violated", "Verif.Opt.accepted_unusable"], "note": "violated for one constructor (witness, and for every parser, which names are never found); holds for the others"},
{"property": "C90", "status": "partial", "theorems": ["Verif.Opt.copy_parses_partial", "Verif.Opt.copy_outlives_everywhere_violated", "Verif.Opt.Bad.copy_outlives_violated"], "note": "holds while the original exists or if every option has its destination; afterwards violated for every parser with an option registered without dest(), whatever the command line"},
{"property": "C91", "status": "partial", "theorems": ["Verif.Opt.typed_get_partial", "Verif.Opt.Bad.typed_get_violated", "Verif.Opt.typed_get_everywhere_violated"], "note": "violated for flags without type(Bool) (witness, and for every parser)"},
{"property": "C92", "status": "partial", "theorems": ["Verif.Opt.vector_overload_partial", "Verif.Opt.Bad.vector_overload_violated", "Verif.Opt.Bad.raw_argv_violated", "Verif.Opt.vector_overload_everywhere_violated"], "note": "violated without an earlier call of the other overload (witness, and for every parser)"},
{"property": "C93", "status": "partial", "theorems": ["Verif.Opt.help_message_partial", "Verif.Opt.help_aligned", "Verif.Opt.help_after_parse", "Verif.Opt.help_again", "Verif.Opt.Bad.help_empty_violated", "Verif.Opt.Bad.usage_stale_violated", "Verif.Opt.help_empty_everywhere_violated", "Verif.Opt.usage_stale_everywhere_violated"], "note": "violated without options, and for the cached usage message (witnesses, and for every parser)"},
{"property": "C94", "status": "partial", "theorems": ["Verif.Opt.version_message_partial", "Verif.Opt.version_forgotten", "Verif.Opt.Bad.version_lost_violated"], "note": "violated after parse_args (witness, and for all parsers)"},
{"property": "C95", "status": "proved", "theorems": ["Verif.Str.getline_spec", "Verif.Str.getline_over_spec", "Verif.Str.read_lines_spec", "Verif.Str.lines_unique"], "note": "the stream is modelled as a buffer of characters with its state bits (DESIGN.md); a fault of memory is the only other outcome"},
{"property": "C96", "status": "partial", "theorems": ["Verif.Str.getline_usable_partial", "Verif.Str.getline_spec", "Verif.Str.getline_over_spec", "Verif.Str.getline_failed_violated", "Verif.Str.getline_failed_everywhere_violated", "Verif.Str.getline_throws_everywhere_violated", "Verif.Str.getline_end_violated", "Verif.Str.getline_throw_violated", "Verif.Str.getline_long_violated"], "note": "violated (witnesses; in every state for good streams that throw and, in debug builds where the emptied string has room, for failed streams; getline_over_spec says that ended streams empty every string); the theorems cover good streams that do not throw and ended streams"},
{"property": "C97", "status": "partial", "theorems": ["Verif.Str.extract_spec_partial", "Verif.Str.extract_width_violated", "Verif.Str.extract_wide_violated", "Verif.Str.extract_width_everywhere_violated", "Verif.Str.extract_wide_everywhere_violated"], "note": "violated for width() and wide characters, with witnesses and for every state; holds otherwise"},
{"property": "C98", "status": "partial", "theorems": ["Verif.Str.insert_spec_partial", "Verif.Str.insert_long_violated", "Verif.Str.insert_cut_violated", "Verif.Str.reach_fill"], "note": "holds below 2^31 characters; violated for all longer strings up to 2^32+2^31, which are reachable (reach_fill)"},
{"property": "C99", "status": "proved", "theorems": ["Verif.Str.line_round_trip", "Verif.Str.word_round_trip"], "note": ""},
{"property": "C100", "status": "proved", "theorems": ["Verif.Str.clone_unshared"], "note": ""},
{"property": "C101", "status": "proved", "theorems": ["Verif.Str.threads_apart", "Verif.Str.threads_do_not_interfere", "Verif.Str.threads_contents"], "note": "operations of the threads are interleaved as a whole; that an operation neither reads nor writes what belongs to other threads is threads_do_not_interfere; the allocator is assumed to be safe for threads"},
{"property": "C102", "status": "partial", "theorems": ["Verif.Str.const_functions_write_nothing_partial", "Verif.Str.copy_writes_nothing_old_partial", "Verif.Str.copies_race_violated", "Verif.Str.clone_race_corrupts", "Verif.Str.destroy_race_violated", "Verif.Str.copy_during_destroy_violated", "Verif.Str.copies_race_everywhere_violated", "Verif.Str.destroy_race_everywhere_violated"], "note": "violated for long strings (witnesses, and in every state what the count is after two copies or two destructions at once); the partial theorems say what is safe"},
{"property": "C103", "status": "partial", "theorems": ["Verif.Str.one_thread_not_stopped", "Verif.Str.first_copy_is_guarded_partial", "Verif.Str.pop_back_is_guarded_partial", "Verif.Str.later_copies_are_not_guarded_violated", "Verif.Str.writes_are_not_guarded_violated", "Verif.Str.harmless_copy_is_stopped_violated", "Verif.Str.harmless_growth_is_stopped_violated", "Verif.Str.sole_owner_is_stopped_violated"], "note": "violated in both directions (witnesses); of the operations that swap with a temporary inside, replace and the growth in append and the like are not in the model of the checks"},
{"property": "C104", "status": "partial", "theorems": ["Verif.Vector.push_back_throws_partial", "Verif.Vector.reserve_does_not_copy_partial", "Verif.Vector.erase_does_not_copy_partial", "Verif.Vector.throws_never", "Verif.Vector.push_back_throws_violated", "Verif.Vector.push_back_full_throws_violated", "Verif.Vector.resize_throws_violated", "Verif.Vector.insert_throws_violated", "Verif.Vector.insert_hole_throws_violated", "Verif.Vector.assign_throws_violated", "Verif.Vector.copy_assign_throws_violated", "Verif.Vector.copying_throws_violated", "Verif.Vector.assign_count_throws_violated", "Verif.Vector.assign_range_throws_violated", "Verif.Vector.copy_assign_in_place_throws_violated", "Verif.Vector.insert_in_place_throws_violated", "Verif.Vector.insert_many_throws_violated", "Verif.Vector.reserve_throws_violated", "Verif.Vector.erase_throws_violated"], "note": "violated: push_back, resize, assign, copy assignment and all forms of insert in all states with room (push_back and assign(n, value) also when they grow), reserve and erase in all states of vectors of elements without a move constructor; the partial theorems say what is safe; throws_never ties the functions to the model"},
{"property": "C105", "status": "partial", "theorems": ["Verif.Vector.copy_ctor_throws_partial", "Verif.Vector.copy_ctor_throws_violated", "Verif.Vector.ctor_sized_throws_violated", "Verif.Vector.ctor_range_throws_violated"], "note": "violated in all states; the partial theorem says what is left"},
{"property": "C106", "status": "partial", "theorems": ["Verif.Vector.resize_value_initialises_partial", "Verif.Vector.ctor_value_initialises_partial", "Verif.Vector.member_pointers_violated", "Verif.Vector.unions_violated"], "note": "violated for all trivially default constructible types with pointers to data members and all unions with a constructor or default member initialiser; holds for all other types"},
{"property": "C107", "status": "partial", "theorems": ["Verif.Arena.c107_partial", "Verif.Arena.c107_blocks", "Verif.Arena.c107_violated"], "note": "violated: later memory in newer blocks is freed before the destructor runs; which blocks are held when a destructor runs is proved exactly"},
{"property": "C108", "status": "proved", "theorems": ["Verif.Arena.c108_nested", "Verif.Arena.createWith_runs", "Verif.Arena.create_split", "Verif.Arena.createArray_split"], "note": "constructors that call the arena, nested to any depth"},
{"property": "C109", "status": "partial", "theorems": ["Verif.Arena.c109_partial", "Verif.Arena.c109_leak_violated", "Verif.Arena.c109_freed_violated", "Verif.Arena.c109_chain_violated", "Verif.Arena.c109_lost_violated", "Verif.Arena.c109_reset_violated", "Verif.Arena.c109_reset_lost_violated", "Verif.Arena.destroyWith_none", "Verif.Arena.resetWith_none"], "note": "violated: leak, use after free and lost registrations, at destruction and Reset; destroyWith_none and resetWith_none tie the functions to the model"},
{"property": "C110", "status": "partial", "theorems": ["Verif.Arena.c110_skip", "Verif.Arena.c110_partial", "Verif.Arena.c110_array", "Verif.Arena.c110_violated"], "note": "violated: the tag is inherited; the rules of C++ for member lookup, access and trivial destruction are modelled for a language of class declarations without virtual base classes"},
{"property": "C111", "status": "partial", "theorems": ["Verif.Arena.c111_tagged", "Verif.Arena.c111_simple", "Verif.Arena.c111_partial", "Verif.Arena.c111_violated", "Verif.Arena.c111_private_violated", "Verif.Arena.c111_array_violated"], "note": "violated: every trivially destructible type is accepted"},
{"property": "C112", "status": "partial", "theorems": ["Verif.Arena.c112_plain_partial", "Verif.Arena.c112_pmr", "Verif.Arena.c112_arena", "Verif.Arena.c112_only", "Verif.Arena.c112_violated", "Verif.Arena.c112_other_violated", "Verif.Arena.c112_resource_violated"], "note": "violated by constructors that take anything or a memory_resource*, and by arenas passed by hand; a call is taken to be valid if one constructor accepts the arguments, ambiguities are not modelled"},
{"property": "C113", "status": "partial", "theorems": ["Verif.Vector.ranges_converted", "Verif.Vector.ranges_copied_partial", "Verif.Vector.ranges_raw", "Verif.Vector.narrow_violated", "Verif.Vector.reinterpreted_violated", "Verif.Vector.segmented_violated", "Verif.Vector.descending_violated", "Verif.Vector.ranges_converted_violated"], "note": "violated for all element types moved with memcpy and ranges of smaller or reinterpreted elements or in pieces; proved on bytes for all other combinations"},
{"property": "C114", "status": "partial", "theorems": ["Verif.Arena.destruction_hook_partial", "Verif.Arena.destruction_hook_violated", "Verif.Arena.destruction_hook_lost_violated", "Verif.Arena.reset_hook_partial", "Verif.Arena.reset_hook_violated", "Verif.Arena.reset_hook_lost_violated", "Verif.Arena.newblock_hook_partial", "Verif.Arena.newblock_hook_violated", "Verif.Arena.newblock_hook_lost_violated", "Verif.Arena.newblock_calls_partial", "Verif.Arena.newblock_calls_violated", "Verif.Arena.own_hook_lost_violated", "Verif.Arena.init_hook"], "note": "violated whenever a hook called at destruction, at Reset or for a new block obtains a block (proved for all arenas and all such hooks); holds when it obtains none, and always for the init hook; the block hook for every call that obtains memory and in whole executions (newblock_calls_*), Create and AllocateAlignedAndAddCleanup with hooks that make calls as their two halves"},
{"property": "C115", "status": "proved", "theorems": ["Verif.Vector.references_kept_or_dangle", "Verif.Vector.push_back_references", "Verif.Vector.reference_reads"], "note": "all in-contract member functions; when memory runs out see C80"},
{"property": "C116", "status": "partial", "theorems": ["Verif.Opt.add_option_references", "Verif.Opt.reference_lifetime", "Verif.Opt.chained_setters_partial", "Verif.Opt.kept_reference_violated", "Verif.Opt.every_reference_dies_violated"], "note": "holds until the next registration; violated after it; the exact lifetime of every reference is proved"},
{"property": "C117", "status": "proved", "theorems": ["Verif.Arena.hooks_optional"], "note": "the model of the arena with all hooks set is related to one with any subset, function by function"},
{"property": "C118", "status": "partial", "theorems": ["Verif.Arena.logger_optional_partial", "Verif.Arena.logger_optional_violated", "Verif.Arena.array_logger_violated", "Verif.Arena.init_logger_violated", "Verif.Arena.block_alloc_required", "Verif.Arena.block_dealloc_required"], "note": "holds in executions that obey the contracts; violated for every CreateArray whose size overflows, in every state"},
{"property": "C119", "status": "proved", "theorems": ["Verif.Vector.fitting_in_place", "Verif.Vector.reserved_in_place", "Verif.Vector.reserve_then_in_place", "Verif.Vector.shrink_gives_room_back"], "note": "fitting_in_place without any assumption on the state; the sequences from all reachable states, without assumptions on malloc"},
{"property": "C120", "status": "proved", "theorems": ["Verif.Str.mixed_operators", "Verif.Str.mixed_spaceship", "Verif.Str.kind_irrelevant", "Verif.Str.eq_own_cstr"], "note": "all overloads; characters of one byte or wider, compared as unsigned values as in Str/Search.lean"},
{"property": "C121", "status": "partial", "theorems": ["Verif.Str.cstr_read", "Verif.Str.cstr_search", "Verif.Str.cstr_contains", "Verif.Str.cstr_rest", "Verif.Str.null_reported_partial", "Verif.Str.null_terminates_violated", "Verif.Str.contains_empty_view_violated", "Verif.Str.null_undefined_violated"], "note": "holds for constructors, assign, append, insert, replace, compare; violated by searches, contains and operators, which are noexcept, and by starts_with, ends_with and operator+, for all strings"},
{"property": "C122", "status": "partial", "theorems": ["Verif.Str.edits_in_place_partial", "Verif.Str.reserve_in_place_partial", "Verif.Str.spare_unshared", "Verif.Str.reserved_room", "Verif.Str.reserve_suffices", "Verif.Str.shared_moves_violated", "Verif.Str.shared_moves_everywhere_violated", "Verif.Str.debug_empty_violated", "Verif.Str.debug_empty_everywhere_violated", "Verif.Str.replace_own_violated"], "note": "holds for strings that share nothing and (debug builds on the heap) have a buffer, and for every sequence of edits after reserve(n); violated for long strings with copies and for empty strings in debug builds (both in every state), and by replace with own characters"},
{"property": "C123", "status": "partial", "theorems": ["Verif.Str.pointers_stay", "Verif.Str.access_stays_partial", "Verif.Str.access_moves_violated", "Verif.Str.shared_moves_everywhere_violated", "Verif.Str.access_moves_everywhere_violated"], "note": "pointers_stay for all programs; element access keeps the characters where they are unless a copy shares them (witness of a pointer to freed memory; in every state a shared string moves)"},
{"property": "C124", "status": "proved", "theorems": ["Verif.Arena.memory_bounded", "Verif.Arena.blocks_bounded"], "note": "the bound is reached: five requests of half a block each make the arena hold exactly twice their size"},
{"property": "C125", "status": "partial", "theorems": ["Verif.Str.building_moves_partial", "Verif.Str.resize_moves_violated"], "note": "holds for all the calls named but resize; a realloc is counted as moving everything"},
{"property": "C126", "status": "partial", "theorems": ["Verif.Vector.iterators_are_positions_partial", "Verif.Vector.subscript_negative_violated", "Verif.Vector.loops_end"], "note": "holds but for negative subscripts, which are undefined"},
{"property": "C127", "status": "partial", "theorems": ["Verif.Vector.std_erase_partial", "Verif.Vector.std_erase_violated"], "note": "holds where the conversion of the value agrees with the comparison on the elements of the vector"},
{"property": "C128", "status": "partial", "theorems": ["Verif.Opt.number_default_partial", "Verif.Opt.real_default_partial", "Verif.Opt.char_default_violated", "Verif.Opt.real_default_violated"], "note": "holds for bool and integers; floating point defaults are rounded to millionths, characters become numbers"},
{"property": "C129", "status": "proved", "theorems": ["Verif.Opt.parse_again"], "note": "for parsers whose options refer to the parser itself (not to the parser they were copied from, see C90)"},
{"property": "C130", "status": "partial", "theorems": ["Verif.Opt.register_after_parse_partial", "Verif.Opt.register_after_parse_violated"], "note": "holds for all names but the six of the built-in flags"},
{"property": "C131", "status": "proved", "theorems": ["Verif.Opt.left_over_stays"], "note": "for parsers whose options refer to the parser itself"},
{"property": "C132", "status": "partial", "theorems": ["Verif.Opt.order_partial", "Verif.Opt.order_violated"], "note": "holds if neither part ends with an option argument that ends in ="},
{"property": "C133", "status": "partial", "theorems": ["Verif.Vector.building_moves_partial", "Verif.Vector.resize_moves_violated"], "note": "holds for all the calls named but resize, which is quadratic for every n"},
{"property": "C134", "status": "partial", "theorems": ["Verif.Opt.spelling_partial", "Verif.Opt.spelling_violated"], "note": "holds for values that are neither empty nor look like an option, after a part that does not end with an option argument that ends in ="},
{"property": "C135", "status": "proved", "theorems": ["Verif.Vector.capacity_bounded"], "note": ""},
{"property": "C136", "status": "partial", "theorems": ["Verif.Str.shrink_to_fit_partial", "Verif.Str.shrink_to_fit_violated", "Verif.Str.shrink_to_fit_everywhere_violated", "Verif.Str.ops_meet_spec"], "note": "Partial because arena_string does not shrink at all, in any state (shrink_to_fit_everywhere_violated); proved for string."},
{"property": "C137", "status": "partial", "theorems": ["Verif.Vector.erase_if_throws_partial", "Verif.Vector.erase_if_untouched_partial", "Verif.Vector.erase_if_throws_violated"], "note": "Partial because elements that are not trivially copyable leave dead elements in the vector (erase_if_throws_violated)."},
{"property": "C138", "status": "partial", "theorems": ["Verif.Str.own_arena_partial", "Verif.Str.own_arena_place_partial", "Verif.Str.own_arena_ops_partial", "Verif.Str.own_arena_violated"], "note": "Partial because swap of strings with different allocators exchanges the buffers only (own_arena_violated)."},
{"property": "C139", "status": "proved", "theorems": ["Verif.Str.arena_strings_placed", "Verif.Str.arena_strings_apart"], "note": "The model of strings (Verif/Str) and that of the arena (Verif/Arena) side by side."},
{"property": "C140", "status": "proved", "theorems": ["Verif.Str.capacity_bounded", "Verif.Str.capacity_bounded_caught"], "note": "With caught failures of the calls that make, lengthen or shorten a string or ask for room; caught failures of assignments, insert, replace, getline and >> and refused reallocs (C81) are outside the statement."},
{"property": "C141", "status": "proved", "theorems": ["Verif.Str.relocate_is_move", "Verif.Str.relocated_contents", "Verif.Str.relocated_ops", "Verif.Str.relocated_buffers", "Verif.Str.relocated_data"], "note": "stdb_vector does not look at IsRelocatable; for what it does with types declared relocatable to it see C76."},
{"property": "C142", "status": "partial", "theorems": ["Verif.Str.building_memory_partial", "Verif.Str.building_memory_caught_partial", "Verif.Str.resize_memory_violated"], "note": "False for resize, with a witness. building_memory_caught_partial has also the calls that fail for lack of memory and are caught (unless a realloc was refused, which strings on an arena never make)."},
{"property": "C143", "status": "partial", "theorems": ["Verif.Str.view_spec", "Verif.Str.to_std_spec", "Verif.Str.std_round_trip", "Verif.Str.format_partial", "Verif.Str.format_violated"], "note": "Errors of fmt end the program, in every state."},
{"property": "C144", "status": "partial", "theorems": ["Verif.Str.std_refused", "Verif.Str.std_accepted", "Verif.Str.no_arena_partial", "Verif.Str.default_ctor_partial", "Verif.Str.default_ctor_violated", "Verif.Str.no_arena_violated"], "note": "The default constructor ends the program in debug builds, and release builds make the string, for all states."},
{"property": "C145", "status": "proved", "theorems": ["Verif.Vector.shells_untouched", "Verif.Vector.values_in_vectors", "Verif.Vector.owners_released"], "note": "For types declared Relocatable see C76; for trivially copyable types there is nothing to release. Allocation failure is not covered."},
{"property": "C146", "status": "partial", "theorems": ["Verif.Vector.comparison_partial", "Verif.Vector.comparison_any", "Verif.Vector.equality_any", "Verif.Vector.comparison_violated"], "note": "False for elements that are not ordered (NaN), with a witness."},
{"property": "C147", "status": "partial", "theorems": ["Verif.Str.Ranges.ranges_reached", "Verif.Str.Ranges.ranges_meet_spec", "Verif.Str.Ranges.ranges_throw", "Verif.Str.Ranges.forward_meets_spec", "Verif.Str.Ranges.forward_throw_partial", "Verif.Str.Ranges.forward_throw_violated", "Verif.Str.Ranges.replace_meets_spec", "Verif.Str.Ranges.replace_throw_partial", "Verif.Str.Ranges.replace_throw_violated", "Verif.Str.Ranges.replace_ends_violated", "Verif.Str.Ranges.make_forward"], "note": "Proved for single pass iterators and for ranges that do not throw. For forward iterators that throw in insert, append, replace and assign the negation is proved in every reachable state; forward_throw_partial and replace_throw_partial say what does hold. The constructor holds for forward iterators too (make_forward)."},
{"property": "C148", "status": "partial", "theorems": ["Verif.Str.failed_call_partial", "Verif.Str.failed_call_arena", "Verif.Str.failed_insert_partial", "Verif.Str.failed_insert_violated", "Verif.Str.failed_new", "Verif.Str.failed_clone_partial", "Verif.Str.failed_clone_violated", "Verif.Str.failed_clone_everywhere_violated"], "note": "New strings: without condition. On an arena without condition for all calls but insert, which needs a string that shares nothing; on the heap unless the refused request was a realloc (C81). For insert on a shared string the negation is proved with a witness, for clone() on an arena in every state and for every long string that is not shared."},
{"property": "C149", "status": "partial", "theorems": ["Verif.Vector.fill_throws_partial", "Verif.Vector.fill_query_throws_partial", "Verif.Vector.write_buffer_throws_violated", "Verif.Vector.fillThrowing_never"], "note": "Holds for fill; violated for get_writebuffer in every state. fillThrowing_never ties the function to the model."},
{"property": "C150", "status": "partial", "theorems": ["Verif.Arena.std_container_grows_partial", "Verif.Arena.refused_memory_violated"], "note": "Holds unless block_alloc refuses a request of the same call; violated in every state in which it does and the current block has no room."}
]}
