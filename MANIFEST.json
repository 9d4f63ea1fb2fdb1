{
 "claims": [
  {
   "property": "C01",
   "status": "partial",
   "theorems": [
    "Maa.Prime.C01_is_prime_exact_partial",
    "Maa.Prime.C01_is_prime_sound",
    "Maa.Prime.C01_refuted_at_one",
    "Maa.Prime.C01_refuted_by_wraparound"
   ],
   "note": "Exact for every 32-bit value except 1 and 4294967291 (the largest 32-bit prime), where the code is wrong: both refuted."
  },
  {
   "property": "C02",
   "status": "partial",
   "theorems": [
    "Maa.Prime.C02_next_prime_least_partial",
    "Maa.Prime.C02_next_prime_bertrand",
    "Maa.Prime.C02_next_prime_terminates",
    "Maa.Prime.C02_refuted_small",
    "Maa.Prime.C02_refuted_top"
   ],
   "note": "Least odd prime for every start from 2 to 4294967279; for all other starts the code answers 1 (proved): false at 0, 1 and 4294967280..4294967291."
  },
  {
   "property": "C03",
   "status": "partial",
   "theorems": [
    "Maa.Bit.C03_bits_partial",
    "Maa.Bit.C03_word_exact",
    "Maa.Bit.C03_refuted_high_bits",
    "Maa.Bit.C03_shift_ub"
   ],
   "note": "Proved for tested bits 0..31 and for the stored word at all 64 bits; refuted for testing bits 32..63."
  },
  {
   "property": "C04",
   "status": "proved",
   "theorems": [
    "Maa.Bit.C04_bit_cnt",
    "Maa.Bit.C04_bit_cnt_32"
   ],
   "note": "Both the 64-bit and the 32-bit branch."
  },
  {
   "property": "C05",
   "status": "proved",
   "theorems": [
    "Maa.Hash.C05_hash_table_is_finite_map",
    "Maa.Hash.C05_never_aborts",
    "Maa.Hash.C05_spec_is_map",
    "Maa.HashHeap.C05_pointers",
    "Maa.HashHeap.C05_pointers_memory"
   ],
   "note": "All histories of insert/delete/retrieve/readonly, any lawful hash and compare functions."
  },
  {
   "property": "C06",
   "status": "proved",
   "theorems": [
    "Maa.Hash.C06_stats_truthful",
    "Maa.HashHeap.C06_pointers"
   ],
   "note": "All reachable tables."
  },
  {
   "property": "C07",
   "status": "proved",
   "theorems": [
    "Maa.Hash.C07_iterate"
   ],
   "note": "Any stateful callback that does not modify the table."
  },
  {
   "property": "C08",
   "status": "proved",
   "theorems": [
    "Maa.HashHeap.C08_position_iteration"
   ],
   "note": "HSH_ITERATE position loop after any history, body may look up any keys; pointer-level model."
  },
  {
   "property": "C09",
   "status": "partial",
   "theorems": [
    "Maa.Hash.C09_readonly_partial",
    "Maa.Hash.C09_flag_stays",
    "Maa.HashHeap.C09_refuted_position"
   ],
   "note": "Everything but the last clause; the last clause (a user-set flag stays set) is false of position iteration and refuted by C09_refuted_position."
  },
  {
   "property": "C10",
   "status": "proved",
   "theorems": [
    "Maa.Hash.C10_load_bounded",
    "Maa.Hash.C10_load_bounded_calls",
    "Maa.Hash.C10_size_never_zero",
    "Maa.Set.C10_set_load_bounded"
   ],
   "note": "All histories, bulk set operations included, during which no table had more than 715827880 entries (the bound keeps the prime search within 32 bits; also in terms of the number of calls)."
  },
  {
   "property": "C11",
   "status": "proved",
   "theorems": [
    "Maa.HashHeap.C11_pointers",
    "Maa.HashHeap.C11_pointers_memory",
    "Maa.Set.C11_sets_are_mathematical_sets",
    "Maa.Set.C11_spec_is_set",
    "Maa.Set.C11_member_total",
    "Maa.SetHeap.C11_pointers_many",
    "Maa.SetHeap.C11_pointers_many_memory"
   ],
   "note": "All histories over any number of sets, at chain level and with all sets' chains in one memory (C11_pointers_many); every live cell belongs to exactly one live set."
  },
  {
   "property": "C12",
   "status": "proved",
   "theorems": [
    "Maa.Set.C12_union",
    "Maa.Set.C12_inter",
    "Maa.Set.C12_diff",
    "Maa.Set.C12_different_functions"
   ],
   "note": "All reachable operands, aliased ones included; C11_pointers_many covers the walks through shared memory."
  },
  {
   "property": "C13",
   "status": "partial",
   "theorems": [
    "Maa.HashHeap.C13_refuted_add_self",
    "Maa.HashHeap.C13_refuted_del_self",
    "Maa.Set.C13_add_partial",
    "Maa.Set.C13_del_partial",
    "Maa.SetHeap.C13_any_arguments_partial",
    "Maa.SetHeap.C13_add_self",
    "Maa.SetHeap.C13_del_self"
   ],
   "note": "Two different sets proved. With the same set passed twice the property is false of the code; which self-calls are harmless, abort or use freed memory is proved for every reachable set (C13_add_self, C13_del_self), and C13_any_arguments_partial covers all histories."
  },
  {
   "property": "C14",
   "status": "proved",
   "theorems": [
    "Maa.Set.C14_equal"
   ],
   "note": "All reachable operands."
  },
  {
   "property": "C15",
   "status": "proved",
   "theorems": [
    "Maa.HashHeap.C15_pointers",
    "Maa.Set.C15_count",
    "Maa.Set.C15_count_determined"
   ],
   "note": "All reachable sets."
  },
  {
   "property": "C16",
   "status": "proved",
   "theorems": [
    "Maa.HashHeap.C16_position_iteration",
    "Maa.HashHeap.C16_iterate_with_calls",
    "Maa.HashHeap.C16_callback_cannot_modify",
    "Maa.Set.C16_iterate"
   ],
   "note": "set_iterate / set_iterate_arg at chain level, with callbacks that call the library at pointer level, SET_ITERATE position loop at pointer level."
  },
  {
   "property": "C17",
   "status": "proved",
   "theorems": [
    "Maa.Stack.C17_stacks_are_lifo",
    "Maa.Stack.C17_no_leak",
    "Maa.Stack.C17_push_pop"
   ],
   "note": "Pointer-level, any number of stacks, any history; memory returned."
  },
  {
   "property": "C18",
   "status": "proved",
   "theorems": [
    "Maa.Lst.C18_lists_are_sequences",
    "Maa.Lst.C18_every_call"
   ],
   "note": "Any number of lists sharing the node pool, all histories (lst_truncate with lengths 0 and 1, see C19); pointer level with the real node pool."
  },
  {
   "property": "C19",
   "status": "partial",
   "theorems": [
    "Maa.Lst.C19_truncate_partial",
    "Maa.Lst.C19_refuted",
    "Maa.Lst.C19_refuted_example"
   ],
   "note": "Proved for n <= 1 or n >= length; for 1 < n < length the property is false of the code: NULL dereference (C19_refuted)."
  },
  {
   "property": "C20",
   "status": "proved",
   "theorems": [
    "Maa.Lst.C20_truncate_position_restores"
   ],
   "note": "All reachable states; besides appends also any calls on other lists and queries."
  },
  {
   "property": "C21",
   "status": "proved",
   "theorems": [
    "Maa.Lst.C21_positions",
    "Maa.Lst.C21_set_position"
   ],
   "note": "All reachable lists."
  },
  {
   "property": "C22",
   "status": "proved",
   "theorems": [
    "Maa.Objects.C22_pool_books",
    "Maa.Objects.C22_next_call",
    "Maa.Objects.C22_destroy"
   ],
   "note": "Over all get/free histories of an object pool and its destruction."
  },
  {
   "property": "C23",
   "status": "proved",
   "theorems": [
    "Maa.StrMem.C23_strings_stay",
    "Maa.StrMem.C23_next_call",
    "Maa.StrMem.C23_grow_finish",
    "Maa.StrMem.C23_destroy"
   ],
   "note": "All histories of strcpy/strncpy/grow/finish on a new string memory, byte level, any initial memory."
  },
  {
   "property": "C24",
   "status": "partial",
   "theorems": [
    "Maa.StrPool.C24_pool_copyn_partial",
    "Maa.StrPool.C24_pool_copyn_refuted",
    "Maa.StrPool.C24_copyn_partial",
    "Maa.Arg.C24_arg_addn_partial",
    "Maa.StrMem.C24_strncpy_partial",
    "Maa.StrMem.C24_not_terminated",
    "Maa.StrMem.C24_reads_too_far"
   ],
   "note": "Proved: the copy has the n bytes given, followed by the byte found after them, for mem_strncpy and for str_pool_copyn, str_copyn and arg_addn built on it; that this byte is NUL is false in general: C24_not_terminated, C24_pool_copyn_refuted; one byte too many is read: C24_reads_too_far."
  },
  {
   "property": "C25",
   "status": "proved",
   "theorems": [
    "Maa.StrMem.C25_stats",
    "Maa.StrMem.C25_stats_disciplined"
   ],
   "note": "Exact values of mem_get_string_stats after any history (without abandoned pieces: as documented)."
  },
  {
   "property": "C26",
   "status": "proved",
   "theorems": [
    "Maa.StrPool.C26_interns",
    "Maa.StrPool.C26_no_failure",
    "Maa.StrPool.C26_exists",
    "Maa.StrPool.C26_destroy",
    "Maa.StrPool.C26_global_no_failure"
   ],
   "note": "All permitted histories from any sound initial memory; pointer and byte level; also the global pool."
  },
  {
   "property": "C27",
   "status": "partial",
   "theorems": [
    "Maa.StrPool.C27_finish_partial",
    "Maa.StrPool.C27_refuted"
   ],
   "note": "Proved when the concatenation is not yet pooled; false otherwise (C27_refuted: finish returns another pointer than find, for every such history)."
  },
  {
   "property": "C28",
   "status": "partial",
   "theorems": [
    "Maa.StrPool.C28_visits",
    "Maa.StrPool.C28_usable_partial",
    "Maa.StrPool.C28_refuted"
   ],
   "note": "Visits proved for both; usable afterwards for str_pool_iterate_arg and for completed str_pool_iterate; false for an early stop of str_pool_iterate (C28_refuted)."
  },
  {
   "property": "C29",
   "status": "partial",
   "theorems": [
    "Maa.StrPool.C29_unique_partial",
    "Maa.StrPool.C29_numbers_grow",
    "Maa.StrPool.C29_refuted"
   ],
   "note": "Proved for every reachable state in which the global pool exists; false at program start and after str_destroy (C29_refuted: NULL dereference). The counter is unbounded in the model."
  },
  {
   "property": "C30",
   "status": "proved",
   "theorems": [
    "Maa.Arg.C30_vector",
    "Maa.Arg.C30_destroy"
   ],
   "note": "All permitted histories; bounds of the vector checked in the model (a write outside is ub). arg_addn items are the len+1 bytes mem_strncpy copies (C24)."
  },
  {
   "property": "C31",
   "status": "proved",
   "theorems": [
    "Maa.Arg.C31_rules_total",
    "Maa.Arg.C31_argify"
   ],
   "note": "All NUL-terminated strings, all styles; rules given as an independent grammar, total and unambiguous."
  },
  {
   "property": "C32",
   "status": "proved",
   "theorems": [
    "Maa.Arg.C32_round_trip"
   ],
   "note": "All argument vectors."
  },
  {
   "property": "C33",
   "status": "partial",
   "theorems": [
    "Maa.BaseN.C33_encode",
    "Maa.BaseN.C33_decode",
    "Maa.BaseN.C33_decode_buf",
    "Maa.BaseN.C33_roundtrip_partial",
    "Maa.BaseN.C33_high_bit_undefined",
    "Maa.BaseN.C33_high_bit_wrong",
    "Maa.BaseN.C33_illegal",
    "Maa.BaseN.C33_seven_digits_undefined"
   ],
   "note": "encode, decode of <=6 digits worth < 2^31, abort on illegal character and the round trip below 2^31 proved; the round trip is false of the code from 2^31 on (signed shift): C33_high_bit_undefined, C33_high_bit_wrong"
  },
  {
   "property": "C34",
   "status": "partial",
   "theorems": [
    "Maa.BaseN.C34_encode",
    "Maa.BaseN.C34_decode",
    "Maa.BaseN.C34_roundtrip_partial",
    "Maa.BaseN.C34_seven_letters_undefined",
    "Maa.BaseN.C34_roundtrip_wrapping_partial",
    "Maa.BaseN.C34_large_wrong",
    "Maa.BaseN.C34_illegal"
   ],
   "note": "encode, decode of <=6 letters, abort on illegal character and the round trip below 26^6 proved (below 7*26^6 with wrapping int); false of the code above: C34_seven_letters_undefined, C34_large_wrong"
  },
  {
   "property": "C35",
   "status": "proved",
   "theorems": [
    "Maa.BaseN.C35_history_irrelevant"
   ],
   "note": "all histories of calls"
  },
  {
   "property": "C36",
   "status": "proved",
   "theorems": [
    "Maa.Text.C36_format",
    "Maa.Text.C36_five_bytes_needed",
    "Maa.Text.C36_static_buffer"
   ],
   "note": ""
  },
  {
   "property": "C37",
   "status": "proved",
   "theorems": [
    "Maa.Text.C37_soundex_correct",
    "Maa.Text.C37_case_and_nonletters"
   ],
   "note": ""
  },
  {
   "property": "C38",
   "status": "proved",
   "theorems": [
    "Maa.Sl.C38_ordered_map",
    "Maa.Sl.C38_find"
   ],
   "note": "any number of lists, all total orders, all random() results"
  },
  {
   "property": "C39",
   "status": "proved",
   "theorems": [
    "Maa.Sl.C39_iterate",
    "Maa.Sl.C39_null",
    "Maa.Sl.C39_iterate_arg"
   ],
   "note": ""
  },
  {
   "property": "C40",
   "status": "proved",
   "theorems": [
    "Maa.Sl.C40_no_undefined_behaviour",
    "Maa.Sl.C40_bookkeeping",
    "Maa.Sl.C40_no_leak",
    "Maa.Sl.C40_random_level"
   ],
   "note": ""
  },
  {
   "property": "C41",
   "status": "partial",
   "theorems": [
    "Maa.Flags.C41_flg_history_exact",
    "Maa.Flags.C41_dbg_history_exact",
    "Maa.Flags.C41_flg_history_partial",
    "Maa.Flags.C41_dbg_history_partial",
    "Maa.Flags.C41_spec_switches",
    "Maa.Flags.C41_group_two_refuted",
    "Maa.Flags.C41_group_two_alias_refuted"
   ],
   "note": "Histories that test no flag of group 2 behave like independent named switches (flags.c and debug.c); the exact behaviour including group 2 (read as group 3) is also proved, and the failure of the claim for group 2 is proved."
  },
  {
   "property": "C42",
   "status": "partial",
   "theorems": [
    "Maa.Flags.C42_flg_register_partial",
    "Maa.Flags.C42_flg_associates",
    "Maa.Flags.C42_dbg_register_partial",
    "Maa.Flags.C42_reuse_refuted"
   ],
   "note": "Malformed flags and both-high-bits are rejected, exactly; association proved; reused flags are NOT rejected by the code (refuted)."
  },
  {
   "property": "C43",
   "status": "partial",
   "theorems": [
    "Maa.Flags.C43_flg_set_unknown",
    "Maa.Flags.C43_dbg_set_unknown_partial",
    "Maa.Flags.C43_dbg_refuted"
   ],
   "note": "flg_set proved in full; dbg_set only for names that do not start with + or - and whose tail is not registered; the remaining cases are refuted by concrete runs."
  },
  {
   "property": "C44",
   "status": "partial",
   "theorems": [
    "Maa.Timer.C44_timers_partial",
    "Maa.Timer.C44_error_bound",
    "Maa.Timer.C44_microseconds_refuted",
    "Maa.Timer.C44_unknown_aborts",
    "Maa.Timer.C44_spec_independent"
   ],
   "note": "Independence, aborts and whole-second behaviour proved for all histories; microsecond resolution is refuted (integer division), with a proved error bound of one second."
  },
  {
   "property": "C45",
   "status": "partial",
   "theorems": [
    "Maa.Log.C45_log_history",
    "Maa.Log.C45_silent_after_close",
    "Maa.Log.C45_empty_name",
    "Maa.Log.C45_long_name_refuted"
   ],
   "note": "history refinement against a specification of the sinks; strftime expansion, descriptors, clock and host are call parameters; a pattern expanding to the empty name opens nothing (C45_empty_name); missing: a pattern that stands for a name longer than the buffer is undefined behaviour (C45_long_name_refuted)"
  },
  {
   "property": "C46",
   "status": "proved",
   "theorems": [
    "Maa.Pr.C46_children",
    "Maa.Pr.C46_double_kill_refuted"
   ],
   "note": "history refinement to a map descriptor->child; a child with two open descriptors is killed twice at shutdown (C46_double_kill_refuted)"
  },
  {
   "property": "C47",
   "status": "partial",
   "theorems": [
    "Maa.Pr.C47_readwrite_partial",
    "Maa.Pr.C47_no_nonblock",
    "Maa.Pr.C47_returns",
    "Maa.Pr.C47_filter",
    "Maa.Pr.C47_large_descriptor_refuted",
    "Maa.Pr.C47_truncation_refuted",
    "Maa.Pr.C47_no_input_refuted"
   ],
   "note": "all schedules of partial I/O; refuted: output that exactly fills the buffer is silently cut (C47_truncation_refuted), empty input never closes the child's stdin (C47_no_input_refuted), descriptors of 1024 or more (C47_large_descriptor_refuted); progress: C47_returns; pr_filter: C47_filter"
  },
  {
   "property": "C48",
   "status": "proved",
   "theorems": [
    "Maa.Pr.C48_flags",
    "Maa.Pr.C48_wait"
   ],
   "note": "all 2^32 flag words, all Linux wait statuses"
  },
  {
   "property": "C49",
   "status": "partial",
   "theorems": [
    "Maa.Source.C49_history",
    "Maa.Source.C49_token_forever",
    "Maa.Source.C49_line_stored",
    "Maa.Source.C49_unterminated_refuted",
    "Maa.Source.C49_recreate_refuted"
   ],
   "note": "Proved for every history in which each line is NUL-terminated and the manager is not re-created after 1000 stored lines; the two remaining cases are false of the code (C49_unterminated_refuted, C49_recreate_refuted)."
  },
  {
   "property": "C50",
   "status": "partial",
   "theorems": [
    "Maa.Prs.C50_concrete",
    "Maa.Source.C50_unique",
    "Maa.Source.C50_total",
    "Maa.Source.C50_rewriting_partial",
    "Maa.Source.C50_open_symbol_refuted",
    "Maa.Source.C50_long_symbol_refuted",
    "Maa.Source.C50_parse_error_partial",
    "Maa.Source.C50_no_message",
    "Maa.Source.C50_no_token"
   ],
   "note": "Proved for messages with no open symbol and symbol names under 1022 bytes; in both remaining cases the code reads or writes out of bounds (refuted)."
  },
  {
   "property": "C51",
   "status": "proved",
   "theorems": [
    "Maa.Err.C51_basename",
    "Maa.Err.C51_unique",
    "Maa.Err.C51_null"
   ],
   "note": "all path strings"
  },
  {
   "property": "C52",
   "status": "proved",
   "theorems": [
    "Maa.CStr.C52_strings",
    "Maa.CStr.C52_string_hash",
    "Maa.CStr.C52_null_string",
    "Maa.CStr.C52_string_order",
    "Maa.CStr.C52_pointer_order",
    "Maa.CStr.C52_pointer_hash_formula",
    "Maa.CStr.C52_pointer_hash",
    "Maa.CStr.C52_pointer_table",
    "Maa.NameTab.C52_string_table"
   ],
   "note": "the built-in functions, and the table theorems instantiated with them"
  },
  {
   "property": "C53",
   "status": "partial",
   "theorems": [
    "Maa.Lib.C53_total_name",
    "Maa.Lib.C53_parts",
    "Maa.Lib.C53_maa_shutdown",
    "Maa.Lib.C53_maa_init",
    "Maa.Lib.C53_maa_switches",
    "Maa.Lib.C53_total_stays",
    "Maa.Lib.C53_maa_again_refuted",
    "Maa.Prs.C53_prs_refuted"
   ],
   "note": "Every single shutdown function and one maa_shutdown after maa_init: proved. A second maa_shutdown (or one without maa_init) aborts: the claim is false there (C53_maa_again_refuted). _sl_shutdown leaves the separately allocated entries; _prs_shutdown not in the model of the world."
  },
  {
   "property": "C54",
   "status": "proved",
   "theorems": [
    "Maa.StrPool.C54_findn"
   ],
   "note": "All reachable global states."
  },
  {
   "property": "C55",
   "status": "proved",
   "theorems": [
    "Maa.Flags.C55_flg_list",
    "Maa.Flags.C55_dbg_list",
    "Maa.Flags.C55_list_none_registered"
   ],
   "note": ""
  },
  {
   "property": "C56",
   "status": "proved",
   "theorems": [
    "Maa.Flags.C56_flg_name",
    "Maa.Flags.C56_none_registered"
   ],
   "note": ""
  },
  {
   "property": "C57",
   "status": "proved",
   "theorems": [
    "Maa.Log.C57_message"
   ],
   "note": "message text is taken after formatting"
  },
  {
   "property": "C58",
   "status": "proved",
   "theorems": [
    "Maa.Log.C58_names",
    "Maa.Log.C58_facility",
    "Maa.Log.C58_kern_refuted"
   ],
   "note": "fallback facility table of log.c (no kern: C58_kern_refuted)"
  },
  {
   "property": "C59",
   "status": "proved",
   "theorems": [
    "Maa.Pr.C59_child",
    "Maa.Pr.C59_low_descriptor_refuted"
   ],
   "note": "needs descriptors above 2 (C59_low_descriptor_refuted)"
  },
  {
   "property": "C60",
   "status": "proved",
   "theorems": [
    "Maa.Source.C60_cpp_line",
    "Maa.Source.C60_cpp_line_number",
    "Maa.Source.C60_cpp_line_word",
    "Maa.Source.C60_short_line_aborts"
   ],
   "note": "All texts, states and numbers that fit an int."
  },
  {
   "property": "C61",
   "status": "proved",
   "theorems": [
    "Maa.Source.C61_marked",
    "Maa.Source.C61_null_stream_refuted"
   ],
   "note": "All tokens of all histories; a NULL stream, which the documentation allows, is refuted by C61_null_stream_refuted."
  },
  {
   "property": "C62",
   "status": "partial",
   "theorems": [
    "Maa.Err.C62_warning",
    "Maa.Err.C62_fatal",
    "Maa.Err.C62_internal",
    "Maa.Err.C62_fatal_errno",
    "Maa.Err.C62_log_takes",
    "Maa.Err.C62_null_routine_refuted",
    "Maa.Err.C62_rotation_refuted"
   ],
   "note": "Formats and endings proved; with a NULL routine err_fatal_errno is undefined, and when a log file rotates and cannot be reopened err_warning/err_internal exit with status 1: the claim is false there (both refuted)."
  },
  {
   "property": "C63",
   "status": "proved",
   "theorems": [
    "Maa.Hash.C63_hash_counters",
    "Maa.Hash.C63_hash_repeated_lookup",
    "Maa.Set.C63_set_counters",
    "Maa.Set.C63_set_repeated_lookup"
   ],
   "note": "hash tables and sets; single calls in every reachable state"
  },
  {
   "property": "C64",
   "status": "proved",
   "theorems": [
    "Maa.HashHeap.C64_iterate_with_calls",
    "Maa.HashHeap.C64_delete_while_iterating",
    "Maa.HashHeap.C64_refuted_lookup",
    "Maa.HashHeap.C64_refuted_delete_next",
    "Maa.HashHeap.C64_refuted_insert"
   ],
   "note": "proved for all callbacks that only touch visited, current or absent keys; the unsafe uses are refuted with witnesses"
  },
  {
   "property": "C65",
   "status": "proved",
   "theorems": [
    "Maa.Timer.C65_print_timers",
    "Maa.Timer.C65_print_timer",
    "Maa.Timer.C65_values_kept"
   ],
   "note": "every reachable state"
  },
  {
   "property": "C66",
   "status": "proved",
   "theorems": [
    "Maa.StrPool.C66_zero",
    "Maa.StrPool.C66_stats",
    "Maa.StrPool.C66_totals",
    "Maa.StrPool.C66_global"
   ],
   "note": "pools and the global pool"
  },
  {
   "property": "C67",
   "status": "proved",
   "theorems": [
    "Maa.StrPool.C67_iterate",
    "Maa.StrPool.C67_iterate_arg",
    "Maa.StrPool.C67_no_new_strings",
    "Maa.StrPool.C67_readonly_refuted"
   ],
   "note": "all pools and bodies; str_pool_readonly (the remedy for loops left early) is refuted"
  },
  {
   "property": "C68",
   "status": "proved",
   "theorems": [
    "Maa.NameTab.C68_key_strings"
   ],
   "note": "every reachable table of strings"
  },
  {
   "property": "C69",
   "status": "proved",
   "theorems": [
    "Maa.Tables.C69_many_tables",
    "Maa.Tables.C69_independent",
    "Maa.Tables.C69_memory",
    "Maa.Tables.C69_loop"
   ],
   "note": "any number of tables; loop bodies may not switch the flag of the walked table"
  },
  {
   "property": "C70",
   "status": "proved",
   "theorems": [
    "Maa.Xmalloc.C70_blocks",
    "Maa.Xmalloc.C70_apart",
    "Maa.Xmalloc.C70_xmalloc",
    "Maa.Xmalloc.C70_xcalloc",
    "Maa.Xmalloc.C70_xrealloc",
    "Maa.Xmalloc.C70_xstrdup",
    "Maa.Xmalloc.C70_xfree",
    "Maa.Xmalloc.C70_xfree_null",
    "Maa.Xmalloc.C70_realloc_zero_refuted"
   ],
   "note": "all allocators; xrealloc(p,0) may end the program although there is memory (refuted)"
  },
  {
   "property": "C71",
   "status": "proved",
   "theorems": [
    "Maa.Objects.C71_objects",
    "Maa.Objects.C71_many_objects",
    "Maa.StrMem.C71_strings",
    "Maa.StrMem.C71_many_strings",
    "Maa.HashHeap.C71_hash",
    "Maa.HashHeap.C71_many_hash"
   ],
   "note": "Object pools, string memories and hash tables, one or any number in one memory; foreign activity is an arbitrary change of memory outside the containers."
  },
  {
   "property": "C72",
   "status": "proved",
   "theorems": [
    "Maa.PrintStats.C72_hash",
    "Maa.PrintStats.C72_set",
    "Maa.PrintStats.C72_objects",
    "Maa.PrintStats.C72_strings",
    "Maa.PrintStats.C72_pool",
    "Maa.PrintStats.C72_global",
    "Maa.PrintStats.C72_source",
    "Maa.PrintStats.C72_list",
    "Maa.PrintStats.C72_skip_list"
   ],
   "note": "What %p and %.1f write is a parameter. The hits number is that of the *_get_stats call (bounded in C06)."
  },
  {
   "property": "C73",
   "status": "proved",
   "theorems": [
    "Maa.SetHeap.C73_programs",
    "Maa.SetHeap.C73_memory",
    "Maa.SetHeap.C73_nested_macro_refuted"
   ],
   "note": "nested walks: C73_programs; memory: C73_memory; the rule about nested SET_ITERATE is needed: C73_nested_macro_refuted"
  },
  {
   "property": "C74",
   "status": "proved",
   "theorems": [
    "Maa.Tables.C74_programs",
    "Maa.Tables.C74_memory",
    "Maa.Tables.C74_nested_macro_refuted"
   ],
   "note": "nested walks: C74_programs; memory: C74_memory; the rule about nested HSH_ITERATE is needed: C74_nested_macro_refuted; the rules for hsh_iterate are needed: C64_refuted_*"
  },
  {
   "property": "C75",
   "status": "proved",
   "theorems": [
    "Maa.Tables.C75_hash_tables",
    "Maa.SetHeap.C75_sets",
    "Maa.Objects.C75_objects",
    "Maa.StrMem.C75_strings",
    "Maa.StrMem.C75_bytes_reach",
    "Maa.Arg.C75_arguments",
    "Maa.Lst.C75_lists",
    "Maa.Sl.C75_skip_lists",
    "Maa.Source.C75_source",
    "Maa.StrPool.C75_unique_counter",
    "Maa.StrPool.C75_unique_counter_int"
   ],
   "note": "statistics counters of sets (retrievals, hits, misses, resizings) not bounded; the bound on bytes is reached (C75_bytes_reach)"
  },
  {
   "property": "C76",
   "status": "proved",
   "theorems": [
    "Maa.Lst.C76_programs",
    "Maa.Lst.C76_iterate2",
    "Maa.Lst.C76_removed_refuted"
   ],
   "note": "from every reachable state; the rule about removed elements is shown necessary by a witness"
  },
  {
   "property": "C77",
   "status": "proved",
   "theorems": [
    "Maa.Sl.C77_programs",
    "Maa.Sl.C77_memory",
    "Maa.Sl.C77_no_key_refuted"
   ],
   "note": "no rules; memory statement included"
  },
  {
   "property": "C78",
   "status": "partial",
   "theorems": [
    "Maa.Oom.C78_hash_tables",
    "Maa.Oom.C78_sets",
    "Maa.Oom.C78_hash_requests",
    "Maa.Oom.C78_set_requests",
    "Maa.Oom.C78_stacks_partial",
    "Maa.Oom.C78_stack_requests",
    "Maa.Oom.C78_push_refuted",
    "Maa.Oom.C78_create_orderly",
    "Maa.Oom.C78_objects_partial",
    "Maa.Oom.C78_object_requests",
    "Maa.Oom.C78_free_object_refuted",
    "Maa.Oom.C78_new_object",
    "Maa.Oom.C78_strings_partial",
    "Maa.Oom.C78_string_requests",
    "Maa.Oom.C78_new_string",
    "Maa.Oom.C78_lists_partial",
    "Maa.Oom.C78_list_requests",
    "Maa.Oom.C78_pop_refuted",
    "Maa.Oom.C78_pools_partial",
    "Maa.Oom.C78_pool_requests",
    "Maa.Oom.C78_skiplists_partial",
    "Maa.Oom.C78_skiplist_requests",
    "Maa.Oom.C78_sl_destroy_refuted",
    "Maa.Oom.C78_sl_insert_orderly",
    "Maa.Oom.C78_flags",
    "Maa.Oom.C78_debug",
    "Maa.Oom.C78_timers",
    "Maa.Oom.C78_flag_requests",
    "Maa.Oom.C78_debug_requests",
    "Maa.Oom.C78_timer_requests",
    "Maa.Oom.C78_args_partial",
    "Maa.Oom.C78_argify_partial",
    "Maa.Oom.C78_arg_requests",
    "Maa.Oom.C78_arg_refuted",
    "Maa.Oom.C78_global_strings_partial",
    "Maa.Oom.C78_names_partial",
    "Maa.Oom.C78_token_refuted",
    "Maa.Oom.C78_nothing_left",
    "Maa.Oom.C78_source_requests",
    "Maa.Oom.C78_global_requests",
    "Maa.Oom.C78_names_requests",
    "Maa.Oom.C78_children_partial",
    "Maa.Oom.C78_argify_requests",
    "Maa.Oom.C78_children_requests",
    "Maa.Oom.C78_maa_init",
    "Maa.Oom.C78_maa_init_requests"
   ],
   "note": "Proved in full for hash tables, sets, flags, debugging flags, timers and maa_init. For stacks and what is built on them (object pools, string memories and pools, lists, skip lists, argument lists, the log, the source manager, pr_open, pr_spawn) the program ends at the first refused request, but with undefined behaviour when that is the unchecked malloc of stk_push: refuted for stk_push, mem_free_object, lst_pop, lst_destroy, sl_destroy, arg_add, src_get and src_line."
  },
  {
   "property": "C79",
   "status": "partial",
   "theorems": [
    "Maa.Handles.C79_magic",
    "Maa.Handles.C79_null_partial",
    "Maa.Handles.C79_null_push",
    "Maa.Handles.C79_null_refuted",
    "Maa.Handles.C79_wrong_kind_partial",
    "Maa.Handles.C79_table_or_set",
    "Maa.Handles.C79_wrong_kind_refuted",
    "Maa.Handles.C79_two_sets",
    "Maa.Handles.C79_freed",
    "Maa.Handles.C79_right_kind",
    "Maa.Handles.C79_handles_partial",
    "Maa.Handles.C79_destroyed_sl",
    "Maa.Handles.C79_new_handle",
    "Maa.Handles.C79_no_memory",
    "Maa.Handles.C79_null_after"
   ],
   "note": "every function checks its handle first except the eight named in the refutations, which look into the structure before checking it; kinds of structures and prologues only, string pools have no magic number"
  },
  {
   "property": "C80",
   "status": "proved",
   "theorems": [
    "Maa.StrPool.C80_strings_stay",
    "Maa.StrPool.C80_copies_are_new",
    "Maa.StrPool.C80_copy",
    "Maa.StrPool.C80_returns_pointers"
   ],
   "note": "All permitted histories from any sound initial memory, any allocator."
  },
  {
   "property": "C81",
   "status": "proved",
   "theorems": [
    "Maa.PrExec.C81_open",
    "Maa.PrExec.C81_spawn",
    "Maa.PrExec.C81_quoted",
    "Maa.PrExec.C81_refused",
    "Maa.PrExec.C81_no_child",
    "Maa.PrExec.C81_empty_undefined"
   ],
   "note": "For all commands with at least one word; what happens without words is stated by C81_empty_undefined."
  },
  {
   "property": "C82",
   "status": "proved",
   "theorems": [
    "Maa.HashHeap.C82_table_growth",
    "Maa.HashHeap.C82_set_growth",
    "Maa.HashHeap.C82_table_requests"
   ],
   "note": "Hash tables and single sets, all histories adding at most 715827880 keys (beyond, the next size wraps around 32 bits)."
  },
  {
   "property": "C83",
   "status": "proved",
   "theorems": [
    "Maa.Lst.C83_nodes_at_peak",
    "Maa.Lst.C83_new_node"
   ],
   "note": "All documented histories; the same for object pools is part of C22 (total is the peak)."
  },
  {
   "property": "C84",
   "status": "proved",
   "theorems": [
    "Maa.Names.C84_names",
    "Maa.Names.C84_log_after_destroy_refuted",
    "Maa.Names.C84_token_after_destroy_refuted"
   ],
   "note": "All safe histories; str_destroy while a name is in use is refuted."
  },
  {
   "property": "C85",
   "status": "proved",
   "theorems": [
    "Maa.ArgGram.C85_tables",
    "Maa.ArgGram.C85_last_newline",
    "Maa.ArgGram.C85_builds",
    "Maa.ArgGram.C85_argify",
    "Maa.ArgGram.C85_shipped",
    "Maa.ArgGram.C85_name_with_error_refuted"
   ],
   "note": "general in the grammar file; the shipped grammar is one instance; state names containing EXIT or ERROR are mistranslated (refutation beside it)"
  },
  {
   "property": "C86",
   "status": "proved",
   "theorems": [
    "Maa.Sl.C86_programs",
    "Maa.Sl.C86_safe",
    "Maa.Sl.C86_memory",
    "Maa.Sl.C86_one_list"
   ],
   "note": "for pure functions"
  },
  {
   "property": "C87",
   "status": "proved",
   "theorems": [
    "Maa.Sl.C87_same",
    "Maa.Sl.C87_programs",
    "Maa.Sl.C87_same_or_abort",
    "Maa.Sl.C87_check",
    "Maa.Sl.C87_caught",
    "Maa.Sl.C87_destroy_refuted"
   ],
   "note": "with the exception named in the statement, which is refuted in C87_destroy_refuted"
  },
  {
   "property": "C88",
   "status": "proved",
   "theorems": [
    "Maa.HashHeap.C88_hash",
    "Maa.HashHeap.C88_set",
    "Maa.HashHeap.C88_safe",
    "Maa.HashHeap.C88_set_safe",
    "Maa.HashHeap.C88_hash_state",
    "Maa.HashHeap.C88_set_state",
    "Maa.HashHeap.C88_changed_key",
    "Maa.HashHeap.C88_changed_key_lost",
    "Maa.HashHeap.C88_walk_refuted"
   ],
   "note": "Any hash and compare functions, answering differently from call to call if they like: hash tables and sets, walks, statistics, memory; one key changed in place. Functions are taken to answer the same throughout one call and not to call the library."
  },
  {
   "property": "C89",
   "status": "proved",
   "theorems": [
    "Maa.Borrowed.C89_table",
    "Maa.Borrowed.C89_flags",
    "Maa.Borrowed.C89_debug",
    "Maa.Borrowed.C89_changed_refuted",
    "Maa.Borrowed.C89_one_buffer_refuted",
    "Maa.Borrowed.C89_released_refuted",
    "Maa.Borrowed.C89_timers",
    "Maa.Borrowed.C89_timers_one_buffer_refuted"
   ],
   "note": "tables of strings, flags, debug names and timers by address, equal to the models by contents as long as the loans are kept; refutations for changed, released and reused buffers"
  },
  {
   "property": "C90",
   "status": "proved",
   "theorems": [
    "Maa.Symbols.C90_symbols",
    "Maa.Symbols.C90_pointer",
    "Maa.Symbols.C90_after_destroy_refuted",
    "Maa.Symbols.C90_reused_refuted"
   ],
   "note": "for histories in which str_destroy is called only when no symbols are registered (the only safe use); what happens otherwise is C90_after_destroy_refuted and C90_reused_refuted"
  },
  {
   "property": "C91",
   "status": "proved",
   "theorems": [
    "Maa.SetsLoose.C91_sets",
    "Maa.SetsLoose.C91_safe",
    "Maa.SetsLoose.C91_state",
    "Maa.SetsLoose.C91_add",
    "Maa.SetsLoose.C91_del",
    "Maa.SetsLoose.C91_union",
    "Maa.SetsLoose.C91_inter",
    "Maa.SetsLoose.C91_diff",
    "Maa.SetsLoose.C91_equal",
    "Maa.SetsLoose.C91_add_self_refuted"
   ],
   "note": "two different sets asked for in set_add/set_del; the same set twice is refuted (C91_add_self_refuted)"
  },
  {
   "property": "C92",
   "status": "proved",
   "theorems": [
    "Maa.DebugOut.C92_history",
    "Maa.DebugOut.C92_readwrite",
    "Maa.DebugOut.C92_select_text",
    "Maa.DebugOut.C92_off",
    "Maa.DebugOut.C92_readwrite_no_file",
    "Maa.DebugOut.C92_no_file",
    "Maa.DebugOut.C92_rotation_ends_program",
    "Maa.DebugOut.C92_no_word"
   ],
   "note": "What select answers is given to pr_readwrite's report as an argument. The errno a message may change before perror is not modelled."
  },
  {
   "property": "C93",
   "status": "proved",
   "theorems": [
    "Maa.Sl.C93_history",
    "Maa.Sl.C93_safe",
    "Maa.Sl.C93_then",
    "Maa.Sl.C93_one_list",
    "Maa.Sl.C93_in_order",
    "Maa.Sl.C93_find_fickle",
    "Maa.Sl.C93_constant",
    "Maa.Sl.C93_refuted_within_call"
   ],
   "note": "C93_refuted_within_call is the limit the property names: functions that change their mind during one sl_delete"
  },
  {
   "property": "C94",
   "status": "proved",
   "theorems": [
    "Maa.Syslog.C94_identity",
    "Maa.Syslog.C94_changed_refuted",
    "Maa.Syslog.C94_released_refuted"
   ],
   "note": "openlog of the C library is taken to keep the pointer, as glibc does and POSIX allows"
  },
  {
   "property": "C95",
   "status": "proved",
   "theorems": [
    "Maa.HashHeap.C95_same_call",
    "Maa.HashHeap.C95_hash_table",
    "Maa.HashHeap.C95_set",
    "Maa.HashHeap.C95_any_functions",
    "Maa.HashHeap.C95_set_any_functions",
    "Maa.HashHeap.C95_found_again",
    "Maa.HashHeap.C95_at_most"
   ],
   "note": "hash.c and set.c, calls on one key; the operations on two sets call set_insert and set_member (same search), but their traces are not stated"
  },
  {
   "property": "C96",
   "status": "proved",
   "theorems": [
    "Maa.Sl.C96_same_call",
    "Maa.Sl.C96_asked",
    "Maa.Sl.C96_at_most"
   ],
   "note": "sl_create/insert/delete/find/destroy; iteration calls neither function"
  },
  {
   "property": "C97",
   "status": "proved",
   "theorems": [
    "Maa.Set.C97_same_call",
    "Maa.Set.C97_asked",
    "Maa.Set.C97_hash_calls"
   ],
   "note": "chain-level model of the sets (Model/SetHeap.lean refines it, C11); set_add and set_del on two different sets"
  },
  {
   "property": "C98",
   "status": "proved",
   "theorems": [
    "Maa.Version.C98_version",
    "Maa.Version.C98_numbers",
    "Maa.Version.C98_again",
    "Maa.Version.C98_calls",
    "Maa.Version.C98_shutdown"
   ],
   "note": "the numbers printed by %d are Spec.decimalInt; writing to stderr never fails"
  },
  {
   "property": "C99",
   "status": "proved",
   "theorems": [
    "Maa.HashHeap.C99_hash_tables",
    "Maa.HashHeap.C99_sets",
    "Maa.HashHeap.C99_walk_with_calls",
    "Maa.HashHeap.C99_set_walk_with_calls",
    "Maa.SetsLoose.C99_many_sets",
    "Maa.SetsLoose.C99_many_sets_walk"
   ],
   "note": "in the histories walks call the library only for look-ups; walks with any callbacks are in C99_walk_with_calls and C99_set_walk_with_calls (lawful functions)"
  }
 ]
}