{
"C01": ["partial", "Exact for every 32-bit value except 1 and 4294967291 (the largest 32-bit prime), where the code is wrong: both refuted."],
"C02": ["partial", "Least odd prime for every start from 2 to 4294967279; for all other starts the code answers 1 (proved): false at 0, 1 and 4294967280..4294967291."],
"C03": ["partial", "Proved for tested bits 0..31 and for the stored word at all 64 bits; refuted for testing bits 32..63."],
"C04": ["proved", "Both the 64-bit and the 32-bit branch."],
"C05": ["proved", "All histories of insert/delete/retrieve/readonly, any lawful hash and compare functions."],
"C06": ["proved", "All reachable tables."],
"C07": ["proved", "Any stateful callback that does not modify the table."],
"C08": ["proved", "HSH_ITERATE position loop after any history, body may look up any keys; pointer-level model."],
"C09": ["partial", "Everything but the last clause; the last clause (a user-set flag stays set) is false of position iteration and refuted by C09_refuted_position."],
"C10": ["proved", "All histories, bulk set operations included, during which no table had more than 715827880 entries (the bound keeps the prime search within 32 bits; also in terms of the number of calls)."],
"C11": ["proved", "All histories over any number of sets, at chain level and with all sets' chains in one memory (C11_pointers_many); every live cell belongs to exactly one live set."],
"C12": ["proved", "All reachable operands, aliased ones included; C11_pointers_many covers the walks through shared memory."],
"C13": ["partial", "Two different sets proved. With the same set passed twice the property is false of the code; which self-calls are harmless, abort or use freed memory is proved for every reachable set (C13_add_self, C13_del_self), and C13_any_arguments_partial covers all histories."],
"C14": ["proved", "All reachable operands."],
"C15": ["proved", "All reachable sets."],
"C16": ["proved", "set_iterate / set_iterate_arg at chain level, with callbacks that call the library at pointer level, SET_ITERATE position loop at pointer level."],
"C17": ["proved", "Pointer-level, any number of stacks, any history; memory returned."],
"C18": ["proved", "Any number of lists sharing the node pool, all histories (lst_truncate with lengths 0 and 1, see C19); pointer level with the real node pool."],
"C19": ["partial", "Proved for n <= 1 or n >= length; for 1 < n < length the property is false of the code: NULL dereference (C19_refuted)."],
"C20": ["proved", "All reachable states; besides appends also any calls on other lists and queries."],
"C21": ["proved", "All reachable lists."],
"C22": ["proved", "Over all get/free histories of an object pool and its destruction."],
"C23": ["proved", "All histories of strcpy/strncpy/grow/finish on a new string memory, byte level, any initial memory."],
"C24": ["partial", "Proved: the copy has the n bytes given, followed by the byte found after them, for mem_strncpy and for str_pool_copyn, str_copyn and arg_addn built on it; that this byte is NUL is false in general: C24_not_terminated, C24_pool_copyn_refuted; one byte too many is read: C24_reads_too_far."],
"C25": ["proved", "Exact values of mem_get_string_stats after any history (without abandoned pieces: as documented)."],
"C26": ["proved", "All permitted histories from any sound initial memory; pointer and byte level; also the global pool."],
"C27": ["partial", "Proved when the concatenation is not yet pooled; false otherwise (C27_refuted: finish returns another pointer than find, for every such history)."],
"C28": ["partial", "Visits proved for both; usable afterwards for str_pool_iterate_arg and for completed str_pool_iterate; false for an early stop of str_pool_iterate (C28_refuted)."],
"C29": ["partial", "Proved for every reachable state in which the global pool exists; false at program start and after str_destroy (C29_refuted: NULL dereference). The counter is unbounded in the model."],
"C30": ["proved", "All permitted histories; bounds of the vector checked in the model (a write outside is ub). arg_addn items are the len+1 bytes mem_strncpy copies (C24)."],
"C31": ["proved", "All NUL-terminated strings, all styles; rules given as an independent grammar, total and unambiguous."],
"C32": ["proved", "All argument vectors."],
"C33": ["partial", "encode, decode of <=6 digits worth < 2^31, abort on illegal character and the round trip below 2^31 proved; the round trip is false of the code from 2^31 on (signed shift): C33_high_bit_undefined, C33_high_bit_wrong"],
"C34": ["partial", "encode, decode of <=6 letters, abort on illegal character and the round trip below 26^6 proved (below 7*26^6 with wrapping int); false of the code above: C34_seven_letters_undefined, C34_large_wrong"],
"C35": ["proved", "all histories of calls"],
"C36": ["proved", ""],
"C37": ["proved", ""],
"C38": ["proved", "any number of lists, all total orders, all random() results"],
"C39": ["proved", ""],
"C40": ["proved", ""],
"C41": ["partial", "Histories that test no flag of group 2 behave like independent named switches (flags.c and debug.c); the exact behaviour including group 2 (read as group 3) is also proved, and the failure of the claim for group 2 is proved."],
"C42": ["partial", "Malformed flags and both-high-bits are rejected, exactly; association proved; reused flags are NOT rejected by the code (refuted)."],
"C43": ["partial", "flg_set proved in full; dbg_set only for names that do not start with + or - and whose tail is not registered; the remaining cases are refuted by concrete runs."],
"C44": ["partial", "Independence, aborts and whole-second behaviour proved for all histories; microsecond resolution is refuted (integer division), with a proved error bound of one second."],
"C45": ["partial", "history refinement against a specification of the sinks; strftime expansion, descriptors, clock and host are call parameters; a pattern expanding to the empty name opens nothing (C45_empty_name); missing: a pattern that stands for a name longer than the buffer is undefined behaviour (C45_long_name_refuted)"],
"C46": ["proved", "history refinement to a map descriptor->child; a child with two open descriptors is killed twice at shutdown (C46_double_kill_refuted)"],
"C47": ["partial", "all schedules of partial I/O; refuted: output that exactly fills the buffer is silently cut (C47_truncation_refuted), empty input never closes the child's stdin (C47_no_input_refuted), descriptors of 1024 or more (C47_large_descriptor_refuted); progress: C47_returns; pr_filter: C47_filter"],
"C48": ["proved", "all 2^32 flag words, all Linux wait statuses"],
"C49": ["partial", "Proved for every history in which each line is NUL-terminated and the manager is not re-created after 1000 stored lines; the two remaining cases are false of the code (C49_unterminated_refuted, C49_recreate_refuted)."],
"C50": ["partial", "Proved for messages with no open symbol and symbol names under 1022 bytes; in both remaining cases the code reads or writes out of bounds (refuted)."],
"C51": ["proved", "all path strings"],
"C52": ["proved", "the built-in functions, and the table theorems instantiated with them"],
"C53": ["partial", "Every single shutdown function and one maa_shutdown after maa_init: proved. A second maa_shutdown (or one without maa_init) aborts: the claim is false there (C53_maa_again_refuted). _sl_shutdown leaves the separately allocated entries; _prs_shutdown not in the model of the world."],
"C54": ["proved", "All reachable global states."],
"C55": ["proved", ""],
"C56": ["proved", ""],
"C57": ["proved", "message text is taken after formatting"],
"C58": ["proved", "fallback facility table of log.c (no kern: C58_kern_refuted)"],
"C59": ["proved", "needs descriptors above 2 (C59_low_descriptor_refuted)"],
"C60": ["proved", "All texts, states and numbers that fit an int."],
"C61": ["proved", "All tokens of all histories; a NULL stream, which the documentation allows, is refuted by C61_null_stream_refuted."],
"C62": ["partial", "Formats and endings proved; with a NULL routine err_fatal_errno is undefined, and when a log file rotates and cannot be reopened err_warning/err_internal exit with status 1: the claim is false there (both refuted)."],
"C63": ["proved", "hash tables and sets; single calls in every reachable state"],
"C64": ["proved", "proved for all callbacks that only touch visited, current or absent keys; the unsafe uses are refuted with witnesses"],
"C65": ["proved", "every reachable state"],
"C66": ["proved", "pools and the global pool"],
"C67": ["proved", "all pools and bodies; str_pool_readonly (the remedy for loops left early) is refuted"],
"C68": ["proved", "every reachable table of strings"],
"C69": ["proved", "any number of tables; loop bodies may not switch the flag of the walked table"],
"C70": ["proved", "all allocators; xrealloc(p,0) may end the program although there is memory (refuted)"],
"C71": ["proved", "Object pools, string memories and hash tables, one or any number in one memory; foreign activity is an arbitrary change of memory outside the containers."],
"C72": ["proved", "What %p and %.1f write is a parameter. The hits number is that of the *_get_stats call (bounded in C06)."],
"C73": ["proved", "nested walks: C73_programs; memory: C73_memory; the rule about nested SET_ITERATE is needed: C73_nested_macro_refuted"],
"C74": ["proved", "nested walks: C74_programs; memory: C74_memory; the rule about nested HSH_ITERATE is needed: C74_nested_macro_refuted; the rules for hsh_iterate are needed: C64_refuted_*"],
"C75": ["proved", "statistics counters of sets (retrievals, hits, misses, resizings) not bounded; the bound on bytes is reached (C75_bytes_reach)"],
"C76": ["proved", "from every reachable state; the rule about removed elements is shown necessary by a witness"],
"C77": ["proved", "no rules; memory statement included"],
"C78": ["partial", "Proved in full for hash tables, sets, flags, debugging flags, timers and maa_init. For stacks and what is built on them (object pools, string memories and pools, lists, skip lists, argument lists, the log, the source manager, pr_open, pr_spawn) the program ends at the first refused request, but with undefined behaviour when that is the unchecked malloc of stk_push: refuted for stk_push, mem_free_object, lst_pop, lst_destroy, sl_destroy, arg_add, src_get and src_line."],
"C79": ["partial", "every function checks its handle first except the eight named in the refutations, which look into the structure before checking it; kinds of structures and prologues only, string pools have no magic number"],
"C80": ["proved", "All permitted histories from any sound initial memory, any allocator."],
"C81": ["proved", "For all commands with at least one word; what happens without words is stated by C81_empty_undefined."],
"C82": ["proved", "Hash tables and single sets, all histories adding at most 715827880 keys (beyond, the next size wraps around 32 bits)."],
"C83": ["proved", "All documented histories; the same for object pools is part of C22 (total is the peak)."],
"C84": ["proved", "All safe histories; str_destroy while a name is in use is refuted."],
"C85": ["proved", "general in the grammar file; the shipped grammar is one instance; state names containing EXIT or ERROR are mistranslated (refutation beside it)"],
"C86": ["proved", "for pure functions"],
"C87": ["proved", "with the exception named in the statement, which is refuted in C87_destroy_refuted"],
"C88": ["proved", "Any hash and compare functions, answering differently from call to call if they like: hash tables and sets, walks, statistics, memory; one key changed in place. Functions are taken to answer the same throughout one call and not to call the library."],
"C89": ["proved", "tables of strings, flags, debug names and timers by address, equal to the models by contents as long as the loans are kept; refutations for changed, released and reused buffers"],
"C90": ["proved", "for histories in which str_destroy is called only when no symbols are registered (the only safe use); what happens otherwise is C90_after_destroy_refuted and C90_reused_refuted"],
"C91": ["proved", "two different sets asked for in set_add/set_del; the same set twice is refuted (C91_add_self_refuted)"],
"C92": ["proved", "What select answers is given to pr_readwrite's report as an argument. The errno a message may change before perror is not modelled."],
"C93": ["proved", "C93_refuted_within_call is the limit the property names: functions that change their mind during one sl_delete"],
"C94": ["proved", "openlog of the C library is taken to keep the pointer, as glibc does and POSIX allows"],
"C95": ["proved", "hash.c and set.c, calls on one key; the operations on two sets call set_insert and set_member (same search), but their traces are not stated"],
"C96": ["proved", "sl_create/insert/delete/find/destroy; iteration calls neither function"],
"C97": ["proved", "chain-level model of the sets (Model/SetHeap.lean refines it, C11); set_add and set_del on two different sets"],
"C98": ["proved", "the numbers printed by %d are Spec.decimalInt; writing to stderr never fails"],
"C99": ["proved", "in the histories walks call the library only for look-ups; walks with any callbacks are in C99_walk_with_calls and C99_set_walk_with_calls (lawful functions)"]
}
