#!/usr/bin/env python3
"""Writes /verif/properties.jsonl (source of truth for the property list)."""
import json
P=[]
def p(title, statement, quant, why, anchors):
    P.append(dict(id="C%02d"%(len(P)+1), title=title, statement=statement, quantifier=quant,
                  why_tests_cant=why, anchors=anchors))
p("prm_is_prime decides primality",
  "prm_is_prime(v) returns 1 when v is prime and 0 otherwise.",
  "every unsigned 32-bit value v, including values whose square root is close to 2^16 (where the running square wraps)",
  "2^32 inputs; the interesting ones are at the wrap-around of `square`, where a single call may take 2^31 iterations",
  ["maa/prime.c:prm_is_prime"])
p("prm_next_prime returns the least odd prime not below start",
  "prm_next_prime(start) terminates and returns the smallest odd prime greater than or equal to start.",
  "every unsigned 32-bit start, including 0, 1 and values above the largest 32-bit prime",
  "termination and minimality are statements about an unbounded search and about wrap-around",
  ["maa/prime.c:prm_next_prime","maa/prime.c:prm_is_prime"])
p("bit_set / bit_clr / bit_tst behave as a bit vector",
  "After bit_set(f,b), bit_tst(f,b) is non-zero; after bit_clr(f,b) it is zero; bit_tst of every other bit is unchanged by either call.",
  "every unsigned long flags word and every pair of bit numbers 0..63",
  "2^64 words times 64^2 bit pairs; the result type of bit_tst is narrower than the word",
  ["maa/bit.c:bit_set","maa/bit.c:bit_clr","maa/bit.c:bit_tst"])
p("bit_cnt counts the set bits",
  "bit_cnt(f) equals the number of positions b for which bit b of *f is 1, and *f is not changed.",
  "every unsigned long value (both the 64-bit and the 32-bit variants in the source)",
  "2^64 inputs to a SWAR computation",
  ["maa/bit.c:bit_cnt"])
p("hash table behaves as a finite map under any history",
  "For any sequence of hsh_insert / hsh_delete / hsh_retrieve calls on a table whose hash function respects its comparison, every return value is the one a plain finite map gives: insert returns 0 and adds the pair iff no equal key is present (else 1 and no change), delete returns 0 and removes iff present (else 1), retrieve returns the datum stored for the key or NULL. Internal resizing, collisions and move-to-front are never observable through these calls.",
  "all hash functions, all comparison functions that are compatible with them, all histories of operations of any length",
  "histories are unbounded and the observable result must be independent of resizes, collision chains and self-organisation",
  ["maa/hash.c:hsh_insert","maa/hash.c:hsh_delete","maa/hash.c:hsh_retrieve","maa/hash.c:_hsh_insert","maa/hash.c:_hsh_create"])
p("hash table statistics are truthful and never abort",
  "hsh_get_stats never aborts with 'Incorrect count for entries' and reports entries = number of keys currently in the map, retrievals = number of hsh_retrieve calls, misses = number of those that found nothing, hits <= retrievals - misses, buckets_used <= size, singletons <= buckets_used, maximum_length = the longest chain.",
  "every reachable table after any history of operations",
  "the entry counter is maintained incrementally over unbounded histories with resizes in between",
  ["maa/hash.c:hsh_get_stats","maa/hash.c:hsh_retrieve","maa/hash.c:hsh_insert","maa/hash.c:hsh_delete"])
p("hsh_iterate visits every entry exactly once",
  "hsh_iterate / hsh_iterate_arg call the iterator once for every (key,datum) pair in the table and for nothing else, stop after the first non-zero result, and return non-zero exactly when some call returned non-zero.",
  "every reachable table and every iterator",
  "the walk is over an arbitrary bucket structure reached by an arbitrary history",
  ["maa/hash.c:hsh_iterate","maa/hash.c:hsh_iterate_arg"])
p("position iteration over a hash table visits every entry exactly once",
  "Starting from hsh_init_position and following hsh_next_position until NULL visits each entry exactly once; while it runs the table is read-only and when it ends the table is writable.",
  "every reachable table",
  "next_position recomputes the bucket from the stored hash and the current size; correctness depends on an invariant over the whole history",
  ["maa/hash.c:hsh_init_position","maa/hash.c:hsh_next_position","maa/hash.c:hsh_get_position","maa/maa.h:HSH_ITERATE"])
p("read-only hash tables cannot be modified",
  "While the read-only flag is set, hsh_insert, hsh_delete and hsh_destroy abort and hsh_retrieve does not change the order of entries; a user-set flag stays set until the user clears it.",
  "every reachable table and any history of calls made after hsh_readonly(t,1)",
  "a statement about all later operations, including iteration",
  ["maa/hash.c:hsh_readonly","maa/hash.c:hsh_insert","maa/hash.c:hsh_delete","maa/hash.c:hsh_destroy","maa/hash.c:hsh_next_position"])
p("hash table and set grow so the load stays bounded",
  "After every hsh_insert or set_insert the number of entries is at most half the table size plus one, as long as the size has not exceeded the 32-bit range of the prime search; the table size never is 0.",
  "all histories of operations",
  "depends on the numeric behaviour of prm_next_prime(3*size) for every reachable size",
  ["maa/hash.c:hsh_insert","maa/set.c:set_insert","maa/prime.c:prm_next_prime"])
p("set behaves as a mathematical set under any history",
  "For any sequence of set_insert / set_delete / set_member calls every return value is that of a mathematical set of elements up to the set's comparison function.",
  "all compatible hash/compare pairs, all histories",
  "unbounded histories; resizes and self-organisation must be unobservable",
  ["maa/set.c:set_insert","maa/set.c:set_delete","maa/set.c:set_member"])
p("set_union, set_inter and set_diff compute the set operation and leave operands unchanged",
  "set_member on the result of set_union/set_inter/set_diff is the disjunction/conjunction/difference of membership in the operands; the operands' membership and read-only flags are as before. If the hash or compare functions differ the call ends the program.",
  "every pair of reachable sets, including the same set passed twice",
  "quantifies over all pairs of sets and all internal layouts",
  ["maa/set.c:set_union","maa/set.c:set_inter","maa/set.c:set_diff"])
p("set_add and set_del update the first set and leave the second unchanged",
  "After set_add(s1,s2) membership in s1 is membership in old s1 or s2; after set_del(s1,s2) it is membership in old s1 and not s2; s2 is unchanged.",
  "every pair of reachable sets, including set_add(s,s) and set_del(s,s)",
  "the loop walks one structure while mutating another, which may be the same object",
  ["maa/set.c:set_add","maa/set.c:set_del"])
p("set_equal decides equality of sets",
  "set_equal(s1,s2) is non-zero exactly when s1 and s2 have the same members, and changes neither set's membership nor read-only flag.",
  "every pair of reachable sets",
  "the implementation checks only one inclusion plus a counter, so correctness rests on a history invariant",
  ["maa/set.c:set_equal"])
p("set_count and set_get_stats report the cardinality",
  "set_count(s) is the number of distinct elements inserted and not deleted; set_get_stats never aborts and reports the same number.",
  "all histories",
  "counter maintained incrementally over unbounded histories",
  ["maa/set.c:set_count","maa/set.c:set_get_stats"])
p("set iteration visits every element once and restores the read-only flag",
  "set_iterate / set_iterate_arg call the iterator once per element until it returns non-zero, return whether it did, and leave the read-only flag as it was on entry on every exit path; position iteration visits every element exactly once.",
  "every reachable set, every iterator, every exit point",
  "all early-exit points of an unbounded loop",
  ["maa/set.c:set_iterate","maa/set.c:set_iterate_arg","maa/set.c:set_init_position","maa/set.c:set_next_position"])
p("stack is LIFO",
  "stk_pop returns the most recently pushed datum not yet popped, NULL when the stack is empty; stk_top returns the same without removing it; stk_isempty is 1 exactly when pushes equal successful pops.",
  "all histories of push/pop/top/isempty",
  "unbounded histories",
  ["maa/stack.c:stk_push","maa/stack.c:stk_pop","maa/stack.c:stk_top","maa/stack.c:stk_isempty"])
p("lists behave as sequences and never interfere",
  "For any interleaving of lst_append / lst_push / lst_pop / lst_top / lst_nth_get / lst_nth_set / lst_length / lst_member on any number of lists sharing the library's node pool, each list behaves as an independent sequence: append adds at the end, push at the front, pop removes the front, nth is 1-based, nth out of range gives NULL (get) or ends the program (set).",
  "all interleavings of operations on any number of lists",
  "nodes are recycled through one shared free list, so every operation could in principle corrupt any other list",
  ["maa/list.c:lst_append","maa/list.c:lst_push","maa/list.c:lst_pop","maa/list.c:lst_nth_get","maa/list.c:lst_nth_set","maa/list.c:lst_member","maa/list.c:lst_length"])
p("lst_truncate keeps exactly the first length elements",
  "lst_truncate(l,n) leaves the first min(n, length) elements, in order, and nothing else.",
  "every reachable list and every n",
  "must hold for every length and every cut point",
  ["maa/list.c:lst_truncate"])
p("lst_truncate_position undoes later appends",
  "If p = lst_last_position(l), then after any number of appends lst_truncate_position(l,p) restores the list to its contents when p was taken (p NULL means the list is emptied).",
  "every reachable list and any number of appends",
  "unbounded number of appends; relies on position stability",
  ["maa/list.c:lst_truncate_position","maa/list.c:lst_last_position"])
p("list positions enumerate the list in order",
  "Following lst_init_position / lst_next_position with lst_get_position yields the elements in order and then NULL; lst_nth_position(l,n) is the n-th of these; lst_set_position changes that element only; lst_iterate calls the iterator on the elements in order until it returns non-zero.",
  "every reachable list",
  "all list lengths and histories",
  ["maa/list.c:lst_init_position","maa/list.c:lst_next_position","maa/list.c:lst_nth_position","maa/list.c:lst_set_position","maa/list.c:lst_iterate","maa/maa.h:LST_ITERATE"])
p("object pool never hands out an object that is in use",
  "mem_get_object returns an object that is not currently in use by anyone; if callers free only objects they hold, all objects in use are distinct at all times, and used = gets - frees, total = number of fresh allocations, reused = number of gets served from the free list, total is the high-water mark of used.",
  "all histories of get/free respecting ownership",
  "unbounded histories",
  ["maa/memory.c:mem_get_object","maa/memory.c:mem_free_object","maa/memory.c:mem_get_object_stats"])
p("string memory returns stable copies",
  "mem_strcpy returns a fresh NUL-terminated copy; a series of mem_grow calls followed by mem_finish returns a fresh NUL-terminated string equal to the concatenation of the pieces; no later operation on the object changes an already returned string.",
  "all histories of strcpy/grow/finish, all byte strings",
  "unbounded histories, buffer re-allocation in between",
  ["maa/memory.c:mem_strcpy","maa/memory.c:mem_grow","maa/memory.c:mem_finish"])
p("mem_strncpy copies exactly len bytes and terminates the result",
  "mem_strncpy(info,s,len), and str_pool_copyn / str_copyn / arg_addn built on it, return a string consisting of the first len bytes of s followed by a NUL, for any buffer of at least len bytes.",
  "every buffer and every len not exceeding its size",
  "all buffers and lengths, including buffers with no byte after the first len",
  ["maa/memory.c:mem_strncpy","maa/string.c:str_pool_copyn","maa/arg.c:arg_addn"])
p("string memory statistics",
  "mem_get_string_stats reports count = number of strings returned so far and bytes = total number of bytes stored for them, terminators included.",
  "all histories",
  "unbounded histories",
  ["maa/memory.c:mem_get_string_stats","maa/memory.c:mem_grow","maa/memory.c:mem_finish"])
p("string pool interns: equal strings give the same pointer",
  "For any history of str_pool_find calls (mixed with exists and copy), two find calls return the same pointer exactly when their arguments are equal strings, and the returned pointer points to a string equal to the argument at every later time.",
  "all histories of pool operations, all strings",
  "pairwise property over unbounded histories, including resizes of the index",
  ["maa/string.c:str_pool_find","maa/string.c:str_pool_exists","maa/string.c:str_pool_copy"])
p("growing then finishing a pool string is equivalent to str_pool_find",
  "A sequence of str_pool_grow calls followed by str_pool_finish returns the same pointer as str_pool_find of the concatenation would.",
  "all pool states and all pieces",
  "depends on whether the string is already in the pool",
  ["maa/string.c:str_pool_grow","maa/string.c:str_pool_finish"])
p("iterating a string pool leaves it usable",
  "After str_pool_iterate or str_pool_iterate_arg returns, for any iterator and any exit point, the pool accepts new strings as before; each pooled string is visited at most once, exactly once when the iterator never stops.",
  "every pool, every iterator, every exit point",
  "all early-exit points",
  ["maa/string.c:str_pool_iterate","maa/string.c:str_pool_iterate_arg"])
p("str_unique returns a new string with the given prefix",
  "str_unique(prefix) returns a pooled string that starts with prefix, continues with a decimal number, and was not in the pool before; it can be called at any time.",
  "every state of the global pool (including not yet created) and every prefix",
  "the search loop must terminate and be fresh for every pool contents",
  ["maa/string.c:str_unique","maa/string.c:str_exists"])
p("argument lists are NULL-terminated vectors within capacity",
  "After any sequence of arg_add / arg_addn / arg_grow+arg_finish, arg_count is the number of items added, arg_get(i) is the i-th item for 0<=i<count and aborts otherwise, argv[argc] is NULL and no write falls outside the allocated vector.",
  "all histories",
  "capacity doubling over unbounded histories",
  ["maa/arg.c:arg_add","maa/arg.c:arg_finish","maa/arg.c:arg_get","maa/arg.c:arg_get_vector"])
p("arg_argify is total and follows the documented quoting rules",
  "arg_argify(s,style) returns for every string (it never aborts), and the items are those given by the documented rules: blanks separate, matching single or double quotes protect, backslash outside quotes takes the next character literally, adjacent parts join; unterminated input still yields the part read so far; the style bits turn quotes / backslash into ordinary characters.",
  "every NUL-free string and every quote style",
  "infinitely many strings; automaton generated from a table",
  ["maa/arg.c:arg_argify","maa/arg.c:char2char_type","maa/arggram.txt"])
p("quoting is invertible: any argument vector can be passed through arg_argify",
  "For every list of NUL-free arguments, joining with blanks the arguments quoted by backslash-escaping every character (empty ones as \"\") and passing the result to arg_argify gives back exactly that list.",
  "all lists of strings of any length",
  "infinite domain",
  ["maa/arg.c:arg_argify","maa/arggram.txt"])
p("base64 round trip",
  "b64_decode(b64_encode(v)) = v for every value up to 32 bits, b64_encode produces 1..6 characters of the alphabet without redundant leading 'A', and decoding a string with a character outside the alphabet aborts.",
  "all 2^32 values; all strings",
  "too many values; the top digits are decoded with signed 32-bit shifts",
  ["maa/base64.c:b64_encode","maa/base64.c:b64_decode","maa/base64.c:b64_decode_buf"])
p("base26 round trip",
  "b26_decode(b26_encode(v)) = v for every v < 26^7; b26_encode produces 1..7 lowercase letters without redundant leading 'a'; decoding a string with any other character aborts.",
  "all v < 26^7; all strings",
  "8*10^9 values; digits are decoded with signed 32-bit multiplication",
  ["maa/base26.c:b26_encode","maa/base26.c:b26_decode"])
p("b26_encode does not depend on earlier calls",
  "The string returned by b26_encode(v) depends on v only, whatever values were encoded before, although the function caches its last result.",
  "all histories of calls",
  "history-quantified (static cache)",
  ["maa/base26.c:b26_encode"])
p("soundex result format",
  "txt_soundex always yields exactly one upper-case letter followed by three digits 0..6 (Z000 when there is no letter), never writing outside the five-byte buffer.",
  "all byte strings",
  "infinite domain; buffer bound",
  ["maa/text.c:txt_soundex2","maa/text.c:txt_soundex"])
p("soundex computes the documented code",
  "The result is the first letter followed by the first three consonant codes of the remaining letters, a letter's code being dropped when it is a vowel code or equals the code of the letter immediately before it, padded with zeros; it ignores case and all non-letters.",
  "all byte strings",
  "infinite domain",
  ["maa/text.c:txt_soundex2"])
p("skip list behaves as an ordered map",
  "For any history of sl_insert / sl_delete / sl_find and any outcome of the random level generator, sl_find(key) returns the datum inserted and not deleted whose key compares equal, or NULL; inserting a datum whose key is present or deleting one that is absent aborts; nothing else aborts.",
  "all total-order comparison functions, all histories, all random level sequences",
  "quantifies over histories and over the random source",
  ["maa/sl.c:sl_insert","maa/sl.c:sl_delete","maa/sl.c:sl_find","maa/sl.c:_sl_locate","maa/sl.c:_sl_random_level"])
p("skip list iteration is sorted, complete and a snapshot",
  "sl_iterate calls f on every datum in strictly increasing key order, stops at and returns the first non-zero result, and calls made by f that insert into or delete from the list do not change which data are visited.",
  "all reachable skip lists, all iterators",
  "all histories and all mutating callbacks",
  ["maa/sl.c:sl_iterate","maa/sl.c:sl_iterate_arg"])
p("skip list memory safety of the level bookkeeping",
  "No operation accesses a forward pointer above an entry's allocated levels or an uninitialised update slot, the list level stays within 0..16, and the stored count equals the number of entries (so the iteration buffer never overflows).",
  "all histories, all random level sequences",
  "index bounds over unbounded histories",
  ["maa/sl.c:sl_insert","maa/sl.c:sl_delete","maa/sl.c:_sl_create_entry","maa/sl.c:sl_iterate"])
p("debug/flag bits: set then test",
  "After dbg_set_flag(f) (or flg_set / dbg_set of a name registered for f) dbg_test(f) is non-zero, after dbg_unset_flag(f) (or '-name') it is zero, and flags with a different bit or a different group are unaffected; 'none' clears and 'all' sets everything.",
  "all 120 well-formed flags (30 bits in 4 groups), all states of the flag words, all histories",
  "all pairs of flags and all states",
  ["maa/debug.c:dbg_set_flag","maa/debug.c:dbg_unset_flag","maa/debug.c:dbg_test","maa/debug.c:dbg_set","maa/flags.c:flg_set","maa/flags.c:flg_test"])
p("flag registration rejects malformed and reused flags",
  "flg_register / dbg_register end the program when the low 30 bits do not contain exactly one set bit, when the flag has been registered already, and (dbg_register only) when both high bits are set; otherwise the name is associated with the flag.",
  "all unsigned long flags, all registration histories",
  "2^64 flags; histories of registrations",
  ["maa/flags.c:flg_register","maa/flags.c:_flg_exists","maa/debug.c:_dbg_register","maa/debug.c:dbg_register"])
p("flg_set / dbg_set reject unknown names",
  "Setting a name that is not registered (with or without a leading + or -) ends the program and changes no flag.",
  "all names and all registration histories",
  "all strings",
  ["maa/flags.c:flg_set","maa/debug.c:dbg_set"])
p("timers report elapsed time with microsecond resolution",
  "After tim_start(n) and tim_stop(n), tim_get_real(n) is the elapsed time between the two calls with microsecond resolution; timers with different names are independent; operating on a never-started timer aborts.",
  "all clock readings, all names, all histories",
  "all pairs of clock values",
  ["maa/timer.c:tim_start","maa/timer.c:tim_stop","maa/timer.c:tim_get_real","maa/timer.c:tim_reset"])
p("logging sinks: open/close bookkeeping",
  "A message is written once to every open sink (file, user stream, syslog) and to nothing else; log_close closes all sinks from any state; opening a sink that is already open aborts; after log_close nothing is written.",
  "all histories of log_file / log_stream / log_syslog / log_close / log_info",
  "history-quantified state machine with a separate open counter",
  ["maa/log.c:log_file","maa/log.c:log_stream","maa/log.c:log_syslog","maa/log.c:log_close","maa/log.c:_log_base_va"])
p("process table: descriptors map to their child until closed",
  "pr_close_nowait(fd) returns the pid of the pr_open call that created fd and forgets it; closing a descriptor not created by pr_open or already closed aborts; shutdown kills and waits for exactly the children whose descriptors are still open.",
  "all histories of opens and closes, all descriptor/pid assignments by the OS",
  "histories and OS choices",
  ["maa/pr.c:pr_open2","maa/pr.c:pr_close_nowait","maa/pr.c:pr_close","maa/pr.c:_pr_shutdown"])
p("pr_readwrite passes all input and returns all output",
  "When pr_readwrite returns, the child's stdin received exactly inBuffer and then end-of-file, outBuffer holds exactly what the child wrote, in order, the return value is its length, never more than outMaxLen bytes are stored, and output longer than outMaxLen is reported as an error.",
  "all interleavings of partial reads, partial writes and EAGAIN the OS can produce",
  "all schedules of partial I/O",
  ["maa/pr.c:pr_readwrite","maa/pr.c:pr_filter"])
p("pr_open flag validation and exit status decoding",
  "pr_open aborts on unknown flag bits and on every contradictory combination (use+create of the same stream, stderr to stdout together with use/create stderr) and on nothing else; pr_wait/pr_close return the child's exit code, 128+signal for a signal other than SIGPIPE, and 0 for SIGPIPE.",
  "all 2^32 flag words; all wait statuses",
  "large finite domains",
  ["maa/pr.c:pr_open2","maa/pr.c:pr_wait","maa/pr.c:pr_spawn"])
p("source tokens record file, line, offset, length and text",
  "For any lexer history, the src_Type returned by src_get(n) reports for ever the file, line number and source line current at the call, offset = sum of lengths of the previous tokens (and advances) on that line, length n; src_line stores the line with tabs replaced by blanks and increments the line number.",
  "all histories of src_line/src_new_file/src_new_line/src_advance/src_get/src_destroy",
  "history-quantified, with array growth and object recycling",
  ["maa/source.c:src_line","maa/source.c:src_get","maa/source.c:src_advance","maa/source.c:src_source_line","maa/source.c:src_destroy"])
p("yacc message rewriting",
  "src_parse_error prints the message with every `T_name' replaced by its registered concrete form (or `T_name' unchanged when none), every ``c'' character constant reduced to `c', and all other characters unchanged, reading no byte beyond the message.",
  "all messages and all registered concrete symbols",
  "all strings, including unterminated quotes and long names",
  ["maa/source.c:_src_print_yyerror","maa/parse-concrete.c:prs_register_concrete","maa/parse-concrete.c:prs_concrete"])
p("program name is the basename of argv[0]",
  "After err_set_program_name(p) err_program_name() is the part of p after its last '/', or p if there is none, or NULL if p is NULL.",
  "all strings",
  "infinite domain",
  ["maa/error.c:err_set_program_name","maa/error.c:err_program_name"])
p("built-in hash/compare functions satisfy the table contract",
  "hsh_string_compare(a,b)=0 exactly when the strings are equal and then hsh_string_hash agrees; hsh_pointer_compare is a total order returning -1/0/1 and hsh_pointer_hash agrees on equal pointers and fits in 32 bits.",
  "all strings and all pointers",
  "infinite domain; needed so that the map theorem applies to default tables",
  ["maa/hash.c:hsh_string_hash","maa/hash.c:hsh_string_compare","maa/hash.c:hsh_pointer_hash","maa/hash.c:hsh_pointer_compare"])
p("library shutdown releases everything and can be repeated",
  "After maa_shutdown (or str_destroy, dbg_destroy, flg_destroy, _tim_shutdown, _lst_shutdown, _sl_shutdown) the corresponding global state is as at program start, and calling it again is harmless.",
  "all reachable global states",
  "all histories before the shutdown",
  ["maa/maa.c:maa_shutdown","maa/string.c:str_destroy","maa/debug.c:dbg_destroy","maa/flags.c:flg_destroy","maa/timer.c:_tim_shutdown","maa/parse-concrete.c:_prs_shutdown"])
p("str_findn interns a prefix",
  "str_findn(s,n) returns the pointer str_find returns for the string made of the first n bytes of s, cut at the first NUL among them; s needs no terminator when n bytes are readable.",
  "all buffers, all lengths, all histories of the global pool",
  "infinite domain, history-quantified",
  ["maa/string.c:str_findn","maa/string.c:str_find"])
p("flag listings",
  "Once a name is registered, flg_list prints every registered name exactly once, one per line; dbg_list prints every user flag name once and then every flag with both high bits once, marked (builtin); with nothing registered both abort.",
  "all registration histories",
  "history-quantified, across table growth",
  ["maa/flags.c:flg_list","maa/debug.c:dbg_list"])
p("flg_name inverts registration",
  "Once a name is registered, flg_name(f) is a name registered for exactly the flag f, and 'unknown flag' exactly when no name is registered for f.",
  "all 64-bit flags, all registration histories",
  "history-quantified, across table growth and rearrangement",
  ["maa/flags.c:flg_name"])
p("log line format and limits",
  "Each line sent to the log file or to a user stream is at most 8191 bytes: preamble (date, host, ident[pid], at most 319 bytes, absent with LOG_OPTION_NO_FULL), routine in parentheses if given, message, newline, nothing lost when message and routine fit; stdout and stderr get the bare message cut at 4095 bytes; syslog gets it unchanged.",
  "all messages, routines, idents, hosts, all histories of opening and closing sinks",
  "unbounded strings, history-quantified",
  ["maa/log.c:_log_base_va","maa/log.c:log_error","maa/log.c:log_info"])
p("log facility set and get",
  "log_set_facility(name) of a name in the facility table makes log_get_facility return that name and changes nothing else; any other name is a fatal error.",
  "all names, all states",
  "all strings",
  ["maa/log.c:log_set_facility","maa/log.c:log_get_facility"])
p("a child starts with exactly the descriptors asked for",
  "In the child of pr_open, at execvp, stdin/stdout/stderr are the new pipe's end, the descriptor handed over, /dev/null, or the parent's, as the flags say (stderr = stdout with PR_STDERR_TO_STDOUT); every other descriptor used for that and every descriptor of an earlier pr_open child is closed; all others are inherited unchanged. Needs: pipe and handed-over descriptors above 2 and not used twice.",
  "all flag words, all parent descriptor tables, all descriptors the system hands out",
  "all descriptor assignments; a leaked pipe end shows only as a hang elsewhere",
  ["maa/pr.c:pr_open2"])
p("preprocessor line markers set file and line",
  "src_cpp_line(text, len) splits the text by the quoting rules; if the second word begins with a number n (after white space and a sign, other characters may follow) the current line number becomes n-1, so the next src_line has number n, or 1 when n is not positive or there is no number; the third word, if any, becomes the current file; all memory used is released; fewer than two words abort.",
  "all texts, all source manager states, all numbers that fit an int",
  "all strings; depends on the argument splitter for every input",
  ["maa/source.c:src_cpp_line"])
p("error reports point at the token",
  "src_print_error prints the labelled message, then the labelled source line, then the label, as many blanks as the token's offset and as many ^ as its length; NULL tokens print ?:?: and a notice.",
  "all tokens of all histories, all messages",
  "history-quantified",
  ["maa/source.c:src_print_error","maa/source.c:src_print_message","maa/source.c:src_print_line","maa/source.c:_src_print_error"])
p("error report format and ending",
  "err_warning prints 'program (routine): message' (parts that are NULL left out) and returns; err_fatal prints the same and exits with status 1; err_internal prints program and routine, 'Internal error', the message and 'Aborting program...' and aborts; err_fatal_errno appends 'routine: strerror'. Each sends the message to the log too.",
  "all program names, routines and messages",
  "all strings and all NULL combinations",
  ["maa/error.c:err_fatal","maa/error.c:err_fatal_errno","maa/error.c:err_warning","maa/error.c:err_internal"])
p("table counters move exactly as documented",
  "Between two calls of hsh_get_stats (set_get_stats): an insertion grows the table exactly when 2*entries > size, and then resizings goes up by one and size becomes prm_next_prime(3*size); a deletion changes only entries; a lookup adds one retrieval, a miss exactly when nothing is found, and at most one hit, only when something is found; repeating a successful lookup on a writable table adds exactly one hit; on a read-only table a repeated lookup counts as the first did.",
  "every reachable table and set, every call",
  "history-quantified: depends on the position of the entry in its chain",
  ["maa/hash.c:hsh_insert","maa/hash.c:hsh_retrieve","maa/hash.c:hsh_get_stats","maa/set.c:set_insert","maa/set.c:set_member","maa/set.c:set_get_stats"])
p("deleting while iterating over a hash table",
  "A callback of hsh_iterate / hsh_iterate_arg may delete or look up the entry it is given, or any entry already visited or absent: every entry is still visited exactly once and the table afterwards is the map without the deleted entries. (Not safe, refuted with witnesses: looking up or deleting an entry still to be visited, inserting.)",
  "every reachable table, every callback, every interaction of the callback with the table",
  "all callbacks and all chain layouts; failures are skipped entries or use of freed memory",
  ["maa/hash.c:hsh_iterate","maa/hash.c:hsh_iterate_arg"])
p("printing timers changes nothing and omits nothing",
  "tim_print_timers writes exactly one line for each existing timer and nothing else: name padded to 20 columns, then the values tim_get_real, tim_get_user and tim_get_system return, with three decimals; tim_print_timer writes that line for one timer and aborts for an unknown or NULL name. Neither fails otherwise, and neither changes what any later timer call returns.",
  "every state reachable by timer calls (printing included), every timer name",
  "history-quantified; the printing looks each timer up in the table it is iterating over",
  ["maa/timer.c:tim_print_timers","maa/timer.c:tim_print_timer","maa/timer.c:_tim_iterator"])
p("string pool statistics count calls exactly",
  "str_pool_get_stats: zero for a NULL or a new pool; str_pool_exists and str_pool_find add one retrieval each, a miss exactly when the string is not known; a new string (find), copy, copyn and finish add one to count and the bytes used; grow adds the bytes only; the totals after a history are the numbers of such calls; str_get_stats never fails and is zero when there is no global pool.",
  "every pool reachable by proper calls, every further call",
  "history-quantified",
  ["maa/string.c:str_pool_get_stats","maa/string.c:str_get_stats"])
p("iterating over a string pool that is being used",
  "A STR_ITERATE loop, str_pool_iterate and str_pool_iterate_arg show each pooled string exactly once (until the body stops), also when the body calls str_pool_exists, str_pool_find of a pooled string, copy, copyn or grow on the same pool; no pooled string moves or disappears. Finding a new string in the body aborts. After a complete loop the pool accepts new strings; after leaving STR_ITERATE or str_pool_iterate early it does not, after str_pool_iterate_arg it does. (Refuted: str_pool_readonly, the documented remedy, always aborts.)",
  "every reachable pool, every body",
  "all pools, all bodies and the interaction of lookups (which reorder chains) with the walk over the chains",
  ["maa/string.c:str_pool_init_position","maa/string.c:str_pool_next_position","maa/string.c:str_pool_get_position","maa/maa.h:STR_ITERATE","maa/maa.h:str_pool_readonly"])
p("printing the keys of a table",
  "hsh_key_strings on a table of strings prints every key exactly once followed by two blanks, starts a new line exactly when a line has reached 60 columns, ends with a newline, does not depend on earlier calls, and changes nothing in the table.",
  "every reachable table with string keys, locked or not, every value of the hidden column counter",
  "history-quantified; hidden static state",
  ["maa/hash.c:hsh_key_strings","maa/hash.c:_hsh_key_strings"])
p("hash tables do not influence each other",
  "A program with any number of hash tables, created, used and destroyed in any order: what the calls on one table return is what the same calls return on a finite map of its own, whatever happens to the other tables in between; every bucket in memory belongs to exactly one live table, and none is left when all are destroyed. A loop HSH_ITERATE over one table, whose body may create, change and destroy other tables and look things up in any, visits every entry the table had exactly once, and everything it and later calls return is as on independent maps.",
  "every history over any number of tables, every body of a loop",
  "history-quantified over interleavings of calls on different tables that share one allocator; a fault would be a pointer into another table's chain",
  ["maa/hash.c:hsh_create","maa/hash.c:hsh_destroy","maa/hash.c:hsh_insert","maa/hash.c:hsh_delete","maa/hash.c:hsh_retrieve","maa/hash.c:hsh_init_position","maa/hash.c:hsh_next_position","maa/maa.h:HSH_ITERATE"])
p("checked allocation",
  "xmalloc, xcalloc, xrealloc and xstrdup never return NULL: they end the program when the C library answers NULL (xcalloc also when the product overflows), and otherwise return a block of the size asked for that overlaps no live block; xcalloc clears it, xrealloc keeps the common prefix of the old contents, xstrdup copies the characters and the null; no other block changes. xfree(NULL) ends the program. Every history of these calls with stores and fetches in one flat memory behaves like independent byte arrays. (Refuted: 'fatal only when memory is exhausted' - xrealloc(p,0) may be fatal.)",
  "every allocator behaviour the C standard allows, every history of calls, stores and fetches",
  "quantified over all decisions of the allocator and all histories",
  ["maa/xmalloc.c:xmalloc","maa/xmalloc.c:xcalloc","maa/xmalloc.c:xrealloc","maa/xmalloc.c:xfree","maa/xmalloc.c:xstrdup"])
p("containers do not depend on the rest of the program",
  "Between any two calls on an object pool, a string memory or a hash table the rest of the program may allocate, write and free any memory except cells of the container (users of an object pool may also write into its objects, and there may be other pools, string memories and tables in the same memory, used and destroyed in any order): the calls go on to return what they would return alone, they change no memory of the rest of the program or of the other containers, and destroying the container frees exactly its own memory.",
  "every interleaving of calls on any number of containers with arbitrary other activity in the same memory, every allocation policy",
  "quantified over everything another part of the program can do to the shared memory between the calls",
  ["maa/memory.c:mem_get_object","maa/memory.c:mem_free_object","maa/memory.c:mem_destroy_objects","maa/memory.c:mem_strcpy","maa/memory.c:mem_grow","maa/memory.c:mem_finish","maa/memory.c:mem_destroy_strings","maa/hash.c:hsh_insert","maa/hash.c:hsh_delete","maa/hash.c:hsh_destroy"])
p("printed statistics are true",
  "hsh_print_stats, set_print_stats, mem_print_object_stats, mem_print_string_stats, str_pool_print_stats, str_print_stats and src_print_stats write, to the stream given or to stdout when it is NULL, a report whose numbers are true of the history so far (entries, retrievals, failed retrievals, slots used, longest chain, objects allocated, in use and reused, strings and bytes, lines and tokens), each number in its place; the average chain length is printed exactly when the table is not empty; the global pool is called global. lst_dump writes one line for each element, in order; _sl_dump the level, the number of data and a line for the head and each datum, in the order of a walk.",
  "every history, every stream, every way of printing pointers and fractions",
  "history-quantified; every number of every report",
  ["maa/hash.c:hsh_print_stats","maa/set.c:set_print_stats","maa/memory.c:mem_print_object_stats","maa/memory.c:mem_print_string_stats","maa/string.c:str_pool_print_stats","maa/string.c:str_print_stats","maa/source.c:src_print_stats","maa/list.c:lst_dump","maa/sl.c:_sl_dump"])
p("programs with walks inside walks over sets",
  "A program that uses any number of sets, makes any calls, and walks over sets with set_iterate, set_iterate_arg or SET_ITERATE inside the bodies of other walks (also over the same set), deciding what to do by what it has seen, does what the same program does on mathematical sets whose walks visit all elements once in some order: during a walk insertions, deletions and destruction of the set walked over end the program, membership tests, counts and binary operations with it work and do not disturb the walk; set_iterate restores the flag it found, SET_ITERATE makes the set writable after a complete walk. Two rules are needed: the body does not switch the read-only flag of a set being walked over, and SET_ITERATE is not used on a set already being walked over (else freed memory may be read).",
  "every program (finite branching tree of calls and walks, nested to any depth), every allocation policy, every order of elements",
  "quantified over programs and nesting depth",
  ["maa/set.c:set_iterate","maa/set.c:set_iterate_arg","maa/set.c:set_init_position","maa/set.c:set_next_position","maa/set.c:set_get_position","maa/maa.h:SET_ITERATE"])
p("programs with walks inside walks over hash tables",
  "A program that uses any number of hash tables, makes any calls, and walks over tables with hsh_iterate, hsh_iterate_arg or HSH_ITERATE inside the bodies of other walks (also over the same table), deciding what to do by what it has seen, does what the same program does on finite maps whose walks visit every pair the table had at the start once, in some order. During HSH_ITERATE the table is read-only: insertions, deletions and destruction end the program, lookups work and do not disturb the walk. During hsh_iterate the body may delete or look up the key at hand and any key no longer to come, and do anything with other tables, also change, walk over and destroy them. Rules that are needed: while hsh_iterate walks over a table that is not read-only, no insertion into it, no deletion or lookup of keys still to come, no destruction; during HSH_ITERATE no hsh_readonly and no second HSH_ITERATE on the same table (else freed memory may be read).",
  "every program (finite branching tree of calls and walks, nested to any depth), every allocation policy, every order of entries",
  "quantified over programs and nesting depth",
  ["maa/hash.c:hsh_iterate","maa/hash.c:hsh_iterate_arg","maa/hash.c:hsh_init_position","maa/hash.c:hsh_next_position","maa/hash.c:hsh_get_position","maa/maa.h:HSH_ITERATE"])
p("Counters stay within their C types as long as fewer than 2^31 calls (2^31 bytes) have been made",
  "Every counter the library keeps (entries and statistics of hash tables, elements of sets, lengths of lists and skip lists, bytes reported by lst_total_allocated, the numbers of objects, strings, arguments, source lines and tokens) is at most the number of calls made so far, in absolute value (lst_total_allocated: 32 times it; the room of an argument list or of the array of source lines: twice it plus 4, it plus 1000; elements of any set, unions included: the number of calls of set_insert); the bytes counted by a string memory are at most the bytes passed to it, and can reach that. So no counter wraps or overflows before that many calls. The number str_unique appends grows with every string it skips, but is at most 1 plus 11 for every call of str_unique and 10 for every other call on the global pool, so it does not overflow in a program that makes fewer than 195 million of them.",
  "all histories of calls on any number of tables, sets, lists, skip lists, memories, argument lists and of the source manager, all allocation policies",
  "a test would have to make 2^31 calls; the bound must hold after every history, including set operations that insert many elements in one call",
  ["maa/hash.c: hsh_insert, hsh_retrieve", "maa/set.c: set_union, set_add", "maa/list.c: lst_append, lst_push, lst_total_allocated", "maa/sl.c: sl_insert, sl_delete", "maa/memory.c: mem_get_object, mem_strcpy, mem_strncpy, mem_grow", "maa/arg.c: arg_add", "maa/source.c: src_line, src_get", "maa/string.c: str_unique"])
p("programs with walks inside walks over lists",
  "A program that uses any number of lists, makes any calls, and walks over lists with lst_iterate, lst_iterate_arg, LST_ITERATE or LST_ITERATE2 inside the bodies of other walks (also over the same list), deciding what to do by what it has seen, does what the same program does on sequences: a walk visits the first element, then always the element that follows in the list as the body has left it, so elements appended or inserted behind during the walk are visited too, and the bodies may change, extend, shorten and destroy any lists. One rule is needed: the body does not remove the element it is visiting, unless it leaves the walk (else the walk may go on in another list). LST_ITERATE2 sees the pairs at the same place, up to the end of the shorter list.",
  "every program (finite branching tree of calls and walks, nested to any depth), every allocation policy",
  "quantified over programs and nesting depth; walks need not have a length known at their start",
  ["maa/list.c:lst_iterate","maa/list.c:lst_iterate_arg","maa/list.c:lst_init_position","maa/list.c:lst_next_position","maa/list.c:lst_get_position","maa/maa.h:LST_ITERATE","maa/maa.h:LST_ITERATE2"])
p("programs with walks inside walks over skip lists",
  "A program that uses any number of skip lists, makes any calls, and walks over lists with sl_iterate or sl_iterate_arg inside the bodies of other walks (also over the same list), deciding what to do by what it has seen, does exactly what the same program does on ordered collections: a walk visits the data the list has at its start in the order of their keys, whatever the bodies do meanwhile (insert, delete, destroy the list walked over), and returns the first non-zero result of the body. No rule is needed. (Refuted: the comment that without a key function the datum is the key; sl_create ends the program.)",
  "every program (finite branching tree of calls and walks, nested to any depth), every allocation policy, every sequence of random numbers",
  "quantified over programs, nesting depth and random levels",
  ["maa/sl.c:sl_iterate","maa/sl.c:sl_iterate_arg","maa/sl.c:sl_create","maa/sl.c:sl_insert","maa/sl.c:sl_delete","maa/sl.c:sl_destroy"])
p("running out of memory is reported",
  "When the C library refuses a request for memory, the program ends with a message at that request; nothing is corrupted and no call goes on with a null pointer. Until then every call on stacks, lists, skip lists, object pools, string memories, string pools, hash tables, sets, argument lists, flags, debugging flags, timers, the log, the source manager, child processes and library start-up behaves as documented, and a program makes a known number of requests. (Proved for hash tables, sets, flags, debugging flags, timers and maa_init. Refuted for everything built on stacks: stk_push does not check its request, so pushing, and also arg_add, src_line, src_get, mem_free_object, lst_pop, lst_destroy, lst_truncate and sl_destroy, dereference a null pointer when memory is exhausted; all other requests are checked.)",
  "every history of calls, every choice of refused requests, every allocation policy",
  "quantified over all histories and over every request that may fail in them",
  ["maa/xmalloc.c:xmalloc","maa/stack.c:stk_push","maa/memory.c:mem_get_object","maa/memory.c:mem_free_object","maa/list.c:lst_pop","maa/list.c:lst_destroy","maa/sl.c:sl_destroy","maa/hash.c:hsh_insert","maa/set.c:set_union","maa/string.c:str_pool_find"])
p("handles are checked",
  "Every function that takes a handle (hash table, set, list, string memory, object memory, argument list, skip list) accepts the handles made by the create function of that kind and not yet destroyed, and ends the program with an internal error when it is given NULL, a handle of another kind, or any other readable memory, before it touches anything; a destroyed skip list is rejected until sl_create hands it out again. lst_append, sl_iterate and sl_iterate_arg ignore NULL. (Refuted for hsh_insert, hsh_delete, hsh_retrieve, set_insert, set_delete, set_member, mem_get_object and mem_get_empty_object, which look into the structure before they check it: NULL and most handles of a wrong kind are undefined behaviour there; and for lst_push(NULL) before the first list was created.)",
  "every history of creating, using and destroying handles of all kinds, every choice of addresses by the allocator, every function and handle",
  "quantified over all histories, addresses reused after a destroy included, and all pairs of functions and handles",
  ["maa/maa.h:MAA_MAGIC","maa/hash.c:_hsh_check","maa/set.c:_set_check","maa/list.c:_lst_check","maa/memory.c:_mem_magic_strings","maa/memory.c:_mem_magic_objects","maa/arg.c:_arg_check","maa/sl.c:_sl_check_list","maa/hash.c:hsh_insert","maa/memory.c:mem_get_object"])
p("strings handed out by a string pool stay",
  "Whatever pointer str_pool_find, str_pool_copy, str_pool_copyn or str_pool_finish has returned is not NULL, and the bytes it points to stay there unchanged, whatever calls on the pool follow, until the pool is destroyed. What str_pool_copy and str_pool_copyn return is returned by no other call, before or after, not even by str_pool_find of an equal string; what str_pool_finish returns was returned by no call before. str_pool_copy always succeeds, locked pool or not, and its result is the string it was given.",
  "all histories of calls on a pool, all strings, every choice of addresses by the allocator",
  "quantified over all histories before and after the call that returned the pointer",
  ["maa/string.c:str_pool_find","maa/string.c:str_pool_copy","maa/string.c:str_pool_copyn","maa/string.c:str_pool_finish","maa/memory.c:mem_strcpy","maa/memory.c:mem_strncpy"])
p("the command run is the command given",
  "The child made by pr_open and pr_spawn executes the words of the command, split by the quoting rules of arg_argify: the program is the first word, the argument vector is all the words followed by NULL, none lost, joined or changed; in particular any argument vector without NUL bytes, quoted, is executed as it is. pr_spawn returns how that program ended, 127 when there is no such program. The caller's memory is as before. A command without words is not rejected: the child passes NULL to execvp, which is undefined.",
  "all commands with at least one word, all states of the library, all programs",
  "all strings; quoting mistakes show only on particular inputs",
  ["maa/pr.c:pr_open2","maa/pr.c:pr_spawn","maa/arg.c:arg_argify","maa/arg.c:arg_get_vector","maa/arg.c:arg_destroy"])
p("growing is cheap",
  "Adding n keys to a new hash table or set, with any deletions, lookups and refused insertions between, makes at most 3n cells in total, the copies made when the table grows included; the table grows fewer than log_3(6n) times; its array has fewer than 12n slots. Altogether at most 2 + 3n + 2 log_3(6n) pieces of memory are requested from the C library: constant amortised cost, linear memory.",
  "all histories of calls that add at most 715827880 keys, all lawful hash and compare functions, every allocation policy",
  "amortised bounds are statements about all histories; the worst single call is arbitrarily expensive",
  ["maa/hash.c:hsh_insert","maa/hash.c:_hsh_insert","maa/set.c:set_insert","maa/set.c:_set_insert","maa/prime.c:prm_next_prime"])
p("list nodes are used again",
  "The library never holds more list nodes than the lists of the program had elements together at some earlier time: nodes taken out of one list (pop, truncate, destroy) serve the next insertion into any list, and new memory is requested only when every node belongs to an element.",
  "all histories of documented calls on any number of lists, every allocation policy",
  "a leak is a property of all histories; functional tests do not see it",
  ["maa/list.c:lst_append","maa/list.c:lst_push","maa/list.c:lst_pop","maa/list.c:lst_truncate","maa/list.c:lst_truncate_position","maa/list.c:lst_destroy","maa/memory.c:mem_get_object","maa/memory.c:mem_free_object"])
p("names given to the library are kept",
  "The ident and the file name given to log_file and log_stream and the names given to src_new_file may be changed or freed by the caller afterwards: the log goes on writing the ident it was given and opening the files the pattern stands for, and tokens go on answering with the file name that was current when they were made, whatever calls of str_find, str_copy, str_grow, str_finish, str_unique and the other str_ functions are made in between. str_destroy may be called only while no log file or stream is open and no name was given to the source manager: names are interned in the library's string pool, and maa_shutdown destroys it without closing the log (refuted: a message or the printing of a token after str_destroy reads freed memory).",
  "all histories of calls of str_*, log_* and src_*, all strings, every state of the string pool, every choice of addresses by the allocator",
  "three modules share one pool; the histories interleave their calls in every way",
  ["maa/log.c:log_file","maa/log.c:log_stream","maa/log.c:_log_check_filename","maa/log.c:_log_base_va","maa/source.c:src_new_file","maa/source.c:src_filename","maa/source.c:src_print_line","maa/string.c:str_find","maa/string.c:str_destroy","maa/maa.c:maa_shutdown"])
p("the argument grammar and the code generated from it",
  "The translator arggram2c gives, for every grammar file however it is laid out (comments, empty lines, any blanks and tabs), arrays that say what the file says: states, types of characters and actions are numbered without repetition, the first state is 0, every cell holds what the last rule for it says, a cell without a rule the first action and the first state. The code compiles exactly with grammars that use the six types and three actions arg_argify knows; arg_argify compiled with the arrays follows the rules by name on every text, never reads outside the arrays and never meets an unknown action. For the shipped grammar it is the function whose quoting rules are C31. A state whose name contains EXIT or ERROR is mistranslated without a diagnostic (refuted).",
  "all grammar files, all texts, all styles",
  "quantified over all grammar files and all texts; the shipped file is one point",
  ["maa/arggram2c","maa/arggram.txt","maa/arg.c:arg_argify","maa/arg.c:char2char_type"])
p("no comparison function makes a skip list misbehave",
  "Whatever compare and key functions a skip list is created with, even a comparison that is not an order (one that goes round in a circle, or always gives the same answer), no sequence of calls has undefined behaviour unless it uses a list that does not exist: data are neither lost, doubled nor invented, an insertion ends the program only if some datum compares equal, a deletion removes one datum that compares equal or ends the program, a search gives a datum that compares equal or NULL, a walk visits exactly the data the list has, and destroying the lists frees all entries.",
  "all programs with any number of skip lists and walks inside walks, all (pure) compare and key functions, all values of random(), every allocation policy",
  "quantifies over all comparison functions, including wrong ones, and all programs",
  ["maa/sl.c:_sl_locate","maa/sl.c:sl_insert","maa/sl.c:sl_delete","maa/sl.c:sl_find","maa/sl.c:sl_iterate","maa/sl.c:sl_destroy"])
p("the debugging build of skip lists",
  "Built with SL_DEBUG set to 1 the skip lists do exactly what they do without it, in every program whose comparison functions are orders and that does not destroy a list from inside a walk over it; with any other comparison function they do the same or end the program with a message, and whenever an insertion or a deletion returns, the data of the list ascend from each to the next: the call that puts a datum where it does not belong is the one that is reported. The check itself reports exactly the lists that do not ascend. (A walk whose function destroys the list is fine in the ordinary build and undefined in this one.)",
  "all programs with any number of skip lists and walks inside walks, all (pure) compare and key functions, all values of random(), every allocation policy",
  "two builds of the library are compared on all programs",
  ["maa/sl.c:_sl_check","maa/sl.c:_sl_check_entry","maa/sl.c:_sl_locate","maa/sl.c:sl_insert","maa/sl.c:sl_delete","maa/sl.c:sl_find","maa/sl.c:sl_iterate","maa/sl.c:sl_iterate_arg"])
p("no hash or comparison function makes a hash table or set misbehave",
  "Whatever the hash and compare functions of a hash table or set answer, consistently or not, and even if they answer differently from one call to the next (as they do when the program changes a key that is in the table), no sequence of calls has undefined behaviour: pairs are neither lost, doubled nor invented, a search gives no datum whose key did not compare equal and cannot miss a pair that compares equal and still has the hash value it was inserted with, walks visit exactly the pairs there are, the statistics count them, destroying the table gives back all memory. When one key in the table is changed in place, all calls with keys not equal to what it has become go on as if its pair were not there.",
  "all histories of calls, each with its own arbitrary hash and compare functions; all memories the table is created in; all bodies of walks that make no changes",
  "quantifies over all functions, including wrong ones, and all histories",
  ["maa/hash.c:hsh_insert","maa/hash.c:hsh_delete","maa/hash.c:hsh_retrieve","maa/hash.c:hsh_iterate","maa/hash.c:hsh_next_position","maa/hash.c:hsh_get_stats","maa/hash.c:hsh_destroy","maa/set.c:set_insert","maa/set.c:set_delete","maa/set.c:set_member","maa/set.c:set_iterate","maa/set.c:set_next_position","maa/set.c:set_destroy"])
p("Strings lent to tables, flags and timers",
  "A table of strings (hsh_create(NULL, NULL)), flg_register, dbg_register and tim_start keep the address of the name they are given, not a copy. As long as every string handed over stays unchanged while its name is known (until hsh_delete, flg_destroy, dbg_destroy or the end of the timers), all calls behave as if the names had been copied, whatever the program writes to the rest of its memory between the calls; a name that was already known is not kept. If the string is changed, the registered name is lost (flg_set ends the program) and the new string is accepted in its place; if it is released, later look-ups read released memory.",
  "all histories of calls, each with an arbitrary state of the caller's memory; all addresses, names, flags; all changes and releases of the registered string",
  "tests pass string literals, which never change; the property is about every interleaving of writes to the caller's memory with calls",
  ["maa/hash.c:_hsh_insert", "maa/hash.c:hsh_insert", "maa/hash.c:hsh_retrieve", "maa/hash.c:hsh_delete", "maa/hash.c:hsh_string_compare", "maa/flags.c:flg_register", "maa/flags.c:flg_set", "maa/debug.c:_dbg_register", "maa/debug.c:dbg_set", "maa/timer.c:tim_start"])
p("concrete symbols and the string pool",
  "prs_register_concrete keeps symbol and form in the global string pool. In every program that calls the str_* functions and the prs_* functions in any order, prs_concrete gives the form that was first registered for the symbol, whatever is interned, copied or made up in the pool meanwhile; the pointer it gives is the interned one, so str_find of the form gives the same address. str_destroy may be called only when no symbols are registered: afterwards (maa_shutdown calls it, and not _prs_shutdown) looking up a registered symbol reads freed memory, and when that memory is used again, a symbol never registered gets a form (refuted without that proviso).",
  "all histories of str_* and prs_* calls from any state of the pool, every allocation policy, either order of evaluation of the two str_find calls",
  "quantified over all interleavings of two modules sharing memory and all allocators",
  ["maa/parse-concrete.c:prs_register_concrete","maa/parse-concrete.c:prs_concrete","maa/parse-concrete.c:_prs_shutdown","maa/string.c:str_find","maa/string.c:str_destroy","maa/maa.c:maa_shutdown"])
p("several sets with any hash and comparison functions",
  "A program with any number of sets, whatever the hash and comparison functions answer (inconsistently, or differently from one call to the next): no call reaches undefined behaviour unless it is given a set that does not exist; set_union, set_inter, set_diff, set_add and set_del invent no element and lose none without an element comparing equal; the result of set_inter holds only elements that compared equal to one of the second set; set_equal gives 1 only if every element of the first set compared equal to one of the second; other sets stay as they are, the elements can be counted and iterated, every cell of memory belongs to exactly one set. set_add of a set to itself is excepted: with a comparison that never says equal it uses freed memory.",
  "all histories of set calls (set_add and set_del on two different sets), all functions at every call, every allocation policy",
  "tests use proper functions; the property is about every hash and comparison function, changing at any time",
  ["maa/set.c:set_add","maa/set.c:set_del","maa/set.c:set_union","maa/set.c:set_inter","maa/set.c:set_diff","maa/set.c:set_equal"])
p("debugging messages have no influence",
  "With the debugging flags .src and .pr set, the functions of the source manager and of the process functions return exactly what they return without them, in every program; the only difference is the messages (line stored, token pointed at, preprocessor line read, command run, descriptors, child started, waited for and ended), which appear in the log exactly as if the program had logged them itself with log_info after the call, and leave the log in the same state. With the flags off or no log open there is no difference at all, including how a call fails; a log without a file never makes a call fail. A log file that cannot be reopened under its new name makes a call with a message end the program; the message about a command without a word passes NULL to %s. pr_readwrite also prints what select answered, to the standard output.",
  "all histories of calls to debug.c, log.c, parse-concrete.c, source.c and pr.c, and all calls of pr_readwrite, all answers of the system, any log configuration",
  "compares every program with the same program without messages, for every log configuration and answer of the system",
  ["maa/maa.h:PRINTF","maa/log.c:log_info","maa/log.c:_log_base_va","maa/source.c:src_line","maa/source.c:src_cpp_line","maa/source.c:src_print_error","maa/source.c:src_parse_error","maa/pr.c:pr_open2","maa/pr.c:pr_wait","maa/pr.c:pr_close","maa/pr.c:pr_spawn","maa/pr.c:pr_readwrite"])
p("the keys of a skip list may be changed between calls",
  "The compare and key functions given to sl_create may answer anything, and something else during each call (as they do when the program changes keys of data that are in a list): no history of sl_create, sl_insert, sl_delete, sl_find and sl_destroy has undefined behaviour unless it uses a list that does not exist; data are neither lost nor doubled nor invented, and what is found or deleted compares equal at that time. If the changes keep the order of the data that are in the list, every call does exactly what it should. If the functions change their mind within one call, sl_find still ends with a datum of the list or NULL, but sl_delete may leave the list with a reference to freed memory.",
  "all histories of calls, each with its own arbitrary compare and key functions; all levels drawn at random; all allocation policies",
  "quantified over all comparison functions, changing at any time",
  ["maa/sl.c:sl_insert","maa/sl.c:sl_delete","maa/sl.c:sl_find","maa/sl.c:_sl_locate","maa/sl.c:sl_destroy","maa/sl.c:sl_create"])
p("the identity given to log_syslog",
  "log_syslog(ident) gives the pointer itself to openlog (log_file and log_stream copy theirs). As long as the string stays unchanged until log_syslog(NULL) or log_close, every message arrives in the system's log under the identity and with the facility that were given when syslog was opened, whatever else is logged, opened or closed and whatever the rest of the memory does; otherwise later messages arrive under what is then in the buffer, or the behaviour is undefined.",
  "all histories of calls on log.c, each with an arbitrary state of the caller's memory; all identities, facilities, messages and answers of the system",
  "tests pass string literals, which never change; the property is about every interleaving of writes to the caller's memory with calls",
  ["maa/log.c:log_syslog","maa/log.c:log_close","maa/log.c:_log_base_va","maa/log.c:log_set_facility"])
p("what the functions of hash tables and sets are asked",
  "Every hsh_insert, hsh_delete, hsh_retrieve and the set functions for one element that return have called the hash function exactly once, for the key given (growing calls it for none), and have called the comparison function only with a key that is in the container as first and the given key as second argument: each key that falls into the slot of the given key at most once, up to the first that is equal, or all of them when none is; never with any other. So a call compares at most as often as there are keys in the slot. When a key of a table that is not read-only has just been found, looking it up again or removing it compares exactly once. If the functions answer anything, and something else in every call, a call still hashes its key once and compares it with each key of its slot (by the hash values at insertion) at most once, up to the first that compares equal.",
  "all histories of calls with lawful hash and comparison functions, and all with arbitrary ones, all memories and allocators, the next call being any",
  "the number and the arguments of callbacks after every history; tests count at best a few calls of a few histories",
  ["maa/hash.c:hsh_insert","maa/hash.c:hsh_delete","maa/hash.c:hsh_retrieve","maa/set.c:set_insert","maa/set.c:set_delete","maa/set.c:set_member"])
p("what the functions of skip lists are asked",
  "Every sl_insert, sl_delete and sl_find that returns has called the compare function only with the key of a datum that is in the list as first and the key sought as second argument, and the key function only for those data (and first for the datum given): data before the key in ascending order, each at most once, and at most 18 times a datum that is not before it, the last one looked at being the first of those. So it compares at most 18 times more than there are data before the key, whatever levels were drawn. sl_create and sl_destroy call neither.",
  "all histories of calls on any number of lists with any total orders, all results of random(), all allocation policies, the next call being any",
  "the number and the arguments of callbacks after every history and all random levels",
  ["maa/sl.c:_sl_locate","maa/sl.c:sl_insert","maa/sl.c:sl_delete","maa/sl.c:sl_find"])

p("what the functions of sets are asked by set_union and the like",
  "set_add and set_del look for each element of the second set once in the first, set_union looks for each element of both in the new one, set_inter and set_diff look for each element of the first set once in the second and, if it is to be added, once more in the new one, and set_equal looks for elements of the first set in the second until one is missing, and for none when the numbers of elements differ. Looking for an element calls the hash function once, with that element, and the comparison function with elements of the set searched, each at most once, up to the first that is equal. So set_union calls the hash function as often as both sets have elements together, set_inter and set_diff as often as the first set and the result have elements, set_equal at most as often as the first set has elements. set_create, set_destroy, set_count, set_readonly and set_get_stats call neither.",
  "all histories of calls on any number of sets with lawful functions (set_add and set_del on two different sets), the next call being any; all orders in which elements are met",
  "the number and the arguments of callbacks after every history",
  ["maa/set.c:set_add","maa/set.c:set_del","maa/set.c:set_union","maa/set.c:set_inter","maa/set.c:set_diff","maa/set.c:set_equal"])

p("the version string, and what the library says at the end",
  "Whatever three int numbers the library was built with, maa_version writes nothing outside its buffer of 80 bytes and returns the string of Libmaa, a space and the three numbers maa_version_major, maa_version_minor and maa_version_teeny return, in decimal and separated by dots; the numbers can be read back from it; any number of calls return the same string and leave what earlier calls returned unchanged. maa_shutdown, called in any state in which the timer total exists, writes only to stderr: a line with that string if .memory or .time is on, then the true statistics of the global string pool if .memory is on, then, if .time is on, one line for each timer, total having been stopped.",
  "all version numbers and previous contents of the buffer, any number of calls; all states the library can reach before maa_shutdown, all clocks",
  "tests see one version and a few final states",
  ["maa/maa.c:maa_version","maa/maa.c:maa_version_major","maa/maa.c:maa_version_minor","maa/maa.c:maa_version_teeny","maa/maa.c:maa_shutdown"])
p("what a program sees of a hash table or set does not depend on addresses",
  "The results of any history of calls on one hash table or set, the pairs its walks show and their order (hsh_iterate and set_iterate, stopped anywhere, and HSH_ITERATE and SET_ITERATE with look-ups in the body), the numbers of its statistics and the way the program ends are the same whatever addresses the allocator hands out and whatever else is in memory; also when the hash and comparison functions answer anything, and something else in every call. The same holds for programs with any number of sets (set_add and set_del being given two different ones).",
  "all histories of calls and walks, all hash and comparison functions, any two memories and any two allocators",
  "a run of a test sees one allocator and one layout of memory; that the order of a walk is reproducible is about all of them",
  ["maa/hash.c:hsh_insert","maa/hash.c:hsh_delete","maa/hash.c:hsh_retrieve","maa/hash.c:hsh_iterate","maa/hash.c:hsh_get_stats","maa/hash.c:hsh_init_position","maa/hash.c:hsh_next_position","maa/set.c:set_insert","maa/set.c:set_delete","maa/set.c:set_member","maa/set.c:set_iterate","maa/set.c:set_get_stats","maa/set.c:set_init_position","maa/set.c:set_next_position"])
with open("/verif/properties.jsonl","w") as f:
    for x in P: f.write(json.dumps(x)+"\n")
print(len(P))
