# Formal model of cheusov/libmaa in Lean 4 — design

Source modelled: `/repo` (libmaa 1.5.1, `maa/*.c`).  The code is read as text only; it is never built or run.

## 1. Conventions of the model

* **Platform.**  LP64 (64-bit `long`/pointers, 32-bit `int`), the platform the library is mostly used on.  Where a
  C type width matters (prime.c, bit.c, base64.c, base26.c, flags.c, debug.c) the model computes with that width
  explicitly.  Elsewhere counters (`entries`, `count`, `bytes`, ...) are unbounded `Nat`/`Int` (C75 proves that none leaves its C
  type before 2³¹ calls or bytes; the statistics `retrievals`, `hits`, `misses`, `resizings` of *sets*, `unsigned long`, are not bounded).
* **Outcomes.**  `Maa.Res α` = `ok a | abort | fatal | ub | diverge`‑style result: `abort` is `err_internal`/`assert`/`abort()`,
  `fatal` is `err_fatal`/`err_fatal_errno` (exit 1), `ub` is undefined behaviour (NULL dereference, out-of-bounds
  access, signed overflow, use after free).  Undefined behaviour is never assumed away: either a theorem shows it
  is not reached or a theorem exhibits it.
* **User callbacks** (`hash`, `compare`, `key`, iterators) are pure function parameters.  The contract the table
  needs (`compare = 0` is an equivalence and equal keys hash equally) is the explicit structure `KeyOps.Lawful`.
* **Environment** (clock readings, random levels, read/write/select results, wait statuses, `strftime` output, pids
  and descriptors chosen by the kernel) is a parameter; theorems quantify over all its values.
* **malloc** never fails in the models of the containers (trusted there).  The address it returns is chosen by an arbitrary
  policy (`Policy`, `Heap.Allocator`): any address that is neither `NULL` nor live, so freed addresses may come back at once
  or never; the theorems on hash tables, sets, stacks, lists, object pools, string memories, string pools and skip lists
  quantify over it.  What `xmalloc` and its relatives do with an arbitrary allocator, including failure → `fatal`, is modelled separately (C70); `Model/Oom.lean` repeats the containers with requests that may fail (C78).
* Layout: `lean/Verif/Model/*.lean` (model, each definition cites file:lines), `lean/Verif/Spec/*.lean` (small
  independent specifications), `lean/Verif/Lemmas/*.lean` (helpers), `lean/Verif/Props/*.lean` (property theorems
  named `Cnn_...`, with non-vacuity examples beside them).

## 2. Plan per property

| id | model | proof |
|----|-------|-------|
| C01 | `prm_is_prime` loop with 32-bit wrapping `square` | loop invariant `square = divisor² mod 2³²`; above 65535² the wrapped square still exceeds every value below 2³²-7 because -7 is a square mod 2³²; refuted at 1 and 4294967291 (mod-8 argument) |
| C02 | `prm_next_prime` search | termination, minimality for 2..4294967279, answer 1 above; Bertrand (Mathlib) for the size of the result |
| C03 | `BitVec 64`, result truncated to 32 bits | bitwise extensionality; refuted for bits ≥ 32 |
| C04 | `BitVec 64` SWAR | proved through per-field sums, no bv_decide |
| C05–C10 | `hash.c` with bucket array and chains, entry counter, readonly flag, statistics | invariant + refinement to `K → Option (K×V)`; second layer: pointer-level heap model refined to the chain model |
| C11–C16 | `set.c` likewise | refinement to `K → Prop`; all sets of a program in one memory (`Model/SetHeap.lean`): a loop over one set's chains whose body works on another set is simulated by a fold; self-calls characterised completely |
| C17 | linked nodes | refinement to `List` |
| C18–C21 | `list.c` on a heap of nodes with shared pool, head/tail pointers | separation-style invariant (disjoint chains) + refinement to `List` per list |
| C22 | `memory.c` objects | invariant over histories |
| C23–C25 | `memory.c` strings on a byte heap | invariant; refuted for `mem_strncpy` |
| C26–C29 | `string.c` over the `hash.c` and `memory.c` models | invariant over histories |
| C30–C32 | `arg.c`, automaton table from `arggram.txt` | simulation with a recursive-descent specification; round trip by induction |
| C33–C35 | `base64.c`, `base26.c` with int arithmetic | digit arithmetic |
| C36–C37 | `text.c` | loop invariant, independent specification |
| C38–C40 | `sl.c` on a heap of nodes with forward arrays, random levels as input | level chains are sublists of the bottom chain; refinement to sorted list |
| C41–C43 | `flags.c`, `debug.c` | bit-level, over the hash model |
| C44 | `timer.c` integer DIFFTIME | arithmetic; refuted for sub-second resolution |
| C45 | `log.c` state machine | invariant |
| C46–C48 | `pr.c` tables, read/write loop against an I/O oracle, flag logic | invariants over all oracles |
| C49–C50 | `source.c` | invariants over histories |
| C51 | `error.c` | list lemma |
| C52 | hash.c built-ins | direct |
| C53 | shutdown functions | direct |
| C54 | `str_findn` over the pool model | invariant |
| C55–C56 | `flg_list`, `dbg_list`, `flg_name` over the name table | permutation of the map the history denotes |
| C57–C58 | `log.c` line building and facility table | from the C45 simulation; table lookup |
| C59 | child branch of `pr_open2` on a descriptor table | direct, stream by stream |
| C60 | `src_cpp_line` over the `arg.c` model | from the C31 split theorem and `atoi` of a decimal |
| C61 | `src_print_error` over the token history | from the C49 simulation |
| C62 | `error.c` output as a byte stream plus the way of ending | direct, over all names, routines and messages |
| C63 | statistics before/after each call of the table code (chain level; the pointer level refines it) | case analysis of each call plus the position of the entry in its chain |
| C64 | `hsh_iterate` on linked cells with callbacks as finite interaction trees | simulation: cells still to be visited are untouched by allowed calls; witnesses for what is not allowed |
| C65 | `tim_print_timers` as an iteration whose callback looks each timer up three times in the same table | simulation of C64 with the callback's calls; fold over the visiting order |
| C66 | `str_pool_get_stats` over the pool model, walking the real chains | per-call lemmas, then induction over histories |
| C67 | `STR_ITERATE`, `str_pool_iterate(_arg)` with a body that makes calls on the pool | invariant: while the table is locked, calls change counters only, the cells stay where they are |
| C68 | `hsh_key_strings` over tables of strings at pointer level | iteration lemma + fold; layout specification as lines of at most 60 columns plus one key |
| C69 | all hash tables of a program in one memory (`Model/Tables.lean`), HSH_ITERATE over one of them with a body that calls the library on any | simulation: separation of the chains (`MRep`), per-table simulation with finite maps; loop invariant: a locked table keeps its cells |
| C70 | `xmalloc.c` over one flat byte memory with an arbitrary C library allocator (its decisions a universally quantified function, constrained by the C standard only) | refinement to independent byte arrays, invariant: live blocks do not overlap |
| C71 | the models of C05, C22, C23 in a memory the rest of the program changes arbitrarily between the calls (`Spec.Shared`, `Spec.Many`) | the invariants of C05, C22, C23 re-based on the changed foreign memory; disjointness of the parts of memory owned |
| C72 | the functions that print statistics, and `lst_dump`, as the bytes they write (`Model/PrintStats.lean`), for tables, sets, object pools, string memories, string pools, the source manager | the statistics theorems (C06, C15, C22, C25, C66, C49) plus the layout in `Spec/Report.lean`; `%p` and `%.1f` are parameters |
| C73 | programs as trees of calls and walks, nested to any depth (`Spec/SetProgs.lean`, `Model/SetProgs.lean`), all sets in one memory | the specification is a predicate transformer (`Ensures`: every run, for every order of the elements, obeys the rules and ends as promised); induction on the program, invariant: the cells of a set being walked over stay as they are; the rule about nested `SET_ITERATE` is shown to be needed |
| C74 | programs as trees of calls and walks over hash tables (`Spec/TabProgs.lean`, `Model/TabProgs.lean`), all tables in one memory; `next` is saved before the body runs, `t->prime`, `t->buckets` are re-read | predicate transformer `Ensured` as for C73, carrying for each `hsh_iterate` in progress the pairs still to come; induction over the program with a frame for every walk in progress (locked table: same cells; open walk: the cells of the pairs to come stay in place) |
| C75 | the counters of all containers | invariant indexed by the number of calls over every history; sets: the members of all sets are among the elements ever inserted; `str_unique`: potential = number of ≤10-digit numbers ≥ counter at ends of interned strings |
| C76 | programs as trees of calls and walks over lists (`Spec/LstProgs.lean`, `Model/LstProgs.lean`); `d->next` is read after the body ran; loops have no bound of their own, so the model takes a bound and the theorem says that from some bound on it does not matter | predicate transformer `LstEnsured` (positions of new elements are arbitrary); induction over the program and the bound of the walk, with the representation invariant of C18 only |
| C77 | programs as trees of calls and walks over skip lists (`Spec/SlProgs.lean`, `Model/SlProgs.lean`) | executable specification; induction over the program with the invariant of C38–C40 |
| C78 | `Model/Oom.lean`, `OomNames.lean`, `OomWorld.lean`: the containers, and everything that uses them, with every request for memory written out and numbered; which requests are refused is an arbitrary function | simulation of the models without failures up to the first refused request, combined with C05, C11, C17, C18, C38; requests counted by an invariant |
| C79 | `Model/Handles.lean`: what lies at each address (kind of structure, first 32 bits), what each of 71 functions (and six with two sets) does with its handle before it relies on it, and how handles come and go | case analysis over the functions for arbitrary memories; an invariant over histories relating memory to the handles given out |
| C80 | `Model/StrPool.lean` (as C26) | an invariant over histories of the strings in memory, the pooled strings and the copies handed out so far |
| C81 | `Model/PrExec.lean`: splitting of the command (`Model/Arg.lean`), what `execvp` reads of the vector, how the child ends | composition of C31, C32, C30 with the vector read up to its NULL |
| C82 | `Model/HashHeap.lean` (cells asked for are counted by the clock of the memory) and `Model/Oom.lean` (all requests) | potential function 2·cells + 4·entries ≤ 6·added + size, kept by every call; Bertrand for the size |
| C83 | `Model/Lists.lean` with the node pool of `Model/Objects.lean` | every call leaves the set of live nodes as it is, or frees them all, or takes a new one with no node waiting; induction over the history |
| C84 | `Model/Names.lean`: log.c and source.c with the names as pointers into the memory of `Model/StrPool.lean` | simulation of the content-level models (C45, C49) as long as the interned strings grow; composition with their simulations; refutations after `str_destroy` |
| C85 | `Model/ArgGram.lean`: the awk program `arggram2c` record by record and `arg_argify` over the generated integer arrays | lines of a file → words → rules; invariant of the numbering tables; lock-step with an interpreter of the rules by name; the shipped file evaluated by the kernel; refutation for names containing `ERROR` |
| C86 | the same model of sl.c (C38–C40, C77), compare and key arbitrary pure functions; outcomes as a relation (`Spec/SlLoose.lean`) | `_sl_locate` splits the bottom chain whatever the comparison says (barrier at each level); invariant without order; induction over programs |
| C87 | sl.c with `SL_DEBUG` 1 (`Model/SlDebug.lean`): `_sl_check` in searches, after insertions, deletions and walks | the check decides "neighbours ascend" on every reachable chain; lock-step with the ordinary build, both for orders (equality) and for any functions (equality or abort); refutation for a list destroyed inside its own walk |
| C88 | the pointer-level model of hash.c and set.c (C05, C08, C11, C16), every call with its own `KeyOps`; outcomes as a relation (`Spec/TabLoose.lean`) | the chains hold the pairs, each in the chain of the hash value stored with it, whatever the functions say (`Kept`); simulation into the relation; the changed key by splitting the pairs into one that is never asked for and a map; refutation for deleting inside `hsh_iterate` |
| C89 | hash.c with the string callbacks, flags.c, debug.c and timer.c again, the keys of the tables being addresses in the caller's memory, which every call may find changed (`Model/Borrowed.lean`); loans in `Spec/Borrowed.lean` | lock-step with the model by contents as long as the loans are kept, then the theorems for that model (C05, C41, C44); refutations for a changed, a released and a reused buffer |
| C90 | `Model/Symbols.lean`: parse-concrete.c with symbols and forms as pointers into the memory of `Model/StrPool.lean`, its table that of `Model/Borrowed.lean` | the table is related through C89's lemmas to one holding characters as long as the interned strings grow; refutations after `str_destroy`, one general, one with an allocator that reuses addresses |
| C91 | `Model/SetHeap.lean` with functions that may differ at every call, against `Spec/SetsLoose.lean`, which says what the calls may do without any law for the functions | the pointer level follows the chain level (C11's `step_ref` needs no laws), the chain level follows the specification by C88's lemmas; safety from the specification having no undefined outcome for existing sets; the meaning for the elements is proved of the specification; self-addition refuted |
| C92 | `Model/DebugOut.lean`: the functions with `PRINTF` once more, with the messages at their place; `Spec/DebugOut.lean`: the texts in terms of arguments and results | each function returns iff the function without messages returns and its messages can be logged; composition over histories; exact way of ending by a relation kept by every message that cannot fail; the two failures refuted by concrete histories |
| C93 | `Model/SlFickle.lean`: the model of sl.c with compare and key given anew for every call, and with a comparison that may answer differently each time it is called; `Spec/SlFickle.lean` | C86's step lemma does not depend on what the functions answered before; the invariant with order is kept by changes that keep the order; a search that changes its mind still walks along one chain per level; deletion refuted by a concrete list |
| C94 | `Model/Syslog.lean`: log.c with the argument of `log_syslog` by address, and the pointer and facility that the C library's `openlog` keeps; `Spec/Syslog.lean`: what arrives, by contents | loans as in C89, over C45's simulation: the library's pointer is among the loans whenever syslog is open; two refutations (buffer changed, buffer released) |
| C95 | `Model/Asked.lean`: the pointer-level functions of hash.c and set.c with a record of the calls of `t->hash` and `t->compare`; `Spec/Asked.lean`: which calls a search may make | erasing the record gives the old functions; the search loop over a chain looks at a prefix of it; the slot is what the hash function sends there (C01's invariant); move-to-front gives the single comparison |
| C96 | `Model/SlAsked.lean`: the functions of sl.c with a record of the calls of `l->key` and `l->compare`; `Spec/SlAsked.lean` | erasing the record; on each level the walk looks at nodes of that level between two predecessors and one more, so the smaller data looked at form a sublist of the list |
| C97 | `Model/SetsAsked.lean`: the functions of set.c on several sets (chain level, as Model/Set.lean) with a record of the calls of `t->hash` and `t->compare`; `Spec/SetsAsked.lean` | erasing the record; one search asks what Spec/Asked.lean says (invariant of C01), the loops by induction over the elements met, with the representation of the sets from C11 |
| C98 | `Model/Version.lean`: maa.c:72-94 (byte-wise `sprintf` into the static buffer) and the text written by `maa_shutdown` (maa.c:49-70); `Spec/Version.lean` | length of decimal numbers; split at the dots; the text of the shutdown from C53, C65, C66 and C72 |
| C99 | `Model/Watch.lean`: dispatch of calls, walks, position loops and statistics to the models of hash.c and set.c; nothing new is modelled. Walks call no library function, except look-ups in the position loops | two memories that store the same chains: a simulation over `Spec.Run`, from the representation lemmas of C06, C08 and C64 for arbitrary functions; several sets (`C99_many_sets`) from the chain-level store of C11 |

No property is outside what a model can express; runtime aspects excluded are listed in section 4.

## 3. Disagreements between documentation/API and code (found while reading; each is to be proved in the model)

1. `prm_is_prime(1) = 1`; `prm_is_prime(4294967291) = 0` though prime (square wraps); `prm_next_prime(0) = prm_next_prime(1) = 1`, `prm_next_prime(4294967291) = 1`.
2. `bit_tst` truncates to `int`: bits 32..63 always test as clear.
3. `lst_truncate(l, n)` with `n ≥ 2` and a longer list dereferences NULL (loop never increments `i`).
4. `mem_strncpy` copies `len+1` source bytes: result not terminated unless `s[len]==0`, and reads `s[len]`.
5. `str_pool_finish` returns a non-canonical pointer when the string is already pooled.
6. `str_pool_iterate` stopped early leaves the index read-only; the next new `str_pool_find` aborts.
7. `str_exists`, `str_copyn`, `str_unique` dereference NULL when the global pool does not exist yet.
8. HSH/SET position iteration that completes clears a read-only flag the user had set; nested iteration likewise, so that after an inner `SET_ITERATE` the body of the outer one may delete the element it stands on and the outer loop reads freed memory (`C73_nested_macro_refuted`, `C74_nested_macro_refuted`).
9. `set_del(s,s)` on a non-empty set, and `set_add(s,s)` when a resize is due, use freed memory.
10. `b64_decode(b64_encode(v))` for `v ≥ 2³¹`: signed shift overflow (UB; wraps to sign-extended value on LP64).
11. `b26_decode` of 7-letter strings overflows `int`.
12. `TEST` in flags.c/debug.c never reads group 2: flags `10……` are tested against group 3.
13. `usedFlags` is never written: reused flags are never rejected.
14. `dbg_set("xfoo")` with `foo` registered clears `foo`; `dbg_set("-bogus")` is silently accepted; `dbg_set("")` reads past the terminator.
15. `DIFFTIME` divides microseconds with integer division: whole-second resolution.
16. `log_file(id,"")` (empty expansion) increments the open counter without opening; never decremented.
17. `pr_readwrite`: full output buffer makes `read(...,0)` look like EOF: silent truncation; `inLen == 0` never closes the child's stdin.
18. `src_destroy` does not reset `Used`: after re-creation lines are stored past the new array when `Used ≥ 1000`.
19. `_src_print_yyerror`: an unterminated `` `T_ `` reads past the message; names ≥ 1024 bytes overflow `buf`.
20. `_prs_shutdown` leaves a dangling table pointer (second call aborts / is UB).
21. `src_print_error`/`src_print_message` use a NULL stream as is although the comment says stdout is used.
22. `src_line` copies `len+1` bytes and so relies on a NUL after the line.
23. A second `maa_shutdown`, or one without `maa_init`, aborts in `tim_stop("total")`.
24. `err_fatal_errno` with a NULL routine prints it with `%s`.
25. `err_warning` and `err_internal` log; if the log file is due for rotation and cannot be reopened the program ends with status 1 instead.
26. `hsh_iterate` saves `next` for callbacks that delete, but a callback that merely calls `hsh_retrieve` reorders the chain: entries are skipped or visited twice.
27. `STR_ITERATE_END` (maa.h) expands to `str_readonly`, which does not exist: a program that uses it does not link.
28. `str_pool_readonly(pool, flag)` (maa.h) hands the pool structure to `hsh_readonly`, which expects a hash table: it always aborts on the magic number. So a loop left early cannot be undone.
29. `pr_readwrite` puts the descriptors into an `fd_set` without checking them against `FD_SETSIZE` (maa/pr.c): with a descriptor of 1024 or more, which a program with many open files gets from the kernel, the behaviour is undefined (`C47_large_descriptor_refuted`).
30. The comment before `sl_create` says that without a key function the datum is used as the key; the code ends the program (`C77_no_key_refuted`).
31. `stk_push` (maa/stack.c:74-76) uses `malloc` where the rest of the library uses `xmalloc`, and dereferences the result unchecked. Object pools, string memories, string pools, lists and skip lists keep their books on stacks, so even taking an element off a list or destroying a list dereferences NULL when memory is exhausted (`C78_push_refuted`, `C78_free_object_refuted`, `C78_pop_refuted`, `C78_sl_destroy_refuted`, `C78_token_refuted`).
32. maa.h:36-45 promises that magic numbers are "checked for integrity at each access". `hsh_insert`, `hsh_delete`, `hsh_retrieve` (maa/hash.c:222, 271, 304), `set_insert`, `set_delete`, `set_member` (maa/set.c:229, 277, 308) call the hash function stored in the structure, and `mem_get_object` (maa/memory.c:306) pops its stack, before they check: NULL is undefined behaviour there instead of an internal error (`C79_null_refuted`, `C79_wrong_kind_refuted`).
33. `pr_open` and `pr_spawn` do not check that the command has a word: `pr_spawn("")` forks a child that calls `execvp(NULL, …)` (maa/pr.c:195, 413), which is undefined (`C81_empty_undefined`).
34. `log_file` gives `strftime` three times the length of the pattern and 1024 bytes and ignores its result (maa/log.c:211): a pattern that stands for a longer name (114 times "%c") leaves the buffer indeterminate, and it is compared and opened all the same (`C45_long_name_refuted`).
35. `maa_shutdown` calls `str_destroy` but does not close the log, and neither log.c nor source.c learns of it: a message, or the printing of a token, after `maa_shutdown` (for instance from a function registered with `atexit`) reads names in freed memory (`C84_log_after_destroy_refuted`, `C84_token_after_destroy_refuted`).
36. `arggram2c` replaces `EXIT` and `ERROR` anywhere in the fourth column, so a state called e.g. `Q_ERROR` becomes two states, one without rules, and the program built from the grammar is aborted on input that reaches it; missing rules are not reported either (`C85_name_with_error_refuted`).
37. A walk whose function destroys the list it walks over is fine in the ordinary build and reads freed memory in the build with `SL_DEBUG` (`C87_destroy_refuted`).
38. With compare functions that are not equivalences, deleting the pair being visited inside `hsh_iterate` can free the pair that comes next, and the walk goes on in freed memory (`C88_walk_refuted`); a key changed while in the table may not be found any more under its new contents (`C88_changed_key_lost`).
39. `flg_register`, `dbg_register`, `tim_start` and `hsh_insert` with string keys keep the address of the name: registering from a buffer that is reused loses the first name, gives the second one in its place, and a released buffer is read again by every later look-up (`C89_changed_refuted`, `C89_released_refuted`, `C89_one_buffer_refuted`, `C89_timers_one_buffer_refuted`).
40. `maa_shutdown` calls `str_destroy` but not `_prs_shutdown`, and `str_destroy` does not tell parse-concrete.c: looking up a registered symbol afterwards reads freed keys (`C90_after_destroy_refuted`); with an allocator that reuses addresses, a symbol that was never registered gets a form (`C90_reused_refuted`).
41. `set_add(s, s)` where it is harmless with proper functions (C13) uses freed memory with a comparison function that does not find an element equal to itself (`C91_add_self_refuted`).
42. With `.src` or `.pr` set and a log file whose name changes and that cannot be opened again, `src_line` and the others end the program (`C92_rotation_ends_program`); `pr_spawn` and `pr_open` of a command without a word pass NULL to `%s` before they fork (`C92_no_word`).
43. `log_syslog` keeps its argument (`openlog` does), `log_file` and `log_stream` copy theirs: an identity built in a buffer that is reused or freed changes the tag of later messages, or is read after it is freed (`C94_changed_refuted`, `C94_released_refuted`).
44. A compare function that changes its answers during one `sl_delete` leaves the list with a reference to freed memory; changes between calls are harmless (`C93_refuted_within_call`, `C93_safe`).

## 4. Trusted base

**Kernel and axioms.**  Lean 4.33.0's kernel.  No axiom is declared.  Every property theorem depends on at most
`propext`, `Classical.choice` and `Quot.sound` (`#print axioms`, also checked by vcheck); no `native_decide`, no `bv_decide`
(nothing rests on compiled code).  `decide +kernel` is used only for closed statements and is evaluated by the kernel.
From Mathlib only ordinary theorems are used (Bertrand's postulate for C02, list and number lemmas).

**Hand translation.**  That the definitions in `lean/Verif/Model` say what the C text says is not proved; each definition
cites the file and lines it models and says where it simplifies.  `tools/fixcite.py` checks that the cited lines exist and
contain the cited function.  The specifications in `lean/Verif/Spec` are to be read as part of the statements.

**What is modelled, by file.**

| file | modelled | not modelled |
|------|----------|--------------|
| prime.c | all | the `double`-free code is complete; `int` is 32 bits |
| bit.c | all, LP64 and the 32-bit branch of `bit_cnt` | – |
| base64.c, base26.c | all, static buffers as state, signed shifts as in C | – |
| hash.c | all calls: create, destroy, insert, delete, retrieve, iterate(_arg), read-only, positions, statistics, built-in hash/compare functions; two levels: chains as lists and chains as linked cells on a heap; all tables of a program in one memory | what `%p` and `%.1f` print; wrong handles are modelled separately (`Model/Handles.lean`, C79) |
| set.c | all calls incl. union, inter, diff, equal, add, del, count, positions; two levels as for hash.c; all sets of a program in one memory | what `%p` and `%.1f` print; foreign pointers |
| stack.c, list.c | all; pointer level with the object pool | foreign pointers |
| memory.c | object pools (get, free, destroy, statistics) and string memories (blocks on a stack, the topmost one growing; byte level) | what `%p` prints |
| string.c | all, both pools created by the user and the global one | what `%p` prints |
| arg.c, arggram.txt, arggram2c | all; C85 derives the transition table from the text of `arggram.txt` through a model of the awk program | writing the generated C text and parsing it again; words of the grammar that awk takes for numbers |
| sl.c | create, destroy, insert, delete, find, iterate; forward arrays on a heap; level chosen by an arbitrary random source; `_sl_dump` as text (C72); the checks under `SL_DEBUG` (C87); compare and key functions whose answers change between calls, and, in searches, within a call (C93) | the member `levels` and the longer dump under `SL_DEBUG`; compare and key functions that call the library |
| flags.c, debug.c | all; also with the names as addresses in the caller's memory (C89, there without the lists printed before a fatal end, and with `strcmp` looking for the ends of both strings) | – |
| timer.c | all, printing included; clocks as parameters; also with the names as addresses (C89, without printing) | sub-second parts never arise (DIFFTIME is integer arithmetic), so `%0.3f` is modelled on integers |
| log.c | all, with the names as pointers too (C84), and the identity that `openlog` keeps (C94); file system, clock, host name, `strftime`, syslog as events and parameters | formatting of the message itself by `vsnprintf` (the text after formatting is the parameter), numeric errno texts |
| error.c | all; output as bytes plus the way the program ends | formatting as above; core file |
| pr.c | registration table, open (parent and child side), close, shutdown, spawn, `pr_readwrite`/`pr_filter` against an arbitrary kernel; debugging messages (C92) | `exec` and the shell, signals delivered to the caller, errno values other than the tested ones |
| source.c, parse-concrete.c | all, with the file names as pointers too (C84), the symbols too (C90), incl. `src_cpp_line`, messages with symbols, error printing, debugging messages (C92) | `yylex` interaction |
| text.c | all | – |
| maa.c | init, shutdown, order of shutting down, library switches, version functions, the text written at shutdown | that writing to stderr may fail |
| xmalloc.c | all five functions, over a flat memory and an arbitrary C library allocator (C70); the containers use the conventions of section 1, and `Model/Oom.lean` repeats stack.c, memory.c, list.c, hash.c, set.c, string.c and sl.c, `Model/OomNames.lean` arg.c, flags.c, debug.c and timer.c, `Model/OomWorld.lean` the global string pool, log.c, source.c, `pr_open`, `pr_spawn` and `maa_init`, with requests that may fail (C78) | failure of `malloc(0)` |
| alloca.c, rnd.c, mkrnd.c, test programs, build system | – | not part of the library interface on the modelled platform |

**Assumptions about the outside.**  Memory is never exhausted.  Reading or freeing memory that is not live is `ub`; freed
addresses may be handed out again by any policy that hands out no live address (handles of source positions and timers,
which are only freed at shutdown, are fresh numbers; the table of names behind flags and debug names uses one fixed policy).  Counters do not wrap (C75: not before 2³¹ calls or bytes).  Callbacks
given by the user are total, deterministic functions of their arguments and (for iteration) of what they have seen; in C64
and C16 they may also call the library.  One thread.  The kernel model of pr.c is the POSIX behaviour of `pipe`, `dup2`,
`close`, `read`, `write`, `waitpid` as far as the comments say.

**Status.**  `MANIFEST.json` lists for every property the theorems and whether the English statement is proved in full.
Where a property is `partial`, the missing part is in almost every case false of the code; then a theorem whose name ends
in `_refuted` (or is named so in the note) proves that with a concrete run, and section 3 lists the defect.

**Tests against wrong programs.**  `seeded/LOG.jsonl` records edits of the model of the kind a programming mistake would
produce, and which theorems stopped checking.  Edits no theorem noticed are recorded too, with the theorem that was added
or tightened, or with the reason why the edit does not change any observable behaviour.
