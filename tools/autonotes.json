[
 [
  [
   "printYyerror",
   ""
  ],
  [
   [
    "C50_no_message"
   ],
   "no theorem spoke about a NULL message; C50_no_message now states the text printed"
  ]
 ],
 [
  [
   "insert",
   "keysReadable p = false ∧"
  ],
  [
   [],
   "equivalent: in every reachable state the keys are readable whenever the datum is, which C23/C24 prove"
  ]
 ],
 [
  [
   "Global.init",
   ""
  ],
  [
   [
    "example in Props/StrPool: numbers begin with 1"
   ],
   "the starting number of the unique strings was not stated; it is now"
  ]
 ],
 [
  [
   "flgName",
   ""
  ],
  [
   [
    "C56_none_registered"
   ],
   "the case of no flag registered at all was not stated; C56_none_registered now is"
  ]
 ],
 [
  [
   "logStream",
   ""
  ],
  [
   [],
   "equivalent: the open counter only gates an early return"
  ]
 ],
 [
  [
   "State.init",
   "fresh := 2"
  ],
  [
   [],
   "equivalent: names of fresh handles are arbitrary"
  ]
 ],
 [
  [
   "b64LoopWrap",
   ""
  ],
  [
   [],
   "equivalent: offsets are multiples of 6, so 33 and 32 separate the same cases"
  ]
 ],
 [
  [
   "round",
   ""
  ],
  [
   [
    "C47_large_descriptor_refuted"
   ],
   "the check of descriptors against FD_SETSIZE was not stated; C47_large_descriptor_refuted now exhibits the undefined behaviour"
  ]
 ],
 [
  [
   "nthLoop",
   ""
  ],
  [
   [],
   "equivalent: the counter is not read after the end of the list was reached"
  ]
 ],
 [
  [
   "copyLoop",
   ""
  ],
  [
   [],
   "equivalent: the number of cells equals the count in every reachable state, the test never decides"
  ]
 ],
 [
  [
   "loop",
   "else .fatal"
  ],
  [
   [],
   "equivalent: the branch is unreachable, C31_rules_total proves the automaton accepts at NUL"
  ]
 ],
 [
  [
   "entry",
   "c.toNat 99"
  ],
  [
   [],
   "equivalent: the table has 256 entries, the default is never taken"
  ]
 ],
 [
  [
   "cCalloc",
   "s.time - 1"
  ],
  [
   [],
   "equivalent: the allocator decides by an arbitrary function of the time, so which number a failed call leaves behind is unobservable"
  ]
 ],
 [
  [
   "cRealloc",
   "s.time + 0"
  ],
  [
   [],
   "equivalent: the allocator decides by an arbitrary function of the time, so which number a failed call leaves behind is unobservable"
  ]
 ],
 [
  [
   "writeHalf",
   "s.inPt - count"
  ],
  [
   [],
   "outside the contract: the branch is reached only when the caller announces more input than the buffer holds, which the claims exclude"
  ]
 ],
 [
  [
   "setIterate",
   "readonly := 0"
  ],
  [
   [],
   "the callback of this first model cannot call the library; with calling callbacks (siterate, iterateCalls) the same edit fails C16_iterate_with_calls and C73_programs"
  ]
 ],
 [
  [
   "setIterate",
   "readonly := 2"
  ],
  [
   [],
   "the callback of this first model cannot call the library; only zero against non-zero is read by the code"
  ]
 ],
 [
  [
   "State.init",
   "fresh := 2"
  ],
  [
   [],
   "equivalent: handle names are arbitrary"
  ]
 ],
 [
  [
   "State.init",
   "clock := 2"
  ],
  [
   [],
   "equivalent: addresses are chosen by an arbitrary placement policy"
  ]
 ],
 [
  [
   "State.init",
   "State.mk (-2)"
  ],
  [
   [],
   "equivalent: the code only tests the descriptor for being negative"
  ]
 ],
 [
  [
   "strncpy",
   "_ + 0"
  ],
  [
   [],
   "equivalent: the pattern _ + 0 matches every number, so the equation is unchanged"
  ]
 ],
 [
  [
   "chainReadable",
   "none => true"
  ],
  [
   [],
   "equivalent on reachable pools: no chain of a reachable table contains a freed cell"
  ]
 ],
 [
  [
   "delSelf",
   "n (i + 2)"
  ],
  [
   [],
   "this definition only serves the witness C13_refuted_del_self; the general statement is C13_del_self over Model.SetHeap, where the same edit fails"
  ]
 ],
 [
  [
   "delSelf",
   "n (i + 0)"
  ],
  [
   [],
   "this definition only serves the witness C13_refuted_del_self; the general statement is C13_del_self over Model.SetHeap, where the same edit fails"
  ]
 ],
 [
  [
   "ops",
   "strHashLoop 1"
  ],
  [
   [],
   "equivalent for the claims about pools: they hold for any hash that respects equality; hsh_string_hash itself is pinned by C05 and the printed statistics"
  ]
 ],
 [
  [
   "dbgName",
   "none => .abort"
  ],
  [
   [],
   "unreachable: the code never writes usedFlags, so _dbg_name is never called (C42 refutation)"
  ]
 ],
 [
  [
   "dbgName",
   "flag != BitVec"
  ],
  [
   [],
   "unreachable: the code never writes usedFlags, so _dbg_name is never called (C42 refutation)"
  ]
 ],
 [
  [
   "entry",
   "c.toNat 101"
  ],
  [
   [],
   "equivalent: the tables have 256 entries, the default is never used"
  ]
 ],
 [
  [
   "signed",
   "else 1 ^ 64"
  ],
  [
   [
    "C52_string_hash"
   ],
   "only the last conversion of characters above 127 was unspecified; C52_string_hash now gives the hash by a formula"
  ]
 ],
 [
  [
   "signed",
   "- b.toNat"
  ],
  [
   [
    "C52_string_hash"
   ],
   "only the last conversion of characters above 127 was unspecified; C52_string_hash now gives the hash by a formula"
  ]
 ],
 [
  [
   "strHashLoop",
   "3 ^ 64"
  ],
  [
   [
    "C52_string_hash"
   ],
   "C52_string_hash now gives the hash by a formula"
  ]
 ],
 [
  [
   "store",
   "i ≤ v.length"
  ],
  [
   [],
   "equivalent on reachable states: the vector always has a free slot (C28/C29), so i = length does not occur"
  ]
 ],
 [
  [
   "facilitynames",
   ""
  ],
  [
   [
    "C58_names"
   ],
   "the names and numbers were only in the model; C58_names now states them as text"
  ]
 ],
 [
  [
   "builtin",
   ""
  ],
  [
   [
    "C55_dbg_list"
   ],
   "C55_dbg_list spoke of the model's constant; it now contains the text"
  ]
 ],
 [
  [
   "resized",
   ""
  ],
  [
   [],
   "claims stay true: the bytes realloc adds are unspecified in C and are overwritten before they are read; a larger block harms nothing"
  ]
 ],
 [
  [
   "State.init",
   "count := 1, used := 0, info"
  ],
  [
   [],
   "equivalent: src_create sets the count before it is read"
  ]
 ],
 [
  [
   "strUnique",
   "none => 2"
  ],
  [
   [],
   "equivalent: a bound for the model's loop, not a part of the program"
  ]
 ],
 [
  [
   "readHalf",
   "< 0 then .abort"
  ],
  [
   [],
   "unreachable: read() returns at most the length asked for; the check cannot fire"
  ]
 ],
 [
  [
   "isOk",
   "true"
  ],
  [
   [],
   "unused helper, removed"
  ]
 ],
 [
  [
   "wifsignaled",
   "- 255"
  ],
  [
   [],
   "equivalent: v is at most 128, and -128/2 and -127/2 are both negative"
  ]
 ],
 [
  [
   "poolReadonly",
   "2 ^ 31"
  ],
  [
   [],
   "equivalent for the claim: an address divisible by 8 differs from the magic number in its low bits"
  ]
 ],
 [
  [
   "total",
   ""
  ],
  [
   [
    "C53_total_name"
   ],
   "the name was only in the model; C53_total_name now states it as text"
  ]
 ],
 [
  [
   "step",
   "logClose σ { expand := id, fd := 1"
  ],
  [
   [],
   "equivalent: log_close does not use these answers of the system"
  ]
 ],
 [
  [
   "readable",
   "none => true"
  ],
  [
   [],
   "equivalent on reachable pools: keys of the table are live strings"
  ]
 ],
 [
  [
   "withEntry",
   ".int _ => .ret .ub 0"
  ],
  [
   [],
   "unreachable: a retrieve returns a pointer"
  ]
 ],
 [
  [
   "b64DecodeBuf",
   "≤ len"
  ],
  [
   [
    "C33_decode_buf"
   ],
   "b64_decode_buf with an exactly filled buffer was not stated; C33_decode_buf now is"
  ]
 ],
 [
  [
   "b64Encode",
   "getD 0 1"
  ],
  [
   [],
   "equivalent: the default of a lookup inside the table"
  ]
 ],
 [
  [
   "ptrBytes",
   ""
  ],
  [
   [
    "C52_pointer_hash_formula"
   ],
   "the hash of a pointer was only bounded; C52_pointer_hash_formula now gives it by a formula in its eight bytes"
  ]
 ],
 [
  [
   "addSelf",
   ""
  ],
  [
   [],
   "this definition only serves a witness; the general statements about set_add over aliased sets are over Model.SetHeap, where the same edit fails"
  ]
 ],
 [
  [
   "store",
   "pt ≤ result.length"
  ],
  [
   [],
   "equivalent on reachable states: the buffer is proved large enough (C41), so pt = length does not occur"
  ]
 ],
 [
  [
   "iterate",
   "σ.heap.clock + 0"
  ],
  [
   [],
   "equivalent: the number bounds the model's loop and is always larger than the number of elements"
  ]
 ],
 [
  [
   "setUpdate",
   "i ≤ u.length"
  ],
  [
   [],
   "equivalent on reachable states: the level is always below the length of the update array, so i = length does not occur (C23)"
  ]
 ],
 [
  [
   "atoi",
   ""
  ],
  [
   [
    "atoi_number (C50)"
   ],
   "the range of the numbers atoi converts was only used inside its bounds; the lemma now covers both ends"
  ]
 ],
 [
  [
   "signedDigits",
   ""
  ],
  [
   [
    "atoi_number (C50)"
   ],
   "negative numbers were not stated; they are now"
  ]
 ],
 [
  [
   "openCommand",
   ".fatal"
  ],
  [
   [
    "C81_refused"
   ],
   "the way conflicting flags are refused was not stated; C81_refused now is"
  ]
 ],
 [
  [
   "spawnCommand",
   "| none => .abort"
  ],
  [
   [
    "C81_no_child"
   ],
   "what a failed fork does was not stated; C81_no_child now is"
  ]
 ],
 [
  [
   "readwrite",
   ".abort"
  ],
  [
   [
    "C47_no_nonblock"
   ],
   "the failure of fcntl was not stated; C47_no_nonblock now is"
  ]
 ],
 [
  [
   "cCalloc",
   ""
  ],
  [
   [],
   "equivalent: the allocator decides by an arbitrary function of the time, so which number a failed call leaves behind is unobservable"
  ]
 ],
 [
  [
   "cMalloc",
   ""
  ],
  [
   [],
   "equivalent: the allocator decides by an arbitrary function of the time, so which number a failed call leaves behind is unobservable"
  ]
 ],
 [
  [
   "delSelf",
   ""
  ],
  [
   [],
   "this definition only serves the witness C13_refuted_del_self; the general statement is C13_del_self over Model.SetHeap, where the same edit fails"
  ]
 ],
 [
  [
   "wifsignaled",
   "- 257"
  ],
  [
   [],
   "equivalent: v is at most 128, and -128/2 and -129/2 are both negative"
  ]
 ],
 [
  [
   "lstNthGet",
   ""
  ],
  [
   [],
   "unreachable: the count of every reachable list equals the number of its cells, so the loop never ends early"
  ]
 ],
 [
  [
   "logOption",
   ""
  ],
  [
   [],
   "equivalent: the code only tests inhibitFull for being zero"
  ]
 ],
 [
  [
   "grow",
   "i.growing - len"
  ],
  [
   [
    "the model of mem_grow: a copy beyond the block is now undefined behaviour"
   ],
   "pasting extended the block silently; pasted now fails when the block is too small, and the same edit fails C20"
  ]
 ],
 [
  [
   "printSource",
   "s.getD 3 1"
  ],
  [
   [],
   "equivalent: the default of a lookup inside the list"
  ]
 ],
 [
  [
   "poolReadonly",
   "2 ^ 33"
  ],
  [
   [],
   "equivalent for the claim: an address divisible by 8 differs from the magic number in its low bits"
  ]
 ],
 [
  [
   "readable",
   "| .arg _ => false"
  ],
  [
   [],
   "unreachable: the keys of a table are stored strings, an argument is never a key"
  ]
 ],
 [
  [
   "newStruct",
   ""
  ],
  [
   [
    "C79_no_memory"
   ],
   "what the create functions do without memory was not stated; C79_no_memory now is"
  ]
 ],
 [
  [
   "poolCreate",
   "create fails 1"
  ],
  [
   [],
   "equivalent: a table created with seed 0 or 1 has the same size"
  ]
 ],
 [
  [
   "createEntry",
   ".fatal"
  ],
  [
   [],
   "unreachable: the level of a new entry is bounded by the maximum (C39)"
  ]
 ],
 [
  [
   "walkCalls",
   "clock + 0"
  ],
  [
   [],
   "equivalent: the number bounds the model's loop and is always larger than the number of elements"
  ]
 ]
]