import Verif.Spec.Source

/-! # Model of maa/source.c: lines and tokens

Simplifications: `int` does not overflow; `str_find` (maa/string.c:71-98) gives the characters of its argument; the string
heap and the object heap are used only to allocate (Model/StrMem.lean, Model/Objects.lean model them), so a stored line is
the bytes that were copied, and a token is a fresh address that is valid until `src_destroy`; the debug flag `MAA_SRC` is
off (Model/DebugOut.lean has the messages).  What `fprintf` writes is the result of the printing functions; `%s` of NULL is undefined. -/

namespace Maa.Source

open Spec (SrcVal decimalInt)

/-- `sourceType`, maa/source.c:40-46.  `F` is what stands for a file name: its characters here, the pointer `str_find` returned in
Model/Names.lean. -/
structure InfoOf (F : Type) where
  file : Option F
  line : Int
  offset : Int
  length : Int
  index : Nat

/-- `sourceType`, maa/source.c:40-46, with the characters of the file name. -/
abbrev Info := InfoOf (List Byte)

/-- The global variables, maa/source.c:50-55; `lines` is the array `Lines` of `Count` elements (`none`: uninitialised). -/
structure StateOf (F : Type) where
  lines : Option (List (Option (List Byte)))
  count : Nat
  used : Nat
  info : InfoOf F
  /-- `bytes` of the string heap -/
  bytes : Nat
  /-- the objects of the object heap -/
  toks : Nat → Option (InfoOf F)
  /-- `total` of the object heap -/
  total : Nat
  fresh : Nat

/-- The global variables, maa/source.c:50-55, with the characters of the file names. -/
abbrev State := StateOf (List Byte)

/-- Program start: zero-initialised globals. -/
def StateOf.init {F : Type} : StateOf F :=
  { lines := none, count := 0, used := 0, info := InfoOf.mk none 0 0 0 0, bytes := 0, toks := fun _ => none, total := 0, fresh := 1 }

/-- Program start, with the characters of the file names. -/
abbrev State.init : State := StateOf.init

variable {F : Type}

/-- `INCREMENT`, maa/source.c:48. -/
def increment : Nat := 1000

/-- `src_create`, maa/source.c:62-70. -/
def srcCreate (σ : StateOf F) : Res (StateOf F) :=
  match σ.lines with
  | some _ => .fatal
  | none =>
    .ok { σ with lines := some (List.replicate increment none), count := increment, bytes := 0, toks := fun _ => none, total := 0 }

/-- `src_destroy`, maa/source.c:75-82: everything in the two heaps is freed. -/
def srcDestroy (σ : StateOf F) : StateOf F :=
  match σ.lines with
  | none => σ
  | some _ => { σ with lines := none, toks := fun _ => none }

/-- `memcpy(str, string, len + 1)` of `mem_strncpy`, maa/memory.c:153-154. -/
def copy (buf : List Byte) (len : Nat) : Res (List Byte) := if len + 1 ≤ buf.length then .ok (buf.take (len + 1)) else .ub

/-- `for (pt = Lines[Used]; *pt; pt++) if (*pt == '\t') *pt = ' ';`, maa/source.c:97; running off the copied bytes is
undefined. -/
def untab : List Byte → Res (List Byte)
  | [] => .ub
  | c :: cs => if c = 0 then .ok (c :: cs) else (untab cs).bind fun r => .ok ((if c = 9 then 32 else c) :: r)

/-- `Lines[i] = s`. -/
def setLine (a : List (Option (List Byte))) (i : Nat) (s : List Byte) : Res (List (Option (List Byte))) :=
  if i < a.length then .ok (a.set i (some s)) else .ub

/-- `Lines[i]`, used as a string. -/
def getLine (a : List (Option (List Byte))) (i : Nat) : Res (List Byte) :=
  match a[i]? with
  | some (some s) => CStr.cstr s
  | _ => .ub

/-- `if (!Lines) src_create();`, maa/source.c:90. -/
def ensure (σ : StateOf F) : Res (StateOf F) :=
  match σ.lines with
  | none => srcCreate σ
  | some _ => .ok σ

/-- The array. -/
def arr (σ : StateOf F) : List (Option (List Byte)) := σ.lines.getD []

/-- `if (++Used >= Count) Lines = xrealloc(Lines, (Count += INCREMENT) * sizeof(char *));`, maa/source.c:101-102; gives the
array and `Count`. -/
def regrow (a : List (Option (List Byte))) (used count : Nat) : List (Option (List Byte)) × Nat :=
  if used ≥ count then (a ++ List.replicate (count + increment - a.length) none, count + increment) else (a, count)

/-- `src_line`, maa/source.c:86-105; the result is the string at the returned address. -/
def srcLine (σ : StateOf F) (buf : List Byte) (len : Nat) : Res (StateOf F × List Byte) :=
  (ensure σ).bind fun σ =>
  (copy buf len).bind fun s =>
  (untab s).bind fun s =>
  (setLine (arr σ) σ.used s).bind fun a =>
    let g := regrow a (σ.used + 1) σ.count
    let info := { σ.info with line := σ.info.line + 1, index := σ.used, offset := 0 }
    (getLine g.1 (σ.used + 1 - 1)).bind fun r =>
    .ok ({ σ with lines := some g.1, count := g.2, used := σ.used + 1, info := info, bytes := σ.bytes + (len + 1) }, r)

/-- `src_new_file`, maa/source.c:110-113. -/
def srcNewFile (σ : StateOf F) (name : F) : StateOf F := { σ with info := { σ.info with file := some name } }

/-- `src_new_line`, maa/source.c:118-121. -/
def srcNewLine (σ : StateOf F) (line : Int) : StateOf F := { σ with info := { σ.info with line := line } }

/-- `src_advance`, maa/source.c:126-129. -/
def srcAdvance (σ : StateOf F) (length : Int) : StateOf F := { σ with info := { σ.info with offset := σ.info.offset + length } }

/-- `src_get`, maa/source.c:164-192. -/
def srcGet (σ : StateOf F) (length : Int) : Res (StateOf F × Nat) :=
  match σ.lines with
  | none => .fatal
  | some _ =>
    let σ := { σ with info := { σ.info with length := length } }
    let new := σ.fresh
    let σ := { σ with toks := fun p => if p = new then some σ.info else σ.toks p, fresh := new + 1, total := σ.total + 1 }
    .ok (srcAdvance σ length, new)

/-- `s ? … : …` with `s->…` through the pointer. -/
def deref (σ : StateOf F) (p : Nat) : Res (Option (InfoOf F)) :=
  if p = 0 then .ok none else
    match σ.toks p with
    | none => .ub
    | some i => .ok (some i)

/-- The check at the start of the accessors, e.g. maa/source.c:201-202, and the pointer. -/
def access (σ : StateOf F) (p : Nat) : Res (Option (InfoOf F)) :=
  match σ.lines with
  | none => .fatal
  | some _ => deref σ p

/-- `src_filename`, maa/source.c:197-205. -/
def srcFilename (σ : State) (p : Nat) : Res (Option (List Byte)) :=
  (access σ p).bind fun
    | some i => .ok i.file
    | none => .ok (some [])

/-- `src_linenumber`, maa/source.c:210-218. -/
def srcLinenumber (σ : StateOf F) (p : Nat) : Res Int :=
  (access σ p).bind fun
    | some i => .ok i.line
    | none => .ok 0

/-- `src_offset`, maa/source.c:223-231. -/
def srcOffset (σ : StateOf F) (p : Nat) : Res Int :=
  (access σ p).bind fun
    | some i => .ok i.offset
    | none => .ok 0

/-- `src_length`, maa/source.c:236-244. -/
def srcLength (σ : StateOf F) (p : Nat) : Res Int :=
  (access σ p).bind fun
    | some i => .ok i.length
    | none => .ok 0

/-- `src_source_line`, maa/source.c:249-257. -/
def srcSourceLine (σ : StateOf F) (p : Nat) : Res (List Byte) :=
  (access σ p).bind fun
    | some i => getLine (arr σ) i.index
    | none => .ok []

/-- `src_get_stats`, maa/source.c:263-290: lines used, lines allocated, bytes, tokens. -/
def srcStats (σ : StateOf F) : List Nat :=
  match σ.lines with
  | some _ => [σ.used, σ.count, σ.bytes, σ.total]
  | none => [0, 0, 0, 0]

/-- `%s` of a file name. -/
def fileArg : Option (List Byte) → Res (List Byte)
  | none => .ub
  | some f => .ok f

/-- `fprintf(str, "%s:%d: ", s->file, s->line)` or `fprintf(str, "?:?: ")`, maa/source.c:368, 372, 393-394, 413-416,
435-438. -/
def prefix_ : Option Info → Res (List Byte)
  | some i => (fileArg i.file).bind fun f => .ok (f ++ [58] ++ decimalInt i.line ++ [58, 32])
  | none => .ok [63, 58, 63, 58, 32]

/-- `src_print_line`, maa/source.c:347-356, on the token's fields. -/
def printLine (σ : State) : Option Info → Res (List Byte)
  | some i => (fileArg i.file).bind fun f => (getLine (arr σ) i.index).bind fun s =>
      .ok (f ++ [58] ++ decimalInt i.line ++ [58, 32] ++ s)
  | none => .ok ([63, 58, 63, 58, 32] ++
      [60, 115, 111, 117, 114, 99, 101, 32, 108, 105, 110, 101, 32, 110, 111, 116, 32, 97, 118, 97, 105, 108, 97, 98, 108, 101, 62, 10])

/-- `for (i = 0; i < n; i++) putc(c, str);`, maa/source.c:369-370. -/
def repeatPut (n : Int) (c : Byte) : List Byte := List.replicate n.toNat c

/-- `_src_print_error`, maa/source.c:358-375. -/
def printErrorLine (σ : State) (s : Option Info) (fudge : Int) : Res (List Byte) :=
  (printLine σ s).bind fun a =>
  (prefix_ s).bind fun p =>
    match s with
    | some i => .ok (a ++ p ++ repeatPut (i.offset - fudge) 32 ++ repeatPut i.length 94 ++ [10])
    | none => .ok (a ++ p ++ [10])

/-- The labelled message of `src_print_error` and `src_print_message`, maa/source.c:412-421, 434-443; `stream` false: NULL. -/
def message (σ : State) (stream : Bool) (h : Nat) : Option (List Byte) → Res (List Byte)
  | none => .ok []
  | some m => if stream then (deref σ h).bind fun s => (prefix_ s).bind fun p => .ok (p ++ m ++ [10]) else .ub

/-- `src_print_error`, maa/source.c:406-424; with a NULL stream the assertion of `_src_print_error` fails
(maa/source.c:362). -/
def srcPrintError (σ : State) (stream : Bool) (h : Nat) (formatted : Option (List Byte)) : Res (List Byte) :=
  (message σ stream h formatted).bind fun a =>
    if stream then (deref σ h).bind fun s => (printErrorLine σ s 0).bind fun b => .ok (a ++ b) else .abort

/-- One call (dispatch only; maa/source.c:62-444). -/
def step (σ : State) : Spec.SrcOp → Res (State × SrcVal)
  | .create => (srcCreate σ).bind fun σ => .ok (σ, .unit)
  | .destroy => .ok (srcDestroy σ, .unit)
  | .line buf len => (srcLine σ buf len).bind fun r => .ok (r.1, .str (some r.2))
  | .newFile name => .ok (srcNewFile σ name, .unit)
  | .newLine n => .ok (srcNewLine σ n, .unit)
  | .advance n => .ok (srcAdvance σ n, .unit)
  | .get n => (srcGet σ n).bind fun r => .ok (r.1, .tok r.2)
  | .filename h => (srcFilename σ h).bind fun v => .ok (σ, .str v)
  | .linenumber h => (srcLinenumber σ h).bind fun v => .ok (σ, .num v)
  | .offset h => (srcOffset σ h).bind fun v => .ok (σ, .num v)
  | .length h => (srcLength σ h).bind fun v => .ok (σ, .num v)
  | .sourceLine h => (srcSourceLine σ h).bind fun v => .ok (σ, .str (some v))
  | .stats => .ok (σ, .nums (srcStats σ))
  | .printLine h => (deref σ h).bind fun s => (printLine σ s).bind fun v => .ok (σ, .text v)
  | .printError stream h m => (srcPrintError σ stream h m).bind fun v => .ok (σ, .text v)
  | .printMessage stream h m => (message σ stream h m).bind fun v => .ok (σ, .text v)

end Maa.Source
