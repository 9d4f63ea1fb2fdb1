import Verif.Spec.Run
import Verif.Spec.StrPool
import Verif.Model.CStr

/-! # What a user sees of the source manager and of concrete symbols -/

namespace Maa.Spec

/-- What is known of one token. -/
structure Token where
  file : Option (List Byte)
  line : Int
  offset : Int
  length : Int
  /-- which of the stored lines, counted from 0, the token is on -/
  serial : Nat
  deriving DecidableEq

/-- A call's result: nothing, a number, a string or NULL, a token (0 is NULL), text written, or some numbers. -/
inductive SrcVal where
  | unit
  | num (n : Int)
  | str (s : Option (List Byte))
  | tok (h : Nat)
  | text (s : List Byte)
  | nums (ns : List Nat)
  deriving DecidableEq

/-- The calls.  `line buf len` passes the address of `buf` and a length. -/
inductive SrcOp where
  | create
  | destroy
  | line (buf : List Byte) (len : Nat)
  | newFile (name : List Byte)
  | newLine (n : Int)
  | advance (n : Int)
  | get (n : Int)
  | filename (h : Nat)
  | linenumber (h : Nat)
  | offset (h : Nat)
  | length (h : Nat)
  | sourceLine (h : Nat)
  | stats
  | printLine (h : Nat)
  /-- `stream` is false for a NULL stream; `formatted` is what the format and its arguments give, none for a NULL format -/
  | printError (stream : Bool) (h : Nat) (formatted : Option (List Byte))
  | printMessage (stream : Bool) (h : Nat) (formatted : Option (List Byte))

/-- The state of the source manager. -/
structure Src where
  /-- it exists -/
  alive : Bool
  /-- it can take lines -/
  room : Bool
  file : Option (List Byte)
  line : Int
  offset : Int
  /-- the current line -/
  serial : Nat
  /-- the number of lines stored since program start -/
  used : Nat
  /-- the stored lines -/
  text : Nat → Option (List Byte)
  /-- bytes taken by the stored lines -/
  bytes : Nat
  /-- the tokens handed out -/
  tokens : Nat → Option Token
  /-- how many tokens were handed out since the manager was created -/
  total : Nat
  /-- the next token -/
  next : Nat

/-- Program start. -/
def Src.init : Src :=
  { alive := false, room := true, file := none, line := 0, offset := 0, serial := 0, used := 0, text := fun _ => none, bytes := 0,
    tokens := fun _ => none, total := 0, next := 1 }

/-- Tabs become blanks. -/
def detab (s : List Byte) : List Byte := s.map fun c => if c = 9 then 32 else c

/-- The line stored for `buf`, `len`: the string in the buffer, which must be terminated within `len + 1` bytes. -/
def lineText (buf : List Byte) (len : Nat) : Option (List Byte) :=
  if len + 1 ≤ buf.length ∧ 0 ∈ buf.take (len + 1) then some (detab (buf.takeWhile (· ≠ 0))) else none

/-- An empty manager; line numbers, file and the count of lines stay as they are.  If 1000 lines or more have been stored
before, it has no room for lines. -/
def Src.start (σ : Src) : Src :=
  { σ with alive := true, room := decide (σ.used < 1000), text := fun _ => none, bytes := 0, tokens := fun _ => none, total := 0 }

/-- A number in decimal. -/
def decimalInt (n : Int) : List Byte := if n < 0 then 45 :: decimal n.natAbs else decimal n.natAbs

/-- Look at a token: `dflt` for the NULL token; anything else must have been handed out by the present manager. -/
def Src.look (σ : Src) (h : Nat) (dflt : SrcVal) (f : Token → Res SrcVal) : Res (Src × SrcVal) :=
  if h = 0 then .ok (σ, dflt) else
    match σ.tokens h with
    | none => .ub
    | some t => (f t).bind fun v => .ok (σ, v)

/-- A look that needs the manager. -/
def Src.peek (σ : Src) (h : Nat) (dflt : SrcVal) (f : Token → Res SrcVal) : Res (Src × SrcVal) :=
  if σ.alive then σ.look h dflt f else .fatal

/-- The stored line of a token. -/
def Src.lineOf (σ : Src) (t : Token) : Res (List Byte) :=
  match σ.text t.serial with
  | none => .ub
  | some s => .ok s

/-- `file:line: `; printing a token without file is undefined. -/
def label (t : Token) : Res (List Byte) :=
  match t.file with
  | none => .ub
  | some f => .ok (f ++ [58] ++ decimalInt t.line ++ [58, 32])

/-- `?:?: ` -/
def noLabel : List Byte := [63, 58, 63, 58, 32]

/-- `<source line not available>` and a newline. -/
def noLine : List Byte :=
  [60, 115, 111, 117, 114, 99, 101, 32, 108, 105, 110, 101, 32, 110, 111, 116, 32, 97, 118, 97, 105, 108, 97, 98, 108, 101, 62, 10]

/-- Blanks up to the token and as many `^` as it is long. -/
def carets (t : Token) : List Byte := List.replicate t.offset.toNat 32 ++ List.replicate t.length.toNat 94

/-- The labelled source line. -/
def Src.showLine (σ : Src) (t : Token) : Res (List Byte) :=
  (label t).bind fun l => (σ.lineOf t).bind fun s => .ok (l ++ s)

/-- The labelled source line, and below it the marks. -/
def Src.showMarked (σ : Src) (t : Token) : Res (List Byte) :=
  (σ.showLine t).bind fun a => (label t).bind fun l => .ok (a ++ l ++ carets t ++ [10])

/-- The labelled message. -/
def showMessage (t : Token) (m : List Byte) : Res (List Byte) := (label t).bind fun l => .ok (l ++ m ++ [10])

/-- The same for the NULL token. -/
def noMessage (m : List Byte) : List Byte := noLabel ++ m ++ [10]

/-- The lines allocated: enough for the stored ones and one more, in steps of 1000. -/
def Src.allocated (σ : Src) : Nat := if σ.room then 1000 * (σ.used / 1000 + 1) else 1000

/-- One call. -/
def srcStep (σ : Src) : SrcOp → Res (Src × SrcVal)
  | .create => if σ.alive then .fatal else .ok (σ.start, .unit)
  | .destroy => .ok ({ σ with alive := false, text := fun _ => none, tokens := fun _ => none }, .unit)
  | .line buf len =>
    let τ := if σ.alive then σ else σ.start
    if τ.room then
      match lineText buf len with
      | none => .ub
      | some s =>
        .ok ({ τ with line := τ.line + 1, serial := τ.used, offset := 0, used := τ.used + 1, bytes := τ.bytes + len + 1,
                      text := fun i => if i = τ.used then some s else τ.text i }, .str (some s))
    else .ub
  | .newFile name => .ok ({ σ with file := some name }, .unit)
  | .newLine n => .ok ({ σ with line := n }, .unit)
  | .advance n => .ok ({ σ with offset := σ.offset + n }, .unit)
  | .get n =>
    if σ.alive then
      .ok ({ σ with offset := σ.offset + n, next := σ.next + 1, total := σ.total + 1,
                    tokens := fun h => if h = σ.next then some (Token.mk σ.file σ.line σ.offset n σ.serial) else σ.tokens h },
           .tok σ.next)
    else .fatal
  | .filename h => σ.peek h (.str (some [])) fun t => .ok (.str t.file)
  | .linenumber h => σ.peek h (.num 0) fun t => .ok (.num t.line)
  | .offset h => σ.peek h (.num 0) fun t => .ok (.num t.offset)
  | .length h => σ.peek h (.num 0) fun t => .ok (.num t.length)
  | .sourceLine h => σ.peek h (.str (some [])) fun t => (σ.lineOf t).bind fun s => .ok (.str (some s))
  | .stats => .ok (σ, .nums (if σ.alive then [σ.used, σ.allocated, σ.bytes, σ.total] else [0, 0, 0, 0]))
  | .printLine h => σ.look h (.text (noLabel ++ noLine)) fun t => (σ.showLine t).bind fun s => .ok (.text s)
  | .printError true h none =>
    σ.look h (.text (noLabel ++ noLine ++ noLabel ++ [10])) fun t => (σ.showMarked t).bind fun b => .ok (.text b)
  | .printError true h (some m) =>
    σ.look h (.text (noMessage m ++ noLabel ++ noLine ++ noLabel ++ [10])) fun t =>
      (showMessage t m).bind fun a => (σ.showMarked t).bind fun b => .ok (.text (a ++ b))
  | .printError false _ none => .abort
  | .printError false _ (some _) => .ub
  | .printMessage _ _ none => .ok (σ, .text [])
  | .printMessage true h (some m) => σ.look h (.text (noMessage m)) fun t => (showMessage t m).bind fun a => .ok (.text a)
  | .printMessage false _ (some _) => .ub

/-! Reading a history: the file name set last, the line number, the characters since the line began, the line. -/

def fileNext (f : Option (List Byte)) : SrcOp → Option (List Byte)
  | .newFile name => some name
  | _ => f

def lineNext (l : Int) : SrcOp → Int
  | .newLine n => n
  | .line _ _ => l + 1
  | _ => l

def offsetNext (o : Int) : SrcOp → Int
  | .line _ _ => 0
  | .advance n => o + n
  | .get n => o + n
  | _ => o

def textNext (x : Option (List Byte)) : SrcOp → Option (List Byte)
  | .line buf len => lineText buf len
  | .create => none
  | .destroy => none
  | _ => x

def fileAfter (hist : List SrcOp) : Option (List Byte) := hist.foldl fileNext none
def lineAfter (hist : List SrcOp) : Int := hist.foldl lineNext 0
def offsetAfter (hist : List SrcOp) : Int := hist.foldl offsetNext 0
def textAfter (hist : List SrcOp) : Option (List Byte) := hist.foldl textNext none

end Maa.Spec
