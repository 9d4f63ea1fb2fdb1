import Verif.Model.Source
import Verif.Spec.SourceErr
import Verif.Model.NameTab
import Verif.Model.Arg

/-! # Model of maa/parse-concrete.c and of the rest of maa/source.c

Simplifications as in Model/Source.lean; in particular `str_find` (maa/string.c:71-98) gives a string with the characters
of its argument; here each call gives a new address. -/

namespace Maa.Prs

/-- `_prs_hash`, maa/parse-concrete.c:28, and the strings it refers to.  `freed`: the table has been destroyed and the pointer
still points to it. -/
structure State where
  hash : Option NameTab.Table
  freed : Bool
  mem : Nat → Option (List Byte)
  fresh : Nat

/-- Program start. -/
def State.init : State := { hash := none, freed := false, mem := fun _ => none, fresh := 1 }

/-- `if (!_prs_hash) _prs_hash = hsh_create(NULL, NULL);`, maa/parse-concrete.c:32; gives the table. -/
def check (σ : State) : Res NameTab.Table :=
  match σ.hash with
  | some t => .ok t
  | none => NameTab.create

/-- `prs_register_concrete`, maa/parse-concrete.c:30-35. -/
def register (σ : State) (symbol concrete : List Byte) : Res State :=
  if σ.freed then .ub else
    (check σ).bind fun t =>
    (NameTab.insert t (some (CStr.ofStr symbol)) σ.fresh).bind fun r =>
      .ok { σ with hash := some r.1, mem := fun q => if q = σ.fresh then some concrete else σ.mem q, fresh := σ.fresh + 1 }

/-- `prs_concrete`, maa/parse-concrete.c:37-41; the string at the address returned. -/
def concrete (σ : State) (symbol : Option (List Byte)) : Res (State × Option (List Byte)) :=
  if σ.freed then .ub else
    match σ.hash with
    | none => .ok (σ, none)
    | some t => (NameTab.retrieve t symbol).bind fun r =>
        if r.2 = 0 then .ok ({ σ with hash := some r.1 }, none) else
          match σ.mem r.2 with
          | none => .ub
          | some s => .ok ({ σ with hash := some r.1 }, some s)

/-- `_prs_shutdown`, maa/parse-concrete.c:43-46: the pointer is left as it is. -/
def shutdown (σ : State) : Res State :=
  if σ.freed then .ub else
    match σ.hash with
    | none => .ok σ
    | some t => (NameTab.destroy t).bind fun _ => .ok { σ with freed := true }

/-- One call (dispatch only; maa/parse-concrete.c:30-46). -/
def step (σ : State) : Spec.PrsOp → Res (State × Option (List Byte))
  | .register s c => (register σ s c).bind fun σ => .ok (σ, none)
  | .concrete s => concrete σ (s.map CStr.ofStr)
  | .shutdown => (shutdown σ).bind fun σ => .ok (σ, none)

end Maa.Prs

namespace Maa.Source

open Spec (decimalInt)

/-- `pt[i]`. -/
def at_ (pt : List Byte) (i : Nat) : Res Byte :=
  match pt[i]? with
  | none => .ub
  | some c => .ok c

/-- `pt[1] == '`' && pt[2] && pt[3] == '\'' && pt[4] == '\''`, maa/source.c:326. -/
def isCharConst (pt : List Byte) : Res Bool :=
  (at_ pt 1).bind fun c1 => if c1 ≠ 96 then .ok false else
  (at_ pt 2).bind fun c2 => if c2 = 0 then .ok false else
  (at_ pt 3).bind fun c3 => if c3 ≠ 39 then .ok false else
  (at_ pt 4).bind fun c4 => .ok (c4 = 39)

/-- `pt[1] == 'T' && pt[2] == '_'`, maa/source.c:329. -/
def isSymbol (pt : List Byte) : Res Bool :=
  (at_ pt 1).bind fun c1 => if c1 ≠ 84 then .ok false else
  (at_ pt 2).bind fun c2 => .ok (c2 = 95)

/-- `for (b = buf, ++pt; *pt && *pt != '\''; b++, pt++) *b = *pt;`, maa/source.c:330, from `pt + 1`: what goes to `buf`, and
the rest from where it stopped. -/
def scanName : List Byte → Res (List Byte × List Byte)
  | [] => .ub
  | c :: cs => if c = 0 ∨ c = 39 then .ok ([], c :: cs) else (scanName cs).bind fun r => .ok (c :: r.1, r.2)

/-- The loop of `_src_print_yyerror`, maa/source.c:324-340, from `pt`; every round consumes a byte, so `fuel` beyond the
number of bytes is never used up.  `buf` has 1024 bytes (maa/source.c:313). -/
def yyLoop : Nat → Prs.State → List Byte → Res (Prs.State × List Byte)
  | 0, _, _ => .ub
  | fuel + 1, σ, pt =>
    (at_ pt 0).bind fun c =>
    if c = 0 then .ok (σ, [])
    else if c ≠ 96 then (yyLoop fuel σ (pt.drop 1)).bind fun r => .ok (r.1, c :: r.2)
    else (isCharConst pt).bind fun b =>
      if b then (at_ pt 2).bind fun c2 => (yyLoop fuel σ (pt.drop 5)).bind fun r => .ok (r.1, [96, c2, 39] ++ r.2)
      else (isSymbol pt).bind fun b =>
        if b then (scanName (pt.drop 1)).bind fun n =>
          if n.1.length ≥ 1024 then .ub else
          (Prs.concrete σ (some (n.1 ++ [0]))).bind fun q =>
          (yyLoop fuel q.1 (n.2.drop 1)).bind fun r => .ok (r.1, [96] ++ q.2.getD n.1 ++ [39] ++ r.2)
        else (yyLoop fuel σ (pt.drop 1)).bind fun r => .ok (r.1, c :: r.2)

/-- `_src_print_yyerror`, maa/source.c:310-341. -/
def printYyerror (σ : Prs.State) : Option (List Byte) → Res (Prs.State × List Byte)
  | none => .ok (σ, [40, 110, 117, 108, 108, 41])
  | some m => yyLoop (m.length + 1) σ m

/-- `src_parse_error`, maa/source.c:388-399. -/
def srcParseError (σ : State) (π : Prs.State) (h : Nat) (msg : Option (List Byte)) : Res (Prs.State × List Byte) :=
  (deref σ h).bind fun s =>
  (prefix_ s).bind fun p =>
  (printYyerror π msg).bind fun y =>
  (printErrorLine σ s 0).bind fun e => .ok (y.1, p ++ y.2 ++ [10] ++ e)

/-- `strncpy(tmp, line, length); tmp[length] = '\0';`, maa/source.c:137-138: the characters of `tmp`. -/
def strncpy : List Byte → Nat → Res (List Byte)
  | _, 0 => .ok []
  | [], _ + 1 => .ub
  | c :: cs, n + 1 => if c = 0 then .ok [] else (strncpy cs n).bind fun r => .ok (c :: r)

/-- The digits `strtol` reads. -/
def digits : List Byte → Nat → Nat
  | [], acc => acc
  | c :: cs, acc => if 48 ≤ c.toNat ∧ c.toNat ≤ 57 then digits cs (acc * 10 + (c.toNat - 48)) else acc

/-- A sign and digits. -/
def signedDigits : List Byte → Int
  | [] => 0
  | c :: ds => if c = 45 then -(digits ds 0 : Int) else if c = 43 then digits ds 0 else digits (c :: ds) 0

/-- What `atoi` (C library; maa/source.c:142) makes of a string: white space, a sign, digits; a value that does not fit `int`
is undefined. -/
def atoi (s : List Byte) : Res Int :=
  let v := signedDigits (s.dropWhile fun c => c = 32 ∨ (9 ≤ c.toNat ∧ c.toNat ≤ 13))
  if -2 ^ 31 ≤ v ∧ v < 2 ^ 31 then .ok v else .ub

/-- The string at an address. -/
def stringAt (h : StrMem.Mem) (p : Nat) : Res (List Byte) :=
  match h.mem p with
  | none => .ub
  | some b => CStr.cstr b.1

/-- `src_cpp_line`, maa/source.c:131-157; `h` is the memory the argument list is made in. -/
def srcCppLine (h : StrMem.Mem) (σ : State) (line : List Byte) (length : Nat) : Res (StrMem.Mem × State) :=
  (strncpy line length).bind fun tmp =>
  (Arg.argify h (CStr.ofStr tmp) 0).bind fun args =>
  (Arg.get args.2 1).bind fun a1 =>
  (stringAt args.1 a1).bind fun s1 =>
  (atoi s1).bind fun n =>
    let lineno := if n > 0 then n - 1 else 1
    let σ := srcNewLine σ lineno
    if Arg.count args.2 = 2 then (Arg.destroy args.1 args.2).bind fun h => .ok (h, σ)
    else
      (Arg.get args.2 2).bind fun a2 =>
      (stringAt args.1 a2).bind fun s2 =>
      (Arg.destroy args.1 args.2).bind fun h => .ok (h, srcNewFile σ s2)

end Maa.Source
