import Verif.Model.CStr

/-! # Grammar files of the argument splitter

What a file such as maa/arggram.txt is meant to say: one rule per line, "in state `src`, on a character of type
`chartype`, do `action` and go to `dst`", where `dst` is a state, `EXIT` or `ERROR`; `#` starts a comment, empty lines
are ignored.  Nothing here refers to the program that translates such files. -/

namespace Maa.Spec.ArgGram

abbrev Word := List Byte

/-- The bytes of a text. -/
def word (s : String) : Word := s.toUTF8.toList

/-- A rule. -/
structure Row where
  src : Word
  chartype : Word
  action : Word
  dst : Word
  deriving DecidableEq, Repr

/-- Where a rule leads. -/
inductive Target where
  | state (s : Word)
  | exit
  | error
  deriving DecidableEq, Repr

def Row.target (r : Row) : Target :=
  if r.dst = word "EXIT" then .exit else if r.dst = word "ERROR" then .error else .state r.dst

/-- Separators inside a line: blank and tab. -/
def Gap (w : Word) : Prop := ∀ b ∈ w, b = 32 ∨ b = 9

/-- A word: not empty, no blank, tab, newline or `#`. -/
def IsWord (w : Word) : Prop := w ≠ [] ∧ ∀ b ∈ w, b ≠ 32 ∧ b ≠ 9 ∧ b ≠ 10 ∧ b ≠ 35

/-- A letter or an underscore. -/
def IsLetter (b : Byte) : Prop := (65 ≤ b ∧ b ≤ 90) ∨ (97 ≤ b ∧ b ≤ 122) ∨ b = 95

/-- Names usable for states: a word that starts with a letter and contains neither `EXIT` nor `ERROR`. -/
def StateName (w : Word) : Prop :=
  IsWord w ∧ (∃ b ∈ w.take 1, IsLetter b) ∧ ¬ word "EXIT" <:+: w ∧ ¬ word "ERROR" <:+: w

/-- Rules that can be written. -/
structure Row.Ok (r : Row) : Prop where
  src : StateName r.src
  chartype : IsWord r.chartype
  action : IsWord r.action
  dst : StateName r.dst ∨ r.dst = word "EXIT" ∨ r.dst = word "ERROR"

/-- A line of a grammar file, with the separators as they were typed. -/
inductive Line where
  | nothing (gap : Word) (comment : Option Word)
  | rule (g0 : Word) (r : Row) (g1 g2 g3 g4 : Word) (comment : Option Word)

def showComment : Option Word → Word
  | none => []
  | some c => 35 :: c

/-- The text of a line. -/
def Line.text : Line → Word
  | .nothing gap c => gap ++ showComment c
  | .rule g0 r g1 g2 g3 g4 c =>
    g0 ++ r.src ++ g1 ++ r.chartype ++ g2 ++ r.action ++ g3 ++ r.dst ++ g4 ++ showComment c

def CommentOk (c : Option Word) : Prop := ∀ t, c = some t → (10 : Byte) ∉ t

def Line.Ok : Line → Prop
  | .nothing gap c => Gap gap ∧ CommentOk c
  | .rule g0 r g1 g2 g3 g4 c => r.Ok ∧ Gap g0 ∧ (Gap g1 ∧ g1 ≠ []) ∧ (Gap g2 ∧ g2 ≠ []) ∧ (Gap g3 ∧ g3 ≠ []) ∧ Gap g4 ∧ CommentOk c

/-- The file: every line ends with a newline. -/
def fileOf (ls : List Line) : Word := ls.flatMap fun l => l.text ++ [10]

/-- The rules of a file, in order. -/
def rowsOf : List Line → List Row
  | [] => []
  | .nothing .. :: ls => rowsOf ls
  | .rule _ r .. :: ls => r :: rowsOf ls

/-- The states a list of rules mentions. -/
def IsState (rows : List Row) (s : Word) : Prop := ∃ r ∈ rows, r.src = s ∨ r.target = .state s

/-- The state to start in: the one the first rule is about. -/
def start : List Row → Word
  | [] => []
  | r :: _ => r.src

/-- What the rules say for a state and a type of character: the last rule about them.  If there is none: what the first
rule does, and back to the start. -/
def cell (rows : List Row) (s c : Word) : Word × Target :=
  match (rows.filter fun r => r.src = s ∧ r.chartype = c).getLast? with
  | some r => (r.action, r.target)
  | none => ((rows.head?.map (·.action)).getD [], .state (start rows))

end Maa.Spec.ArgGram
