import Verif.Model.Lexer
set_option autoImplicit false
/-!
# Specification of the spelling of programs

The words of the language, how they are written, and which token each of them is.
-/
namespace Sbc.Tok.Spec
open Sbc Sbc.Tok

/-- The commands by number (`[ENDIF]` is internal and cannot be written). -/
def commandNames : List String :=
  ["PRINT", "LOCATE", "COLOR", "DIM", "FOR", "TO", "STEP", "NEXT", "IF", "THEN", "ELSE", "[ENDIF]",
   "GOTO", "GOSUB", "ON", "RETURN", "END", "STOP", "CLS", "VISIBLE", "ACLS", "VSYNC", "WAIT", "INPUT",
   "LINPUT", "APPEND", "BEEP", "BGCLIP", "BGCLR", "BGCOPY", "BGFILL", "BGMCLEAR", "BGMPLAY", "BGMPRG",
   "BGMSET", "BGMSETD", "BGMSETV", "BGMSTOP", "BGMVOL", "BGOFS", "BGPAGE", "BGPUT", "BGREAD", "BREPEAT",
   "CHRINIT", "CHRREAD", "CHRSET", "CLEAR", "COLINIT", "COLREAD", "COLSET", "CONT", "DATA", "DELETE",
   "DTREAD", "EXEC", "FILES", "GBOX", "GCIRCLE", "GCLS", "GCOLOR", "GCOPY", "GDRAWMD", "GFILL", "GLINE",
   "GPAGE", "GPAINT", "GPSET", "GPRIO", "GPUTCHR", "ICONCLR", "ICONSET", "KEY", "LIST", "LOAD", "NEW",
   "PNLSTR", "PNLTYPE", "READ", "REBOOT", "RECVFILE", "RENAME", "RESTORE", "RSORT", "RUN", "SAVE",
   "SENDFILE", "SORT", "SPANGLE", "SPANIM", "SPCHR", "SPCLR", "SPCOL", "SPCOLVEC", "SPHOME", "SPOFS",
   "SPPAGE", "SPREAD", "SPSCALE", "SPSET", "SPSETV", "SWAP", "TMREAD", "TALK", "TALKSTOP", "POKE",
   "POKEH", "POKEB", "MEMCOPY", "MEMFILL"]

/-- The functions by number. -/
def functionNames : List String :=
  ["ABS", "ASC", "ATAN", "BGCHK", "BGMCHK", "BGMGETV", "BTRIG", "BUTTON", "CHKCHR", "CHR$", "COS",
   "DEG", "EXP", "FLOOR", "GSPOIT", "HEX$", "ICONCHK", "INKEY$", "INSTR", "LEFT$", "LEN", "LOG", "MID$",
   "PI", "POW", "RAD", "RIGHT$", "RND", "SGN", "SIN", "SPCHK", "SPGETV", "SPHIT", "SPHITRC", "SPHITSP",
   "SQR", "STR$", "SUBST$", "TAN", "VAL", "TALKCHK", "PEEK", "PEEKH", "PEEKB", "ADDR", "PTR$"]

/-- The system variables by number. -/
def sysvarNames : List String :=
  ["TRUE", "FALSE", "CANCEL", "VERSION", "TIME$", "DATE$", "MAINCNTL", "MAINCNTH", "FREEVAR", "FREEMEM",
   "PRGNAME$", "PACKAGE$", "RESULT", "TCHST", "TCHX", "TCHY", "TCHTIME", "CSRX", "CSRY", "TABSTEP",
   "SPHITNO", "SPHITX", "SPHITY", "SPHITT", "KEYBOARD", "FUNCNO", "ICONPUSE", "ICONPAGE", "ICONPMAX",
   "ERL", "ERR", "MEM$", "MEMSAFE"]

/-- The operators that are words, with their numbers. -/
def wordOps : List (String × Nat) := [("AND", 15), ("OR", 16), ("XOR", 17), ("NOT", 18)]

/-- The operators that are signs, with their numbers. -/
def signOps : List (String × Nat) :=
  [("+", 0), (",", 1), ("-", 2), ("*", 3), ("/", 4), (";", 5), ("=", 6), ("==", 8), ("!=", 9), ("<", 10), (">", 11),
   ("<=", 12), (">=", 13), ("%", 14), ("!", 19), ("(", 20), (")", 21), ("[", 22), ("]", 23)]

/-- `w` is the word `s` in any mixture of upper and lower case letters. -/
def Spelled (s : String) (w : List Nat) : Prop := w.map upper = chars s

instance (s : String) (w : List Nat) : Decidable (Spelled s w) := inferInstanceAs (Decidable (_ = _))

/-- All words with a meaning of their own. -/
def reserved : List String :=
  commandNames ++ functionNames ++ sysvarNames ++ wordOps.map (·.1) ++ ["LABEL", "REM"]

/-- A word made of letters, digits, underscores and dollar signs that starts with a letter or underscore. -/
def Wordlike (w : List Nat) : Prop := (∃ c r, w = c :: r ∧ isNameStart c = true) ∧ (∀ c ∈ w, isVarname c = true) ∧ w.length ≤ 255

/-- The name of a label: 1 to 16 letters, digits and underscores. -/
def LabelName (w : List Nat) : Prop := w ≠ [] ∧ (∀ c ∈ w, isName c = true) ∧ w.length ≤ 16

/-- One word of a program. -/
inductive Word where
  | command (i : Nat) (w : List Nat)
  | function (i : Nat) (w : List Nat)
  | sysvar (i : Nat) (w : List Nat)
  | wordOp (i : Nat) (w : List Nat)
  | signOp (i : Nat) (w : List Nat)
  | name (w : List Nat)
  /-- a decimal constant -/
  | number (w : List Nat)
  /-- `&H` or `&B` and digits -/
  | base (kind : Nat) (digits : List Nat)
  /-- a string in quotes -/
  | string (w : List Nat)
  /-- `@` and a name -/
  | label (w : List Nat)
  /-- the word LABEL, blanks and a name -/
  | labelWord (l : List Nat) (blanks : Nat) (w : List Nat)
  /-- `?` -/
  | question
  /-- `:` -/
  | colon
  deriving DecidableEq, Repr

/-- Correctly written words.  A name is a word that is not reserved, and does not begin with a reserved word of eight
letters (see the violation). -/
def Word.WF : Word → Prop
  | .command i w => Wordlike w ∧ (∃ s, commandNames[i]? = some s ∧ Spelled s w) ∧ i ≠ cmdData
  | .function i w => Wordlike w ∧ ∃ s, functionNames[i]? = some s ∧ Spelled s w
  | .sysvar i w => Wordlike w ∧ ∃ s, sysvarNames[i]? = some s ∧ Spelled s w
  | .wordOp i w => ∃ s, (s, i) ∈ wordOps ∧ Spelled s w
  | .signOp i w => ∃ s, (s, i) ∈ signOps ∧ w = chars s
  | .name w => Wordlike w ∧ (∀ s ∈ reserved, ¬ Spelled s w) ∧
      ∀ s ∈ reserved, (chars s).length = 8 → ¬ Spelled s (w.take 8)
  | .number w => w ≠ [] ∧ (∀ c ∈ w, isDigit c = true ∨ c = 46) ∧ w.length ≤ 255
  | .base k ds => (k = 72 ∨ k = 66) ∧ ds ≠ [] ∧ (∀ c ∈ ds, isDigit c = true ∨ (65 ≤ c ∧ c ≤ 70)) ∧ ds.length ≤ 253
  | .string w => (∀ c ∈ w, c ≠ 34 ∧ c ≠ 13) ∧ w.length ≤ 255
  | .label w => LabelName w
  | .labelWord l n w => Spelled "LABEL" l ∧ 1 ≤ n ∧ LabelName w
  | .question => True
  | .colon => True

/-- The characters of a word. -/
def Word.text : Word → List Nat
  | .command _ w | .function _ w | .sysvar _ w | .wordOp _ w | .signOp _ w | .name w | .number w => w
  | .base k ds => 38 :: k :: ds
  | .string w => 34 :: w ++ [34]
  | .label w => 64 :: w
  | .labelWord l n w => l ++ List.replicate n 32 ++ w
  | .question => [63]
  | .colon => [58]

/-- The token a word is. -/
def Word.tok : Word → Tk
  | .command i _ => ⟨.command, [], i, 0⟩
  | .function i _ => ⟨.function, [], i, 0⟩
  | .sysvar i _ => ⟨.sysvar, [], i, 0⟩
  | .wordOp i _ | .signOp i _ => ⟨.operation, [], i, 0⟩
  | .name w => ⟨.name, w, 0, 0⟩
  | .number w => ⟨.number, w, 0, 0⟩
  | .base k ds => ⟨.baseNumber, 38 :: k :: ds, 0, 0⟩
  | .string w => ⟨.string, w, 0, 0⟩
  | .label w | .labelWord _ _ w => ⟨.label, w, 0, 0⟩
  | .question => ⟨.command, [], cmdPrint, 0⟩
  | .colon => ⟨.newline, [58], 0, 0⟩

/-- The word would run on into the character `c`. -/
def Word.glues (c : Nat) : Word → Bool
  | .command .. | .function .. | .sysvar .. | .wordOp .. | .name _ => isVarname c
  | .signOp _ w => c == 61 && (w == [60] || w == [61] || w == [62] || w == [33])
  | .number _ => isDigit c || c == 46
  | .base .. => isDigit c || (65 ≤ c && c ≤ 70)
  | .label _ | .labelWord .. => isName c
  | .string _ | .question | .colon => false

/-- How a line ends: nothing more, a comment, a DATA statement, or a string that is not closed. -/
inductive Ending where
  | nothing
  /-- `'` and anything -/
  | tick (t : List Nat)
  /-- the word REM and anything -/
  | rem (w t : List Nat)
  /-- the word DATA and anything -/
  | data (w t : List Nat)
  /-- a quote and anything but a quote -/
  | unclosed (t : List Nat)
  deriving DecidableEq, Repr

/-- Correctly written ends of lines. -/
def Ending.WF : Ending → Prop
  | .nothing => True
  | .tick t => ∀ c ∈ t, c ≠ 13
  | .rem w t => Spelled "REM" w ∧ (∀ c ∈ t, c ≠ 13) ∧ ∀ c, t.head? = some c → isVarname c = false
  | .data w t => Spelled "DATA" w ∧ (∀ c ∈ t, c ≠ 13) ∧ ∀ c, t.head? = some c → isVarname c = false
  | .unclosed t => (∀ c ∈ t, c ≠ 34 ∧ c ≠ 13) ∧ t.length ≤ 255

/-- The characters of the end of a line, with the line end itself. -/
def Ending.text : Ending → List Nat
  | .nothing => [13]
  | .tick t => 39 :: t ++ [13]
  | .rem w t => w ++ t ++ [13]
  | .data w t => w ++ t ++ [13]
  | .unclosed t => 34 :: t ++ [13]

/-- Its tokens. -/
def Ending.toks : Ending → List Tk
  | .nothing => [⟨.newline, [13], 0, 0⟩]
  | .tick _ => [⟨.newline, [13], 0, 0⟩]
  | .rem w _ => [⟨.comment, w, 0, 0⟩, ⟨.newline, [13], 0, 0⟩]
  | .data _ t => [⟨.command, t ++ [13], cmdData, 0⟩, ⟨.newline, [13], 0, 0⟩]
  | .unclosed t => [⟨.string, t, 0, 0⟩, ⟨.newline, [13], 0, 0⟩]

/-- The text of a line: every word is followed by a number of blanks. -/
def lineText : List (Word × Nat) → Ending → List Nat
  | [], t => t.text
  | (w, n) :: r, t => w.text ++ List.replicate n 32 ++ lineText r t

/-- Correctly written lines: words are separated where they would run into each other. -/
def LineWF : List (Word × Nat) → Ending → Prop
  | [], t => t.WF
  | (w, n) :: r, t => w.WF ∧ (n = 0 → ∀ c, (lineText r t).head? = some c → w.glues c = false) ∧ LineWF r t

/-- The tokens of a line. -/
def lineTokens (l : List (Word × Nat)) (t : Ending) : List Tk := l.map (fun x => x.1.tok) ++ t.toks

/-- The lexer started at `s` delivers the line `toks` and stops before `rest`: it reads token after token until it
meets the end of the line. -/
inductive Lexes : Lx → List Tk → List Nat → Prop where
  | done {s : Lx} {toks : List Tk} {rest : List Nat} : tokNone s = .ok (⟨rest, toks, false⟩, .convert) → Lexes s toks rest
  | step {s s' : Lx} {toks : List Tk} {rest : List Nat} : tokNone s = .ok (s', .next) → Lexes s' toks rest → Lexes s toks rest

end Sbc.Tok.Spec
