import Verif.Model.Test
import Verif.Model.Code
import Verif.Model.Labels
set_option autoImplicit false
/-!
# The lexer and the compiler's main loop (`source/interpreter/tokens.c:18-71`, `150-184`, `226-337`, `1267-1452`)

The source is a list of character codes (bytes); the cursor is represented by the characters that are left.
Reading a character behind the last one is undefined behaviour in the model (`.ub`): the buffer holds whatever an
earlier, longer program left there.
-/
namespace Sbc.Tok
open Sbc

/-- The character codes of a C string. -/
def chars (s : String) : List Nat := s.toList.map Char.toNat

/-- `commands` (`tokens.c:20-38`).  The string of the program, here and below, in pieces of eight characters. -/
def commandTable : List Nat := [
  "PRINT   ", "LOCATE  ", "COLOR   ", "DIM     ", "FOR     ", "TO      ", "STEP    ", "NEXT    ",
  "IF      ", "THEN    ", "ELSE    ", "[ENDIF] ", "GOTO    ", "GOSUB   ", "ON      ", "RETURN  ",
  "END     ", "STOP    ", "CLS     ", "VISIBLE ", "ACLS    ", "VSYNC   ", "WAIT    ", "INPUT   ",
  "LINPUT  ", "APPEND  ", "BEEP    ", "BGCLIP  ", "BGCLR   ", "BGCOPY  ", "BGFILL  ", "BGMCLEAR",
  "BGMPLAY ", "BGMPRG  ", "BGMSET  ", "BGMSETD ", "BGMSETV ", "BGMSTOP ", "BGMVOL  ", "BGOFS   ",
  "BGPAGE  ", "BGPUT   ", "BGREAD  ", "BREPEAT ", "CHRINIT ", "CHRREAD ", "CHRSET  ", "CLEAR   ",
  "COLINIT ", "COLREAD ", "COLSET  ", "CONT    ", "DATA    ", "DELETE  ", "DTREAD  ", "EXEC    ",
  "FILES   ", "GBOX    ", "GCIRCLE ", "GCLS    ", "GCOLOR  ", "GCOPY   ", "GDRAWMD ", "GFILL   ",
  "GLINE   ", "GPAGE   ", "GPAINT  ", "GPSET   ", "GPRIO   ", "GPUTCHR ", "ICONCLR ", "ICONSET ",
  "KEY     ", "LIST    ", "LOAD    ", "NEW     ", "PNLSTR  ", "PNLTYPE ", "READ    ", "REBOOT  ",
  "RECVFILE", "RENAME  ", "RESTORE ", "RSORT   ", "RUN     ", "SAVE    ", "SENDFILE", "SORT    ",
  "SPANGLE ", "SPANIM  ", "SPCHR   ", "SPCLR   ", "SPCOL   ", "SPCOLVEC", "SPHOME  ", "SPOFS   ",
  "SPPAGE  ", "SPREAD  ", "SPSCALE ", "SPSET   ", "SPSETV  ", "SWAP    ", "TMREAD  ", "TALK    ",
  "TALKSTOP", "POKE    ", "POKEH   ", "POKEB   ", "MEMCOPY ", "MEMFILL "].flatMap chars

/-- `functions` (`tokens.c:40-47`). -/
def functionTable : List Nat := [
  "ABS     ", "ASC     ", "ATAN    ", "BGCHK   ", "BGMCHK  ", "BGMGETV ", "BTRIG   ", "BUTTON  ",
  "CHKCHR  ", "CHR$    ", "COS     ", "DEG     ", "EXP     ", "FLOOR   ", "GSPOIT  ", "HEX$    ",
  "ICONCHK ", "INKEY$  ", "INSTR   ", "LEFT$   ", "LEN     ", "LOG     ", "MID$    ", "PI      ",
  "POW     ", "RAD     ", "RIGHT$  ", "RND     ", "SGN     ", "SIN     ", "SPCHK   ", "SPGETV  ",
  "SPHIT   ", "SPHITRC ", "SPHITSP ", "SQR     ", "STR$    ", "SUBST$  ", "TAN     ", "VAL     ",
  "TALKCHK ", "PEEK    ", "PEEKH   ", "PEEKB   ", "ADDR    ", "PTR$    "].flatMap chars

/-- `bc_conv_operations` (`tokens.c:52-57`). -/
def operationTable : List Nat := [
  "+       ", ",       ", "-       ", "*       ", "/       ", ";       ", "=       ", "(-)     ",
  "==      ", "!=      ", "<       ", ">       ", "<=      ", ">=      ", "%       ", "AND     ",
  "OR      ", "XOR     ", "NOT     ", "!       ", "(       ", ")       ", "[       ", "]       "].flatMap chars

/-- `sysvars` (`tokens.c:59-71`). -/
def sysvarTable : List Nat := [
  "TRUE    ", "FALSE   ", "CANCEL  ", "VERSION ", "TIME$   ", "DATE$   ", "MAINCNTL", "MAINCNTH",
  "FREEVAR ", "FREEMEM ", "PRGNAME$", "PACKAGE$", "RESULT  ", "TCHST   ", "TCHX    ", "TCHY    ",
  "TCHTIME ", "CSRX    ", "CSRY    ", "TABSTEP ", "SPHITNO ", "SPHITX  ", "SPHITY  ", "SPHITT  ",
  "KEYBOARD", "FUNCNO  ", "ICONPUSE", "ICONPAGE", "ICONPMAX", "ERL     ", "ERR     ", "MEM$    ",
  "MEMSAFE "].flatMap chars

/-- `labels` (`tokens.c:73`). -/
def labelTable : List Nat := [
  "LABEL   "].flatMap chars

/-- `comments` (`tokens.c:75`). -/
def commentTable : List Nat := [
  "REM     "].flatMap chars

/-! Character classes (`source/interpreter/strs.c:35-65`). -/
/-- `is_lower`. -/
def isLower (c : Nat) : Bool := 97 ≤ c && c ≤ 122
/-- `is_upper`. -/
def isUpper (c : Nat) : Bool := 65 ≤ c && c ≤ 90
/-- `is_number`. -/
def isDigit (c : Nat) : Bool := 48 ≤ c && c ≤ 57
/-- `is_name_start`. -/
def isNameStart (c : Nat) : Bool := isUpper c || isLower c || c == 95
/-- `is_name`. -/
def isName (c : Nat) : Bool := isUpper c || isLower c || isDigit c || c == 95
/-- `is_varname`. -/
def isVarname (c : Nat) : Bool := isName c || c == 36

/-- Lower case letters count as upper case (`tokens.c:158-160`). -/
def upper (c : Nat) : Nat := if isLower c then c - 32 else c

/-- The entry at the beginning of `str` matches the word (`tokens.c:155-178`): equal characters, and for words of
less than eight characters a blank or the end of the table behind them. -/
def entryMatches (str word : List Nat) : Bool :=
  str.take word.length == word.map upper &&
    (decide (8 ≤ word.length) || match str[word.length]? with | some c => c == 32 | none => true)

/-- `tok_in_str_index` (`tokens.c:150-184`): the first matching entry; `none` is -1. -/
def inTable (table word : List Nat) : Option Nat :=
  (List.range (table.length / 8)).find? fun i => entryMatches (table.drop (8 * i)) word

/-! ## The lexer -/

/-- The part of `struct tokenizer` (`tokens.h:94-118`) the lexer works on: the characters from the cursor on, the
tokens of the line so far, `is_comment`. -/
structure Lx where
  rest : List Nat
  toks : List Tk
  comment : Bool
  deriving DecidableEq, Repr

/-- What `tok_none` reports: go on, convert the line (`TKR_CONVERT`), or an error. -/
inductive LxCtl where
  | next | convert | fail (e : Nat)
  deriving DecidableEq, Repr

/-- The length of a token is a `u8`: of a word of 256 characters or more only the first `length % 256` belong to
the token (`tokens.h:82-85`). -/
def cut (w : List Nat) : List Nat := w.take (w.length % 256)

/-- Store a token in `tokens[100]` (`tokens.h:100`); the next one is out of bounds. -/
def Lx.add (s : Lx) (t : Tk) : Out Lx :=
  if s.toks.length < 100 then .ok { s with toks := s.toks ++ [t] } else .ub

/-- Characters up to the first one outside the class, which is read (`tokens.c:1276-1286`, `1415-1419`,
`1434-1438`, `1446-1449`). -/
def spanOf (p : Nat → Bool) (l : List Nat) : Out (List Nat × List Nat) :=
  if l.dropWhile p = [] then .ub else .ok (l.takeWhile p, l.dropWhile p)

/-- `tok_with_condition` (`tokens.c:1276-1286`): the first character belongs to the token whatever it is. -/
def spanOne (p : Nat → Bool) (l : List Nat) : Out (List Nat × List Nat) :=
  match l with
  | [] => .ub
  | c :: r => (spanOf p r).bind fun x => .ok (c :: x.1, x.2)

/-- Characters up to and including the end of the line. -/
def toLineEnd (l : List Nat) : List Nat := l.takeWhile (· != 13) ++ (l.dropWhile (· != 13)).take 1

/-- `tok_label` (`tokens.c:1356-1372`), called behind the word LABEL. -/
def tokLabel (s : Lx) : Out (Lx × LxCtl) :=
  match s.rest with
  | [] => .ub
  | c :: r =>
    if c ≠ 32 then .ok ({ s with rest := r }, .fail 31)
    else
      let r := r.dropWhile (· == 32)
      match r with
      | [] => .ub
      | d :: _ =>
        if isName d = false then .ok ({ s with rest := r }, .fail 31)
        else (spanOne isName r).bind fun x =>
          if (cut x.1).length > 16 then .ok ({ s with rest := x.2 }, .fail 57)
          else ({ s with rest := x.2 }.add ⟨.label, cut x.1, 0, 0⟩).bind fun s => .ok (s, .next)

/-- `tok_name` (`tokens.c:1374-1406`).  The token of a DATA statement gets the rest of the line as its text (the
program computes it later from the offset of the word, `tokens.c:652-656`). -/
def tokName (s : Lx) : Out (Lx × LxCtl) :=
  if s.toks.length ≥ 100 then .ub
  else (spanOne isVarname s.rest).bind fun x =>
    let w := cut x.1
    let s := { s with rest := x.2 }
    match inTable commandTable w with
    | some i =>
      if i = cmdData then
        ({ s with comment := true }.add ⟨.command, toLineEnd x.2, i, 0⟩).bind fun s => .ok (s, .next)
      else (s.add ⟨.command, [], i, 0⟩).bind fun s => .ok (s, .next)
    | none => match inTable functionTable w with
      | some i => (s.add ⟨.function, [], i, 0⟩).bind fun s => .ok (s, .next)
      | none => match inTable operationTable w with
        | some i => (s.add ⟨.operation, [], i, 0⟩).bind fun s => .ok (s, .next)
        | none =>
          if (inTable labelTable w).isSome then tokLabel s
          else if (inTable commentTable w).isSome then
            ({ s with comment := true }.add ⟨.comment, w, 0, 0⟩).bind fun s => .ok (s, .next)
          else match inTable sysvarTable w with
            | some i => (s.add ⟨.sysvar, [], i, 0⟩).bind fun s => .ok (s, .next)
            | none => (s.add ⟨.name, w, 0, 0⟩).bind fun s => .ok (s, .next)

/-- `tok_string` (`tokens.c:1408-1427`), called at the opening quote. -/
def tokString (s : Lx) (r : List Nat) : Out (Lx × LxCtl) :=
  (spanOf (fun c => c != 34 && c != 13) r).bind fun x =>
    let r := match x.2 with | 34 :: t => t | t => t
    ({ s with rest := r }.add ⟨.string, cut x.1, 0, 0⟩).bind fun s => .ok (s, .next)

/-- Characters of a hexadecimal or binary constant (`tokens.c:1437-1438`). -/
def isBaseDigit (c : Nat) : Bool := isDigit c || (65 ≤ c && c ≤ 70)

/-- `tok_base_number` (`tokens.c:1429-1440`): three characters whatever they are, then digits. -/
def tokBaseNumber (s : Lx) : Out (Lx × LxCtl) :=
  match s.rest with
  | a :: b :: c :: r => (spanOf isBaseDigit r).bind fun x =>
    ({ s with rest := x.2 }.add ⟨.baseNumber, cut (a :: b :: c :: x.1), 0, 0⟩).bind fun s => .ok (s, .next)
  | _ => .ub

/-- `tok_number` (`tokens.c:1442-1452`). -/
def tokNumberLex (s : Lx) : Out (Lx × LxCtl) :=
  (spanOne (fun c => isDigit c || c == 46) s.rest).bind fun x =>
    ({ s with rest := x.2 }.add ⟨.number, cut x.1, 0, 0⟩).bind fun s => .ok (s, .next)

/-- The identifier of an operator (`tokens.c:1327`, `1335`); an operator missing in the table would get -1, that is
255 in the `u8`. -/
def opIndex (w : List Nat) : Nat := (inTable operationTable w).getD 255

/-- Characters that are operators by themselves (`tokens.c:1325-1326`). -/
def isSingleOp (c : Nat) : Bool := [44, 59, 43, 45, 42, 47, 37, 40, 41, 91, 93].contains c

/-- `tok_none` (`tokens.c:1288-1354`). -/
def tokNone (s : Lx) : Out (Lx × LxCtl) :=
  match s.rest with
  | [] => .ub
  | c :: r =>
    if c = 13 then
      ({ s with rest := r }.add ⟨.newline, [13], 0, 0⟩).bind fun s => .ok ({ s with comment := false }, .convert)
    else if s.comment then .ok ({ s with rest := r }, .next)
    else if isNameStart c then tokName s
    else if c = 63 then ({ s with rest := r }.add ⟨.command, [], cmdPrint, 0⟩).bind fun s => .ok (s, .next)
    else if c = 58 then ({ s with rest := r }.add ⟨.newline, [58], 0, 0⟩).bind fun s => .ok (s, .next)
    else if c = 32 then .ok ({ s with rest := r }, .next)
    else if c = 34 then tokString s r
    else if c = 38 then tokBaseNumber s
    else if isDigit c || c == 46 then tokNumberLex s
    else if isSingleOp c then
      ({ s with rest := r }.add ⟨.operation, [], opIndex [c], 0⟩).bind fun s => .ok (s, .next)
    else if c = 60 ∨ c = 61 ∨ c = 62 ∨ c = 33 then
      match r with
      | [] => .ub
      | 61 :: r' => ({ s with rest := r' }.add ⟨.operation, [], opIndex [c, 61], 0⟩).bind fun s => .ok (s, .next)
      | _ => ({ s with rest := r }.add ⟨.operation, [], opIndex [c], 0⟩).bind fun s => .ok (s, .next)
    else if c = 64 then
      if s.toks.length ≥ 100 then .ub
      else (spanOne isName r).bind fun x =>
        if (cut x.1).length > 16 then .ok ({ s with rest := x.2 }, .fail 57)
        else ({ s with rest := x.2 }.add ⟨.label, cut x.1, 0, 0⟩).bind fun s => .ok (s, .next)
    else if c = 39 then .ok ({ s with rest := r, comment := true }, .next)
    else .ok (s, .fail 61)

/-! ## The main loop -/

/-- Options (`tokens.h:48-53`). -/
structure Opts where
  noLabels : Bool
  ids : Bool
  strict : Bool
  deriving DecidableEq, Repr

/-- What the compiler produces (`struct bytecode`, `program.h:29-38`), with the variable table it enters variables
into.  `line_length` is only written (`tokens.c:334`); its number of entries is `lines`, its capacity `cap`. -/
structure Obj where
  buf : List Nat
  labels : Labels.Table
  vars : Vars.Table
  lines : Nat
  cap : Nat

/-- The statement passes of `tok_convert` (`tokens.c:320-336`): a result `some e` is the error. -/
def convertCode (ids : Bool) (pre : Tk) (toks : List Tk) (o : Obj) : Out (Obj × Option Nat) :=
  (tokEval (tokPrio pre toks)).bind fun ks => (tokTest ks).bind fun e =>
    if e ≠ 0 then .ok (o, some e)
    else (tokCode ids ks o.buf o.vars).bind fun r =>
      match r.2.2 with
      | some e => .ok ({ o with buf := r.1, vars := r.2.1 }, some e)
      | none =>
        if o.lines < o.cap then .ok ({ o with buf := r.1, vars := r.2.1, lines := o.lines + 1 }, none)
        else .ub

/-- `tok_convert` (`tokens.c:301-337`); `pre` is the memory before the token array (see `prioStep`). -/
def tokConvert (p : Opts) (pre : Tk) (toks : List Tk) (o : Obj) : Out (Obj × Option Nat) :=
  match toks with
  | [] => .ub
  | t :: _ =>
    if t.ty = .label then
      let r := Labels.add o.labels t.text o.buf.length
      if r.2 = false then .ok (o, some 52)
      else if p.noLabels then .ok ({ o with labels := r.1 }, none)
      else convertCode p.ids pre toks { o with labels := r.1 }
    else convertCode p.ids pre toks o

/-- The error instruction (`tokens.c:256-257`, `274-275`). -/
def Obj.error (o : Obj) (e : Nat) : Obj := { o with buf := o.buf ++ [bcError, e] }

/-- Skip to the next line after an error (`tokens.c:259`). -/
def skipLine (l : List Nat) : Out (List Nat) :=
  match l.dropWhile (· != 13) with
  | [] => .ub
  | _ :: r => .ok r

/-- The loop of `tokenize_full` (`tokens.c:251-279`): the result and, with the strict option, the first error.  Every
iteration consumes at least one character; `fuel` bounds their number. -/
def tokenizeLoop (p : Opts) (pre : Tk) : Nat → Lx → Obj → Out (Obj × Option Nat)
  | 0, _, _ => .ub
  | fuel + 1, s, o =>
    if s.rest = [] then .ok (o, none)
    else (tokNone s).bind fun x => match x.2 with
      | .next => tokenizeLoop p pre fuel x.1 o
      | .fail e =>
        if p.strict then .ok (o, some e)
        else (skipLine x.1.rest).bind fun r => tokenizeLoop p pre fuel { x.1 with rest := r, toks := [] } (o.error e)
      | .convert => (tokConvert p pre x.1.toks o).bind fun y => match y.2 with
        | none => tokenizeLoop p pre fuel { x.1 with toks := [] } y.1
        | some e =>
          if p.strict then .ok (y.1, some e)
          else tokenizeLoop p pre fuel { x.1 with toks := [] } (y.1.error e)

/-- `tokenize_full` (`tokens.c:230-299`): `reset_label` and an empty output first. -/
def tokenize (p : Opts) (pre : Tk) (src : List Nat) (o : Obj) : Out (Obj × Option Nat) :=
  tokenizeLoop p pre (src.length + 1) ⟨src, [], false⟩ { o with buf := [], labels := Labels.reset o.labels, lines := 0 }

end Sbc.Tok
