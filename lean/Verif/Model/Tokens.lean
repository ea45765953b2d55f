import Verif.Model.Vars
import Verif.Model.Num
set_option autoImplicit false
/-!
# The compiler passes (`source/interpreter/tokens.c`)

One line of tokens goes through `tok_prio`, `tok_eval`, `tok_test` and `tok_code` (`tok_convert`,
`tokens.c:301-337`).  Error codes are the numbers of `enum err_code` (`source/error.h:9-86`).
-/
namespace Sbc.Tok
open Sbc

/-- `enum type` of `struct token` (`tokens.h:60-80`). -/
inductive TT where
  | number | string | name | operation | command | function | label | comment | newline
  | dimArr | argCount | loopBegin | sysvar | labelString | firstCommand | baseNumber
  | arrayName | arrayActual
  deriving DecidableEq, Repr

/-- `struct token` (`tokens.h:59-87`).  Instead of an offset into the source, the token carries the source
characters it covers (`text`); for a DATA command these are the characters after the word up to the end of
the line.  `cmd` is the union member `cmd`/`len` of the tokens that have an identifier or a count (for tokens
with text, `len` is the length of the text). -/
structure Tk where
  ty : TT
  text : List Nat
  cmd : Nat
  prio : Nat
  deriving DecidableEq, Repr

/-! Operator identifiers (`source/ptc.h:121-130`). -/
def opAdd : Nat := 0
def opComma : Nat := 1
def opSubtract : Nat := 2
def opMultiply : Nat := 3
def opDivide : Nat := 4
def opSemicolon : Nat := 5
def opAssign : Nat := 6
def opNegate : Nat := 7
def opEqual : Nat := 8
def opGreaterEqual : Nat := 13
def opModulo : Nat := 14
def opAnd : Nat := 15
def opOr : Nat := 16
def opXor : Nat := 17
def opNot : Nat := 18
def opLogicalNot : Nat := 19
def opOpenParen : Nat := 20
def opCloseParen : Nat := 21
def opOpenBracket : Nat := 22
def opCloseBracket : Nat := 23

/-! Command identifiers used by the compiler and the flow commands (`source/ptc.h:46-76`). -/
def cmdPrint : Nat := 0
def cmdDim : Nat := 3
def cmdFor : Nat := 4
def cmdTo : Nat := 5
def cmdStep : Nat := 6
def cmdNext : Nat := 7
def cmdIf : Nat := 8
def cmdThen : Nat := 9
def cmdElse : Nat := 10
def cmdEndif : Nat := 11
def cmdGoto : Nat := 12
def cmdGosub : Nat := 13
def cmdOn : Nat := 14
def cmdReturn : Nat := 15
def cmdEnd : Nat := 16
def cmdStop : Nat := 17
def cmdData : Nat := 52
def cmdRead : Nat := 78
def cmdRestore : Nat := 82
def cmdRsort : Nat := 83
def cmdSort : Nat := 87

/-! ## Priorities -/

/-- Priority of an operator other than minus and the brackets, relative to the nesting level
(`tokens.c:1198-1256`). -/
def basePrio (op : Nat) : Option Nat :=
  if op = opAssign then some 0
  else if op = opComma ∨ op = opSemicolon then some 1
  else if op = opAnd ∨ op = opOr ∨ op = opXor then some 2
  else if opEqual ≤ op ∧ op ≤ opGreaterEqual then some 3
  else if op = opAdd then some 4
  else if op = opMultiply ∨ op = opDivide ∨ op = opModulo then some 5
  else if op = opNot ∨ op = opLogicalNot then some 6
  else none

/-- The test that makes a minus sign binary (`tokens.c:1222-1235`): what precedes it is a number, a name, a
system variable or an operation with an identifier above `OP_OPEN_PAREN`. -/
def minusIsBinary (prev : Tk) : Bool :=
  prev.ty == .number || prev.ty == .name || prev.ty == .sysvar ||
    (prev.ty == .operation && decide (prev.cmd > opOpenParen))

/-- The same test for the token before the current one; the `number` test has the guard `i > 0`, the others
do not and read `tokens[-1]` (`tokens.c:1223-1230`). -/
def minusHere (pre : Tk) : List Tk → Bool
  | [] => pre.ty == .name || pre.ty == .sysvar || (pre.ty == .operation && decide (pre.cmd > opOpenParen))
  | p :: _ => minusIsBinary p

/-- An array name gets its priority when its bracket is met (`tokens.c:1247-1249`). -/
def markName (prio : Nat) : List Tk → List Tk
  | p :: r => if p.ty = .name then { p with prio } :: r else p :: r
  | [] => []

/-- Conversion to the `u16` priority field (`tokens.h:86`). -/
def u16 (x : Int) : Nat := (x % 65536).toNat

/-- One iteration of the loop of `tok_prio` (`tokens.c:1195-1264`).  `done` are the tokens already processed,
last first; `pre` is whatever precedes the token array in memory (`tokens[-1]` is read when the line starts
with a minus sign). -/
def prioStep (pre : Tk) (done : List Tk) (nest : Int) (t : Tk) : List Tk × Int :=
  if t.ty = .operation then
    if t.cmd = opSubtract then
      if minusHere pre done then ({ t with prio := u16 (nest + 4) } :: done, nest)
      else ({ t with cmd := opNegate, prio := u16 (nest + 6) } :: done, nest)
    else if t.cmd = opOpenBracket ∨ t.cmd = opOpenParen then
      ({ t with prio := u16 (nest + 8) } :: markName (u16 (nest + 7)) done, nest + 8)
    else if t.cmd = opCloseBracket ∨ t.cmd = opCloseParen then
      ({ t with prio := u16 nest } :: done, nest - 8)
    else
      match basePrio t.cmd with
      | some k => ({ t with prio := u16 (nest + k) } :: done, nest)
      | none => (t :: done, nest)
  else if t.ty = .function then ({ t with prio := u16 (nest + 7) } :: done, nest)
  else ({ t with prio := 0 } :: done, nest)

/-- The loop of `tok_prio`. -/
def prioLoop (pre : Tk) : List Tk → Int → List Tk → List Tk
  | done, _, [] => done.reverse
  | done, nest, t :: ts =>
    let (done', nest') := prioStep pre done nest t
    prioLoop pre done' nest' ts

/-- `tok_prio` (`tokens.c:1193-1265`). -/
def tokPrio (pre : Tk) (ts : List Tk) : List Tk := prioLoop pre [] 0 ts

/-! ## Reordering -/

/-- `struct eval` and the local flags of `tok_eval` (`tokens.c:957-969`, `988-993`).  Stacks have their top
first.  The stacks hold pointers to the tokens of the line, so a change of type of a token that is on the
operator stack is visible there. -/
structure Ev where
  ops : List Tk
  argc : List Nat
  res : List Tk
  isFor : Bool
  isDim : Bool
  isIf : Bool
  isSort : Bool
  implicitCommas : Bool
  deriving DecidableEq, Repr

/-- The initial state (`tokens.c:988-993`). -/
def Ev.init : Ev := ⟨[], [0], [], false, false, false, false, true⟩

/-- Append to `result[100]` (`res` is kept in order); the 101st entry is out of bounds. -/
def Ev.out (e : Ev) (t : Tk) : Out Ev :=
  if e.res.length < 100 then .ok { e with res := e.res ++ [t] } else .ub

/-- Push on `op_stack[100]`. -/
def Ev.push (e : Ev) (t : Tk) : Out Ev :=
  if e.ops.length < 100 then .ok { e with ops := t :: e.ops } else .ub

/-- The loop of `tok_eval_clean_stack` (`tokens.c:974-980`). -/
def cleanLoop (prio : Nat) : List Tk → List Tk → List Tk × List Tk
  | [], res => ([], res)
  | t :: ops, res => if t.prio ≥ prio then cleanLoop prio ops (res ++ [t]) else (t :: ops, res)

/-- `tok_eval_clean_stack` (`tokens.c:974-980`). -/
def Ev.clean (e : Ev) (prio : Nat) : Out Ev :=
  let (ops, res) := cleanLoop prio e.ops e.res
  if res.length ≤ 100 then .ok { e with ops, res } else .ub

/-- `argc_stack[argc_i]++`; `none` in the list model is `argc_i` below zero (255, out of bounds). -/
def Ev.incArg (e : Ev) : Out Ev :=
  match e.argc with
  | a :: r => .ok { e with argc := ((a + 1) % 256) :: r }
  | [] => .ub

/-- The `loop_begin` token (`tokens.c:1112`, `1150`). -/
def loopTok : Tk := ⟨.loopBegin, [], 1, 0⟩

/-- The `[ENDIF]` token (`tokens.c:1175`). -/
def endifTok : Tk := ⟨.command, [], cmdEndif, 0⟩

/-- Opening bracket (`tokens.c:1017-1028`). -/
def evOpen (e : Ev) (prev : Option Tk) : Out Ev :=
  if e.argc.length ≥ 64 then .ub
  else match prev with
    | none => .ok { e with argc := 1 :: e.argc }
    | some p =>
      if p.ty = .name then
        match e.ops with
        | o :: r => .ok { e with argc := 1 :: e.argc, ops := { o with ty := .arrayName } :: r }
        | [] => .ub
      else if p.ty ≠ .function ∧ p.ty ≠ .dimArr then .ok { e with argc := 129 :: e.argc }
      else .ok { e with argc := 1 :: e.argc }

/-- Closing bracket (`tokens.c:1029-1045`).  Returns also the token as left in the line. -/
def evClose (e : Ev) (prev : Option Tk) (t : Tk) : Out (Ev × Tk) :=
  match prev, e.argc with
  | some p, a :: r =>
    let a := if p.ty = .operation ∧ p.cmd = opOpenParen then 0 else a
    if a < 128 then
      let t' := { t with ty := .argCount, cmd := a }
      ({ e with argc := r }.clean t.prio).bind fun e => (e.push t').bind fun e => .ok (e, t')
    else .ok ({ e with argc := r }, t)
  | _, _ => .ub

/-- Comma or semicolon outside brackets (`tokens.c:1046-1062`). -/
def evComma (e : Ev) (prev next : Option Tk) (t : Tk) : Out Ev :=
  (e.incArg).bind fun e => (e.clean t.prio).bind fun e =>
    if e.implicitCommas then
      if t.cmd = opSemicolon then e.out t
      else if e.res = [] then e.out t
      else match next with
        | none => .ub
        | some n =>
          if n.ty = .newline then e.out t
          else match prev with
            | some p => if p.prio % 8 = 1 then e.out t else .ok e
            | none => .ok e
    else e.out t

/-- The test that the new operator goes on top of the stack as it is (`tokens.c:1131`). -/
def keepTop (prio : Nat) : List Tk → Bool
  | [] => true
  | o :: _ => decide (o.prio < prio + (if prio % 8 = 6 then 1 else 0))

/-- Push an operator, function or array name according to its priority (`tokens.c:1131-1143`). -/
def evPush (e : Ev) (t : Tk) : Out Ev :=
  (if keepTop t.prio e.ops then Out.ok e else e.clean t.prio).bind fun e =>
    if t.ty ≠ .operation ∨ t.cmd ≠ opComma then e.push t else e.incArg

/-- What a command other than DIM, THEN, ELSE and DATA does to the flags (`tokens.c:1065-1117`). -/
def evFlags (e : Ev) (t : Tk) : Out Ev :=
  if t.cmd = cmdPrint then .ok { e with implicitCommas := false }
  else if t.cmd = cmdFor then .ok { e with isFor := true }
  else if t.cmd = cmdIf then .ok { e with isIf := true }
  else if t.cmd = cmdSort ∨ t.cmd = cmdRsort then .ok { e with isSort := true }
  else
    let e := { e with isDim := false }
    if e.isFor ∧ t.cmd ≠ cmdTo ∧ t.cmd ≠ cmdStep then
      (e.out loopTok).bind fun e => .ok { e with isFor := false }
    else .ok e

/-- One iteration of the loop of `tok_eval` (`tokens.c:1006-1170`): the new state, the token as left in the
line (it is the next iteration's `prev`), and whether the loop goes on. -/
def evStep (e : Ev) (prev next : Option Tk) (t : Tk) : Out (Ev × Tk × Bool) :=
  if t.ty = .operation ∧ t.prio % 8 = 0 then
    if t.cmd = opAssign then
      (e.clean t.prio).bind fun e => (e.push t).bind fun e => .ok (e, t, true)
    else if t.cmd = opOpenBracket ∨ t.cmd = opOpenParen then
      (evOpen e prev).bind fun e => .ok (e, t, true)
    else (evClose e prev t).bind fun r => .ok (r.1, r.2, true)
  else if t.ty = .operation ∧ t.prio = 1 then
    (evComma e prev next t).bind fun e => .ok (e, t, true)
  else if t.ty = .command then
    if t.cmd = cmdDim then .ok ({ e with isDim := true }, t, true)
    else if t.cmd = cmdThen then (e.clean 0).bind fun e => .ok (e, t, true)
    else if t.cmd = cmdElse then
      (e.clean 0).bind fun e => (e.out t).bind fun e => .ok (e, t, true)
    else if t.cmd = cmdData then
      (e.clean 0).bind fun e => (e.out t).bind fun e => .ok (e, t, false)
    else
      let first : Bool := match prev with | none => true | some p => p.ty = .newline
      let t' := if first then { t with ty := .firstCommand } else t
      (evFlags e t).bind fun e => (evPush e t').bind fun e => .ok (e, t', true)
  else if t.prio > 0 then
    let t' := if t.ty = .name ∧ t.prio = 7 ∧ e.isDim then { t with ty := .dimArr } else t
    (evPush e t').bind fun e => .ok (e, t', true)
  else if t.ty = .newline then
    (e.clean 0).bind fun e =>
      let e := { e with isDim := false, implicitCommas := true }
      if e.isFor then (e.out loopTok).bind fun e => .ok ({ e with isFor := false }, t, true)
      else .ok (e, t, true)
  else if t.ty = .label then
    let t' := match prev with | none => t | some _ => { t with ty := .labelString }
    (e.out t').bind fun e => .ok (e, t', true)
  else if t.ty = .name ∧ e.isSort ∧ e.argc.getLast?.getD 0 ≥ 2 then
    let t' := { t with ty := .arrayActual }
    (e.out t').bind fun e => .ok (e, t', true)
  else (e.out t).bind fun e => .ok (e, t, true)

/-- The loop of `tok_eval`. -/
def evLoop (e : Ev) (prev : Option Tk) : List Tk → Out Ev
  | [] => .ok e
  | t :: ts =>
    (evStep e prev ts.head? t).bind fun r => if r.2.2 then evLoop r.1 (some r.2.1) ts else .ok r.1

/-- `tok_eval` (`tokens.c:987-1190`). -/
def tokEval (ts : List Tk) : Out (List Tk) :=
  (evLoop Ev.init none ts).bind fun e => (e.clean 0).bind fun e =>
    if e.isIf then (e.out endifTok).bind fun e => .ok e.res else .ok e.res

end Sbc.Tok
