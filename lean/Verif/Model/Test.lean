import Verif.Model.Formats
set_option autoImplicit false
/-!
# Validation of argument types (`source/interpreter/tokens.c:342-640`)
-/
namespace Sbc.Tok
open Sbc

/-! Characters used in the signature strings and on the type stack: `N n S s L l v A a * 0 ; , <`. -/
def cN : Nat := 78
def cn : Nat := 110
def cS : Nat := 83
def cs : Nat := 115
def cL : Nat := 76
def cl : Nat := 108
def cv : Nat := 118
def cA : Nat := 65
def ca : Nat := 97
def cStar : Nat := 42
def c0 : Nat := 48
def cSemi : Nat := 59
def cComma : Nat := 44
def cLess : Nat := 60

/-- One stack entry against a signature character that is not a list (`tokens.c:374-441`); `none` is the
`default` case. -/
def fixedCase (v s : Nat) : Option Bool :=
  if v = cN then some (s == cN || s == cn)
  else if v = cn then some (s == cn)
  else if v = cS then some (s == cS || s == cs)
  else if v = cs then some (s == cs)
  else if v = cL then some (s == cS || s == cs || s == cL)
  else if v = cA then some (s == cA)
  else if v = c0 then some false
  else if v = cSemi then some (s == cSemi)
  else none

/-- One stack entry against a list character (`tokens.c:400-432`). -/
def listCase (v s : Nat) : Bool :=
  if v = cl then s == cS || s == cs || s == cL || s == cLess
  else if v = cv then s == cn || s == cs
  else s == cA

/-- The list characters. -/
def isList (v : Nat) : Bool := v == cl || v == cv || v == ca

/-- The loop of `check_cmd` (`tokens.c:355-445`): `st` is what is left of the stack (`stack_i` is the length of
the stack minus its length), `ok` is `is_valid`.  The repeated reading of a list character (`valid_i--`) is
written as `dropWhile`. -/
def checkLoop (stack : List Nat) : List Nat → List Nat → Bool → Bool
  | [], st, ok => st.isEmpty && ok
  | v :: vs, st, ok =>
    if v = cComma then if ok && st.isEmpty then true else checkLoop stack vs stack true
    else match st with
      | [] => if isList v then ok else false
      | s :: st' =>
        if v = cStar then true
        else if isList v then
          match (s :: st').dropWhile (listCase v) with
          | [] => ok
          | _ :: rest => checkLoop stack vs rest false
        else match fixedCase v s with
          | some b => checkLoop stack vs st' (ok && b)
          | none => false

/-- `check_cmd` (`tokens.c:342-448`). -/
def checkCmd (stack valid : List Nat) : Bool :=
  if valid = [c0] then stack.isEmpty
  else if stack.isEmpty then match valid with
    | v :: _ => v == cStar || v == c0
    | [] => false
  else checkLoop stack valid stack true

/-! ## `tok_test` -/

def errTestCommand : Nat := 45
def errTestOperation : Nat := 46
def errTestFunction : Nat := 47
def errTestArray : Nat := 48
def errTestUnknown : Nat := 49
def errTestStack : Nat := 50

/-- State of `tok_test`: the type stack (top first) and the pending argument count. -/
structure TestSt where
  stack : List Nat
  argc : Nat
  deriving DecidableEq, Repr

/-- `stack[stack_i++] = c`: `char stack[40]`, no check. -/
def TestSt.push (t : TestSt) (c : Nat) : Out TestSt :=
  if t.stack.length < 40 then .ok { t with stack := c :: t.stack } else .ub

/-- Result of a step: the state, or an error code. -/
abbrev TRes := Out (TestSt ⊕ Nat)

def TRes.of (x : Out TestSt) : TRes := x.bind fun t => .ok (.inl t)

/-- A command (`tokens.c:482-502`). -/
def testCommand (t : TestSt) (cmd : Nat) : TRes :=
  if cmd = cmdData then .ok (.inl t)
  else match cmdFormat[cmd]? with
    | none => .ub
    | some f =>
      if checkCmd t.stack.reverse f = false then .ok (.inr errTestCommand)
      else if cmd ≠ cmdFor ∧ cmd ≠ cmdTo then .ok (.inl { t with stack := [] })
      else .ok (.inl t)

/-- Result type of a binary operator other than assignment (`tokens.c:521-527`). -/
def binResult (op a : Nat) : Nat :=
  if opEqual ≤ op ∧ op ≤ opGreaterEqual then cN else a &&& 0x5f

/-- An operator (`tokens.c:504-550`). -/
def testOp (t : TestSt) (op prio : Nat) : TRes :=
  if op = opComma then TRes.of (t.push cLess)
  else if op = opSemicolon then TRes.of (t.push cSemi)
  else if prio % 8 ≠ 6 then
    match t.stack with
    | b :: a :: r =>
      match opFormat[op]? with
      | none => .ub
      | some f =>
        if checkCmd [a, b] f = false then .ok (.inr errTestOperation)
        else if op = opAssign then .ok (.inl { t with stack := r })
        else .ok (.inl { t with stack := binResult op a :: r })
    | _ => .ok (.inr errTestOperation)
  else
    match t.stack with
    | a :: r => if checkCmd [a] [cN] = false then .ok (.inr errTestOperation) else .ok (.inl { t with stack := cN :: r })
    | [] => .ok (.inr errTestOperation)

/-- A function (`tokens.c:552-567`).  More arguments than the stack holds make the index wrap around. -/
def testFunc (t : TestSt) (f : Nat) : TRes :=
  if t.stack.length < t.argc then .ub
  else match funcFormat[f]?, funcReturn[f]? with
    | some fmt, some ret =>
      if checkCmd (t.stack.take t.argc).reverse fmt = false then .ok (.inr errTestFunction)
      else TRes.of (TestSt.push ⟨t.stack.drop t.argc, 0⟩ ret)
    | _, _ => .ub

/-- Arguments of an array (`tokens.c:571-583`, `596-607`): `"N,NN"`. -/
def testArr (t : TestSt) : TRes :=
  if t.argc = 0 then .ok (.inl t)
  else if t.stack.length < t.argc then .ub
  else if checkCmd (t.stack.take t.argc).reverse [78, 44, 78, 78] = false then .ok (.inr errTestArray)
  else .ok (.inl ⟨t.stack.drop t.argc, 0⟩)

/-- Type of a name: strings end in `$` (`tokens.c:585-590`). -/
def nameType (text : List Nat) : Nat := if text.getLast? = some 36 then cs else cn

/-- Type of a system variable (`tokens.c:609-619`): TIME$, DATE$, PRGNAME$, PACKAGE$, MEM$ are strings. -/
def sysType (id : Nat) : Nat := if id = 4 ∨ id = 5 ∨ id = 10 ∨ id = 11 ∨ id = 31 then cs else cn

/-- One iteration of `tok_test` (`tokens.c:462-637`). -/
def testStep (t : TestSt) (k : Tk) : TRes :=
  match k.ty with
  | .number | .baseNumber => TRes.of (t.push cN)
  | .string => TRes.of (t.push cS)
  | .arrayActual => TRes.of (t.push cA)
  | .firstCommand | .command => testCommand t k.cmd
  | .operation => testOp t k.cmd k.prio
  | .function => testFunc t k.cmd
  | .arrayName | .name =>
    (testArr t).bind fun r => match r with
      | .inl t => TRes.of (t.push (nameType k.text))
      | .inr e => .ok (.inr e)
  | .dimArr => testArr t
  | .sysvar => TRes.of (t.push (sysType k.cmd))
  | .labelString => TRes.of (t.push cL)
  | .argCount => .ok (.inl { t with argc := k.cmd })
  | .label | .comment | .newline => .ok (.inl t)
  | .loopBegin => .ok (.inl { t with stack := [] })

/-- The loop of `tok_test`. -/
def testLoop : List Tk → TestSt → TRes
  | [], t => .ok (.inl t)
  | k :: ks, t => (testStep t k).bind fun r => match r with
    | .inl t => testLoop ks t
    | .inr e => .ok (.inr e)

/-- `tok_test` (`tokens.c:450-642`): 0 is success. -/
def tokTest (ks : List Tk) : Out Nat :=
  (testLoop ks ⟨[], 0⟩).bind fun r => match r with
    | .inl t => .ok (if t.stack = [] then 0 else errTestStack)
    | .inr e => .ok e

end Sbc.Tok
