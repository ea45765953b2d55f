import Verif.Model.Code
import Verif.Model.Arith
import Verif.Model.Labels
import Verif.Model.Arrays
set_option autoImplicit false
/-!
# The interpreter loop (`source/interpreter/runner.c`), flow control (`flow.c`), READ and RESTORE (`data.c`)

The machine executes compiled code byte by byte.  Modelled in full: constants, variables by name and by index, DIM and
the elements of arrays, argument counts, the numeric operators and assignment, FOR/TO/STEP/NEXT,
IF/THEN/ELSE/ENDIF, GOTO/GOSUB/ON/RETURN/END/STOP, READ/RESTORE, BEGIN_LOOP.  All other functions, system variables,
commands and string operators are parameters (`Env`): the theorems hold for every behaviour of
them that leaves program position, call stack and code alone.

Simplifications: `char` is unsigned (as on the ARM target; on hosts where it is signed, texts of 128 characters and
more are skipped wrongly); strings are represented by their characters (the pool of `strs.c` is modelled
separately); RUN, EXEC and the other commands that replace the program are outside the model (`.ub`); the value stack
holds 100 entries and pushing more is `.ub`, as is any failed assertion.
-/
namespace Sbc.Machine
open Sbc Sbc.Tok

/-! Error numbers (`source/error.h`). -/
def eNumInvalid : Nat := 1
def eCommandInvalid : Nat := 2
def eOperatorInvalid : Nat := 4
def eInvalidBc : Nat := 5
def eNextWithoutFor : Nat := 15
def eMissingAssign : Nat := 16
def eMissingElse : Nat := 17
def eReturnWithoutGosub : Nat := 19
def eCommandExists : Nat := 20
def eLabelNotFound : Nat := 25
def eReadFailure : Nat := 28
def eOutOfData : Nat := 29
def eSyntax : Nat := 31
def eForWithoutNext : Nat := 34
def eBeginLoopFail : Nat := 35
def eDivideByZero : Nat := 38
def eOverflow : Nat := 39
def eDuplicateDim : Nat := 41
def eOutOfMemory : Nat := 42
def eSubscriptX : Nat := 43
def eSubscriptY : Nat := 44
def eBreak : Nat := 53
def eBeginLoopNoEnd : Nat := 67
def eForMissingBegin : Nat := 69

/-- Where a variable's value lives: a slot of the variable table or an array element. -/
inductive Ptr where
  | slot (i : Nat)
  | elem (i : Nat)
  deriving DecidableEq, Repr

/-- `struct stack_entry` (`stack.h:48-53`, types of `vars.h:12-32`). -/
inductive Entry where
  /-- `VAR_NUMBER` -/
  | num (n : Int)
  /-- `VAR_STRING`: a constant or temporary; `label` tells a label constant (`BC_LABEL_STRING`) -/
  | str (label : Bool) (chars : List Nat)
  /-- `VAR_VARIABLE`: string or number, whole array or not, and the pointer -/
  | var (isStr isArr : Bool) (p : Ptr)
  /-- `STACK_OP`: a separator -/
  | sep (op : Nat)
  deriving DecidableEq, Repr

/-- `struct call_entry` (`stack.h:125-131`). -/
structure Call where
  gosub : Bool
  addr : Nat
  var : Ptr
  deriving DecidableEq, Repr

/-- The part of the state that expressions and ordinary commands work on: value stack (bottom first), numbers and
strings stored in variables and words of the array memory, variable table and its error field (`vars.h:57-81`), size and first free word
of the array memory (`arrays.h:26-33`), everything else, error code.  A word of the array memory that holds a string is not seen as a
number: writing a string over the dimensions of an array (possible with two subscripts of an array with one dimension) leaves them. -/
structure Core (σ : Type) where
  stack : List Entry
  mem : Ptr → Int
  smem : Ptr → List Nat
  vars : Vars.Table
  varsErr : Nat
  arrMax : Nat
  arrNext : Nat
  ext : σ
  error : Nat

/-- `struct runner` (`system.h`, `runner.c:172-184`): code, position, READ position (`none` is
`BC_SCAN_NOT_FOUND`), argument count; `main` is false while the condition of a FOR is evaluated (the label table of
that piece of code is uninitialised). -/
structure Exec where
  code : List Nat
  index : Nat
  dataIndex : Option Nat
  dataOffset : Nat
  argc : Nat
  main : Bool
  deriving DecidableEq, Repr

/-- An interrupted NEXT (`flow.c:101-110`): the saved runner state and the position in the call stack, from the
bottom, of the FOR it belongs to. -/
structure Frame where
  saved : Exec
  savedErr : Nat
  pos : Nat
  deriving DecidableEq, Repr

/-- The interpreter.  `calls` is the call stack, top first. -/
structure Mach (σ : Type) where
  core : Core σ
  exec : Exec
  calls : List Call
  frames : List Frame
  labels : Labels.Table

/-- The rest of the system. -/
structure Env (σ : Type) where
  /-- functions, system variables, other commands, operators on strings: instruction, operand, argument count -/
  other : Nat → Nat → Nat → Core σ → Out (Core σ)

variable {σ : Type}

/-- Set the error code. -/
def Core.fail (c : Core σ) (e : Nat) : Core σ := { c with error := e }
/-- Set the error code. -/
def Mach.fail (m : Mach σ) (e : Nat) : Mach σ := { m with core := m.core.fail e }

/-- `stack_push` and the unchecked pushes of the runner. -/
def Core.push (c : Core σ) (e : Entry) : Out (Core σ) :=
  if c.stack.length ≥ 100 then .ub else .ok { c with stack := c.stack ++ [e] }

/-- Store a number. -/
def Core.store (c : Core σ) (p : Ptr) (n : Int) : Core σ := { c with mem := fun q => if q = p then n else c.mem q }
/-- Store a string. -/
def Core.storeStr (c : Core σ) (p : Ptr) (s : List Nat) : Core σ := { c with smem := fun q => if q = p then s else c.smem q }

/-- `VALUE_NUM` (`stack.h:14`); reading a string or separator as a number is not modelled. -/
def Core.num (c : Core σ) : Entry → Out Int
  | .num n => .ok n
  | .var false _ p => .ok (c.mem p)
  | _ => .ub

/-- Entry `i` of the stack as a number (`STACK_NUM`, with the assertion of `stack_get`). -/
def Core.argNum (c : Core σ) (i : Nat) : Out Int :=
  match c.stack[i]? with
  | some e => c.num e
  | none => .ub

/-! ## Operators (`operators.c`) -/

/-- An entry with a number. -/
def isNum : Entry → Bool
  | .num _ => true
  | .var false _ _ => true
  | _ => false

/-- Numeric binary operators. -/
def numOp2 (op : Nat) (x y : Int) : Option (Out Int) :=
  if op = 0 then some (Arith.opAdd x y)
  else if op = 2 then some (Arith.opSub x y)
  else if op = 3 then some (Arith.opMult x y)
  else if op = 4 then some (Arith.opDiv x y)
  else if op = 8 then some (Arith.opEqual x y)
  else if op = 9 then some (Arith.opInequal x y)
  else if op = 10 then some (Arith.opLess x y)
  else if op = 11 then some (Arith.opGreater x y)
  else if op = 12 then some (Arith.opLessEqual x y)
  else if op = 13 then some (Arith.opGreaterEqual x y)
  else if op = 14 then some (Arith.opModulo x y)
  else if op = 15 then some (Arith.opAnd x y)
  else if op = 16 then some (Arith.opOr x y)
  else if op = 17 then some (Arith.opXor x y)
  else none

/-- Numeric unary operators. -/
def numOp1 (op : Nat) (x : Int) : Option (Out Int) :=
  if op = 7 then some (Arith.opNegate x)
  else if op = 18 then some (Arith.opNot x)
  else if op = 19 then some (Arith.opLogicalNot x)
  else none

/-- Error number of an error of an operator or function (`error.h`). -/
def errNum : Err → Nat
  | .divideByZero => eDivideByZero
  | .illegalFunctionCall => 54
  | .outOfRange => 37
  | .invalidArgumentValue => 33
  | .stringTooLong => 23
  | .syntax => 31
  | .subscriptX => 43
  | .subscriptY => 44
  | _ => eOverflow

/-- Result of an arithmetic operator with its operands taken off the stack.  On an error the stack is left as some
prefix; the error ends execution, so this is not observable. -/
def Core.result (c : Core σ) (stack : List Entry) : Out Int → Out (Core σ)
  | .ok n => Core.push { c with stack } (.num n)
  | .err e => .ok ({ c with stack }.fail (errNum e))
  | .ub => .ub

/-- `op_assign`, number branch (`operators.c:142-143`); strings are given to the environment. -/
def opAssignNum (c : Core σ) (rest : List Entry) (p : Ptr) (b : Entry) : Out (Core σ) :=
  (c.num b).bind fun n => .ok { c.store p n with stack := rest }

/-- One operator (`runner.c:240-254`).  The two separators push themselves; an operator whose operands are all
numbers is computed here, every other case is given to the environment. -/
def execOp (env : Env σ) (op argc : Nat) (c : Core σ) : Out (Core σ) :=
  if op ≥ 20 then .ok (c.fail eOperatorInvalid)
  else if op = 1 ∨ op = 5 then c.push (.sep op)
  else if op = 7 ∨ op = 18 ∨ op = 19 then
    match c.stack.reverse with
    | a :: r =>
      if isNum a then (c.num a).bind fun x =>
        match numOp1 op x with
        | some o => c.result r.reverse o
        | none => .ub
      else env.other bcOperator op argc c
    | [] => .ub
  else
    match c.stack.reverse with
    | b :: a :: r =>
      if isNum a && isNum b then
        if op = 6 then
          match a with
          | .var false _ p => opAssignNum c r.reverse p b
          | _ => .ub
        else (c.num a).bind fun x => (c.num b).bind fun y =>
          match numOp2 op x y with
          | some o => c.result r.reverse o
          | none => .ub
      else env.other bcOperator op argc c
    | _ => .ub

/-! ## Variables -/

/-- `read_var_name` (`runner.c:141-160`): characters of the name, whether it is a string, and the number of
bytes after the instruction.  A name of length 0 is not modelled. -/
def readName (code : List Nat) (index data : Nat) : Out (List Nat × Bool × Nat) :=
  if data < 65 then
    let name := (code.drop (index + 2)).take data
    if name.length < data ∨ data = 0 then .ub
    else if name.getLast? = some 36 then .ok (name.dropLast, true, data + data % 2)
    else .ok (name, false, data + data % 2)
  else .ok ([data], false, 0)

/-- Type of a variable. -/
def tyOf (isStr isArr : Bool) : Vars.Ty :=
  if isStr then (if isArr then .strArr else .str) else (if isArr then .numArr else .num)

/-- Whether a type is a string type. -/
def tyStr : Vars.Ty → Bool
  | .str | .strArr => true
  | _ => false
/-- Whether a type is an array type. -/
def tyArr : Vars.Ty → Bool
  | .numArr | .strArr => true
  | _ => false

/-- `get_var`: a slot that becomes used gets the default value (`vars.c:136-147`); a full table sets both error
fields (`vars.c:119-121`, `runner.c:366-369`). -/
def Core.lookup (c : Core σ) (name : List Nat) (ty : Vars.Ty) : Out (Core σ × Option Nat) :=
  match Vars.getVar c.vars name ty with
  | (_, .ub) => .ub
  | (v, .err _) => .ok ({ c with vars := v, varsErr := eOutOfMemory, error := eOutOfMemory }, none)
  | (v, .ok i) =>
    if (c.vars.slots i).ty = none then .ok (({ c with vars := v }.store (.slot i) 0).storeStr (.slot i) [], some i)
    else .ok ({ c with vars := v }, some i)

/-- Subscripts taken off the stack (`runner.c:322-324`, `373-375`, `393-395`). -/
def Core.subscripts (c : Core σ) (argc : Nat) : Out (Core σ × Int × Option Int) :=
  if argc > c.stack.length then .ub
  else
    let n := c.stack.length
    let rest := c.stack.take (n - argc)
    if argc = 2 then
      (c.argNum (n - 2)).bind fun a => (c.argNum (n - 1)).bind fun b =>
        .ok ({ c with stack := rest }, fpToInt a, some (fpToInt b))
    else
      (c.argNum (n - 1)).bind fun a => .ok ({ c with stack := rest }, fpToInt a, none)

/-- The array memory (`Model/Arrays`): its words are `mem` at the elements. -/
def Core.pool (c : Core σ) : Arrays.Pool := { size := c.arrMax, next := c.arrNext, mem := fun w => c.mem (.elem w) }

/-- `get_init_new_arr` (`arrays.c:28-53`): the words of the new array are 0 as numbers and empty as strings (simplification: whatever its
type). -/
def Core.newArr (c : Core σ) (size1 size2 : Nat) : Core σ × Out (Option Nat) :=
  let r := Arrays.alloc c.pool size1 size2 0
  match r.2 with
  | .ok (some p) => ({ c with
      arrNext := r.1.next
      mem := fun q => match q with | .elem w => r.1.mem w | .slot i => c.mem (.slot i)
      smem := fun q => match q with | .elem w => if p + 2 ≤ w ∧ w < r.1.next then [] else c.smem (.elem w) | .slot i => c.smem (.slot i) }, .ok (some p))
  | o => (c, o)

/-- The end of `get_arr_entry_via_ptr` (`vars.c:167-180`): the element of the array at `p`, or an error code. -/
def Core.findElem (c : Core σ) (p : Nat) (x : Int) (y : Option Int) : Out (Core σ × Except Nat Ptr) :=
  match Arrays.entryChecked c.pool p (Arrays.toU32 x) (Arrays.dim2 y) with
  | .ok w => .ok (c, .ok (.elem w))
  | .err .subscriptX => .ok (c, .error eSubscriptX)
  | .err _ => .ok (c, .error eSubscriptY)
  | .ub => .ub

/-- `get_arr_entry_via_ptr` (`vars.c:152-181`) for the array in slot `i`: an array without memory gets ten elements in each dimension. -/
def Core.elem (c : Core σ) (i : Nat) (x : Int) (y : Option Int) : Out (Core σ × Except Nat Ptr) :=
  match (c.vars.slots i).val with
  | .arr (some p) => c.findElem p x y
  | .arr none =>
    match c.newArr 10 (if Arrays.dim2 y = Arrays.unused then Arrays.unused else 10) with
    | (c', .ok (some p)) =>
      { c' with vars := Vars.setSlot c'.vars i { c'.vars.slots i with val := .arr (some p) } }.findElem p x y
    | (c', .ok none) => .ok (c', .error eOutOfMemory)
    | _ => .ub
  | _ => .ub

/-- Push the variable in slot `id` or an element of the array in it (`runner.c:311-335`). -/
def pushSlot (id argc : Nat) (isStr isArr : Bool) (c : Core σ) : Out (Core σ) :=
  if argc = 0 then c.push (.var isStr isArr (.slot id))
  else (c.subscripts argc).bind fun r =>
    (r.1.elem id r.2.1 r.2.2).bind fun q =>
      match q.2 with
      | .ok p => q.1.push (.var isStr false p)
      | .error e => .ok { q.1 with error := e, varsErr := e }

/-- `BC_VARIABLE_ID_SMALL`, `BC_VARIABLE_ID` (`runner.c:308-347`). -/
def execId (id argc : Nat) (c : Core σ) : Out (Core σ) :=
  if id ≥ c.vars.max then .ub
  else match (c.vars.slots id).ty with
    | none => .ub
    | some ty => pushSlot id argc (tyStr ty) (tyArr ty) c

/-- `BC_VARIABLE_NAME`, `BC_ARRAY_NAME` (`runner.c:349-392`): `arr` is the latter. -/
def execName (arr : Bool) (name : List Nat) (isStr : Bool) (argc : Nat) (c : Core σ) : Out (Core σ) :=
  if argc = 0 then
    (c.lookup name (tyOf isStr arr)).bind fun r =>
      match r.2 with
      | none => .ok r.1
      | some i => r.1.push (.var isStr arr (.slot i))
  else (c.subscripts argc).bind fun s =>
    (s.1.lookup name (tyOf isStr true)).bind fun r =>
      match r.2 with
      | none => .ok r.1
      | some i => (r.1.elem i s.2.1 s.2.2).bind fun q =>
        match q.2 with
        | .ok p => q.1.push (.var isStr arr p)
        | .error e => .ok { q.1 with error := e, varsErr := e }

/-- `BC_DIM` (`runner.c:390-420`, `get_new_arr_var`, `vars.c:83-115`): whatever happened, the error code becomes
the error field of the variable table, which nothing ever clears. -/
def execDim (name : List Nat) (isStr : Bool) (argc : Nat) (c : Core σ) : Out (Core σ) :=
  (c.subscripts argc).bind fun s =>
    let al := s.1.newArr (Arrays.toU32 s.2.1) (Arrays.dim2 s.2.2)
    match Vars.getNewArrVar s.1.vars name (tyOf isStr true) (match al.2 with | .ok p => p | _ => none) with
    | (_, .ub) => .ub
    | (_, .err .outOfMemory) => .ok { s.1 with varsErr := eOutOfMemory, error := eOutOfMemory }
    | (_, .err _) => .ok { s.1 with varsErr := eDuplicateDim, error := eDuplicateDim }
    | (v, .ok _) =>
      match al.2 with
      | .ok _ => .ok { al.1 with vars := v, error := al.1.varsErr }
      | _ => .ub

/-! ## Flow control (`flow.c`) -/

/-- Byte of the code. -/
def byte (code : List Nat) (i : Nat) : Out Nat := match code[i]? with | some b => .ok b | none => .ub

/-- Repeated `bc_scan` for instruction `find` with an operand accepted by `p` (`flow.c:28-30`, `158-164`,
`200-204`); `fuel` bounds the iterations (each advances). -/
def scanFor (code : List Nat) (find : Nat) (p : Nat → Bool) : Nat → Nat → Out (Option Nat)
  | 0, _ => .ub
  | fuel + 1, index => (bcScan code index find).bind fun r =>
    match r with
    | none => .ok none
    | some i => (byte code (i + 1)).bind fun d => if p d then .ok (some i) else scanFor code find p fuel (i + 2)

/-- `scanFor` with enough iterations. -/
def Exec.scanFor (x : Exec) (find : Nat) (p : Nat → Bool) (index : Nat) : Out (Option Nat) :=
  Machine.scanFor x.code find p (x.code.length + 1) index

/-- `cmd_for` (`flow.c:16-53`). -/
def cmdForM (m : Mach σ) : Out (Mach σ) :=
  (m.exec.scanFor bcOperator (· == opAssign) m.exec.index).bind fun r =>
    match r with
    | none => .ok (m.fail eMissingAssign)
    | some i =>
      if m.calls.length = 255 then .ok (m.fail eOutOfMemory)
      else
        let start := i + 2
        (bcScan m.exec.code start bcBeginLoop).bind fun e =>
          match e with
          | none => .ok (m.fail eForMissingBegin)
          | some e =>
            match m.core.stack with
            | .var _ _ p :: _ => .ok { m with calls := ⟨false, start ||| ((e - start) <<< 24) % 4294967296, p⟩ :: m.calls }
            | _ => .ub

/-- Search for the FOR of a NEXT from the top (`flow.c:84-96`): its distance from the top. -/
def findFor (v : Option Ptr) (calls : List Call) : Option Nat :=
  calls.findIdx? fun c => !c.gosub && (match v with | none => true | some p => c.var == p)

/-- `cmd_next` up to the nested run (`flow.c:71-110`). -/
def cmdNextM (m : Mach σ) : Out (Mach σ) :=
  let go (v : Option Ptr) : Out (Mach σ) :=
    match findFor v m.calls with
    | none => .ok (m.fail eNextWithoutFor)
    | some k =>
      match m.calls[k]? with
      | none => .ub
      | some c =>
        let start := c.addr % 16777216
        let size := c.addr / 16777216
        if start + size > m.exec.code.length then .ub
        else .ok { m with
          frames := ⟨{ m.exec with argc := 0 }, m.core.error, m.calls.length - 1 - k⟩ :: m.frames
          exec := ⟨(m.exec.code.drop start).take size, 0, some 0, 0, m.exec.argc, false⟩
          core := { m.core with stack := [] } }
  match m.core.stack.reverse with
  | [] => go none
  | .var _ _ p :: _ => go (some p)
  | _ => .ub

/-- The value has passed the end of the loop (`flow.c:128`, `runner.c:449`). -/
def passed (step val end' : Int) : Bool := (decide (step < 0) && decide (end' > val)) || (decide (step ≥ 0) && decide (end' < val))

/-- `cmd_next` after the nested run (`flow.c:111-143`), including the clearing of the stack. -/
def finishNext (f : Frame) (rest : List Frame) (m : Mach σ) : Out (Mach σ) :=
  if m.calls.length ≤ f.pos then .ub
  else
    let k := m.calls.length - 1 - f.pos
    match m.calls[k]? with
    | none => .ub
    | some c =>
      (m.core.argNum 0).bind fun end' =>
        (if m.core.stack.length = 1 then .ok 4096 else m.core.argNum 1).bind fun step =>
          let m := { m with exec := f.saved, frames := rest, core := { m.core with error := f.savedErr, stack := [] } }
          let v := m.core.mem c.var + step
          if v > 2147483647 ∨ v < -2147483648 then .ok (m.fail eOverflow)
          else
            let m := { m with core := m.core.store c.var v }
            if passed step v end' then .ok { m with calls := m.calls.eraseIdx k }
            else .ok { m with exec := { m.exec with index := c.addr % 16777216 } }

/-- `search_label` (`label.c:104-131`): the position, or an error and the end of the program. -/
def searchLabel (m : Mach σ) (isLabel : Bool) (chars : List Nat) : Out (Mach σ × Nat) :=
  if !m.exec.main then .ub
  else if isLabel && decide (chars.length > 16) then .ub
  else if !isLabel && (decide (chars.length > 17) || decide (chars.length = 0)) then .ub
  else
    match Labels.labelIndex m.labels (if isLabel then chars else chars.drop 1) with
    | some i => .ok (m, i)
    | none => .ok (m.fail eLabelNotFound, m.exec.code.length)

/-- Characters of a string entry (`value_str`). -/
def Core.text (c : Core σ) : Entry → Out (Bool × List Nat)
  | .str l s => .ok (l, s)
  | .var true false p => .ok (false, c.smem p)
  | _ => .ub

/-- End of a jump (`flow.c:234-246`). -/
def jump (push : Bool) (m : Mach σ) (isLabel : Bool) (chars : List Nat) : Out (Mach σ) :=
  (searchLabel m isLabel chars).bind fun r =>
    if push then
      if r.1.calls.length = 255 then .ok (r.1.fail eOutOfMemory)
      else .ok { r.1 with calls := ⟨true, r.1.exec.index, .slot 0⟩ :: r.1.calls, exec := { r.1.exec with index := r.2 } }
    else .ok { r.1 with exec := { r.1.exec with index := r.2 } }

/-- `cmd_goto_gosub` (`flow.c:214-247`).  A string variable in the list of ON is read as if it were the string itself:
not modelled. -/
def cmdJumpM (push : Bool) (m : Mach σ) : Out (Mach σ) :=
  match m.core.stack[0]? with
  | none => .ub
  | some e =>
    if isNum e then
      (m.core.num e).bind fun v =>
        let i := fpToInt v
        if i < 0 ∨ i + 1 ≥ m.core.stack.length then .ok m
        else match m.core.stack[i.toNat + 1]? with
          | some (.sep _) => .ok (m.fail eSyntax)
          | some (.str l s) => jump push m l s
          | _ => .ub
    else (m.core.text e).bind fun t => jump push m t.1 t.2

/-- `cmd_return` (`flow.c:261-284`): with nothing but FORs on the stack the loop reads entry -1. -/
def cmdReturnM (m : Mach σ) : Out (Mach σ) :=
  if m.calls = [] then .ok (m.fail eReturnWithoutGosub)
  else match m.calls.dropWhile (fun c => !c.gosub) with
    | [] => .ub
    | c :: r => .ok { m with calls := r, exec := { m.exec with index := c.addr } }

/-- The instruction at `after` is GOTO or GOSUB (`flow.c:179-181`). -/
def jumpFollows (code : List Nat) (after : Nat) : Bool :=
  match code[after]?, code[after + 1]? with
  | some i, some d => i == bcCommand && (d == cmdGosub || d == cmdGoto)
  | _, _ => false

/-- The label after an IF or ELSE (`flow.c:174-187`): where execution goes on.  Reading beyond the code is not
modelled. -/
def ifTarget (m : Mach σ) (index : Nat) : Out (Mach σ × Nat) :=
  match m.exec.code[index]? with
  | none => .ok (m, index)
  | some b =>
    if b = bcLabelString then
      (byte m.exec.code (index + 1)).bind fun len =>
        if jumpFollows m.exec.code (index + 2 + len + len % 2) then .ok (m, index)
        else searchLabel m true ((m.exec.code.drop (index + 2)).take len)
    else .ok (m, index)

/-- `cmd_if` (`flow.c:148-189`). -/
def cmdIfM (m : Mach σ) : Out (Mach σ) :=
  (m.core.argNum 0).bind fun v =>
    if v ≠ 0 then
      (ifTarget m m.exec.index).bind fun r => .ok { r.1 with exec := { r.1.exec with index := r.2 } }
    else
      (m.exec.scanFor bcCommand (fun d => d == cmdElse || d == cmdEndif) m.exec.index).bind fun r =>
        match r with
        | none => .ok (m.fail eMissingElse)
        | some i => (byte m.exec.code (i + 1)).bind fun d =>
          if d = cmdElse then
            (ifTarget m (i + 2)).bind fun r => .ok { r.1 with exec := { r.1.exec with index := r.2 } }
          else .ok { m with exec := { m.exec with index := i + 2 } }

/-- `cmd_else` (`flow.c:199-212`). -/
def cmdElseM (m : Mach σ) : Out (Mach σ) :=
  (m.exec.scanFor bcCommand (· == cmdEndif) m.exec.index).bind fun r =>
    match r with
    | none => .ok (m.fail eMissingElse)
    | some i => .ok { m with exec := { m.exec with index := i + 2 } }

/-! ## READ and RESTORE (`data.c`) -/

/-- Digits, minus sign and point. -/
def dataNumChar (c : Nat) : Bool := (decide (48 ≤ c) && decide (c ≤ 57)) || c == 45 || c == 46

/-- The number loop (`data.c:45-57`): `i` characters were consumed; the characters stored (the zero bytes of the
conversion buffer for skipped spaces included by the caller), or `none` for a character that is not allowed. -/
def readNumLoop : Nat → List Nat → List Nat → Option (List Nat)
  | 0, acc, _ => some acc
  | _ + 1, acc, [] => some acc
  | n + 1, acc, c :: cs =>
    if dataNumChar c then readNumLoop n (acc ++ [c]) cs
    else if c = 0 then some acc
    else none

/-- Result of reading one item: the number of characters consumed and the value. -/
inductive Item where
  | num (n : Int)
  | str (s : List Nat)
  deriving DecidableEq, Repr

/-- `read_one_u8` (`data.c:13-64`) on the remaining characters of the block; `none` is `READ_ONE_ERR`.  A number is
converted from a buffer of 16 characters. -/
def readOne (src : List Nat) (isStr : Bool) : Out (Option (Nat × Item)) :=
  if isStr then
    let item := src.takeWhile (· ≠ 0)
    if item.contains 13 then .ok none else .ok (some (item.length, .str item))
  else
    let sp := (src.takeWhile (· == 32)).length
    if sp ≥ src.length then .ok none
    else match readNumLoop (16 - sp) [] (src.drop sp) with
      | none => .ok none
      | some ds =>
        (Num.strToNumber ((List.replicate (min sp 16) 0 ++ ds).map Strs.toWide) 10 true).bind fun n =>
          .ok (some (sp + ds.length, .num (wrap32 n)))

/-- `find_data` (`data.c:67-75`). -/
def findData (x : Exec) : Out Exec :=
  match x.dataIndex with
  | none => .ub
  | some i => (bcScan x.code (i + 2 + x.dataOffset + x.dataOffset % 2) bcData).bind fun r =>
    .ok { x with dataIndex := r, dataOffset := 0 }

/-- The zero byte after an item is skipped (`data.c:111-113`). -/
def skipZero (code : List Nat) (start ofs : Nat) : Nat := if code[start + ofs]? = some 0 then ofs + 1 else ofs

/-- One variable of READ (`data.c:103-122`); a block that was not found is dereferenced. -/
def readVar (m : Mach σ) (e : Entry) : Out (Mach σ) :=
  match m.exec.dataIndex with
  | none => .ub
  | some i =>
    (byte m.exec.code (i + 1)).bind fun size =>
      if i + 2 + size > m.exec.code.length ∨ m.exec.dataOffset > size then .ub
      else
        let src := ((m.exec.code.drop (i + 2)).take size).drop m.exec.dataOffset
        match e with
        | .var isStr false p =>
          (readOne src isStr).bind fun r =>
            match r with
            | none => .ok (m.fail eReadFailure)
            | some (n, v) =>
              let core := match v with
                | .num x => m.core.store p x
                | .str s => m.core.storeStr p s
              let ofs := skipZero m.exec.code (i + 2) (m.exec.dataOffset + n)
              let exec := { m.exec with dataOffset := ofs }
              if ofs ≥ size then (findData exec).bind fun x => .ok { m with core, exec := x }
              else .ok { m with core, exec }
        | _ => .ok (m.fail eReadFailure)

/-- The loop over the variables: an error ends it. -/
def readVars : List Entry → Mach σ → Out (Mach σ)
  | [], m => .ok m
  | e :: es, m => (readVar m e).bind fun m' => if m'.core.error ≠ 0 then .ok m' else readVars es m'

/-- `cmd_read` (`data.c:80-126`). -/
def cmdReadM (m : Mach σ) : Out (Mach σ) :=
  match m.exec.dataIndex with
  | none => .ok (m.fail eOutOfData)
  | some i =>
    (byte m.exec.code i).bind fun b =>
      if b = bcData then readVars m.core.stack m
      else (bcScan m.exec.code i bcData).bind fun r =>
        let m := { m with exec := { m.exec with dataIndex := r, dataOffset := 0 } }
        match r with
        | none => .ok (m.fail eOutOfData)
        | some _ => readVars m.core.stack m

/-- `cmd_restore` (`data.c:128-134`). -/
def cmdRestoreM (m : Mach σ) : Out (Mach σ) :=
  match m.core.stack[0]? with
  | none => .ub
  | some e => (m.core.text e).bind fun t => (searchLabel m t.1 t.2).bind fun r =>
    (bcScan m.exec.code r.2 bcData).bind fun d => .ok { r.1 with exec := { r.1.exec with dataIndex := d, dataOffset := 0 } }

/-! ## BEGIN_LOOP -/

/-- What a NEXT found while skipping a loop counts for (`runner.c:465-500`): a generic NEXT, the NEXT of the loop's
variable, or another variable's. -/
inductive Skip where
  | generic | mine | otherVar
  deriving DecidableEq, Repr

/-- Classification of a NEXT by the instruction before it. -/
def skipKind (c : Core σ) (code : List Nat) (prev : Option Nat) (cur : Ptr) : Out (Core σ × Skip) :=
  match prev with
  | none => .ok (c, .generic)
  | some pr => (byte code pr).bind fun b => (byte code (pr + 1)).bind fun d =>
    if b = bcVariableName then
      (readName code pr d).bind fun n => (c.lookup n.1 (tyOf n.2.1 false)).bind fun r =>
        match r.2 with
        | none => .ub
        | some i => .ok (r.1, if cur = .slot i then .mine else .otherVar)
    else if b = bcVariableIdSmall then .ok (c, if cur = .slot d then .mine else .otherVar)
    else if b = bcVariableId then
      (byte code (pr + 2)).bind fun d1 => (byte code (pr + 3)).bind fun d2 =>
        .ok (c, if cur = .slot (d + d1 * 256 + d2 * 65536) then .mine else .otherVar)
    else .ok (c, .generic)

/-- The search for the end of a loop that does not run (`runner.c:451-508`); `none` is FOR without NEXT. -/
def skipLoop (code : List Nat) (cur : Ptr) : Nat → Nat → Nat → Core σ → Out (Core σ × Option Nat)
  | 0, _, _, _ => .ub
  | _ + 1, 0, index, c => .ok (c, some index)
  | fuel + 1, nest + 1, index, c =>
    (bcScanPair code index bcCommandFirst).bind fun r =>
      match r.2 with
      | none => .ok (c, none)
      | some i => (byte code (i + 1)).bind fun d =>
        if d = cmdNext then
          (skipKind c code r.1 cur).bind fun k =>
            match k.2 with
            | .generic => skipLoop code cur fuel nest (i + 2) k.1
            | .mine => .ok (k.1, some (i + 2))
            | .otherVar => skipLoop code cur fuel (nest + 1) (i + 2) k.1
        else if d = cmdFor then skipLoop code cur fuel (nest + 2) (i + 2) c
        else skipLoop code cur fuel (nest + 1) (i + 2) c

/-- `BC_BEGIN_LOOP` (`runner.c:427-520`). -/
def execBegin (m : Mach σ) : Out (Mach σ) :=
  match m.calls with
  | [] => .ok (m.fail eBeginLoopFail)
  | c :: _ =>
    if m.core.stack = [] then .ok (m.fail eBeginLoopNoEnd)
    else
      let n := m.core.stack.length
      (if n = 1 then .ok 4096 else m.core.argNum (n - 1)).bind fun step =>
        (if n = 1 then m.core.argNum 0 else m.core.argNum (n - 2)).bind fun end' =>
          let m := { m with core := { m.core with stack := [] } }
          if passed step (m.core.mem c.var) end' then
            (skipLoop m.exec.code c.var (m.exec.code.length + 2) 1 m.exec.index m.core).bind fun r =>
              match r.2 with
              | none => .ok ({ m with core := r.1 }.fail eForWithoutNext)
              | some i => .ok { m with core := r.1, exec := { m.exec with index := i } }
          else .ok m

/-! ## The loop -/

/-- Commands that replace the program or its variables' storage: CLEAR (47), EXEC (55), LOAD (74), NEW (75),
RUN (84), APPEND (25), and those not implemented. -/
def outside (d : Nat) : Bool := [25, 47, 55, 74, 75, 84].contains d

/-- A command (`runner.c:216-238`, table `runner.c:58-87`), before the stack is cleared. -/
def execCmd (env : Env σ) (d : Nat) (m : Mach σ) : Out (Mach σ) :=
  if d = cmdFor then cmdForM m
  else if d = cmdTo ∨ d = cmdStep ∨ d = cmdOn ∨ d = cmdEndif then .ok m
  else if d = cmdNext then cmdNextM m
  else if d = cmdIf then cmdIfM m
  else if d = cmdThen then .ok (m.fail eCommandExists)
  else if d = cmdElse then cmdElseM m
  else if d = cmdGoto then cmdJumpM false m
  else if d = cmdGosub then cmdJumpM true m
  else if d = cmdReturn then cmdReturnM m
  else if d = cmdEnd then .ok { m with exec := { m.exec with index := m.exec.code.length } }
  else if d = cmdStop then .ok (m.fail eBreak)
  else if d = cmdRead then cmdReadM m
  else if d = cmdRestore then cmdRestoreM m
  else if outside d then .ub
  else (env.other bcCommand d m.exec.argc m.core).bind fun c => .ok { m with core := c }

/-- Commands after which the stack is kept (`runner.c:233`). -/
def keepsStack (d : Nat) : Bool := d == cmdFor || d == cmdTo || d == cmdStep || d == cmdOn

/-- Run something that only works on the core. -/
def onCore (m : Mach σ) (r : Out (Core σ)) : Out (Mach σ) := r.bind fun c => .ok { m with core := c }

/-- Move on by `n` bytes. -/
def Mach.skip (m : Mach σ) (n : Nat) : Mach σ := { m with exec := { m.exec with index := m.exec.index + n } }

/-- One instruction; `m.exec.index` is already past its two bytes (`runner.c:192-545`). -/
def execInstr (env : Env σ) (op d : Nat) (m : Mach σ) : Out (Mach σ) :=
  let x := m.exec
  let at' := x.index - 2
  if op = bcSmallNumber then
    if d ≤ 99 then onCore m (m.core.push (.num (d * 4096))) else .ok (m.fail eNumInvalid)
  else if op = bcString ∨ op = bcLabelString then
    let text := (x.code.drop x.index).take d
    if text.length < d then .ub
    else onCore (m.skip (d + d % 2)) (m.core.push (.str (op == bcLabelString) text))
  else if op = bcCommand ∨ op = bcCommandFirst then
    if d ≥ 110 then .ok (m.fail eCommandInvalid)
    else (execCmd env d m).bind fun m' =>
      .ok (if keepsStack d then m' else { m' with core := { m'.core with stack := [] } })
  else if op = bcOperator then onCore m (execOp env d x.argc m.core)
  else if op = bcFunction ∨ op = bcSysvar ∨ op = bcSysvarValidate then onCore m (env.other op d x.argc m.core)
  else if op = bcNumber then
    match x.code[x.index]?, x.code[x.index + 1]?, x.code[x.index + 2]?, x.code[x.index + 3]? with
    | some b3, some b2, some b1, some b0 => onCore (m.skip 4) (m.core.push (.num (numBytes b3 b2 b1 b0)))
    | _, _, _, _ => .ub
  else if op = bcVariableIdSmall then onCore m (execId d x.argc m.core)
  else if op = bcVariableId then
    match x.code[x.index]?, x.code[x.index + 1]? with
    | some b1, some b2 => onCore (m.skip 2) (execId (d + b1 * 256 + b2 * 65536) x.argc m.core)
    | _, _ => .ub
  else if op = bcArrayName ∨ op = bcVariableName then
    (readName x.code at' d).bind fun n =>
      onCore (m.skip n.2.2) (execName (op == bcArrayName) n.1 n.2.1 x.argc m.core)
  else if op = bcDim then
    (readName x.code at' d).bind fun n => onCore (m.skip n.2.2) (execDim n.1 n.2.1 x.argc m.core)
  else if op = bcArgcount then .ok { m with exec := { x with argc := d } }
  else if op = bcBeginLoop then execBegin m
  else if op = bcData ∨ op = bcLabel then .ok (m.skip (d + d % 2))
  else if op = bcError then .ok (m.fail d)
  else .ok (m.fail eInvalidBc)

/-- `r->argcount = 0` after every other instruction (`runner.c:547-549`). -/
def clearArgc (op : Nat) (m : Mach σ) : Mach σ := if op = bcArgcount then m else { m with exec := { m.exec with argc := 0 } }

/-- The current piece of code has ended (`runner.c:186`). -/
def Mach.ended (m : Mach σ) : Bool := decide (m.exec.index ≥ m.exec.code.length) || decide (m.core.error ≠ 0)

/-- One step: an instruction, the end of a nested run, or nothing when the program has ended. -/
def step (env : Env σ) (m : Mach σ) : Out (Mach σ) :=
  if m.ended then
    match m.frames with
    | [] => .ok m
    | f :: fs => finishNext f fs m
  else
    match m.exec.code[m.exec.index]?, m.exec.code[m.exec.index + 1]? with
    | some op, some d => (execInstr env op d (m.skip 2)).bind fun m' => .ok (clearArgc op m')
    | _, _ => .ub

/-- Several steps. -/
def steps (env : Env σ) : Nat → Mach σ → Out (Mach σ)
  | 0, m => .ok m
  | n + 1, m => (step env m).bind (steps env n)

/-- The machine gets from one state to another. -/
def Reaches (env : Env σ) (m m' : Mach σ) : Prop := ∃ n, steps env n m = .ok m'

/-- `_run` (`runner.c:171-184`) on a compiled program, called with an empty call stack (`token_and_run`,
`system.c:313-321`). -/
def start (code : List Nat) (labels : Labels.Table) (core : Core σ) : Mach σ :=
  { core := { core with stack := [], error := 0 }
    exec := ⟨code, 0, some 0, 0, 0, true⟩
    calls := []
    frames := []
    labels }

end Sbc.Machine
