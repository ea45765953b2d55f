import Verif.Model.Tokens
set_option autoImplicit false
/-!
# The code emitter (`source/interpreter/tokens.c:650-949`) and the code scanner (`source/interpreter/program.c`)

Not modelled: the capacity of the output buffer (no function checks it) and the debugging output.
-/
namespace Sbc.Tok
open Sbc

/-! Instruction codes (`source/ptc.h:13-36`). -/
def bcArgcount : Nat := 65
def bcArrayName : Nat := 97
def bcBeginLoop : Nat := 66
def bcCommandFirst : Nat := 99
def bcCommand : Nat := 67
def bcDim : Nat := 68
def bcData : Nat := 100
def bcError : Nat := 69
def bcFunction : Nat := 70
def bcVariableIdSmall : Nat := 105
def bcVariableId : Nat := 73
def bcLabel : Nat := 76
def bcLabelString : Nat := 108
def bcOperator : Nat := 79
def bcSmallNumber : Nat := 110
def bcNumber : Nat := 78
def bcString : Nat := 83
def bcVariableName : Nat := 86
def bcWideString : Nat := 87
def bcSysvar : Nat := 89
def bcSysvarValidate : Nat := 121

/-! Error codes (`source/error.h`). -/
def errOverflow : Nat := 39
def errOutOfMemory : Nat := 42
def errUnknownToken : Nat := 51
def errLengthInvariant : Nat := 56

/-! ## DATA -/

/-- `enum bc_data_state` (`tokens.c:664-673`). -/
inductive DataSt where
  | none | string | quoted | waitNext
  deriving DecidableEq, Repr

/-- One character of a DATA line (`tokens.c:677-724`): next state and the character written, if any.
`BC_DATA_DELIM` is 0 and `BC_DATA_ERROR` is 13 (`data.h:10-13`); `"` is 34, `,` is 44. -/
def dataStep (s : DataSt) (c : Nat) : DataSt × Option Nat :=
  match s with
  | .none =>
    if c = 34 then (.quoted, Option.none)
    else if c = 13 ∨ c = 44 then (.none, some 0)
    else if c = 32 then (.none, Option.none)
    else (.string, some c)
  | .quoted =>
    if c = 34 then (.none, Option.none)
    else if c = 13 then (.quoted, some 0)
    else (.quoted, some c)
  | .waitNext =>
    if c = 32 then (.waitNext, Option.none)
    else if c = 44 ∨ c = 13 then (.none, some 0)
    else (.waitNext, some 13)
  | .string =>
    if c = 32 then (.waitNext, Option.none)
    else if c = 44 ∨ c = 13 then (.none, some 0)
    else (.string, some c)

/-- The loop of `tok_data` (`tokens.c:674-728`): the characters written. -/
def dataLoop : DataSt → List Nat → List Nat
  | _, [] => []
  | s, c :: cs =>
    match (dataStep s c).2 with
    | some d => d :: dataLoop (dataStep s c).1 cs
    | Option.none => dataLoop (dataStep s c).1 cs

/-- `if (*size % 2) data[(*size)++] = 0;` -/
def padEven (buf : List Nat) : List Nat := if buf.length % 2 = 1 then buf ++ [0] else buf

/-- `tok_data` (`tokens.c:650-738`): `text` is the line after the word DATA, up to and including the line end.
The count is a `char`. -/
def tokData (buf text : List Nat) : List Nat :=
  let out := dataLoop .none text
  padEven (buf ++ bcData :: out.length % 256 :: out)

/-! ## Numbers -/

/-- The bits of a 64-bit number as the unsigned 32-bit number it is truncated to. -/
def toU32 (n : Int) : Nat := (n % 4294967296).toNat

/-- `(n >> 31) & 1` and `(uint64_t)n >> 63` differ. -/
def bitsDiffer (n : Int) : Bool := (n / 2147483648) % 2 != (if n < 0 then 1 else 0)

/-- `number_common` (`tokens.c:773-799`); `isNumber` is `type == number`.  `none` is `ERR_OVERFLOW`. -/
def numberCode (n : Int) (isNumber : Bool) : Option (List Nat) :=
  if bitsDiffer n = true ∧ (n ≥ 2147483648 ∧ n ≤ 4294967295 ∧ isNumber = true) then none
  else if n ≥ 0 ∧ n < 409600 ∧ n % 4096 = 0 then some [bcSmallNumber, ((n / 4096) % 256).toNat]
  else
    let u := toU32 n
    some [bcNumber, 0, u / 16777216 % 256, u / 65536 % 256, u / 256 % 256, u % 256]

/-- The value of a numeric token (`tokens.c:761-771`, `644-648`). -/
def tokNumber (k : Tk) : Out Int :=
  match k.ty with
  | .baseNumber => Num.strToNumber ((k.text.drop 2).map Strs.toWide) (if k.text[1]? = some 72 then 16 else 2) false
  | _ => Num.strToNumber (k.text.map Strs.toWide) 10 true

/-! ## `tok_code` -/

/-- State of `tok_code`: output, variable table (only with `TOKOPT_VARIABLE_IDS`), `sys_validate` as the list of
the identifiers whose bit is set. -/
structure CodeSt where
  buf : List Nat
  vars : Vars.Table
  sys : List Nat

/-- What happens after a token: go on, leave the loop, or return an error. -/
inductive Ctl where
  | next | stop | fail (e : Nat)
  deriving DecidableEq, Repr

/-- A two-byte instruction. -/
def CodeSt.put (s : CodeSt) (l : List Nat) : CodeSt := { s with buf := s.buf ++ l }

/-- Instruction, length and characters, padded (`tokens.c:801-811`, `900-911`). -/
def CodeSt.putText (s : CodeSt) (op : Nat) (text : List Nat) : CodeSt :=
  { s with buf := padEven (s.buf ++ op :: text.length % 256 :: text) }

/-- The type of a variable (`tokens.c:849-851`). -/
def idType (text : List Nat) (arr : Bool) : Vars.Ty :=
  if text.getLast? = some 36 then (if arr then .strArr else .str) else (if arr then .numArr else .num)

/-- Its name without the dollar sign. -/
def idName (text : List Nat) : List Nat := if text.getLast? = some 36 then text.dropLast else text

/-- A variable by its index (`tokens.c:846-874`). -/
def emitId (s : CodeSt) (k : Tk) : Out (CodeSt × Ctl) :=
  let arr := k.ty == .arrayName || k.ty == .arrayActual
  match Vars.getVar s.vars (idName k.text) (idType k.text arr) with
  | (_, .ub) => .ub
  | (v, .err _) => .ok ({ s with vars := v }, .fail errOutOfMemory)
  | (v, .ok id) =>
    let s := { s with vars := v }
    if id < 256 then .ok (s.put [bcVariableIdSmall, id], .next)
    else if (idName k.text).length = 1 then .ok (s, .fail errLengthInvariant)
    else .ok (s.put [bcVariableId, id % 256, id / 256 % 256, id / 65536 % 256], .next)

/-- A variable by its name (`tokens.c:875-892`). -/
def emitName (s : CodeSt) (k : Tk) : CodeSt :=
  let op := if k.ty = .dimArr then bcDim else if k.ty = .arrayActual then bcArrayName else bcVariableName
  match k.text with
  | [c] => s.put [op, c]
  | _ => s.putText op k.text

/-- The operator written for a token (`tokens.c:818-822`). -/
def opCode (k : Tk) : Nat := if k.prio % 8 = 6 ∧ k.cmd = opSubtract then opNegate else k.cmd

/-- One token (`tokens.c:746-925`); `ids` is `TOKOPT_VARIABLE_IDS`. -/
def emitTok (ids : Bool) (s : CodeSt) (k : Tk) : Out (CodeSt × Ctl) :=
  match k.ty with
  | .command | .firstCommand =>
    if k.cmd = cmdData then .ok ({ s with buf := tokData s.buf k.text }, .stop)
    else .ok (s.put [if k.ty = .firstCommand then bcCommandFirst else bcCommand, k.cmd], .next)
  | .baseNumber | .number =>
    (tokNumber k).bind fun n =>
      match numberCode n (k.ty == .number) with
      | none => .ok (s, .fail errOverflow)
      | some l => .ok (s.put l, .next)
  | .string => .ok (s.putText bcString k.text, .next)
  | .operation => .ok (s.put [bcOperator, opCode k], .next)
  | .function => .ok (s.put [bcFunction, k.cmd], .next)
  | .name | .arrayName | .dimArr | .arrayActual =>
    if ids = true ∧ k.ty ≠ .dimArr then emitId s k else .ok (emitName s k, .next)
  | .argCount => .ok (s.put [bcArgcount, k.cmd], .next)
  | .loopBegin => .ok (s.put [bcBeginLoop, 0], .next)
  | .sysvar => .ok ({ s.put [bcSysvar, k.cmd] with sys := k.cmd :: s.sys }, .next)
  | .label => .ok (s.putText bcLabel k.text, .next)
  | .labelString => .ok (s.putText bcLabelString k.text, .next)
  | .comment => .ok (s, .stop)
  | .newline => .ok (s, .fail errUnknownToken)

/-- The loop of `tok_code`. -/
def codeLoop (ids : Bool) : List Tk → CodeSt → Out (CodeSt × Option Nat)
  | [], s => .ok (s, none)
  | k :: ks, s => (emitTok ids s k).bind fun r => match r.2 with
    | .next => codeLoop ids ks r.1
    | .stop => .ok (r.1, none)
    | .fail e => .ok (r.1, some e)

/-- `SYSVAR_NEEDS_VALIDATE` (`tokens.c:930-938`).  `1 << SYS_MEM` is negative when converted to 64 bits: every
identifier from 31 upwards is in the mask. -/
def needsValidate (i : Nat) : Bool := i == 19 || i == 26 || i == 27 || i == 28 || decide (31 ≤ i)

/-- The validations at the end of the line (`tokens.c:940-947`). -/
def validations (sys : List Nat) : List Nat :=
  ((List.range 64).filter fun i => sys.contains i && needsValidate i).flatMap fun i => [bcSysvarValidate, i]

/-- `tok_code` (`tokens.c:740-951`): an error leaves what was written so far. -/
def tokCode (ids : Bool) (ks : List Tk) (buf : List Nat) (vars : Vars.Table) : Out (List Nat × Vars.Table × Option Nat) :=
  (codeLoop ids ks ⟨buf, vars, []⟩).bind fun r => match r.2 with
    | none => .ok (r.1.buf ++ validations r.1.sys, r.1.vars, none)
    | some e => .ok (r.1.buf, r.1.vars, some e)

/-! ## `bc_scan_pair` -/

/-- Instructions with a length and that many characters (`program.c:101`). -/
def hasText (cur : Nat) : Bool := cur == bcString || cur == bcLabel || cur == bcLabelString || cur == bcData

/-- Instructions with a name (`program.c:107`). -/
def hasName (cur : Nat) : Bool := cur == bcDim || cur == bcVariableName || cur == bcArrayName

/-- Number of bytes from an instruction to the next (`program.c:98-117`); `len` is its second byte. -/
def scanAdvance (cur len : Nat) : Nat :=
  if hasText cur then 2 + (len + len % 2)
  else if cur = bcWideString then 2 + 2 * len
  else if hasName cur then if len < 65 then 2 + (len + len % 2) else 2
  else if cur = bcNumber then 6
  else if cur = bcVariableId then 4
  else 2

/-- `bc_scan_pair` (`program.c:85-121`): position of the instruction before, and of the instruction found
(`none` is `BC_SCAN_NOT_FOUND`).  Reading the second byte of an instruction beyond the code is treated as
undefined (the buffer holds whatever was there before).  `fuel` bounds the iterations. -/
def scanPair (code : List Nat) (find : Nat) : Nat → Option Nat → Nat → Out (Option Nat × Option Nat)
  | 0, _, _ => .ub
  | fuel + 1, prev, index =>
    match code[index]? with
    | none => .ok (prev, none)
    | some cur =>
      if cur = find then .ok (prev, some index)
      else match code[index + 1]? with
        | none => .ub
        | some len => scanPair code find fuel (some index) (index + scanAdvance cur len)

/-- `bc_scan_pair` with enough iterations: every one advances. -/
def bcScanPair (code : List Nat) (index find : Nat) : Out (Option Nat × Option Nat) :=
  scanPair code find (code.length + 1) none index

/-- `bc_scan` (`program.c:125-128`). -/
def bcScan (code : List Nat) (index find : Nat) : Out (Option Nat) :=
  (bcScanPair code index find).bind fun r => .ok r.2

/-! ## Constants at run time -/

/-- The four bytes of a `BC_NUMBER` instruction as a `fixp` (`runner.c:295-300`). -/
def numBytes (b3 b2 b1 b0 : Nat) : Int :=
  wrap32 ((b3 * 16777216 + b2 * 65536 + b1 * 256 + b0 : Nat) : Int)

/-- Value pushed by a constant instruction (`runner.c:193-203`, `291-306`).  A small number above 99 reports
`ERR_NUM_INVALID` (1). -/
def pushConst : List Nat → Option (Except Nat Int)
  | [op, v] => if op = bcSmallNumber then some (if v ≤ 99 then .ok ((v : Int) * 4096) else .error 1) else none
  | [op, _, b3, b2, b1, b0] => if op = bcNumber then some (.ok (numBytes b3 b2 b1 b0)) else none
  | _ => none

end Sbc.Tok
