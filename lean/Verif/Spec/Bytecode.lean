import Verif.Model.Code
set_option autoImplicit false
/-!
# Specification of compiled code: a sequence of instructions
-/
namespace Sbc.Tok.Spec
open Sbc Sbc.Tok

/-- Instructions: an operation with a one-byte operand, a 32-bit number, a large variable index, or a text. -/
inductive Instr where
  /-- operation code, operand -/
  | simple (op arg : Nat)
  /-- a constant: the four bytes, most significant first -/
  | num (b3 b2 b1 b0 : Nat)
  /-- a variable index of three bytes, least significant first -/
  | varId (b0 b1 b2 : Nat)
  /-- a string, label or DATA line -/
  | text (op : Nat) (chars : List Nat)
  /-- a variable or array with a name of several characters -/
  | named (op : Nat) (chars : List Nat)
  deriving DecidableEq, Repr

/-- Operation code of an instruction. -/
def Instr.op : Instr → Nat
  | .simple op _ => op
  | .num .. => bcNumber
  | .varId .. => bcVariableId
  | .text op _ => op
  | .named op _ => op

/-- Characters padded to an even number. -/
def padText (l : List Nat) : List Nat := if l.length % 2 = 1 then l ++ [0] else l

/-- Encoding of an instruction. -/
def Instr.bytes : Instr → List Nat
  | .simple op arg => [op, arg]
  | .num b3 b2 b1 b0 => [bcNumber, 0, b3, b2, b1, b0]
  | .varId b0 b1 b2 => [bcVariableId, b0, b1, b2]
  | .text op l => op :: l.length :: padText l
  | .named op l => op :: l.length :: padText l

/-- Well-formed instructions: texts of at most 255 characters, names of at most 64; the operand of a name
instruction with one letter is a letter. -/
def Instr.WF : Instr → Prop
  | .simple op arg => hasText op = false ∧ op ≠ bcWideString ∧ op ≠ bcNumber ∧ op ≠ bcVariableId ∧
      (hasName op = true → 65 ≤ arg)
  | .num .. => True
  | .varId .. => True
  | .text op l => hasText op = true ∧ l.length ≤ 255
  | .named op l => hasName op = true ∧ l.length ≤ 64

/-- Encoding of a program. -/
def encode (p : List Instr) : List Nat := p.flatMap Instr.bytes

/-- Position of the instruction that follows `p`. -/
def posAfter (p : List Instr) : Nat := (encode p).length

/-- The first instruction with the given code: the instructions before it, it, the instructions after it. -/
def splitAt (find : Nat) : List Instr → Option (List Instr × Instr × List Instr)
  | [] => none
  | i :: r => if i.op = find then some ([], i, r) else (splitAt find r).map fun x => (i :: x.1, x.2)

/-- Which instruction a token may become. -/
def represents (k : Tk) (i : Instr) : Prop :=
  match k.ty with
  | .number | .baseNumber => (∃ v < 100, i = .simple bcSmallNumber v) ∨ ∃ a b c d, i = .num a b c d
  | .string => i = .text bcString k.text
  | .label => i = .text bcLabel k.text
  | .labelString => i = .text bcLabelString k.text
  | .operation => i = .simple bcOperator (opCode k)
  | .function => i = .simple bcFunction k.cmd
  | .command => if k.cmd = cmdData then i = .text bcData (dataLoop .none k.text) else i = .simple bcCommand k.cmd
  | .firstCommand => if k.cmd = cmdData then i = .text bcData (dataLoop .none k.text) else i = .simple bcCommandFirst k.cmd
  | .argCount => i = .simple bcArgcount k.cmd
  | .loopBegin => i = .simple bcBeginLoop 0
  | .sysvar => i = .simple bcSysvar k.cmd
  | .name | .arrayName | .arrayActual | .dimArr =>
      let op := if k.ty = .dimArr then bcDim else if k.ty = .arrayActual then bcArrayName else bcVariableName
      (∃ c, k.text = [c] ∧ i = .simple op c) ∨ i = .named op k.text ∨
        (∃ id, i = .simple bcVariableIdSmall id) ∨ ∃ a b c, i = .varId a b c
  | .comment | .newline => False

end Sbc.Tok.Spec
