import Verif.Spec.Flow
set_option autoImplicit false
/-!
# Compiled programs as the interpreter expects them
-/
namespace Sbc.Machine
open Sbc Sbc.Tok Sbc.Tok.Spec

variable {σ : Type}

/-- `i` is the position of an instruction of `p`, or the end of `p`. -/
def Boundary (p : List Instr) (i : Nat) : Prop := ∃ a b, p = a ++ b ∧ i = posAfter a

/-- The command `d`, first on its line or not. -/
def isCmd (d : Nat) (i : Instr) : Prop := i = .simple bcCommand d ∨ i = .simple bcCommandFirst d

/-- The assignment operator. -/
def assign : Instr := .simple bcOperator opAssign

/-- Code without commands other than TO and STEP. -/
def Plain (s : List Instr) : Prop :=
  ∀ i ∈ s, i.op ≠ bcBeginLoop ∧ i.op ≠ bcCommandFirst ∧ (i.op = bcCommand → i = .simple bcCommand cmdTo ∨ i = .simple bcCommand cmdStep)

/-- A program as the compiler makes it: well-formed instructions, less than 16 MB, and every FOR is followed by an
assignment and then the limit and step expressions (of at most 255 bytes) and a BEGIN_LOOP. -/
structure Compiled (p : List Instr) : Prop where
  wf : ∀ i ∈ p, i.WF
  size : posAfter p < 16777216
  loops : ∀ a i c r, p = a ++ i :: (c ++ assign :: r) → isCmd cmdFor i → assign ∉ c →
    ∃ ctl x b, r = ctl ++ .simple bcBeginLoop x :: b ∧ Plain ctl ∧ posAfter ctl ≤ 255

/-- The labels point at instructions. -/
def LabelsOk (p : List Instr) (t : Labels.Table) : Prop := ∀ name i, Labels.labelIndex t name = some i → Boundary p i

/-- The machine is about to execute command `d`. -/
def AtCmd (m : Mach σ) (d : Nat) : Prop :=
  m.ended = false ∧ (m.exec.code[m.exec.index]? = some bcCommand ∨ m.exec.code[m.exec.index]? = some bcCommandFirst) ∧
    m.exec.code[m.exec.index + 1]? = some d

/-- The current position is that of an instruction of the program (or its end); while the limit of a loop is
evaluated this holds for that piece of code and for the place to go back to. -/
def OnInstruction (p : List Instr) (m : Mach σ) : Prop :=
  match m.frames with
  | [] => m.exec.code = encode p ∧ Boundary p m.exec.index
  | [f] => f.saved.code = encode p ∧ Boundary p f.saved.index ∧
      ∃ a s b, p = a ++ (s ++ b) ∧ m.exec.code = encode s ∧ Boundary s m.exec.index
  | _ => False

end Sbc.Machine
