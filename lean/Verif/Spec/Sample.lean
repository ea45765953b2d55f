import Verif.Spec.Control
set_option autoImplicit false
/-!
# Small programs used as examples
-/
namespace Sbc.Machine.Sample
open Sbc Sbc.Tok Sbc.Tok.Spec Sbc.Machine

/-- Surroundings in which nothing else is implemented. -/
def env : Env Unit := { other := fun _ _ _ _ => .ub }

/-- Four variables, none in use. -/
def core : Core Unit := { stack := [], mem := fun _ => 0, smem := fun _ => [], vars := Vars.init 4 true, varsErr := 0, arrMax := 100, arrNext := 0, ext := (), error := 0 }

/-- Number variable with a one-letter name. -/
def v (c : Nat) : Instr := .simple bcVariableName c
/-- Constant. -/
def n (k : Nat) : Instr := .simple bcSmallNumber k
/-- Operator. -/
def o (k : Nat) : Instr := .simple bcOperator k
/-- Command that starts a statement. -/
def c (k : Nat) : Instr := .simple bcCommandFirst k
/-- Other command. -/
def k (k : Nat) : Instr := .simple bcCommand k
/-- Start of a loop's body. -/
def begin' : Instr := .simple bcBeginLoop 0
/-- Label as an operand. -/
def l (s : List Nat) : Instr := .text bcLabelString s
/-- Label definition. -/
def label (s : List Nat) : Instr := .text bcLabel s

/-- Start of a program. -/
def boot (p : List Instr) (t : Labels.Table) : Mach Unit := start (encode p) t core

/-- The machine is stuck. -/
def stuck {α : Type} : Out α → Bool
  | .ok _ => false
  | _ => true

/-- The state after `j` steps. -/
def st (m : Mach Unit) : Nat → Mach Unit
  | 0 => m
  | j + 1 => match step env (st m j) with
    | .ok m' => m'
    | _ => st m j

/-- No labels. -/
def none' : Labels.Table := Labels.init 4

end Sbc.Machine.Sample
