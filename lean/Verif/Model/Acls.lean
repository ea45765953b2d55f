import Verif.Model.Machine
import Verif.Model.Lexer
set_option autoImplicit false
/-!
# ACLS (`source/system.c:72-110`)

The command is a BASIC program that is compiled and run from within the program that uses it.
-/
namespace Sbc.Acls
open Sbc Sbc.Tok Sbc.Machine

variable {σ : Type}

/-- `acls_code` (`system.c:74-84`), line by line (each ends with `\r`). -/
def source : List (List Nat) :=
  [chars "VISIBLE 1,1,1,1,1,1:ICONCLR",
   chars "COLOR 0,0:CLS:GDRAWMD FALSE",
   chars "FOR P=1 TO 0 STEP -1",
   chars " GPAGE P,P,P:GCOLOR 0:GCLS:GPRIO 3",
   chars " BGPAGE P:BGOFS 0,0,0:BGOFS 1,0,0",
   chars " BGCLR:BGCLIP 0,0,31,23",
   chars " SPPAGE P:SPCLR",
   chars " COLINIT \"BG\":COLINIT \"SP\"",
   chars " COLINIT \"GRP\"",
   chars "NEXT"]

/-- Where it is compiled to (`system.c:86-88`, `98-101`): a table of lines with 12 entries, no labels.  The compiler does not use the
variable table here (`tokenize`, `tokens.c:222`, passes no system). -/
def obj (vars : Vars.Table) : Obj := ⟨[], Labels.init 0, vars, 0, 12⟩

/-- The state in which the compiled program is started (`system.c:92-104`, `_run` at `runner.c:171-184`): the variables are replaced by an
empty table with room for four, the call stack stays as it is. -/
def enter (code : List Nat) (labels : Labels.Table) (calls : List Call) (core : Core σ) : Mach σ :=
  { start code labels { core with vars := Vars.init 4 false, varsErr := 0 } with calls }

/-- What is left after the run (`system.c:104-110`): when there was an error nothing is restored; otherwise the variables are (their table
and its contents; the contents of arrays are elsewhere and are not touched).  The stack is cleared after the command (`runner.c:229`). -/
def leave (core : Core σ) (m : Mach σ) : Core σ × List Call :=
  if m.core.error ≠ 0 then ({ m.core with stack := [] }, m.calls)
  else
    ({ m.core with
        stack := []
        vars := core.vars
        varsErr := core.varsErr
        mem := fun p => match p with | .slot _ => core.mem p | .elem _ => m.core.mem p
        smem := fun p => match p with | .slot _ => core.smem p | .elem _ => m.core.smem p }, m.calls)

end Sbc.Acls
