import Verif.Model.Lexer
set_option autoImplicit false
/-!
# Sizes of programs and of the memory for their code (`source/interpreter/program.c:57-84`, `source/system.c:325-353`)
-/
namespace Sbc.Tok
open Sbc

/-- `MAX_SOURCE_SIZE` (`program.h:11`): room for the text of a program, and for its code (`system.c:330`, `335`). -/
def maxSource : Nat := 524288

/-- `MAX_LINES` (`program.h:10`): entries of the table of lines (`system.c:330`). -/
def maxLines : Nat := 10000

/-- `struct bytecode_params` (`program.h:50-53`). -/
structure Params where
  lines : Nat
  labels : Nat
  deriving DecidableEq, Repr

/-- The loop of `calc_min_bytecode` (`program.c:60-72`). -/
def countLoop : List Nat → Bool → Params → Params
  | [], _, q => q
  | c :: l, first, q =>
    if c = 13 then countLoop l true { q with lines := q.lines + 1 }
    else if first ∧ c = 64 then countLoop l first { q with labels := q.labels + 1 }
    else if c ≠ 32 then countLoop l false q
    else countLoop l first q

/-- `x |= x >> k`. -/
def smear (x k : Nat) : Nat := x ||| x >>> k

/-- Rounding up to a power of two (`program.c:74-80`).  For 0 the program computes with −1, whose right shifts are −1 (gcc),
and gets 0 again. -/
def roundUp (n : Nat) : Nat :=
  if n = 0 then 0 else smear (smear (smear (smear (smear (n - 1) 16) 8) 4) 2) 1 + 1

/-- `calc_min_bytecode` (`program.c:57-84`). -/
def calcMin (src : List Nat) : Params :=
  let q := countLoop src true ⟨0, 0⟩
  { q with labels := roundUp q.labels }

/-- An object as `init_bytecode_size` gives it (`program.c:37-50`), with the variable table the compiler uses. -/
def newObj (q : Params) (vars : Vars.Table) : Obj := ⟨[], Labels.init q.labels, vars, 0, q.lines⟩

/-- `launcher` (`system.c:274-276`). -/
def launcher : List Nat := chars "LINPUT CODE$" ++ [13]

/-- The launcher is compiled into memory computed from the program in `p->exec.prg`, which is still empty
(`system.c:335-346`). -/
def compileLauncher (pre : Tk) (vars : Vars.Table) : Out (Obj × Option Nat) :=
  tokenize ⟨false, false, false⟩ pre launcher (newObj (calcMin []) vars)

end Sbc.Tok
