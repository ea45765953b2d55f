import Verif.Spec.SourceMachine
set_option autoImplicit false
/-!
# Specification: what a loop of commands does
-/
namespace Sbc.Source
open Sbc Sbc.Tok Sbc.Tok.Spec

variable {σ : Type}

/-- The command of a statement and what it is given, when the variables have the values `st`. -/
def S.given (K : Look) (st : Store) : S → Out (Nat × List Val)
  | .cmd k args => (argValues K st args).bind fun vs => .ok (k, vs)
  | .print items last => (itemValues K st items).bind fun vs => (optValues K st last).bind fun ws => .ok (cmdPrint, vs ++ ws)
  | _ => .ub

/-- The effect of commands, one after the other, if it is known and there is no error. -/
def bodyRun (W : World σ) (st : Store) : List S → σ → Option σ
  | [], x => some x
  | s :: r, x =>
    match s.given (W.look x) st with
    | .ok (k, vs) => if W.known k vs x = true ∧ (W.perform k vs x).2 = 0 then bodyRun W st r (W.perform k vs x).1 else none
    | _ => none

/-- The effect of commands with one value of the variable `w` after the other. -/
def loopRun (W : World σ) (st : Store) (w : List Nat) (body : List S) : List Int → σ → Option σ
  | [], x => some x
  | v :: vs, x => (bodyRun W (st.set w v) body x).bind fun x' => loopRun W st w body vs x'

end Sbc.Source
