import Verif.Spec.Expr
set_option autoImplicit false
/-!
# Specification of statements and of the value of an expression
-/
namespace Sbc.Tok.Spec
open Sbc Sbc.Tok

/-- Statements: an assignment, a command with a list of arguments separated by commas, PRINT with its items and
separators, or nothing. -/
inductive Stmt where
  | empty
  | assign (l e : Expr)
  | cmd0 (c : Nat)
  | cmd (c : Nat) (args : Args)
  /-- items each followed by a separator (comma or semicolon), then possibly a last item -/
  | print (items : List (Option Expr × Nat)) (last : Option Expr)

/-- A command word as the lexer delivers it. -/
def cmdTk (c : Nat) : Tk := ⟨.command, [], c, 0⟩

/-- The commands that the compiler treats like any other: not DIM, FOR, IF, THEN, ELSE, DATA, SORT, RSORT, PRINT. -/
def ordinary (c : Nat) : Prop :=
  c ∉ [cmdDim, cmdFor, cmdIf, cmdThen, cmdElse, cmdData, cmdSort, cmdRsort, cmdPrint]

/-- Well-formed statements: assignments are to variables or array elements. -/
def Stmt.WF : Stmt → Prop
  | .empty => True
  | .assign l e => l.WF ∧ e.WF ∧
      ((∃ t, l = .atom t ∧ t.ty ∈ [TT.name, .sysvar]) ∨ ∃ h sq a, l = .call h sq a ∧ h.ty = .name)
  | .cmd0 c => ordinary c
  | .cmd c a => ordinary c ∧ a.WF
  | .print items last =>
      (∀ x ∈ items, (∀ e, x.1 = some e → e.WF) ∧ (x.2 = opComma ∨ x.2 = opSemicolon)) ∧ ∀ e, last = some e → e.WF

/-- The exclusions of `Expr.Plain`, for every expression of the statement. -/
def Stmt.Plain : Stmt → Prop
  | .empty => True
  | .assign l e => l.Plain ∧ e.Plain
  | .cmd0 _ => True
  | .cmd _ a => a.Plain
  | .print items last => (∀ x ∈ items, ∀ e, x.1 = some e → e.Plain) ∧ ∀ e, last = some e → e.Plain

/-- Brackets are nested at most `d` deep. -/
def Stmt.shallow (d : Nat) : Stmt → Prop
  | .empty => True
  | .assign l e => l.depth ≤ d ∧ e.depth ≤ d
  | .cmd0 _ => True
  | .cmd _ a => a.depth ≤ d
  | .print items last => (∀ x ∈ items, ∀ e, x.1 = some e → e.depth ≤ d) ∧ ∀ e, last = some e → e.depth ≤ d

/-- Tokens of an optional item. -/
def optToks : Option Expr → List Tk
  | some e => e.toks
  | none => []

/-- Tokens of the items of a PRINT statement. -/
def itemToks : List (Option Expr × Nat) → List Tk
  | [] => []
  | x :: r => optToks x.1 ++ opTk x.2 :: itemToks r

/-- The tokens of a statement. -/
def Stmt.toks : Stmt → List Tk
  | .empty => []
  | .assign l e => l.toks ++ opTk opAssign :: e.toks
  | .cmd0 c => [cmdTk c]
  | .cmd c a => cmdTk c :: a.toks
  | .print items last => cmdTk cmdPrint :: (itemToks items ++ optToks last)

/-- Postfix form of an optional item. -/
def optPost : Option Expr → List Tk
  | some e => e.post
  | none => []

/-- Postfix form of PRINT items: the separators stay where they are. -/
def itemPost : List (Option Expr × Nat) → List Tk
  | [] => []
  | x :: r => optPost x.1 ++ opTk x.2 :: itemPost r

/-- The compiled form: arguments in order, then the command; target, value, then the assignment. -/
def Stmt.post : Stmt → List Tk
  | .empty => []
  | .assign l e => l.post ++ e.post ++ [opTk opAssign]
  | .cmd0 c => [⟨.firstCommand, [], c, 0⟩]
  | .cmd c a => a.post ++ [⟨.firstCommand, [], c, 0⟩]
  | .print items last => itemPost items ++ optPost last ++ [⟨.firstCommand, [], cmdPrint, 0⟩]

/-- The tokens of a line: every statement is followed by its terminator (`:` or the end of the line). -/
def lineToks : List (Stmt × Tk) → List Tk
  | [] => []
  | (s, nl) :: r => s.toks ++ nl :: lineToks r

/-- The compiled line: the compiled statements one after the other. -/
def linePost : List (Stmt × Tk) → List Tk
  | [] => []
  | (s, _) :: r => s.post ++ linePost r

/-! ## Values -/

/-- Any meaning of constants, variables, operators, functions and array elements over any state and any kind of
value; `none` is an error that ends the evaluation. -/
structure Sem (σ V : Type) where
  atom : Tk → σ → Option (V × σ)
  op1 : Nat → V → σ → Option (V × σ)
  op2 : Nat → V → V → σ → Option (V × σ)
  app : Tk → List V → σ → Option (V × σ)

mutual
/-- Value of an expression: the value of the tree, operands from left to right. -/
def Expr.value {σ V : Type} (m : Sem σ V) : Expr → σ → Option (V × σ)
  | .atom t, s => m.atom t s
  | .un op e, s => (e.value m s).bind fun r => m.op1 op r.1 r.2
  | .bin op l r, s => (l.value m s).bind fun a => (r.value m a.2).bind fun b => m.op2 op a.1 b.1 b.2
  | .paren e, s => e.value m s
  | .call h _ a, s => (a.values m s).bind fun r => m.app (headTk h) r.1 r.2
  | .call0 h, s => m.app h [] s
/-- Values of the arguments. -/
def Args.values {σ V : Type} (m : Sem σ V) : Args → σ → Option (List V × σ)
  | .one e, s => (e.value m s).bind fun r => some ([r.1], r.2)
  | .more e a, s => (e.value m s).bind fun r => (a.values m r.2).bind fun q => some (r.1 :: q.1, q.2)
end

/-- A stack machine executing one compiled token: values are pushed, operators take their operands from the
stack, an argument count is remembered for the function or array that follows. -/
def postStep {σ V : Type} (m : Sem σ V) (t : Tk) (st : σ × List V × Nat) : Option (σ × List V × Nat) :=
  match t.ty, st with
  | .operation, (s, vs, n) =>
    if unary t.cmd then
      match vs with
      | v :: r => (m.op1 t.cmd v s).map fun x => (x.2, x.1 :: r, n)
      | _ => none
    else
      match vs with
      | w :: v :: r => (m.op2 t.cmd v w s).map fun x => (x.2, x.1 :: r, n)
      | _ => none
  | .argCount, (s, vs, _) => some (s, vs, t.cmd)
  | .function, (s, vs, n) =>
    if n ≤ vs.length then (m.app t (vs.take n).reverse s).map fun x => (x.2, x.1 :: vs.drop n, 0) else none
  | .arrayName, (s, vs, n) =>
    if n ≤ vs.length then (m.app t (vs.take n).reverse s).map fun x => (x.2, x.1 :: vs.drop n, 0) else none
  | _, (s, vs, n) => (m.atom t s).map fun x => (x.2, x.1 :: vs, n)

/-- Execution of compiled tokens. -/
def postRun {σ V : Type} (m : Sem σ V) : List Tk → σ × List V × Nat → Option (σ × List V × Nat)
  | [], st => some st
  | t :: ts, st => (postStep m t st).bind (postRun m ts)

end Sbc.Tok.Spec
