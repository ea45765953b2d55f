import Verif.Model.Tokens
set_option autoImplicit false
/-!
# Specification of expressions

The grammar of BASIC expressions, how an expression is written, and its postfix form.
-/
namespace Sbc.Tok.Spec
open Sbc Sbc.Tok

mutual
/-- Expression trees. -/
inductive Expr where
  /-- a constant, a variable or a system variable -/
  | atom (t : Tk)
  /-- unary minus, NOT, `!` -/
  | un (op : Nat) (e : Expr)
  /-- a binary operator -/
  | bin (op : Nat) (l r : Expr)
  /-- a parenthesised expression -/
  | paren (e : Expr)
  /-- a function call `f(a,b,...)` or an array element `x(a,b)`, or `x[a,b]` when `square` -/
  | call (head : Tk) (square : Bool) (args : Args)
  /-- a function call without arguments `f()` -/
  | call0 (head : Tk)
/-- Non-empty argument lists. -/
inductive Args where
  | one (e : Expr)
  | more (e : Expr) (rest : Args)
end

/-- Documented precedence of the binary operators: `AND OR XOR` bind weakest, then the comparisons, then
`+ -`, then `* / %`. -/
def prec (op : Nat) : Option Nat :=
  if op ∈ [opAnd, opOr, opXor] then some 2
  else if op ∈ [8, 9, 10, 11, 12, 13] then some 3
  else if op ∈ [opAdd, opSubtract] then some 4
  else if op ∈ [opMultiply, opDivide, opModulo] then some 5
  else none

/-- The unary operators. -/
def unary (op : Nat) : Bool := op ∈ [opNegate, opNot, opLogicalNot]

/-- How tightly the outermost construct of an expression binds: unary operators bind tighter (6) than every
binary one, everything else is a primary (7). -/
def level : Expr → Nat
  | .atom _ => 7
  | .un _ _ => 6
  | .bin op _ _ => (prec op).getD 0
  | .paren _ => 7
  | .call _ _ _ => 7
  | .call0 _ => 7

/-- An operator, bracket or comma as the lexer delivers it. -/
def opTk (op : Nat) : Tk := ⟨.operation, [], op, 0⟩

/-- Last token of an expression. -/
def lastTk : Expr → Tk
  | .atom t => t
  | .un _ e => lastTk e
  | .bin _ _ r => lastTk r
  | .paren _ => opTk opCloseParen
  | .call _ sq _ => opTk (if sq then opCloseBracket else opCloseParen)
  | .call0 _ => opTk opCloseParen

/-- The expression is written with a leading minus sign. -/
def leadMinus : Expr → Bool
  | .un op _ => op == opNegate
  | .bin _ l _ => leadMinus l
  | _ => false

/-- First expression of an argument list. -/
def Args.first : Args → Expr
  | .one e => e
  | .more e _ => e

/-- Number of arguments. -/
def Args.count : Args → Nat
  | .one _ => 1
  | .more _ a => a.count + 1

mutual
/-- The tree is the parse tree of its text: operands bind at least as tightly as the grammar demands (binary
operators associate to the left), and atoms and heads are tokens of the right kind. -/
def Expr.WF : Expr → Prop
  | .atom t => t.ty ∈ [TT.number, .baseNumber, .string, .name, .sysvar]
  | .un op e => unary op = true ∧ 6 ≤ level e ∧ e.WF
  | .bin op l r => ∃ k, prec op = some k ∧ k ≤ level l ∧ k < level r ∧ l.WF ∧ r.WF
  | .paren e => e.WF
  | .call h _ a => h.ty ∈ [TT.function, .name] ∧ a.WF
  | .call0 h => h.ty = .function
/-- All arguments are well-formed. -/
def Args.WF : Args → Prop
  | .one e => e.WF
  | .more e a => e.WF ∧ a.WF
end

mutual
/-- Exclusions: a minus sign directly after a hexadecimal/binary constant or a string constant, a square
bracket directly followed by a minus sign, and more than 127 arguments. -/
def Expr.Plain : Expr → Prop
  | .atom _ => True
  | .un _ e => e.Plain
  | .bin op l r => (op = opSubtract → (lastTk l).ty ≠ .baseNumber ∧ (lastTk l).ty ≠ .string) ∧ l.Plain ∧ r.Plain
  | .paren e => e.Plain
  | .call _ sq a => (sq = true → leadMinus a.first = false) ∧ a.count < 128 ∧ a.Plain
  | .call0 _ => True
/-- The exclusions for all arguments. -/
def Args.Plain : Args → Prop
  | .one e => e.Plain
  | .more e a => e.Plain ∧ a.Plain
end

mutual
/-- Depth of bracket nesting. -/
def Expr.depth : Expr → Nat
  | .atom _ => 0
  | .un _ e => e.depth
  | .bin _ l r => Nat.max l.depth r.depth
  | .paren e => e.depth + 1
  | .call _ _ a => a.depth + 1
  | .call0 _ => 1
/-- Depth of the arguments. -/
def Args.depth : Args → Nat
  | .one e => e.depth
  | .more e a => Nat.max e.depth a.depth
end

mutual
/-- The tokens of the text of an expression; unary minus is written with the same sign as subtraction. -/
def Expr.toks : Expr → List Tk
  | .atom t => [t]
  | .un op e => opTk (if op = opNegate then opSubtract else op) :: e.toks
  | .bin op l r => l.toks ++ opTk op :: r.toks
  | .paren e => opTk opOpenParen :: e.toks ++ [opTk opCloseParen]
  | .call h sq a =>
    h :: opTk (if sq then opOpenBracket else opOpenParen) :: a.toks ++
      [opTk (if sq then opCloseBracket else opCloseParen)]
  | .call0 h => [h, opTk opOpenParen, opTk opCloseParen]
/-- Arguments are separated by commas. -/
def Args.toks : Args → List Tk
  | .one e => e.toks
  | .more e a => e.toks ++ opTk opComma :: a.toks
end

/-- The instruction that tells a function or array how many arguments there are. -/
def argTk (n : Nat) : Tk := ⟨.argCount, [], n, 0⟩

/-- A variable name used with arguments denotes an array. -/
def headTk (h : Tk) : Tk := if h.ty = .name then { h with ty := .arrayName } else h

mutual
/-- Postfix form: operands before operators. -/
def Expr.post : Expr → List Tk
  | .atom t => [t]
  | .un op e => e.post ++ [opTk op]
  | .bin op l r => l.post ++ r.post ++ [opTk op]
  | .paren e => e.post
  | .call h _ a => a.post ++ [argTk a.count, headTk h]
  | .call0 h => [argTk 0, h]
/-- Arguments in order. -/
def Args.post : Args → List Tk
  | .one e => e.post
  | .more e a => e.post ++ a.post
end

/-- A token without its priority annotation (which is scratch data of the compiler). -/
def bare (t : Tk) : Tk := { t with prio := 0 }

end Sbc.Tok.Spec
