import Verif.Spec.Stmt
import Verif.Spec.Signature
set_option autoImplicit false
/-!
# Specification of the types of expressions and of acceptable statements
-/
namespace Sbc.Tok.Spec
open Sbc Sbc.Tok Sbc.Tok.Sig

/-- A number (value or variable). -/
def isNum (c : Nat) : Bool := c ∈ [78, 110]
/-- A string (value or variable). -/
def isStr (c : Nat) : Bool := c ∈ [83, 115]

/-- Result type of a binary operator: numbers with numbers; strings may be added, compared with strings and
multiplied by a number. -/
def opType (op a b : Nat) : Option Nat :=
  if op ∈ [8, 9, 10, 11, 12, 13] then
    if (isNum a && isNum b) || (isStr a && isStr b) then some 78 else none
  else if op = opAdd then
    if isNum a && isNum b then some 78 else if isStr a && isStr b then some 83 else none
  else if op = opMultiply then
    if isNum a && isNum b then some 78 else if isStr a && isNum b then some 83 else none
  else if isNum a && isNum b then some 78 else none

/-- Names that end in a dollar sign are string variables. -/
def varType (text : List Nat) : Nat := if text.getLast? = some 36 then 115 else 110

/-- TIME$, DATE$, PRGNAME$, PACKAGE$ and MEM$ are strings. -/
def sysvarType (id : Nat) : Nat := if id ∈ [4, 5, 10, 11, 31] then 115 else 110

/-- The signature exists and the arguments have one of its shapes. -/
def accepted (sig args : List Nat) : Bool := !sig.isEmpty && matchesSig sig args

mutual
/-- Type of an expression: `N`, `S`, or `n`, `s` for a variable; `none` if it is not well-typed. -/
def Expr.type : Expr → Option Nat
  | .atom t =>
    match t.ty with
    | .string => some 83
    | .name => some (varType t.text)
    | .sysvar => some (sysvarType t.cmd)
    | _ => some 78
  | .un _ e => e.type.bind fun c => if isNum c then some 78 else none
  | .bin op l r => l.type.bind fun a => r.type.bind fun b => opType op a b
  | .paren e => e.type
  | .call h _ a => a.types.bind fun cs =>
      if h.ty = .function then
        if accepted (funcFormat[h.cmd]?.getD []) cs then funcReturn[h.cmd]? else none
      else if cs.all isNum && decide (cs.length ≤ 2) then some (varType h.text) else none
  | .call0 h => if accepted (funcFormat[h.cmd]?.getD []) [] then funcReturn[h.cmd]? else none
/-- Types of arguments. -/
def Args.types : Args → Option (List Nat)
  | .one e => e.type.map fun c => [c]
  | .more e a => e.type.bind fun c => a.types.map fun cs => c :: cs
end

mutual
/-- The function identifiers are those of the function table. -/
def Expr.known : Expr → Prop
  | .atom _ => True
  | .un _ e => e.known
  | .bin _ l r => l.known ∧ r.known
  | .paren e => e.known
  | .call h _ a => (h.ty = .function → h.cmd < 46) ∧ a.known
  | .call0 h => h.cmd < 46
/-- The same for arguments. -/
def Args.known : Args → Prop
  | .one e => e.known
  | .more e a => e.known ∧ a.known
end

/-- All identifiers of a statement are those of the tables; TO is not used as a statement. -/
def Stmt.known : Stmt → Prop
  | .empty => True
  | .assign l e => l.known ∧ e.known
  | .cmd0 c => c < 110 ∧ c ≠ cmdTo
  | .cmd c a => c < 110 ∧ c ≠ cmdTo ∧ a.known
  | .print items last => (∀ x ∈ items, ∀ e, x.1 = some e → e.known) ∧ ∀ e, last = some e → e.known

/-- The signature of a command (`*` where the compiler checks nothing). -/
def signature (c : Nat) : List Nat := cmdFormat[c]?.getD []

/-- A statement is acceptable: an assignment of a number to a number variable or of a string to a string
variable; arguments of one of the documented shapes; a PRINT of well-typed items. -/
def Stmt.acceptable : Stmt → Prop
  | .empty => True
  | .assign l e => ∃ a b, l.type = some a ∧ e.type = some b ∧ ((a = 110 ∧ isNum b) ∨ (a = 115 ∧ isStr b))
  | .cmd0 c => accepted (signature c) [] = true
  | .cmd c a => ∃ cs, a.types = some cs ∧ accepted (signature c) cs = true
  | .print items last => (∀ x ∈ items, ∀ e, x.1 = some e → e.type ≠ none) ∧ ∀ e, last = some e → e.type ≠ none

end Sbc.Tok.Spec
