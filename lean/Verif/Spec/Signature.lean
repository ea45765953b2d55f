import Verif.Model.Test
set_option autoImplicit false
/-!
# Specification of command signatures

A signature is a list of alternatives separated by commas (`tokens.c:75-91`): `N` number, `n` number variable, `S`
string, `s` string variable, `L` label or string, `A` array, `;` semicolon, `l`/`v`/`a` one or more
labels/variables/arrays, `0` no argument, `*` anything.
-/
namespace Sbc.Tok.Sig
open Sbc Sbc.Tok

/-- The alternatives. -/
def alternatives : List Nat → List (List Nat)
  | [] => [[]]
  | c :: r => if c = 44 then [] :: alternatives r else match alternatives r with
    | a :: as => (c :: a) :: as
    | [] => [[c]]

/-- The argument types a signature character stands for. -/
def accepts (p s : Nat) : Bool :=
  match p with
  | 78 => s ∈ [78, 110]          -- N: n or N
  | 110 => s ∈ [110]             -- n
  | 83 => s ∈ [83, 115]          -- S: s or S
  | 115 => s ∈ [115]             -- s
  | 76 => s ∈ [76, 83, 115]      -- L: label or string
  | 65 => s ∈ [65]               -- A
  | 59 => s ∈ [59]               -- ;
  | _ => false

/-- The elements of a list: labels may have empty places between commas. -/
def elem (p s : Nat) : Bool :=
  match p with
  | 108 => s ∈ [76, 83, 115, 60]
  | 118 => s ∈ [110, 115]
  | 97 => s ∈ [65]
  | _ => false

/-- An argument list has the shape of an alternative. -/
def fits : List Nat → List Nat → Bool
  | [], st => st.isEmpty
  | p :: ps, st =>
    if p = 42 ∧ ps = [] then true
    else if p = 48 ∧ ps = [] then st.isEmpty
    else if isList p then ps.isEmpty && !st.isEmpty && st.all (elem p)
    else match st with
      | s :: st' => accepts p s && fits ps st'
      | [] => false

/-- The argument list has the shape of one of the alternatives of the signature. -/
def matchesSig (valid st : List Nat) : Bool := (alternatives valid).any fun a => fits a st

/-- A fixed sequence followed by a list whose elements are all missing. -/
def bareList (a st : List Nat) : Bool :=
  match a.getLast? with
  | some p => isList p && decide (2 ≤ a.length) && fits a.dropLast st
  | none => false

/-- Number of arguments before the list of an alternative. -/
def fixedLen (a : List Nat) : Nat :=
  match a.getLast? with
  | some p => if isList p || p == 48 then a.length - 1 else a.length
  | none => 0

/-- The characters that stand for exactly one argument. -/
def fixedChar (c : Nat) : Bool := c ∈ [78, 110, 83, 115, 76, 65, 59]

/-- An alternative is some fixed arguments, possibly followed by a list. -/
def goodAlt (a : List Nat) : Bool :=
  !a.isEmpty && a.dropLast.all fixedChar && (match a.getLast? with | some p => fixedChar p || isList p | none => false)

/-- Alternatives are ordered from short to long, and only the last may be a fixed part followed by a list. -/
def goodAlts : List (List Nat) → Bool
  | [] => true
  | a :: r => goodAlt a && r.all (fun b => decide (fixedLen a ≤ max 1 (fixedLen b))) &&
      (r.isEmpty || decide (fixedLen a = a.length) || decide (fixedLen a = 0)) && goodAlts r

/-- A good signature: `*`, or optionally `0` and then good alternatives. -/
def good (valid : List Nat) : Bool :=
  valid == [42] || match alternatives valid with
    | [48] :: r => goodAlts r
    | as => goodAlts as

end Sbc.Tok.Sig
