import Verif.Model.Strs
set_option autoImplicit false
/-!
# Specification of strings: the sequence of characters a user sees
-/
namespace Sbc.Strs.Spec
open Sbc Sbc.Strs

/-- The (wide) characters of a string, whatever its representation. -/
def text (s : Str) : List Nat := if s.wide then s.data else s.data.map toWide

/-- The 8-bit character codes of a string: its characters, converted when the string is wide. -/
def chars (s : Str) : List Nat := if s.wide then s.data.map (fun w => toU8 (toChar w)) else s.data

/-- `t` occurs in `s` at position `i`. -/
def OccursAt (s t : List Nat) (i : Nat) : Prop := i + t.length ≤ s.length ∧ (s.drop i).take t.length = t

/-- `l` repeated `n` times. -/
def repeated (l : List Nat) : Nat → List Nat
  | 0 => []
  | n + 1 => l ++ repeated l n

/-- A BASIC truth value: 1 or 0 as a fixed-point number. -/
def truth (p : Prop) [Decidable p] : Int := if p then 4096 else 0

end Sbc.Strs.Spec
