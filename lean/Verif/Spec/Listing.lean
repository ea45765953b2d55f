import Verif.Spec.Console
set_option autoImplicit false
/-!
# Specification of FILES
-/
namespace Sbc.Listing.Spec
open Sbc Sbc.Console.Spec

/-- The name of a file without what follows the first dot. -/
def stem (name : List Nat) : List Nat := name.takeWhile (· ≠ 46)

/-- The names that are listed: those of 1 to 8 characters. -/
def listed (dir : List (List Nat)) : List (List Nat) := (dir.map stem).filter fun n => 1 ≤ n.length ∧ n.length ≤ 8

/-- The screen after PRINTing each of the names. -/
def lines (col tab : Nat) (names : List (List Nat)) (s : Screen) : Screen :=
  names.foldl (fun s n => s.print col tab (Strs.toWide 32) [.text (n.map Strs.toWide)] false) s

/-- A file that BASIC can use: up to 8 letters, digits and underscores, then `.PTC`. -/
def Usable (name : List Nat) : Prop :=
  ∃ base, name = base ++ [46, 80, 84, 67] ∧ 1 ≤ base.length ∧ base.length ≤ 8 ∧
    ∀ ch ∈ base, (48 ≤ ch ∧ ch ≤ 57) ∨ (65 ≤ ch ∧ ch ≤ 90) ∨ ch = 95

end Sbc.Listing.Spec
