import Verif.Spec.Resources
import Verif.Model.Files
set_option autoImplicit false
/-!
# Specification of the initial characters and colours: what the files that come with the interpreter contain
-/
namespace Sbc.Initial
open Sbc Sbc.Res Sbc.Files

/-- The file `resources/NAME.PTC`. -/
def path (name : List Nat) : List Nat := [114, 101, 115, 111, 117, 114, 99, 101, 115, 47] ++ name ++ [46, 80, 84, 67]

/-- The file of this name comes with `data` (of this size), after a header of one of the two formats: 48 bytes that begin with `PX01`, 12
bytes that begin with `PETC`. -/
def Shipped (fs : FS) (name : List Nat) (size : Nat) (data : List Nat) : Prop :=
  data.length = size ∧ ∃ head rest, fs (path name) = some (head ++ data ++ rest) ∧
    ((head.length = 48 ∧ head.take 4 = [80, 88, 48, 49]) ∨ (head.length = 12 ∧ head.take 4 = [80, 69, 84, 67]))

/-- No file of `resources/` is compressed. -/
def Plain (fs : FS) : Prop := ∀ name file, fs (path name) = some file → file.take 4 ≠ [83, 66, 67, 67]

/-- The file with the initial contents of a resource: its letters and its bank, the same for both screens. -/
def fileOf (k : Kind) (b : Nat) : List Nat := k.letters ++ [48 + b]

/-- The resource holds these bytes. -/
def Holds (bank : Bank) (l : Loc) (data : List Nat) : Prop := ∀ i, i < data.length → bank.bytes l i = data.getD i 0

/-- All else is the same. -/
def Others (bank bank' : Bank) (l : Loc) (size : Nat) : Prop :=
  ∀ l' i, ¬ (l' = l ∧ i < size) → bank'.bytes l' i = bank.bytes l' i

end Sbc.Initial
