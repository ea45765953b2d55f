import Verif.Model.Num
set_option autoImplicit false
/-!
# Specification of numerals
-/
namespace Sbc.Num.Spec

/-- `c` is one of the characters `0`..`9`. -/
def isDigit (c : Nat) : Bool := 48 ≤ c && c ≤ 57

/-- Value of a digit string in base ten. -/
def decVal (ds : List Nat) : Nat := ds.foldl (fun n c => n * 10 + (c - 48)) 0

/-- Value of one hexadecimal digit character `0`..`9`, `A`..`F`. -/
def hexDigitVal (c : Nat) : Nat := if c < 65 then c - 48 else c - 55

/-- `c` is one of the characters `0`..`9`, `A`..`F`. -/
def isHexDigit (c : Nat) : Bool := (48 ≤ c && c ≤ 57) || (65 ≤ c && c ≤ 70)

/-- Value of a digit string in base sixteen. -/
def hexVal (ds : List Nat) : Nat := ds.foldl (fun n c => n * 16 + hexDigitVal c) 0

/-- The parts of a decimal numeral at the beginning of a string: sign, integer digits, fraction digits. -/
def isNeg (cs : List Nat) : Bool := cs.head? == some 45
/-- The string without its sign. -/
def body (cs : List Nat) : List Nat := if isNeg cs then cs.tail else cs
/-- Integer digits. -/
def ints (cs : List Nat) : List Nat := (body cs).takeWhile isDigit
/-- Fraction digits. -/
def fracs (cs : List Nat) : List Nat :=
  match (body cs).dropWhile isDigit with
  | 46 :: r => r.takeWhile isDigit
  | _ => []

/-- Magnitude, in units of 1/4096 (truncated), of the decimal numeral at the beginning of a string. -/
def magnitude (cs : List Nat) : Nat := decVal (ints cs) * 4096 + decVal (fracs cs) * 4096 / 10 ^ (fracs cs).length

/-- Its value. -/
def value (cs : List Nat) : Int := if isNeg cs then -(magnitude cs : Int) else magnitude cs

/-- `ds` and `fs` are the digits of a canonical numeral: no superfluous leading zero, at most three
decimals, no trailing zero. -/
structure Canonical (ds fs : List Nat) : Prop where
  digits : ∀ c ∈ ds ++ fs, isDigit c = true
  nonempty : ds ≠ []
  lead : ds.head? = some 48 → ds = [48]
  short : fs.length ≤ 3
  trail : fs.getLast? ≠ some 48

/-- Value of up to three decimals in thousandths. -/
def thousandths (fs : List Nat) : Nat := decVal fs * 10 ^ (3 - fs.length)

end Sbc.Num.Spec
