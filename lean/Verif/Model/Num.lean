import Verif.Model.Strs
set_option autoImplicit false
/-!
# Number formatting and parsing (`strs.c:156-326`, `strfuncs.c:53-94`, `240-274`)
-/
namespace Sbc.Num
open Sbc Sbc.Strs

/-- `digit_value` (`strs.c:156-163`); `none` is -1. -/
def digitValue (c : Nat) : Option Nat :=
  if toWide 48 ≤ c ∧ c ≤ toWide 57 then some (c - toWide 48)
  else if toWide 65 ≤ c ∧ c ≤ toWide 70 then some (c - toWide 65 + 10)
  else none

/-- The digit of `c` when it is one in the given base (`strs.c:185`, `192`). -/
def digitIn (base c : Nat) : Option Nat :=
  match digitValue c with
  | some d => if d < base then some d else none
  | none => none

/-- Fraction loop of `str_to_number` (`strs.c:190-201`): `(fraction, maximum)`, unsigned 32-bit. -/
def fracLoop (base : Nat) : List Nat → Nat → Nat → Nat × Nat
  | [], f, m => (f, m)
  | c :: cs, f, m =>
    match digitIn base c with
    | some d => fracLoop base cs ((f * base % 4294967296 + d) % 4294967296) (m * base % 4294967296)
    | none => (f, m)

/-- Accumulators of `str_to_number`. -/
structure Acc where
  neg : Bool
  number : Nat
  fraction : Nat
  maximum : Nat
  deriving DecidableEq, Repr

/-- Main loop of `str_to_number` (`strs.c:182-212`) over the remaining (wide) characters; `first` is `i = 0`. -/
def intLoop (base : Nat) (dec : Bool) : List Nat → Bool → Bool → Nat → Acc
  | [], _, neg, n => ⟨neg, n, 0, 1⟩
  | c :: cs, first, neg, n =>
    match digitIn base c with
    | some d =>
      let n' := (n * base % 4294967296 + d) % 4294967296
      if n' ≥ 524288 then ⟨neg, n', 0, 1⟩ else intLoop base dec cs false neg n'
    | none =>
      if c = toWide 46 ∧ dec then
        let (f, m) := fracLoop base cs 0 1
        ⟨neg, n, f, m⟩
      else if first ∧ c = toWide 45 then
        if n ≥ 524288 then ⟨true, n, 0, 1⟩ else intLoop base dec cs false true n
      else ⟨neg, n, 0, 1⟩

/-- `str_to_number` (`strs.c:173-224`) on the wide characters of the string; division by zero is
undefined. -/
def strToNumber (cs : List Nat) (base : Nat) (dec : Bool) : Out Int :=
  let a := intLoop base dec cs true false 0
  if a.maximum = 0 then .ub
  else
    let frac : Int := (4096 * a.fraction % 4294967296 / a.maximum : Nat)
    if a.neg then .ok (intToFp (((4294967296 - a.number) % 4294967296 : Nat) : Int) - frac)
    else .ok ((a.number : Int) * 4096 + frac)

/-- `func_val` (`strfuncs.c:53-81`): the string is copied as 8-bit characters into the uninitialised local
`num_str`, `&H`/`&B` select the base, and the 64-bit result is narrowed to `fixp`.  `j0`, `j1` are the
indeterminate contents of `num_str[0]`, `num_str[1]` before the copy.  With fewer than two characters the
length `len-2` passed on is negative, i.e. huge once converted to unsigned: undefined. -/
def funcVal (j0 j1 : Nat) (s : Str) : Out Int :=
  let cs := copyBuf s.wide false s.data
  if cs.getD 0 j0 = 38 then
    let second := cs.getD 1 j1
    if second = 72 ∨ second = 66 then
      if cs.length < 2 then .ub
      else
        (strToNumber ((cs.drop 2).map toWide) (if second = 72 then 16 else 2) false).bind fun v => .ok (wrap32 v)
    else .err .syntax
  else (strToNumber (cs.map toWide) 10 true).bind fun v => .ok (wrap32 v)

/-- Inner digit loop (`strs.c:290-293`, `316-319`): subtract the divisor, incrementing the character. -/
def subLoop (x d ch : Nat) : Nat × Nat :=
  if 0 < d ∧ d ≤ x then subLoop (x - d) d (ch + 1) else (x, ch)
termination_by x
decreasing_by omega

/-- Integer digit loop (`strs.c:280-297`); the list holds the successive values of `divisor`. -/
def intDigits : List Nat → Nat → Bool → List Nat
  | [], _, _ => []
  | d :: ds, n, trailing =>
    if d > n then (if trailing then 48 :: intDigits ds n trailing else intDigits ds n trailing)
    else
      let (n', ch) := subLoop n d 48
      ch :: intDigits ds n' true

/-- Decimal loop (`strs.c:307-322`); the list holds the successive values of `divisor`.  The C loop would not
end if `divisor` reached 0 with digits left; this never happens. -/
def decDigits : List Nat → Nat → List Nat
  | [], _ => []
  | d :: ds, n =>
    if n = 0 then []
    else if d > n then 48 :: decDigits ds n
    else
      let (n', ch) := subLoop n d 48
      ch :: decDigits ds n'

/-- `fixp_to_char` (`strs.c:266-326`); `-n` is undefined for `INT_MIN`. -/
def fixpToChar (n : Int) : Out (List Nat) :=
  if n = -2147483648 then .ub
  else
    let num := n.natAbs
    let integer := num / 4096
    let decimal := (num % 4096 + 2) * 1000 / 4096
    .ok ((if n < 0 then [45] else []) ++
      (if integer ≠ 0 then intDigits [100000, 10000, 1000, 100, 10, 1] integer false else [48]) ++
      (if decimal ≠ 0 then 46 :: decDigits [100, 10, 1] decimal else []))

/-- `func_str` (`strfuncs.c:83-94`). -/
def funcStr (n : Int) : Out Str := (fixpToChar n).bind fun l => .ok ⟨false, l⟩

/-- One upper-case hexadecimal digit. -/
def hexChar (d : Nat) : Nat := if d < 10 then 48 + d else 55 + d

/-- `sprintf("%X")`: minimal upper-case hexadecimal numeral (`strfuncs.c:267`). -/
def hexMin (n : Nat) : List Nat :=
  if n < 16 then [hexChar n] else hexMin (n / 16) ++ [hexChar (n % 16)]
termination_by n
decreasing_by omega

/-- `sprintf("%0*X", width, n)`. -/
def hexPad (width n : Nat) : List Nat :=
  List.replicate (width - (hexMin n).length) 48 ++ hexMin n

/-- `func_hex` (`strfuncs.c:240-274`); `digitsF` is the optional second argument. -/
def funcHex (numF : Int) (digitsF : Option Int) : Out Str :=
  let num := fpToInt numF
  match digitsF with
  | none => .ok ⟨false, hexPad 0 (num % 1048576).toNat⟩
  | some dF =>
    let d := fpToInt dF
    if d < 1 ∨ d > 5 then .err .outOfRange
    else if num ≥ 2 ^ (4 * d.toNat) ∨ num < -(2 ^ (4 * d.toNat - 1)) then .err .illegalFunctionCall
    else .ok ⟨false, hexPad d.toNat ((num % 1048576).toNat % 2 ^ (4 * d.toNat))⟩

end Sbc.Num
