import Verif.Model.Common
set_option autoImplicit false
/-!
# Strings: character codes, representations, comparison, copying (`source/interpreter/strs.c`)

A string value is its representation (8-bit or wide) and its characters.  Memory placement and
use counts are the subject of `Model/StrPool.lean`.
-/
namespace Sbc.Strs
open Sbc

/-- Table `katakana` of `to_wide` (`strs.c:344-347`), byte for byte. -/
def kataWide : List Nat := [2, 12, 13, 1, 251, 242, 161, 163, 165, 167, 169, 227, 229, 231, 195, 63, 162,
  164, 166, 168, 170, 171, 173, 175, 177, 179, 181, 183, 185, 187, 189, 191, 193, 196, 198, 200, 202,
  203, 204, 205, 206, 207, 210, 213, 216, 219, 222, 223, 224, 225, 226, 228, 230, 232, 233, 234, 235,
  236, 237, 239, 243, 155, 156]

/-- Table `katakana` of `to_char` (`strs.c:355-358`), byte for byte. -/
def kataChar : List Nat := [63, 3, 0, 63, 63, 63, 63, 63, 63, 63, 63, 63, 1, 2, 63, 63, 63, 63, 63, 63, 63, 63,
  63, 63, 63, 63, 63, 63, 63, 63, 63, 63, 63, 63, 63, 63, 63, 63, 63, 63, 63, 63, 63, 63, 63, 63, 63, 63, 63,
  63, 63, 63, 63, 63, 63, 63, 63, 63, 63, 63, 63, 63, 63, 15, 63, 63, 63, 63, 63, 63, 63, 63, 63, 63, 63, 63,
  63, 63, 63, 63, 63, 63, 63, 63, 63, 63, 63, 63, 63, 63, 63, 63, 63, 63, 63, 63, 63, 63, 63, 63, 63, 63, 63,
  63, 63, 63, 63, 63, 63, 63, 63, 63, 63, 63, 63, 63, 63, 63, 63, 63, 63, 63, 63, 63, 63, 63, 63, 63, 63, 63,
  63, 63, 63, 63, 63, 63, 63, 63, 63, 63, 63, 63, 63, 63, 63, 63, 63, 63, 63, 63, 63, 63, 63, 63, 63, 61, 62,
  63, 63, 63, 63, 6, 16, 7, 17, 8, 18, 9, 19, 10, 20, 21, 63, 22, 63, 23, 63, 24, 63, 25, 63, 26, 63, 27, 63,
  28, 63, 29, 63, 30, 63, 31, 63, 32, 63, 14, 33, 63, 34, 63, 35, 63, 36, 37, 38, 39, 40, 41, 63, 63, 42, 63,
  63, 43, 63, 63, 44, 63, 63, 45, 63, 63, 46, 47, 48, 49, 50, 11, 51, 12, 52, 13, 53, 54, 55, 56, 57, 58, 63,
  59, 63, 63, 5, 60, 63, 63, 63, 63, 63, 63, 63, 4, 63, 63, 63, 63]

/-- `to_wide` (`strs.c:329-352`). -/
def toWide (c : Nat) : Nat :=
  if c < 0x21 then c
  else if c < 0x80 then
    if c = 0x22 then 0x201d
    else if c = 0x27 then 0x2019
    else if c = 0x5c then 0xffe5
    else (c - 0x20) ||| 0xff00
  else if c < 0xa1 then c
  else if c < 0xe0 then
    if c = 0xb0 then 0xff70
    else kataWide.getD (c - 0xa1) 0 ||| 0x3000
  else c

/-- `to_char` (`strs.c:361-379`). -/
def toChar (w : Nat) : Int :=
  let wh := w / 256 % 256
  let wl := w % 256
  if wh = 0 then wl
  else if wh = 0x20 then
    if wl = 0x1d then 0x22 else if wl = 0x19 then 0x27 else -1
  else if wh = 0xff then
    if wl = 0x70 then 0xb0 else if wl = 0xe5 then 0x5c else wl + 0x20
  else if wh = 0x30 then kataChar.getD wl 0 + 0xa1
  else -1

/-- Conversion of an `int` to `u8` (assignment to a `u8` cell, `strs.c:399`). -/
def toU8 (x : Int) : Nat := (x % 256).toNat

/-- `MAX_STRLEN` (`strs.h:19`). -/
def maxLen : Nat := 256

/-- A string: `wide` distinguishes `STR_TYPE_16` from `STR_TYPE_8` (`strs.c:232-250`), `data` are its
characters (`str_at`, `str_len`; `strs.c:467-559`). -/
structure Str where
  wide : Bool
  data : List Nat
  deriving DecidableEq, Repr

/-- The string occupies cells of its type and at most `MAX_STRLEN` of them. -/
def Str.WF (s : Str) : Prop :=
  s.data.length ≤ maxLen ∧ ∀ c ∈ s.data, c < if s.wide then 65536 else 256

/-- `empty_str` (`strs.c:28`). -/
def emptyStr : Str := ⟨false, []⟩

/-- `str_len` (`strs.c:539-559`). -/
def strLen (s : Str) : Nat := s.data.length

/-- `str_at_wide` (`strs.c:492-513`); out-of-range reads are excluded by the callers' loop bounds. -/
def strAtWide (s : Str) (i : Nat) : Nat :=
  if s.wide then s.data.getD i 0 else toWide (s.data.getD i 0)

/-- `str_at_char` (`strs.c:516-537`): wide characters are returned unconverted. -/
def strAtChar (s : Str) (i : Nat) : Nat := s.data.getD i 0

/-- `str_copy_buf` (`strs.c:389-408`) of a whole buffer from type `srcWide` to type `dstWide`. -/
def copyBuf (srcWide dstWide : Bool) (l : List Nat) : List Nat :=
  match srcWide, dstWide with
  | false, false => l
  | true, false => l.map (fun w => toU8 (toChar w))
  | false, true => l.map toWide
  | true, true => l

/-- `str_comp` (`strs.c:585-604`); `same` is the pointer comparison `str1 == str2`. -/
def strComp (same : Bool) (a b : Str) : Bool :=
  if same then true
  else if strLen a ≠ strLen b then false
  else go a b (strLen a) 0
where
  /-- the loop, `n` iterations left, at index `i` -/
  go (a b : Str) : Nat → Nat → Bool
    | 0, _ => true
    | n + 1, i => if strAtWide a i ≠ strAtWide b i then false else go a b n (i + 1)

/-- `str_lex` (`strs.c:606-627`). -/
def strLex (a b : Str) : Int :=
  let sizeA := strLen a
  let sizeB := strLen b
  let size := if sizeA < sizeB then sizeA else sizeB
  go a b size 0 (if sizeA < sizeB then -1 else if sizeB < sizeA then 1 else 0)
where
  /-- the loop, `n` iterations left, at index `i`; `fin` is the result after the loop -/
  go (a b : Str) : Nat → Nat → Int → Int
    | 0, _, fin => fin
    | n + 1, i, fin =>
      let ca := strAtWide a i
      let cb := strAtWide b i
      if ca < cb then -1 else if cb < ca then 1 else go a b n (i + 1) fin

/-- `op_equal`, string branch (`operators.c:200-203`). -/
def opEqual (same : Bool) (a b : Str) : Int := intToFp (if strComp same a b then 1 else 0)
/-- `op_inequal`, string branch (`operators.c:220-226`). -/
def opInequal (same : Bool) (a b : Str) : Int := intToFp (if strComp same a b then 0 else 1)
/-- `op_less`, string branch (`operators.c:238`). -/
def opLess (a b : Str) : Int := intToFp (if strLex a b < 0 then 1 else 0)
/-- `op_greater`, string branch (`operators.c:250`). -/
def opGreater (a b : Str) : Int := intToFp (if strLex a b > 0 then 1 else 0)
/-- `op_less_equal`, string branch (`operators.c:263`). -/
def opLessEqual (a b : Str) : Int := intToFp (if strLex a b ≤ 0 then 1 else 0)
/-- `op_greater_equal`, string branch (`operators.c:275`). -/
def opGreaterEqual (a b : Str) : Int := intToFp (if strLex a b ≥ 0 then 1 else 0)

/-- `str_concat` (`strs.c:659-684`) into a buffer of type `dstWide`: `none` when the copy fails. -/
def strConcat (dstWide : Bool) (a b : Str) : Option Str :=
  if strLen a + strLen b > maxLen then none
  else some ⟨dstWide, copyBuf a.wide dstWide a.data ++ copyBuf b.wide dstWide b.data⟩

/-- `op_add`, string branch (`operators.c:31-45`).  Strings of the pool are 8-bit (`system.c:38`). -/
def opAdd (a b : Str) : Out Str :=
  if strLen a + strLen b > maxLen then .err .stringTooLong
  else match strConcat false a b with
    | some z => .ok z
    | none => .ub

/-- Loop of `op_mult` (`operators.c:89-91`): `str_concat(y, x, y)`, `n` times.  A failing `str_concat`
would leave `y` unchanged. -/
def repeatLoop (x : Str) : Nat → Str → Str
  | 0, y => y
  | n + 1, y => repeatLoop x n ((strConcat false y x).getD y)

/-- `op_mult`, string branch (`operators.c:74-93`); `num` is the fixed-point count; the product
`count * str_len(x)` is unsigned 32-bit. -/
def opMult (x : Str) (num : Int) : Out Str :=
  let count : Nat := (fpToInt num).toNat
  if count * strLen x % 4294967296 > maxLen then .err .stringTooLong
  else .ok (repeatLoop x count ⟨false, []⟩)

end Sbc.Strs
