import Verif.Model.Strs
set_option autoImplicit false
/-!
# String functions (`source/interpreter/strfuncs.c`)

Numeric arguments are fixed-point values (`FP_TO_INT` is applied by the macros of `stack.h:13-33`).
The destination buffer always comes from the 8-bit pool (`system.c:38`) and has 256 cells; writing more
is undefined behaviour, as is reading beyond the source string.
-/
namespace Sbc.Strs
open Sbc

/-- `(s16)x`. -/
def toS16 (x : Int) : Int := (x + 32768) % 65536 - 32768

/-- `str_copy_buf(str_at(str, start), str_at(dest, 0), …, count)` into an empty 256-cell buffer, with the
parameters already converted to `u16` (`strs.c:389`, `467`). -/
def copyRange (s : Str) (start count : Nat) : Out (List Nat) :=
  if start + count ≤ strLen s ∧ count ≤ maxLen then
    .ok (copyBuf s.wide false ((s.data.drop start).take count))
  else .ub

/-- `func_len` (`strfuncs.c:10-17`). -/
def funcLen (s : Str) : Int := intToFp (strLen s)

/-- `func_mid` (`strfuncs.c:19-51`).  The length and start are narrowed to 16 bits when compared and when
passed to `str_copy_buf`/`str_at`, but the length of the result is stored unnarrowed: if both differ the
string claims more characters than were copied (reported here as `ub`). -/
def funcMid (s : Str) (startF lenF : Int) : Out Str :=
  let start := fpToInt startF
  let len := fpToInt lenF
  if start < 0 then .err .outOfRange
  else if len < 0 then .err .outOfRange
  else
    let maxL := toS16 (toS16 (strLen s) - toS16 start)
    if maxL ≤ 0 then .ok emptyStr
    else
      let len' := if maxL ≤ toS16 len then maxL else len
      if len' % 65536 ≠ len' then .ub
      else (copyRange s (start % 65536).toNat len'.toNat).bind fun d => .ok ⟨false, d⟩

/-- `_func_substring` (`strfuncs.c:201-230`). -/
def funcSubstring (s : Str) (countF : Int) (right : Bool) : Out Str :=
  let count := fpToInt countF
  if count < 0 then .err .outOfRange
  else
    let maxL : Int := strLen s
    if count = 0 then .ok emptyStr
    else
      let count := if count > maxL then maxL else count
      (copyRange s (if right then (maxL - count).toNat else 0) count.toNat).bind fun d => .ok ⟨false, d⟩

/-- `func_left` (`strfuncs.c:236-238`). -/
def funcLeft (s : Str) (countF : Int) : Out Str := funcSubstring s countF false
/-- `func_right` (`strfuncs.c:232-234`). -/
def funcRight (s : Str) (countF : Int) : Out Str := funcSubstring s countF true

/-- The search loop of `func_instr` (`strfuncs.c:117-134`).  The C loop variable is `i = pos + j`; the
mismatch branch `i -= j; j = 0;` followed by `++i` makes `pos` advance by one.  Result: final `(pos, j)`. -/
def instrLoop (str sub : Str) (pos j : Nat) : Nat × Nat :=
  if pos + j < strLen str then
    if (strLen sub : Int) - j > (strLen str : Int) - (pos + j : Nat) then (pos, j)
    else if j = strLen sub then (pos, j)
    else if strAtWide str (pos + j) = strAtWide sub j then instrLoop str sub pos (j + 1)
    else instrLoop str sub (pos + 1) 0
  else (pos, j)
termination_by (strLen str - pos, strLen str - (pos + j))

/-- `func_instr` (`strfuncs.c:96-141`); `start` is the integer start argument (0 when absent). Reading at
a negative index is undefined. -/
def funcInstr (str sub : Str) (startF : Int) : Out Int :=
  let start := fpToInt startF
  if strLen sub = 0 then .ok (intToFp 0)
  else if start < 0 then
    -- the loop body is executed at a negative index unless the length test stops it at once
    if (strLen sub : Int) > strLen str - start then .ok (-4096) else .ub
  else
    let r := instrLoop str sub start.toNat 0
    if r.2 = strLen sub then .ok (intToFp (r.1 : Int)) else .ok (-4096)

/-- `func_chr` (`strfuncs.c:143-154`): entry `c` of the table of one-character strings (`strs.c:12-27`). -/
def funcChr (cF : Int) : Out Str :=
  let c := fpToInt cF
  if c < 0 ∨ c > 255 then .err .outOfRange else .ok ⟨false, [c.toNat]⟩

/-- `func_asc` (`strfuncs.c:190-198`). -/
def funcAsc (s : Str) : Out Int :=
  if strLen s = 0 then .err .syntax else .ok (intToFp (strAtChar s 0))

/-- `func_subst` (`strfuncs.c:156-188`). -/
def funcSubst (s : Str) (startF countF : Int) (repl : Str) : Out Str :=
  let len : Int := strLen s
  let start := fpToInt startF
  if start < 0 ∨ start > len then .err .outOfRange
  else
    let count0 := fpToInt countF
    let count := if count0 < 0 ∨ count0 > len then len else count0
    let replLen : Int := strLen repl
    if start + replLen > maxLen then .err .stringTooLong
    else
      let remaining := len - start - count
      let total := start + replLen + (if remaining > 0 then remaining else 0)
      if total > maxLen then .ub
      else
        .ok ⟨false, copyBuf s.wide false (s.data.take start.toNat)
          ++ copyBuf repl.wide false repl.data
          ++ (if remaining > 0 then
                copyBuf s.wide false ((s.data.drop (start + count).toNat).take remaining.toNat) else [])⟩

/-- Format check of `cmd_dtread`/`cmd_tmread` (`strfuncs.c:285-291`, `317-323`): `78` is `'N'`; every other
format character must match.  `c` is truncated to `u8`. -/
def formatOk (s : Str) (fmt : List Nat) : Bool :=
  strLen s = fmt.length ∧ go s fmt 0
where
  /-- the loop from index `i` -/
  go (s : Str) : List Nat → Nat → Bool
    | [], _ => true
    | f :: fs, i =>
      let c := strAtChar s i % 256
      if f = 78 then if 48 ≤ c ∧ c ≤ 57 then go s fs (i + 1) else false
      else if c ≠ f then false else go s fs (i + 1)

/-- `"NNNN/NN/NN"` (`strfuncs.c:286`). -/
def dateFmt : List Nat := [78, 78, 78, 78, 47, 78, 78, 47, 78, 78]
/-- `"NN:NN:NN"` (`strfuncs.c:318`). -/
def timeFmt : List Nat := [78, 78, 58, 78, 78, 58, 78, 78]

/-- `cmd_dtread` (`strfuncs.c:277-306`): the three numbers stored (low byte of each character, as read
through a `u8*`). -/
def dtread (s : Str) : Out (Int × Int × Int) :=
  if formatOk s dateFmt then
    let d (i : Nat) : Int := (strAtChar s i % 256 : Nat) - 48
    .ok ((d 0 * 1000 + d 1 * 100 + d 2 * 10 + d 3) * 4096, (d 5 * 10 + d 6) * 4096, (d 8 * 10 + d 9) * 4096)
  else .err .syntax

/-- `cmd_tmread` (`strfuncs.c:310-337`): here the digits are read with `str_at_char`, not truncated. -/
def tmread (s : Str) : Out (Int × Int × Int) :=
  if formatOk s timeFmt then
    let d (i : Nat) : Int := (strAtChar s i : Nat) - 48
    .ok ((10 * d 0 + d 1) * 4096, (10 * d 3 + d 4) * 4096, (10 * d 6 + d 7) * 4096)
  else .err .syntax

end Sbc.Strs
