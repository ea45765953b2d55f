import Verif.Model.Common
import Verif.Model.Strs
import Verif.Model.Num
set_option autoImplicit false
/-!
# Resource names, characters and colours (`source/subsystem/resources.c`, `resources.h`)

A C string is the list of its characters before the terminating NUL; `ch n i` reads character `i` (0 at the end).  The
resources are byte arrays named by `Loc`; a pointer outside the arrays of pointers in `struct resources` is `.ub`.
-/
namespace Sbc.Res
open Sbc Sbc.Strs

/-- Character `i` of a C string (the terminator reads as 0). -/
def ch (n : List Nat) (i : Nat) : Nat := n.getD i 0

/-- `str_char_copy` (`strs.c:441-464`) into a zeroed `char[]` (or one terminated right after), read as a C string. -/
def cstr (s : Str) : List Nat := (copyBuf s.wide false s.data).takeWhile (· ≠ 0)

/-- `RESOURCE_SEPARATOR` (`resources.h:101`). -/
def sepChar : Nat := 58

/-- `enum resource_type` (`resources.h:121-129`); `TYPE_INVALID` is `none`. -/
inductive Ty where
  | prg | chr | scr | grp | mem | col
  deriving DecidableEq, Repr

/-- The pointer arrays of `struct resources` (`resources.h:140-150`) with an index, the program text and `MEM`. -/
inductive Loc where
  | chr (i : Nat) | scr (i : Nat) | col (i : Nat) | grp (i : Nat) | prg | mem
  deriving DecidableEq, Repr

/-- The screen pages of the background, the sprites and the graphics (each 0 or 1). -/
structure Pages where
  bg : Nat
  sp : Nat
  gr : Nat

/-- `valid_resource_types` (`resources.c:568-577`): name, largest bank (0 = no check), page rule (0 = no check). -/
def validTypes : List (List Nat × Nat × Nat) :=
  [([80, 82, 71], 0, 0), ([77, 69, 77], 0, 0),
   ([66, 71, 85], 51, 80), ([66, 71, 68], 49, 80), ([66, 71, 70], 48, 80),
   ([83, 80, 85], 55, 85), ([83, 80, 83], 49, 80), ([83, 80, 68], 51, 76),
   ([67, 79, 76], 50, 80), ([83, 67, 85], 49, 80), ([71, 82, 80], 51, 0)]

/-- One round of the loop of `verify_resource_type` (`resources.c:595-634`). -/
def entryOk (n : List Nat) (v : List Nat × Nat × Nat) : Bool :=
  if n.take 3 ≠ v.1 then false
  else if v.2.1 = 0 then true
  else
    let index := ch n 3
    if index = sepChar ∨ index = 0 then true
    else if 48 > index ∨ index > v.2.1 then false
    else
      let page := ch n 4
      if page = sepChar ∨ page = 0 then true
      else if v.2.2 = 0 then true
      else if v.2.2 = 80 then
        if page ≠ 76 ∧ page ≠ 85 then false else true
      else if v.2.2 ≠ page then false else true

/-- `verify_resource_type` (`resources.c:584-636`). -/
def verifyType (n : List Nat) : Bool :=
  match n.findIdx? (· == sepChar) with
  | some i => if i > 5 then false else validTypes.any (entryOk n)
  | none => if n.length > 5 then false else validTypes.any (entryOk n)

/-- `is_name` (`strs.c:47-61`). -/
def isName (c : Nat) : Bool :=
  (65 ≤ c ∧ c ≤ 90) ∨ (97 ≤ c ∧ c ≤ 122) ∨ (48 ≤ c ∧ c ≤ 57) ∨ c = 95

/-- The last part of `verify_resource_name` (`resources.c:666-675`). -/
def verifyFile (name : List Nat) : Bool :=
  if name.length = 0 ∨ name.length > 8 then false else name.all isName

/-- `verify_resource_name` (`resources.c:656-676`). -/
def verifyName (n : List Nat) : Bool :=
  match n.findIdx? (· == sepChar) with
  | some i => if verifyType n then verifyFile (n.drop (i + 1)) else false
  | none => verifyFile n

/-- `bank` in `get_resource_ptr` (`resources.c:688-694`). -/
def bankOf (n : List Nat) : Int :=
  if ch n 3 = 0 ∨ ch n 3 = sepChar then 0 else (ch n 3 : Int) - 48

/-- `screen` in `get_resource_ptr` (`resources.c:690-701`): -1 is "the current page". -/
def screenOf (n : List Nat) : Int :=
  if ch n 3 = 0 ∨ ch n 3 = sepChar then 0
  else if ch n 4 = 0 ∨ ch n 4 = sepChar then -1
  else if ch n 4 = 76 then 1 else 0

/-- `screen < 0 ? page : screen`. -/
def paged (screen : Int) (page : Nat) : Int := if screen < 0 then page else screen

/-- Reading a pointer array of `size` elements at `i`. -/
def cell (mk : Nat → Loc) (size : Nat) (i : Int) : Out Loc :=
  if 0 ≤ i ∧ i < size then .ok (mk i.toNat) else .ub

/-- `get_resource_ptr` (`resources.c:684-740`); `abort()` is `.ub`. -/
def resourcePtr (pg : Pages) (n : List Nat) : Out Loc :=
  let bank := bankOf n
  let screen := screenOf n
  let t := n.take 3
  if t = [66, 71, 85] then cell .chr 44 (8 + 22 * paged screen pg.bg + bank)
  else if t = [66, 71, 70] then cell .chr 44 (0 + 22 * paged screen pg.bg + bank)
  else if t = [66, 71, 68] then cell .chr 44 (4 + 22 * paged screen pg.bg + bank)
  else if t = [83, 80, 68] then cell .chr 44 (12 + 22 + bank)
  else if t = [83, 80, 75] then cell .chr 44 (16 + 22 + bank)
  else if t = [83, 80, 83] then cell .chr 44 (20 + 22 * paged screen pg.sp + bank)
  else if t = [83, 80, 85] then cell .chr 44 (12 + bank)
  else if t = [83, 67, 85] then cell .scr 8 (4 * paged screen pg.bg + 2 + bank)
  else if t = [67, 79, 76] then
    let screen := if bank = 0 then paged screen pg.bg else screen
    let screen := if bank = 1 then paged screen pg.sp else screen
    let screen := if bank = 2 then paged screen pg.gr else screen
    cell .col 6 (3 * screen + bank)
  else if t = [80, 82, 71] then .ok .prg
  else if t = [77, 69, 77] then .ok .mem
  else if t = [71, 82, 80] then cell .grp 4 bank
  else .ub

/-- `get_chr_index` (`resources.c:751-772`). -/
def chrIndex (pg : Pages) (n : List Nat) : Out Int :=
  if n.length < 3 ∨ 5 < n.length then .ub
  else
    let index : Int := if n.length ≤ 3 then 0 else (ch n 3 : Int) - 48
    if ch n 0 = 83 then
      let index := index + 12
      if ch n 2 = 68 then .ok (index + 22)
      else if ch n 2 = 75 then .ok (index + 22 + 4)
      else if ch n 2 = 85 then .ok index
      else .ok (index + 22 * (if n.length ≤ 4 then (pg.sp : Int) else if ch n 4 = 76 then 1 else 0) + 8)
    else
      .ok (index + 22 * (if n.length ≤ 4 then (pg.bg : Int) else if ch n 4 = 76 then 1 else 0)
        + (if ch n 2 = 68 then 4 else 0) + (if ch n 2 = 85 then 8 else 0))

/-- `get_resource_type` (`resources.h:242-264`). -/
def resourceType (s : Str) : Option Ty :=
  if strLen s < 3 then none
  else
    let c1 := toChar (strAtWide s 0)
    let c2 := toChar (strAtWide s 1)
    if c1 = 71 then some .grp
    else if c1 = 80 then some .prg
    else if c1 = 83 then if c2 = 67 then some .scr else if c2 = 80 then some .chr else none
    else if c1 = 66 then some .chr
    else if c1 = 67 then some .col
    else if c1 = 77 then some .mem
    else none

/-- `struct res_info` (`resources.h:203-210`). -/
structure Info where
  type : List Nat
  name : List Nat
  ty : Ty
  data : Loc
  deriving DecidableEq, Repr

/-- `get_verified_resource_type` (`resources.c:774-788`). -/
def verifiedType (pg : Pages) (s : Str) : Out Info :=
  if strLen s > 5 then .err .invalidResource
  else match resourceType s with
    | none => .err .invalidResource
    | some ty => (resourcePtr pg (cstr s)).bind fun l => .ok ⟨cstr s, [], ty, l⟩

/-- `get_verified_resource` (`resources.c:792-823`).  `get_resource_type` cannot fail here (`C41_verified`); a failure would
leave `TYPE_INVALID` in the result, shown as `.ub`. -/
def verified (pg : Pages) (s : Str) : Out Info :=
  if strLen s > 14 then .err .illegalFunctionCall
  else
    let r := cstr s
    if ¬ verifyName r then .err .illegalFunctionCall
    else match r.findIdx? (· == sepChar) with
      | some i =>
        match resourceType s with
        | none => .ub
        | some ty => (resourcePtr pg (r.take i)).bind fun l => .ok ⟨r.take i, r.drop (i + 1), ty, l⟩
      | none => (resourcePtr pg [80, 82, 71]).bind fun l => .ok ⟨[80, 82, 71], r, .prg, l⟩

/-! ## Contents -/

/-- The contents of the resources (bytes) and the flags asking for a redraw (`resources.h:142`, `151`). -/
structure Bank where
  bytes : Loc → Nat → Nat
  regenChr : Nat → Bool
  regenCol : Bool

/-- Storing a byte. -/
def Bank.put (b : Bank) (l : Loc) (i v : Nat) : Bank :=
  { b with bytes := fun l' i' => if l' = l ∧ i' = i then v else b.bytes l' i' }

/-- `p->res.regen_chr[i] = true`, an array of 44. -/
def Bank.redraw (b : Bank) (i : Int) : Out Bank :=
  if 0 ≤ i ∧ i < 44 then .ok { b with regenChr := fun j => if j = i.toNat then true else b.regenChr j } else .ub

/-- `STACK_INT_RANGE(i,0,255,dest)` (`stack.h:27`). -/
def byteArg (x : Int) : Out Nat :=
  if 0 ≤ fpToInt x ∧ fpToInt x ≤ 255 then .ok (fpToInt x).toNat else .err .outOfRange

/-- `u8 v = digit_value(...)`: -1 becomes 255 (`resources.c:954-955`). -/
def digitU8 (w : Nat) : Nat := (Num.digitValue w).getD 255

/-- The loop of `cmd_chrset` (`resources.c:953-961`): byte `i` and following, `k` rounds. -/
def chrLoop (s : Str) : Nat → Nat → Out (List Nat)
  | 0, _ => .ok []
  | k + 1, i =>
    let ul := digitU8 (strAtWide s (2 * i))
    let uh := digitU8 (strAtWide s (2 * i + 1))
    if ul > 16 ∨ uh > 16 then .err .illegalFunctionCall
    else (chrLoop s k (i + 1)).bind fun l => .ok (((uh * 16) % 256 ||| ul) :: l)

/-- `memcpy` of a list of bytes to position `at` of a resource. -/
def Bank.write (b : Bank) (l : Loc) (at_ : Nat) (data : List Nat) : Bank :=
  { b with bytes := fun l' i => if l' = l ∧ at_ ≤ i ∧ i < at_ + data.length then data.getD (i - at_) 0 else b.bytes l' i }

/-- `cmd_chrset` (`resources.c:929-970`). -/
def chrset (pg : Pages) (b : Bank) (res : Str) (id : Int) (data : Str) : Out Bank :=
  (byteArg id).bind fun id =>
    if strLen data ≠ 64 then .err .illegalFunctionCall
    else (verifiedType pg res).bind fun info =>
      if info.ty = .chr then
        (resourcePtr pg info.type).bind fun l =>
        (chrLoop data 32 0).bind fun bytes =>
        (chrIndex pg info.type).bind fun r => (b.write l (32 * id) bytes).redraw r
      else .err .invalidResource

/-- The loop of `cmd_chrread` (`resources.c:913-919`): bytes `i …`, `k` rounds. -/
def readLoop (bytes : Nat → Nat) : Nat → Nat → List Nat
  | 0, _ => []
  | k + 1, i => Num.hexChar (bytes i % 16) :: Num.hexChar (bytes i / 16) :: readLoop bytes k (i + 1)

/-- `cmd_chrread` (`resources.c:896-927`): the string stored in the variable. -/
def chrread (pg : Pages) (b : Bank) (res : Str) (id : Int) : Out Str :=
  (byteArg id).bind fun id =>
    (verifiedType pg res).bind fun info =>
      if info.ty = .chr then .ok ⟨false, readLoop (b.bytes info.data) 32 (32 * id)⟩
      else .err .invalidResource

/-- `get_col_resource` (`resources.c:972-980`). -/
def colResource (pg : Pages) (s : Str) : Out Loc :=
  if strComp false s ⟨false, [66, 71]⟩ then resourcePtr pg [67, 79, 76, 48]
  else if strComp false s ⟨false, [83, 80]⟩ then resourcePtr pg [67, 79, 76, 49]
  else if strComp false s ⟨false, [71, 82, 80]⟩ then resourcePtr pg [67, 79, 76, 50]
  else .err .invalidResource

/-- Reading a `u16` (little endian). -/
def Bank.word (b : Bank) (l : Loc) (i : Nat) : Nat := b.bytes l (2 * i) + 256 * b.bytes l (2 * i + 1)

/-- Storing a `u16` (little endian). -/
def Bank.putWord (b : Bank) (l : Loc) (i v : Nat) : Bank := (b.put l (2 * i) (v % 256)).put l (2 * i + 1) (v / 256 % 256)

/-- `r_comp += r_comp >> 5` with `r_comp = v << 3` (`resources.c:1036-1037`, `1040-1041`). -/
def scale5 (v : Nat) : Nat := v * 8 + v * 8 / 32

/-- `g_comp += g_comp >> 6` with `g_comp = v << 2` (`resources.c:1038-1039`). -/
def scale6 (v : Nat) : Nat := v * 4 + v * 4 / 64

/-- The components `cmd_colread` computes from a stored word (`resources.c:1036-1041`). -/
def comps (c : Nat) : Nat × Nat × Nat :=
  (scale5 (c &&& 0x1f), scale6 (((c >>> 4) &&& 0x3e) ||| (c >>> 15)), scale5 ((c >>> 10) &&& 0x1f))

/-- `cmd_colread` (`resources.c:1018-1045`): the three numbers stored. -/
def colread (pg : Pages) (b : Bank) (res : Str) (col : Int) : Out (Int × Int × Int) :=
  (byteArg col).bind fun col =>
    (colResource pg res).bind fun l =>
      let c := comps (b.word l col)
      .ok (intToFp c.1, intToFp c.2.1, intToFp c.2.2)

/-- The test of one character of the colour (`resources.c:1062-1063`; `is_number` takes a `char`, so a wide character is cut to 8 bits there). -/
def colDigit (c : Nat) : Bool := (48 ≤ c % 256 ∧ c % 256 ≤ 57) ∨ (65 ≤ c ∧ c ≤ 70)

/-- The word `cmd_colset` stores for the six digits (`resources.c:1068-1079`). -/
def colWord (d : Nat → Nat) : Nat :=
  let r := (d 0 <<< 1) ||| (d 1 >>> 3)
  let g := (d 2 <<< 2) ||| (d 3 >>> 2)
  let b := (d 4 <<< 1) ||| (d 5 >>> 3)
  ((r ||| (b <<< 10)) ||| ((g >>> 1) <<< 5) ||| ((g &&& 1) <<< 15)) % 65536

/-- `cmd_colset` (`resources.c:1047-1089`).  A negative `digit_value` is shifted to the left: undefined. -/
def colset (pg : Pages) (b : Bank) (res : Str) (col : Int) (s : Str) : Out Bank :=
  (byteArg col).bind fun col =>
    (colResource pg res).bind fun l =>
      if strLen s ≠ 6 then .err .illegalFunctionCall
      else if ¬ (List.range 6).all (fun i => colDigit (strAtChar s i)) then .err .illegalFunctionCall
      else if (List.range 6).any (fun i => (Num.digitValue (strAtWide s i)).isNone) then .ub
      else .ok { b.putWord l col (colWord fun i => (Num.digitValue (strAtWide s i)).getD 0) with regenCol := true }

end Sbc.Res
