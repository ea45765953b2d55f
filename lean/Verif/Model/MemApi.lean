import Verif.Model.Common
set_option autoImplicit false
/-!
# PEEK, POKE, MEMCOPY, MEMFILL, PTR$ (`source/extension/sbc_memory.c`)

Memory is addressed by the numbers the program uses; the block of interpreter memory is `lo … hi c`.  Any access outside
the block is `.ub` (on PC it is outside the block allocated by `init_memory`, `sbc_blockalloc.c:12-19`; on the NDS outside
main memory).  `PC` and `ARM9` are the two build configurations (l.9-27).
-/
namespace Sbc.MemApi
open Sbc

/-- Build configuration. -/
inductive Cfg where
  | pc | arm
  deriving DecidableEq, Repr

/-- `ADDR_MIN` (`sbc_memory.c:11`, `22`). -/
def lo : Int := 0x02000000

/-- `ADDR_MAX` (`sbc_memory.c:12`, `23`; `MAX_MEMORY`, `sbc_blockalloc.h:7`). -/
def hi : Cfg → Int
  | .pc => lo + 8 * 1024 * 1024 - 1
  | .arm => 0x02400000 - 1

/-- Bytes by address number. -/
abbrev Mem := Int → Nat

/-- `FIXP_TO_PTR` (`sbc_memory.c:17`, `25`): `none` is `NULL`.  On PC the subtraction `num - 0x02000000` overflows `int`
for the lowest numbers. -/
def toPtr (c : Cfg) (num : Int) : Out (Option Int) :=
  if num = 0 then .ok none
  else if c = .pc ∧ num - lo < -2147483648 then .ub
  else .ok (some num)

/-- Reading a byte. -/
def load (c : Cfg) (m : Mem) (a : Int) : Out Nat := if lo ≤ a ∧ a ≤ hi c then .ok (m a) else .ub

/-- Writing a byte. -/
def store (c : Cfg) (m : Mem) (a : Int) (v : Nat) : Out Mem :=
  if lo ≤ a ∧ a ≤ hi c then .ok (fun x => if x = a then v else m x) else .ub

/-- Little-endian load of `w` bytes. -/
def loadLE (c : Cfg) (m : Mem) (a : Int) : Nat → Out Nat
  | 0 => .ok 0
  | w + 1 => (load c m a).bind fun b => (loadLE c m (a + 1) w).bind fun r => .ok (b + 256 * r)

/-- Little-endian store of `w` bytes. -/
def storeLE (c : Cfg) (m : Mem) (a : Int) (v : Nat) : Nat → Out Mem
  | 0 => .ok m
  | w + 1 => (store c m a (v % 256)).bind fun m' => storeLE c m' (a + 1) (v / 256) w

/-- The three access sizes: POKE/PEEK, POKEH/PEEKH, POKEB/PEEKB. -/
inductive Size where
  | word | half | byte
  deriving DecidableEq, Repr

/-- `sizeof(type)` (`sbc_memory.c:47-57`). -/
def Size.bytes : Size → Nat
  | .word => 4 | .half => 2 | .byte => 1

/-- `opt_shift` as a divisor. -/
def Size.one : Size → Int
  | .word => 1 | .half => 4096 | .byte => 4096

/-- The checks shared by `SBC_POKE` and `SBC_PEEK` (`sbc_memory.c:30-42`, `123-136`); `safe` is `MEMSAFE`. -/
def check (c : Cfg) (safe : Bool) (s : Size) (num : Int) : Out Int :=
  (toPtr c num).bind fun p =>
    match p with
    | none => .err .nullAddress
    | some a =>
      if safe && (decide (num < lo) || decide (num > hi c)) then .err .illegalAddress
      else if safe && (decide (c = .arm) && decide (num % s.bytes ≠ 0)) then .err .misaligned
      else .ok a

/-- `SBC_POKE` (`sbc_memory.c:29-57`): `type val = STACK_NUM(1) >> opt_shift; *(type*)addr = val;`. -/
def poke (c : Cfg) (safe : Bool) (s : Size) (m : Mem) (num val : Int) : Out Mem :=
  (check c safe s num).bind fun a => storeLE c m a ((val / s.one) % (256 ^ s.bytes : Nat)).toNat s.bytes

/-- `SBC_PEEK` (`sbc_memory.c:123-153`): the word is signed, the half and the byte are not. -/
def peek (c : Cfg) (safe : Bool) (s : Size) (m : Mem) (num : Int) : Out Int :=
  (check c safe s num).bind fun a => (loadLE c m a s.bytes).bind fun v => .ok (wrap32 (v * s.one))

/-- `memcpy` of `n` bytes. -/
def copy (c : Cfg) (m : Mem) (dst src : Int) : Nat → Out Mem
  | 0 => .ok m
  | n + 1 => (load c m src).bind fun b => (store c m dst b).bind fun m' => copy c m' (dst + 1) (src + 1) n

/-- `memset` of `n` bytes. -/
def fill (c : Cfg) (m : Mem) (dst : Int) (v : Nat) : Nat → Out Mem
  | 0 => .ok m
  | n + 1 => (store c m dst v).bind fun m' => fill c m' (dst + 1) v n

/-- `cmd_memcopy` (`sbc_memory.c:59-93`); the last argument is the number given as size. -/
def memcopy (c : Cfg) (safe : Bool) (m : Mem) (destNum srcNum sizeNum : Int) : Out Mem :=
  (toPtr c destNum).bind fun dest => (toPtr c srcNum).bind fun src =>
    match dest, src with
    | some dest, some src =>
      let size := fpToInt sizeNum
      if size < 0 then .err .outOfRange
      else if safe && (decide (destNum < lo) || decide (destNum > hi c)) then .err .illegalAddress
      else if safe && (decide (srcNum < lo) || decide (srcNum > hi c)) then .err .illegalAddress
      else if safe && decide (srcNum + size ≥ hi c) then .err .illegalFunctionCall
      else if safe && decide (destNum + size ≥ hi c) then .err .illegalFunctionCall
      else if src ≤ dest ∧ dest ≤ src + size then .err .illegalFunctionCall
      else if dest ≤ src ∧ src ≤ dest + size then .err .illegalFunctionCall
      else copy c m dest src size.toNat
    | _, _ => .err .nullAddress

/-- `cmd_memfill` (`sbc_memory.c:95-121`). -/
def memfill (c : Cfg) (safe : Bool) (m : Mem) (destNum valNum sizeNum : Int) : Out Mem :=
  (toPtr c destNum).bind fun dest =>
    match dest with
    | some dest =>
      let size := fpToInt sizeNum
      if size < 0 then .err .outOfRange
      else if safe && (decide (destNum < lo) || decide (destNum > hi c)) then .err .illegalAddress
      else if safe && decide (destNum + size ≥ hi c) then .err .illegalFunctionCall
      else fill c m dest (fpToInt valNum % 256).toNat size.toNat
    | none => .err .nullAddress

/-- `hex_digits` (`strs.c:33`). -/
def hexDigits : List Nat := [48, 49, 50, 51, 52, 53, 54, 55, 56, 57, 65, 66, 67, 68, 69, 70]

/-- The loop of `func_ptr` (`sbc_memory.c:308-312`): `k` more digits in front of `acc`. -/
def ptrLoop : Nat → Int → List Nat → List Nat
  | 0, _, acc => acc
  | k + 1, ptr, acc => ptrLoop k (ptr / 16) (hexDigits.getD (ptr % 16).toNat 0 :: acc)

/-- `func_ptr` (`sbc_memory.c:301-318`). -/
def ptrStr (num : Int) : List Nat := 48 :: 120 :: ptrLoop 8 num []

end Sbc.MemApi
