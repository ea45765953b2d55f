import Verif.Model.Machine
import Verif.Model.StrFuncs
import Verif.Model.Arrays
set_option autoImplicit false
/-!
# System variables (`source/subsystem/sysvars.c`, `console.c:486-510`, `panel.c:457-499`, `runner.c:98-128, 262-296`),
VISIBLE, WAIT and VSYNC (`source/system.c:112-170`)

A read-only system variable pushes a value, a writable one a pointer to its storage.  Assignments to writable ones are
checked by `BC_SYSVAR_VALIDATE` instructions which the compiler puts at the end of the line (`tokens.c:925-947`).
-/
namespace Sbc.Sys
open Sbc Sbc.Strs

/-- Storage of the numeric system variables that can be assigned. -/
inductive Cell where
  | tabstep | iconpuse | iconpage | iconpmax | memsafe
  deriving DecidableEq, Repr

/-- What the handler of a system variable pushes. -/
inductive Pushed where
  /-- `VAR_NUMBER`: a value -/
  | num (n : Int)
  /-- `VAR_STRING`: a value -/
  | str (s : List Nat)
  /-- `VAR_NUMBER | VAR_VARIABLE`: a pointer -/
  | cell (c : Cell)
  /-- `VAR_STRING | VAR_VARIABLE`: the pointer to MEM$ -/
  | memCell
  /-- an error code instead -/
  | error (e : Nat)
  deriving DecidableEq, Repr

/-- Local time (`struct tm`, month counted from 1, full year). -/
structure Tm where
  year : Nat
  month : Nat
  day : Nat
  hour : Nat
  min : Nat
  sec : Nat

/-- What the handlers look at. -/
structure Sys where
  /-- `timers.time`, 64 bits -/
  time : Nat
  tm : Tm
  varsMax : Nat
  varCount : Nat
  arrSize : Nat
  arrNext : Nat
  /-- `sizeof(union value)`: 4 on the handheld, 8 on PCs -/
  wordBytes : Nat
  prgname : List Nat
  package : List Nat
  result : Int
  tchx : Int
  tchy : Int
  tchtime : Int
  csrx : Int
  csry : Int
  sphitno : Int
  /-- `get_pressed_key` (`panel.c:435-440`) -/
  key : Int
  /-- `exec_old.error` -/
  errOld : Nat
  /-- the assignable variables -/
  cells : Cell → Int
  /-- `console.tabstep`, the tab width in effect -/
  tabstep : Int
  /-- whether the two page buttons of the panel are active (`panel.c:473-474`) -/
  pageKeys : Bool

/-- A digit character. -/
def digit (n : Nat) : Nat := n + 48

/-- `sys_time` (`sysvars.c:66-92`).  (`char` arithmetic: for the values of a `struct tm` nothing is lost.) -/
def timeStr (t : Tm) : List Nat :=
  [digit (t.hour / 10), digit (t.hour % 10), 58, digit (t.min / 10), digit (t.min % 10), 58, digit (t.sec / 10), digit (t.sec % 10)]

/-- `sys_date` (`sysvars.c:40-64`). -/
def dateStr (t : Tm) : List Nat :=
  [digit (t.year / 1000), digit (t.year / 100 % 10), digit (t.year / 10 % 10), digit (t.year % 10), 47,
   digit (t.month / 10), digit (t.month % 10), 47, digit (t.day / 10), digit (t.day % 10)]

/-- `sys_maincntl` (`sysvars.c:151-155`). -/
def maincntl (time : Nat) : Int := intToFp ((time &&& 0xfffff : Nat) : Int)

/-- `sys_maincnth` (`sysvars.c:157-161`). -/
def maincnth (time : Nat) : Int := intToFp (((time &&& 0xfffff00000) >>> 20 : Nat) : Int)

/-- `sys_freemem` (`sysvars.c:163-167`); the product is computed in `size_t`, for pools that fit into memory it is
exact. -/
def freemem (s : Sys) : Int := intToFp (((s.arrSize - s.arrNext) * s.wordBytes / 1024 : Nat) : Int)

/-- `sys_keyboard` (`sysvars.c:173-176`). -/
def keyboard (k : Int) : Int := intToFp (if k ≤ 69 then k else 0)

/-- `sys_funcno` (`sysvars.c:178-182`). -/
def funcno (k : Int) : Int := intToFp (if k ≥ 101 ∧ k ≤ 105 then k - 100 else 0)

/-- The table `ptc_sysvars` (`runner.c:98-112`) with the handlers; the numbers are those of the token table
(`tokens.c:59-71`).  PRGNAME$ and PACKAGE$ are described in `Model/Files.lean`. -/
def read (s : Sys) : Nat → Pushed
  | 0 => .num 4096
  | 1 => .num 0
  | 2 => .num (-4096)
  | 3 => .num (intToFp 0x2020)
  | 4 => .str (timeStr s.tm)
  | 5 => .str (dateStr s.tm)
  | 6 => .num (maincntl s.time)
  | 7 => .num (maincnth s.time)
  | 8 => .num (intToFp ((s.varsMax : Int) - s.varCount))
  | 9 => .num (freemem s)
  | 10 => .str s.prgname
  | 11 => .str s.package
  | 12 => .num (intToFp s.result)
  | 13 => .num (intToFp (if s.tchtime > 0 then 1 else 0))
  | 14 => .num (intToFp s.tchx)
  | 15 => .num (intToFp s.tchy)
  | 16 => .num (intToFp s.tchtime)
  | 17 => .num (intToFp s.csrx)
  | 18 => .num (intToFp s.csry)
  | 19 => .cell .tabstep
  | 20 => .num (intToFp s.sphitno)
  | 21 => .error 10
  | 22 => .error 10
  | 23 => .error 10
  | 24 => .num (keyboard s.key)
  | 25 => .num (funcno s.key)
  | 26 => .cell .iconpuse
  | 27 => .cell .iconpage
  | 28 => .cell .iconpmax
  | 29 => .num 4096
  | 30 => .num (intToFp s.errOld)
  | 31 => .memCell
  | 32 => .cell .memsafe
  | _ => .error Machine.eInvalidBc

/-! ## Validation -/

/-- Store to a cell. -/
def Sys.set (s : Sys) (c : Cell) (v : Int) : Sys := { s with cells := fun d => if d = c then v else s.cells d }

/-- `x &= (uint32_t)-1 << FIXPOINT`: the integer part, rounded down. -/
def floorFp (v : Int) : Int := v / 4096 * 4096

/-- `syschk_tabstep` (`console.c:505-510`). -/
def chkTabstep (s : Sys) : Sys :=
  let t := fpToInt (s.cells .tabstep)
  let t := if t < 1 then 1 else t
  { s with tabstep := if t > 16 then 16 else t }

/-- `syschk_iconpuse` (`panel.c:470-475`). -/
def chkIconpuse (s : Sys) : Sys :=
  { s.set .iconpuse (if s.cells .iconpuse ≠ 0 then 4096 else 0) with pageKeys := decide (s.cells .iconpuse ≠ 0) }

/-- `syschk_iconpmax` (`panel.c:478-484`). -/
def chkIconpmax (s : Sys) : Sys :=
  if s.cells .iconpmax < 0 then s.set .iconpmax 0 else s.set .iconpmax (floorFp (s.cells .iconpmax))

/-- `syschk_iconpage` (`panel.c:491-499`). -/
def chkIconpage (s : Sys) : Sys :=
  if s.cells .iconpage > s.cells .iconpmax then s.set .iconpage (s.cells .iconpmax)
  else if s.cells .iconpage < 0 then s.set .iconpage 0
  else s.set .iconpage (floorFp (s.cells .iconpage))

/-- `syschk_memsafe` (`sbc_memory.c:326-328`). -/
def chkMemsafe (s : Sys) : Sys := s.set .memsafe (if s.cells .memsafe ≠ 0 then 4096 else 0)

/-- The table `ptc_sysvars_valid` (`runner.c:114-128`) for the numeric system variables; other entries do not exist. -/
def validate (s : Sys) : Nat → Sys
  | 19 => chkTabstep s
  | 26 => chkIconpuse s
  | 27 => chkIconpage s
  | 28 => chkIconpmax s
  | 32 => chkMemsafe s
  | _ => s

/-- Number of a cell in the token table. -/
def Cell.id : Cell → Nat
  | .tabstep => 19
  | .iconpuse => 26
  | .iconpage => 27
  | .iconpmax => 28
  | .memsafe => 32

/-- A line without jumps that mentions the variables `used` and makes the assignments `l` in this order, followed by the
validations the compiler emits (`tokens.c:940-947`): one for every system variable mentioned, in the order of
their numbers. -/
def runLine (s : Sys) (used : List Cell) (l : List (Cell × Int)) : Sys :=
  let s := l.foldl (fun s a => s.set a.1 a.2) s
  ((List.range 64).filter fun i => (used.map Cell.id ++ l.map fun a => a.1.id).contains i && Tok.needsValidate i).foldl validate s

/-- The page buttons of the panel (`panel.c:361-366`), once per frame in which one of them counts as pressed. -/
def pageButton (s : Sys) (up : Bool) : Sys :=
  if up then s.set .iconpage (s.cells .iconpage + (if s.cells .iconpage < s.cells .iconpmax then 4096 else 0))
  else s.set .iconpage (s.cells .iconpage - (if s.cells .iconpage > 0 then 4096 else 0))

/-! ## VISIBLE -/

/-- An argument of VISIBLE as found on the stack (`stack.h:48-53`). -/
inductive VArg where
  | num (n : Int)
  | str
  /-- a comma without a value before it -/
  | comma
  | other
  deriving DecidableEq

/-- The loop of `cmd_visible` (`system.c:117-137`). -/
def visibleLoop (old : Nat) : List VArg → Nat → Nat → Out Nat
  | [], _, flags => .ok flags
  | .num n :: as, i, flags =>
    if fpToInt n < 0 ∨ fpToInt n > 1 then .err .outOfRange
    else if fpToInt n ≠ 0 then visibleLoop old as (i + 1) (flags ||| (1 <<< i))
    else visibleLoop old as (i + 1) (flags &&& ((255 ^^^ (1 <<< i)) &&& 0x3f))
  | .comma :: as, i, flags => visibleLoop old as (i + 1) (flags ||| (old &&& (1 <<< i)))
  | .str :: _, _, _ => .err .typeMismatch
  | .other :: _, _, _ => .err .syntax

/-- `cmd_visible` (`system.c:112-139`): the new flags. -/
def cmdVisible (old : Nat) (args : List VArg) : Out Nat :=
  if args.length ≠ 6 then .err .syntax else visibleLoop old args 0 0

/-! ## WAIT and VSYNC -/

/-- The loop of `cmd_vsync` and `cmd_wait` (`system.c:141-149`, `151-170`).  `clock k` is the value of the frame counter
and `err k` whether an error (the break key) is pending when they are looked at for the `k`-th time; the result is the
number of the look that ends the loop, if it is among the next `fuel`. -/
def waitLoop (clock : Nat → Int) (err : Nat → Bool) (start delay : Int) : Nat → Nat → Option Nat
  | 0, _ => none
  | fuel + 1, k => if clock k - start < delay ∧ err k = false then waitLoop clock err start delay fuel (k + 1) else some k

end Sbc.Sys
