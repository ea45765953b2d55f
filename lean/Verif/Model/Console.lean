import Verif.Model.Common
import Verif.Model.Mem
import Verif.Model.Num
set_option autoImplicit false
/-!
# Text console (`source/subsystem/console.c`, `console.h`)
-/
namespace Sbc.Console
open Sbc Sbc.Strs

/-- `CONSOLE_WIDTH`, `CONSOLE_HEIGHT` (`console.h:12-14`). -/
def width : Nat := 32
/-- See `width`. -/
def height : Nat := 24

/-- `struct console` (`console.h:31-62`): cursor, tab width, current colour, and per cell (row, column) the
character and colour.  `sys_tabstep` is only the assignable copy of `tabstep`; `test_mode` and
`cursor_visible` do not affect the functions modelled. -/
structure Con where
  x : Nat
  y : Nat
  tabstep : Nat
  col : Nat
  text : Nat → Nat → Nat
  color : Nat → Nat → Nat

/-- `calloc` and `init_console` (`console.c:47-54`). -/
def init : Con := ⟨0, 0, 4, 0, fun _ _ => 0, fun _ _ => 0⟩

/-- Store to one cell of a row/column array. -/
def set2 (f : Nat → Nat → Nat) (r c v : Nat) : Nat → Nat → Nat := upd f r (upd (f r) c v)

/-- One inner copy loop of `con_scroll` (`console.c:29-32`): row `i` to row `i-1`, column by column. -/
def copyRow (f : Nat → Nat → Nat) (i : Nat) : Nat → Nat → Nat :=
  (List.range width).foldl (fun f j => set2 f (i - 1) j (f i j)) f

/-- The inner fill loop (`console.c:34-37`) for one of the two arrays. -/
def fillLast (f : Nat → Nat → Nat) (v : Nat) : Nat → Nat → Nat :=
  (List.range width).foldl (fun f j => set2 f (height - 1) j v) f

/-- One round of the `while` loop of `con_scroll` (`console.c:25-37`). -/
def scroll1 (c : Con) : Con :=
  { c with
    y := c.y - 1
    text := fillLast ((List.range' 1 (height - 1)).foldl copyRow c.text) 0
    color := fillLast ((List.range' 1 (height - 1)).foldl copyRow c.color) c.col }

/-- `con_scroll` (`console.c:23-39`); each round decreases `y`, so `y+1` rounds are always enough. -/
def scrollLoop : Nat → Con → Con
  | 0, c => c
  | f + 1, c => if c.y ≥ height then scrollLoop f (scroll1 c) else c

/-- `con_scroll` (`console.c:23-39`). -/
def conScroll (c : Con) : Con := scrollLoop (c.y + 1) c

/-- `con_newline` (`console.c:41-45`). -/
def conNewline (c : Con) (scroll : Bool) : Con :=
  let c := { c with x := 0, y := c.y + 1 }
  if scroll then conScroll c else c

/-- `con_put` (`console.c:60-70`); the assertions are checked. -/
def conPut (c : Con) (w : Nat) : Out Con :=
  if ¬ c.x < width then .ub
  else if ¬ c.y < height then .ub
  else
    let c := { c with text := set2 c.text c.y c.x w, color := set2 c.color c.y c.x c.col, x := c.x + 1 }
    .ok (if c.x ≥ width then conNewline c false else c)

/-- The loop of `con_puts` (`console.c:77-82`) over the remaining (wide) characters. -/
def putsLoop : List Nat → Con → Out Con
  | [], c => .ok c
  | w :: ws, c =>
    (conPut c w).bind fun c =>
      putsLoop ws (if ws ≠ [] ∧ c.y = height then conScroll c else c)

/-- `con_puts` (`console.c:72-83`). -/
def conPuts (c : Con) (s : Str) : Out Con :=
  let c := if c.y ≥ height then conScroll c else c
  putsLoop ((List.range (strLen s)).map (strAtWide s)) c

/-- `con_putn` (`console.c:85-91`). -/
def conPutn (c : Con) (n : Int) : Out Con :=
  (Num.funcStr n).bind fun s => conPuts c s

/-- The `do … while` loop of a comma in `cmd_print` (`console.c:127-129`); at most 32 characters fit
before the column is 0 again, so the fuel below is never used up (proved). -/
def tabLoop : Nat → Con → Out Con
  | 0, _ => .ub
  | f + 1, c =>
    (conPut c (toWide 32)).bind fun c =>
      if c.tabstep = 0 then .ub else if c.x % c.tabstep ≠ 0 then tabLoop f c else .ok c

/-- What `PRINT` finds on the stack (`console.c:112-137`). -/
inductive Item where
  | num (n : Int)
  | str (s : Str)
  | comma
  | semicolon

/-- One round of the loop of `cmd_print` (`console.c:112-141`). -/
def printItem (c : Con) : Item → Out Con
  | .num n => conPutn c n
  | .str s => conPuts c s
  | .comma => tabLoop 33 (if c.x = 0 ∧ c.y = height then conScroll c else c)
  | .semicolon => .ok c

/-- The loop of `cmd_print`. -/
def printItems : List Item → Con → Out Con
  | [], c => .ok c
  | i :: is, c => (printItem c i).bind (printItems is)

/-- Whether the statement ends with `,` or `;` (`console.c:143`). -/
def endsOpen : List Item → Bool
  | [] => false
  | is => match is.getLast? with
    | some .comma => true
    | some .semicolon => true
    | _ => false

/-- `cmd_print` (`console.c:109-152`). -/
def cmdPrint (c : Con) (is : List Item) : Out Con :=
  (printItems is c).bind fun c => .ok (if endsOpen is then c else conNewline c true)

/-- `cmd_color` (`console.c:154-165`): `col` is a `u8`. -/
def cmdColor (c : Con) (fg : Int) (bg : Option Int) : Con :=
  match bg with
  | some b => { c with col := (fpToInt fg % 256).toNat ||| (fpToInt b * 16 % 256).toNat }
  | none => { c with col := (c.col &&& 0xf0) ||| (fpToInt fg % 256).toNat }

/-- `cmd_locate` (`console.c:167-179`). -/
def cmdLocate (c : Con) (xF yF : Int) : Con :=
  let x := fpToInt xF
  let y := fpToInt yF
  if x ≥ 0 ∧ y ≥ 0 ∧ x < width ∧ y < height then { c with x := x.toNat, y := y.toNat } else c

/-- `cmd_cls` (`console.c:181-191`), console part. -/
def cmdCls (c : Con) : Con :=
  { c with x := 0, y := 0, text := fun r k => if r < height ∧ k < width then 0 else c.text r k,
           color := fun r k => if r < height ∧ k < width then c.col else c.color r k }

/-- `syschk_tabstep` (`console.c:505-510`) after an assignment to `TABSTEP`. -/
def setTabstep (c : Con) (v : Int) : Con :=
  let t := fpToInt v
  let t := if t < 1 then 1 else t
  let t := if t > 16 then 16 else t
  { c with tabstep := t.toNat }

/-- `func_chkchr` (`console.c:471-483`). -/
def funcChkchr (c : Con) (xF yF : Int) : Int :=
  let x := fpToInt xF
  let y := fpToInt yF
  if x ≥ 0 ∧ x < width ∧ y ≥ 0 ∧ y < height then intToFp (toChar (c.text y.toNat x.toNat)) else intToFp (-1)

/-- `con_prompt` (`console.c:289-295`). -/
def conPrompt (c : Con) (prompt : Option Str) : Out Con :=
  (match prompt with | some s => conPuts c s | none => .ok c).bind fun c =>
  (conPut c (toWide 63)).bind fun c =>
    .ok (if c.x ≠ 0 then conNewline c true else c)

end Sbc.Console
