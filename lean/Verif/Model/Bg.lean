import Verif.Model.Num
import Verif.Model.Mem
set_option autoImplicit false
/-!
# Background layers (`source/subsystem/background.c`, `background.h`)

Arguments are the 20.12 numbers on the value stack.  `v & 63` of an `int` is `v % 64`, `v & 0xffff` is `v % 65536`.
-/
namespace Sbc.Bg
open Sbc Sbc.Strs

/-- `struct bg_offset` (`background.h:30-38`). -/
structure Ofs where
  x : Int
  y : Int
  stepX : Int
  stepY : Int
  time : Int
  deriving DecidableEq

/-- `struct bg_clip` (`background.h:43-48`). -/
structure Clip where
  x1 : Nat
  y1 : Nat
  x2 : Nat
  y2 : Nat
  deriving DecidableEq

/-- `struct background` (`background.h:23-50`) and the layer memory `p->res.scr` (`resources.h`): every bank is
an allocation of 4096 16-bit cells (`resources.c:465`). -/
structure Bg where
  page : Nat
  ofs : Nat → Nat → Ofs
  clip : Nat → Clip
  scr : Nat → Nat → Nat

/-- `init_background` (`background.c:14-21`) on zeroed memory. -/
def init : Bg := ⟨0, fun _ _ => ⟨0, 0, 0, 0, 0⟩, fun _ => ⟨0, 0, 255, 191⟩, fun _ _ => 0⟩

/-- State after a command and the error it raised, if any. -/
abbrev Res := Out (Bg × Option Err)
/-- The command finished normally. -/
def fin (g : Bg) : Res := .ok (g, none)
/-- `ERROR(e)`: return with `p->exec.error` set. -/
def fail (g : Bg) (e : Err) : Res := .ok (g, some e)

/-- Number of cells of a layer: `SCR_SIZE` (`resources.h:57`) over `sizeof(u16)`. -/
def scrCells : Nat := 4096

/-- `bg_page` (`background.c:40-42`): the bank of a layer; `SCR_BANKS` is 4. -/
def bank (page layer : Nat) : Nat := 4 * page + 2 + layer

/-- `bg_index` (`background.c:48-54`); the parameters are 8-bit. -/
def bgIndex (x y : Int) : Nat :=
  let x := (x % 256).toNat
  let y := (y % 256).toNat
  x % 32 + y % 32 * 32 + x / 32 * 1024 + y / 32 * 1024 * 2

/-- `STACK_INT_RANGE(i,min,max,dest)` (`stack.h:27`). -/
def range (v lo hi : Int) : Out Int := if fpToInt v < lo ∨ fpToInt v > hi then .err .outOfRange else .ok (fpToInt v)

/-- Run the argument checks; an error leaves the state alone. -/
def checked {α : Type} (g : Bg) (a : Out α) (k : α → Res) : Res :=
  match a with
  | .ok a => k a
  | .err e => fail g e
  | .ub => .ub

/-- Store to a cell of a layer; outside its memory is undefined. -/
def store (m : Nat → Nat) (i v : Nat) : Out (Nat → Nat) := if i < scrCells then .ok (upd m i v) else .ub

/-- Replace the memory of a layer of the current page. -/
def Bg.setLayer (g : Bg) (layer : Nat) (m : Nat → Nat) : Bg := { g with scr := upd g.scr (bank g.page layer) m }

/-- Memory of a layer of the current page. -/
def Bg.layer (g : Bg) (layer : Nat) : Nat → Nat := g.scr (bank g.page layer)

/-- `to_tiledata` (`background.h:66-71`); the asserts hold after the range checks. -/
def toTiledata (chr pal h v : Nat) : Nat := (chr &&& 0x3ff) ||| ((h &&& 1) <<< 10) ||| ((v &&& 1) <<< 11) ||| ((pal &&& 0xf) <<< 12)

/-- The last arguments of BGPUT and BGFILL. -/
inductive Tile where
  | num (v : Int)
  | str (s : Str)
  | parts (chr pal h v : Int)

/-- The wide characters of a string (`str_at_wide`, `strs.c:492-513`). -/
def wideChars (s : Str) : List Nat := if s.wide then s.data else s.data.map toWide

/-- Evaluation of the tile arguments (`background.c:92-109`, `126-143`). -/
def tileData : Tile → Out Nat
  | .num v => .ok (fpToInt v % 65536).toNat
  | .str s => (Num.strToNumber (wideChars s) 16 false).bind fun n => .ok (fpToInt n % 65536).toNat
  | .parts c p h v =>
    (range c 0 1023).bind fun c => (range p 0 15).bind fun p => (range h 0 1).bind fun h => (range v 0 1).bind fun v =>
      .ok (toTiledata c.toNat p.toNat h.toNat v.toNat)

/-- `cmd_bgpage` (`background.c:60-62`). -/
def cmdBgpage (g : Bg) (p : Int) : Res := checked g (range p 0 1) fun p => fin { g with page := p.toNat }

/-- `memset(bg, 0, SCR_SIZE)` (`background.c:69`, `76`): stores to the cells 0 … 4095 in order. -/
def clearLayer (m : Nat → Nat) : Nat → Nat := (List.range scrCells).foldl (fun m i => upd m i 0) m

/-- `cmd_bgclr` (`background.c:64-79`). -/
def cmdBgclr (g : Bg) (layer : Option Int) : Res :=
  match layer with
  | none =>
    let g := g.setLayer 0 (clearLayer (g.layer 0))
    fin (g.setLayer 1 (clearLayer (g.layer 1)))
  | some l => checked g (range l 0 1) fun l => fin (g.setLayer l.toNat (clearLayer (g.layer l.toNat)))

/-- `cmd_bgput` (`background.c:84-113`). -/
def cmdBgput (g : Bg) (l x y : Int) (t : Tile) : Res :=
  checked g (range l 0 1) fun l => checked g (tileData t) fun t =>
    (store (g.layer l.toNat) (bgIndex (fpToInt x % 64) (fpToInt y % 64)) t).bind fun m => fin (g.setLayer l.toNat m)

/-- Clamping to the map (`background.c:145-153`, `263-275`). -/
def clamp (v : Int) : Int := if v < 0 then 0 else if v > 63 then 63 else v

/-- `for (x = a; x <= b; ++x)`. -/
def upTo (a b : Int) : List Int := (List.range (b + 1 - a).toNat).map fun (i : Nat) => a + (i : Int)

/-- Cells in the order of the loops of BGFILL (`background.c:169-173`). -/
def cellsOf (x1 y1 x2 y2 : Int) : List (Int × Int) := (upTo y1 y2).flatMap fun y => (upTo x1 x2).map fun x => (x, y)

/-- A loop of stores. -/
def storeAll (f : (Nat → Nat) → Int × Int → Nat × Nat) : List (Int × Int) → (Nat → Nat) → Out (Nat → Nat)
  | [], m => .ok m
  | p :: ps, m => (store m (f m p).1 (f m p).2).bind (storeAll f ps)

/-- `cmd_bgfill` (`background.c:118-174`). -/
def cmdBgfill (g : Bg) (l x1 y1 x2 y2 : Int) (t : Tile) : Res :=
  checked g (range l 0 1) fun l => checked g (tileData t) fun t =>
    let x1 := clamp (fpToInt x1)
    let x2 := clamp (fpToInt x2)
    let y1 := clamp (fpToInt y1)
    let y2 := clamp (fpToInt y2)
    let (x1, x2) := if x1 > x2 then (x2, x1) else (x1, x2)
    let (y1, y2) := if y1 > y2 then (y2, y1) else (y1, y2)
    (storeAll (fun _ p => (bgIndex p.1 p.2, t)) (cellsOf x1 y1 x2 y2) (g.layer l.toNat)).bind fun m => fin (g.setLayer l.toNat m)

/-- `cmd_bgcopy` (`background.c:249-310`): forwards or backwards; the source cells are inside the map after
clamping, the destination cells need not be. -/
def cmdBgcopy (g : Bg) (l x1 y1 x2 y2 x3 y3 : Int) : Res :=
  checked g (range l 0 1) fun l =>
    let x1 := clamp (fpToInt x1)
    let x2 := clamp (fpToInt x2)
    let x3 := clamp (fpToInt x3)
    let y1 := clamp (fpToInt y1)
    let y2 := clamp (fpToInt y2)
    let y3 := clamp (fpToInt y3)
    let (x1, x2) := if x1 > x2 then (x2, x1) else (x1, x2)
    let (y1, y2) := if y1 > y2 then (y2, y1) else (y1, y2)
    let cells := cellsOf x1 y1 x2 y2
    let cells := if y3 < y1 ∨ (y3 = y1 ∧ x3 < x1) then cells else cells.reverse
    (storeAll (fun m p => (bgIndex (p.1 - x1 + x3) (p.2 - y1 + y3), m (bgIndex p.1 p.2))) cells (g.layer l.toNat)).bind fun m =>
      fin (g.setLayer l.toNat m)

/-- What BGREAD stores in its output variables. -/
inductive ReadBack where
  | num (v : Int)
  | str (s : Str)
  | parts (chr pal h v : Int)
  deriving DecidableEq

/-- Shape of BGREAD's output arguments. -/
inductive ReadArg where
  | num | str | parts
  deriving DecidableEq

/-- `cmd_bgread` (`background.c:209-247`).  `hex_digits` (`strs.c`) is "0123456789ABCDEF".  The new string is
taken from the pool; the pool itself is the subject of `Model/StrPool.lean`. -/
def cmdBgread (g : Bg) (l x y : Int) (a : ReadArg) : Out ReadBack :=
  (range l 0 1).bind fun l =>
    let t := g.layer l.toNat (bgIndex (fpToInt x % 64) (fpToInt y % 64))
    match a with
    | .num => .ok (.num (intToFp t))
    | .str => .ok (.str ⟨false, [Num.hexChar ((t &&& 0xf000) >>> 12), Num.hexChar ((t &&& 0x0f00) >>> 8), Num.hexChar ((t &&& 0x00f0) >>> 4), Num.hexChar (t &&& 0x000f)]⟩)
    | .parts => .ok (.parts (intToFp (t &&& 0x03ff : Nat)) (intToFp ((t &&& 0xf000) >>> 12 : Nat)) (intToFp ((t &&& 0x0400) >>> 10 : Nat))
        (intToFp ((t &&& 0x0800) >>> 11 : Nat)))

/-- Replace the offset of a layer of the current page. -/
def Bg.setOfs (g : Bg) (layer : Nat) (o : Ofs) : Bg :=
  { g with ofs := fun p l => if p = g.page ∧ l = layer then o else g.ofs p l }

/-- `(a - b) / t` in `int` (`background.c:192-193`): overflow is undefined; C division truncates. -/
def stepOf (a b t : Int) : Out Int := if I32 (a - b) then .ok ((a - b).tdiv t) else .ub

/-- `cmd_bgofs` (`background.c:176-199`). -/
def cmdBgofs (g : Bg) (l x y : Int) (t : Option Int) : Res :=
  checked g (range l 0 1) fun l =>
    let b := g.ofs g.page l.toNat
    match t with
    | none => fin (g.setOfs l.toNat { b with x := x, y := y, time := 0 })
    | some t =>
      let t := fpToInt t
      if t < 0 then fail g .outOfRange
      else if t ≠ 0 then
        (stepOf x b.x t).bind fun sx => (stepOf y b.y t).bind fun sy =>
          fin (g.setOfs l.toNat { b with stepX := sx, stepY := sy, time := t })
      else fin (g.setOfs l.toNat { b with x := x, y := y, time := 0 })

/-- `cmd_bgclip` (`background.c:196-207`). -/
def cmdBgclip (g : Bg) (x1 y1 x2 y2 : Int) : Res :=
  checked g (range x1 0 31) fun x1 => checked g (range y1 0 23) fun y1 => checked g (range x2 0 31) fun x2 => checked g (range y2 0 23) fun y2 =>
    fin { g with clip := upd g.clip g.page ⟨8 * x1.toNat, 8 * y1.toNat, 8 * x2.toNat + 7, 8 * y2.toNat + 7⟩ }

/-- `func_bgchk` (`background.c:312-318`). -/
def funcBgchk (g : Bg) (l : Int) : Out Int :=
  (range l 0 1).bind fun l => .ok (if (g.ofs g.page l.toNat).time > 0 then 4096 else 0)

/-- The body of the loop of `step_background` (`background.c:30-35`); overflow is undefined. -/
def stepOfs (o : Ofs) : Out Ofs :=
  if o.time > 0 then
    if I32 (o.x + o.stepX) ∧ I32 (o.y + o.stepY) then .ok { o with x := o.x + o.stepX, y := o.y + o.stepY, time := o.time - 1 } else .ub
  else .ok o

/-- `step_background` (`background.c:27-38`): once per frame. -/
def stepBg (g : Bg) : Out Bg :=
  (stepOfs (g.ofs 0 0)).bind fun a => (stepOfs (g.ofs 0 1)).bind fun b => (stepOfs (g.ofs 1 0)).bind fun c => (stepOfs (g.ofs 1 1)).bind fun d =>
    .ok { g with ofs := fun p l => if p = 0 then (if l = 0 then a else b) else (if l = 0 then c else d) }

end Sbc.Bg
