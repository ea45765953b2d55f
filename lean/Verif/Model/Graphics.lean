import Verif.Model.Common
import Verif.Model.Mem
set_option autoImplicit false
/-!
# 256-colour graphics pages (`source/subsystem/graphics.c`, `graphics.h`)

Arguments of the commands are the 20.12 numbers on the value stack (`fpToInt` is `FP_TO_INT`).
`(int64_t)a << 32` of a negative `a` is taken as multiplication by `2^32` (gcc, clang), as is the `<<` of
negative coordinates in `PAINT_STACK_ADD`.
-/
namespace Sbc.Graphics
open Sbc

/-- `GRP_WIDTH` (`resources.h:37`). -/
def gw : Int := 256
/-- `GRP_HEIGHT` (`resources.h:39`). -/
def gh : Int := 192
/-- `GRP_SIZE` (`resources.h:55`). -/
def grpSize : Nat := 49152

/-- A graphics page: bytes by address. -/
abbrev Page := Nat → Nat

/-- `grp_index` (`graphics.h:39-47`); the parameters are 8-bit, so the caller's `int`s are reduced mod 256. -/
def grpIndex (x y : Int) : Nat :=
  let x := (x % 256).toNat
  let y := (y % 256).toNat
  let cx := x / 64
  let cy := y / 64
  let tx := (x / 8) % 8
  let ty := (y / 8) % 8
  let px := x % 8
  let py := y % 8
  px + py * 8 + tx * 64 + ty * 512 + cx * 4096 + cy * 16384

/-- `grp_pixel` (`graphics.h:49-59`). -/
def grpPixel (page : Page) (x y : Int) (color : Nat) (drawmode : Bool) : Page :=
  if x ≥ 0 ∧ x < gw then
    if y ≥ 0 ∧ y < gh then
      if drawmode = false then upd page (grpIndex x y) color
      else upd page (grpIndex x y) (page (grpIndex x y) ^^^ color)
    else page
  else page

/-- `struct graphics` (`graphics.h:18-35`) and `p->res.grp` (`resources.h`). -/
structure Gfx where
  screen : Nat
  color : Nat
  drawmode : Bool
  drawpage : Nat → Nat
  displaypage : Nat → Nat
  prio : Nat → Nat
  grp : Nat → Page

/-- `init_graphics` (`graphics.c:12-20`) on zeroed memory. -/
def init : Gfx := ⟨0, 0, false, fun i => i, fun i => i, fun _ => 3, fun _ _ => 0⟩

/-- State after a command and the error it raised, if any. -/
abbrev Res := Out (Gfx × Option Err)

/-- The command finished normally. -/
def fin (g : Gfx) : Res := .ok (g, none)
/-- `ERROR(e)`: return with `p->exec.error` set. -/
def fail (g : Gfx) (e : Err) : Res := .ok (g, some e)

/-- Number of the page drawn to (`grp_drawpage`, `graphics.c:22-24`). -/
def Gfx.page (g : Gfx) : Nat := g.drawpage g.screen

/-- Replace the page drawn to. -/
def Gfx.setPage (g : Gfx) (p : Page) : Gfx := { g with grp := upd g.grp g.page p }

/-- `cmd_gpage` (`graphics.c:26-34`). -/
def cmdGpage (g : Gfx) (s : Int) (pages : Option (Int × Int)) : Res :=
  let s := fpToInt s
  if s < 0 ∨ s > 1 then fail g .outOfRange
  else
    let g := { g with screen := s.toNat }
    match pages with
    | none => fin g
    | some (d, w) =>
      let d := fpToInt d
      if d < 0 ∨ d > 3 then fail g .outOfRange
      else
        let g := { g with drawpage := upd g.drawpage g.screen d.toNat }
        let w := fpToInt w
        if w < 0 ∨ w > 3 then fail g .outOfRange
        else fin { g with displaypage := upd g.displaypage g.screen w.toNat }

/-- `cmd_gcolor` (`graphics.c:36-38`). -/
def cmdGcolor (g : Gfx) (c : Int) : Res :=
  let c := fpToInt c
  if c < 0 ∨ c > 255 then fail g .outOfRange else fin { g with color := c.toNat }

/-- `cmd_gdrawmd` (`graphics.c:215-217`). -/
def cmdGdrawmd (g : Gfx) (m : Int) : Res :=
  let m := fpToInt m
  if m < 0 ∨ m > 1 then fail g .outOfRange else fin { g with drawmode := m ≠ 0 }

/-- The optional colour argument (`STACK_INT_RANGE(i,0,255,color)` or `p->graphics.color`). -/
def withColor (g : Gfx) (c : Option Int) (f : Nat → Res) : Res :=
  match c with
  | none => f g.color
  | some c =>
    let c := fpToInt c
    if c < 0 ∨ c > 255 then fail g .outOfRange else f c.toNat

/-- `cmd_gcls` (`graphics.c:40-53`): the loop stores to the bytes 0 … `GRP_SIZE`-1 in order. -/
def cmdGcls (g : Gfx) (c : Option Int) : Res :=
  withColor g c fun color =>
    fin (g.setPage ((List.range grpSize).foldl (fun pg i => upd pg i color) (g.grp g.page)))

/-- `for (x = a; x <= b; ++x)`. -/
def upTo (a b : Int) : List Int := (List.range (b + 1 - a).toNat).map fun (i : Nat) => a + (i : Int)

/-- Drawing a list of pixels in order. -/
def drawAll (page : Page) (ps : List (Int × Int)) (color : Nat) (mode : Bool) : Page :=
  ps.foldl (fun pg p => grpPixel pg p.1 p.2 color mode) page

/-- Clamping of GFILL and GBOX coordinates (`graphics.c:64-67, 92-95`). -/
def clampTo (m v : Int) : Int := if v < 0 then 0 else if v > m then m else v

/-- Pixels of `cmd_gfill` (`graphics.c:77-81`) in drawing order. -/
def fillPixels (x1 y1 x2 y2 : Int) : List (Int × Int) :=
  (upTo x1 x2).flatMap fun x => (upTo y1 y2).map fun y => (x, y)

/-- `cmd_gfill` (`graphics.c:55-83`). -/
def cmdGfill (g : Gfx) (x1 y1 x2 y2 : Int) (c : Option Int) : Res :=
  withColor g c fun color =>
    fin (g.setPage (drawAll (g.grp g.page)
      (fillPixels (clampTo gw (fpToInt x1)) (clampTo gh (fpToInt y1)) (clampTo gw (fpToInt x2)) (clampTo gh (fpToInt y2)))
      color g.drawmode))

/-- Pixels of `cmd_gbox` (`graphics.c:109-124`) in drawing order. -/
def boxPixels (x1 y1 x2 y2 : Int) : List (Int × Int) :=
  (upTo x1 x2).map (fun x => (x, y1)) ++ (upTo y1 y2).map (fun y => (x1, y)) ++
  (upTo x1 x2).map (fun x => (x, y2)) ++ (upTo y1 y2).map (fun y => (x2, y))

/-- `cmd_gbox` (`graphics.c:85-126`). -/
def cmdGbox (g : Gfx) (x1 y1 x2 y2 : Int) (c : Option Int) : Res :=
  withColor g c fun color =>
    fin (g.setPage (drawAll (g.grp g.page)
      (boxPixels (clampTo gw (fpToInt x1)) (clampTo gh (fpToInt y1)) (clampTo gw (fpToInt x2)) (clampTo gh (fpToInt y2)))
      color g.drawmode))

/-- The slope computation (`graphics.c:137, 154`): `((d << 32) / e) >> 20`, then to 32 bits; C division
truncates towards zero, the shift rounds down. -/
def slope (d e : Int) : Int := wrap32 ((d * 4294967296).tdiv e / 1048576)

/-- The minor coordinate for step `k` (`graphics.c:148, 165`): signed overflow of the `int` product or sum is
undefined. -/
def minorAt (s k base : Int) : Out Int :=
  if ¬ I32 (s * k) then .ub
  else if ¬ I32 (s * k + 2048) then .ub
  else .ok (fpToInt (s * k + 2048) + base)

/-- The loop (`graphics.c:147-151, 164-168`) from `k` on, for `n` more steps: `(step, minor)` pairs. -/
def lineLoop (s base : Int) : Nat → Int → Out (List (Int × Int))
  | 0, _ => .ok []
  | n + 1, k =>
    (minorAt s k base).bind fun m => (lineLoop s base n (k + 1)).bind fun l => .ok ((k, m) :: l)

/-- Pixels of `draw_line` (`graphics.c:128-170`) in drawing order.  Coordinates are below `2^20`, so the
differences do not overflow. -/
def linePixels (x1 y1 x2 y2 : Int) : Out (List (Int × Int)) :=
  if (x2 - x1).natAbs ≥ (y2 - y1).natAbs then
    if x1 = x2 ∧ y1 = y2 then .ok [(x1, y1)]
    else
      let s := slope (y2 - y1) (x2 - x1)
      let (x1, y1, x2) := if x1 > x2 then (x2, y2, x1) else (x1, y1, x2)
      (lineLoop s y1 (x2 + 1 - x1).toNat 0).bind fun l => .ok (l.map fun p => (x1 + p.1, p.2))
  else
    let s := slope (x2 - x1) (y2 - y1)
    let (x1, y1, y2) := if y1 > y2 then (x2, y2, y1) else (x1, y1, y2)
    (lineLoop s x1 (y2 + 1 - y1).toNat 0).bind fun l => .ok (l.map fun p => (p.2, y1 + p.1))

/-- `cmd_gline` (`graphics.c:176-195`). -/
def cmdGline (g : Gfx) (x1 y1 x2 y2 : Int) (c : Option Int) : Res :=
  withColor g c fun color =>
    (linePixels (fpToInt x1) (fpToInt y1) (fpToInt x2) (fpToInt y2)).bind fun ps =>
      fin (g.setPage (drawAll (g.grp g.page) ps color g.drawmode))

/-- `cmd_gpset` (`graphics.c:197-213`). -/
def cmdGpset (g : Gfx) (x y : Int) (c : Option Int) : Res :=
  let x := fpToInt x
  let y := fpToInt y
  if x < 0 ∨ x > gw - 1 then fin g
  else if y < 0 ∨ y > gh - 1 then fin g
  else withColor g c fun color => fin (g.setPage (grpPixel (g.grp g.page) x y color g.drawmode))

/-- `func_gspoit` (`graphics.c:296-318`): the returned 20.12 number. -/
def funcGspoit (g : Gfx) (page : Option Int) (x y : Int) : Out Int :=
  let x := fpToInt x
  let y := fpToInt y
  let get (p : Nat) : Out Int :=
    if x ≥ gw ∨ x < 0 ∨ y < 0 ∨ y ≥ gh then .ok (-4096) else .ok (intToFp (g.grp p (grpIndex x y)))
  match page with
  | none => get g.page
  | some pg =>
    let pg := fpToInt pg
    if pg < 0 ∨ pg > 3 then .err .outOfRange else get pg.toNat

/-- One pixel of `cmd_gcopy` (`graphics.c:383-396`). -/
def copyPixel (src dst : Nat) (mode : Bool) (dx dy : Int) (grp : Nat → Page) (x y : Int) : Nat → Page :=
  let p := if x ≥ 0 ∧ y ≥ 0 ∧ x < gw ∧ y < gh then grp src (grpIndex x y) else 0
  if mode = true ∨ p ≠ 0 then
    if x + dx ≥ 0 ∧ y + dy ≥ 0 ∧ x + dx < gw ∧ y + dy < gh then
      upd grp dst (upd (grp dst) (grpIndex (x + dx) (y + dy)) p)
    else grp
  else grp

/-- Pixels visited by `cmd_gcopy` in the forward order (`graphics.c:381-382`). -/
def copyOrder (x1 y1 x2 y2 : Int) : List (Int × Int) :=
  (upTo y1 y2).flatMap fun y => (upTo x1 x2).map fun x => (x, y)

/-- `cmd_gcopy` (`graphics.c:320-419`): the second loop nest visits the same pixels in reverse. -/
def cmdGcopy (g : Gfx) (page : Option Int) (x1 y1 x2 y2 x3 y3 mode : Int) : Res :=
  let go (src : Nat) : Res :=
    let x1 := fpToInt x1
    let y1 := fpToInt y1
    let x2 := fpToInt x2
    let y2 := fpToInt y2
    let x3 := fpToInt x3
    let y3 := fpToInt y3
    let mode : Bool := fpToInt mode ≠ 0
    let (x1, x2) := if x1 > x2 then (x2, x1) else (x1, x2)
    let (y1, y2) := if y1 > y2 then (y2, y1) else (y1, y2)
    let order := if y3 < y1 ∨ (y3 = y1 ∧ x3 < x1) then copyOrder x1 y1 x2 y2 else (copyOrder x1 y1 x2 y2).reverse
    fin { g with grp := order.foldl (fun m p => copyPixel src g.page mode (x3 - x1) (y3 - y1) m p.1 p.2) g.grp }
  match page with
  | none => go g.page
  | some pg =>
    let pg := fpToInt pg
    if pg < 0 ∨ pg > 3 then fail g .outOfRange else go pg.toNat

/-- Pixels and colours drawn by `cmd_gputchr` (`graphics.c:264-289`) for the character pattern `src` (32
bytes, two pixels each) in drawing order; only the drawing is modelled, not the copying of the palette. -/
def chrPixels (src : Nat → Nat) (xs ys : Int) (pal size : Nat) : List (Int × Int × Nat) :=
  (List.range 8).flatMap fun y => (List.range 4).flatMap fun xh =>
    let b := src (xh + 4 * y)
    let block (off : Nat) (col : Nat) : List (Int × Int × Nat) :=
      (List.range size).flatMap fun i => (List.range size).filterMap fun j =>
        let xp : Int := xs + (2 * xh * size + j + off : Nat)
        let yp : Int := ys + (y * size + i : Nat)
        if col ≠ 0 ∧ xp ≥ 0 ∧ xp < gw ∧ yp ≠ 0 ∧ yp < gh then some (xp, yp, 16 * pal + col) else none
    block 0 (b &&& 0x0f) ++ block size (b >>> 4)

end Sbc.Graphics
