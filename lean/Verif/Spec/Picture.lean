import Verif.Spec.Display
import Verif.Spec.Bg
import Verif.Spec.Graphics
set_option autoImplicit false
/-!
# Specification of the picture of a screen

The colour of a pixel of 256 × 192 is that of the topmost layer that is not transparent there.
-/
namespace Sbc.Display.Spec
open Sbc Sbc.Display

/-- The first colour of a list of layers from top to bottom. -/
def topmost : List (Option Rgb) → Option Rgb
  | [] => none
  | some c :: _ => some c
  | none :: r => topmost r

/-- Coordinate of the map (512 dots, repeated) at a pixel of the screen. -/
def mapCoord (ofs : Int) (p : Nat) : Nat := ((p + ofs / 4096) % 512).toNat

/-- A BG layer: the map moved by the offset of BGOFS. -/
def mapColor (s : Scene) (b : Res.Bank) (screen layer px py : Nat) : Option Rgb :=
  let x := mapCoord (s.bg.ofs screen layer).x px
  let y := mapCoord (s.bg.ofs screen layer).y py
  entryColor b (3 * screen) (8 + 22 * screen) (s.bg.tile screen layer (x / 8 : Nat) (y / 8 : Nat)) (x % 8) (y % 8)

/-- The offset is one the display gets right. -/
def GoodOffset (ofs : Int) : Prop := 0 ≤ ofs ∨ ofs / 4096 % 8 = 0

instance (ofs : Int) : Decidable (GoodOffset ofs) := inferInstanceAs (Decidable (_ ∨ _))

/-- Text: the cell of 8 × 8 dots, its character of `BGF`, its colour. -/
def textColor (c : Console.Con) (b : Res.Bank) (screen px py : Nat) : Option Rgb :=
  paint b (3 * screen) (c.color (py / 8) (px / 8) % 16) (dot b (22 * screen) (Strs.toChar (c.text (py / 8) (px / 8))).toNat (px % 8) (py % 8))

/-- The background colour of a text cell: character 15 of `BGD` in that colour, unless the colour is 0. -/
def backColor (c : Console.Con) (b : Res.Bank) (px py : Nat) : Option Rgb :=
  if c.color (py / 8) (px / 8) / 16 % 16 = 0 then paint b 0 0 (dot b 4 0 (px % 8) (py % 8))
  else paint b 0 (c.color (py / 8) (px / 8) / 16 % 16) (dot b 4 15 (px % 8) (py % 8))

/-- The text of the lower screen: of the panel PRINT writes to where no keyboard is open, of the keyboard otherwise. -/
def lowerText (s : Scene) : Console.Con := if s.panelType = 0 ∨ s.panelType = 1 then s.panelText else s.keysText

/-- The picture of the panel: 32 × 24 map entries (BG screen 5), characters of `BGD` of the lower screen. -/
def panelColor (s : Scene) (b : Res.Bank) (px py : Nat) : Option Rgb :=
  entryColor b 3 26 (s.bg.scr 5 (px / 8 + 32 * (py / 8))) (px % 8) (py % 8)

/-- Graphics: the dot GSPOIT reads on the display page. -/
def graphicColor (s : Scene) (b : Res.Bank) (screen px py : Nat) : Option Rgb :=
  let c := s.gfx.dot (s.gfx.displaypage screen) px py
  if c = 0 then none else some (shown (b.word (.col (2 + 3 * screen)) c))

/-- The image of a sprite at its place: character by character, row by row, from character `4 * chr`; mirrored in place. -/
def imageColor (b : Res.Bank) (colBank chrBank : Nat) (i : Sprites.Sprite) (px py : Int) : Option Rgb :=
  let dx := px - (i.pos.x / 4096 - i.homeX)
  let dy := py - (i.pos.y / 4096 - i.homeY)
  if 0 ≤ dx ∧ dx < i.w ∧ 0 ≤ dy ∧ dy < i.h then
    let x := (if i.flipX then i.w - 1 - dx else dx).toNat
    let y := (if i.flipY then i.h - 1 - dy else dy).toNat
    paint b colBank i.pal (dot b chrBank (4 * (Sprites.shownChr i).toNat + y / 8 * (i.w / 8) + x / 8) (x % 8) (y % 8))
  else none

/-- Where the columns (or rows) of characters of a scaled sprite begin: they are 8 times the scale apart, from `o` on, to the left if mirrored.
Numbers are in units of 1/4096; the result is in whole dots. -/
def edge (o scale : Int) (flip : Bool) (j : Nat) : Int := (if flip then o - 8 * scale * j else o + 8 * scale * j) / 4096

/-- The column of characters at a pixel, and which of its 8 dots: the dots share the column evenly, and the one at the centre of the pixel is
shown. -/
def column (o scale : Int) (flip : Bool) (n : Nat) (p : Int) : Option (Nat × Nat) :=
  (List.range n).findSome? fun j =>
    let width := if flip then edge o scale flip j - edge o scale flip (j + 1) else edge o scale flip (j + 1) - edge o scale flip j
    let from' := if flip then edge o scale flip j - 1 - p else p - edge o scale flip j
    if 0 ≤ from' ∧ from' < width then some (j, (8 * (2 * from' + 1) / (2 * width)).toNat) else none

/-- The image of a scaled sprite: the home position stays at its place. -/
def scaledColor (b : Res.Bank) (colBank chrBank : Nat) (i : Sprites.Sprite) (px py : Int) : Option Rgb :=
  match column (i.pos.x + i.scale.v * ((if i.flipX then (i.w : Int) else 0) - i.homeX)) i.scale.v i.flipX (i.w / 8) px,
        column (i.pos.y + i.scale.v * ((if i.flipY then (i.h : Int) else 0) - i.homeY)) i.scale.v i.flipY (i.h / 8) py with
  | some (cx, dx), some (cy, dy) => paint b colBank i.pal (dot b chrBank (4 * (Sprites.shownChr i).toNat + cy * (i.w / 8) + cx) dx dy)
  | _, _ => none

/-- A sprite without angle, scaled by up to 200%, of whole characters, with all its characters in a texture of `n` characters. -/
structure Scaled (i : Sprites.Sprite) (n : Nat) : Prop where
  scale : 0 ≤ i.scale.v ∧ i.scale.v ≤ 8192
  angle : i.angle.v = 0
  w : 0 < i.w ∧ i.w < 256 ∧ i.w % 8 = 0
  h : 0 < i.h ∧ i.h < 256 ∧ i.h % 8 = 0
  x : -1073741824 ≤ i.pos.x ∧ i.pos.x ≤ 1073741824
  y : -1073741824 ≤ i.pos.y ∧ i.pos.y ≤ 1073741824
  hx : -32768 ≤ i.homeX ∧ i.homeX ≤ 32767
  hy : -32768 ≤ i.homeY ∧ i.homeY ≤ 32767
  pal : i.pal < 16
  chr : 0 ≤ Sprites.shownChr i
  fits : 4 * (Sprites.shownChr i).toNat + i.h / 8 * (i.w / 8) ≤ n

/-- A sprite without scale and angle, of whole characters, with all its characters in a texture of `n` characters. -/
structure Simple (i : Sprites.Sprite) (n : Nat) : Prop where
  scale : i.scale.v = 4096
  angle : i.angle.v = 0
  w : 0 < i.w ∧ i.w < 256 ∧ i.w % 8 = 0
  h : 0 < i.h ∧ i.h < 256 ∧ i.h % 8 = 0
  x : -1073741824 ≤ i.pos.x ∧ i.pos.x ≤ 1073741824
  y : -1073741824 ≤ i.pos.y ∧ i.pos.y ≤ 1073741824
  hx : -32768 ≤ i.homeX ∧ i.homeX ≤ 32767
  hy : -32768 ≤ i.homeY ∧ i.homeY ≤ 32767
  pal : i.pal < 16
  chr : 0 ≤ Sprites.shownChr i
  fits : 4 * (Sprites.shownChr i).toNat + i.h / 8 * (i.w / 8) ≤ n

/-- The sprites of a screen with a priority, from the topmost: the highest number is in front. -/
def inFront (s : Scene) (screen prio : Nat) : List Sprites.Sprite :=
  (((List.range 100).map (s.spr screen)).filter fun i => i.active ∧ i.prio = prio).reverse

end Sbc.Display.Spec
