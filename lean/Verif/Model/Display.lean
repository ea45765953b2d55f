import Verif.Model.Bg
import Verif.Model.Graphics
import Verif.Model.Sprites
import Verif.Model.Console
import Verif.Model.Resources
set_option autoImplicit false
/-!
# The display of the PC version (`source/graphics/pc/*.c`, `resources/bgsp.frag`)

What SFML and OpenGL do with the vertex arrays and textures is part of the trusted base and modelled as follows: an
axis-aligned quad covers the pixels whose centres lie inside it; each takes the texel below the linearly interpolated
texture coordinate (nearest texel, coordinates clamped to the texture); fragments with alpha 0 leave the pixel alone and
those with alpha 255 replace it (SFML's default blending).  Colours are the three components 0 … 255.  Rotated sprites
(computed with `double`) are not modelled: a scene contains an arbitrary layer for each of them.
-/
namespace Sbc.Display
open Sbc

/-- A colour: red, green, blue. -/
abbrev Rgb := Nat × Nat × Nat

/-- What a draw call does to each pixel: nothing, or a colour. -/
abbrev Layer := Int → Int → Option Rgb

/-! ## Textures -/

/-- Stores to an array of `n` cells, in order. -/
def stores (n : Nat) : List (Nat × Nat) → (Nat → Nat) → Out (Nat → Nat)
  | [], m => .ok m
  | (k, v) :: r, m => if k < n then stores n r (upd m k v) else .ub

/-- The character memory from a bank on: the banks are contiguous (`resources.c:452-459`, `CHR_SIZE` is 8192). -/
def chrSrc (b : Res.Bank) (bank : Nat) (j : Nat) : Nat := b.bytes (.chr (bank + j / 8192)) (j % 8192)

/-- The value stored for a dot of a character (`display_pc.c:48-49`). -/
def chrDot (src : Nat → Nat) (i cx cy : Nat) : Nat :=
  let c := src (32 * i + cx / 2 + 4 * cy)
  if cx &&& 1 ≠ 0 then (c >>> 4) &&& 0x0f else c &&& 0x0f

/-- `gen_chr_texture` (`display_pc.c:41-60`): the array handed to SFML; `junk` is its content before the loops. -/
def genChr (junk src : Nat → Nat) (size : Nat) : Out (Nat → Nat) :=
  stores (4 * size * 64) ((List.range size).flatMap fun i => (List.range 8).flatMap fun cx => (List.range 8).map fun cy =>
    (4 * (8 * (i % 32) + cx + 256 * (8 * (i / 32) + cy)), chrDot src i cx cy)) junk

/-- The four bytes stored for a colour (`display_pc.c:19-28`). -/
def colBytes (i s : Nat) : List (Nat × Nat) :=
  [(4 * i, ((s &&& 0x001f) <<< 3) % 256),
   (4 * i + 1, (((s &&& 0x03e0) >>> 2) ||| ((s &&& 0x8000) >>> 13)) % 256),
   (4 * i + 2, ((s &&& 0x7c00) >>> 7) % 256),
   (4 * i + 3, if i / 256 % 3 ≠ 2 then (if i % 16 ≠ 0 then 255 else 0) else (if i % 256 ≠ 0 then 255 else 0))]

/-- `gen_col_texture` (`display_pc.c:12-39`); `src` are the 6 palettes of 256 colours. -/
def genCol (junk src : Nat → Nat) : Out (Nat → Nat) :=
  stores (4 * 256 * 6) ((List.range (256 * 6)).flatMap fun i => colBytes i (src i)) junk

/-- The colour memory: the palettes are contiguous (`resources.c:463-466`). -/
def colSrc (b : Res.Bank) (i : Nat) : Nat := b.word (.col (i / 256)) (i % 256)

/-- Clamping of a texel coordinate to `0 … n-1`. -/
def clamp (n : Nat) (u : Int) : Nat := min u.toNat (n - 1)

/-- The red byte of a texel of a texture that is 256 wide and `h` high. -/
def texel (tex : Nat → Nat) (h : Nat) (u v : Int) : Nat := tex (4 * (clamp 256 u + 256 * clamp h v))

/-- `bgsp.frag` for colour number `n` of palette `bank`: the coordinates are `n/255` and `bank/5` of a texture of
256 × 6 texels. -/
def colorAt (colTex : Nat → Nat) (bank n : Nat) : Option Rgb :=
  let i := clamp 256 (n * 256 / 255 : Nat) + 256 * clamp 6 (bank * 6 / 5 : Nat)
  if colTex (4 * i + 3) = 0 then none else some (colTex (4 * i), colTex (4 * i + 1), colTex (4 * i + 2))

/-- `bgsp.frag` without `grp_mode`: the red component of the vertex colour is added unless the dot is 0. -/
def shade (colTex : Nat → Nat) (bank pal dot : Nat) : Option Rgb :=
  colorAt colTex bank ((if dot ≠ 0 then pal else 0) + dot)

/-! ## Quads -/

/-- `sfVertex` without the unused components of the colour. -/
structure Vertex where
  x : Int
  y : Int
  pal : Nat
  u : Int
  v : Int
  deriving DecidableEq

/-- Four vertices in order. -/
structure Quad where
  a : Vertex
  b : Vertex
  c : Vertex
  d : Vertex
  deriving DecidableEq

/-- The quad is a rectangle parallel to the axes, in space and in the texture. -/
def Quad.Upright (q : Quad) : Prop :=
  q.a.x = q.d.x ∧ q.b.x = q.c.x ∧ q.a.y = q.b.y ∧ q.c.y = q.d.y ∧
  q.a.u = q.d.u ∧ q.b.u = q.c.u ∧ q.a.v = q.b.v ∧ q.c.v = q.d.v ∧ q.a.pal = q.b.pal ∧ q.b.pal = q.c.pal ∧ q.c.pal = q.d.pal

/-- Interpolation between `(x0, u0)` and `(x1, u1)` at the centre of pixel `p`, rounded down. -/
def interp (x0 x1 u0 u1 p : Int) : Int := Int.fdiv (2 * u0 * (x1 - x0) + (2 * (p - x0) + 1) * (u1 - u0)) (2 * (x1 - x0))

/-- The pixel is inside. -/
def inside (x0 x1 p : Int) : Prop := (x0 ≤ p ∧ p < x1) ∨ (x1 ≤ p ∧ p < x0)

instance (x0 x1 p : Int) : Decidable (inside x0 x1 p) := inferInstanceAs (Decidable (_ ∨ _))

/-- The texel an upright quad shows at a pixel. -/
def Quad.at (q : Quad) (px py : Int) : Option (Int × Int) :=
  if inside q.a.x q.c.x px ∧ inside q.a.y q.c.y py then
    some (interp q.a.x q.c.x q.a.u q.c.u px, interp q.a.y q.c.y q.a.v q.c.v py)
  else none

/-- One draw call `draw_va` (`display_pc.c:268-273`): the quads in order, from a character texture of height `h`. -/
def drawVa (colTex : Nat → Nat) (bank : Nat) (tex : Nat → Nat) (h : Nat) (qs : List Quad) : Layer := fun px py =>
  qs.foldl (fun acc q => match q.at px py with
    | some (u, v) => (shade colTex bank q.a.pal (texel tex h u v)).or acc
    | none => acc) none

/-- `chr_texCoords` (`tilemap.c:33-37`; the same as `chr_texCoords2`, `sprite.c:20-24`). -/
def texCoords (chr : Int) (xofs yofs : Int) : Int × Int := (8 * (chr.tmod 32 + xofs), 8 * (chr.tdiv 32 + yofs))

/-- A quad of a tilemap after `init_tilemap`, `tile` and `palette` (`tilemap.c:6-27, 40-54`), moved by `(-ox, -oy)`; `16 * pal` is
stored in 8 bits. -/
def tileQuad (ox oy : Int) (x y : Nat) (chr : Int) (h v : Bool) (pal : Nat) : Quad :=
  let mk (dx dy : Int) (th tv : Bool) : Vertex :=
    ⟨x * 8 + dx - ox, y * 8 + dy - oy, 16 * pal % 256, (texCoords chr th.toNat tv.toNat).1, (texCoords chr th.toNat tv.toNat).2⟩
  ⟨mk 0 0 h v, mk 8 0 (!h) v, mk 8 8 (!h) (!v), mk 0 8 h (!v)⟩

/-! ## Layers -/

/-- Everything the display looks at.  `chrTex` are the ten character textures, `colTex` the colours;
`rotated` is the image of sprites with an angle; `panel` is everything only the lower screen shows: the sprites of keys and icons (moved
by `offset_key` where pressed), panel type, texts. -/
structure Scene where
  chrTex : Nat → Nat → Nat
  colTex : Nat → Nat
  bg : Bg.Bg
  gfx : Graphics.Gfx
  spr : Nat → Nat → Sprites.Sprite
  con : Console.Con
  cursor : Bool
  visible : Nat
  panelType : Nat
  panelText : Console.Con
  keysText : Console.Con
  keys : List Sprites.Sprite
  icons : List Sprites.Sprite
  rotated : Sprites.Sprite → Layer

/-- A bit of `p->res.visible` (`resources.h:77-88`): 0 console, 1 panel, 2 BG0, 3 BG1, 4 sprites, 5 graphics. -/
def Scene.shows (s : Scene) (bit : Nat) : Bool := s.visible.testBit bit

/-- Height of the character textures in order of `enum sbc_tex` (`display_pc.c:96-102`): `size/4`. -/
def texHeight (t : Nat) : Nat := [128, 256, 256, 512, 128, 128, 256, 256, 512, 128].getD t 0

/-- `draw_va` for a texture number. -/
def Scene.draw (s : Scene) (bank tex : Nat) (qs : List Quad) : Layer := drawVa s.colTex bank (s.chrTex tex) (texHeight tex) qs

/-- Nothing is drawn. -/
def blank : Layer := fun _ _ => none

/-- One draw call after another. -/
def over (top bottom : Layer) : Layer := fun x y => (top x y).or (bottom x y)

/-- All cells of a text screen, in the order of the tilemap. -/
def cells (w h : Nat) : List (Nat × Nat) := (List.range h).flatMap fun y => (List.range w).map fun x => (x, y)

/-- `display_console` (`display_pc.c:279-299`). -/
def Scene.console (s : Scene) : Layer :=
  let text := (cells 32 24).map fun (x, y) => tileQuad 0 0 x y (Strs.toChar (s.con.text y x)) false false (s.con.color y x &&& 0x0f)
  let back := (cells 32 24).map fun (x, y) =>
    let c := (s.con.color y x &&& 0xf0) >>> 4
    tileQuad 0 0 x y (if c ≠ 0 then 15 else 0) false false c
  over (if s.shows 0 then s.draw 0 0 text else blank) (s.draw 0 1 back)

/-- `display_panel_console` (`display_pc.c:301-317`). -/
def Scene.panelConsole (s : Scene) : Layer :=
  let c := if s.panelType = 0 ∨ s.panelType = 1 then s.panelText else s.keysText
  s.draw 3 5 ((cells 32 24).map fun (x, y) => tileQuad 0 0 x y (Strs.toChar (c.text y x)) false false (c.color y x &&& 0x0f))

/-- Conversion of an `int` to `uint32_t`. -/
def u32 (x : Int) : Nat := (x % 4294967296).toNat

/-- The quad of a map entry (`display_pc.c:341-343`, `366-368`). -/
def entryQuad (ox oy : Int) (x y td : Nat) : Quad :=
  tileQuad ox oy x y (td &&& 0x3ff : Nat) ((td &&& 0x400) >>> 10 ≠ 0) ((td &&& 0x800) >>> 11 ≠ 0) ((td &&& 0xf000) >>> 12)

/-- `display_background` (`display_pc.c:319-356`).  Only the 33 × 25 quads updated by the loop are listed; the others are to
the right of or below the screen. -/
def Scene.background (s : Scene) (screen layer : Nat) : Layer :=
  if ¬ s.shows 2 ∧ layer = 0 then blank
  else if ¬ s.shows 3 ∧ layer = 1 then blank
  else
    let ofs := s.bg.ofs screen layer
    let sx := u32 ((fpToInt ofs.x).tdiv 8) % 64
    let sy := u32 ((fpToInt ofs.y).tdiv 8) % 64
    let ox := u32 (fpToInt ofs.x) % 8
    let oy := u32 (fpToInt ofs.y) % 8
    s.draw (if screen ≠ 0 then 3 else 0) (if screen ≠ 0 then 7 else 2) ((cells 33 25).map fun (x, y) =>
      entryQuad ox oy x y (s.bg.scr (Bg.bank screen layer) (Bg.bgIndex ((x + sx) % 64 : Nat) ((y + sy) % 64 : Nat))))

/-- `display_panel_background` (`display_pc.c:358-372`); the panel is SCR bank 5. -/
def Scene.panelBackground (s : Scene) : Layer :=
  if s.panelType = 0 then blank
  else if ¬ s.shows 1 then blank
  else s.draw 3 6 ((cells 32 24).map fun (x, y) => entryQuad 0 0 x y (s.bg.scr 5 (x + 32 * y)))

/-- `display_graphics` with `draw_graphic` (`display_pc.c:469-483`, `graphic.c:29-39`): a sprite of 256 × 192 at the origin. -/
def Scene.graphics (s : Scene) (screen prio : Nat) : Layer :=
  if screen = 1 ∧ ¬ (s.panelType = 0 ∨ s.panelType = 1) then blank
  else if screen = 1 ∧ ¬ s.shows 1 then blank
  else if ¬ s.shows 5 then blank
  else if prio = s.gfx.prio screen then fun px py =>
    if 0 ≤ px ∧ px < 256 ∧ 0 ≤ py ∧ py < 192 then
      colorAt s.colTex (2 + 3 * screen) (s.gfx.grp (s.gfx.displaypage screen) (Graphics.grpIndex px py))
    else none
  else blank

/-! ## Sprites -/

/-- One quad of `add_sprite` (`sprite.c:117-120`) from the corner `(xc, yc)`, the steps along the rows `(ax, ay)` and down the columns
`(bx, by)`. -/
def spriteQuad (xc yc ax ay bx b_y : Int) (pal : Nat) (chr : Int) : Quad :=
  let mk (x y : Int) (tx ty : Int) : Vertex := ⟨fpToInt x, fpToInt y, pal, (texCoords chr tx ty).1, (texCoords chr tx ty).2⟩
  ⟨mk xc yc 0 0, mk (xc + ax) (yc + ay) 1 0, mk (xc + ax + bx) (yc + ay + b_y) 1 1, mk (xc + bx) (yc + b_y) 0 1⟩

/-- The inner loop of `add_sprite` (`sprite.c:114-125`). -/
def spriteRow (ax ay bx b_y : Int) (pal : Nat) : Nat → Int → Int → Int → List Quad
  | 0, _, _, _ => []
  | n + 1, xc, yc, chr => spriteQuad xc yc ax ay bx b_y pal chr :: spriteRow ax ay bx b_y pal n (xc + ax) (yc + ay) (chr + 1)

/-- The outer loop (`sprite.c:113-130`); `cols` is `w / 8`. -/
def spriteRows (ax ay bx b_y : Int) (pal cols : Nat) : Nat → Int → Int → Int → List Quad
  | 0, _, _, _ => []
  | n + 1, xc, yc, chr =>
    spriteRow ax ay bx b_y pal cols xc yc chr ++
      spriteRows ax ay bx b_y pal cols n (xc + cols * ax + -cols * ax + bx) (yc + cols * ay + -cols * ay + b_y) (chr + cols)

/-- `add_sprite` (`sprite.c:33-133`) for a sprite without an angle.  Overflow of the corners is undefined (the loop stays between
them), and a width or height of 0 divides by 0. -/
def addSprite (s : Sprites.Sprite) : Out (List Quad) :=
  let sc := s.scale.v
  let l := -sc * s.homeX
  let r := -sc * s.homeX + s.w * sc
  let t := -sc * s.homeY
  let b := -sc * s.homeY + s.h * sc
  let x1 := if s.flipX then r else l
  let x2 := if s.flipX then l else r
  let y1 := if s.flipY then b else t
  let y4 := if s.flipY then t else b
  if I32 (-sc) ∧ I32 (s.w * sc) ∧ I32 (s.h * sc) ∧ I32 l ∧ I32 r ∧ I32 t ∧ I32 b ∧ I32 (x1 + s.pos.x) ∧ I32 (x2 + s.pos.x) ∧ I32 (y1 + s.pos.y) ∧ I32 (y4 + s.pos.y) ∧ s.w ≠ 0 ∧ s.h ≠ 0 then
    let x1 := x1 + s.pos.x
    let x2 := x2 + s.pos.x
    let y1 := y1 + s.pos.y
    let y4 := y4 + s.pos.y
    let ax := (x2 - x1).tdiv s.w * 8
    let ay := (y1 - y1).tdiv s.w * 8
    let bx := (x1 - x1).tdiv s.h * 8
    let b_y := (y4 - y1).tdiv s.h * 8
    .ok (spriteRows ax ay bx b_y (16 * s.pal % 256) (s.w / 8) (s.h / 8) x1 y1 (4 * Sprites.shownChr s))
  else .ub

/-- The sprites of a vertex array, from the lowest (first) to the topmost (last). -/
def Scene.sprites (s : Scene) (bank tex : Nat) : List Sprites.Sprite → Out Layer
  | [] => .ok blank
  | i :: r =>
    if i.angle.v ≠ 0 then (s.sprites bank tex r).bind fun top => .ok (over top (s.rotated i))
    else (addSprite i).bind fun qs => (s.sprites bank tex r).bind fun top => .ok (over top (s.draw bank tex qs))

/-- `display_sprite` (`display_pc.c:374-396`). -/
def Scene.sprite (s : Scene) (screen prio : Nat) : Out Layer :=
  if screen = 1 ∧ (s.panelType ≠ 0 ∨ ¬ s.shows 1) then .ok blank
  else if ¬ s.shows 4 then .ok blank
  else s.sprites (if screen ≠ 0 then 4 else 1) (if screen ≠ 0 then 9 else 3)
    (((List.range 100).map (s.spr screen)).filter fun i => i.active ∧ i.prio = prio)

/-- `display_panel_keys` (`display_pc.c:398-426`). -/
def Scene.panelKeys (s : Scene) : Out Layer :=
  if s.panelType = 0 ∨ s.panelType = 1 then .ok blank
  else if ¬ s.shows 1 then .ok blank
  else s.sprites 4 8 (s.keys.filter (·.active))

/-- `display_icon` (`display_pc.c:428-451`). -/
def Scene.icon (s : Scene) : Out Layer := s.sprites 4 8 (s.icons.filter (·.active))

/-- `display_cursor` (`display_pc.c:453-467`). -/
def Scene.cursorLayer (s : Scene) : Out Layer :=
  if ¬ s.cursor then .ok blank
  else
    let c := Sprites.initSprite 100 108 0 false false 0 8 8
    s.sprites 1 4 [{ c with pos := { c.pos with x := intToFp (s.con.x * 8), y := intToFp (s.con.y * 8) } }]

/-- The draw calls of a screen in order, on top of each other. -/
def stack : List (Out Layer) → Out Layer
  | [] => .ok blank
  | l :: r => l.bind fun bottom => (stack r).bind fun top => .ok (over top bottom)

/-- The upper screen (`display_draw_all`, `display_pc.c:220-239`). -/
def Scene.upper (s : Scene) : Out Layer :=
  stack [.ok (s.graphics 0 3), s.sprite 0 3, .ok (s.background 0 1), .ok (s.graphics 0 2), s.sprite 0 2, .ok (s.background 0 0),
    .ok (s.graphics 0 1), s.sprite 0 1, .ok s.console, .ok (s.graphics 0 0), s.sprite 0 0, s.cursorLayer]

/-- The lower screen (`display_pc.c:241-262`). -/
def Scene.lower (s : Scene) : Out Layer :=
  stack [.ok (s.graphics 1 3), s.sprite 1 3, .ok (s.background 1 1), .ok (s.graphics 1 2), s.sprite 1 2, .ok (s.background 1 0),
    .ok (s.graphics 1 1), s.sprite 1 1, .ok s.panelBackground, s.panelKeys, .ok s.panelConsole, .ok (s.graphics 1 0), s.sprite 1 0, s.icon]

/-! ## Keeping the textures up to date -/

/-- The first bank and the number of banks of a character texture (`display_pc.c:150-209`; `page` is 0 or 1 and `CHR_BANKS` 22). -/
def texBanks (t : Nat) : Nat × Nat := ([(0, 2), (4, 4), (8, 4), (12, 8), (20, 2), (22, 2), (26, 4), (30, 4), (34, 8), (42, 2)] : List (Nat × Nat)).getD t (0, 0)

/-- The size in characters of a texture. -/
def texSize (t : Nat) : Nat := 256 * (texBanks t).2

/-- One texture: regenerated if one of its banks is marked, and the marks are cleared. -/
def refreshTex (junk : Nat → Nat) (b : Res.Bank) (tex : Nat → Nat → Nat) (t : Nat) : Out (Res.Bank × (Nat → Nat → Nat)) :=
  let f := (texBanks t).1
  let n := (texBanks t).2
  if ∃ k ∈ List.range n, b.regenChr (f + k) = true then
    (genChr junk (chrSrc b f) (texSize t)).bind fun a =>
      .ok ({ b with regenChr := fun j => if f ≤ j ∧ j < f + n then false else b.regenChr j }, upd tex t a)
  else .ok (b, tex)

/-- All textures (`display_pc.c:150-209`). -/
def refreshLoop (junk : Nat → Nat) : List Nat → Res.Bank × (Nat → Nat → Nat) → Out (Res.Bank × (Nat → Nat → Nat))
  | [], x => .ok x
  | t :: r, x => (refreshTex junk x.1 x.2 t).bind fun y => refreshLoop junk r y

/-- The beginning of `display_draw_all` (`display_pc.c:149-215`): character textures and colours. -/
def refresh (junk : Nat → Nat) (b : Res.Bank) (tex : Nat → Nat → Nat) (col : Nat → Nat) :
    Out (Res.Bank × (Nat → Nat → Nat) × (Nat → Nat)) :=
  (refreshLoop junk (List.range 10) (b, tex)).bind fun x =>
    if x.1.regenCol then (genCol junk (colSrc x.1)).bind fun c => .ok ({ x.1 with regenCol := false }, x.2, c)
    else .ok (x.1, x.2, col)

/-- The part of LOAD and CHRINIT that changes characters (`resources.c:833-837`, `888-890`): `data` are the bytes of the file. -/
def loadChr (pg : Res.Pages) (b : Res.Bank) (n : List Nat) (data : List Nat) : Out Res.Bank :=
  (Res.resourcePtr pg n).bind fun l => (Res.chrIndex pg n).bind fun r => (b.write l 0 data).redraw r

/-- The part of LOAD and COLINIT that changes colours (`resources.c:833-841`, `983-1015`). -/
def loadCol (pg : Res.Pages) (b : Res.Bank) (n : List Nat) (data : List Nat) : Out Res.Bank :=
  (Res.resourcePtr pg n).bind fun l => .ok { b.write l 0 data with regenCol := true }

/-- The loop of `init_display` (`display_pc.c:107-113`). -/
def initLoop (junk : Nat → Nat) (b : Res.Bank) : List Nat → (Nat → Nat → Nat) → Out (Nat → Nat → Nat)
  | [], tex => .ok tex
  | t :: r, tex => (genChr junk (chrSrc b (texBanks t).1) (texSize t)).bind fun a => initLoop junk b r (upd tex t a)

/-- The textures after `init_display` (`display_pc.c:106-115`). -/
def initTextures (junk : Nat → Nat) (b : Res.Bank) (tex : Nat → Nat → Nat) : Out ((Nat → Nat → Nat) × (Nat → Nat)) :=
  (initLoop junk b (List.range 10) tex).bind fun tex => (genCol junk (colSrc b)).bind fun c => .ok (tex, c)

end Sbc.Display
