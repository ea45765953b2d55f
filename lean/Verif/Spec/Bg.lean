import Verif.Model.Bg
set_option autoImplicit false
/-!
# Specification of the background layers

A layer is a map of 64×64 tiles.  A tile is a number below 65536: character (0-1023), horizontal and vertical
flip, palette (0-15).
-/
namespace Sbc.Bg
open Sbc

/-- A place of the map. -/
def InMap (x y : Int) : Prop := 0 ≤ x ∧ x < 64 ∧ 0 ≤ y ∧ y < 64

instance (x y : Int) : Decidable (InMap x y) := inferInstanceAs (Decidable (_ ∧ _))

/-- The tile at a place of a layer of a page, as the screen shows it. -/
def Bg.tile (g : Bg) (page layer : Nat) (x y : Int) : Nat := g.scr (bank page layer) (bgIndex x y)

/-- `g'` differs from `g` only in one layer of the current page, where every tile has become `f x y` of its old
value; memory outside the 4096 cells of the layer is unchanged. -/
structure Changes (g g' : Bg) (layer : Nat) (f : Int → Int → Nat) : Prop where
  tiles : ∀ x y, InMap x y → g'.tile g.page layer x y = f x y
  beyond : ∀ i, 4096 ≤ i → g'.scr (bank g.page layer) i = g.scr (bank g.page layer) i
  banks : ∀ b, b ≠ bank g.page layer → g'.scr b = g.scr b
  rest : (g'.page, g'.ofs, g'.clip) = (g.page, g.ofs, g.clip)

/-- Tile number of a character with palette and flips. -/
def tileOf (chr pal h v : Nat) : Nat := chr + 1024 * h + 2048 * v + 4096 * pal

/-- The layer argument is accepted and means layer `l`. -/
def LayerArg (a : Int) (l : Nat) : Prop := a / 4096 = l ∧ l < 2

/-- The tile arguments of BGPUT and BGFILL are accepted and mean tile `t`. -/
def TileArg : Tile → Nat → Prop
  | .num v, t => (t : Int) = v / 4096 % 65536
  | .str s, t => ∃ n, Num.strToNumber (wideChars s) 16 false = .ok n ∧ (t : Int) = n / 4096 % 65536
  | .parts c p h v, t => ∃ c' p' h' v' : Nat, c / 4096 = c' ∧ c' < 1024 ∧ p / 4096 = p' ∧ p' < 16 ∧ h / 4096 = h' ∧ h' < 2 ∧ v / 4096 = v' ∧ v' < 2 ∧
      t = tileOf c' p' h' v'

/-- The nearest coordinate of the map. -/
def nearest (v : Int) : Int := max 0 (min 63 v)

/-- `(x,y)` is in the rectangle with the corners `(x1,y1)` and `(x2,y2)`, given in any order. -/
def InRect (x1 y1 x2 y2 x y : Int) : Prop := min x1 x2 ≤ x ∧ x ≤ max x1 x2 ∧ min y1 y2 ≤ y ∧ y ≤ max y1 y2

instance (x1 y1 x2 y2 x y : Int) : Decidable (InRect x1 y1 x2 y2 x y) := inferInstanceAs (Decidable (_ ∧ _))

end Sbc.Bg
