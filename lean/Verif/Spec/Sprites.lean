import Verif.Model.Sprites
import Mathlib.Algebra.Order.Field.Rat
set_option autoImplicit false
/-!
# What sprite collisions and movement mean

Written without reference to the separating axes of the implementation.
-/
namespace Sbc.Sprites
open Sbc

/-- A closed axis-parallel rectangle with corners on the 1/4096 dot grid. -/
structure Box where
  left : Int
  top : Int
  right : Int
  bottom : Int
  deriving DecidableEq

/-- The point belongs to the rectangle. -/
def Box.Has (b : Box) (x y : Rat) : Prop := (b.left : Rat) ≤ x ∧ x ≤ b.right ∧ (b.top : Rat) ≤ y ∧ y ≤ b.bottom

/-- The rectangle is not turned inside out. -/
def Box.Proper (b : Box) : Prop := b.left ≤ b.right ∧ b.top ≤ b.bottom

/-- Two rectangles share a point. -/
def Box.Meets (a b : Box) : Prop := ∃ x y : Rat, a.Has x y ∧ b.Has x y

/-- While `a` moves by `(vx, vy)` there is a moment at which it shares a point with `b`. -/
def Box.Sweeps (a b : Box) (vx vy : Int) : Prop :=
  ∃ lam : Rat, 0 ≤ lam ∧ lam ≤ 1 ∧ ∃ x y : Rat, a.Has (x - lam * vx) (y - lam * vy) ∧ b.Has x y

/-- The hit rectangle of a sprite: the rectangle of SPCOL, scaled by SPSCALE (rounding down), at the
position of the sprite. -/
def hitBox (s : Sprite) : Box where
  left := s.pos.x + s.hit.x * s.scale.v / 4096
  top := s.pos.y + s.hit.y * s.scale.v / 4096
  right := s.pos.x + (s.hit.x + s.hit.w) * s.scale.v / 4096
  bottom := s.pos.y + (s.hit.y + s.hit.h) * s.scale.v / 4096

/-- The displacement per frame used for collisions: that of SPCOLVEC if one is set, else the movement. -/
def velocity (s : Sprite) : Int × Int := if s.hit.dx = 0 ∧ s.hit.dy = 0 then (s.pos.dx, s.pos.dy) else (s.hit.dx, s.hit.dy)

/-- Two sprites collide. -/
def Collide (a b : Sprite) : Prop :=
  a.active = true ∧ b.active = true ∧ a.hit.mask &&& b.hit.mask ≠ 0 ∧
    (hitBox a).Sweeps (hitBox b) ((velocity a).1 - (velocity b).1) ((velocity a).2 - (velocity b).2)

/-- The magnitudes for which the collision arithmetic fits its types: positions within ±131072 dots,
displacements within ±16384 dots per frame, hit rectangles as SPCOL makes them, scale at most 2.0. -/
structure Sane (s : Sprite) : Prop where
  x : -536870912 ≤ s.pos.x ∧ s.pos.x ≤ 536870912
  y : -536870912 ≤ s.pos.y ∧ s.pos.y ≤ 536870912
  dx : -67108864 ≤ s.pos.dx ∧ s.pos.dx ≤ 67108864
  dy : -67108864 ≤ s.pos.dy ∧ s.pos.dy ≤ 67108864
  hdx : -67108864 ≤ s.hit.dx ∧ s.hit.dx ≤ 67108864
  hdy : -67108864 ≤ s.hit.dy ∧ s.hit.dy ≤ 67108864
  hx : -524288 ≤ s.hit.x ∧ s.hit.x ≤ 520192
  hy : -524288 ≤ s.hit.y ∧ s.hit.y ≤ 520192
  hw : 0 ≤ s.hit.w ∧ s.hit.w ≤ 1048576
  hh : 0 ≤ s.hit.h ∧ s.hit.h ≤ 1048576
  sc : 0 ≤ s.scale.v ∧ s.scale.v ≤ 8192

/-- `n` frames. -/
def frames : Nat → Sprites → Out Sprites
  | 0, g => .ok g
  | n + 1, g => (stepSprites g).bind (frames n)

end Sbc.Sprites
