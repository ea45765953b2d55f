import Verif.Spec.Graphics
import Verif.Spec.RealMath
import Verif.Model.Circle
set_option autoImplicit false
/-!
# Specification of circles
-/
namespace Sbc.Circle.Spec
open Sbc

/-- The distance of two points of the plane. -/
noncomputable def dist (a b c d : ℝ) : ℝ := Real.sqrt ((a - c) ^ 2 + (b - d) ^ 2)

/-- `drawn` is a circle around (`x`, `y`) with radius `r`, up to the size of the dots: every drawn dot is within 2.5 dots of the
ideal line, and every point of the ideal line is within 3.1 dots of a drawn one. -/
structure IsCircle (x y r : Int) (drawn : Int → Int → Prop) : Prop where
  near : ∀ u v, drawn u v → |dist u v x y - r| ≤ 5 / 2
  full : ∀ t : ℝ, ∃ u v, drawn u v ∧ dist u v (x + r * Real.cos t) (y + r * Real.sin t) ≤ 31 / 10

end Sbc.Circle.Spec
