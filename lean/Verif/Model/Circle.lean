import Verif.Model.Graphics
import Verif.Model.RealMath
set_option autoImplicit false
/-!
# GCIRCLE (`source/subsystem/graphics.c:421-448`)

Numbers of type `double` are real numbers here, `rnd` is the rounding of a result to `double` (each operation is rounded
once: no fused operations).  `cos` and `sin` are functions of the C library (`Libm`).
-/
namespace Sbc.Circle
open Sbc Sbc.Graphics Sbc.RealMath

/-- `PI` (`graphics.c:422`). -/
noncomputable def piLit : ℝ := 3141592653589 / 1000000000000

/-- `2.0 * PI * i / angle_units` (`graphics.c:439-440`). -/
noncomputable def angle (rnd : ℝ → ℝ) (i units : Int) : ℝ := rnd (rnd (rnd (2 * rnd piLit) * i) / units)

/-- `int x1 = x + r * cos(angle)` (`graphics.c:441-444`), `t` the value of the function. -/
noncomputable def coord (rnd : ℝ → ℝ) (c r : Int) (t : ℝ) : Out Int := toFixp (trunc (rnd (c + rnd (r * t))))

/-- Pixels of the line number `i` (`graphics.c:438-446`). -/
noncomputable def segment (m : Libm) (rnd : ℝ → ℝ) (x y r i : Int) : Out (List (Int × Int)) :=
  (coord rnd x r (m.cos (angle rnd i (r + 16)))).bind fun x1 =>
  (coord rnd y r (m.sin (angle rnd i (r + 16)))).bind fun y1 =>
  (coord rnd x r (m.cos (angle rnd (i + 1) (r + 16)))).bind fun x2 =>
  (coord rnd y r (m.sin (angle rnd (i + 1) (r + 16)))).bind fun y2 =>
  linePixels x1 y1 x2 y2

/-- The loop (`graphics.c:438-447`): the pixels drawn, in order, from line `i` on for `n` lines. -/
noncomputable def segments (m : Libm) (rnd : ℝ → ℝ) (x y r : Int) : Nat → Int → Out (List (Int × Int))
  | 0, _ => .ok []
  | n + 1, i => (segment m rnd x y r i).bind fun ps => (segments m rnd x y r n (i + 1)).bind fun qs => .ok (ps ++ qs)

/-- `cmd_gcircle` (`graphics.c:424-448`); `rest` are the arguments after the radius. -/
noncomputable def cmdGcircle (m : Libm) (rnd : ℝ → ℝ) (g : Gfx) (x y r : Int) (rest : List Int) : Res :=
  withColor g (if rest.length + 3 = 4 then rest.head? else none) fun color =>
    (segments m rnd (fpToInt x) (fpToInt y) (fpToInt r) (fpToInt r + 16).toNat 0).bind fun ps =>
      fin (g.setPage (drawAll (g.grp g.page) ps color g.drawmode))

end Sbc.Circle
