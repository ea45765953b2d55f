import Verif.Model.RealMath
set_option autoImplicit false
/-!
# What is assumed of the C library, and what a result of 12 binary places means
-/
namespace Sbc.RealMath.Spec
open Sbc Sbc.RealMath

/-- `y` is `x` up to a relative error of 2⁻⁴⁰ (libraries in use are accurate to about 2⁻⁵²). -/
def Near (y x : ℝ) : Prop := |y - x| ≤ |x| / 2 ^ 40

/-- A rounding of real numbers to `double`: it keeps the order, and numbers with up to 53 binary digits as they are. -/
structure Rounding (rnd : ℝ → ℝ) : Prop where
  mono : ∀ x y, x ≤ y → rnd x ≤ rnd y
  exact : ∀ (k : ℤ) (e : ℕ), |k| ≤ 2 ^ 53 → e ≤ 1000 → rnd ((k : ℝ) / 2 ^ e) = (k : ℝ) / 2 ^ e

/-- The library is accurate, and its square root is rounded (as the standard for floating point numbers demands). -/
structure Accurate (m : Libm) : Prop where
  sqrt : ∃ rnd, Rounding rnd ∧ ∀ x, 0 ≤ x → m.sqrt x = rnd (Real.sqrt x)
  sin : ∀ x, Near (m.sin x) (Real.sin x)
  cos : ∀ x, Near (m.cos x) (Real.cos x)
  tan : ∀ x, Near (m.tan x) (Real.tan x)
  atan : ∀ x, Near (m.atan x) (Real.arctan x)
  /-- The angle of the point (`x`, `y`). -/
  atan2 : ∀ y x, Near (m.atan2 y x) (Complex.arg ⟨x, y⟩)
  exp : ∀ x, Near (m.exp x) (Real.exp x)
  log : ∀ x, 0 < x → Near (m.log x) (Real.log x)

/-- `r` is `x` in units of 1/4096, rounded down, but for an error of `e` units. -/
def Down (e : ℝ) (r : Int) (x : ℝ) : Prop := (r : ℝ) - e ≤ 4096 * x ∧ 4096 * x < r + 1 + e

/-- The numbers of type `float` (without regard to the range of exponents): 24 binary digits. -/
def Single (f : ℝ) : Prop := ∃ (k e : ℤ), |k| < 2 ^ 24 ∧ f = k * 2 ^ e

/-- `powf` of a positive base: accurate to 2⁻²², but for numbers too small for the type; infinite only if too large for it. -/
def PowfOk (p : ℝ) : F32 → Prop
  | .nan => False
  | .inf => p ≥ 2 ^ 127
  | .fin f => |f - p| ≤ p / 2 ^ 22 + 1 / 2 ^ 100

/-- The library for `float`: conversions are exact up to 24 binary digits, powers of positive bases are accurate, those of
negative bases with broken exponents are not numbers, and finite results are numbers of the type. -/
structure AccurateF (m : LibmF) : Prop where
  single : ∀ v : Int, |v| ≤ 2 ^ 24 → m.single v = v
  pow : ∀ x y : ℝ, 0 < x → PowfOk (x ^ y) (m.powf x y)
  nan : ∀ x y : ℝ, x < 0 → (¬ ∃ k : ℤ, y = k) → m.powf x y = .nan
  fin : ∀ (x y f : ℝ), m.powf x y = .fin f → Single f

end Sbc.RealMath.Spec
