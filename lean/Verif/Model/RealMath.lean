import Verif.Model.Common
import Mathlib.Analysis.SpecialFunctions.Trigonometric.Arctan
import Mathlib.Analysis.SpecialFunctions.Pow.Real
import Mathlib.Analysis.SpecialFunctions.Complex.Arg
set_option autoImplicit false
/-!
# The mathematical functions on floating point numbers (`source/interpreter/mathptc.c:47-94`, `115-209`)

Numbers of type `double` and `float` are real numbers here.  The functions of the C library are parameters (`Libm`); what is
assumed of them stands in the theorems.  Divisions of 32-bit integers by 4096 and products with 4096 are exact in `double`
(a power of two, and nothing near the ends of the range of exponents), so they are written as operations of real numbers.
-/
namespace Sbc.RealMath
open Sbc

/-- The functions of `math.h` the program calls, on finite arguments. -/
structure Libm where
  sqrt : ℝ → ℝ
  sin : ℝ → ℝ
  cos : ℝ → ℝ
  tan : ℝ → ℝ
  atan : ℝ → ℝ
  atan2 : ℝ → ℝ → ℝ
  exp : ℝ → ℝ
  log : ℝ → ℝ

/-- `value/4096.0`: the number a `fixp` stands for. -/
noncomputable def num (v : Int) : ℝ := (v : ℝ) / 4096

/-- Conversion of an integral `double` to `fixp`; outside the range of `int32_t` it is undefined (C11 6.3.1.4). -/
def toFixp (n : Int) : Out Int := if I32 n then .ok n else .ub

/-- `floor(4096*(…))` assigned to a `fixp` (`mathptc.c:65`, `70`, `116`, `122`, `127`, `186`, `191`). -/
noncomputable def floored (y : ℝ) : Out Int := toFixp ⌊4096 * y⌋

/-- `round(…)` of the C library: to the nearest integer, halves away from zero. -/
noncomputable def cRound (y : ℝ) : Int := if 0 ≤ y then ⌊y + 1 / 2⌋ else ⌈y - 1 / 2⌉

/-- `func_sqr` (`mathptc.c:185-199`).  The square root of a negative number is not a number, the conversion of which is
undefined. -/
noncomputable def fnSqr (m : Libm) (v : Int) : Out Int := if v < 0 then .ub else floored (m.sqrt (num v))
/-- `func_sin` (`mathptc.c:115-137`). -/
noncomputable def fnSin (m : Libm) (v : Int) : Out Int := floored (m.sin (num v))
/-- `func_cos` (`mathptc.c:121-143`). -/
noncomputable def fnCos (m : Libm) (v : Int) : Out Int := floored (m.cos (num v))
/-- `func_tan` (`mathptc.c:126-149`). -/
noncomputable def fnTan (m : Libm) (v : Int) : Out Int := floored (m.tan (num v))
/-- `func_atan` with one argument (`mathptc.c:64-67`, `151-155`). -/
noncomputable def fnAtan (m : Libm) (v : Int) : Out Int := floored (m.atan (num v))
/-- `func_atan` with two arguments (`mathptc.c:69-72`, `156-161`). -/
noncomputable def fnAtan2 (m : Libm) (y x : Int) : Out Int := floored (m.atan2 (num y) (num x))
/-- `func_exp` (`mathptc.c:190-208`). -/
noncomputable def fnExp (m : Libm) (v : Int) : Out Int := floored (m.exp (num v))
/-- `func_log` (`mathptc.c:47-62`). -/
noncomputable def fnLog (m : Libm) (v : Int) : Out Int :=
  if v ≤ 0 then .err .illegalFunctionCall else toFixp (cRound (4096 * m.log (num v)))

/-- A result of `powf`. -/
inductive F32 where
  | nan
  | inf
  | fin (f : ℝ)

/-- Truncation towards zero. -/
noncomputable def trunc (y : ℝ) : Int := if 0 ≤ y then ⌊y⌋ else ⌈y⌉

/-- The end of `func_pow` (`mathptc.c:85-93`), after the call of `powf`.  Comparisons with a not-a-number are false, and its
conversion is undefined.  `4096*f` is exact. -/
noncomputable def powResult : F32 → Out Int
  | .inf => .err .illegalFunctionCall
  | .fin f => if f ≥ 524288 ∨ f ≤ -524288 then .err .overflow else toFixp (trunc (4096 * f))
  | .nan => .ub

/-- `powf`, and the conversion of `int` to `float`. -/
structure LibmF where
  powf : ℝ → ℝ → F32
  single : Int → ℝ

/-- `func_pow` (`mathptc.c:74-93`): base `b`, exponent `e`. -/
noncomputable def fnPow (m : LibmF) (b e : Int) : Out Int := powResult (m.powf (m.single b / 4096) (m.single e / 4096))

end Sbc.RealMath
