import Verif.Model.Common
/-!
# Numeric operators (`source/interpreter/operators.c`)

Operands are `fixp` values already fetched from the value stack.
-/
namespace Sbc.Arith
open Sbc

/-- The shared overflow check `if (z < INT_MIN || z > INT_MAX) ERROR(ERR_OVERFLOW)`
(`operators.c:26-28`, `69-71`, `105-107`, `117-119`). -/
def checked (z : Int) : Out Int :=
  if z < -2147483648 ∨ z > 2147483647 then .err .overflow else .ok z

/-- `op_add`, number branch (`operators.c:22-30`): 64-bit sum, checked, then 32-bit sum. -/
def opAdd (x y : Int) : Out Int := checked (x + y)

/-- `op_sub` (`operators.c:113-123`). -/
def opSub (x y : Int) : Out Int := checked (x - y)

/-- `op_mult`, number branch (`operators.c:65-73`): 64-bit product shifted right (floor) by 12. -/
def opMult (x y : Int) : Out Int := checked ((x * y) / 4096)

/-- `op_div` (`operators.c:99-111`): `((dfixp)x << 12) / y`, C division truncates toward zero.  The left
shift of a negative number is taken as multiplication (gcc/clang semantics). -/
def opDiv (x y : Int) : Out Int :=
  if y = 0 then .err .divideByZero else checked ((x * 4096).tdiv y)

/-- `op_modulo` (`operators.c:279-290`): `x % y` in `int`; `INT_MIN % -1` is undefined in C. -/
def opModulo (x y : Int) : Out Int :=
  if y = 0 then .err .divideByZero
  else if x = -2147483648 ∧ y = -1 then .ub
  else .ok (x.tmod y)

/-- `op_negate` (`operators.c:125-132`): `-x`, undefined for `INT_MIN`. -/
def opNegate (x : Int) : Out Int := if x = -2147483648 then .ub else .ok (-x)

/-- The 32-bit two's complement pattern of an `int`. -/
def bits (x : Int) : BitVec 32 := BitVec.ofInt 32 x

/-- `op_and` (`operators.c:292-301`). -/
def opAnd (x y : Int) : Out Int := .ok (intToFp ((bits (fpToInt x) &&& bits (fpToInt y)).toInt))
/-- `op_or` (`operators.c:303-312`). -/
def opOr (x y : Int) : Out Int := .ok (intToFp ((bits (fpToInt x) ||| bits (fpToInt y)).toInt))
/-- `op_xor` (`operators.c:314-323`). -/
def opXor (x y : Int) : Out Int := .ok (intToFp ((bits (fpToInt x) ^^^ bits (fpToInt y)).toInt))
/-- `op_not` (`operators.c:325-332`). -/
def opNot (x : Int) : Out Int := .ok (intToFp ((~~~ bits (fpToInt x)).toInt))
/-- `op_logical_not` (`operators.c:334-341`). -/
def opLogicalNot (x : Int) : Out Int := .ok (intToFp (if x = 0 then 1 else 0))

/-- C truth value: `INT_TO_FP(cond)`. -/
def truth (b : Bool) : Int := intToFp (if b then 1 else 0)

/-- `op_equal` on numbers (`operators.c:194-198`). -/
def opEqual (x y : Int) : Out Int := .ok (truth (x == y))
/-- `op_inequal` on numbers (`operators.c:214-218`). -/
def opInequal (x y : Int) : Out Int := .ok (truth (x != y))
/-- `op_less` on numbers (`operators.c:235-236`). -/
def opLess (x y : Int) : Out Int := .ok (truth (decide (x < y)))
/-- `op_greater` on numbers (`operators.c:247-248`). -/
def opGreater (x y : Int) : Out Int := .ok (truth (decide (x > y)))
/-- `op_less_equal` on numbers (`operators.c:260-261`). -/
def opLessEqual (x y : Int) : Out Int := .ok (truth (decide (x ≤ y)))
/-- `op_greater_equal` on numbers (`operators.c:272-273`). -/
def opGreaterEqual (x y : Int) : Out Int := .ok (truth (decide (x ≥ y)))


/-! ## Integer mathematics functions (`source/interpreter/mathptc.c`) -/

/-- `func_rnd` (`mathptc.c:10-31`); `r0` is the value returned by the C library's `rand()`, which is
non-negative. -/
def fnRnd (r0 : Int) (a : Int) : Out Int :=
  let m0 := fpToInt a
  let m := if m0 = 0 then 1 else m0
  if m < 0 then .ok (intToFp (-(r0.tmod (-m)))) else .ok (intToFp (r0.tmod m))

/-- `func_floor` (`mathptc.c:40-45`). -/
def fnFloor (a : Int) : Out Int := .ok (intToFp (fpToInt a))

/-- `FIXP_PI` (`mathptc.c:34`). -/
def fixpPi : Int := 12867

/-- `func_rad_internal` (`mathptc.c:94-96`): 64-bit intermediate, converted to `fixp` on return. -/
def fnRad (deg : Int) : Out Int := .ok (wrap32 ((deg * fixpPi).tdiv (180 * 4096)))

/-- `func_deg_internal` (`mathptc.c:98-100`). -/
def fnDeg (rad : Int) : Out Int := .ok (wrap32 ((rad * (180 * 4096)).tdiv fixpPi))

/-- `func_abs` (`mathptc.c:164-174`). -/
def fnAbs (n : Int) : Out Int :=
  if n = -2147483648 then .ok n else .ok (if n < 0 then -n else n)

/-- `func_sgn` (`mathptc.c:176-183`). -/
def fnSgn (n : Int) : Out Int := .ok (if n < 0 then -4096 else if n > 0 then 4096 else 0)

end Sbc.Arith
