/-!
# Shared conventions of the model

Numbers are unbounded integers; the predicates below say which of them fit the C types.
-/
namespace Sbc

/-- BASIC-level error codes (`source/error.h:8-79`, `enum err_code`).  Only the codes some modelled
function can raise are listed. -/
inductive Err where
  | overflow | divideByZero | outOfMemory | duplicateDim | subscriptX | subscriptY
  | stringTooLong | illegalFunctionCall | syntax | typeMismatch | outOfRange
  | labelNotFound | returnWithoutGosub | nextWithoutFor | outOfData | invalidTypes
  | missingElse | illegalAddress | nullAddress | misaligned | illegalOffset
  | unknownTransition | subscript | sortSame | sort2d | invalidResource | fileLoad | fileSave
  | forWithoutNext | labelAdd | brk | paintOverflow | wrongArgCount | noArguments
  | beginLoopNoEnd | forMissingBeginLoop | readFailure | testCommand | unknownToken
  | invalidArgumentValue
  deriving DecidableEq, Repr

/-- Result of a modelled C function: a value, a BASIC error (`ERROR(code)`, `source/common.h:44`), or
undefined behaviour / `abort()` / failed `assert` (the model never hides these). -/
inductive Out (α : Type) where
  | ok (a : α)
  | err (e : Err)
  | ub
  deriving DecidableEq, Repr

namespace Out
/-- Sequencing: errors and undefined behaviour stop execution of the C function. -/
def bind {α β : Type} : Out α → (α → Out β) → Out β
  | ok a, f => f a
  | err e, _ => err e
  | ub, _ => ub

instance : Monad Out where
  pure := ok
  bind := bind

/-- The value, if there is one. -/
def val? {α : Type} : Out α → Option α
  | ok a => some a
  | _ => none
end Out

/-- `x` fits in a C `int32_t` / `fixp` (`source/common.h:103`). -/
def I32 (x : Int) : Prop := -2147483648 ≤ x ∧ x ≤ 2147483647

instance (x : Int) : Decidable (I32 x) := inferInstanceAs (Decidable (_ ∧ _))

/-- `FIXPOINT` fractional bits: one is `4096` (`source/common.h:27-33`). -/
def fixOne : Int := 4096

/-- Conversion of an integer to `int32_t` (reduction modulo `2^32` to the signed range), as performed
by every C cast to `fixp`/`int` on the supported compilers. -/
def wrap32 (x : Int) : Int := (x + 2147483648) % 4294967296 - 2147483648

/-- `FP_TO_INT(num)`: arithmetic shift right by 12 (`source/common.h:29`). -/
def fpToInt (x : Int) : Int := x / 4096

/-- `INT_TO_FP(num)`: `(fixp)((uint32_t)num << 12)` (`source/common.h:31`). -/
def intToFp (n : Int) : Int := wrap32 (n * 4096)

theorem wrap32_i32 (x : Int) : I32 (wrap32 x) := by
  unfold I32 wrap32; omega

theorem wrap32_of_i32 {x : Int} (h : I32 x) : wrap32 x = x := by
  unfold I32 at h; unfold wrap32; omega

theorem intToFp_small {n : Int} (h : -524288 ≤ n ∧ n ≤ 524287) : intToFp n = n * 4096 := by
  unfold intToFp; apply wrap32_of_i32; unfold I32; omega

end Sbc
