import Verif.Model.Common
set_option autoImplicit false
/-!
# The touch screen (`source/subsystem/input.c`, `source/subsystem/sysvars.c`, `source/main.c`)

The mutex of the PC build makes every call of `set_touch` and every reading of a touch variable atomic.
-/
namespace Sbc.Touch
open Sbc

/-- The touch part of `struct input` (`input.h:68`).  (The counters are `uint_fast16_t`, which has 64 bits on the PC: they do not come to
their end and are modelled by natural numbers.) -/
structure St where
  time : Nat
  x : Nat
  y : Nat
  deriving DecidableEq

/-- After `init_system` (`system.c:28`, `calloc`). -/
def St.init : St := ⟨0, 0, 0⟩

/-- `set_touch` (`input.c:96-115`); the place is passed as two `u8`. -/
def St.set (s : St) (t : Bool) (x y : Nat) : St :=
  if t then ⟨s.time + 1, x % 256, y % 256⟩ else { s with time := 0 }

/-- `sys_tchst` (`sysvars.c:111-119`). -/
def St.tchst (s : St) : Int := intToFp (if s.time > 0 then 1 else 0)
/-- `sys_tchtime` (`sysvars.c:121-129`): the counter goes through an `int`. -/
def St.tchtime (s : St) : Int := intToFp (wrap32 s.time)
/-- `sys_tchx` (`sysvars.c:131-139`). -/
def St.tchx (s : St) : Int := intToFp (wrap32 s.x)
/-- `sys_tchy` (`sysvars.c:141-149`). -/
def St.tchy (s : St) : Int := intToFp (wrap32 s.y)

/-- Touch part of `frame_update` of the DS build (`main.c:84-112`). -/
def St.dsFrame (s : St) (pen : Bool) (x y : Nat) : St := s.set pen x y

/-- The place on the lower screen that belongs to a place of the mouse in a window of the size `wx` × `wy` (`main.c:294-303`), or none.
The products are of type `int`; they are divided as `unsigned`. -/
def pcPlace (px py : Int) (wx wy : Nat) : Out (Option (Nat × Nat)) :=
  if py ≥ (wy / 2 : Nat) then
    if wx = 0 ∨ wy / 2 = 0 ∨ ¬ I32 (256 * px) ∨ ¬ I32 (192 * py) then .ub
    else
      let tx := wrap32 ((256 * px) % 4294967296 / (wx : Int))
      let ty := wrap32 ((192 * py) % 4294967296 / ((wy / 2 : Nat) : Int) - 192)
      if tx < 256 ∧ tx ≥ 0 ∧ ty < 192 ∧ ty ≥ 0 then .ok (some (tx.toNat, ty.toNat)) else .ok none
  else .ok none

/-- Touch part of a frame of the PC build (`main.c:294-306`): nothing is set when the mouse is not over the lower screen. -/
def St.pcFrame (s : St) (pressed : Bool) (px py : Int) (wx wy : Nat) : Out St :=
  (pcPlace px py wx wy).bind fun r => match r with
    | some (x, y) => .ok (s.set pressed x y)
    | none => .ok s

end Sbc.Touch
