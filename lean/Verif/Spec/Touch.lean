set_option autoImplicit false
/-!
# Specification of the touch screen

A history is the list of frames since the start, the oldest first; in each frame the pen is on the screen at a place, or it is not.
-/
namespace Sbc.Touch.Spec

/-- What the pen does in a frame. -/
abbrev Pen := Option (Nat × Nat)

/-- How many frames, up to the last one, the pen has been on the screen without interruption. -/
def heldFor (h : List Pen) : Nat := (h.reverse.takeWhile Option.isSome).length

/-- Where the pen was on the screen for the last time. -/
def lastPlace (h : List Pen) : Nat × Nat := (h.reverse.findSome? id).getD (0, 0)

/-- The pen is on the screen. -/
def touched (h : List Pen) : Bool := match h.getLast? with | some (some _) => true | _ => false

/-- A mouse in a window: pressed or not, and its place. -/
structure Mouse where
  pressed : Bool
  x : Int
  y : Int

/-- The mouse is over the picture of the lower screen: the lower half of a window of the size `wx` × `2 * h`. -/
def Mouse.below (m : Mouse) (wx h : Nat) : Prop := 0 ≤ m.x ∧ m.x < wx ∧ (h : Int) ≤ m.y ∧ m.y < 2 * h

/-- The point of the lower screen (256 × 192) under the mouse. -/
def Mouse.point (m : Mouse) (wx h : Nat) : Nat × Nat := ((256 * m.x / wx).toNat, (192 * (m.y - h) / h).toNat)

/-- The mouse as a pen. -/
def Mouse.pen (m : Mouse) (wx h : Nat) : Pen := if m.pressed then some (m.point wx h) else none

end Sbc.Touch.Spec
