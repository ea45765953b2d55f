import Verif.Model.Graphics
import Mathlib.Logic.Function.Iterate
set_option autoImplicit false
/-!
# Specification of the graphics pages

A page is a picture of 256×192 dots.
-/
namespace Sbc.Graphics.Spec
open Sbc

/-- A dot of the screen. -/
def OnScreen (x y : Int) : Prop := 0 ≤ x ∧ x < 256 ∧ 0 ≤ y ∧ y < 192

instance (x y : Int) : Decidable (OnScreen x y) := inferInstanceAs (Decidable (_ ∧ _))

/-- The colour after drawing colour `c` on a dot that had colour `old`, in normal or XOR mode. -/
def put (xor : Bool) (c old : Nat) : Nat := if xor then old ^^^ c else c

/-- The colour after drawing it `n` times. -/
def putN (xor : Bool) (c : Nat) (n : Nat) (old : Nat) : Nat := (put xor c)^[n] old

end Sbc.Graphics.Spec
namespace Sbc.Graphics
open Sbc Sbc.Graphics.Spec

/-- The dot of page `p` as `GSPOIT(p,x,y)` shows it. -/
def Gfx.dot (g : Gfx) (p : Nat) (x y : Int) : Nat := g.grp p (grpIndex x y)

/-- `g'` differs from `g` only in the dots of the page drawn to, where every dot of the screen has become
`f x y` of its old colour.  The bytes beyond the page's 49152 are unchanged. -/
structure Draws (g g' : Gfx) (f : Int → Int → Nat → Nat) : Prop where
  dots : ∀ x y, OnScreen x y → g'.dot g.page x y = f x y (g.dot g.page x y)
  beyond : ∀ i, 49152 ≤ i → g'.grp g.page i = g.grp g.page i
  pages : ∀ p, p ≠ g.page → g'.grp p = g.grp p
  settings : (g'.screen, g'.color, g'.drawmode, g'.drawpage, g'.displaypage, g'.prio) =
    (g.screen, g.color, g.drawmode, g.drawpage, g.displaypage, g.prio)

/-- The colour argument is accepted and means colour `c`. -/
def ColorArg (g : Gfx) (a : Option Int) (c : Nat) : Prop :=
  match a with
  | none => c = g.color
  | some v => 0 ≤ v / 4096 ∧ v / 4096 ≤ 255 ∧ (c : Int) = v / 4096

end Sbc.Graphics
namespace Sbc.Graphics.Spec

/-- `f` draws the straight line from `(a,b)` to `(c,d)` along the first coordinate: it joins the end points,
makes no jumps, and stays within less than one dot of the ideal line. -/
structure Straight (a b c d : Int) (f : Int → Int) : Prop where
  start : f a = b
  stop : f c = d
  steps : ∀ t, min a c ≤ t → t < max a c → -1 ≤ f (t + 1) - f t ∧ f (t + 1) - f t ≤ 1
  near : ∀ t, min a c ≤ t → t ≤ max a c → a ≠ c → ((f t - b) * (c - a) - (t - a) * (d - b)).natAbs < (c - a).natAbs

/-- `ps` are the dots of a straight line between two points, each drawn once. -/
def IsLine (x1 y1 x2 y2 : Int) (ps : List (Int × Int)) : Prop :=
  ps.Nodup ∧
  (if (y2 - y1).natAbs ≤ (x2 - x1).natAbs then
    ∃ f, Straight x1 y1 x2 y2 f ∧ ∀ x y, (x, y) ∈ ps ↔ min x1 x2 ≤ x ∧ x ≤ max x1 x2 ∧ y = f x
  else
    ∃ f, Straight y1 x1 y2 x2 f ∧ ∀ x y, (x, y) ∈ ps ↔ min y1 y2 ≤ y ∧ y ≤ max y1 y2 ∧ x = f y)

end Sbc.Graphics.Spec
