import Verif.Model.Graphics
set_option autoImplicit false
/-!
# GPAINT (`source/subsystem/graphics.c:450-540`)

The paint stack is a list of packed 32-bit words, top first.
-/
namespace Sbc.Graphics
open Sbc

/-- `PAINT_STACK_MAX` (`graphics.c:459`). -/
def paintMax : Nat := 256

/-- `inside` (`graphics.c:453-457`). -/
def inside (d : Page) (x y : Int) (mt : Int) : Bool :=
  if x < 0 ∨ x ≥ gw ∨ y < 0 ∨ y ≥ gh then false
  else if mt ≥ 0 then decide ((d (grpIndex x y) : Int) = mt) else decide ((d (grpIndex x y) : Int) ≠ -mt - 1)

/-- Two's complement bits of an `int`. -/
def bits (x : Int) : Nat := (x % 4294967296).toNat

/-- The word stored by `PAINT_STACK_ADD` (`graphics.c:466`). -/
def pack (x1 x2 y dy : Int) : Nat :=
  bits x1 ||| bits (x2 * 256) ||| bits (y * 65536) ||| (if dy > 0 then 16777216 else 0)

/-- `PAINT_STACK_GET` (`graphics.c:469-475`): `x1`, `x2`, `y`, `dy`. -/
def unpack (v : Nat) : Nat × Nat × Nat × Int :=
  (v &&& 0xff, (v &&& 0xff00) >>> 8, (v &&& 0xff0000) >>> 16, if v &&& 0x1000000 ≠ 0 then 1 else -1)

/-- `PAINT_STACK_ADD` (`graphics.c:461-467`); `none` is the overflow error. -/
def paintPush (stk : List Nat) (v : Nat) : Option (List Nat) :=
  if stk.length ≥ paintMax then none else some (v :: stk)

/-- The loop to the left (`graphics.c:513-516`); at column 0, `x-1` is off the screen. -/
def leftLoop (mt : Int) (c y : Nat) : Nat → Page → Page × Nat
  | 0, d => (d, 0)
  | x + 1, d => if inside d x y mt then leftLoop mt c y x (upd d (grpIndex x y) c) else (d, x + 1)

/-- The loop to the right (`graphics.c:522-525`); the first argument is `256 - x1`, after which the column is
off the screen. -/
def rightLoop (mt : Int) (c y : Nat) : Nat → Page → Nat → Page × Nat
  | 0, d, x1 => (d, x1)
  | n + 1, d, x1 => if inside d x1 y mt then rightLoop mt c y n (upd d (grpIndex x1 y) c) (x1 + 1) else (d, x1)

/-- The skipping loop (`graphics.c:533-535`); the first argument is `x2 - x1`. -/
def skipLoop (mt : Int) (y x2 : Nat) : Nat → Page → Nat → Nat
  | 0, _, x1 => x1
  | n + 1, d, x1 => if x1 < x2 ∧ inside d x1 y mt = false then skipLoop mt y x2 n d (x1 + 1) else x1

/-- The loop `while(x1 <= x2)` (`graphics.c:521-537`); each round increases `x1`, so `x2 + 1 - x1` rounds are
enough.  `x1 - 1 > x2` is written `x1 > x2 + 1`. -/
def rowLoop (mt : Int) (c y : Nat) (dy : Int) (x2 : Nat) : Nat → Page → List Nat → Nat → Nat → Page × Option (List Nat)
  | 0, d, stk, _, _ => (d, some stk)
  | n + 1, d, stk, x, x1 =>
    if x1 ≤ x2 then
      let r := rightLoop mt c y (256 - x1) d x1
      match (if r.2 > x then paintPush stk (pack x (r.2 - 1 : Int) (y + dy) dy) else some stk) with
      | none => (r.1, none)
      | some stk =>
        match (if r.2 > x2 + 1 then paintPush stk (pack (x2 + 1) (r.2 - 1 : Int) (y - dy) (-dy)) else some stk) with
        | none => (r.1, none)
        | some stk =>
          let x1' := skipLoop mt y x2 (x2 - (r.2 + 1)) r.1 (r.2 + 1)
          rowLoop mt c y dy x2 n r.1 stk x1' x1'
    else (d, some stk)

/-- One round of the main loop for the entry popped (`graphics.c:511-537`). -/
def paintEntry (mt : Int) (c : Nat) (d : Page) (stk : List Nat) (x1 x2 y : Nat) (dy : Int) : Page × Option (List Nat) :=
  if inside d x1 y mt then
    let r := leftLoop mt c y x1 d
    match (if r.2 < x1 then paintPush stk (pack r.2 (x1 - 1 : Int) (y - dy) (-dy)) else some stk) with
    | none => (r.1, none)
    | some stk => rowLoop mt c y dy x2 (x2 + 1 - x1) r.1 stk r.2 x1
  else rowLoop mt c y dy x2 (x2 + 1 - x1) d stk x1 x1

/-- The main loop (`graphics.c:507-539`) for at most `fuel` rounds; `none` when it has not ended by then. -/
def paintLoop (mt : Int) (c : Nat) : Nat → Page → List Nat → Option (Page × Option Err)
  | _, d, [] => some (d, none)
  | 0, _, _ :: _ => none
  | fuel + 1, d, v :: stk =>
    let (x1, x2, y, dy) := unpack v
    match paintEntry mt c d stk x1 x2 y dy with
    | (d, none) => some (d, some .paintOverflow)
    | (d, some stk) => paintLoop mt c fuel d stk

/-- The `while` loop of `cmd_gpaint` after pushing the two initial entries (`graphics.c:501-539`). -/
def paintFrom (mt : Int) (c : Nat) (fuel : Nat) (d : Page) (x y : Int) : Option (Page × Option Err) :=
  paintLoop mt c fuel d [pack x x (y - 1) (-1), pack x x y 1]

/-- `cmd_gpaint` (`graphics.c:478-540`) for at most `fuel` rounds.  The read of the start dot's colour is outside
the page (undefined) when its index is. -/
def cmdGpaint (fuel : Nat) (g : Gfx) (x y : Int) (c b : Option Int) : Option Res :=
  let x := fpToInt x
  let y := fpToInt y
  let go (c : Nat) (mt : Int) : Option Res :=
    (paintFrom mt c fuel (g.grp g.page) x y).map fun r => .ok (g.setPage r.1, r.2)
  let withMatch (c : Nat) : Option Res :=
    match b with
    | some b =>
      let b := fpToInt b
      if b < 0 ∨ b > 255 then some (fail g .outOfRange) else go c (-1 - b)
    | none => if grpIndex x y < grpSize then go c (g.grp g.page (grpIndex x y)) else some .ub
  match c with
  | some c =>
    let c := fpToInt c
    if c < 0 ∨ c > 255 then some (fail g .outOfRange) else withMatch c.toNat
  | none => withMatch g.color

end Sbc.Graphics
