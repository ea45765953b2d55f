set_option autoImplicit false
/-!
# Specification of the keyboard buffer and of the buttons
-/
namespace Sbc.Input.Spec

/-- What can happen to the keyboard buffer: a character is typed, or the program takes one. -/
inductive KEv where
  | type (c : Nat)
  | take
  deriving DecidableEq

/-- What the two parties see: whether the typed character was accepted; the character taken (0: none). -/
inductive KOut where
  | accepted (b : Bool)
  | got (c : Nat)
  deriving DecidableEq

/-- The ideal keyboard buffer: a first-in first-out queue holding at most 256 characters. -/
def fifo : List Nat → List KEv → List KOut
  | _, [] => []
  | q, .type c :: es =>
    if q.length < 256 then .accepted true :: fifo (q ++ [c]) es else .accepted false :: fifo q es
  | [], .take :: es => .got 0 :: fifo [] es
  | c :: q, .take :: es => .got c :: fifo q es

/-- What can happen to the buttons: a frame with the given set of buttons held (bit `j` is button `j`), or
`BREPEAT id[,start,interval]` with whole-number arguments. -/
inductive BEv where
  | frame (mask : Nat)
  | brepeat (id : Int) (args : Option (Int × Int))

/-- The button masks of the frames so far, latest first. -/
def frames : List BEv → List Nat
  | [] => []
  | .frame m :: es => m :: frames es
  | .brepeat _ _ :: es => frames es

/-- Number of latest consecutive frames in which button `j` was held (events latest first). -/
def heldFor (j : Nat) (es : List BEv) : Nat := ((frames es).takeWhile (fun m => m.testBit j)).length

/-- Repeat setting (delay, interval) of button `j` (events latest first).  A negative interval is an error
that still changes the delay. -/
def setting (j : Nat) : List BEv → Nat × Nat
  | [] => (0, 0)
  | .frame _ :: es => setting j es
  | .brepeat id args :: es =>
    if id = (j : Int) then
      match args with
      | none => (0, 0)
      | some (a, r) => if a < 0 then setting j es else if r < 0 then (a.toNat, (setting j es).2) else (a.toNat, r.toNat)
    else setting j es

/-- A button held for `h` frames triggers at the first frame, and, if an interval is set, every
`interval + 1` frames from the first frame after the delay. -/
def Triggers (h : Nat) (set : Nat × Nat) : Prop :=
  h = 1 ∨ (0 < set.2 ∧ ∃ k, h = set.1 + 1 + k * (set.2 + 1))

end Sbc.Input.Spec
