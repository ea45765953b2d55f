import Verif.Model.Common
import Verif.Model.Mem
import Verif.Model.Strs
set_option autoImplicit false
/-!
# Input subsystem (`source/subsystem/input.c`, `input.h`)

The mutexes of the PC build make every call of `set_inkey` and `get_inkey` atomic; an execution of the
keyboard thread and the interpreter thread is therefore an interleaving of whole calls.  Locking failures
(which abort the program) are not modelled.
-/
namespace Sbc.Input
open Sbc Sbc.Strs

/-- `INKEY_BUF_SIZE` (`input.h:47`). -/
def bufSize : Nat := 256

/-- The keyboard part of `struct input` (`input.h:77-79`): `inkey_buf`, `current_write`, `current_base`. -/
structure Ring where
  buf : Nat → Nat
  write : Nat
  base : Nat

/-- `init_input` (`input.c:25-26`); the buffer contents are arbitrary. -/
def ringInit (junk : Nat → Nat) : Ring := ⟨junk, 0, 0⟩

/-- `set_inkey` (`input.c:50-71`): returns whether the character was stored. -/
def setInkey (r : Ring) (c : Nat) : Ring × Bool :=
  if r.write = bufSize then (r, false)
  else
    let cur := (r.base + r.write) % bufSize
    ({ r with write := r.write + 1, buf := upd r.buf cur c }, true)

/-- `get_inkey` (`input.c:73-94`). -/
def getInkey (r : Ring) : Ring × Nat :=
  if r.write = 0 then (r, 0)
  else ({ r with write := r.write - 1, base := (r.base + 1) % bufSize }, r.buf r.base)

/-- `func_inkey` (`input.c:194-207`) without the argument-count check: the string pushed.  The table
`single_char_strs` has 256 entries; an index outside it is undefined. -/
def funcInkey (r : Ring) : Ring × Out (List Nat) :=
  match getInkey r with
  | (r', c) =>
    if c = 0 then (r', .ok [])
    else if 0 ≤ toChar c ∧ toChar c < 256 then (r', .ok [(toChar c).toNat])
    else (r', .ub)

/-! ## Buttons -/

/-- `struct button_time` (`input.h:60-67`). -/
structure BTime where
  start : Int
  repeat' : Int
  frame : Int
  deriving DecidableEq

/-- The button part of `struct input` (`input.h:52-67`); `brk` records that `exec.error` was set to
`ERR_BREAK` by the last `set_input`. -/
structure Buttons where
  button : Nat
  old : Nat
  times : Nat → BTime
  brk : Bool

/-- `BUTTON_COUNT` (`input.h:17`). -/
def buttonCount : Nat := 12

/-- `init_input` (`input.c:9-14`). -/
def buttonsInit : Buttons := ⟨0, 0, fun _ => ⟨0, 0, 0⟩, false⟩

/-- `set_input` (`input.c:29-48`).  `frame++` at `INT_MAX` is signed overflow. -/
def setInput (s : Buttons) (b : Nat) : Out Buttons :=
  if ∃ j ∈ List.range buttonCount, b.testBit j = true ∧ (s.times j).frame = 2147483647 then .ub
  else
    let times' := fun j =>
      if j < buttonCount then
        if b.testBit j then { s.times j with frame := (s.times j).frame + 1 }
        else { s.times j with frame := 0 }
      else s.times j
    .ok { button := b, old := s.button, times := times', brk := decide ((times' 11).frame = 1) }

/-- `check_repeat` (`input.h:94-101`); C `%` is truncated. -/
def checkRepeat (time start rep : Int) : Bool :=
  if rep > 0 ∧ time > start then decide (Int.tmod (time - 1 - start) (rep + 1) = 0)
  else decide (time = 1)

/-- `check_pressed` (`input.c:127-129`). -/
def checkPressed (s : Buttons) (id : Nat) : Bool :=
  checkRepeat (s.times id).frame (s.times id).start (s.times id).repeat'

/-- `button |= check_pressed(i, j) << j` for `j = 0..11` (`input.c:150-152, 173-175`). -/
def pressedMask (s : Buttons) : Nat :=
  (List.range buttonCount).foldl (fun acc j => acc ||| ((checkPressed s j).toNat <<< j)) 0

/-- `func_btrig` (`input.c:146-155`): the number pushed. -/
def funcBtrig (s : Buttons) : Int := intToFp (pressedMask s)

/-- `a & ~b` on `uint_fast16_t` converted to `int` (`input.c:179, 183`): the bits of `a` not in `b`.
Modelled for the 16 value bits the callers use. -/
def andNot (a b : Nat) : Nat := a &&& (65535 ^^^ b)

/-- `func_button` (`input.c:157-191`); `arg` is the optional mode. -/
def funcButton (s : Buttons) (arg : Option Int) : Out Int :=
  let mode := match arg with | none => 0 | some m => fpToInt m
  if mode = 0 then .ok (intToFp s.button)
  else if mode = 1 then .ok (intToFp (pressedMask s))
  else if mode = 2 then .ok (intToFp (andNot s.button s.old))
  else if mode = 3 then .ok (intToFp (andNot s.old s.button))
  else .err .invalidArgumentValue

/-- `cmd_brepeat` (`input.c:131-144`), with `STACK_INT_RANGE`/`STACK_INT_MIN` (`stack.h:14-34`);
the signature table (`tokens.c:95-119`) admits one or three arguments.  An error raised for the third
argument leaves the second one stored. -/
def cmdBrepeat (s : Buttons) (id : Int) (args : Option (Int × Int)) : Buttons × Out Unit :=
  let i := fpToInt id
  if i < 0 ∨ i > 12 then (s, .err .outOfRange)
  else if i = 12 then (s, .ok ())
  else match args with
    | none => ({ s with times := upd s.times i.toNat { s.times i.toNat with start := 0, repeat' := 0 } }, .ok ())
    | some (a, r) =>
      if fpToInt a < 0 then (s, .err .outOfRange)
      else
        let s1 := { s with times := upd s.times i.toNat { s.times i.toNat with start := fpToInt a } }
        if fpToInt r < 0 then (s1, .err .outOfRange)
        else ({ s1 with times := upd s1.times i.toNat { s1.times i.toNat with repeat' := fpToInt r } }, .ok ())

end Sbc.Input
