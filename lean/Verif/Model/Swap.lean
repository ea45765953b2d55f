import Verif.Model.Common
set_option autoImplicit false
/-!
# SWAP (`source/subsystem/variables.c:9-18`) on bytes of memory

`w` is `sizeof(union value)` (`interpreter/vars.h:43-46`): 4 where pointers have 4 bytes, 8 where they have 8.  The values
of variables (`vars.h:57-60`) and of array elements (`arrays.h:14-17`) are `union value`s, so each takes `w` bytes of its
own; the numeric system variables that can be assigned (`sysvars.c`) are `fixp`s of 4 bytes.
-/
namespace Sbc.Swap

/-- Bytes by address. -/
abbrev Mem := Nat → Nat

/-- `memcpy(dst, src, n)`, one byte after the other (`variables.c:15-17`). -/
def memcpy (m : Mem) (dst src : Nat) : Nat → Mem
  | 0 => m
  | n + 1 => fun a => if a = dst + n then m (src + n) else memcpy m dst src n a

/-- `memcpy` from a saved block. -/
def memput (m : Mem) (dst : Nat) (c : Nat → Nat) : Nat → Mem
  | 0 => m
  | n + 1 => fun a => if a = dst + n then c n else memput m dst c n a

/-- `cmd_swap` (`variables.c:9-18`) on the pointers of the two arguments. -/
def cmdSwap (w : Nat) (m : Mem) (a b : Nat) : Mem :=
  let c := fun i => m (a + i)
  memput (memcpy m a b w) b c w

end Sbc.Swap
