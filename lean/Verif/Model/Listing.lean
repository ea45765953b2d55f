import Verif.Model.Console
set_option autoImplicit false
/-!
# FILES (`source/system.c:171-196`)
-/
namespace Sbc.Listing
open Sbc Sbc.Console Sbc.Strs

/-- Conversion of a length below 256 to `char`, which is signed on the PC (`filename[1] = …`, `system.c:182`). -/
def toSigned (n : Nat) : Int := if n < 128 then n else n - 256

/-- One round of the loop (`system.c:181-194`) for the directory entry `name` (names of files have at most 255 bytes).  `strchr`
gives no pointer for a name without a dot, so that the difference is undefined; `strncpy` copies into the 30 bytes after the type and
the length.  The inner loop (`system.c:186-190`) has no effect: its `continue` continues itself. -/
def entry (c : Con) (name : List Nat) : Out Con :=
  match name.idxOf? 46 with
  | none => .ub
  | some n =>
    if toSigned n > 8 ∨ toSigned n = 0 then .ok c
    else if n > 30 then .ub
    else (conPuts c ⟨false, name.take n⟩).bind fun c => .ok (conNewline c true)

/-- The loop. -/
def entries : List (List Nat) → Con → Out Con
  | [], c => .ok c
  | n :: ns, c => (entry c n).bind (entries ns)

/-- `cmd_files` (`system.c:171-196`): the console and the number of an error.  `argc` is `p->exec.argcount`, `stack` the number of
arguments on the stack, `dir` the names in the directory of the program (`none`: it cannot be opened; `readdir` of no
directory is undefined). -/
def cmdFiles (argc _stack : Nat) (dir : Option (List (List Nat))) (c : Con) : Out (Con × Nat) :=
  if argc ≠ 0 then .ok (c, 10)
  else match dir with
    | none => .ub
    | some names => (entries names c).bind fun c => .ok (c, 0)

end Sbc.Listing
