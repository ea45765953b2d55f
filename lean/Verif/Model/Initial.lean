import Verif.Model.Files
set_option autoImplicit false
/-!
# The resources at startup, CHRINIT and COLINIT (`source/subsystem/resources.c`)

Files and their errors as in `Model/Files.lean`: a file can be opened or not and is then read completely.
-/
namespace Sbc.Initial
open Sbc Sbc.Strs Sbc.Res Sbc.Files

/-- `resource_path`, `"resources/"` (`resources.c:42`). -/
def resourcePath : List Nat := [114, 101, 115, 111, 117, 114, 99, 101, 115, 47]

/-- `check_load_file` (`resources.c:333-401`): the bytes that are stored at the destination.  A compressed file (`SBCC`, the subject of
`Model/InPlace.lean`) is `.ub` here. -/
def readRes (fs : FS) (size : Nat) (name : List Nat) : Out (List Nat) :=
  match (createPath resourcePath name ext).bind fs with
  | none => .ok []
  | some file =>
    let magic := file.take 4
    if magic = [80, 88, 48, 49] then .ok ((file.drop 48).take size)
    else if magic = [80, 69, 84, 67] then .ok ((file.drop 12).take size)
    else if magic = [83, 66, 67, 67] then .ub
    else .ok []

/-- `load_chr`, `load_col` (`resources.c:405-413`) to a resource; the flag tells whether anything was read. -/
def loadRes (fs : FS) (b : Bank) (l : Loc) (size : Nat) (name : List Nat) : Out (Bank × Bool) :=
  (readRes fs size name).bind fun data => .ok (b.write l 0 data, data.length ≠ 0)

/-- `chr_files` (`resources.c:499-503`). -/
def chrFiles : List (List Nat) :=
  [[66, 71, 70, 48], [66, 71, 70, 49], [66, 71, 70, 48], [66, 71, 70, 49], [66, 71, 68, 48], [66, 71, 68, 49],
   [66, 71, 68, 50], [66, 71, 68, 51], [66, 71, 85, 48], [66, 71, 85, 49], [66, 71, 85, 50], [66, 71, 85, 51],
   [83, 80, 85, 48], [83, 80, 85, 49], [83, 80, 85, 50], [83, 80, 85, 51], [83, 80, 85, 52], [83, 80, 85, 53],
   [83, 80, 85, 54], [83, 80, 85, 55], [83, 80, 83, 48], [83, 80, 83, 49], [66, 71, 70, 48], [66, 71, 70, 49],
   [66, 71, 70, 48], [66, 71, 70, 49], [66, 71, 68, 48], [66, 71, 68, 49], [66, 71, 68, 50], [66, 71, 68, 51],
   [66, 71, 85, 48], [66, 71, 85, 49], [66, 71, 85, 50], [66, 71, 85, 51], [83, 80, 68, 48], [83, 80, 68, 49],
   [83, 80, 68, 50], [83, 80, 68, 51], [83, 80, 68, 52], [83, 80, 68, 53], [83, 80, 68, 54], [83, 80, 68, 55],
   [83, 80, 83, 48], [83, 80, 83, 49]]

/-- The loop of `init_resource` over the character banks (`resources.c:505-512`), from bank `i`. -/
def initChr (fs : FS) : List (List Nat) → Nat → Bank → Out Bank
  | [], _, b => .ok b
  | name :: names, i, b => (loadRes fs b (.chr i) 8192 name).bind fun r => initChr fs names (i + 1) r.1

/-- The loop of `init_col` (`resources.c:425-431`), `k` rounds from palette `i`. -/
def initCol (fs : FS) : Nat → Nat → Bank → Out Bank
  | 0, _, b => .ok b
  | k + 1, i, b => (loadRes fs b (.col i) 512 [67, 79, 76, 48 + i % 3]).bind fun r => initCol fs k (i + 1) r.1

/-- `init_resource` (`resources.c:433-515`), the characters and the colours. -/
def startup (fs : FS) (b : Bank) : Out Bank := (initChr fs chrFiles 0 b).bind (initCol fs 6 0)

/-- `cmd_chrinit` (`resources.c:872-894`). -/
def chrinit (pg : Pages) (fs : FS) (b : Bank) (res : Str) : Out Bank :=
  (verifiedType pg res).bind fun info =>
    if info.ty = .chr then
      let name := [ch info.type 0, ch info.type 1, ch info.type 2, if ch info.type 3 = 0 then 48 else ch info.type 3]
      (loadRes fs b info.data 8192 name).bind fun r =>
        if ¬ r.2 then .err .fileLoad
        else (chrIndex pg info.type).bind fun i => r.1.redraw i
    else .err .invalidResource

/-- The arguments of COLINIT. -/
inductive ColArgs where
  | all
  | palette (res : Str)
  | color (res : Str) (c : Int)

/-- The digit of the file for a palette (`resources.c:991-997`). -/
def colDigitOf (res : Str) : Nat :=
  let id := strAtChar res 0
  let id := if id = 66 then 48 else id
  let id := if id = 83 then 49 else id
  if id = 71 then 50 else id

/-- `cmd_colinit` (`resources.c:983-1016`).  For one colour the code reads the entry of the stack *after* the two arguments, which holds
whatever an earlier command left there (`stale`). -/
def colinit (pg : Pages) (fs : FS) (b : Bank) (stale : Int) : ColArgs → Out Bank
  | .all => (initCol fs 6 0 b).bind fun b => .ok { b with regenCol := true }
  | .palette res =>
    (colResource pg res).bind fun l =>
    (loadRes fs b l 512 [67, 79, 76, colDigitOf res]).bind fun r => .ok { r.1 with regenCol := true }
  | .color res _ =>
    (colResource pg res).bind fun l =>
    (readRes fs 512 [67, 79, 76, colDigitOf res]).bind fun data =>
    (byteArg stale).bind fun index =>
      -- the rest of `from_file` is not initialised
      if data.length < 2 * index + 2 then .ub
      else .ok { b.putWord l index (data.getD (2 * index) 0 + 256 * data.getD (2 * index + 1) 0) with regenCol := true }

end Sbc.Initial
