import Verif.Model.Resources
set_option autoImplicit false
/-!
# LOAD, SAVE, APPEND, EXEC and packages (`source/subsystem/resources.c`)

Files are byte lists by path; input/output errors of the operating system are not modelled (a file either can be opened or
not, and is then read and written completely).  Program text is the content of `Loc.prg` (`MAX_SOURCE_SIZE` bytes,
`system.c:335`) together with its size.
-/
namespace Sbc.Files
open Sbc Sbc.Strs Sbc.Res

/-- Paths to contents. -/
abbrev FS := List Nat → Option (List Nat)

/-- The resources, the size of the program, the length of `MEM$` and `RESULT`. -/
structure St where
  bank : Bank
  prgSize : Nat
  memLen : Nat
  result : Nat
  package : List Nat

/-- `MAX_SOURCE_SIZE` (`program.h:11`). -/
def maxSource : Nat := 524288

/-- `resource_size` (`resources.c:253-255`, `resources.h:49-61`). -/
def Ty.size : Ty → Nat
  | .prg => 0 | .chr => 8192 | .scr => 8192 | .grp => 49152 | .mem => 516 | .col => 512

/-- `internal_type_str` (`resources.c:44-51`). -/
def typeStr : Ty → List Nat
  | .prg => [80, 69, 84, 67, 48, 51, 48, 48, 82, 80, 82, 71]
  | .chr => [80, 69, 84, 67, 48, 49, 48, 48, 82, 67, 72, 82]
  | .scr => [80, 69, 84, 67, 48, 49, 48, 48, 82, 83, 67, 82]
  | .grp => [80, 69, 84, 67, 48, 49, 48, 48, 82, 71, 82, 80]
  | .mem => [80, 69, 84, 67, 48, 50, 48, 48, 82, 77, 69, 77]
  | .col => [80, 69, 84, 67, 48, 49, 48, 48, 82, 67, 79, 76]

/-- `search_path`, `"programs/"` (`resources.c:436`). -/
def searchPath : List Nat := [112, 114, 111, 103, 114, 97, 109, 115, 47]

/-- `".PTC"`. -/
def ext : List Nat := [46, 80, 84, 67]

/-- `create_path` (`resources.c:180-188`): `none` when longer than `MAX_FILEPATH_LENGTH`. -/
def createPath (base name ext : List Nat) : Option (List Nat) :=
  if base.length + name.length + ext.length > 255 then none else some (base ++ name ++ ext)

/-- `fread` of at most `len` bytes from position `pos` to a resource at `at_`. -/
def readInto (b : Bank) (l : Loc) (at_ : Nat) (file : List Nat) (pos len : Nat) : Bank × Nat :=
  let data := (file.drop pos).take len
  (b.write l at_ data, data.length)

/-- `check_load_file` (`resources.c:333-401`) of an existing file into resource `l` of `size` bytes: the contents and the number of
bytes read.  Compressed files (`SBCC`) are the subject of `Model/InPlace.lean`; here they are `none`. -/
def loadFile (b : Bank) (l : Loc) (size : Nat) (file : List Nat) : Option (Bank × Nat) :=
  let magic := file.take 4
  if magic = [80, 88, 48, 49] then some (readInto b l 0 file 48 size)
  else if magic = [80, 69, 84, 67] then some (readInto b l 0 file 12 size)
  else if magic = [83, 66, 67, 67] then none
  else some (b, 0)

/-- Bytes `0 … n-1` of a resource. -/
def content (b : Bank) (l : Loc) (n : Nat) : List Nat := (List.range n).map (b.bytes l)

/-- `check_save_res` (`resources.c:272-313`): the file and the number of bytes written.  For a program the text is taken for a
`struct program` (its size and a pointer to the text): unless the size read there is 0, a wild pointer is followed. -/
def saveFile (b : Bank) (l : Loc) (ty : Ty) : Out (List Nat × Nat) :=
  match ty with
  | .prg =>
    if b.bytes l 0 = 0 ∧ b.bytes l 1 = 0 ∧ b.bytes l 2 = 0 ∧ b.bytes l 3 = 0 then
      .ok (typeStr .prg ++ List.replicate 12 0, 0)
    else .ub
  | ty => .ok (typeStr ty ++ content b l (Ty.size ty), Ty.size ty)

/-- `cmd_save` (`resources.c:861-870`). -/
def save (pg : Pages) (st : St) (fs : FS) (res : Str) : Out (St × FS) :=
  (verified pg res).bind fun info =>
    match createPath searchPath info.name ext with
    | none => .ok ({ st with result := 0 }, fs)
    | some path =>
      (saveFile st.bank info.data info.ty).bind fun (file, n) =>
        .ok ({ st with result := if n ≠ 0 then 1 else 0 }, fun p => if p = path then some file else fs p)

/-- Little-endian `u32` at a position of a list. -/
def u32At (l : List Nat) (i : Nat) : Nat :=
  l.getD i 0 + 256 * l.getD (i + 1) 0 + 65536 * l.getD (i + 2) 0 + 16777216 * l.getD (i + 3) 0

/-- `package_resources` (`resources.c:56-79`): the type names, by bit. -/
def packageNames : List (List Nat) :=
  [[83, 80, 85, 48], [83, 80, 85, 49], [83, 80, 85, 50], [83, 80, 85, 51], [83, 80, 85, 52], [83, 80, 85, 53], [83, 80, 85, 54],
   [83, 80, 85, 55], [66, 71, 85, 48, 85], [66, 71, 85, 49, 85], [66, 71, 85, 50, 85], [66, 71, 85, 51, 85], [66, 71, 70, 48, 85],
   [67, 79, 76, 48, 85], [67, 79, 76, 49, 85], [67, 79, 76, 50, 85],
   [83, 67, 85, 48, 85], [83, 67, 85, 49, 85], [71, 82, 80, 48], [71, 82, 80, 49], [71, 82, 80, 50], [71, 82, 80, 51], [77, 69, 77],
   [83, 80, 68, 48], [83, 80, 68, 49], [83, 80, 68, 50], [83, 80, 68, 51],
   [66, 71, 85, 48, 76], [66, 71, 85, 49, 76], [66, 71, 85, 50, 76], [66, 71, 85, 51, 76], [66, 71, 70, 48, 76],
   [67, 79, 76, 48, 76], [67, 79, 76, 49, 76], [67, 79, 76, 50, 76], [83, 67, 85, 48, 76], [83, 67, 85, 49, 76],
   [83, 80, 83, 48, 85], [83, 80, 83, 49, 85], [66, 71, 68, 48, 85], [66, 71, 68, 49, 85],
   [83, 80, 83, 48, 76], [83, 80, 83, 49, 76], [66, 71, 68, 48, 76], [66, 71, 68, 49, 76]]

/-- The redraw flags set for a loaded resource (`resources.c:169-173`, `839-845`). -/
def refresh (pg : Pages) (b : Bank) (ty : Ty) (t : List Nat) : Out Bank :=
  match ty with
  | .chr => (chrIndex pg t).bind fun i => b.redraw i
  | .col => .ok { b with regenCol := true }
  | _ => .ok b

/-- The loop of `load_program` over the packages (`resources.c:143-174`): the resources for bits `i …`; the flag tells whether it
ran to the end. -/
def packLoop (pg : Pages) (file : List Nat) (package : Nat) : List (List Nat) → Nat → Nat → Bank → Out (Bank × Bool)
  | [], _, _, b => .ok (b, true)
  | t :: ts, i, pos, b =>
    if package / 2 ^ i % 2 = 0 then packLoop pg file package ts (i + 1) pos b
    else
      (verifiedType pg ⟨false, t⟩).bind fun info =>
        if ((file.drop pos).take 12).length ≠ 12 then .ok (b, false)
        else if (file.drop pos).take 12 ≠ typeStr info.ty then .ok (b, false)
        else
          let r := readInto b info.data 0 file (pos + 12) (Ty.size info.ty)
          if r.2 ≠ Ty.size info.ty then .ok (r.1, false)
          else (refresh pg r.1 info.ty info.type).bind fun b =>
            packLoop pg file package ts (i + 1) (pos + 12 + Ty.size info.ty) b

/-- `hex_digits` of the package bits, 12 of them (`resources.c:137-139`). -/
def packageStr (package : Nat) : List Nat := (List.range 12).map fun i => Num.hexChar (package / 16 ^ (11 - i) % 16)

/-- `load_program` (`resources.c:79-178`) of an existing file; the number is the result, 0 for failure.  The name of the program
(`PRGNAME$`) is not modelled: for files in the internal format it is copied from uninitialised memory. -/
def loadProgram (pg : Pages) (st : St) (file : List Nat) : Out (St × Nat) :=
  let magic := file.take 4
  let skip := if magic = [80, 88, 48, 49] then some 48 else if magic = [80, 69, 84, 67] then some 12 else none
  match skip with
  | none => .ok (st, 0)
  | some h =>
    if file.length < h + 12 then .ok (st, 0)
    else
      let high := u32At file h
      let low := u32At file (h + 4)
      let size := u32At file (h + 8)
      let data := (file.drop (h + 12)).take size
      if data.length > maxSource then .ub
      else
        let bank := st.bank.write .prg 0 data
        if data.length < size then .ok ({ st with bank := bank }, 0)
        else
          let package := high * 2 ^ 32 + low
          (packLoop pg file package packageNames 0 (h + 12 + size + (4 - size % 4) % 4) bank).bind fun (bank, done) =>
            .ok ({ st with bank := bank, prgSize := size, package := packageStr package }, if done then size else 0)

/-- `cmd_load` (`resources.c:825-859`). -/
def load (pg : Pages) (st : St) (fs : FS) (res : Str) : Out St :=
  (verified pg res).bind fun info =>
    match (createPath searchPath info.name ext).bind fs with
    | none =>
      -- no such file: the resource stays, but is marked for redrawing
      (refresh pg st.bank info.ty info.type).bind fun b =>
        .ok { st with bank := b, result := 0, memLen := if info.ty = .mem then u32At (content b .mem 516) 512 else st.memLen }
    | some file =>
      match info.ty with
      | .prg => (loadProgram pg st file).bind fun (st, n) => .ok { st with result := if n ≠ 0 then 1 else 0 }
      | ty =>
        match loadFile st.bank info.data (Ty.size ty) file with
        | none => .ub
        | some (b, n) =>
          (refresh pg b ty info.type).bind fun b =>
            .ok { st with
              bank := b
              result := if n ≠ 0 then 1 else 0
              memLen := if ty = .mem then u32At (content b .mem 516) 512 else st.memLen }

/-- `verify_file_type` for `TYPE_PRG` (`resources.c:200-242`). -/
def isProgram (file : List Nat) : Bool :=
  if file.take 4 = [80, 88, 48, 49] then file.length ≥ 60 ∧ (file.drop 36).take 12 = typeStr .prg
  else if file.take 4 = [80, 69, 84, 67] then file.length ≥ 12 ∧ file.take 12 = typeStr .prg
  else false

/-- `cmd_append` (`resources.c:1095-1179`).  The skip for the SD format is `HEADER_SIZE + 8`, for the internal one 12 + 8. -/
def append (pg : Pages) (st : St) (fs : FS) (res : Str) : Out St :=
  let st := { st with result := 0 }
  (verified pg res).bind fun info =>
    if info.ty ≠ .prg then .err .invalidResource
    else match (createPath searchPath info.name ext).bind fs with
      | none => .ok st
      | some file =>
        if ¬ isProgram file then .ok st
        else
          let skip := if file.take 4 = [80, 69, 84, 67] then 20 else 56
          if file.length < skip + 4 then .err .fileLoad
          else
            let programSize := u32At file skip
            -- unsigned subtraction
            let remaining := (maxSource + 2 ^ 32 - st.prgSize) % 2 ^ 32
            let n := if remaining < programSize then remaining else programSize
            let data := (file.drop (skip + 4)).take n
            if st.prgSize + data.length > maxSource then .ub
            else if data.length ≠ n then .err .fileLoad
            else .ok { st with bank := st.bank.write .prg st.prgSize data, prgSize := st.prgSize + n, result := 1 }

/-- `cmd_exec` up to the compilation (`runner.c:567-580`): the name is not verified.  `none`: the program could not be loaded. -/
def exec (pg : Pages) (st : St) (fs : FS) (res : Str) : Out (Option St) :=
  match (createPath searchPath (cstr res) ext).bind fs with
  | none => .ok none
  | some file => (loadProgram pg st file).bind fun (st, n) => .ok (if n ≠ 0 then some { st with result := 1 } else none)

/-- `sys_package` (`resources.c:1217-1235`): leading zeros are skipped, the last digit is kept. -/
def sysPackage (package : List Nat) : List Nat :=
  let z := (package.takeWhile (· = 48)).length
  let i := if package.getD z 0 = 0 then z - 1 else z
  package.drop i

end Sbc.Files
