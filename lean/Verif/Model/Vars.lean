import Verif.Model.Names
/-!
# Variable table (`source/interpreter/vars.c`)
-/
namespace Sbc.Vars
open Sbc Sbc.Names

/-- Variable types (`vars.h:9-28`): `VAR_NUMBER`, `VAR_STRING` and their `VAR_ARRAY` versions.
`VAR_EMPTY` is the absence of a type in a slot. -/
inductive Ty where
  | num | str | numArr | strArr
  deriving DecidableEq, Repr

/-- `union value` (`vars.h:38-41`).  A string value is the pool index it points to (`none` is the shared
constant `empty_str`), an array value is the offset of its block in the array pool (`none` is `NULL`). -/
inductive Val where
  | num (n : Int)
  | str (p : Option Nat)
  | arr (p : Option Nat)
  deriving DecidableEq, Repr

/-- `struct named_var` (`vars.h:45-52`). -/
structure Slot where
  ty : Option Ty
  name : List Nat
  val : Val

/-- `struct variables` (`vars.h:57-81`): `vars_max`, `var_count`, the slots and the `clear_values`
flag.  Slots are a function of the index; only indices below `max` are memory of the table. -/
structure Table where
  max : Nat
  count : Nat
  clearValues : Bool
  slots : Nat → Slot

/-- `init_mem_var` (`vars.c:12-25`): `calloc`, all slots `VAR_EMPTY`. -/
def init (max : Nat) (clearValues : Bool) : Table :=
  { max, count := 0, clearValues,
    slots := fun _ => { ty := none, name := List.replicate 16 0, val := .num 0 } }

/-- The negation of the loop condition at `vars.c:78`: the slot is empty, or has this name and type. -/
def stop (name : List Nat) (ty : Ty) (s : Slot) : Bool :=
  s.ty == none || (namecmp name s.name && s.ty == some ty)

/-- The probing loop of `search_name_type` (`vars.c:70-78`); `fuel` bounds the number of iterations
(the code's own bound is the test `step >= vars_max`). -/
def searchLoop (t : Table) (name : List Nat) (ty : Ty) : Nat → Nat → Nat → Option Nat
  | 0, _, _ => none
  | fuel + 1, hash, step =>
    let hash := (hash + step) % t.max
    if step ≥ t.max then none
    else if stop name ty (t.slots hash) then some hash
    else searchLoop t name ty fuel hash (step + 1)

/-- `search_name_type` (`vars.c:65-81`). -/
def search (t : Table) (name : List Nat) (ty : Ty) : Option Nat :=
  searchLoop t name ty (t.max + 1) (nameHash name t.max) 0

/-- Default value of a fresh variable (`vars.c:140-147`). -/
def dflt : Ty → Val
  | .num => .num 0
  | .str => .str none
  | .numArr | .strArr => .arr none

/-- Store in slot `i`. -/
def setSlot (t : Table) (i : Nat) (s : Slot) : Table :=
  { t with slots := fun j => if j = i then s else t.slots j }

/-- `get_var` (`vars.c:117-151`): returns the slot index.  A name longer than 16 characters fails the
assertion in `namecmp`. -/
def getVar (t : Table) (name : List Nat) (ty : Ty) : Table × Out Nat :=
  if name.length > 16 then (t, .ub) else
  match search t name ty with
  | none => (t, .err .outOfMemory)
  | some i =>
    if (t.slots i).ty = none then
      ({ setSlot t i { ty := some ty, name := storeName name (t.slots i).name, val := dflt ty } with
          count := t.count + 1 }, .ok i)
    else (t, .ok i)

/-- `get_new_arr_var` (`vars.c:83-115`), the DIM statement.  `alloc` is the result of
`get_init_new_arr` (`none` = `NULL`, allocation failed). -/
def getNewArrVar (t : Table) (name : List Nat) (ty : Ty) (alloc : Option Nat) : Table × Out Nat :=
  if name.length > 16 then (t, .ub) else
  match search t name ty with
  | none => (t, .err .outOfMemory)
  | some i =>
    if (t.slots i).ty = none ∨ (t.clearValues = true ∧ (t.slots i).val = .arr none) then
      ({ setSlot t i { ty := some ty, name := storeName name (t.slots i).name, val := .arr alloc } with
          count := t.count + 1 }, .ok i)
    else (t, .err .duplicateDim)

/-- Value reset of one slot with `clear_values` (`vars.c:31-37`). -/
def clearVal (s : Slot) : Slot :=
  match s.ty with
  | some .num => { s with val := .num 0 }
  | some .str => { s with val := .str none }
  | _ => { s with val := .arr none }

/-- `reset_var` (`vars.c:27-46`), used by CLEAR/NEW/RUN. -/
def reset (t : Table) : Table :=
  if t.clearValues then
    { t with slots := fun j => if j < t.max then clearVal (t.slots j) else t.slots j }
  else
    { t with slots := fun j => if j < t.max then { t.slots j with ty := none } else t.slots j,
             count := 0 }

/-- A variable access of a BASIC program. -/
inductive Op where
  /-- use the variable: `get_var`, then read its value (`runner.c:363-371`) -/
  | read (name : List Nat) (ty : Ty)
  /-- assign: `get_var`, then overwrite the value (`runner.c:363-371`, `operators.c:142`, `161-180`) -/
  | write (name : List Nat) (ty : Ty) (v : Val)
  /-- DIM (`runner.c:394-420`); `alloc` is what the array allocator returned -/
  | dim (name : List Nat) (ty : Ty) (alloc : Option Nat)
  /-- CLEAR (`reset_var`) -/
  | clear

/-- Execute one access; the output is the value read (unit outputs are the written/default value). -/
def step (t : Table) : Op → Table × Out Val
  | .read n ty =>
    match getVar t n ty with
    | (t', .ok i) => (t', .ok (t'.slots i).val)
    | (t', .err e) => (t', .err e)
    | (t', .ub) => (t', .ub)
  | .write n ty v =>
    match getVar t n ty with
    | (t', .ok i) => (setSlot t' i { t'.slots i with val := v }, .ok v)
    | (t', .err e) => (t', .err e)
    | (t', .ub) => (t', .ub)
  | .dim n ty alloc =>
    match getNewArrVar t n ty alloc with
    | (t', .ok i) => (t', .ok (t'.slots i).val)
    | (t', .err e) => (t', .err e)
    | (t', .ub) => (t', .ub)
  | .clear => (reset t, .ok (.num 0))

/-- Run a history of accesses, collecting the outputs. -/
def run (t : Table) : List Op → Table × List (Out Val)
  | [] => (t, [])
  | op :: ops =>
    let (t1, o) := step t op
    let (t2, os) := run t1 ops
    (t2, o :: os)

/-- FREEVAR (`sysvars.c:169-171`, `sys_freevar`): `vars_max - var_count`. -/
def freeVar (t : Table) : Int := (t.max : Int) - t.count

end Sbc.Vars
