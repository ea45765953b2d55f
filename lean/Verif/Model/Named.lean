import Verif.Model.Vars
import Verif.Model.Arrays
set_option autoImplicit false
/-!
# The data memory of a program: variables and arrays by name, and CLEAR
(`source/interpreter/vars.c`, `arrays.c`, `strs.c:118-122`, `source/subsystem/variables.c:3-7`)

Puts the variable table (`Model/Vars`) and the array pool (`Model/Arrays`) together as `get_var`, `get_arr_entry` and
`get_new_arr_var` do.  Strings are opaque: a string variable holds a reference to the string pool (`Model/StrPool`), a word of a string
array is such a reference, too.
-/
namespace Sbc.Named
open Sbc Sbc.Vars Sbc.Arrays

/-- `struct variables` and `struct arrays` (`vars.h:57-81`, `arrays.h:26-33`). -/
structure Mem where
  vars : Table
  pool : Pool

/-- Default element of an array (`arrays.c:44-50`): 0, or `empty_str`, which is the word `e`. -/
def dflt (e : Int) : Ty → Int
  | .num | .numArr => 0
  | .str | .strArr => e

/-- `init_mem_var`, `init_mem_arr` (`vars.c:12-25`, `arrays.c:12-16`): `2 ^ n` variables, `size` words. -/
def init (n size : Nat) (clearValues : Bool) : Mem :=
  ⟨Vars.init (2 ^ n) clearValues, { size, next := 0, mem := fun _ => 0 }⟩

/-- What a program does with its data. -/
inductive Op where
  /-- use a variable -/
  | get (n : List Nat) (ty : Ty)
  /-- assign to a variable -/
  | set (n : List Nat) (ty : Ty) (v : Val)
  /-- DIM -/
  | dim (n : List Nat) (ty : Ty) (s1 : Int) (s2 : Option Int)
  /-- use an element of an array -/
  | elem (n : List Nat) (ty : Ty) (ix : Int) (iy : Option Int)
  /-- assign to an element of an array -/
  | setElem (n : List Nat) (ty : Ty) (ix : Int) (iy : Option Int) (w : Int)
  | clear

/-- What it observes. -/
inductive Res where
  | value (v : Val)
  | word (w : Int)
  | done
  | error (e : Err)
  | undefined
  deriving DecidableEq, Repr

/-- `get_arr_entry` (`vars.c:183-191`, `153-181`): the word of an element; the pointer of an array that is allocated on first use is
stored in its variable. -/
def locate (e : Int) (d : Mem) (n : List Nat) (ty : Ty) (ix : Int) (iy : Option Int) : Mem × Out Nat :=
  match Vars.step d.vars (.read n ty) with
  | (v, .ok (.arr ptr)) =>
    let r := access d.pool ptr (toU32 ix) (dim2 iy) (dflt e ty)
    (⟨if r.2.1 = ptr then v else (Vars.step v (.write n ty (.arr r.2.1))).1, r.1⟩, r.2.2)
  | (v, .ok _) => ({ d with vars := v }, .ub)
  | (v, .err er) => ({ d with vars := v }, .err er)
  | (v, .ub) => ({ d with vars := v }, .ub)

/-- `reset_arr` (`arrays.c:18-22`). -/
def resetArr (p : Pool) : Pool := { p with next := 0, mem := fun w => if w < p.size then 0 else p.mem w }

/-- `cmd_clear` (`variables.c:3-7`).  `reset_str` marks all strings of the pool as unused, which is not visible here. -/
def cmdClear (d : Mem) : Mem := ⟨Vars.reset d.vars, resetArr d.pool⟩

/-- The result of an access to a variable. -/
def ofVar (d : Mem) : Table × Out Val → Mem × Res
  | (v, .ok x) => ({ d with vars := v }, .value x)
  | (v, .err e) => ({ d with vars := v }, .error e)
  | (v, .ub) => ({ d with vars := v }, .undefined)

/-- One operation: `get_var` (`vars.c:117-151`), `get_new_arr_var` (`vars.c:83-115`: the array is allocated once the variable is known to be
new; nothing is reported if that fails), `get_arr_entry`, `cmd_clear`. -/
def step (e : Int) (d : Mem) : Op → Mem × Res
  | .get n ty => ofVar d (Vars.step d.vars (.read n ty))
  | .set n ty v => ofVar d (Vars.step d.vars (.write n ty v))
  | .dim n ty s1 s2 =>
    match Vars.step d.vars (.dim n ty none) with
    | (_, .ok _) =>
      match alloc d.pool (toU32 s1) (dim2 s2) (dflt e ty) with
      | (pool, .ok p) => (⟨(Vars.step d.vars (.dim n ty p)).1, pool⟩, .done)
      | (_, _) => (d, .undefined)
    | (v, .err er) => ({ d with vars := v }, .error er)
    | (v, .ub) => ({ d with vars := v }, .undefined)
  | .elem n ty ix iy =>
    match locate e d n ty ix iy with
    | (d', .ok w) => (d', .word (d'.pool.mem w))
    | (d', .err er) => (d', .error er)
    | (d', .ub) => (d', .undefined)
  | .setElem n ty ix iy x =>
    match locate e d n ty ix iy with
    | (d', .ok w) => ({ d' with pool := { d'.pool with mem := fun a => if a = w then x else d'.pool.mem a } }, .word x)
    | (d', .err er) => (d', .error er)
    | (d', .ub) => (d', .undefined)
  | .clear => (cmdClear d, .done)

/-- A history. -/
def run (e : Int) (d : Mem) : List Op → Mem × List Res
  | [] => (d, [])
  | op :: ops =>
    let (d1, o) := step e d op
    let (d2, os) := run e d1 ops
    (d2, o :: os)

end Sbc.Named
