import Verif.Model.Common
set_option autoImplicit false
/-!
# Array pool (`source/interpreter/arrays.c`, `vars.c:153-181`)

Memory is a function from word index to word; only indices below `size` belong to the pool.  The
layout is that of the 32-bit target (a word is 4 bytes, the two dimensions occupy one word each;
`arrays.h:14-17`).  On 64-bit hosts both dimensions share the first word, with no other change.
Element words are uninterpreted integers (a number or a string pointer).
-/
namespace Sbc.Arrays
open Sbc

/-- `ARR_DIM2_UNUSED` = `-1U` (`arrays.h:10`). -/
def unused : Nat := 4294967295

/-- Conversion of an `int` to `u32`/`idx`. -/
def toU32 (x : Int) : Nat := (x % 4294967296).toNat

/-- `struct arrays` (`arrays.h:26-33`): `arr_data_size`, `arr_data_next`, `arr_data`. -/
structure Pool where
  size : Nat
  next : Nat
  mem : Nat → Int

/-- Filling loop of `get_init_new_arr` (`arrays.c:44-50`): `n` words from `base`. -/
def fill (mem : Nat → Int) (base n : Nat) (d : Int) : Nat → Int :=
  fun a => if base ≤ a ∧ a < base + n then d else mem a

/-- `get_init_new_arr` (`arrays.c:28-53`).  `d` is the default element.  The element count is an `int`
computed with wrap-around; `ok none` is `NULL`; `ub` is a header write outside the pool. -/
def alloc (a : Pool) (size1 size2 : Nat) (d : Int) : Pool × Out (Option Nat) :=
  let size : Int :=
    if size2 ≠ unused then wrap32 (wrap32 size1 * size2) else wrap32 size1
  let next' := toU32 (a.next + size + 2)
  if next' ≥ a.size then (a, .ok none)
  else if a.next + 1 ≥ a.size then (a, .ub)
  else
    let mem1 : Nat → Int := fun w => if w = a.next then size1 else if w = a.next + 1 then size2 else a.mem w
    ({ a with next := next', mem := fill mem1 (a.next + 2) size.toNat d }, .ok (some a.next))

/-- `arr_size` (`arrays.c:55-57`). -/
def arrSize (a : Pool) (p dim : Nat) : Nat := (a.mem (p + dim)).toNat

/-- `arr_entry` (`arrays.c:63-65`): word index of an element (unsigned 32-bit offset arithmetic). -/
def entry (a : Pool) (p ix1 ix2 : Nat) : Nat := p + 2 + (ix1 + ix2 * arrSize a p 0) % 4294967296

/-- `get_arr_entry_via_ptr` (`vars.c:167-180`) once the array exists: word index of the element.
Computing an address outside the pool is undefined behaviour. -/
def entryChecked (a : Pool) (p ix iy : Nat) : Out Nat :=
  let inPool (w : Nat) : Out Nat := if w < a.size then .ok w else .ub
  if ix < arrSize a p 0 then
    if iy = unused then inPool (entry a p ix 0)
    else if iy < arrSize a p 1 then inPool (entry a p ix iy)
    else .err .subscriptY
  else .err .subscriptX

/-- End of `get_new_arr_var` (`vars.c:107-109`): the result of the allocation, possibly `NULL`, becomes
the array variable's pointer; no error is raised for `NULL`. -/
def dimVar (a : Pool) (size1 size2 : Nat) (d : Int) : Pool × Out (Option Nat) := alloc a size1 size2 d

/-- `get_arr_entry_via_ptr` (`vars.c:152-181`), including the implicit allocation of arrays not
dimensioned yet: new pool, new pointer of the variable, and the element. -/
def access (a : Pool) (ptr : Option Nat) (ix iy : Nat) (d : Int) : Pool × Option Nat × Out Nat :=
  match ptr with
  | some p => (a, ptr, entryChecked a p ix iy)
  | none =>
    match alloc a 10 (if iy = unused then unused else 10) d with
    | (a', .ok (some p)) => (a', some p, entryChecked a' p ix iy)
    | (a', .ok none) => (a', none, .err .outOfMemory)
    | (a', .err e) => (a', none, .err e)
    | (a', .ub) => (a', none, .ub)

/-- The pool together with the pointers held by array variables, in order of creation. -/
structure St where
  pool : Pool
  ptrs : List Nat

/-- `init_mem_arr` (`arrays.c:12-16`). -/
def init (size : Nat) : St := { pool := { size, next := 0, mem := fun _ => 0 }, ptrs := [] }

/-- Array operations of a program; subscripts and dimensions are the integer parts of BASIC numbers
(`runner.c:322-323`, `396-397`), a missing second one is `none`. -/
inductive Op where
  /-- allocate an array (by DIM, or implicitly with 10 elements); `d` is the default element -/
  | dim (s1 : Int) (s2 : Option Int) (d : Int)
  /-- read element of array number `id` -/
  | read (id : Nat) (ix : Int) (iy : Option Int)
  /-- write element of array number `id` -/
  | write (id : Nat) (ix : Int) (iy : Option Int) (v : Int)

/-- Observable results. -/
inductive Res where
  | created (id : Nat)
  | noMemory
  | value (v : Int)
  | error (e : Err)
  | undefined
  deriving DecidableEq, Repr

/-- Second dimension/subscript as passed to the C functions (`runner.c:323`, `397`). -/
def dim2 : Option Int → Nat
  | none => unused
  | some y => toU32 y

/-- One array operation. -/
def step (s : St) : Op → St × Res
  | .dim s1 s2 d =>
    match alloc s.pool (toU32 s1) (dim2 s2) d with
    | (pool, .ok (some p)) => ({ pool, ptrs := s.ptrs ++ [p] }, .created s.ptrs.length)
    | (pool, .ok none) => ({ s with pool }, .noMemory)
    | (_, .err e) => (s, .error e)
    | (_, .ub) => (s, .undefined)
  | .read id ix iy =>
    match s.ptrs[id]? with
    | none => (s, .undefined)
    | some p =>
      match entryChecked s.pool p (toU32 ix) (dim2 iy) with
      | .ok w => (s, .value (s.pool.mem w))
      | .err e => (s, .error e)
      | .ub => (s, .undefined)
  | .write id ix iy v =>
    match s.ptrs[id]? with
    | none => (s, .undefined)
    | some p =>
      match entryChecked s.pool p (toU32 ix) (dim2 iy) with
      | .ok w => ({ s with pool := { s.pool with mem := fun a => if a = w then v else s.pool.mem a } }, .value v)
      | .err e => (s, .error e)
      | .ub => (s, .undefined)

/-- A history of array operations. -/
def run (s : St) : List Op → St × List Res
  | [] => (s, [])
  | op :: ops =>
    let (s1, o) := step s op
    let (s2, os) := run s1 ops
    (s2, o :: os)

end Sbc.Arrays
