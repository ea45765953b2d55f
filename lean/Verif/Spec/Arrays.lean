import Verif.Model.Arrays
set_option autoImplicit false
/-!
# Specification of arrays: independent two-dimensional tables
-/
namespace Sbc.Arrays.Spec
open Sbc Sbc.Arrays

/-- An array: its dimensions (`d2 = none` for one-dimensional) and its elements. -/
structure Arr where
  d1 : Int
  d2 : Option Int
  cell : Int → Int → Int

/-- All arrays, plus the bookkeeping of used memory (two words of overhead per array). -/
structure St where
  size : Nat
  used : Nat
  arrs : List Arr

/-- Number of elements. -/
def count (s1 : Int) : Option Int → Int
  | none => s1
  | some s2 => s1 * s2

/-- The element designated by subscripts, or the error. A missing second subscript means `0`;
a second subscript on a one-dimensional array is out of range. -/
def locate (a : Arr) (ix : Int) (iy : Option Int) : Except Err (Int × Int) :=
  if 0 ≤ ix ∧ ix < a.d1 then
    match iy, a.d2 with
    | none, _ => .ok (ix, 0)
    | some y, some d2 => if 0 ≤ y ∧ y < d2 then .ok (ix, y) else .error .subscriptY
    | some _, none => .error .subscriptY
  else .error .subscriptX

/-- One operation. -/
def step (s : St) : Op → St × Res
  | .dim s1 s2 d =>
    if (s.used : Int) + count s1 s2 + 2 ≥ s.size then (s, .noMemory)
    else ({ s with used := s.used + (count s1 s2).toNat + 2,
                   arrs := s.arrs ++ [{ d1 := s1, d2 := s2, cell := fun _ _ => d }] },
          .created s.arrs.length)
  | .read id ix iy =>
    match s.arrs[id]? with
    | none => (s, .undefined)
    | some a =>
      match locate a ix iy with
      | .ok (x, y) => (s, .value (a.cell x y))
      | .error e => (s, .error e)
  | .write id ix iy v =>
    match s.arrs[id]? with
    | none => (s, .undefined)
    | some a =>
      match locate a ix iy with
      | .ok (x, y) =>
        let a' : Arr := { a with cell := fun x' y' => if x' = x ∧ y' = y then v else a.cell x' y' }
        ({ s with arrs := s.arrs.set id a' }, .value v)
      | .error e => (s, .error e)

/-- A history. -/
def run (s : St) : List Op → St × List Res
  | [] => (s, [])
  | op :: ops =>
    let (s1, o) := step s op
    let (s2, os) := run s1 ops
    (s2, o :: os)

/-- Dimension requests outside the defective cases: non-negative first dimension, positive second
dimension, element count below 2^30. -/
def DimOk (s1 : Int) (s2 : Option Int) : Prop :=
  0 ≤ s1 ∧ s1 ≤ 524287 ∧
    match s2 with
    | none => True
    | some y => 1 ≤ y ∧ y ≤ 524287 ∧ s1 * y < 1073741824

/-- Subscripts outside the defective cases: BASIC integers; a second subscript only on a
two-dimensional array and not equal to `-1`. -/
def SubOk (a : Arr) (ix : Int) (iy : Option Int) : Prop :=
  -524288 ≤ ix ∧ ix ≤ 524287 ∧
    match iy with
    | none => True
    | some y => -524288 ≤ y ∧ y ≤ 524287 ∧ y ≠ -1 ∧ a.d2 ≠ none

/-- The operation is outside the defective cases, in the given (specification) state. -/
def St.Allows (s : St) : Op → Prop
  | .dim s1 s2 _ => DimOk s1 s2
  | .read id ix iy => ∃ a, s.arrs[id]? = some a ∧ SubOk a ix iy
  | .write id ix iy _ => ∃ a, s.arrs[id]? = some a ∧ SubOk a ix iy

/-- Every operation of the history is outside the defective cases when it is executed. -/
def Valid : St → List Op → Prop
  | _, [] => True
  | s, op :: ops => s.Allows op ∧ Valid (step s op).1 ops

end Sbc.Arrays.Spec
