import Verif.Model.Named
import Verif.Spec.Arrays
import Verif.Spec.Vars
set_option autoImplicit false
/-!
# Specification of the data memory: every name has a value or a table

Nothing here knows about slots, hashing, words or pointers.
-/
namespace Sbc.Named.Spec
open Sbc Sbc.Vars Sbc.Arrays Sbc.Named

/-- A name with its kind (number or string, variable or array). -/
abbrev Key := List Nat × Ty

/-- The data: the names in use (at most `cap`), the values of the variables, the arrays that have storage, the storage in use (each array
needs two more than its elements) of `size`.  `keep` tells whether CLEAR keeps the names. -/
structure St where
  cap : Nat
  size : Nat
  keep : Bool
  used : Nat
  names : List Key
  val : Key → Val
  arr : Key → Option Arrays.Spec.Arr

/-- The beginning: variables are 0 and empty, no arrays. -/
def init (cap size : Nat) (keep : Bool) : St :=
  { cap, size, keep, used := 0, names := [], val := fun k => Vars.Spec.fresh k.2, arr := fun _ => none }

/-- The name is used: it may be one too many. -/
def touch (s : St) (k : Key) : Option St :=
  if k ∈ s.names then some s
  else if s.names.length = s.cap then none
  else some { s with names := s.names ++ [k] }

/-- The first value of the elements: 0 in an array of numbers, the empty string (the word `e`) in an array of strings. -/
def blank (e : Int) (ty : Ty) : Int := if ty = .strArr then e else 0

/-- A new array. -/
def table (e : Int) (ty : Ty) (s1 : Int) (s2 : Option Int) : Arrays.Spec.Arr := ⟨s1, s2, fun _ _ => blank e ty⟩

/-- Storage for an array with these dimensions is left. -/
def Fits (s : St) (s1 : Int) (s2 : Option Int) : Prop := (s.used : Int) + Arrays.Spec.count s1 s2 + 2 < s.size

/-- Create an array. -/
def create (e : Int) (s : St) (k : Key) (s1 : Int) (s2 : Option Int) : St :=
  { s with used := s.used + (Arrays.Spec.count s1 s2).toNat + 2,
           arr := fun j => if j = k then some (table e k.2 s1 s2) else s.arr j }

/-- The dimensions of an array used without DIM: 10, or 10 by 10 if two subscripts are given. -/
def ten (iy : Option Int) : Option Int := iy.map fun _ => 10

instance (s : St) (s1 : Int) (s2 : Option Int) : Decidable (Fits s s1 s2) := inferInstanceAs (Decidable (_ < _))

/-- The array of this name, which is created if need be. -/
def array (e : Int) (s : St) (k : Key) (iy : Option Int) : St × Except Err Arrays.Spec.Arr :=
  match touch s k with
  | none => (s, .error .outOfMemory)
  | some s =>
    match s.arr k with
    | some a => (s, .ok a)
    | none => if Fits s 10 (ten iy) then (create e s k 10 (ten iy), .ok (table e k.2 10 (ten iy))) else (s, .error .outOfMemory)

/-- A table with one element changed. -/
def change (a : Arrays.Spec.Arr) (x y : Int) (w : Int) : Arrays.Spec.Arr :=
  { a with cell := fun x' y' => if x' = x ∧ y' = y then w else a.cell x' y' }

/-- One operation.  DIM of an array in use is an error; DIM requires that the storage suffices.  After CLEAR all is as in the beginning, except
that the names may stay. -/
def step (e : Int) (s : St) : Op → St × Res
  | .get n ty => match touch s (n, ty) with
    | none => (s, .error .outOfMemory)
    | some s => (s, .value (s.val (n, ty)))
  | .set n ty v => match touch s (n, ty) with
    | none => (s, .error .outOfMemory)
    | some s => ({ s with val := fun k => if k = (n, ty) then v else s.val k }, .value v)
  | .dim n ty s1 s2 =>
    if (n, ty) ∈ s.names ∧ ¬ (s.keep = true ∧ (s.arr (n, ty)).isNone = true) then (s, .error .duplicateDim)
    else match touch s (n, ty) with
      | none => (s, .error .outOfMemory)
      | some s => (create e s (n, ty) s1 s2, .done)
  | .elem n ty ix iy => match array e s (n, ty) iy with
    | (s, .error er) => (s, .error er)
    | (s, .ok a) => match Arrays.Spec.locate a ix iy with
      | .ok (x, y) => (s, .word (a.cell x y))
      | .error er => (s, .error er)
  | .setElem n ty ix iy w => match array e s (n, ty) iy with
    | (s, .error er) => (s, .error er)
    | (s, .ok a) => match Arrays.Spec.locate a ix iy with
      | .ok (x, y) => ({ s with arr := fun k => if k = (n, ty) then some (change a x y w) else s.arr k }, .word w)
      | .error er => (s, .error er)
  | .clear => ({ init s.cap s.size s.keep with names := if s.keep then s.names else [] }, .done)

/-- A history. -/
def run (e : Int) (s : St) : List Op → St × List Res
  | [] => (s, [])
  | op :: ops =>
    let (s1, o) := step e s op
    let (s2, os) := run e s1 ops
    (s2, o :: os)

/-- A kind of array. -/
def isArr : Ty → Bool
  | .numArr | .strArr => true
  | _ => false

/-- Operations outside the defective cases of C04–C06: names of 1 to 16 characters, the right kind, dimensions that are not negative or
enormous and for which storage is left, two subscripts only where there are two dimensions and the second not -1. -/
def Allows (e : Int) (s : St) : Op → Prop
  | .get n ty => Names.GoodName n ∧ isArr ty = false
  | .set n ty _ => Names.GoodName n ∧ isArr ty = false
  | .dim n ty s1 s2 => Names.GoodName n ∧ isArr ty = true ∧ Arrays.Spec.DimOk s1 s2 ∧ Fits s s1 s2
  | .elem n ty ix iy => Names.GoodName n ∧ isArr ty = true ∧ Arrays.Spec.SubOk ((s.arr (n, ty)).getD (table e ty 10 (ten iy))) ix iy
  | .setElem n ty ix iy _ => Names.GoodName n ∧ isArr ty = true ∧ Arrays.Spec.SubOk ((s.arr (n, ty)).getD (table e ty 10 (ten iy))) ix iy
  | .clear => True

/-- Every operation is allowed when it is executed. -/
def Valid (e : Int) : St → List Op → Prop
  | _, [] => True
  | s, op :: ops => Allows e s op ∧ Valid e (step e s op).1 ops

end Sbc.Named.Spec
