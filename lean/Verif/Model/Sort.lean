import Verif.Model.Common
import Verif.Model.Mem
import Verif.Model.Strs
set_option autoImplicit false
/-!
# SORT and RSORT (`source/subsystem/variables.c:20-155`)

Array elements are modelled by value (a number or the string an element points to); which pool buffer a
string lives in is irrelevant here because sorting only exchanges pointers.
-/
namespace Sbc.Sort
open Sbc Sbc.Strs

/-- `union value` of an array element. -/
inductive Val where
  | num (n : Int)
  | str (s : Str)
  deriving DecidableEq

/-- The memory of all arrays: array number, then element index. -/
abbrev Store := Nat → Nat → Val

/-- `fixp_sort_comp` (`variables.c:63-65`). -/
def fixpSortComp (a b : Int) : Bool := decide (a < b)
/-- `fixp_rsort_comp` (`variables.c:67-69`). -/
def fixpRsortComp (a b : Int) : Bool := decide (a > b)

/-- `str_sort_comp` (`variables.c:71-85`). -/
def strSortComp (a b : Str) : Bool :=
  go a b (if strLen a < strLen b then strLen a else strLen b) 0
where
  /-- the loop, `n` iterations left, at index `i` -/
  go (a b : Str) : Nat → Nat → Bool
    | 0, _ => decide (strLen a < strLen b)
    | n + 1, i =>
      if strAtWide a i < strAtWide b i then true
      else if strAtWide b i < strAtWide a i then false
      else go a b n (i + 1)

/-- `str_rsort_comp` (`variables.c:87-98`). -/
def strRsortComp (a b : Str) : Bool :=
  go a b (if strLen a < strLen b then strLen a else strLen b) 0
where
  /-- the loop, `n` iterations left, at index `i` -/
  go (a b : Str) : Nat → Nat → Bool
    | 0, _ => decide (strLen a > strLen b)
    | n + 1, i =>
      if strAtWide a i = strAtWide b i then go a b n (i + 1)
      else decide (strAtWide a i > strAtWide b i)

/-- The comparison selected by `cmd_sort`/`cmd_rsort` (`variables.c:149-155`): by the type of the key array.
All elements of an array have the array's type; the mixed cases cannot occur. -/
def comp (reverse : Bool) : Val → Val → Bool
  | .num a, .num b => if reverse then fixpRsortComp a b else fixpSortComp a b
  | .str a, .str b => if reverse then strRsortComp a b else strSortComp a b
  | _, _ => false

/-- Exchange of two elements of one array (`variables.c:23-25, 28-30`). -/
def swapOne (st : Store) (a i j : Nat) : Store :=
  fun k => if k = a then fun x => if x = i then st a j else if x = j then st a i else st a x else st k

/-- `_sort_swap` (`variables.c:22-35`): the key array, then each extra array in turn. -/
def sortSwap (st : Store) (arrays : List Nat) (i j : Nat) : Store :=
  arrays.foldl (fun st a => swapOne st a i j) st

/-- `do { ++start; } while (comp(data[start], pivot))` (`variables.c:51-53`), `i` being the next index;
`n` elements are allocated. -/
def scanUp (c : Val → Val → Bool) (d : Nat → Val) (pv : Val) (n : Nat) : Nat → Nat → Out Nat
  | 0, _ => .ub
  | fuel + 1, i => if i < n then if c (d i) pv then scanUp c d pv n fuel (i + 1) else .ok i else .ub

/-- `do { --end; } while (comp(pivot, data[end]))` (`variables.c:54-56`), `j` being the next index. -/
def scanDown (c : Val → Val → Bool) (d : Nat → Val) (pv : Val) (n : Nat) : Nat → Out Nat
  | 0 => if 0 < n then if c pv (d 0) then .ub else .ok 0 else .ub
  | j + 1 => if j + 1 < n then if c pv (d (j + 1)) then scanDown c d pv n j else .ok (j + 1) else .ub

/-- The `while (true)` loop of `_partition` (`variables.c:50-60`); `i`, `j` are the next indexes to visit.
Each round moves `start` up, so `fuel` rounds with `fuel` above the number of elements are enough (proved
in `Proof/Sort.lean`). -/
def partLoop (c : Val → Val → Bool) (arrays : List Nat) (pv : Val) (n : Nat) :
    Nat → Nat → Nat → Store → Out (Nat × Store)
  | 0, _, _, _ => .ub
  | fuel + 1, i, j, st =>
    (scanUp c (st (arrays.headD 0)) pv n (n + 1) i).bind fun i' =>
    (scanDown c (st (arrays.headD 0)) pv n j).bind fun j' =>
      if i' ≥ j' then .ok (i', st)
      else partLoop c arrays pv n fuel (i' + 1) (j' - 1) (sortSwap st arrays i' j')

/-- `_partition` (`variables.c:41-61`); the first array is the key. -/
def partition (c : Val → Val → Bool) (arrays : List Nat) (n start stop : Nat) (st : Store) : Out (Nat × Store) :=
  if stop - start ≤ 1 then .ok (start, st)
  else partLoop c arrays (st (arrays.headD 0) (start + (stop - start) / 2)) n (n + 1) start stop st

/-- `quick_sort` (`variables.c:100-107`), to recursion depth `fuel`; `none`: the recursion is deeper. -/
def quickSort (c : Val → Val → Bool) (arrays : List Nat) (n : Nat) : Nat → Nat → Int → Store → Option (Out Store)
  | 0, _, _, _ => none
  | fuel + 1, start, stop, st =>
    if stop - start ≤ 1 then some (.ok st)
    else match partition c arrays n start stop.toNat st with
      | .ok (p, st1) =>
        match quickSort c arrays n fuel start p st1 with
        | some (.ok st2) => quickSort c arrays n fuel (p + 1) stop st2
        | r => r
      | .err e => some (.err e)
      | .ub => some .ub

/-- `_cmd_sort_shared` (`variables.c:110-147`): `dims` gives the two dimensions of an array, `none` being
`ARR_DIM2_UNUSED`; the key array is the first of `arrays`, whose number the parser limits to at least one. -/
def cmdSort (reverse : Bool) (dims : Nat → Nat × Option Nat) (fuel : Nat) (startF sizeF : Int) (key : Nat)
    (extra : List Nat) (st : Store) : Option (Out Store) :=
  if 3 + extra.length > 32 + 3 then some (.err .syntax)
  else if (dims key).2 ≠ none then some (.err .sort2d)
  else
    -- the loop over the extra arrays (l.125-139) stops at the first offending one
    match extra.find? (fun e => (dims e).2 ≠ none ∨ e = key) with
    | some e => if (dims e).2 ≠ none then some (.err .sort2d) else some (.err .sortSame)
    | none =>
      let n := extra.foldl (fun m e => if (dims e).1 < m then (dims e).1 else m) (dims key).1
      let start := fpToInt startF
      if start < 0 ∨ start > (n : Int) - 1 then some (.err .outOfRange)
      else
        let size := fpToInt sizeF
        if size < 0 ∨ size > (n : Int) - start then some (.err .outOfRange)
        else quickSort (comp reverse) (key :: extra) n fuel start.toNat (start + size - 1) st

end Sbc.Sort
