import Verif.Model.Vars
/-!
# Specification of variables: a bounded association list

This file knows nothing about hashing, probing or slots.
-/
namespace Sbc.Vars.Spec
open Sbc Sbc.Vars

/-- A variable is identified by its name and type. -/
abbrev Key := List Nat × Ty

/-- The set of existing variables with their values, in order of creation; at most `cap` of them.
`keepNames` says whether CLEAR keeps the variables (with default values) or forgets them. -/
structure St where
  cap : Nat
  keepNames : Bool
  m : List (Key × Val)

/-- Value of a fresh variable: `0`, the empty string, an array without storage. -/
def fresh : Ty → Val
  | .num => .num 0
  | .str => .str none
  | .numArr => .arr none
  | .strArr => .arr none

/-- Replace the value of `k`. -/
def update (m : List (Key × Val)) (k : Key) (v : Val) : List (Key × Val) :=
  m.map fun e => if e.1 = k then (k, v) else e

/-- One access. -/
def step (s : St) : Op → St × Out Val
  | .read n ty =>
    match s.m.lookup (n, ty) with
    | some v => (s, .ok v)
    | none =>
      if s.m.length = s.cap then (s, .err .outOfMemory)
      else ({ s with m := s.m ++ [((n, ty), fresh ty)] }, .ok (fresh ty))
  | .write n ty v =>
    match s.m.lookup (n, ty) with
    | some _ => ({ s with m := update s.m (n, ty) v }, .ok v)
    | none =>
      if s.m.length = s.cap then (s, .err .outOfMemory)
      else ({ s with m := s.m ++ [((n, ty), v)] }, .ok v)
  | .dim n ty alloc =>
    match s.m.lookup (n, ty) with
    | some v =>
      if s.keepNames = true ∧ v = .arr none then
        ({ s with m := update s.m (n, ty) (.arr alloc) }, .ok (.arr alloc))
      else (s, .err .duplicateDim)
    | none =>
      if s.m.length = s.cap then (s, .err .outOfMemory)
      else ({ s with m := s.m ++ [((n, ty), .arr alloc)] }, .ok (.arr alloc))
  | .clear =>
    if s.keepNames then ({ s with m := s.m.map fun e => (e.1, fresh e.1.2) }, .ok (.num 0))
    else ({ s with m := [] }, .ok (.num 0))

/-- A history of accesses. -/
def run (s : St) : List Op → St × List (Out Val)
  | [] => (s, [])
  | op :: ops =>
    let (s1, o) := step s op
    let (s2, os) := run s1 ops
    (s2, o :: os)

/-- No variables yet. -/
def init (cap : Nat) (keepNames : Bool) : St := { cap, keepNames, m := [] }

end Sbc.Vars.Spec
