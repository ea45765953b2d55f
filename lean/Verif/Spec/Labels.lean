import Verif.Model.Labels
set_option autoImplicit false
/-!
# Specification of labels: a bounded list of first definitions
-/
namespace Sbc.Labels.Spec
open Sbc.Labels

/-- Defined labels with their positions, at most `cap`. -/
structure St where
  cap : Nat
  m : List (List Nat × Nat)

/-- One operation: a definition is accepted iff the label is new and there is room; a lookup gives the
position of the (unique) accepted definition. -/
def step (s : St) : Op → St × Res
  | .define n i =>
    if (s.m.lookup n).isSome ∨ s.m.length = s.cap then (s, .added false)
    else ({ s with m := s.m ++ [(n, i)] }, .added true)
  | .lookup n => (s, .at (s.m.lookup n))
  | .reset => ({ s with m := [] }, .done)

/-- A history. -/
def run (s : St) : List Op → St × List Res
  | [] => (s, [])
  | op :: ops =>
    let (s1, o) := step s op
    let (s2, os) := run s1 ops
    (s2, o :: os)

end Sbc.Labels.Spec
