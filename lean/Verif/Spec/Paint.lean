import Verif.Spec.Graphics
set_option autoImplicit false
/-!
# Specification of flood filling
-/
namespace Sbc.Graphics.Spec

/-- Horizontal or vertical neighbours. -/
def Adj (p q : Int × Int) : Prop :=
  (p.2 = q.2 ∧ (q.1 = p.1 + 1 ∨ q.1 = p.1 - 1)) ∨ (p.1 = q.1 ∧ (q.2 = p.2 + 1 ∨ q.2 = p.2 - 1))

/-- The dots of the screen that can be reached from `start` through neighbouring dots satisfying `free`. -/
inductive Region (free : Int × Int → Prop) (start : Int × Int) : Int × Int → Prop
  | here : OnScreen start.1 start.2 → free start → Region free start start
  | next {p q : Int × Int} : Region free start p → Adj p q → OnScreen q.1 q.2 → free q → Region free start q

/-- The colours `GPAINT` may paint over: the colour of the start dot, or with a border colour every other colour. -/
def Fillable (b : Option Int) (start : Nat) (v : Nat) : Prop :=
  match b with
  | none => v = start
  | some b => (v : Int) ≠ b / 4096

end Sbc.Graphics.Spec
