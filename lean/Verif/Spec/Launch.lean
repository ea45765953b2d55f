import Verif.Model.Launch
set_option autoImplicit false
/-!
# Specification of the main loop
-/
namespace Sbc.Launch
open Sbc Sbc.Tok

/-- The lines that the user has typed in a history. -/
def typed : List Act → List (List Nat)
  | [] => []
  | .line l :: r => l :: typed r
  | _ :: r => typed r

/-- The lines that are to be executed: all but the two special ones. -/
def ordinary (ls : List (List Nat)) : List (List Nat) := ls.filter fun l => !special l

/-- The window is closed now. -/
def closed (s : St) : St := { s with error := errShutdown }

/-- SELECT is pressed now. -/
def selected (s : St) : St := { s with error := errBreak }

/-- The history is one of the program thread alone. -/
def Alone (acts : List Act) : Prop := ∀ a ∈ acts, a.outside = false

/-- The history is one of the program thread alone, and nobody types (the window is closed). -/
def Deserted (acts : List Act) : Prop := ∀ a ∈ acts, a.outside = false ∧ ∀ l, a ≠ .line l

end Sbc.Launch
