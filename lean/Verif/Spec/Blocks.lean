import Verif.Model.Blocks
set_option autoImplicit false
/-!
# Specification of the memory: separate blocks

A block is its size and, for each byte, the value last stored, 0 if it was requested with zeroes, or nothing.  There are no addresses.
-/
namespace Sbc.Blocks.Spec
open Sbc Sbc.Blocks

/-- A block. -/
structure Block where
  size : Nat
  byte : Nat → Option Nat

/-- The blocks in use. -/
abbrev St := List Block

/-- Memory in use. -/
def used (s : St) : Nat := (s.map Block.size).sum

/-- One operation. -/
def step (s : St) : Op → St
  | .malloc size => s ++ [⟨size, fun _ => none⟩]
  | .calloc count size => s ++ [⟨count * size, fun _ => some 0⟩]
  | .free _ => s
  | .reset => []
  | .store i j v => s.modify i fun b => { b with byte := fun x => if x = j then some v else b.byte x }
  | .fetch _ _ => s

/-- The observation agrees: a byte with a known value has this value. -/
def Agrees (s : St) : Op → Res → Prop
  | .malloc _, r => r = .block
  | .calloc _ _, r => r = .block
  | .free _, r => r = .done
  | .reset, r => r = .done
  | .store _ _ _, r => r = .done
  | .fetch i j, r => ∃ v, r = .byte v ∧ ∀ b w, s[i]? = some b → b.byte j = some w → v = w

/-- Requests for which memory is left, at most 2 GB; accesses within a block. -/
def Allows (max : Nat) (s : St) : Op → Prop
  | .malloc size => used s + size ≤ max
  | .calloc count size => used s + count * size ≤ max ∧ count * size ≤ 2147483647
  | .free _ | .reset => True
  | .store i j _ | .fetch i j => ∃ b, s[i]? = some b ∧ j < b.size

/-- Every observation of a history agrees. -/
def AllAgree : St → List Op → List Res → Prop
  | _, [], [] => True
  | s, op :: ops, r :: rs => Agrees s op r ∧ AllAgree (step s op) ops rs
  | _, _, _ => False

/-- Every operation is allowed when it is executed. -/
def Valid (max : Nat) : St → List Op → Prop
  | _, [] => True
  | s, op :: ops => Allows max s op ∧ Valid max (step s op) ops

end Sbc.Blocks.Spec
