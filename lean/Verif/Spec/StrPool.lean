import Verif.Model.StrPool
set_option autoImplicit false
/-!
# What string variables mean to the programmer

Every variable holds its own string; there is no pool, no sharing and no counting.
-/
namespace Sbc.StrPool.Spec
open Sbc Sbc.Strs

/-- A string on the stack: a constant, a computed string, or a variable. -/
inductive Item where
  | lit (s : List Nat)
  | val (s : Str)
  | var (v : Nat)

/-- The values of the variables and the stack (top first). -/
structure State where
  vals : Nat → Str
  stack : List Item

/-- All variables are empty. -/
def init : State := ⟨fun _ => emptyStr, []⟩

/-- The string an item stands for. -/
def State.get (a : State) : Item → Str
  | .lit s => ⟨false, s⟩
  | .val s => s
  | .var v => a.vals v

/-- Assign a string to a variable. -/
def State.put (a : State) (v : Nat) (s : Str) : State := { a with vals := fun u => if u = v then s else a.vals u }

/-- Operations, with the error reported; `none` when the stack does not hold the operands or a variable does not
exist. -/
def step (n : Nat) (a : State) : Op → Option (State × Option Err)
  | .lit s => some ({ a with stack := .lit s :: a.stack }, none)
  | .load v => if v < n then some ({ a with stack := .var v :: a.stack }, none) else none
  | .fn k f =>
    if a.stack.length < k then none
    else match f ((a.stack.take k).map a.get) with
      | .fresh s => some ({ a with stack := .val s :: a.stack.drop k }, none)
      | .const s => some ({ a with stack := .lit s :: a.stack.drop k }, none)
      | .early e | .late e => some ({ a with stack := [] }, some e)
  | .use k => if a.stack.length < k then none else some ({ a with stack := a.stack.drop k }, none)
  | .assign =>
    match a.stack with
    | b :: .var v :: rest => if v < n then some ({ a.put v (a.get b) with stack := rest }, none) else none
    | _ => none
  | .read v s => if v < n then some (a.put v ⟨false, s⟩, none) else none
  | .input v s => if v < n then some (a.put v s, none) else none
  | .swap u v => if u < n ∧ v < n then some ((a.put u (a.vals v)).put v (a.vals u), none) else none
  | .clear => some (init, none)
  | .done => some ({ a with stack := [] }, none)

/-- A history. -/
def run (n : Nat) (a : State) : List Op → Option (State × List (Option Err))
  | [] => some (a, [])
  | op :: ops =>
    match step n a op with
    | none => none
    | some (a', e) =>
      match run n a' ops with
      | none => none
      | some (a'', es) => some (a'', e :: es)

/-- Whether an item is a computed string. -/
def Item.isVal : Item → Bool
  | .val _ => true
  | _ => false

/-- A step of a program that loses no buffer: it reports no error, does not READ a string, does not INPUT over a
variable holding characters outside the 8-bit set, and ends its statements after using all computed strings. -/
def tidyStep (n : Nat) (a : State) (op : Op) : Bool :=
  (match step n a op with | some (_, none) => true | _ => false) &&
  (match op with
   | .read _ _ => false
   | .input v _ => !(a.vals v).wide
   | .done | .clear => a.stack.all fun i => !i.isVal
   | _ => true)

/-- All steps are `tidyStep`s. -/
def tidy (n : Nat) (a : State) : List Op → Bool
  | [] => true
  | op :: ops => tidyStep n a op && (match step n a op with | some (a', _) => tidy n a' ops | none => false)

/-- At every moment the string variables and the computed strings on the stack are fewer than `max`. -/
def roomy (max n : Nat) (a : State) : List Op → Bool
  | [] => true
  | op :: ops => decide (n + (a.stack.filter Item.isVal).length < max) &&
      (match step n a op with | some (a', _) => roomy max n a' ops | none => true)

end Sbc.StrPool.Spec
