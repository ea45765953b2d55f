import Verif.Spec.Flow
import Verif.Spec.Num
set_option autoImplicit false
/-!
# Specification of DATA, READ and RESTORE
-/
namespace Sbc.Machine
open Sbc Sbc.Tok Sbc.Tok.Spec

variable {σ : Type}

/-- Text of a DATA instruction with the given items: each is followed by a zero byte. -/
def block (items : List (List Nat)) : List Nat := items.flatMap (· ++ [0])

/-- The DATA items of a piece of program, in order. -/
inductive Items : List Instr → List (List Nat) → Prop
  | nil : Items [] []
  | data {its rest : List (List Nat)} {r : List Instr} : its ≠ [] → (∀ it ∈ its, 0 ∉ it) → Items r rest →
      Items (.text bcData (block its) :: r) (its ++ rest)
  | other {i : Instr} {rest : List (List Nat)} {r : List Instr} : i.op ≠ bcData → Items r rest → Items (i :: r) rest

/-- The items of the program `p` that READ has still to read, in order: none, all those after some place, or those of a
DATA instruction from some item on and all that follow. -/
inductive Left (p : List Instr) (x : Exec) : List (List Nat) → Prop
  | finished : x.dataIndex = none → Left p x []
  | from {a r : List Instr} {i : Instr} {rest : List (List Nat)} : p = a ++ i :: r → i.op ≠ bcData → x.dataIndex = some (posAfter a) →
      Items r rest → Left p x rest
  | within {a r : List Instr} {done its rest : List (List Nat)} : p = a ++ .text bcData (block (done ++ its)) :: r → its ≠ [] →
      (∀ it ∈ its, 0 ∉ it) → x.dataIndex = some (posAfter a) → x.dataOffset = (block done).length → Items r rest → Left p x (its ++ rest)

/-- Characters of a number. -/
def NumChar (c : Nat) : Prop := (48 ≤ c ∧ c ≤ 57) ∨ c = 45 ∨ c = 46

/-- What an item means for a string or number variable: a string item is taken as it is (character 13 marks an
ill-formed item); a number has at most 16 characters, at most six of them decimals, and fits the number type. -/
inductive Means : Bool → List Nat → Item → Prop
  | str {it : List Nat} : 13 ∉ it → Means true it (.str it)
  | num {it : List Nat} : it.length ≤ 16 → (∀ c ∈ it, NumChar c) → Num.Spec.decVal (Num.Spec.ints it) < 524288 →
      (Num.Spec.fracs it).length ≤ 6 → Means false it (.num (Num.Spec.value it))

/-- An item that is no number, or no string. -/
def Illegal (isStr : Bool) (it : List Nat) : Prop :=
  if isStr then 13 ∈ it else it.head? ≠ some 32 ∧ ∃ c ∈ it.take 16, ¬ NumChar c

/-- Store an item in a variable. -/
def Core.put (c : Core σ) (p : Ptr) : Item → Core σ
  | .num n => { c with mem := fun q => if q = p then n else c.mem q }
  | .str s => { c with smem := fun q => if q = p then s else c.smem q }

/-- The items are stored in the variables, one after the other. -/
inductive Assigned : List Entry → List (List Nat) → Core σ → Core σ → Prop
  | nil {c : Core σ} : Assigned [] [] c c
  | cons {b : Bool} {p : Ptr} {it : List Nat} {v : Item} {es : List Entry} {its : List (List Nat)} {c c' : Core σ} :
      Means b it v → Assigned es its (c.put p v) c' → Assigned (.var b false p :: es) (it :: its) c c'

/-! ## DATA lines -/

/-- An item as written: a word, or a text in quotation marks. -/
inductive Written : List Nat → List Nat → Prop
  | word {c : Nat} {w : List Nat} : c ≠ 34 → (∀ x ∈ c :: w, x ≠ 32 ∧ x ≠ 44 ∧ x ≠ 13) → Written (c :: w) (c :: w)
  | quoted {w : List Nat} : (∀ x ∈ w, x ≠ 34 ∧ x ≠ 13) → Written (34 :: w ++ [34]) w
  | empty : Written [] []

/-- A line of items separated by commas, with blanks around them. -/
inductive Line : List Nat → List (List Nat) → Prop
  | last {j k : Nat} {w it : List Nat} : Written w it → Line (List.replicate j 32 ++ w ++ List.replicate k 32) [it]
  | more {j k : Nat} {w it l : List Nat} {its : List (List Nat)} : Written w it → Line l its →
      Line (List.replicate j 32 ++ w ++ List.replicate k 32 ++ 44 :: l) (it :: its)

end Sbc.Machine
