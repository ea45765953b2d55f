import Verif.Model.Resources
set_option autoImplicit false
/-!
# Specification of resource names

A resource has a kind, a bank and a screen.  `Kind.name` spells it as the manual does.
-/
namespace Sbc.Res

/-- The kinds of resources. -/
inductive Kind where
  | bgu | bgd | bgf | spu | sps | spd | col | scu | grp | prg | mem
  deriving DecidableEq, Repr

/-- The three letters. -/
def Kind.letters : Kind → List Nat
  | .bgu => [66, 71, 85] | .bgd => [66, 71, 68] | .bgf => [66, 71, 70]
  | .spu => [83, 80, 85] | .sps => [83, 80, 83] | .spd => [83, 80, 68]
  | .col => [67, 79, 76] | .scu => [83, 67, 85] | .grp => [71, 82, 80]
  | .prg => [80, 82, 71] | .mem => [77, 69, 77]

/-- The number of banks of the kind on a screen; 0: the kind has no banks. -/
def Kind.banks : Kind → Nat
  | .bgu => 4 | .bgd => 2 | .bgf => 1 | .spu => 8 | .sps => 2 | .spd => 4
  | .col => 3 | .scu => 2 | .grp => 4 | .prg => 0 | .mem => 0

/-- The screens the kind exists on, by letter: upper `U` = 85, lower `L` = 76.  GRP belongs to no screen. -/
def Kind.screens : Kind → List Nat
  | .spu => [85] | .spd => [76] | .grp => [] | .prg => [] | .mem => []
  | _ => [85, 76]

/-- A valid type: the letters; or letters and bank; or letters, bank and screen.  Anything of at most two characters may
follow `PRG` and `MEM`, and anything the bank of a `GRP`. -/
inductive TypeName : List Nat → Prop
  | letters (k : Kind) : TypeName k.letters
  | bank (k : Kind) (b : Nat) (h : b < k.banks) : TypeName (k.letters ++ [48 + b])
  | screen (k : Kind) (b p : Nat) (h : b < k.banks) (hp : p ∈ k.screens) : TypeName (k.letters ++ [48 + b, p])
  | grp (b p : Nat) (h : b < 4) : TypeName (Kind.grp.letters ++ [48 + b, p])
  | rest (k : Kind) (r : List Nat) (h : k.banks = 0) (hr : r.length ≤ 2) : TypeName (k.letters ++ r)

/-- A valid file name: one to eight letters, digits and underscores. -/
def FileName (f : List Nat) : Prop :=
  1 ≤ f.length ∧ f.length ≤ 8 ∧
  ∀ c ∈ f, (65 ≤ c ∧ c ≤ 90) ∨ (97 ≤ c ∧ c ≤ 122) ∨ (48 ≤ c ∧ c ≤ 57) ∨ c = 95

/-- The full name of a resource: letters, bank and screen as far as the kind has them. -/
def Kind.name (k : Kind) (b p : Nat) : List Nat :=
  k.letters ++ (if k.banks = 0 then [] else [48 + b]) ++ (if k.screens = [] then [] else [p])

/-- The resource exists. -/
def Kind.Has (k : Kind) (b p : Nat) : Prop :=
  (if k.banks = 0 then b = 0 else b < k.banks) ∧ (if k.screens = [] then p = 0 else p ∈ k.screens)

instance (k : Kind) (b p : Nat) : Decidable (k.Has b p) := by unfold Kind.Has; infer_instance

/-- Screen letter of a page. -/
def letter (page : Nat) : Nat := if page = 1 then 76 else 85

/-- The page the current screen of the kind's system is on. -/
def Kind.page (k : Kind) (pg : Pages) (b : Nat) : Nat :=
  match k with
  | .bgu | .bgd | .bgf | .scu => pg.bg
  | .sps => pg.sp
  | .spu => 0
  | .spd => 1
  | .col => if b = 0 then pg.bg else if b = 1 then pg.sp else pg.gr
  | _ => 0

/-- Pages are 0 (upper) or 1 (lower). -/
def Pages.WF (pg : Pages) : Prop := pg.bg < 2 ∧ pg.sp < 2 ∧ pg.gr < 2

instance (pg : Pages) : Decidable pg.WF := by unfold Pages.WF; infer_instance

/-- The type of a kind. -/
def Kind.ty : Kind → Ty
  | .bgu | .bgd | .bgf | .spu | .sps | .spd => .chr
  | .col => .col | .scu => .scr | .grp => .grp | .prg => .prg | .mem => .mem

end Sbc.Res
