import Verif.Spec.Lexer
import Verif.Proof.Labels
set_option autoImplicit false
/-!
# Specification of lines
-/
namespace Sbc.Tok.Spec
open Sbc Sbc.Tok

/-- The text of a line (without its end) that does not run into the next line: at most 255 characters, `@` is followed
by a character, `&` by two characters of the line, and the line does not end with the word LABEL. -/
structure Contained (a : List Nat) : Prop where
  noEnd : 13 ∉ a
  len : a.length ≤ 255
  amp : ∀ u v, a = u ++ 38 :: v → 2 ≤ v.length
  lab : ∀ u v, a = u ++ 64 :: v → v ≠ []
  word : ∀ u v, a = u ++ v → ¬ Spelled "LABEL" v

/-- The text of a program of several lines. -/
def programText (ls : List (List Nat)) : List Nat := ls.flatMap fun a => a ++ [13]

/-- No word of the line has more than 64 characters. -/
def ShortWords (a : List Nat) : Prop := ∀ u w v, a = u ++ (w ++ v) → (∀ c ∈ w, isVarname c = true) → w.length ≤ 64

/-- A label table after any history of definitions, with room for `2 ^ n` labels. -/
def TableFrom (n : Nat) (t : Labels.Table) : Prop :=
  ∃ ops : List Labels.Op, (∀ op ∈ ops, op.WF) ∧ t = (Labels.run (Labels.init (2 ^ n)) ops).1

/-- The line `a`, compiled as a program of one line, defines the label `lab` (or none) and gives the code `code`. -/
structure Alone (p : Opts) (pre : Tk) (o : Obj) (a : List Nat) (lab : Option (List Nat)) (code : List Nat) : Prop where
  compiles : ∃ oa, tokenize p pre (a ++ [13]) o = .ok (oa, none) ∧ oa.buf = code ∧
    ∀ name, Names.GoodName name → Labels.labelIndex oa.labels name = if lab = some name then some 0 else none
  good : ∀ n, lab = some n → Names.GoodName n

/-- Lines put together: every line contributes its code; a line whose label is already defined (or does not fit into
the table of `cap` labels) contributes the error instruction "label" instead.  `defs` and `code` are the labels and
the code so far. -/
def joined (cap : Nat) : List (List Nat × Nat) → List Nat → List (Option (List Nat) × List Nat) → List (List Nat × Nat) × List Nat
  | defs, code, [] => (defs, code)
  | defs, code, (none, c) :: r => joined cap defs (code ++ c) r
  | defs, code, (some n, c) :: r =>
    if (defs.lookup n).isSome ∨ defs.length = cap then joined cap defs (code ++ [bcError, 52]) r
    else joined cap (defs ++ [(n, code.length)]) (code ++ c) r

end Sbc.Tok.Spec
