import Verif.Model.LineInput
import Verif.Spec.Strs
import Verif.Spec.Num
import Mathlib.Data.List.Forall2
set_option autoImplicit false
/-!
# Specification of the line editor, LINPUT and INPUT
-/
namespace Sbc.LineInput.Spec
open Sbc Sbc.Strs Sbc.Strs.Spec Sbc.Console Sbc.LineInput

/-- A line being edited: the characters, each with its colour, before and after the cursor. -/
structure Line where
  before : List (Nat × Nat)
  after : List (Nat × Nat)

/-- All characters with their colours. -/
def Line.cells (l : Line) : List (Nat × Nat) := l.before ++ l.after

/-- The characters. -/
def Line.text (l : Line) : List Nat := l.cells.map (·.1)

/-- The empty line. -/
def Line.empty : Line := ⟨[], []⟩

/-- Effect of a round.  When L or R changes nothing else happens.  BACKSPACE or Y removes the character before the cursor,
DEL the one after it.  Other characters than RETURN are inserted before the cursor while there are fewer than 32.  LEFT and
RIGHT move the cursor by one character. -/
def Line.press (col : Nat) (l : Line) (e : Event) : Line :=
  if e.lr then l
  else if e.kb = 15 ∨ e.y then ⟨l.before.dropLast, l.after⟩
  else if e.kb = 67 then ⟨l.before, l.after.tail⟩
  else if e.inkey = 13 then l
  else if e.inkey ≠ 0 ∧ l.cells.length < 32 then ⟨l.before ++ [(e.inkey, col)], l.after⟩
  else if e.left then
    match l.before.getLast? with
    | none => l
    | some x => ⟨l.before.dropLast, x :: l.after⟩
  else if e.right then
    match l.after with
    | [] => l
    | x :: r => ⟨l.before ++ [x], r⟩
  else l

/-- Effect of several rounds. -/
def Line.presses (col : Nat) (l : Line) (es : List Event) : Line := es.foldl (Line.press col) l

/-- The screen `c` is the screen `c0` except that the row of the cursor shows the line, followed by empty cells, and the
cursor is in its place. -/
structure Shows (c0 : Con) (l : Line) (c : Con) : Prop where
  x : c.x = l.before.length
  y : c.y = c0.y
  col : c.col = c0.col
  tabstep : c.tabstep = c0.tabstep
  cells : ∀ i k, l.cells[i]? = some k → (c.text c0.y i, c.color c0.y i) = k
  clear : ∀ i, l.cells.length ≤ i → i < 32 → c.text c0.y i = 0
  others : ∀ r i, ¬ (r = c0.y ∧ i < 32) → c.text r i = c0.text r i ∧ c.color r i = c0.color r i

/-- The row of the cursor is empty. -/
def RowClear (c : Con) : Prop := ∀ i, i < 32 → c.text c.y i = 0

/-- The rounds one after the other. -/
def editRun : List Event → Ed → Out Ed
  | [], s => .ok s
  | e :: es, s => (editStep s e).bind (editRun es)

/-- The event asks to remove a character: BACKSPACE, Y or DEL (when L and R did not change). -/
def Removes (e : Event) : Prop := e.lr = false ∧ (e.kb = 15 ∨ e.y = true ∨ e.kb = 67)

/-- Nothing is removed from a full line in the last row. -/
def Roomy (y col : Nat) (l : Line) (es : List Event) : Prop :=
  y < 23 ∨ ∀ k e, es[k]? = some e → Removes e → (l.presses col (es.take k)).cells.length < 32

/-- Nothing is shown in the cells from the cursor on. -/
def Beyond (c : Con) : Prop := ∀ r i, r < 24 → i < 32 → 32 * c.y + c.x ≤ 32 * r + i → c.text r i = 0

/-- The rounds that end the editing: RETURN is typed, A is reported as pressed, or there is an error (BREAK). -/
def Ends (e : Event) : Prop := e.inkey = 13 ∨ e.a = true ∨ e.err = true

/-- Someone edits a line, starting in row `y`, and ends with RETURN, A or BREAK (`err`): the rounds `es` up to that one
leave the line `l`.  (The insert state of the panel is 0 or 1.) -/
def Entered (y col : Nat) (es : List Event) (err : Bool) (l : Line) : Prop :=
  ∃ before e rest, es = before ++ e :: rest ∧ (∀ x ∈ before, ¬ Ends x) ∧ Ends e ∧ e.err = err ∧
    (∀ x ∈ before ++ [e], x.cursor ≤ 1) ∧ Roomy y col Line.empty (before ++ [e]) ∧ l = Line.empty.presses col (before ++ [e])

/-- Number of characters of a prompt. -/
def promptLen (prompt : Option Str) : Nat := (prompt.map strLen).getD 0

/-- From column `x` on, the question mark after the prompt is not in the last column, and is in the row in which the prompt
ends. -/
def PromptFits (x : Nat) (prompt : Option Str) : Prop :=
  (x + promptLen prompt) % 32 ≠ 31 ∧ (promptLen prompt = 0 ∨ (x + promptLen prompt) % 32 ≠ 0)

/-- The screen when a line is to be typed: the cursor is at the beginning of a row, and nothing is shown from there on. -/
structure Ready (c : Con) : Prop where
  x : c.x = 0
  y : c.y < 24
  tab : 1 ≤ c.tabstep ∧ c.tabstep ≤ 16
  beyond : Beyond c

/-- A character with an 8-bit code. -/
def Typable (w : Nat) : Prop := ∃ c, c < 256 ∧ w = toWide c

/-- The fields of a line, separated by commas. -/
def commaText : List (List Nat) → List Nat
  | [] => []
  | [f] => f
  | f :: g :: r => f ++ 44 :: commaText (g :: r)

/-- A digit, a point or a minus sign. -/
def Numeric (c : Nat) : Prop := (48 ≤ c ∧ c ≤ 57) ∨ c = 46 ∨ c = 45

/-- What can be typed for a variable: for numbers, digits, points and minus signs (at least one, in the range of numbers,
with at most six decimals); for strings anything without a comma. -/
def Accepts : Kind → List Nat → Prop
  | .num, f => f ≠ [] ∧ (∀ c ∈ f, Numeric c) ∧ Num.Spec.decVal (Num.Spec.ints f) < 524288 ∧ (Num.Spec.fracs f).length ≤ 6
  | .str, f => 44 ∉ f
  | .other, _ => False

/-- The value that a field stands for: the number at its beginning, or its characters. -/
def Means : Kind → List Nat → Got → Prop
  | .num, f, .num v => v = Num.Spec.value f
  | .str, f, .str s => text s = f.map toWide
  | _, _, _ => False

/-- All fields in order. -/
inductive MeansAll : List Kind → List (List Nat) → List Got → Prop
  | nil : MeansAll [] [] []
  | cons {k : Kind} {f : List Nat} {v : Got} {ks : List Kind} {fs : List (List Nat)} {vs : List Got} :
      Means k f v → MeansAll ks fs vs → MeansAll (k :: ks) (f :: fs) (v :: vs)

/-- A value for a variable of the kind. -/
def OfKind : Kind → Got → Prop
  | .num, .num v => I32 v
  | .str, .str _ => True
  | _, _ => False

/-- A line that INPUT does not accept: the number of fields is wrong, or after fields in order there is one for a number that
is empty or in which something else than a digit, a point or a minus sign comes first (other than a space). -/
inductive Refused (kinds : List Kind) (u : List Nat) : Prop
  | count : kinds.length ≠ u.count 44 + 1 → Refused kinds u
  | field (ks ks' : List Kind) (fs : List (List Nat)) (a rest : List Nat) : kinds = ks ++ .num :: ks' → List.Forall₂ Accepts ks fs →
      u = fs.flatMap (· ++ [44]) ++ (a ++ rest) → (∀ x ∈ a, Numeric x) →
      ((a = [] ∧ (rest = [] ∨ rest.head? = some 44)) ∨ ∃ x, rest.head? = some x ∧ ¬ Numeric x ∧ x ≠ 44 ∧ x ≠ 32) → Refused kinds u

/-- The row of the cursor shows the characters with the codes `u`, and nothing behind them. -/
def RowShows (u : List Nat) (c : Con) : Prop := row c = u.map toWide ++ List.replicate (32 - u.length) 0

end Sbc.LineInput.Spec
