import Verif.Spec.Strs
set_option autoImplicit false
/-!
# Specification of the text console

A screen of 24 rows and 32 columns, each cell showing a character in a colour (0: empty), and a cursor.
The position of a cell in reading order is `32*row + column`.
-/
namespace Sbc.Console.Spec

/-- What the user sees. -/
structure Screen where
  cell : Nat → Nat → Nat × Nat
  x : Nat
  y : Nat

/-- Writing the characters `ws` in colour `col` from the cursor on, in reading order, wrapping at the right
edge; the screen scrolls up by the least number `k` of lines that brings the last character onto it (lines
coming in at the bottom are empty, in colour `col`). -/
def Screen.write (s : Screen) (col : Nat) (ws : List Nat) : Screen :=
  let p := 32 * s.y + s.x
  let k := (p + (ws.length - 1)) / 32 - 23
  { cell := fun r c =>
      let l := 32 * (r + k) + c
      if p ≤ l ∧ l < p + ws.length then (ws.getD (l - p) 0, col)
      else if r + k < 24 then s.cell (r + k) c else (0, col)
    x := (p + ws.length - 32 * k) % 32
    y := (p + ws.length - 32 * k) / 32 }

/-- Moving to the start of the next line, scrolling up if the cursor would leave the screen. -/
def Screen.newline (s : Screen) (col : Nat) : Screen :=
  let k := s.y + 1 - 23
  { cell := fun r c => if r + k < 24 then s.cell (r + k) c else (0, col), x := 0, y := s.y + 1 - k }

/-- Number of spaces a comma prints: up to the next multiple of the tab width or the end of the line. -/
def tabSpaces (tabstep x : Nat) : Nat := min (tabstep - x % tabstep) (32 - x)

/-- What a `PRINT` statement asks for: texts and tabs (`,`). -/
inductive Piece where
  | text (ws : List Nat)
  | tab

/-- Printing one piece with wide space character `sp`. -/
def Screen.piece (s : Screen) (col tabstep sp : Nat) : Piece → Screen
  | .text ws => s.write col ws
  | .tab => s.write col (List.replicate (tabSpaces tabstep s.x) sp)

/-- A whole `PRINT` statement: the pieces in order, then a new line unless it ends with `,` or `;`. -/
def Screen.print (s : Screen) (col tabstep sp : Nat) (ps : List Piece) (stay : Bool) : Screen :=
  let s' := ps.foldl (fun s p => s.piece col tabstep sp p) s
  if stay then s' else s'.newline col

/-- The same screen. -/
def Screen.Same (s t : Screen) : Prop := s.x = t.x ∧ s.y = t.y ∧ ∀ r c, r < 24 → c < 32 → s.cell r c = t.cell r c

end Sbc.Console.Spec
