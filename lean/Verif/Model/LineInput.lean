import Verif.Model.Console
set_option autoImplicit false
/-!
# The line editor, LINPUT and INPUT (`console.c:193-471`)
-/
namespace Sbc.LineInput
open Sbc Sbc.Strs Sbc.Console

/-- What one round of the loop of `shared_input` finds (`console.c:218-282`): the next character of the keyboard buffer (0:
none), the key of the panel, whether L or R changed, whether Y, LEFT, RIGHT and A are reported as pressed, the insert state of
the panel (`panel.cursor`), and whether there is an error (BREAK) at the end.  Any sequence is possible: other threads change
these. -/
structure Event where
  inkey : Nat
  kb : Nat
  lr : Bool
  y : Bool
  left : Bool
  right : Bool
  a : Bool
  cursor : Nat
  err : Bool

/-- State of the editor: the console, `out_index`, `out_index_max` (`console.c:211-212`). -/
structure Ed where
  con : Con
  pos : Nat
  max : Nat

/-- `output[i]`, `outcol[i]` for `output = text[y]` (`console.c:208-209`): the cells of row `y`, then those of the following
rows; outside the array it is undefined. -/
def rd (f : Nat → Nat → Nat) (y i : Nat) : Out Nat :=
  if y + i / width < height then .ok (f (y + i / width) (i % width)) else .ub

/-- The loops that copy characters back (`console.c:241-244`, `251-254`): `n` rounds from `i` on.  The cells written are in
the row. -/
def copyBack (y : Nat) : Nat → Nat → Con → Out Con
  | 0, _, c => .ok c
  | n + 1, i, c =>
    (rd c.color y (i + 1)).bind fun k => (rd c.text y (i + 1)).bind fun w =>
      copyBack y n (i + 1) { c with color := set2 c.color y i k, text := set2 c.text y i w }

/-- The loop that copies characters forward (`console.c:267-270`): `n` rounds, down to `pos`. -/
def copyOn (y pos : Nat) : Nat → Con → Con
  | 0, c => c
  | n + 1, c => copyOn y pos n { c with color := set2 c.color y (pos + n + 1) (c.color y (pos + n))
                                        text := set2 c.text y (pos + n + 1) (c.text y (pos + n)) }

/-- Write a character in the current colour (`console.c:261-262`, `271-272`). -/
def putAt (c : Con) (i w : Nat) : Con := { c with color := set2 c.color c.y i c.col, text := set2 c.text c.y i w }

/-- Copy back and clear the last cell (`console.c:241-245`, `251-255`). -/
def deleteAt (s : Ed) (i : Nat) : Out Con :=
  (copyBack s.con.y (s.max - i) i s.con).bind fun c => .ok { c with text := set2 c.text c.y (s.max - 1) 0 }

/-- The branches of a round (`console.c:234-279`).  The change of the panel's shift state is left out.  `replace` is
`cursor & ~1` (`console.c:260`). -/
def editKey (s : Ed) (e : Event) : Out Ed :=
  if e.lr then .ok s
  else if e.kb = 15 ∨ e.y then
    if s.pos > 0 then (deleteAt s (s.pos - 1)).bind fun c => .ok ⟨c, s.pos - 1, s.max - 1⟩ else .ok s
  else if e.kb = 67 then
    if s.pos < s.max then (deleteAt s s.pos).bind fun c => .ok ⟨c, s.pos, s.max - 1⟩ else .ok s
  else if e.inkey = 13 then .ok s
  else if e.inkey ≠ 0 ∧ s.max < width then
    if e.cursor / 2 ≠ 0 then
      .ok ⟨putAt s.con s.pos e.inkey, s.pos + 1, if s.pos + 1 > s.max then s.max + 1 else s.max⟩
    else
      .ok ⟨putAt (copyOn s.con.y s.pos (s.max - s.pos) s.con) s.pos e.inkey, s.pos + 1, s.max + 1⟩
  else if e.left then .ok { s with pos := s.pos - 1 }
  else if e.right then .ok { s with pos := if s.pos < s.max then s.pos + 1 else s.pos }
  else .ok s

/-- A round: the branches, then the cursor (`console.c:280`). -/
def editStep (s : Ed) (e : Event) : Out Ed :=
  (editKey s e).bind fun s => .ok { s with con := { s.con with x := s.pos } }

/-- The condition to stop (`console.c:281-282`). -/
def Event.stops (e : Event) : Bool := e.err || e.inkey == 13 || e.a

/-- The loop of `shared_input`; the outcome is the editor and whether there was an error, or nothing if it still waits. -/
def editLoop : List Event → Ed → Out (Option (Ed × Bool))
  | [], _ => .ok none
  | e :: es, s => (editStep s e).bind fun s => if e.stops then .ok (some (s, e.err)) else editLoop es s

/-- `shared_input` (`console.c:200-286`).  The panel is left out.  The cursor must be in a row of the screen. -/
def sharedInput (es : List Event) (c : Con) : Out (Option (Con × Bool)) :=
  if c.y < height then (editLoop es ⟨c, 0, 0⟩).bind fun r => .ok (r.map fun p => (p.1.con, p.2)) else .ub

/-- The cells of the row of the cursor: `output`. -/
def row (c : Con) : List Nat := (List.range width).map (c.text c.y)

/-- The string that LINPUT makes of a row (`console.c:453-469`); `wide` is the kind of strings of the pool. -/
def lineStr (wide : Bool) (r : List Nat) : Str :=
  let t := r.takeWhile (· != 0)
  if wide || t.any (fun w => toChar w == -1) then ⟨true, t⟩ else ⟨false, t.map fun w => toU8 (toChar w)⟩

/-- `cmd_linput` (`console.c:423-471`): the console and the string that is stored in the variable, none after an error.
`pool` is the kind of strings; `none` means that there is no free string (`get_new_str` gives a null pointer, which is
used). The number of uses of the old string is not part of this. -/
def cmdLinput (prompt : Option Str) (pool : Option Bool) (es : List Event) (c : Con) : Out (Option (Con × Option Str)) :=
  (conPrompt c prompt).bind fun c =>
    (sharedInput es c).bind fun r =>
      match r with
      | none => .ok none
      | some (c, true) => .ok (some (c, none))
      | some (c, false) =>
        match pool with
        | none => .ub
        | some w => .ok (some (conNewline c true, some (lineStr w (row c))))

/-- The variables of INPUT: for numbers, for strings, or something else. -/
inductive Kind where
  | num
  | str
  | other
  deriving DecidableEq

/-- What is stored in a variable. -/
inductive Got where
  | num (v : Int)
  | str (s : Str)

/-- How the loop of INPUT over the characters ends: the line is accepted, it is rejected, or a variable is neither for
numbers nor for strings. -/
inductive End where
  | accept
  | reject
  | badType
  deriving DecidableEq

/-- `is_number` (`strs.c:43-45`). -/
def isNumber (c : Nat) : Bool := decide (48 ≤ c) && decide (c ≤ 57)

/-- Character `i` of the line as a byte (`console.c:357`). -/
def byteAt (c : Con) (i : Nat) : Nat := toU8 (toChar (c.text c.y i))

/-- `u8_to_num` of the characters from `p` to `q - 1`, stored in a `fixp` (`console.c:368-370`). -/
def fieldNum (c : Con) (p q : Nat) : Out Int :=
  (Num.strToNumber (((List.range (q - p)).map fun j => toWide (byteAt c (p + j)))) 10 true).bind fun v => .ok (wrap32 v)

/-- The string made of the characters from `p` to `q - 1`; the character `q` (the separator) takes part in the choice of
the kind (`console.c:388-405`). -/
def fieldStr (c : Con) (p q : Nat) : Str :=
  if ((List.range (q + 1 - p)).map fun j => c.text c.y (p + j)).any (fun w => toChar w == -1) then
    ⟨true, (List.range (q - p)).map fun j => c.text c.y (p + j)⟩
  else ⟨false, (List.range (q - p)).map fun j => byteAt c (p + j)⟩

/-- The loop of `cmd_input` over the characters (`console.c:355-414`): `p` is `prev_i`, `o` is `out_i`.  `conversion_copy`
has 32 bytes; a write behind it is undefined.  `pool`: there are free strings. -/
def fieldLoop (pool : Bool) (c : Con) : Nat → List Kind → Nat → Nat → List Got → Out (List Got × End)
  | _, [], _, _, g => .ok (g, .accept)
  | 0, _ :: _, _, _, _ => .ub
  | f + 1, k :: ks, p, o, g =>
    if ¬ o < width then .ub
    else
      let ch := byteAt c o
      match k with
      | .num =>
        if isNumber ch || ch == 46 || ch == 45 then fieldLoop pool c f (k :: ks) p (o + 1) g
        else if ch = 44 ∨ ch = 0 ∨ ch = 32 ∨ o + 1 ≥ width then
          if o + 1 - p - 1 = 0 then .ok (g, .reject)
          else (fieldNum c p o).bind fun n => fieldLoop pool c f ks (o + 1) (o + 1) (g ++ [.num n])
        else .ok (g, .reject)
      | .str =>
        if ch = 44 ∨ ch = 0 ∨ o + 1 ≥ width then
          if pool then fieldLoop pool c f ks (o + 1) (o + 1) (g ++ [.str (fieldStr c p o)]) else .ub
        else fieldLoop pool c f (k :: ks) p (o + 1) g
      | .other => .ok (g, .badType)

/-- Number of commas in the row (`console.c:342-345`). -/
def commas (c : Con) : Nat := ((row c).filter (· == toWide 44)).length

/-- Examination of a line (`console.c:341-414`).  The fuel of the loop is enough: each round moves on by a character. -/
def examine (pool : Bool) (kinds : List Kind) (c : Con) : Out (List Got × End) :=
  if kinds.length ≠ commas c + 1 then .ok ([], .reject)
  else fieldLoop pool c (width + 1) kinds 0 0 []

/-- `"?Redo from start"` -/
def redoText : Str := ⟨false, [63, 82, 101, 100, 111, 32, 102, 114, 111, 109, 32, 115, 116, 97, 114, 116]⟩

/-- `con_reprompt` (`console.c:296-301`). -/
def conReprompt (c : Con) (prompt : Option Str) : Out Con :=
  (conPuts (conNewline c true) redoText).bind fun c => conPrompt (conNewline c true) prompt

/-- How INPUT ends: the values stored by the last line, or an error (BREAK, a wrong variable). -/
inductive Outcome where
  | stored (g : List Got)
  | broken
  | badType

/-- The loop of `cmd_input` over the lines (`console.c:336-420`); `lines` are the events of each line.  Each line stores the
values it comes to (also a rejected one); the outcome has those of the last line. -/
def inputLoop (prompt : Option Str) (pool : Bool) (kinds : List Kind) : List (List Event) → Con → Out (Option (Con × Outcome))
  | [], _ => .ok none
  | es :: ls, c =>
    (sharedInput es c).bind fun r =>
      match r with
      | none => .ok none
      | some (c, true) => .ok (some (conNewline c true, .broken))
      | some (c, false) =>
        (examine pool kinds c).bind fun g =>
          match g.2 with
          | .accept => .ok (some (conNewline c true, .stored g.1))
          | .badType => .ok (some (c, .badType))
          | .reject => (conReprompt c prompt).bind fun c => inputLoop prompt pool kinds ls c

/-- `cmd_input` (`console.c:303-421`) after the arguments are separated (`306-327`). -/
def cmdInput (prompt : Option Str) (pool : Bool) (kinds : List Kind) (lines : List (List Event)) (c : Con) : Out (Option (Con × Outcome)) :=
  if kinds = [] ∧ prompt = none then .err .noArguments
  else (conPrompt c prompt).bind fun c => inputLoop prompt pool kinds lines c

end Sbc.LineInput
