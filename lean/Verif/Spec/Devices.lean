import Verif.Spec.SourceMachine
import Verif.Spec.Console
import Verif.Spec.Graphics
set_option autoImplicit false
/-!
# Specification: what programs show on the text screen and on the graphics pages

Numbers are counted in 1/4096.  The commands have the numbers of `Tok.Spec.commandNames`, functions and system variables those of
`Tok.Spec.functionNames` and `Tok.Spec.sysvarNames`.
-/
namespace Sbc.Devices.Spec
open Sbc Sbc.Source Sbc.Graphics.Spec

/-- What the user sees, or can make visible: the text screen with colour and tab width in effect; the colour and mode of drawing, the
screen whose pages are selected, for both screens the page that is drawn to and the page that is displayed, and the dots of all pages. -/
structure Shown where
  text : Console.Spec.Screen
  color : Nat
  tab : Nat
  ink : Nat
  xor : Bool
  screen : Nat
  drawn : Nat → Nat
  displayed : Nat → Nat
  dots : Nat → Int → Int → Nat

/-- The effect of a command, and the number of an error. -/
abbrev Effect := Option (Shown × Nat)

/-- What PRINT prints for a value.  Numbers are printed as STR$ converts them (C10). -/
def piece : Val → Option Console.Spec.Piece
  | .num v => match Num.funcStr v with | .ok s => some (.text (Strs.Spec.text s)) | _ => none
  | .str w => some (.text (w.map Strs.toWide))
  | .sep op => if op = 1 then some .tab else none

/-- PRINT is described for numbers other than the smallest one. -/
def printable : Val → Bool
  | .num v => v ≠ -2147483648
  | .str _ => true
  | .sep op => op = 1 || op = 5

/-- PRINT ends with `,` or `;`. -/
def stays (vs : List Val) : Bool := match vs.getLast? with | some (.sep _) => true | _ => false

/-- Draw with colour `c` the dots in `P`, on the page that is drawn to. -/
def Shown.put (a : Shown) (c : Nat) (P : Int → Int → Prop) [∀ x y, Decidable (P x y)] : Shown :=
  { a with dots := fun p x y => if p = a.drawn a.screen ∧ P x y then Graphics.Spec.put a.xor c (a.dots p x y) else a.dots p x y }

/-- Use the given colour, or the one in effect; a colour that does not exist is error 37. -/
def Shown.with (a : Shown) (c : Option Int) (f : Nat → Shown) : Effect :=
  match c with
  | none => some (f a.ink, 0)
  | some v => if 0 ≤ v / 4096 ∧ v / 4096 ≤ 255 then some (f (v / 4096).toNat, 0) else some (a, 37)

/-- GPSET. -/
def Shown.dot (a : Shown) (x y : Int) (c : Option Int) : Effect :=
  if OnScreen (x / 4096) (y / 4096) then a.with c fun c => a.put c fun u v => u = x / 4096 ∧ v = y / 4096 else some (a, 0)

/-- GFILL, when the second corner is not left of or above the screen. -/
def Shown.fill (a : Shown) (x y x' y' : Int) (c : Option Int) : Effect :=
  if 0 ≤ x' ∧ 0 ≤ y' then
    a.with c fun c => a.put c fun u v => x / 4096 ≤ u ∧ u ≤ x' / 4096 ∧ y / 4096 ≤ v ∧ v ≤ y' / 4096
  else none

/-- GBOX, when neither corner is left of or above the screen and the mode is not XOR. -/
def Shown.box (a : Shown) (x y x' y' : Int) (c : Option Int) : Effect :=
  if 0 ≤ x ∧ 0 ≤ y ∧ 0 ≤ x' ∧ 0 ≤ y' ∧ a.xor = false then
    a.with c fun c => a.put c fun u v =>
      (x / 4096 ≤ u ∧ u ≤ x' / 4096 ∧ (v = y / 4096 ∨ v = y' / 4096)) ∨ (y / 4096 ≤ v ∧ v ≤ y' / 4096 ∧ (u = x / 4096 ∨ u = x' / 4096))
  else none

/-- GLINE, for horizontal, vertical and diagonal lines of at most 2050 dots: the dots of the line. -/
def Shown.line (a : Shown) (x y x' y' : Int) (c : Option Int) : Effect :=
  let (p, q, p', q') := (x / 4096, y / 4096, x' / 4096, y' / 4096)
  if (p = p' ∨ q = q' ∨ p' - p = q' - q ∨ p' - p = q - q') ∧ (p' - p).natAbs < 2050 ∧ (q' - q).natAbs < 2050 then
    a.with c fun c => a.put c fun u v => min p p' ≤ u ∧ u ≤ max p p' ∧ min q q' ≤ v ∧ v ≤ max q q' ∧ (u - p) * (q' - q) = (v - q) * (p' - p)
  else none

/-- GCLS. -/
def Shown.clear (a : Shown) (c : Option Int) : Effect :=
  a.with c fun c => { a with dots := fun p x y => if p = a.drawn a.screen then c else a.dots p x y }

/-- A setting with values from 0 to `max`; others are error 37. -/
def Shown.setting (a : Shown) (v max : Int) (f : Nat → Shown) : Effect :=
  if 0 ≤ v / 4096 ∧ v / 4096 ≤ max then some (f (v / 4096).toNat, 0) else some (a, 37)

/-- LOCATE: positions that do not exist are ignored. -/
def Shown.locate (a : Shown) (x y : Int) : Shown :=
  if 0 ≤ x / 4096 ∧ x / 4096 < 32 ∧ 0 ≤ y / 4096 ∧ y / 4096 < 24 then
    { a with text := { a.text with x := (x / 4096).toNat, y := (y / 4096).toNat } }
  else a

/-- What the commands do (`none`: not described). -/
def effect (k : Nat) (vs : List Val) (a : Shown) : Effect :=
  match k, vs with
  | 0, vs => -- PRINT
    if vs.all printable then
      some ({ a with text := a.text.print a.color a.tab (Strs.toWide 32) (vs.filterMap piece) (stays vs) }, 0)
    else none
  | 1, [.num x, .num y] => some (a.locate x y, 0) -- LOCATE
  | 2, [.num f] => -- COLOR
    if 0 ≤ f / 4096 ∧ f / 4096 < 16 then some ({ a with color := a.color / 16 * 16 + (f / 4096).toNat }, 0) else none
  | 2, [.num f, .num b] =>
    if 0 ≤ f / 4096 ∧ f / 4096 < 16 ∧ 0 ≤ b / 4096 ∧ b / 4096 < 16 then
      some ({ a with color := (b / 4096).toNat * 16 + (f / 4096).toNat }, 0)
    else none
  | 18, [] => some ({ a with text := ⟨fun _ _ => (0, a.color), 0, 0⟩ }, 0) -- CLS
  | 57, [.num x, .num y, .num x', .num y'] => a.box x y x' y' none -- GBOX
  | 57, [.num x, .num y, .num x', .num y', .num c] => a.box x y x' y' (some c)
  | 59, [] => a.clear none -- GCLS
  | 59, [.num c] => a.clear (some c)
  | 60, [.num c] => a.setting c 255 fun c => { a with ink := c } -- GCOLOR
  | 62, [.num m] => a.setting m 1 fun m => { a with xor := m = 1 } -- GDRAWMD
  | 63, [.num x, .num y, .num x', .num y'] => a.fill x y x' y' none -- GFILL
  | 63, [.num x, .num y, .num x', .num y', .num c] => a.fill x y x' y' (some c)
  | 64, [.num x, .num y, .num x', .num y'] => a.line x y x' y' none -- GLINE
  | 64, [.num x, .num y, .num x', .num y', .num c] => a.line x y x' y' (some c)
  | 65, [.num s] => a.setting s 1 fun s => { a with screen := s } -- GPAGE
  | 65, [.num s, .num p, .num w] =>
    if 0 ≤ s / 4096 ∧ s / 4096 ≤ 1 ∧ 0 ≤ p / 4096 ∧ p / 4096 ≤ 3 ∧ 0 ≤ w / 4096 ∧ w / 4096 ≤ 3 then
      some ({ a with screen := (s / 4096).toNat,
                     drawn := fun t => if (t : Int) = s / 4096 then (p / 4096).toNat else a.drawn t,
                     displayed := fun t => if (t : Int) = s / 4096 then (w / 4096).toNat else a.displayed t }, 0)
    else none
  | 67, [.num x, .num y] => a.dot x y none -- GPSET
  | 67, [.num x, .num y, .num c] => a.dot x y (some c)
  | _, _ => none

/-- The first place, not before `start`, where `t` is found in `s`. -/
def firstAt (s t : List Nat) (start : Nat) : Option Nat :=
  (List.range s.length).find? fun i => start ≤ i && (s.drop i).take t.length == t

/-- INSTR: the first place, not before `start`, where the text `t` is found in `s`, or -1. -/
def instr (s t : List Nat) (start : Int) : Out Val :=
  if s.length ≤ 256 ∧ 0 ≤ start then
    if t = [] then .ok (.num 0)
    else match firstAt (shown s) (shown t) start.toNat with
      | some i => .ok (.num (4096 * i))
      | none => .ok (.num (-4096))
  else .ub

/-- What expressions find. -/
def found (a : Shown) : Look where
  fn := fun f vs => match f, vs with
    | 0, [.num x] => if x = -2147483648 then .ub else .ok (.num x.natAbs) -- ABS
    | 13, [.num x] => if I32 x then .ok (.num (x / 4096 * 4096)) else .ub -- FLOOR
    | 28, [.num x] => .ok (.num (4096 * x.sign)) -- SGN
    | 8, [.num x, .num y] => .ok (.num (4096 * (if 0 ≤ x / 4096 ∧ x / 4096 < 32 ∧ 0 ≤ y / 4096 ∧ y / 4096 < 24 then -- CHKCHR
        Strs.toChar (a.text.cell (y / 4096).toNat (x / 4096).toNat).1 else -1)))
    | 14, [.num x, .num y] => -- GSPOIT
      .ok (.num (4096 * (if OnScreen (x / 4096) (y / 4096) then (a.dots (a.drawn a.screen) (x / 4096) (y / 4096) : Int) else -1)))
    | 1, [.str s] => match s with -- ASC
      | [] => .err .syntax
      | c :: _ => if c < 256 then .ok (.num (4096 * c)) else .ub
    | 9, [.num x] => if 0 ≤ x / 4096 ∧ x / 4096 ≤ 255 then .ok (.str [(x / 4096).toNat]) else .err .outOfRange -- CHR$
    | 18, [.str s, .str t] => instr s t 0 -- INSTR
    | 18, [.str s, .str t, .num i] => instr s t (i / 4096)
    | 19, [.str s, .num n] => -- LEFT$
      if s.length ≤ 256 then if n / 4096 < 0 then .err .outOfRange else .ok (.str (s.take (n / 4096).toNat)) else .ub
    | 20, [.str s] => if s.length ≤ 256 then .ok (.num (4096 * s.length)) else .ub -- LEN
    | 22, [.str s, .num i, .num n] => -- MID$
      if s.length ≤ 256 ∧ i / 4096 ≤ 32767 ∧ n / 4096 ≤ 32767 then
        if i / 4096 < 0 ∨ n / 4096 < 0 then .err .outOfRange else .ok (.str ((s.drop (i / 4096).toNat).take (n / 4096).toNat))
      else .ub
    | 26, [.str s, .num n] => -- RIGHT$
      if s.length ≤ 256 then if n / 4096 < 0 then .err .outOfRange else .ok (.str (s.drop (s.length - (n / 4096).toNat))) else .ub
    | 36, [.num n] => match Num.funcStr n with | .ok s => .ok (.str s.data) | _ => .ub -- STR$ (C10)
    | 39, [.str s] => -- VAL
      if s ≠ [] ∧ s.head? ≠ some 38 ∧ (∀ c ∈ s, c < 256) ∧ Num.Spec.decVal (Num.Spec.ints s) < 524288 ∧ (Num.Spec.fracs s).length ≤ 6 then
        .ok (.num (Num.Spec.value s))
      else .ub
    | 23, [] => .ok (.num (314159 * 4096 / 100000)) -- PI
    | _, _ => .ub
  sys := fun v => match v with
    | 0 => .ok (.num 4096) -- TRUE
    | 1 => .ok (.num 0) -- FALSE
    | 2 => .ok (.num (-4096)) -- CANCEL
    | 17 => .ok (.num (4096 * a.text.x)) -- CSRX
    | 18 => .ok (.num (4096 * a.text.y)) -- CSRY
    | _ => .ub

/-- The world of a user who looks at the screens. -/
def picture : World Shown where
  perform := fun k vs a => (effect k vs a).getD (a, 0)
  look := found
  known := fun k vs a => (effect k vs a).isSome

end Sbc.Devices.Spec
