import Verif.Model.Panel
set_option autoImplicit false
/-!
# Specification of the panel: what the keys are, where they are and what they do

The lower screen has 256×192 dots; keys consist of squares of 8×8 dots.
-/
namespace Sbc.Panel.Spec
open Sbc Sbc.Strs Sbc.Input

/-- The keys of the panel.  `face r i` is key `i` of row `r` of the keyboard, `layout` selects letters (2), signs (3) or
katakana (4). -/
inductive Area where
  | func (n : Nat)
  | exit
  | esc
  | face (r i : Nat)
  | backspace
  | tab
  | shift
  | enter
  | caps
  | layout (n : Nat)
  | space
  | insert
  | delete
  | search
  | help
  | run
  | edit
  | page (down : Bool)
  | icon (n : Nat)
  deriving DecidableEq

/-- The key in square (`x`, `y`) of the screen.  The two buttons for the page count as one. -/
def areaSquare (x y : Nat) : Option Area :=
  if y < 2 then if x < 30 then some (.func (x / 6)) else some .exit
  else if y < 6 then none
  else if y < 9 then if x < 3 then some .esc else if x < 29 then some (.face 0 ((x - 3) / 2)) else some .backspace
  else if y < 12 then some (.face 1 (x / 2))
  else if y < 15 then if x < 3 then some .tab else if x < 31 then some (.face 2 ((x - 3) / 2)) else none
  else if y < 18 then if x < 4 then some .shift else if x < 28 then some (.face 3 ((x - 4) / 2)) else some .enter
  else if y < 20 then
    if x < 2 then some .caps else if x < 3 then none else if x < 9 then some (.layout (2 + (x - 3) / 2)) else if x < 10 then none
    else if x < 24 then some .space else if x < 25 then none else if x < 27 then some .insert else if x < 29 then some .delete
    else if x < 30 then none else some .search
  else if y < 21 then none
  else
    if x < 4 then some .help else if x < 5 then none else if x < 11 then some .run else if x < 17 then some .edit
    else if x < 18 then none else if x < 20 then some (.page false) else some (.icon ((x - 20) / 3))

/-- The key at a dot. -/
def areaAt (d : Nat × Nat) : Option Area := areaSquare (d.1 / 8) (d.2 / 8)

/-- The key that is pressed by touching a dot: while pages are in use, the lower half of the page button is another one. -/
def touched (puse : Bool) (d : Nat × Nat) : Option Area :=
  if areaAt d = some (.page false) ∧ puse = true ∧ d.2 ≥ 180 then some (.page true) else areaAt d

/-- Keyboard of letters: the characters on the keys of the four rows (empty: none). -/
def lettersLow : List (List (List Nat)) := [
  [[49], [50], [51], [52], [53], [54], [55], [56], [57], [48], [45], [43], [61]],
  [[36], [34], [81], [87], [69], [82], [84], [89], [85], [73], [79], [80], [64], [42], [40], [41]],
  [[33], [65], [83], [68], [70], [71], [72], [74], [75], [76], [59], [58], [60], [62]],
  [[39], [90], [88], [67], [86], [66], [78], [77], [44], [46], [47], [37]]]

/-- Keyboard of letters with SHIFT: the characters on the keys of the four rows (empty: none). -/
def lettersUp : List (List (List Nat)) := [
  [[], [], [35], [], [], [38], [], [94], [92], [126], [], [127], [124]],
  [[], [], [113], [119], [101], [114], [116], [121], [117], [105], [111], [112], [96], [], [91], [93]],
  [[], [97], [115], [100], [102], [103], [104], [106], [107], [108], [], [], [123], [125]],
  [[], [122], [120], [99], [118], [98], [110], [109], [], [], [63], [95]]]

/-- Keyboard of signs: the characters on the keys of the four rows (empty: none). -/
def signsLow : List (List (List Nat)) := [
  [[241], [242], [240], [243], [10], [229], [26], [228], [230], [231], [16], [7], [20]],
  [[3], [150], [152], [145], [153], [236], [238], [239], [237], [14], [15], [5], [6], [4], [11], [27]],
  [[149], [146], [147], [148], [21], [23], [22], [244], [246], [247], [245], [235], [234], [232]],
  [[255], [154], [144], [155], [252], [253], [254], [151], [156], [157], [158], [159]]]

/-- Keyboard of signs with SHIFT: the characters on the keys of the four rows (empty: none). -/
def signsUp : List (List (List Nat)) := [
  [[], [128], [], [], [], [225], [], [224], [226], [227], [17], [8], []],
  [[], [], [248], [30], [250], [1], [2], [24], [25], [12], [18], [19], [], [], [233], []],
  [[], [29], [], [28], [], [129], [130], [131], [132], [133], [134], [135], [], []],
  [[], [249], [31], [251], [136], [137], [138], [139], [140], [141], [142], [143]]]

/-- Keyboard of katakana: the characters on the keys of the four rows (empty: none). -/
def kanaLow : List (List (List Nat)) := [
  [[177], [178], [179], [180], [181], [197], [198], [199], [200], [201], [45], [43], [61]],
  [[160], [165], [182], [183], [184], [185], [186], [202], [203], [204], [205], [206], [162], [163], [221], [161]],
  [[187], [188], [189], [190], [191], [207], [208], [209], [210], [211], [212], [213], [214], [164]],
  [[192], [193], [194], [195], [196], [215], [216], [217], [218], [219], [220], [166]]]

/-- Keyboard of katakana with SHIFT (some give two characters): the characters on the keys of the four rows (empty: none). -/
def kanaUp : List (List (List Nat)) := [
  [[167], [168], [169], [170], [171], [], [], [], [], [], [202, 223], [203, 223], [204, 223]],
  [[175], [179, 222], [182, 222], [183, 222], [184, 222], [185, 222], [186, 222], [202, 222], [203, 222], [204, 222],
   [205, 222], [206, 222], [205, 223], [206, 223], [], []],
  [[187, 222], [188, 222], [189, 222], [190, 222], [191, 222], [49], [50], [51], [52], [53], [172], [173], [174], []],
  [[192, 222], [193, 222], [194, 222], [195, 222], [196, 222], [54], [55], [56], [57], [48], [], []]]

/-- The keyboard with the number `type` (2: letters, 3: signs, 4: katakana), `up` with SHIFT or CAPS. -/
def faces (type : Nat) (up : Bool) : List (List (List Nat)) :=
  match type, up with
  | 2, false => lettersLow
  | 2, true => lettersUp
  | 3, false => signsLow
  | 3, true => signsUp
  | _, false => kanaLow
  | _, true => kanaUp

/-- The characters (8-bit codes) a key types. -/
def typed (type : Nat) (up : Bool) : Area → List Nat
  | .face r i => ((faces type up).getD r []).getD i []
  | .tab => [9]
  | .enter => [13]
  | .space => [32]
  | _ => []

/-- State of the keyboard: the panel type (0 OFF, 1 PNL, 2 to 4 keyboards), SHIFT, CAPS, INSERT, and the page of icons. -/
structure Kb where
  type : Nat
  shift : Bool
  caps : Bool
  insert : Bool
  page : Int

/-- What pressing a key does: the new state, the characters that go to the keyboard buffer, and whether the program is stopped. -/
def Kb.press (func : Nat → List Nat) (pmax : Int) (s : Kb) : Area → Kb × List Nat × Bool
  | .page false => ({ s with page := if s.page > 0 then s.page - 4096 else s.page }, [], false)
  | .page true => ({ s with page := if s.page < pmax then s.page + 4096 else s.page }, [], false)
  | a =>
    if s.type < 2 then (s, [], false)
    else match a with
      | .esc => (s, [], true)
      | .shift => ({ s with shift := !s.shift }, [], false)
      | .caps => ({ s with caps := !s.caps }, [], false)
      | .layout n => ({ s with type := n }, [], false)
      | .insert => ({ s with insert := !s.insert }, [], false)
      | .func n => (s, func n, false)
      | a =>
        let cs := typed s.type (s.shift != s.caps) a
        (if cs = [] then s else { s with shift := false }, cs.map toWide, false)

/-- Pressing a key `n` times. -/
def Kb.presses (func : Nat → List Nat) (pmax : Int) (s : Kb) (a : Area) : Nat → Kb × List Nat × Bool
  | 0 => (s, [], false)
  | n + 1 =>
    let r := s.presses func pmax a n
    let q := r.1.press func pmax a
    (q.1, r.2.1 ++ q.2.1, r.2.2 || q.2.2)

/-- How often a key counts as pressed that is held for `n` frames: in the first frame, in frame 31 and in every fifth after it.
The lower page button does not repeat. -/
def hits (a : Area) (n : Nat) : Nat :=
  if n = 0 then 0 else if a = .page true ∨ n ≤ 30 then 1 else 2 + (n - 31) / 5

/-- A touch: the dots, frame by frame, and the number of frames without touch after it (one more than `gap`). -/
structure Tap where
  first : Nat × Nat
  rest : List (Nat × Nat)
  gap : Nat

/-- On the screen, and always on the same key (or never on one). -/
def Tap.Steady (t : Tap) : Prop := ∀ d ∈ t.first :: t.rest, d.1 < 256 ∧ d.2 < 192 ∧ areaAt d = areaAt t.first

/-- The frames of a touch. -/
def Tap.frames (t : Tap) : List (Option (Nat × Nat)) := (t.first :: t.rest).map some ++ List.replicate (t.gap + 1) none

/-- What a touch does. -/
def Kb.tap (func : Nat → List Nat) (pmax : Int) (puse : Bool) (s : Kb) (t : Tap) : Kb × List Nat × Bool :=
  match touched puse t.first with
  | none => (s, [], false)
  | some a => s.presses func pmax a (hits a (t.rest.length + 1))

/-- What several touches do. -/
def Kb.taps (func : Nat → List Nat) (pmax : Int) (puse : Bool) (s : Kb) : List Tap → Kb × List Nat × Bool
  | [] => (s, [], false)
  | t :: ts =>
    let r := s.tap func pmax puse t
    let q := r.1.taps func pmax puse ts
    (q.1, r.2.1 ++ q.2.1, r.2.2 || q.2.2)

/-! ## The states of the program -/

/-- The keyboard of the panel is in the state. -/
structure Rep (p : Panel) (s : Kb) : Prop where
  type : p.type = s.type
  le : s.type ≤ 4
  shift : p.shift = s.shift.toNat + 2 * s.caps.toNat
  cursor : p.cursor = s.insert.toNat
  page : p.page = s.page
  range : I32 s.page

/-- What does not belong to the state of the keyboard is the same. -/
structure Kept (p p' : Panel) : Prop where
  puse : p'.puse = p.puse
  pmax : p'.pmax = p.pmax
  active : p'.active = p.active
  chr : p'.chr = p.chr
  func : p'.func = p.func
  text : p'.text = p.text
  keysText : p'.keysText = p.keysText
  pic : p'.pic = p.pic

/-- What `press_key` does in one frame: `none` is a frame without touch. -/
def frame (p : Panel) (r : Ring) : Option (Nat × Nat) → Out (Panel × Ring × Bool)
  | none => pressKey p r false 0 0
  | some d => pressKey p r true d.1 d.2

/-- Frames one after the other; the result also tells whether the program was stopped. -/
def frames (p : Panel) (r : Ring) (b : Bool) : List (Option (Nat × Nat)) → Out (Panel × Ring × Bool)
  | [] => .ok (p, r, b)
  | f :: fs => (frame p r f).bind fun q => frames q.1 q.2.1 (b || q.2.2) fs

/-! ## Panel text, labels, icons, pictures -/

/-- What a function key shows of its text: up to four characters, filled up with spaces, and a full stop if there are more. -/
def label (ws : List Nat) : List Nat :=
  (ws ++ List.replicate 4 (toWide 32)).take 4 ++ [if ws.length > 4 then toWide 46 else toWide 32]

/-- `ws` is written into the cells of a row from a column on, to the edge of the screen at most; all other cells are unchanged. -/
def Written {α : Type} (old new : Nat → Nat → α) (row col : Nat) (ws : List α) : Prop :=
  (∀ i w, ws[i]? = some w → col + i < 32 → new row (col + i) = w) ∧
  ∀ r k, ¬ (r = row ∧ col ≤ k ∧ k < col + ws.length ∧ k < 32) → new r k = old r k

/-- Commands for icons: ICONSET place, icon; ICONCLR place; ICONCLR. -/
inductive IconCmd where
  | set (i n : Nat)
  | clear (i : Nat)
  | clearAll

/-- The icon that such commands leave in place `i`, most recent command first. -/
def shown (i : Nat) : List IconCmd → Option Nat → Option Nat
  | [], old => old
  | .set j n :: cs, old => if i = j then some n else shown i cs old
  | .clear j :: cs, old => if i = j then none else shown i cs old
  | .clearAll :: _, _ => none

/-- The number of a panel type, by its name. -/
def typeNumber (name : List Nat) : Option Nat :=
  if name = [79, 70, 70].map toWide then some 0
  else if name = [80, 78, 76].map toWide then some 1
  else if name = [75, 89, 65].map toWide then some 2
  else if name = [75, 89, 77].map toWide then some 3
  else if name = [75, 89, 75].map toWide then some 4
  else none

/-- The picture behind the keys that belongs to a type: 0 nothing, 1 the panel, 2 the keyboard. -/
def picture (type : Nat) : Nat := if type = 0 then 0 else if type = 1 then 1 else 2

end Sbc.Panel.Spec
