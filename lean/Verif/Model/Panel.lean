import Verif.Model.PanelData
import Verif.Model.Input
import Verif.Model.Console
set_option autoImplicit false
/-!
# The panel: touch keyboard, function keys, icons, panel text (`panel.c`)
-/
namespace Sbc.Panel
open Sbc Sbc.Strs Sbc.Input Sbc.Console

/-- `struct panel` (`panel.h:32-75`).  `id` is `id_pressed` (255: none).  Of the sprites of the keys only those of the icons
are kept (`active`, `chr`; the key codes are the constants `keyCodes`).  `func` holds the texts of the function keys with their
lengths.  `pic` tells which picture was loaded behind the keys (SCR bank 5): 0 nothing, 1 PNL, 2 the keyboard. -/
structure Panel where
  type : Nat
  pic : Nat
  shift : Nat
  cursor : Nat
  key : Nat
  id : Nat
  time : Nat
  puse : Int
  pmax : Int
  page : Int
  active : Nat → Bool
  chr : Nat → Int
  func : Nat → List Nat
  text : Con
  keysText : Con

/-- `get_pressed_key` (`panel.c:435-440`). -/
def getPressed (p : Panel) : Nat := if p.key = 0 ∨ checkRepeat p.time 30 4 = false then 0 else p.key

/-- `key_map[x/8 + 32*(y/8)]` (`panel.c:336`, `347`). -/
def mapAt (x y : Nat) : Nat := (keyMap.getD (y / 8) []).getD (x / 8) 255

/-- `keys[(int)c].vars[0]` (`panel.c:144`, `337`, `353`).  For the byte 255 the index is outside the array. -/
def codeOf (c : Nat) : Out Nat := match keyCodes[c]? with | some k => .ok k | none => .ub

/-- Touching goes on (`panel.c:335-342`). -/
def holdKey (p : Panel) (x y : Nat) : Out Panel :=
  (codeOf (mapAt x y)).bind fun k =>
    if k ≠ p.key then .ok { p with key := 0, id := 255 }
    else if p.time + 1 < 2147483648 then .ok { p with time := p.time + 1 } else .ub

/-- Touching begins (`panel.c:345-359`). -/
def touchKey (p : Panel) (x y : Nat) : Out Panel :=
  let c := mapAt x y
  let c := if c = 89 ∧ p.puse ≠ 0 ∧ y ≥ 180 then 90 else c
  if c ≠ 255 then (codeOf c).bind fun k => .ok { p with id := c, key := k, time := 1 }
  else .ok { p with time := 0 }

/-- A step of the page number, in the range of `fixp` (`panel.c:364`, `366`). -/
def setPage (p : Panel) (v : Int) : Out Panel := if I32 v then .ok { p with page := v } else .ub

/-- The buttons for the page of icons (`panel.c:362-367`). -/
def pageKeys (p : Panel) : Out Panel :=
  if getPressed p = 80 then setPage p (p.page - if p.page > 0 then 4096 else 0)
  else if getPressed p = 81 then setPage p (p.page + if p.page < p.pmax then 4096 else 0)
  else .ok p

/-- `set_inkey` for several characters (`panel.c:404-406`). -/
def typeAll (r : Ring) (ws : List Nat) : Ring := ws.foldl (fun r w => (setInkey r w).1) r

/-- `!!(shift & PNL_SHIFT) ^ !!(shift & PNL_CAPS_LOCK)` (`panel.c:380`). -/
def upperCase (shift : Nat) : Nat := (shift % 2 + shift / 2 % 2) % 2

/-- The keys with characters (`panel.c:379-396`). -/
def charKey (p : Panel) (r : Ring) (k : Nat) : Out (Panel × Ring) :=
  let m := 2 * (p.type - 2) + upperCase p.shift
  match keyboardChr[m]? with
  | none => .ub
  | some s =>
    let j := if m = 5 then 2 * k else k
    match s[j]? with
    | none => .ub
    | some c =>
      if c = 0 then .ok (p, r)
      else
        let r := (setInkey r (toWide c)).1
        let p' := { p with shift := p.shift / 2 * 2 }
        if m = 5 then
          match s[j + 1]? with
          | none => .ub
          | some d => .ok (p', if d ≠ 0 then (setInkey r (toWide d)).1 else r)
        else .ok (p', r)

/-- The keys of the keyboard (`panel.c:373-413`); the result tells whether `exec.error` becomes BREAK.  `refresh_panel` (the
picture of the keys) is left out. -/
def keyAction (p : Panel) (r : Ring) (k : Nat) : Out (Panel × Ring × Bool) :=
  if k = 0 then .ok (p, r, false)
  else if k = 1 then .ok (p, r, true)
  else if k = 47 then .ok ({ p with shift := p.shift / 2 * 2 + (1 - p.shift % 2) }, r, false)
  else if k ≤ 60 ∨ k = 65 then (charKey p r k).bind fun q => .ok (q.1, q.2, false)
  else if k = 61 then .ok ({ p with shift := (p.shift + 2) % 4 }, r, false)
  else if k = 62 then .ok ({ p with type := 2 }, r, false)
  else if k = 63 then .ok ({ p with type := 3 }, r, false)
  else if k = 64 then .ok ({ p with type := 4 }, r, false)
  else if k = 66 then .ok ({ p with cursor := 1 - p.cursor }, r, false)
  else if 101 ≤ k ∧ k ≤ 105 then .ok (p, typeAll r (p.func (k - 101)), false)
  else .ok (p, r, false)

/-- `press_key` (`panel.c:327-422`): what a frame does, with the touched dot (on the screen).  The state of `shift` is a number
below 4, that of `cursor` 0 or 1. -/
def pressKey (p : Panel) (r : Ring) (t : Bool) (x y : Nat) : Out (Panel × Ring × Bool) :=
  if t = false then .ok ({ p with key := 0, id := 255, time := 0 }, r, false)
  else
    (if p.key ≠ 0 then holdKey p x y else if p.time > 0 then .ok p else touchKey p x y).bind fun p =>
      (pageKeys p).bind fun p =>
        if p.type < 2 then .ok (p, r, false) else keyAction p r (getPressed p)

/-- `set_function_key` (`panel.c:278-294`): the text, and what the key shows. -/
def setFunctionKey (p : Panel) (key : Nat) (s : Str) : Out Panel :=
  if ¬ (1 ≤ key ∧ key ≤ 5) then .ub
  else if strLen s > 256 then .ub
  else
    let k := key - 1
    let shown := (List.range 5).map fun i =>
      if i = 4 ∧ strLen s > 4 then toWide 46 else if i < strLen s then strAtWide s i else toWide 32
    (shown.foldl (fun c w => c.bind fun c => conPut c w) (Out.ok { p.keysText with x := 1 + k * 6 })).bind fun c =>
      .ok { p with func := upd p.func k ((List.range (strLen s)).map (strAtWide s)), keysText := c }

/-- `cmd_key` (`panel.c:208-215`). -/
def cmdKey (p : Panel) (id : Int) (s : Str) : Out Panel :=
  if 1 ≤ fpToInt id ∧ fpToInt id ≤ 5 then setFunctionKey p (fpToInt id).toNat s else .err .outOfRange

/-- The loop of `cmd_pnlstr` (`panel.c:202-205`). -/
def pnlLoop (y : Nat) : List Nat → Con → Out Con
  | [], c => .ok c
  | w :: ws, c => (conPut c w).bind fun c => if c.y ≠ y then .ok c else pnlLoop y ws c

/-- `cmd_pnlstr` (`panel.c:189-206`). -/
def cmdPnlstr (p : Panel) (x y : Int) (s : Str) (col : Option Int) : Out Panel :=
  if fpToInt x < 0 ∨ fpToInt x > 31 then .ok p
  else if fpToInt y < 0 ∨ fpToInt y > 23 then .ok p
  else
    (match col with
      | none => Out.ok 0
      | some v => if 0 ≤ fpToInt v ∧ fpToInt v ≤ 15 then .ok (fpToInt v).toNat else .err .outOfRange).bind fun col =>
      (pnlLoop (fpToInt y).toNat ((List.range (strLen s)).map (strAtWide s))
        { p.text with col := col, x := (fpToInt x).toNat, y := (fpToInt y).toNat }).bind fun c => .ok { p with text := c }

/-- `cmd_iconset` (`panel.c:217-224`). -/
def cmdIconset (p : Panel) (i icon : Int) : Out Panel :=
  if ¬ (0 ≤ fpToInt i ∧ fpToInt i ≤ 3) then .err .outOfRange
  else if ¬ (0 ≤ fpToInt icon ∧ fpToInt icon ≤ 64) then .err .outOfRange
  else
    let k := 91 + (fpToInt i).toNat
    .ok { p with active := upd p.active k true, chr := upd p.chr k (fpToInt icon * 4) }

/-- `cmd_iconclr` (`panel.c:226-237`). -/
def cmdIconclr (p : Panel) (i : Option Int) : Out Panel :=
  match i with
  | some v =>
    if 0 ≤ fpToInt v ∧ fpToInt v ≤ 3 then .ok { p with active := upd p.active (91 + (fpToInt v).toNat) false } else .err .outOfRange
  | none => .ok { p with active := fun k => if 91 ≤ k ∧ k < 95 then false else p.active k }

/-- `func_iconchk` (`panel.c:239-246`): the number. -/
def funcIconchk (p : Panel) : Int :=
  let k := getPressed p
  if k ≥ 90 ∧ k ≤ 94 ∧ p.active p.id then intToFp (k - 90) else -(intToFp 1)

/-- `set_panel_bg` (`panel.c:265-276`); the files are taken to be there. -/
def setPic (p : Panel) (type : Nat) : Panel := { p with pic := if type = 0 then 0 else if type = 1 then 1 else 2 }

/-- The end of `cmd_pnltype` (`panel.c:183-186`): the new type; the picture changes only between keyboards and others. -/
def newType (p : Panel) (type : Nat) : Panel :=
  let q := { p with type := type }
  if p.type ≠ type ∧ decide (p.type ≥ 2) ≠ decide (type ≥ 2) then setPic q type else q

/-- `cmd_pnltype` (`panel.c:165-187`). -/
def cmdPnltype (p : Panel) (s : Str) : Out Panel :=
  if strComp false s ⟨false, [79, 70, 70]⟩ then .ok (newType p 0)
  else if strComp false s ⟨false, [80, 78, 76]⟩ then .ok (newType p 1)
  else if strComp false s ⟨false, [75, 89, 65]⟩ then .ok (newType p 2)
  else if strComp false s ⟨false, [75, 89, 77]⟩ then .ok (newType p 3)
  else if strComp false s ⟨false, [75, 89, 75]⟩ then .ok (newType p 4)
  else .err .invalidArgumentValue

/-- `shared_input` changes the panel for the time of the input (`console.c:213-217`, `283`). -/
def inputPanel (p : Panel) : Panel := setPic { p with type := 2 } 2
/-- The end of `shared_input` (`console.c:283`). -/
def afterInput (old : Panel) (p : Panel) : Panel := { p with type := old.type }

/-- A text for `set_function_key` in `init_panel`. -/
def plain (l : List Nat) : Str := ⟨false, l⟩

/-- `init_panel` (`panel.c:120-158`), on zeroed memory: the state before the function keys are set (`128-132`). -/
def blankPanel : Panel where
  type := 2
  pic := 2
  shift := 0
  cursor := 1
  key := 0
  id := 0
  time := 0
  puse := 0
  pmax := 0
  page := 0
  active := fun i => decide ((keyChrs.getD i (-1)) ≠ -1)
  chr := fun i => if i = 89 then 316 else if i = 90 then 317 else keyChrs.getD i (-1)
  func := fun _ => []
  text := init
  keysText := init

/-- `init_panel` (`panel.c:120-158`). -/
def initPanel : Out Panel :=
  (setFunctionKey blankPanel 1 (plain [70, 73, 76, 69, 83])).bind fun p =>
  (setFunctionKey p 2 (plain [76, 79, 65, 68, 34])).bind fun p =>
  (setFunctionKey p 3 (plain [83, 65, 86, 69, 34])).bind fun p =>
  (setFunctionKey p 4 (plain [67, 79, 78, 84])).bind fun p =>
  setFunctionKey p 5 (plain [82, 85, 78])

end Sbc.Panel
