import Verif.Model.Common
import Verif.Model.Mem
set_option autoImplicit false
/-!
# Sprites (`source/subsystem/sprites.c`, `sprites.h`)

Arguments are the 20.12 numbers on the value stack.  Overflow of `int` arithmetic is undefined (`Out.ub`).
-/
namespace Sbc.Sprites
open Sbc

/-- Position (`sprites.h:50-63`). -/
structure Pos where
  x : Int
  y : Int
  dx : Int
  dy : Int
  time : Int
  deriving DecidableEq

/-- Scale and angle have the same shape (`sprites.h:66-86`): value, step per frame, time. -/
structure Slide where
  v : Int
  d : Int
  time : Int
  deriving DecidableEq

/-- Collision data (`sprites.h:89-106`). -/
structure Hit where
  dx : Int
  dy : Int
  x : Int
  y : Int
  w : Int
  h : Int
  adjust : Bool
  mask : Nat
  deriving DecidableEq

/-- Animation data (`sprites.h:109-124`). -/
structure Anim where
  chrs : Int
  framesPerChr : Int
  loop : Int
  forever : Bool
  frame : Int
  chr : Int
  deriving DecidableEq

/-- `struct sprite_info` (`sprites.h:22-128`); the eight variables are a function of the index. -/
structure Sprite where
  active : Bool
  id : Nat
  chr : Nat
  pal : Nat
  w : Nat
  h : Nat
  prio : Nat
  flipX : Bool
  flipY : Bool
  homeX : Int
  homeY : Int
  pos : Pos
  scale : Slide
  angle : Slide
  hit : Hit
  anim : Anim
  vars : Nat → Int

/-- `struct sprites` (`sprites.h:16-144`). -/
structure Sprites where
  page : Int
  info : Nat → Nat → Sprite
  sphitno : Int
  sphitx : Int
  sphity : Int
  sphitt : Int

/-- `MAX_SPRITES` (`sprites.h:11`). -/
def maxSprites : Nat := 100

/-- An all-zero sprite. -/
def zeroSprite : Sprite :=
  ⟨false, 0, 0, 0, 0, 0, 0, false, false, 0, 0, ⟨0, 0, 0, 0, 0⟩, ⟨0, 0, 0⟩, ⟨0, 0, 0⟩, ⟨0, 0, 0, 0, 0, 0, false, 0⟩, ⟨0, 0, 0, false, 0, 0⟩, fun _ => 0⟩

/-- `init_sprites` (`sprites.c:10-12`). -/
def init : Sprites := ⟨0, fun _ _ => zeroSprite, 0, 0, 0, 0⟩

/-- `init_sprite_info` (`sprites.c:14-33`); conversions to `u8`/`u16` reduce modulo the size. -/
def initSprite (id chr pal : Int) (fx fy : Bool) (prio w h : Int) : Sprite where
  active := true
  id := (id % 256).toNat
  chr := (chr % 65536).toNat
  pal := (pal % 256).toNat
  w := (w % 256).toNat
  h := (h % 256).toNat
  prio := (prio % 256).toNat
  flipX := fx
  flipY := fy
  homeX := 0
  homeY := 0
  pos := ⟨0, 0, 0, 0, -1⟩
  scale := ⟨intToFp 1, 0, 0⟩
  angle := ⟨0, 0, 0⟩
  hit := ⟨0, 0, 0, 0, intToFp w, intToFp h, false, 0xff⟩
  anim := ⟨1, 0, 0, false, 0, -1⟩
  vars := fun _ => 0

/-- `int` addition. -/
def add32 (a b : Int) : Out Int := if I32 (a + b) then .ok (a + b) else .ub

/-- Animation part of `step_sprites` (`sprites.c:57-78`); the flag says whether the loop was left by `break`.
`w` and `h` are 8-bit, so the product does not overflow. -/
def stepAnim (s : Sprite) : Out (Sprite × Bool) :=
  if s.anim.forever ∨ s.anim.loop > 0 then
    (add32 s.anim.frame 1).bind fun f =>
      if f = s.anim.framesPerChr then
        let step : Int := if s.w * s.h / 256 < 1 then 1 else ((s.w * s.h / 256 : Nat) : Int)
        (add32 s.anim.chr step).bind fun c => (add32 c (-s.chr)).bind fun diff =>
          if diff.tdiv step = s.anim.chrs then
            let loop := if s.anim.forever = false then s.anim.loop - 1 else s.anim.loop
            if s.anim.forever = false ∧ loop = 0 then
              (add32 c (-step)).bind fun c => .ok ({ s with anim := { s.anim with frame := 0, chr := c, loop := loop } }, true)
            else .ok ({ s with anim := { s.anim with frame := 0, chr := s.chr, loop := loop } }, false)
          else .ok ({ s with anim := { s.anim with frame := 0, chr := c } }, false)
      else .ok ({ s with anim := { s.anim with frame := f } }, false)
  else .ok (s, false)

/-- Scale and angle part (`sprites.c:42-50`): add `d` while `time >= 0`. -/
def stepSlide (d : Int → Int) (v : Slide) : Out Slide :=
  if v.time ≥ 0 then (add32 v.v (d v.d)).bind fun x => .ok { v with v := x, time := v.time - 1 } else .ok v

/-- Position part (`sprites.c:51-55`). -/
def stepPos (p : Pos) : Out Pos :=
  if p.time ≥ 0 then (add32 p.x p.dx).bind fun x => (add32 p.y p.dy).bind fun y => .ok { p with x := x, y := y, time := p.time - 1 } else .ok p

/-- The body of the loop of `step_sprites` (`sprites.c:40-79`) for one sprite. -/
def stepSprite (s : Sprite) : Out (Sprite × Bool) :=
  if s.active = false then .ok (s, false)
  else
    (stepSlide id s.scale).bind fun sc =>
    (stepSlide (fun d => d.tmod 1474560) s.angle).bind fun an =>
    (stepPos s.pos).bind fun po =>
      stepAnim { s with scale := sc, angle := an, pos := po }

/-- The loop over the sprites of a page (`sprites.c:39-79`): `n` sprites from `i` on.  The `break` of the
animation leaves this loop. -/
def stepFrom : Nat → Nat → (Nat → Sprite) → Out (Nat → Sprite)
  | 0, _, f => .ok f
  | n + 1, i, f =>
    (stepSprite (f i)).bind fun r => if r.2 then .ok (upd f i r.1) else stepFrom n (i + 1) (upd f i r.1)

/-- `step_sprites` (`sprites.c:35-81`). -/
def stepSprites (g : Sprites) : Out Sprites :=
  (stepFrom maxSprites 0 (g.info 0)).bind fun a => (stepFrom maxSprites 0 (g.info 1)).bind fun b =>
    .ok { g with info := fun p => if p = 0 then a else if p = 1 then b else g.info p }

/-- `int64_t` range. -/
def I64 (x : Int) : Prop := -9223372036854775808 ≤ x ∧ x ≤ 9223372036854775807

instance (x : Int) : Decidable (I64 x) := inferInstanceAs (Decidable (_ ∧ _))

/-- Motion vector used for collisions (`sprites.c:102-116`). -/
def vec (s : Sprite) : Int × Int := if s.hit.dx = 0 ∧ s.hit.dy = 0 then (s.pos.dx, s.pos.dy) else (s.hit.dx, s.hit.dy)

/-- `((dfixp)v * s) >> FIXPOINT` narrowed to `fixp` (`sprites.c:122-125`, `140-143`). -/
def scaled (v s : Int) : Int := wrap32 (v * s / 4096)

/-- Left, top, right and bottom of the hit box (`sprites.c:122-132`, `140-150`). -/
def boxOf (s : Sprite) : Out (Int × Int × Int × Int) :=
  (add32 s.pos.x (scaled s.hit.x s.scale.v)).bind fun l =>
  (add32 s.pos.y (scaled s.hit.y s.scale.v)).bind fun t =>
  (add32 s.pos.x (scaled (s.hit.x + s.hit.w) s.scale.v)).bind fun r =>
  (add32 s.pos.y (scaled (s.hit.y + s.hit.h) s.scale.v)).bind fun b => .ok (l, t, r, b)

/-- The four corners in the order of the code (`sprites.c:129-132`). -/
def corners (b : Int × Int × Int × Int) : List (Int × Int) :=
  [(b.1, b.2.1), (b.2.2.1, b.2.1), (b.2.2.1, b.2.2.2), (b.1, b.2.2.2)]

/-- Displace points (`sprites.c:134-137`). -/
def shift (vx vy : Int) : List (Int × Int) → Out (List (Int × Int))
  | [] => .ok []
  | p :: ps => (add32 p.1 vx).bind fun x => (add32 p.2 vy).bind fun y => (shift vx vy ps).bind fun l => .ok ((x, y) :: l)

/-- Projections on a normal (`sprites.c:163`, `176`): 64-bit arithmetic. -/
def project (nx ny : Int) : List (Int × Int) → Out (List Int)
  | [] => .ok []
  | p :: ps =>
    if I64 (nx * p.1 + ny * p.2) then (project nx ny ps).bind fun l => .ok ((nx * p.1 + ny * p.2) :: l) else .ub

/-- The minimum and maximum loop (`sprites.c:159-167`). -/
def minMax (ds : List Int) : Int × Int :=
  ds.foldl (fun m d => (if d < m.1 then d else m.1, if d > m.2 then d else m.2)) (9223372036854775807, -9223372036854775808)

/-- The loop over the vertices of `a` (`sprites.c:170-182`): `(on_left, on_right, in_range)`. -/
def scan (lo hi : Int) (ds : List Int) : Bool × Bool × Bool :=
  ds.foldl (fun st d =>
    let l := st.1 || decide (d < lo)
    let r := st.2.1 || decide (d > hi)
    let i := st.2.2 || decide (lo ≤ d ∧ d ≤ hi)
    (l, r, i || (l && r))) (false, false, false)

/-- One round of the loop over the normals (`sprites.c:152-185`): does the axis not separate the sprites? -/
def axis (av bv : List (Int × Int)) (nx ny : Int) : Out Bool :=
  if nx = 0 ∧ ny = 0 then .ok true
  else
    (project nx ny bv).bind fun ds => (project nx ny av).bind fun es =>
      .ok (scan (minMax ds).1 (minMax ds).2 es).2.2

/-- `is_hit` (`sprites.c:88-188`).  Negating a vector component and subtracting the vectors is `int` arithmetic. -/
def isHit (a b : Sprite) : Out Bool :=
  if a.active = false ∨ b.active = false then .ok false
  else if a.hit.mask &&& b.hit.mask = 0 then .ok false
  else
    (add32 0 (-(vec a).2)).bind fun n0 =>
    (add32 0 (-(vec b).2)).bind fun m0 =>
    (add32 n0 (-m0)).bind fun n0 =>
    (add32 (vec a).1 (-(vec b).1)).bind fun n1 =>
    (add32 0 (-n0)).bind fun vy =>
    (boxOf a).bind fun ba =>
    (shift n1 vy (corners ba)).bind fun moved =>
    (boxOf b).bind fun bb =>
      let av := corners ba ++ moved
      let bv := corners bb
      (axis av bv 4096 0).bind fun r => if r = false then .ok false else
      (axis av bv 0 4096).bind fun r => if r = false then .ok false else
      (axis av bv n0 n1).bind fun r => .ok r

/-- `get_sprite_chr` (`sprites.c:191-197`): the character drawn. -/
def shownChr (s : Sprite) : Int := if s.anim.chr ≥ 0 then s.anim.chr else s.chr

/-- State after a command and the error it raised, if any. -/
abbrev Res := Out (Sprites × Option Err)
/-- The command finished normally. -/
def fin (g : Sprites) : Res := .ok (g, none)
/-- `ERROR(e)`: return with `p->exec.error` set. -/
def fail (g : Sprites) (e : Err) : Res := .ok (g, some e)

/-- `STACK_INT_RANGE(i,lo,hi,dest)` (`stack.h:27`). -/
def ranged (g : Sprites) (v lo hi : Int) (k : Int → Res) : Res :=
  if fpToInt v < lo ∨ fpToInt v > hi then fail g .outOfRange else k (fpToInt v)

/-- `STACK_INT_MIN(i,lo,dest)` (`stack.h:29`). -/
def atLeast (g : Sprites) (v lo : Int) (k : Int → Res) : Res := if fpToInt v < lo then fail g .outOfRange else k (fpToInt v)

/-- `&p->sprites.info[p->sprites.page][id]`: outside the array is undefined. -/
def Sprites.get (g : Sprites) (id : Int) : Out Sprite :=
  if 0 ≤ g.page ∧ g.page < 2 ∧ 0 ≤ id ∧ id < maxSprites then .ok (g.info g.page.toNat id.toNat) else .ub

/-- Store a sprite of the current page. -/
def Sprites.set (g : Sprites) (id : Int) (s : Sprite) : Sprites :=
  { g with info := upd g.info g.page.toNat (upd (g.info g.page.toNat) id.toNat s) }

/-- `cmd_sppage` (`sprites.c:199-203`): not checked. -/
def cmdSppage (g : Sprites) (p : Int) : Res := fin { g with page := fpToInt p }

/-- The loop of SPCLR without argument (`sprites.c:213-215`). -/
def clearAll : Nat → (Nat → Sprite) → (Nat → Sprite)
  | 0, f => f
  | n + 1, f => let f := clearAll n f; upd f n { f n with active := false }

/-- `cmd_spclr` (`sprites.c:205-217`): the index is not checked. -/
def cmdSpclr (g : Sprites) (i : Option Int) : Res :=
  match i with
  | some i => (g.get (fpToInt i)).bind fun s => fin (g.set (fpToInt i) { s with active := false })
  | none => (g.get 0).bind fun _ => fin { g with info := upd g.info g.page.toNat (clearAll maxSprites (g.info g.page.toNat)) }

/-- `cmd_spset` (`sprites.c:219-240`). -/
def cmdSpset (g : Sprites) (id chr pal fx fy prio : Int) (size : Option (Int × Int)) : Res :=
  ranged g id 0 99 fun id => ranged g chr 0 (if g.page ≠ 0 then 117 else 512) fun chr => ranged g pal 0 15 fun pal =>
  ranged g prio 0 3 fun prio =>
    let (w, h) := match size with
      | some (w, h) => (fpToInt w, fpToInt h)
      | none => (16, 16)
    (g.get id).bind fun _ => fin (g.set id (initSprite id chr pal (fpToInt fx ≠ 0) (fpToInt fy ≠ 0) prio w h))

/-- `(a - b) / t` in `int` (`sprites.c:262-263`). -/
def stepTo (a b t : Int) : Out Int := if I32 (a - b) then .ok ((a - b).tdiv t) else .ub

/-- `cmd_spofs` (`sprites.c:242-272`); `v & -FIXP_1` clears the fraction. -/
def cmdSpofs (g : Sprites) (id x y : Int) (t : Option Int) : Res :=
  ranged g id 0 99 fun id =>
    let x := x / 4096 * 4096
    let y := y / 4096 * 4096
    (g.get id).bind fun s =>
      if s.active = false then fail g .illegalFunctionCall
      else match t with
      | none => fin (g.set id { s with pos := { s.pos with x := x, y := y, time := -1 } })
      | some t => atLeast g t 0 fun t =>
        if t ≠ 0 then (stepTo x s.pos.x t).bind fun dx => (stepTo y s.pos.y t).bind fun dy =>
          fin (g.set id { s with pos := { s.pos with dx := dx, dy := dy, time := t - 1 } })
        else fin (g.set id { s with pos := { s.pos with x := x, y := y, time := -1 } })

/-- `cmd_spsetv` (`sprites.c:274-286`). -/
def cmdSpsetv (g : Sprites) (id ix val : Int) : Res :=
  ranged g id 0 99 fun id => ranged g ix 0 7 fun ix => (g.get id).bind fun s =>
    if s.active = false then fail g .illegalFunctionCall
    else fin (g.set id { s with vars := upd s.vars ix.toNat val })

/-- `func_spgetv` (`sprites.c:288-300`). -/
def funcSpgetv (g : Sprites) (id ix : Int) : Out Int :=
  if fpToInt id < 0 ∨ fpToInt id > 99 then .err .outOfRange
  else if fpToInt ix < 0 ∨ fpToInt ix > 7 then .err .outOfRange
  else (g.get (fpToInt id)).bind fun s => if s.active = false then .err .illegalFunctionCall else .ok (s.vars (fpToInt ix).toNat)

/-- `cmd_spcol` (`sprites.c:318-346`). -/
def cmdSpcol (g : Sprites) (id x y w h sc : Int) (group : Option Int) : Res :=
  ranged g id 0 99 fun id => ranged g x (-128) 127 fun x => ranged g y (-128) 127 fun y => ranged g w 0 255 fun w => ranged g h 0 255 fun h =>
  ranged g sc 0 1 fun sc =>
    let go (m : Int) : Res := (g.get id).bind fun s =>
      if s.active = false then fail g .illegalFunctionCall
      else fin (g.set id { s with hit := { s.hit with x := intToFp x, y := intToFp y, w := intToFp w, h := intToFp h, adjust := sc ≠ 0, mask := m.toNat } })
    match group with
    | some m => ranged g m 0 255 go
    | none => go 255

/-- `cmd_spcolvec` (`sprites.c:348-363`). -/
def cmdSpcolvec (g : Sprites) (id dx dy : Int) : Res :=
  ranged g id 0 99 fun id => ranged g dx (-128) 127 fun dx => ranged g dy (-128) 127 fun dy => (g.get id).bind fun s =>
    if s.active = false then fail g .illegalFunctionCall
    else fin (g.set id { s with hit := { s.hit with dx := intToFp dx, dy := intToFp dy } })

/-- Conversion to `s8`. -/
def s8 (v : Int) : Int := (v + 128) % 256 - 128

/-- `cmd_sphome` (`sprites.c:365-377`): `& 0xff`, then narrowed to `s8`. -/
def cmdSphome (g : Sprites) (id x y : Int) : Res :=
  ranged g id 0 99 fun id => (g.get id).bind fun s =>
    if s.active = false then fail g .illegalFunctionCall
    else fin (g.set id { s with homeX := s8 (fpToInt x % 256), homeY := s8 (fpToInt y % 256) })

/-- `cmd_spscale` (`sprites.c:379-399`): division by the time 0 is undefined. -/
def cmdSpscale (g : Sprites) (id sc : Int) (t : Option Int) : Res :=
  ranged g id 0 31 fun id => ranged g sc 0 200 fun sc =>
    if (match t with | some t => decide (t < 0) | none => false) then fail g .outOfRange
    else (g.get id).bind fun s =>
      if s.active = false then fail g .illegalFunctionCall
      else match t with
      | none => fin (g.set id { s with scale := { s.scale with v := (intToFp sc).tdiv 100, time := -1 } })
      | some t => atLeast g t 0 fun t =>
        if t = 0 then .ub
        else (stepTo ((intToFp sc).tdiv 100) s.scale.v t).bind fun d => fin (g.set id { s with scale := { s.scale with d := d, time := t } })

/-- `cmd_spangle` (`sprites.c:456-497`). -/
def cmdSpangle (g : Sprites) (id a : Int) (t : Option (Int × Option Int)) : Res :=
  ranged g id 0 99 fun id => (g.get id).bind fun s =>
    if s.active = false then fail g .illegalFunctionCall
    else
      let a := intToFp ((fpToInt a).tmod 360)
      match t with
      | none => fin (g.set id { s with angle := { s.angle with v := a, time := -1 } })
      | some (t, dir) => atLeast g t 0 fun t =>
        let dir := match dir with
          | some d => fpToInt d
          | none => 1
        if dir ≠ 1 ∧ dir ≠ -1 then fail g .outOfRange
        else if t ≠ 0 then
          (if dir < 0 then stepTo a s.angle.v t else stepTo s.angle.v a t).bind fun d =>
            fin (g.set id { s with angle := { s.angle with d := d, time := t } })
        else fin (g.set id { s with angle := { s.angle with v := a, time := -1 } })

/-- `cmd_spchr` (`sprites.c:499-522`): the sprite need not be active. -/
def cmdSpchr (g : Sprites) (id chr : Int) (more : Option (Int × Int × Int × Int)) : Res :=
  ranged g id 0 99 fun id => (g.get id).bind fun s => ranged g chr 0 (if g.page ≠ 0 then 117 else 511) fun chr =>
    match more with
    | none => fin (g.set id { s with chr := chr.toNat })
    | some (pal, h, v, prio) =>
      ranged g pal 0 15 fun pal => ranged g h 0 1 fun h => ranged g v 0 1 fun v => ranged g prio 0 3 fun prio =>
        fin (g.set id { s with chr := chr.toNat, pal := pal.toNat, flipX := h ≠ 0, flipY := v ≠ 0, prio := prio.toNat })

/-- `func_spchk` (`sprites.c:524-535`). -/
def funcSpchk (g : Sprites) (id : Int) : Out Int :=
  if fpToInt id < 0 ∨ fpToInt id > 99 then .err .outOfRange
  else (g.get (fpToInt id)).bind fun s =>
    .ok (4096 * ((if s.pos.time ≥ 0 then 1 else 0) + (if s.angle.time ≥ 0 then 2 else 0) + (if s.scale.time ≥ 0 then 4 else 0) +
      (if s.anim.forever ∨ s.anim.loop > 0 then 8 else 0)))

/-- `cmd_spread` (`sprites.c:537-563`): the values stored in the five variables; fewer arguments store a prefix.
The character is stored without conversion to 20.12. -/
def cmdSpread (g : Sprites) (id : Int) : Out (List Int) :=
  if fpToInt id < 0 ∨ fpToInt id > 99 then .err .outOfRange
  else (g.get (fpToInt id)).bind fun s => .ok [intToFp (fpToInt s.pos.x), intToFp (fpToInt s.pos.y), s.angle.v, s.scale.v, s.chr]

/-- `cmd_spanim` (`sprites.c:565-588`): the last argument is checked after the other fields have been stored. -/
def cmdSpanim (g : Sprites) (id chrs time : Int) (loop : Option Int) : Res :=
  ranged g id 0 99 fun id => atLeast g chrs 0 fun chrs => atLeast g time 0 fun time => (g.get id).bind fun s =>
    let s := { s with anim := { s.anim with chrs := chrs, framesPerChr := time, frame := 0, chr := s.chr } }
    match loop with
    | none => fin (g.set id { s with anim := { s.anim with loop := 0, forever := true } })
    | some l => atLeast (g.set id s) l 0 fun l => fin (g.set id { s with anim := { s.anim with loop := l, forever := l = 0 } })

/-- The search loop of SPHIT (`sprites.c:415-429`): `n` sprites from `i` on. -/
def hitLoop (f : Nat → Sprite) (id : Nat) : Nat → Nat → Out (Option Nat)
  | 0, _ => .ok none
  | n + 1, i =>
    if i = id then hitLoop f id n (i + 1)
    else (isHit (f id) (f i)).bind fun h => if h then .ok (some i) else hitLoop f id n (i + 1)

/-- `func_sphit` (`sprites.c:401-432`): state and returned number. -/
def funcSphit (g : Sprites) (id : Int) (start : Option Int) : Out (Sprites × Int) :=
  if fpToInt id < 0 ∨ fpToInt id > 99 then .err .outOfRange
  else
    let go (st : Int) : Out (Sprites × Int) :=
      (g.get (fpToInt id)).bind fun s =>
        (hitLoop (g.info g.page.toNat) (fpToInt id).toNat (maxSprites - st.toNat) st.toNat).bind fun
          | some i => .ok ({ g with sphitno := i, sphitt := 0, sphitx := s.pos.x, sphity := s.pos.y }, 4096)
          | none => .ok (g, 0)
    match start with
    | none => go 0
    | some st => if fpToInt st < 0 ∨ fpToInt st > 99 then .err .outOfRange else go (fpToInt st)

/-- `func_sphitsp` (`sprites.c:434-454`): `SPHITSP(a,b)` reads `b` as `id` and `a` as `other_id`. -/
def funcSphitsp (g : Sprites) (a b : Int) : Out (Sprites × Int) :=
  if fpToInt b < 0 ∨ fpToInt b > 99 then .err .outOfRange
  else if fpToInt a < 0 ∨ fpToInt a > 99 then .err .outOfRange
  else (g.get (fpToInt b)).bind fun s => (g.get (fpToInt a)).bind fun o => (isHit s o).bind fun h =>
    if h then .ok ({ g with sphitt := 0, sphitx := s.pos.x, sphity := s.pos.y }, 4096) else .ok (g, 0)

/-- `sys_sphitno` (`sprites.c:590-592`). -/
def sysSphitno (g : Sprites) : Int := intToFp g.sphitno

end Sbc.Sprites
