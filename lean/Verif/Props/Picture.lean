import Verif.Proof.Picture
import Verif.Proof.SpritePicture
import Verif.Proof.ScaledPicture
import Verif.Proof.DisplayRefresh
import Verif.Spec.Picture
set_option autoImplicit false
/-!
# C81, C82, C83: the picture
-/
namespace Sbc.Display
open Sbc Sbc.Display.Spec

theorem good_slip {o : Int} (h : GoodOffset o) : slip (fpToInt o) = 0 := by
  unfold slip fpToInt
  rw [if_neg]
  rintro ⟨h1, h2⟩
  rcases h with h | h
  · omega
  · exact h2 h

/-- C81: a visible BG layer shows its map: at every pixel of the screen the dot of the tile there, with the tile's mirroring and palette, where the
map is moved by the (whole part of the) offset and repeats after 512 dots. -/
theorem C81_layer_partial {s : Scene} {b : Res.Bank} (hf : Fresh s b) {screen layer : Nat} (hs : screen < 2) (hl : layer < 2) (hv : s.shows (2 + layer) = true)
    (hox : GoodOffset (s.bg.ofs screen layer).x) (hoy : GoodOffset (s.bg.ofs screen layer).y) {px py : Nat} (hx : px < 256) (hy : py < 192) :
    s.background screen layer px py = mapColor s b screen layer px py := by
  unfold mapColor mapCoord
  have h1 := Int.emod_nonneg ((px : Int) + (s.bg.ofs screen layer).x / 4096) (by decide : (512 : Int) ≠ 0)
  have h2 := Int.emod_nonneg ((py : Int) + (s.bg.ofs screen layer).y / 4096) (by decide : (512 : Int) ≠ 0)
  refine background_spec hf hs hl hv hx hy ?_ ?_
  · rw [good_slip hox, Int.add_zero, Int.toNat_of_nonneg h1]; rfl
  · rw [good_slip hoy, Int.add_zero, Int.toNat_of_nonneg h2]; rfl

/-- C81: a hidden layer shows nothing. -/
theorem C81_hidden {s : Scene} {screen layer : Nat} (hl : layer < 2) (hv : s.shows (2 + layer) = false) (px py : Int) :
    s.background screen layer px py = none := by
  unfold Scene.background
  have : layer = 0 ∨ layer = 1 := by omega
  rcases this with rfl | rfl
  · rw [if_pos ⟨by rw [hv]; decide, rfl⟩]; rfl
  · rw [if_neg (by rintro ⟨-, h⟩; cases h), if_pos ⟨by rw [hv]; decide, rfl⟩]; rfl

/-- What the display shows instead: for a negative offset that is not a multiple of 8, the map one tile further. -/
theorem C81_negative {s : Scene} {b : Res.Bank} (hf : Fresh s b) {screen layer : Nat} (hs : screen < 2) (hl : layer < 2) (hv : s.shows (2 + layer) = true)
    (hox : ¬ GoodOffset (s.bg.ofs screen layer).x) (hoy : GoodOffset (s.bg.ofs screen layer).y) {px py : Nat} (hx : px < 256) (hy : py < 192) :
    s.background screen layer px py = entryColor b (3 * screen) (8 + 22 * screen)
      (s.bg.tile screen layer (mapCoord (s.bg.ofs screen layer).x (px + 8) / 8 : Nat) (mapCoord (s.bg.ofs screen layer).y py / 8 : Nat))
      (mapCoord (s.bg.ofs screen layer).x (px + 8) % 8) (mapCoord (s.bg.ofs screen layer).y py % 8) := by
  unfold mapCoord
  have h1 := Int.emod_nonneg (((px + 8 : Nat) : Int) + (s.bg.ofs screen layer).x / 4096) (by decide : (512 : Int) ≠ 0)
  have h2 := Int.emod_nonneg ((py : Int) + (s.bg.ofs screen layer).y / 4096) (by decide : (512 : Int) ≠ 0)
  refine background_spec hf hs hl hv hx hy ?_ ?_
  · have : slip (fpToInt (s.bg.ofs screen layer).x) = 8 := by
      unfold slip fpToInt GoodOffset at *
      rw [if_pos (by omega)]
    rw [this, Int.toNat_of_nonneg h1]
    unfold fpToInt
    congr 1
    omega
  · rw [good_slip hoy, Int.add_zero, Int.toNat_of_nonneg h2]; rfl

/-- An empty scene. -/
def plain (tex : Nat → Nat → Nat) (col : Nat → Nat) : Scene where
  chrTex := tex
  colTex := col
  bg := Bg.init
  gfx := Graphics.init
  spr := fun _ _ => Sprites.zeroSprite
  con := Console.init
  cursor := false
  visible := 63
  panelType := 0
  panelText := Console.init
  keysText := Console.init
  keys := []
  icons := []
  rotated := fun _ => blank

/-- A memory whose characters are solid (colour 1) except character 0 of each bank, and whose colours are all red. -/
def solid : Res.Bank where
  bytes l i := match l with
    | .chr _ => if i < 32 then 0 else 17
    | .col _ => if i % 2 = 0 then 31 else 0
    | _ => 0
  regenChr := fun _ => false
  regenCol := false

theorem solid_scene : ∃ tex col, ∀ s : Scene, s.chrTex = tex → s.colTex = col → Fresh s solid := by
  obtain ⟨tex, col, -, h1, h2⟩ := init_spec (fun _ => 0) solid (fun _ _ => 0)
  exact ⟨tex, col, fun s e1 e2 => ⟨fun t ht => by rw [e1]; exact h1 t ht, by rw [e2]; exact h2⟩⟩

/-- A map with one tile in the corner, moved by one dot. -/
def movedBg : Bg.Bg := { Bg.init with ofs := fun _ _ => ⟨-4096, 0, 0, 0, 0⟩, scr := fun _ i => if i = 0 then 1 else 0 }

/-- C81 fails for negative offsets: with offset -1 the pixel at the left edge should show the last dot of the map, which is empty; it shows the
tile in the first column. -/
theorem C81_negative_violated : ∃ (s : Scene) (b : Res.Bank), Fresh s b ∧ s.shows 2 = true ∧ (s.bg.ofs 0 0).x = -4096 ∧ (s.bg.ofs 0 0).y = 0 ∧
    mapColor s b 0 0 0 0 = none ∧ s.background 0 0 0 0 = some (248, 0, 0) := by
  obtain ⟨tex, col, h⟩ := solid_scene
  let s : Scene := { plain tex col with bg := movedBg }
  have hf : Fresh s solid := h s rfl rfl
  have hb : s.bg = movedBg := rfl
  refine ⟨s, solid, hf, (show Nat.testBit 63 2 = true by decide), rfl, rfl, ?_, ?_⟩
  · unfold mapColor
    rw [hb, show mapCoord (movedBg.ofs 0 0).x 0 = 511 by decide, show mapCoord (movedBg.ofs 0 0).y 0 = 0 by decide]
    dsimp only
    rw [show movedBg.tile 0 0 ((511 / 8 : Nat) : Int) ((0 / 8 : Nat) : Int) = 0 by decide]
    decide
  show s.background 0 0 ((0 : Nat) : Int) ((0 : Nat) : Int) = _
  have := C81_negative hf (screen := 0) (layer := 0) (by decide) (by decide) (show Nat.testBit 63 2 = true by decide) (show ¬ GoodOffset (-4096) by decide) (show GoodOffset 0 by decide) (px := 0) (py := 0)
    (by decide) (by decide)
  refine this.trans ?_
  rw [hb, show mapCoord (movedBg.ofs 0 0).x (0 + 8) = 7 by decide, show mapCoord (movedBg.ofs 0 0).y 0 = 0 by decide,
    show movedBg.tile 0 0 ((7 / 8 : Nat) : Int) ((0 / 8 : Nat) : Int) = 1 by decide]
  decide

/-- C81: BGCLIP keeps the rectangle of whole tiles, corners included, for the current page and nothing else. -/
theorem C81_bgclip (g : Bg.Bg) {x1 y1 x2 y2 : Int} {a b c d : Nat} (h1 : x1 / 4096 = a ∧ a < 32) (h2 : y1 / 4096 = b ∧ b < 24) (h3 : x2 / 4096 = c ∧ c < 32)
    (h4 : y2 / 4096 = d ∧ d < 24) :
    ∃ g', Bg.cmdBgclip g x1 y1 x2 y2 = .ok (g', none) ∧ (g'.page, g'.ofs, g'.scr) = (g.page, g.ofs, g.scr) ∧ (∀ p, p ≠ g.page → g'.clip p = g.clip p) ∧
      ∀ px py : Nat, ((g'.clip g.page).x1 ≤ px ∧ px ≤ (g'.clip g.page).x2 ∧ (g'.clip g.page).y1 ≤ py ∧ py ≤ (g'.clip g.page).y2) ↔
        (a ≤ px / 8 ∧ px / 8 ≤ c ∧ b ≤ py / 8 ∧ py / 8 ≤ d) := by
  have r : ∀ {v : Int} {n m : Nat}, v / 4096 = n → n < m + 1 → Bg.range v 0 m = .ok n := by
    intro v n m h h'
    unfold Bg.range fpToInt
    rw [if_neg (by omega), h]
  refine ⟨{ g with clip := upd g.clip g.page ⟨8 * a, 8 * b, 8 * c + 7, 8 * d + 7⟩ }, ?_, rfl, fun p hp => upd_other _ _ hp, ?_⟩
  · unfold Bg.cmdBgclip Bg.checked
    rw [show (31 : Int) = ((31 : Nat) : Int) from rfl, show (23 : Int) = ((23 : Nat) : Int) from rfl, r h1.1 h1.2]
    dsimp only
    rw [r h2.1 h2.2]
    dsimp only
    rw [r h3.1 h3.2]
    dsimp only
    rw [r h4.1 h4.2]
    rfl
  · intro px py
    dsimp only
    rw [upd_same]
    dsimp only
    omega

/-- C81: BGCLIP with a coordinate off the screen reports it and changes nothing. -/
theorem C81_bgclip_checked (g : Bg.Bg) {x1 y1 x2 y2 : Int}
    (h : ¬ ((0 ≤ x1 / 4096 ∧ x1 / 4096 < 32) ∧ (0 ≤ y1 / 4096 ∧ y1 / 4096 < 24) ∧ (0 ≤ x2 / 4096 ∧ x2 / 4096 < 32) ∧ (0 ≤ y2 / 4096 ∧ y2 / 4096 < 24))) :
    Bg.cmdBgclip g x1 y1 x2 y2 = .ok (g, some .outOfRange) := by
  have r : ∀ {v m : Int}, Bg.range v 0 m = if 0 ≤ v / 4096 ∧ v / 4096 ≤ m then .ok (v / 4096) else .err .outOfRange := by
    intro v m
    unfold Bg.range fpToInt
    by_cases hh : 0 ≤ v / 4096 ∧ v / 4096 ≤ m
    · rw [if_neg (by omega), if_pos hh]
    · rw [if_pos (by omega), if_neg hh]
  unfold Bg.cmdBgclip Bg.checked
  simp only [r]
  by_cases k1 : 0 ≤ x1 / 4096 ∧ x1 / 4096 ≤ 31
  · rw [if_pos k1]
    dsimp only
    by_cases k2 : 0 ≤ y1 / 4096 ∧ y1 / 4096 ≤ 23
    · rw [if_pos k2]
      dsimp only
      by_cases k3 : 0 ≤ x2 / 4096 ∧ x2 / 4096 ≤ 31
      · rw [if_pos k3]
        dsimp only
        rw [if_neg (by omega)]; rfl
      · rw [if_neg k3]; rfl
    · rw [if_neg k2]; rfl
  · rw [if_neg k1]; rfl

/-- C81 fails for BGCLIP: the picture does not depend on it. -/
theorem C81_clip_violated (s : Scene) (x1 y1 x2 y2 : Int) (g' : Bg.Bg) (h : Bg.cmdBgclip s.bg x1 y1 x2 y2 = .ok (g', none)) :
    ({ s with bg := g' } : Scene).upper = s.upper ∧ ({ s with bg := g' } : Scene).lower = s.lower := by
  have : ∃ c, g' = { s.bg with clip := c } := by
    unfold Bg.cmdBgclip Bg.checked at h
    split at h
    · split at h
      · split at h
        · split at h
          · injection h with h; injection h with h; exact ⟨_, h.symm⟩
          · cases h
          · cases h
        · cases h
        · cases h
      · cases h
      · cases h
    · cases h
    · cases h
  obtain ⟨c, rfl⟩ := this
  have e : ∀ k t l, ({ s with bg := { s.bg with clip := c } } : Scene).sprites k t l = s.sprites k t l := by
    intro k t l
    induction l with
    | nil => rfl
    | cons i l ih => rw [Scene.sprites, Scene.sprites, ih]; rfl
  have e0 : ∀ k p, ({ s with bg := { s.bg with clip := c } } : Scene).sprite k p = s.sprite k p := by
    intro k p
    unfold Scene.sprite
    rw [e]; rfl
  have e1 : ({ s with bg := { s.bg with clip := c } } : Scene).cursorLayer = s.cursorLayer := by
    unfold Scene.cursorLayer
    dsimp only
    rw [e]
  have e2 : ({ s with bg := { s.bg with clip := c } } : Scene).icon = s.icon := e _ _ _
  have e3 : ({ s with bg := { s.bg with clip := c } } : Scene).panelKeys = s.panelKeys := by
    unfold Scene.panelKeys
    rw [e]; rfl
  constructor
  · unfold Scene.upper
    rw [e0, e0, e0, e0, e1]
    rfl
  · unfold Scene.lower
    rw [e0, e0, e0, e0, e2, e3]
    rfl

/-! ### Sprites -/

/-- C83: a sprite without angle shows its image at its place, as large as its scale says, mirrored in place. -/
theorem C83_scaled_partial {s : Scene} {b : Res.Bank} (hf : Fresh s b) {k t : Nat} (hk : k < 6) (hk' : k % 3 ≠ 2) (ht : t < 10) {i : Sprites.Sprite} (hi : Scaled i (texSize t)) :
    ∃ qs, addSprite i = .ok qs ∧ ∀ px py, s.draw k t qs px py = scaledColor b k (texBanks t).1 i px py := by
  refine ⟨_, addSprite_scaled hi.scale ⟨hi.w.1, hi.w.2.1⟩ ⟨hi.h.1, hi.h.2.1⟩ hi.x hi.y hi.hx hi.hy, fun px py => ?_⟩
  have hc : (4 * Sprites.shownChr i) = ((4 * (Sprites.shownChr i).toNat : Nat) : Int) := by have := hi.chr; omega
  have hp := hi.pal
  rw [hc, Nat.mod_eq_of_lt (show 16 * i.pal < 256 by omega), scaled_draw hf hk hk' ht hi.scale.1 hi.pal hi.fits]
  rfl

/-- C83: at 100% the image is shown dot by dot. -/
theorem C83_plain {i : Sprites.Sprite} {n : Nat} (hi : Simple i n) (b : Res.Bank) (colBank chrBank : Nat) (px py : Int) :
    Scaled i n ∧ scaledColor b colBank chrBank i px py = imageColor b colBank chrBank i px py := by
  refine ⟨⟨by rw [hi.scale]; decide, hi.angle, hi.w, hi.h, hi.x, hi.y, hi.hx, hi.hy, hi.pal, hi.chr, hi.fits⟩, ?_⟩
  have w8 : 8 * ((i.w / 8 : Nat) : Int) = i.w := by have := hi.w; omega
  have h8 : 8 * ((i.h / 8 : Nat) : Int) = i.h := by have := hi.h; omega
  have ax : away i.flipX ((i.pos.x + 4096 * ((if i.flipX then (i.w : Int) else 0) - i.homeX)) / 4096) px =
      if i.flipX then i.w - 1 - (px - (i.pos.x / 4096 - i.homeX)) else px - (i.pos.x / 4096 - i.homeX) := by
    unfold away
    cases i.flipX <;> simp only [Bool.false_eq_true, if_false, if_true] <;> omega
  have ay : away i.flipY ((i.pos.y + 4096 * ((if i.flipY then (i.h : Int) else 0) - i.homeY)) / 4096) py =
      if i.flipY then i.h - 1 - (py - (i.pos.y / 4096 - i.homeY)) else py - (i.pos.y / 4096 - i.homeY) := by
    unfold away
    cases i.flipY <;> simp only [Bool.false_eq_true, if_false, if_true] <;> omega
  have hX : (0 ≤ (if i.flipX then (i.w : Int) - 1 - (px - (i.pos.x / 4096 - i.homeX)) else px - (i.pos.x / 4096 - i.homeX)) ∧
      (if i.flipX then (i.w : Int) - 1 - (px - (i.pos.x / 4096 - i.homeX)) else px - (i.pos.x / 4096 - i.homeX)) < i.w) ↔
      0 ≤ px - (i.pos.x / 4096 - i.homeX) ∧ px - (i.pos.x / 4096 - i.homeX) < i.w := by
    cases i.flipX <;> simp only [Bool.false_eq_true, if_false, if_true] <;> omega
  have hY : (0 ≤ (if i.flipY then (i.h : Int) - 1 - (py - (i.pos.y / 4096 - i.homeY)) else py - (i.pos.y / 4096 - i.homeY)) ∧
      (if i.flipY then (i.h : Int) - 1 - (py - (i.pos.y / 4096 - i.homeY)) else py - (i.pos.y / 4096 - i.homeY)) < i.h) ↔
      0 ≤ py - (i.pos.y / 4096 - i.homeY) ∧ py - (i.pos.y / 4096 - i.homeY) < i.h := by
    cases i.flipY <;> simp only [Bool.false_eq_true, if_false, if_true] <;> omega
  unfold scaledColor imageColor
  rw [hi.scale, column_plain, column_plain, w8, h8, ax, ay]
  dsimp only
  by_cases h : 0 ≤ px - (i.pos.x / 4096 - i.homeX) ∧ px - (i.pos.x / 4096 - i.homeX) < i.w ∧ 0 ≤ py - (i.pos.y / 4096 - i.homeY) ∧
      py - (i.pos.y / 4096 - i.homeY) < i.h
  · rw [if_pos h, if_pos (hX.mpr ⟨h.1, h.2.1⟩), if_pos (hY.mpr h.2.2)]
  · rw [if_neg h]
    by_cases h1 : 0 ≤ px - (i.pos.x / 4096 - i.homeX) ∧ px - (i.pos.x / 4096 - i.homeX) < i.w
    · rw [if_pos (hX.mpr h1), if_neg fun k => h ⟨h1.1, h1.2, hY.mp k⟩]
    · rw [if_neg fun k => h1 (hX.mp k)]

theorem scaled_spec {s : Scene} {b : Res.Bank} (hf : Fresh s b) {k t : Nat} (hk : k < 6) (hk' : k % 3 ≠ 2) (ht : t < 10) : ∀ (l : List Sprites.Sprite),
    (∀ i ∈ l, Scaled i (texSize t)) → ∃ L, s.sprites k t l = .ok L ∧ ∀ px py, L px py = topmost (l.reverse.map fun i => scaledColor b k (texBanks t).1 i px py)
  | [], _ => ⟨blank, rfl, fun _ _ => rfl⟩
  | i :: l, h => by
    obtain ⟨L, h1, h2⟩ := scaled_spec hf hk hk' ht l fun i hi => h i (List.mem_cons_of_mem _ hi)
    obtain ⟨qs, e1, e2⟩ := C83_scaled_partial hf hk hk' ht (h i (by simp))
    refine ⟨over L (s.draw k t qs), ?_, fun px py => ?_⟩
    · rw [Scene.sprites, if_neg (by rw [(h i (by simp)).angle]; decide), e1]
      show (s.sprites k t l).bind _ = _
      rw [h1]; rfl
    · rw [over_apply, h2, e2, List.reverse_cons, List.map_append]
      generalize l.reverse.map _ = m
      induction m with
      | nil =>
        show (none : Option Rgb).or _ = topmost [_]
        rw [Option.none_or]
        show _ = topmost [scaledColor b k (texBanks t).1 i px py]
        cases scaledColor b k (texBanks t).1 i px py <;> rfl
      | cons c m ih =>
        cases c with
        | none => exact ih
        | some c => rfl

theorem sprites_spec {s : Scene} {b : Res.Bank} (hf : Fresh s b) {k t : Nat} (hk : k < 6) (hk' : k % 3 ≠ 2) (ht : t < 10) (l : List Sprites.Sprite)
    (h : ∀ i ∈ l, Simple i (texSize t)) : ∃ L, s.sprites k t l = .ok L ∧ ∀ px py, L px py = topmost (l.reverse.map fun i => imageColor b k (texBanks t).1 i px py) := by
  obtain ⟨L, h1, h2⟩ := scaled_spec hf hk hk' ht l fun i hi => (C83_plain (h i hi) b 0 0 0 0).1
  refine ⟨L, h1, fun px py => ?_⟩
  rw [h2]
  congr 1
  exact List.map_congr_left fun i hi => (C83_plain (h i (List.mem_reverse.mp hi)) b _ _ _ _).2

/-- C83: the sprites of a priority on the upper screen: the image of the one in front, the highest number first. -/
theorem C83_sprites_partial {s : Scene} {b : Res.Bank} (hf : Fresh s b) (hv : s.shows 4 = true) (prio : Nat) (h : ∀ i ∈ inFront s 0 prio, Scaled i 2048) :
    ∃ L, s.sprite 0 prio = .ok L ∧ ∀ px py, L px py = topmost ((inFront s 0 prio).map fun i => scaledColor b 1 12 i px py) := by
  unfold Scene.sprite
  rw [if_neg (by rintro ⟨h, -⟩; cases h), if_neg (by rw [hv]; decide)]
  exact scaled_spec hf (k := 1) (t := 3) (by decide) (by decide) (by decide) _ fun i hi => h i (List.mem_reverse.mpr hi)

/-- C83: the same on the lower screen, where no panel is open. -/
theorem C83_lower_partial {s : Scene} {b : Res.Bank} (hf : Fresh s b) (hv : s.shows 4 = true) (hp : s.panelType = 0) (hp' : s.shows 1 = true) (prio : Nat)
    (h : ∀ i ∈ inFront s 1 prio, Scaled i 512) :
    ∃ L, s.sprite 1 prio = .ok L ∧ ∀ px py, L px py = topmost ((inFront s 1 prio).map fun i => scaledColor b 4 42 i px py) := by
  unfold Scene.sprite
  rw [if_neg (by rintro ⟨-, h⟩; rcases h with h | h; exact h hp; exact h hp'), if_neg (by rw [hv]; decide)]
  exact scaled_spec hf (k := 4) (t := 9) (by decide) (by decide) (by decide) _ fun i hi => h i (List.mem_reverse.mpr hi)

/-- C83: hidden sprites are not shown; on the lower screen an open or hidden panel hides them. -/
theorem C83_hidden (s : Scene) (screen prio : Nat) (h : s.shows 4 = false ∨ screen = 1 ∧ (s.panelType ≠ 0 ∨ s.shows 1 = false)) :
    s.sprite screen prio = .ok blank := by
  unfold Scene.sprite
  rcases h with h | ⟨h1, h2⟩
  · by_cases h' : screen = 1 ∧ (s.panelType ≠ 0 ∨ ¬ s.shows 1 = true)
    · rw [if_pos h']
    · rw [if_neg h', if_pos (by rw [h]; decide)]
  · rw [if_pos ⟨h1, h2.imp id (fun h => by rw [h]; decide)⟩]

/-! ### Screens -/

theorem stack_cons_ok {l : Out Layer} {L : Layer} {r : List (Out Layer)} {R : Layer} (h1 : l = .ok L) (h2 : stack r = .ok R) :
    stack (l :: r) = .ok (over R L) := by
  rw [stack, h1]
  show (stack r).bind _ = _
  rw [h2]; rfl

theorem topmost_cons (a : Option Rgb) (l : List (Option Rgb)) : topmost (a :: l) = a.or (topmost l) := by cases a <;> rfl

theorem over3 (a b c : Option Rgb) : (a.or b).or c = a.or (b.or c) := by cases a <;> rfl

/-- The console, layer by layer. -/
theorem console_spec {s : Scene} {b : Res.Bank} (hf : Fresh s b) {px py : Nat} (hx : px < 256) (hy : py < 192)
    (hc : 0 ≤ Strs.toChar (s.con.text (py / 8) (px / 8))) :
    s.console px py = (if s.shows 0 = true then textColor s.con b 0 px py else none).or (backColor s.con b px py) := by
  have t := console_text hf hx hy (Int.toNat_of_nonneg hc).symm
  have k : _ = backColor s.con b px py := (console_back hf hx hy).trans (by
    unfold backColor
    by_cases h : s.con.color (py / 8) (px / 8) / 16 % 16 = 0
    · rw [if_pos h, if_neg (by rw [h]; decide), h]
    · rw [if_neg h, if_pos h])
  unfold textColor
  rw [Nat.mul_zero, ← t, ← k]
  unfold Scene.console
  cases s.shows 0 with
  | true => exact over_apply _ _ _ _
  | false => exact over_apply _ _ _ _

/-- The graphics of the upper screen at one priority. -/
theorem graphics_upper {s : Scene} {b : Res.Bank} (hf : Fresh s b) (hd : ∀ p i, s.gfx.grp p i < 256) (prio : Nat) {px py : Nat} (hx : px < 256) (hy : py < 192) :
    s.graphics 0 prio px py = if s.shows 5 = true ∧ s.gfx.prio 0 = prio then graphicColor s b 0 px py else none := by
  by_cases h : s.shows 5 = true ∧ s.gfx.prio 0 = prio
  · rw [if_pos h, graphics_spec hf (by decide) h.1 h.2 (by intro h; cases h) hx hy rfl (hd _ _)]; rfl
  · rw [if_neg h]
    unfold Scene.graphics
    rw [if_neg (by rintro ⟨h, -⟩; cases h), if_neg (by rintro ⟨h, -⟩; cases h)]
    by_cases h5 : s.shows 5 = true
    · rw [if_neg (fun hh => hh h5), if_neg (fun hp => h ⟨h5, hp.symm⟩)]; rfl
    · rw [if_pos h5]; rfl

/-- C82: the upper screen shows at every pixel the topmost of: cursor; sprites and graphics of priority 0; text; its background colour; sprites and graphics of
priority 1; BG layer 0; sprites and graphics of priority 2; BG layer 1; sprites and graphics of priority 3.  What VISIBLE hides is left out (the background
colour of text is never hidden).  Partial: for offsets that are not negative or are multiples of 8, and given the layers of the sprites (C83). -/
theorem C82_upper_partial {s : Scene} {b : Res.Bank} (hf : Fresh s b) (hd : ∀ p i, s.gfx.grp p i < 256) (ht : ∀ r c, 0 ≤ Strs.toChar (s.con.text r c))
    (ho : ∀ l, l < 2 → GoodOffset (s.bg.ofs 0 l).x ∧ GoodOffset (s.bg.ofs 0 l).y) {sp : Nat → Layer} (hsp : ∀ k, k < 4 → s.sprite 0 k = .ok (sp k)) {cur : Layer}
    (hcur : s.cursorLayer = .ok cur) :
    ∃ L, s.upper = .ok L ∧ ∀ px py : Nat, px < 256 → py < 192 →
      let gfx (k : Nat) := if s.shows 5 = true ∧ s.gfx.prio 0 = k then graphicColor s b 0 px py else none
      let map (l : Nat) := if s.shows (2 + l) = true then mapColor s b 0 l px py else none
      L px py = topmost [cur px py, sp 0 px py, gfx 0, if s.shows 0 = true then textColor s.con b 0 px py else none, backColor s.con b px py,
        sp 1 px py, gfx 1, map 0, sp 2 px py, gfx 2, map 1, sp 3 px py, gfx 3] := by
  unfold Scene.upper
  refine ⟨_, stack_cons_ok rfl (stack_cons_ok (hsp 3 (by decide)) (stack_cons_ok rfl (stack_cons_ok rfl (stack_cons_ok (hsp 2 (by decide)) (stack_cons_ok rfl
    (stack_cons_ok rfl (stack_cons_ok (hsp 1 (by decide)) (stack_cons_ok rfl (stack_cons_ok rfl (stack_cons_ok (hsp 0 (by decide)) (stack_cons_ok hcur rfl))))))))))), ?_⟩
  intro px py hx hy
  dsimp only
  have bg : ∀ l, l < 2 → s.background 0 l px py = if s.shows (2 + l) = true then mapColor s b 0 l px py else none := by
    intro l hl
    by_cases hv : s.shows (2 + l) = true
    · rw [if_pos hv, C81_layer_partial hf (by decide) hl hv (ho l hl).1 (ho l hl).2 hx hy]
    · rw [if_neg hv, C81_hidden hl (by simpa using hv)]
  simp only [over_apply, topmost_cons, graphics_upper hf hd _ hx hy, bg 0 (by decide), bg 1 (by decide), console_spec hf hx hy (ht _ _), over3]
  simp only [topmost, Option.or_none]
  rfl

theorem graphics_lower {s : Scene} {b : Res.Bank} (hf : Fresh s b) (hd : ∀ p i, s.gfx.grp p i < 256) (prio : Nat) {px py : Nat} (hx : px < 256) (hy : py < 192) :
    s.graphics 1 prio px py = if s.panelType < 2 ∧ s.shows 1 = true ∧ s.shows 5 = true ∧ s.gfx.prio 1 = prio then graphicColor s b 1 px py else none := by
  by_cases h : s.panelType < 2 ∧ s.shows 1 = true ∧ s.shows 5 = true ∧ s.gfx.prio 1 = prio
  · rw [if_pos h, graphics_spec hf (by decide) h.2.2.1 h.2.2.2 (fun _ => ⟨by omega, h.2.1⟩) hx hy rfl (hd _ _)]; rfl
  · rw [if_neg h]
    unfold Scene.graphics
    by_cases h1 : s.panelType = 0 ∨ s.panelType = 1
    · rw [if_neg (fun hh => hh.2 h1)]
      by_cases h2 : s.shows 1 = true
      · rw [if_neg (fun hh => hh.2 h2)]
        by_cases h5 : s.shows 5 = true
        · rw [if_neg (fun hh => hh h5), if_neg (fun hp => h ⟨by omega, h2, h5, hp.symm⟩)]; rfl
        · rw [if_pos h5]; rfl
      · rw [if_pos ⟨rfl, h2⟩]; rfl
    · rw [if_pos ⟨rfl, h1⟩]; rfl

theorem panel_text {s : Scene} {b : Res.Bank} (hf : Fresh s b) {px py : Nat} (hx : px < 256) (hy : py < 192)
    (hc : 0 ≤ Strs.toChar ((lowerText s).text (py / 8) (px / 8))) : s.panelConsole px py = textColor (lowerText s) b 1 px py := by
  have := toChar_lt ((lowerText s).text (py / 8) (px / 8))
  have e : (lowerText s).color (py / 8) (px / 8) &&& 0x0f = (lowerText s).color (py / 8) (px / 8) % 16 := Nat.and_two_pow_sub_one_eq_mod _ 4
  have t := text_spec hf (k := 3) (t := 5) (by decide) (by decide) (by decide) (by decide) (fun x y => Strs.toChar ((lowerText s).text y x))
    (fun x y => (lowerText s).color y x &&& 0x0f) hx hy (Int.toNat_of_nonneg hc).symm (by omega) (by rw [e]; omega)
  refine t.trans ?_
  rw [e]
  rfl

theorem panel_back {s : Scene} {b : Res.Bank} (hf : Fresh s b) {px py : Nat} (hx : px < 256) (hy : py < 192) :
    s.panelBackground px py = if s.panelType ≠ 0 ∧ s.shows 1 = true then panelColor s b px py else none := by
  unfold Scene.panelBackground
  by_cases h1 : s.panelType = 0
  · rw [if_pos h1, if_neg (fun h => h.1 h1)]; rfl
  · rw [if_neg h1]
    by_cases h2 : s.shows 1 = true
    · rw [if_neg (fun h => h h2), if_pos ⟨h1, h2⟩]
      exact entries_spec hf (k := 3) (t := 6) (by decide) (by decide) (by decide) (by decide) (fun x y => s.bg.scr 5 (x + 32 * y)) hx hy
    · rw [if_pos h2, if_neg (fun h => h2 h.2)]; rfl

/-- C82: the lower screen shows at every pixel the topmost of: icons; sprites and graphics of priority 0; text of the panel (whether or not VISIBLE hides the
panel); keys; the panel; sprites and graphics of priority 1; BG layer 0; sprites and graphics of priority 2; BG layer 1; sprites and graphics of priority 3.
Graphics are left out while a keyboard is open and where the panel is hidden.  Partial: as `C82_upper_partial`; keys and icons are given (unscaled sprites). -/
theorem C82_lower_partial {s : Scene} {b : Res.Bank} (hf : Fresh s b) (hd : ∀ p i, s.gfx.grp p i < 256) (ht : ∀ r c, 0 ≤ Strs.toChar ((lowerText s).text r c))
    (ho : ∀ l, l < 2 → GoodOffset (s.bg.ofs 1 l).x ∧ GoodOffset (s.bg.ofs 1 l).y) {sp : Nat → Layer} (hsp : ∀ k, k < 4 → s.sprite 1 k = .ok (sp k)) {keys icons : Layer}
    (hk : s.panelKeys = .ok keys) (hi : s.icon = .ok icons) :
    ∃ L, s.lower = .ok L ∧ ∀ px py : Nat, px < 256 → py < 192 →
      let gfx (k : Nat) := if s.panelType < 2 ∧ s.shows 1 = true ∧ s.shows 5 = true ∧ s.gfx.prio 1 = k then graphicColor s b 1 px py else none
      let map (l : Nat) := if s.shows (2 + l) = true then mapColor s b 1 l px py else none
      L px py = topmost [icons px py, sp 0 px py, gfx 0, textColor (lowerText s) b 1 px py, keys px py,
        if s.panelType ≠ 0 ∧ s.shows 1 = true then panelColor s b px py else none,
        sp 1 px py, gfx 1, map 0, sp 2 px py, gfx 2, map 1, sp 3 px py, gfx 3] := by
  unfold Scene.lower
  refine ⟨_, stack_cons_ok rfl (stack_cons_ok (hsp 3 (by decide)) (stack_cons_ok rfl (stack_cons_ok rfl (stack_cons_ok (hsp 2 (by decide)) (stack_cons_ok rfl
    (stack_cons_ok rfl (stack_cons_ok (hsp 1 (by decide)) (stack_cons_ok rfl (stack_cons_ok hk (stack_cons_ok rfl (stack_cons_ok rfl (stack_cons_ok (hsp 0 (by decide))
      (stack_cons_ok hi rfl))))))))))))), ?_⟩
  intro px py hx hy
  dsimp only
  have bg : ∀ l, l < 2 → s.background 1 l px py = if s.shows (2 + l) = true then mapColor s b 1 l px py else none := by
    intro l hl
    by_cases hv : s.shows (2 + l) = true
    · rw [if_pos hv, C81_layer_partial hf (by decide) hl hv (ho l hl).1 (ho l hl).2 hx hy]
    · rw [if_neg hv, C81_hidden hl (by simpa using hv)]
  simp only [over_apply, topmost_cons, graphics_lower hf hd _ hx hy, bg 0 (by decide), bg 1 (by decide), panel_text hf hx hy (ht _ _), panel_back hf hx hy, over3]
  simp only [topmost, Option.or_none]
  rfl

/-- C82: keys and icons that are unscaled are shown at their places, the last in front; keys only while a keyboard is open and the panel visible. -/
theorem C82_keys_partial {s : Scene} {b : Res.Bank} (hf : Fresh s b) (h : ∀ i ∈ s.keys ++ s.icons, i.active = true → Simple i 1024) :
    ∃ K I, s.panelKeys = .ok K ∧ s.icon = .ok I ∧
      (∀ px py, K px py = if 2 ≤ s.panelType ∧ s.shows 1 = true then topmost ((s.keys.filter (·.active)).reverse.map fun i => imageColor b 4 34 i px py) else none) ∧
      ∀ px py, I px py = topmost ((s.icons.filter (·.active)).reverse.map fun i => imageColor b 4 34 i px py) := by
  obtain ⟨K, k1, k2⟩ := sprites_spec hf (k := 4) (t := 8) (by decide) (by decide) (by decide) (s.keys.filter (·.active))
    (fun i hi => by
      rw [List.mem_filter] at hi
      have hs := h i (List.mem_append_left _ hi.1) hi.2
      exact { hs with fits := Nat.le_trans hs.fits (by decide) })
  obtain ⟨I, i1, i2⟩ := sprites_spec hf (k := 4) (t := 8) (by decide) (by decide) (by decide) (s.icons.filter (·.active))
    (fun i hi => by
      rw [List.mem_filter] at hi
      have hs := h i (List.mem_append_right _ hi.1) hi.2
      exact { hs with fits := Nat.le_trans hs.fits (by decide) })
  by_cases hp : 2 ≤ s.panelType ∧ s.shows 1 = true
  · refine ⟨K, I, ?_, i1, fun px py => by rw [if_pos hp]; exact k2 px py, i2⟩
    unfold Scene.panelKeys
    rw [if_neg (by omega), if_neg (fun hh => hh hp.2), k1]
  · refine ⟨blank, I, ?_, i1, fun px py => by rw [if_neg hp]; rfl, i2⟩
    unfold Scene.panelKeys
    by_cases h1 : s.panelType = 0 ∨ s.panelType = 1
    · rw [if_pos h1]
    · rw [if_neg h1, if_pos (fun h2 => hp ⟨by omega, h2⟩)]

theorem cell_image (b : Res.Bank) (i : Sprites.Sprite) (x y : Nat) (hx : i.pos.x = x * 8 * 4096) (hy : i.pos.y = y * 8 * 4096) (h1 : i.homeX = 0) (h2 : i.homeY = 0)
    (hw : i.w = 8) (hh : i.h = 8) (f1 : i.flipX = false) (f2 : i.flipY = false) (hp : i.pal = 0) {k : Nat} (hk : Sprites.shownChr i = k) (px py : Nat) :
    imageColor b 1 20 i px py = if px / 8 = x ∧ py / 8 = y then paint b 1 0 (dot b 20 (4 * k) (px % 8) (py % 8)) else none := by
  have e1 : (x * 8 * 4096 : Int) / 4096 = x * 8 := by omega
  have e2 : (y * 8 * 4096 : Int) / 4096 = y * 8 := by omega
  unfold imageColor
  rw [hx, hy, h1, h2, hw, hh, f1, f2, hp, hk, e1, e2]
  simp only [Bool.false_eq_true, if_false]
  by_cases hc : px / 8 = x ∧ py / 8 = y
  · rw [if_pos (by omega), if_pos hc]
    congr 2 <;> omega
  · rw [if_neg (by omega), if_neg hc]

/-- The sprite of the cursor. -/
def cursorSprite (x y : Int) : Sprites.Sprite :=
  let c := Sprites.initSprite 100 108 0 false false 0 8 8
  { c with pos := { c.pos with x := x, y := y } }

theorem cursorSprite_facts (x y : Int) : (cursorSprite x y).pos.x = x ∧ (cursorSprite x y).pos.y = y ∧ (cursorSprite x y).homeX = 0 ∧ (cursorSprite x y).homeY = 0 ∧
    (cursorSprite x y).w = 8 ∧ (cursorSprite x y).h = 8 ∧ (cursorSprite x y).flipX = false ∧ (cursorSprite x y).flipY = false ∧ (cursorSprite x y).pal = 0 ∧
    Sprites.shownChr (cursorSprite x y) = (108 : Nat) ∧ (cursorSprite x y).scale.v = 4096 ∧ (cursorSprite x y).angle.v = 0 :=
  ⟨rfl, rfl, rfl, rfl, rfl, rfl, rfl, rfl, rfl, rfl, rfl, rfl⟩

/-- C82: the cursor, where visible, is character 432 of `SPS` in the cell of the text position. -/
theorem C82_cursor {s : Scene} {b : Res.Bank} (hf : Fresh s b) (hx : s.con.x < 33) (hy : s.con.y < 25) :
    ∃ L, s.cursorLayer = .ok L ∧ ∀ px py : Nat, px < 256 → py < 192 →
      L px py = if s.cursor = true ∧ px / 8 = s.con.x ∧ py / 8 = s.con.y then paint b 1 0 (dot b 20 432 (px % 8) (py % 8)) else none := by
  unfold Scene.cursorLayer
  by_cases h : s.cursor = true
  · rw [if_neg (fun hh => hh h)]
    have i1 : intToFp (s.con.x * 8) = s.con.x * 8 * 4096 := intToFp_small (by omega)
    have i2 : intToFp (s.con.y * 8) = s.con.y * 8 * 4096 := intToFp_small (by omega)
    obtain ⟨k1, k2, k3, k4, k5, k6, k7, k8, k9, k10, k11, k12⟩ := cursorSprite_facts (intToFp (s.con.x * 8)) (intToFp (s.con.y * 8))
    obtain ⟨L, h1, h2⟩ := sprites_spec hf (k := 1) (t := 4) (by decide) (by decide) (by decide) [cursorSprite (intToFp (s.con.x * 8)) (intToFp (s.con.y * 8))] (by
        intro i hi
        rw [List.mem_singleton] at hi
        subst hi
        exact {
          scale := k11
          angle := k12
          w := by rw [k5]; decide
          h := by rw [k6]; decide
          x := by rw [k1, i1]; omega
          y := by rw [k2, i2]; omega
          hx := by rw [k3]; decide
          hy := by rw [k4]; decide
          pal := by rw [k9]; decide
          chr := by rw [k10]; decide
          fits := by rw [k10, k5, k6]; decide })
    refine ⟨L, h1, fun px py hpx hpy => ?_⟩
    rw [h2]
    simp only [List.reverse_cons, List.reverse_nil, List.nil_append, List.map_cons, List.map_nil]
    rw [topmost_cons]
    show Option.or (imageColor b 1 20 _ _ _) none = _
    rw [Option.or_none, cell_image b _ s.con.x s.con.y (k1.trans i1) (k2.trans i2) k3 k4 k5 k6 k7 k8 k9 k10]
    by_cases hc : px / 8 = s.con.x ∧ py / 8 = s.con.y
    · rw [if_pos hc, if_pos ⟨h, hc⟩]
    · rw [if_neg hc, if_neg (fun hh => hc hh.2)]
  · rw [if_pos h]
    exact ⟨blank, rfl, fun px py _ _ => by rw [if_neg (fun hh => h hh.1)]; rfl⟩

/-- The hypotheses hold: a scene with a tile in the corner, two sprites on top of each other and a hidden text. -/
def sampleScene (tex : Nat → Nat → Nat) (col : Nat → Nat) : Scene :=
  { plain tex col with
    bg := { movedBg with ofs := fun _ _ => ⟨0, 0, 0, 0, 0⟩ }
    spr := fun p n => if p = 0 ∧ n < 2 then { Sprites.initSprite n 5 n true false 2 16 8 with active := true } else Sprites.zeroSprite
    visible := 62 }

example : ∃ (s : Scene) (b : Res.Bank), Fresh s b ∧ s.shows 2 = true ∧ GoodOffset (s.bg.ofs 0 0).x ∧ (∀ p i, s.gfx.grp p i < 256) ∧
    (∀ r c, 0 ≤ Strs.toChar (s.con.text r c)) ∧ (inFront s 0 2).length = 2 ∧ (∀ i ∈ inFront s 0 2, Simple i 2048) ∧ s.con.x < 33 ∧ s.con.y < 25 := by
  obtain ⟨tex, col, h⟩ := solid_scene
  have e : inFront (sampleScene tex col) 0 2 =
      [{ Sprites.initSprite 1 5 1 true false 2 16 8 with active := true }, { Sprites.initSprite 0 5 0 true false 2 16 8 with active := true }] := by
    unfold inFront sampleScene
    rfl
  refine ⟨sampleScene tex col, solid, h _ rfl rfl, (show Nat.testBit 62 2 = true by decide), (show GoodOffset 0 by decide), fun _ _ => (show 0 < 256 by decide),
    fun _ _ => (show 0 ≤ Strs.toChar 0 by decide), by rw [e]; rfl, ?_, (show 0 < 33 by decide), (show 0 < 25 by decide)⟩
  rw [e]
  intro i hi
  rw [List.mem_cons, List.mem_singleton] at hi
  rcases hi with rfl | rfl
  · constructor <;> decide
  · constructor <;> decide

/-- A mirrored sprite of 16 by 8 dots at 150%. -/
def enlarged : Sprites.Sprite := { Sprites.initSprite 0 5 1 true false 2 16 8 with active := true, scale := { (Sprites.initSprite 0 5 1 true false 2 16 8).scale with v := 6144 } }

example : Scaled enlarged 2048 ∧ enlarged.scale.v ≠ 4096 := by
  refine ⟨?_, by decide⟩
  constructor <;> decide

/-- At 150% a character is 12 dots wide, at 200% 16, at 0% nothing is left. -/
example : (List.range 13).map (fun p : Nat => column 0 6144 false 2 p) =
      [some (0, 0), some (0, 1), some (0, 1), some (0, 2), some (0, 3), some (0, 3), some (0, 4), some (0, 5), some (0, 5), some (0, 6), some (0, 7), some (0, 7), some (1, 0)] ∧
    column 0 8192 false 2 17 = some (1, 0) ∧ column (4096 * 32) 8192 true 2 0 = some (1, 7) ∧ column 0 0 false 2 0 = none := by decide

end Sbc.Display
