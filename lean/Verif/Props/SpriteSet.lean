import Verif.Props.SpriteVars
set_option autoImplicit false
/-!
# C89: sprite commands set exactly the attributes they name
-/
namespace Sbc.Sprites
open Sbc

/-- Sprite `n` of the current screen has become `s`; nothing else has changed. -/
def Only (g g1 : Sprites) (n : Nat) (s : Sprite) : Prop :=
  spr g1 n = s ∧ (∀ p i, ¬ (p = g.page.toNat ∧ i = n) → g1.info p i = g.info p i) ∧ g1.page = g.page ∧ g1.sphitno = g.sphitno ∧
    g1.sphitx = g.sphitx ∧ g1.sphity = g.sphity ∧ g1.sphitt = g.sphitt

/-- The integer part of `v` is in the range. -/
def Int.within (v lo hi : Int) : Prop := lo ≤ fpToInt v ∧ fpToInt v ≤ hi

theorem ranged_in {g : Sprites} {v lo hi : Int} {k : Int → Res} (h : Int.within v lo hi) : ranged g v lo hi k = k (fpToInt v) := by
  unfold ranged; rw [if_neg (by have := h.1; have := h.2; omega)]

theorem ranged_out {g : Sprites} {v lo hi : Int} {k : Int → Res} (h : ¬ Int.within v lo hi) : ranged g v lo hi k = .ok (g, some .outOfRange) := by
  unfold ranged Int.within at *; rw [if_pos (by omega)]; rfl

theorem get_in {g : Sprites} (hp : PageOk g) {id : Int} (h : Int.within id 0 99) : g.get (fpToInt id) = .ok (spr g (fpToInt id).toNat) := by
  unfold Sprites.get spr Int.within PageOk maxSprites at *
  rw [if_pos (by omega)]

theorem set_only {g : Sprites} (id : Int) (s : Sprite) : Only g (g.set (fpToInt id) s) (fpToInt id).toNat s := by
  refine ⟨?_, ?_, rfl, rfl, rfl, rfl, rfl⟩
  · unfold spr Sprites.set upd
    simp
  · intro p i h
    show upd g.info g.page.toNat (upd (g.info g.page.toNat) (fpToInt id).toNat s) p i = _
    unfold upd
    by_cases h1 : p = g.page.toNat
    · by_cases h2 : i = (fpToInt id).toNat
      · exact absurd ⟨h1, h2⟩ h
      · simp [h1, h2]
    · simp [h1]

/-- **C89.** SPCHR with a character. -/
theorem C89_spchr (g : Sprites) (hp : PageOk g) (id c : Int) (hi : Int.within id 0 99) (hc : Int.within c 0 (if g.page ≠ 0 then 117 else 511)) :
    ∃ g1, cmdSpchr g id c none = .ok (g1, none) ∧
      Only g g1 (fpToInt id).toNat { spr g (fpToInt id).toNat with chr := (fpToInt c).toNat } := by
  refine ⟨_, ?_, set_only id _⟩
  unfold cmdSpchr
  rw [ranged_in hi, get_in hp hi]
  simp only [Out.bind]
  rw [ranged_in hc]
  rfl

/-- **C89.** SPCHR with character, palette, mirroring and priority. -/
theorem C89_spchr_all (g : Sprites) (hp : PageOk g) (id c pa h v pr : Int) (hi : Int.within id 0 99)
    (hc : Int.within c 0 (if g.page ≠ 0 then 117 else 511)) (h1 : Int.within pa 0 15) (h2 : Int.within h 0 1) (h3 : Int.within v 0 1)
    (h4 : Int.within pr 0 3) :
    ∃ g1, cmdSpchr g id c (some (pa, h, v, pr)) = .ok (g1, none) ∧
      Only g g1 (fpToInt id).toNat { spr g (fpToInt id).toNat with
        chr := (fpToInt c).toNat, pal := (fpToInt pa).toNat, flipX := decide (fpToInt h = 1), flipY := decide (fpToInt v = 1),
        prio := (fpToInt pr).toNat } := by
  have e1 : decide (fpToInt h = 1) = decide (fpToInt h ≠ 0) := by unfold Int.within at h2; congr 1; apply propext; omega
  have e2 : decide (fpToInt v = 1) = decide (fpToInt v ≠ 0) := by unfold Int.within at h3; congr 1; apply propext; omega
  rw [e1, e2]
  refine ⟨_, ?_, set_only id _⟩
  unfold cmdSpchr
  rw [ranged_in hi, get_in hp hi]
  simp only [Out.bind]
  rw [ranged_in hc]
  show ranged _ _ _ _ _ = _
  rw [ranged_in h1, ranged_in h2, ranged_in h3, ranged_in h4]
  rfl

/-- Size of a new sprite. -/
def sizeOf? (sz : Option (Int × Int)) : Nat × Nat := match sz with | none => (16, 16) | some p => ((fpToInt p.1).toNat, (fpToInt p.2).toNat)

private def wOf (sz : Option (Int × Int)) : Int := match sz with | none => 16 | some p => fpToInt p.1
private def hOf (sz : Option (Int × Int)) : Int := match sz with | none => 16 | some p => fpToInt p.2

/-- **C89.** SPSET makes a new sprite: 16 by 16 dots unless a size is given; at the left upper corner, not moved, not
scaled or turned, not animated, all eight variables zero, the whole sprite hitting all groups. -/
theorem C89_spset (g : Sprites) (hp : PageOk g) (id c pa h v pr : Int) (sz : Option (Int × Int)) (hi : Int.within id 0 99)
    (hc : Int.within c 0 (if g.page ≠ 0 then 117 else 512)) (h1 : Int.within pa 0 15) (h4 : Int.within pr 0 3)
    (hs : ∀ p ∈ sz, Int.within p.1 0 255 ∧ Int.within p.2 0 255) :
    ∃ g1 s, cmdSpset g id c pa h v pr sz = .ok (g1, none) ∧ Only g g1 (fpToInt id).toNat s ∧
      s.active = true ∧ s.chr = (fpToInt c).toNat ∧ s.pal = (fpToInt pa).toNat ∧ s.prio = (fpToInt pr).toNat ∧
      s.flipX = decide (fpToInt h ≠ 0) ∧ s.flipY = decide (fpToInt v ≠ 0) ∧ s.homeX = 0 ∧ s.homeY = 0 ∧
      (s.w, s.h) = sizeOf? sz ∧
      (s.pos.x, s.pos.y) = (0, 0) ∧ s.pos.time = -1 ∧ s.scale.v = 4096 ∧ s.scale.d = 0 ∧ s.angle.v = 0 ∧ s.angle.d = 0 ∧
      s.anim.forever = false ∧ s.anim.loop = 0 ∧ (∀ k, s.vars k = 0) ∧ s.hit.mask = 255 ∧ s.hit.adjust = false ∧
      (s.hit.x, s.hit.y, s.hit.dx, s.hit.dy) = (0, 0, 0, 0) ∧ s.hit.w = 4096 * s.w ∧ s.hit.h = 4096 * s.h := by
  unfold Int.within at h1 h4
  have hw : 0 ≤ wOf sz ∧ wOf sz ≤ 255 ∧ 0 ≤ hOf sz ∧ hOf sz ≤ 255 := by
    cases sz with
    | none => decide
    | some p => have := hs p rfl; unfold Int.within at this; exact ⟨this.1.1, this.1.2, this.2.1, this.2.2⟩
  have hcb : 0 ≤ fpToInt c ∧ fpToInt c ≤ 512 := by
    unfold Int.within at hc
    split at hc <;> omega
  refine ⟨_, initSprite (fpToInt id) (fpToInt c) (fpToInt pa) (decide (fpToInt h ≠ 0)) (decide (fpToInt v ≠ 0)) (fpToInt pr)
    (wOf sz) (hOf sz), ?_, set_only id _,
    rfl, ?_, ?_, ?_, rfl, rfl, rfl, rfl, ?_, rfl, rfl, rfl, rfl, rfl, rfl, rfl, rfl, fun _ => rfl, rfl, rfl, rfl, ?_, ?_⟩
  · unfold cmdSpset
    rw [ranged_in hi, ranged_in hc, ranged_in (v := pa) h1, ranged_in (v := pr) h4, get_in hp hi]
    cases sz <;> rfl
  · show (fpToInt c % 65536).toNat = _
    rw [Int.emod_eq_of_lt (by omega) (by omega)]
  · show (fpToInt pa % 256).toNat = _
    rw [Int.emod_eq_of_lt (by omega) (by omega)]
  · show (fpToInt pr % 256).toNat = _
    rw [Int.emod_eq_of_lt (by omega) (by omega)]
  · show ((wOf sz % 256).toNat, (hOf sz % 256).toNat) = _
    rw [Int.emod_eq_of_lt (by omega) (by omega), Int.emod_eq_of_lt (by omega) (by omega)]
    cases sz <;> rfl
  · show intToFp (wOf sz) = 4096 * ((wOf sz % 256).toNat : Int)
    rw [intToFp_small (by omega)]; omega
  · show intToFp (hOf sz) = 4096 * ((hOf sz % 256).toNat : Int)
    rw [intToFp_small (by omega)]; omega

/-- **C89.** SPHOME sets the home position, between -128 and 127. -/
theorem C89_sphome (g : Sprites) (hp : PageOk g) (id x y : Int) (hi : Int.within id 0 99) (ha : (spr g (fpToInt id).toNat).active = true)
    (hx : Int.within x (-128) 127) (hy : Int.within y (-128) 127) :
    ∃ g1, cmdSphome g id x y = .ok (g1, none) ∧
      Only g g1 (fpToInt id).toNat { spr g (fpToInt id).toNat with homeX := fpToInt x, homeY := fpToInt y } := by
  have hs8 : ∀ v, Int.within v (-128) 127 → s8 (fpToInt v % 256) = fpToInt v := by
    intro v h; unfold Int.within at h; unfold s8; omega
  refine ⟨_, ?_, set_only id _⟩
  unfold cmdSphome
  rw [ranged_in hi, get_in hp hi]
  show (if (spr g (fpToInt id).toNat).active = false then _ else _) = _
  rw [if_neg (by rw [ha]; simp), hs8 x hx, hs8 y hy]
  rfl

/-- **C89.** SPCOL sets the hit area, whether it is scaled, and the groups (all when left out). -/
theorem C89_spcol (g : Sprites) (hp : PageOk g) (id x y w h sc : Int) (gr : Option Int) (hi : Int.within id 0 99)
    (ha : (spr g (fpToInt id).toNat).active = true) (h1 : Int.within x (-128) 127) (h2 : Int.within y (-128) 127) (h3 : Int.within w 0 255)
    (h4 : Int.within h 0 255) (h5 : Int.within sc 0 1) (h6 : ∀ v, gr = some v → Int.within v 0 255) :
    ∃ g1, cmdSpcol g id x y w h sc gr = .ok (g1, none) ∧
      Only g g1 (fpToInt id).toNat { spr g (fpToInt id).toNat with hit := { (spr g (fpToInt id).toNat).hit with
        x := 4096 * fpToInt x, y := 4096 * fpToInt y, w := 4096 * fpToInt w, h := 4096 * fpToInt h, adjust := decide (fpToInt sc = 1),
        mask := match gr with | none => 255 | some v => (fpToInt v).toNat } } := by
  have e1 : decide (fpToInt sc = 1) = decide (fpToInt sc ≠ 0) := by unfold Int.within at h5; congr 1; apply propext; omega
  have e : ∀ v lo hi, -524288 ≤ lo → hi < 524288 → Int.within v lo hi → intToFp (fpToInt v) = 4096 * fpToInt v := by
    intro v lo hi a b h
    unfold Int.within at h
    rw [intToFp_small (by omega)]; omega
  rw [e1, ← e x _ _ (by decide) (by decide) h1, ← e y _ _ (by decide) (by decide) h2, ← e w _ _ (by decide) (by decide) h3,
    ← e h _ _ (by decide) (by decide) h4]
  refine ⟨_, ?_, set_only id _⟩
  unfold cmdSpcol
  rw [ranged_in hi, ranged_in h1, ranged_in h2, ranged_in h3, ranged_in h4, ranged_in h5]
  cases gr with
  | none =>
    dsimp only
    rw [get_in hp hi]
    show (if (spr g (fpToInt id).toNat).active = false then _ else _) = _
    rw [if_neg (by rw [ha]; simp)]
    rfl
  | some v =>
    dsimp only
    rw [ranged_in (h6 v rfl), get_in hp hi]
    show (if (spr g (fpToInt id).toNat).active = false then _ else _) = _
    rw [if_neg (by rw [ha]; simp)]
    rfl

/-- **C89.** SPCOLVEC sets the movement used for hits. -/
theorem C89_spcolvec (g : Sprites) (hp : PageOk g) (id x y : Int) (hi : Int.within id 0 99)
    (ha : (spr g (fpToInt id).toNat).active = true) (h1 : Int.within x (-128) 127) (h2 : Int.within y (-128) 127) :
    ∃ g1, cmdSpcolvec g id x y = .ok (g1, none) ∧
      Only g g1 (fpToInt id).toNat { spr g (fpToInt id).toNat with hit := { (spr g (fpToInt id).toNat).hit with
        dx := 4096 * fpToInt x, dy := 4096 * fpToInt y } } := by
  have e : ∀ v, Int.within v (-128) 127 → intToFp (fpToInt v) = 4096 * fpToInt v := by
    intro v h
    unfold Int.within at h
    rw [intToFp_small (by omega)]; omega
  rw [← e x h1, ← e y h2]
  refine ⟨_, ?_, set_only id _⟩
  unfold cmdSpcolvec
  rw [ranged_in hi, ranged_in h1, ranged_in h2, get_in hp hi]
  show (if (spr g (fpToInt id).toNat).active = false then _ else _) = _
  rw [if_neg (by rw [ha]; simp)]
  rfl

/-- **C89.** SPOFS, SPSCALE and SPANGLE without a time. -/
theorem C89_at_once (g : Sprites) (hp : PageOk g) (id : Int) (hi : Int.within id 0 99) (ha : (spr g (fpToInt id).toNat).active = true) :
    (∀ x y, ∃ g1, cmdSpofs g id x y none = .ok (g1, none) ∧ Only g g1 (fpToInt id).toNat { spr g (fpToInt id).toNat with
      pos := { (spr g (fpToInt id).toNat).pos with x := 4096 * fpToInt x, y := 4096 * fpToInt y, time := -1 } }) ∧
    (∀ s, Int.within id 0 31 → Int.within s 0 200 → ∃ g1, cmdSpscale g id s none = .ok (g1, none) ∧
      Only g g1 (fpToInt id).toNat { spr g (fpToInt id).toNat with
        scale := { (spr g (fpToInt id).toNat).scale with v := (4096 * fpToInt s) / 100, time := -1 } }) ∧
    (∀ a, ∃ g1, cmdSpangle g id a none = .ok (g1, none) ∧ Only g g1 (fpToInt id).toNat { spr g (fpToInt id).toNat with
      angle := { (spr g (fpToInt id).toNat).angle with v := 4096 * (fpToInt a).tmod 360, time := -1 } }) := by
  have hn : ¬ (spr g (fpToInt id).toNat).active = false := by rw [ha]; simp
  refine ⟨fun x y => ?_, fun s h32 hs => ?_, fun a => ?_⟩
  · rw [show 4096 * fpToInt x = x / 4096 * 4096 from Int.mul_comm _ _, show 4096 * fpToInt y = y / 4096 * 4096 from Int.mul_comm _ _]
    refine ⟨_, ?_, set_only id _⟩
    unfold cmdSpofs
    rw [ranged_in hi]
    dsimp only
    rw [get_in hp hi]
    show (if (spr g (fpToInt id).toNat).active = false then _ else _) = _
    rw [if_neg hn]
    rfl
  · have e : (4096 * fpToInt s) / 100 = (intToFp (fpToInt s)).tdiv 100 := by
      unfold Int.within at hs
      rw [intToFp_small (by omega), Int.tdiv_eq_ediv_of_nonneg (by omega)]
      congr 1; omega
    rw [e]
    refine ⟨_, ?_, set_only id _⟩
    unfold cmdSpscale
    rw [ranged_in h32, ranged_in hs]
    dsimp only
    rw [if_neg (by simp), get_in hp hi]
    show (if (spr g (fpToInt id).toNat).active = false then _ else _) = _
    rw [if_neg hn]
    rfl
  · have hb : -360 < (fpToInt a).tmod 360 ∧ (fpToInt a).tmod 360 < 360 := by
      constructor
      · exact Int.lt_tmod_of_pos _ (by decide)
      · exact Int.tmod_lt_of_pos _ (by decide)
    rw [show 4096 * (fpToInt a).tmod 360 = intToFp ((fpToInt a).tmod 360) by rw [intToFp_small (by omega)]; omega]
    refine ⟨_, ?_, set_only id _⟩
    unfold cmdSpangle
    rw [ranged_in hi, get_in hp hi]
    show (if (spr g (fpToInt id).toNat).active = false then _ else _) = _
    rw [if_neg hn]
    rfl

/-- **C89.** Arguments out of range: an error, nothing changed. -/
theorem C89_out_of_range (g : Sprites) (id a b c d e : Int) (hi : ¬ Int.within id 0 99) :
    cmdSpchr g id a none = .ok (g, some .outOfRange) ∧ cmdSpchr g id a (some (b, c, d, e)) = .ok (g, some .outOfRange) ∧
    cmdSphome g id a b = .ok (g, some .outOfRange) ∧ cmdSpcolvec g id a b = .ok (g, some .outOfRange) ∧
    cmdSpofs g id a b none = .ok (g, some .outOfRange) ∧ cmdSpangle g id a none = .ok (g, some .outOfRange) := by
  refine ⟨?_, ?_, ?_, ?_, ?_, ?_⟩
  · unfold cmdSpchr; exact ranged_out hi
  · unfold cmdSpchr; exact ranged_out hi
  · unfold cmdSphome; exact ranged_out hi
  · unfold cmdSpcolvec; exact ranged_out hi
  · unfold cmdSpofs; exact ranged_out hi
  · unfold cmdSpangle; exact ranged_out hi

/-- A sprite. -/
def oneSprite : Sprites := init.set 3 (initSprite 3 5 2 false false 0 16 16)

example : PageOk oneSprite ∧ Int.within (3 * 4096) 0 99 ∧ (spr oneSprite (fpToInt (3 * 4096)).toNat).active = true ∧
    Int.within (-100 * 4096) (-128) 127 := by unfold Int.within PageOk; decide

/-- **C89** is violated by SPREAD: after `SPCHR 3,7` it reads the character as 7/4096 (the smallest fractions of a
number), and after `SPSCALE 3,150` the scale as 1.5. -/
theorem C89_spread_violated :
    ((cmdSpchr oneSprite (3 * 4096) (7 * 4096) none).bind fun r => (cmdSpread r.1 (3 * 4096)).bind fun l => .ok l.getLast?) = .ok (some 7) ∧
    ((cmdSpscale oneSprite (3 * 4096) (150 * 4096) none).bind fun r => (cmdSpread r.1 (3 * 4096)).bind fun l => .ok l[3]?) = .ok (some 6144) := by
  decide +kernel

/-- **C89** is violated by SPHOME for positions out of range: they are accepted and wrap around. -/
theorem C89_sphome_violated :
    ((cmdSphome oneSprite (3 * 4096) (200 * 4096) 0).bind fun r => .ok (r.2, (spr r.1 3).homeX)) = .ok (none, -56) := by decide +kernel

/-- What SPREAD gets right: the position and the angle. -/
theorem C89_spread_partial (g : Sprites) (hp : PageOk g) (id : Int) (hi : Int.within id 0 99)
    (hx : I32 (spr g (fpToInt id).toNat).pos.x) (hy : I32 (spr g (fpToInt id).toNat).pos.y) :
    ∃ sc c, cmdSpread g id = .ok [4096 * fpToInt (spr g (fpToInt id).toNat).pos.x, 4096 * fpToInt (spr g (fpToInt id).toNat).pos.y,
      (spr g (fpToInt id).toNat).angle.v, sc, c] := by
  refine ⟨(spr g (fpToInt id).toNat).scale.v, (spr g (fpToInt id).toNat).chr, ?_⟩
  unfold cmdSpread
  rw [if_neg (by unfold Int.within at hi; omega), get_in hp hi]
  generalize spr g (fpToInt id).toNat = s at *
  show Out.ok _ = _
  have e : ∀ v, I32 v → intToFp (fpToInt v) = 4096 * fpToInt v := by
    intro v h; unfold I32 at h; rw [intToFp_small (by unfold fpToInt; omega), Int.mul_comm]
  rw [e _ hx, e _ hy]

/-- **C89** is violated by SPCHK: a sprite just made by SPSET is reported as turning and being scaled. -/
theorem C89_spchk_violated :
    ((cmdSpset init (3 * 4096) 0 0 0 0 0 none).bind fun r => funcSpchk r.1 (3 * 4096)) = .ok (6 * 4096) := by decide +kernel

end Sbc.Sprites
