import Verif.Props.Sprites
set_option autoImplicit false
/-!
# C56 (sprite variables), C57 (animation), C58 (commands need an existing sprite), C59 (timed scaling and turning)
-/
namespace Sbc.Sprites
open Sbc

/-! ## C56: SPSETV and SPGETV -/

theorem stepSprite_vars {s s' : Sprite} {fl : Bool} (h : stepSprite s = .ok (s', fl)) : s'.vars = s.vars ∧ s'.active = s.active := by
  obtain ⟨h1, h2⟩ := C49_sprite s s' fl h
  cases ha : s.active with
  | false => rw [(h1 ha).1]; exact ⟨rfl, ha⟩
  | true => rw [(h2 ha).1]; exact ⟨rfl, ha⟩

theorem stepSprites_vars {g g' : Sprites} (h : stepSprites g = .ok g') :
    g'.page = g.page ∧ ∀ p i, p < 2 → (g'.info p i).vars = (g.info p i).vars ∧ (g'.info p i).active = (g.info p i).active := by
  obtain ⟨h1, -, h2⟩ := C49_exact g g' h
  refine ⟨h1, fun p i hp => ?_⟩
  obtain ⟨m, m1, m2, m3, m4⟩ := h2 p hp
  by_cases hi : m ≤ i
  · rw [m2 i hi]; exact ⟨rfl, rfl⟩
  · rcases m4 with ⟨k1, k2⟩ | ⟨k1, k2⟩
    · exact stepSprite_vars (k2 i (by omega))
    · by_cases he : i = m - 1
      · rw [he]; exact stepSprite_vars k2
      · exact stepSprite_vars (m3 i (by omega))

theorem frames_vars : ∀ (n : Nat) (g g' : Sprites), frames n g = .ok g' →
    g'.page = g.page ∧ ∀ p i, p < 2 → (g'.info p i).vars = (g.info p i).vars ∧ (g'.info p i).active = (g.info p i).active := by
  intro n
  induction n with
  | zero => intro g g' h; rw [frames] at h; cases h; exact ⟨rfl, fun _ _ _ => ⟨rfl, rfl⟩⟩
  | succ n ih =>
    intro g g' h
    rw [frames] at h
    obtain ⟨g1, h1, h2⟩ := bind_inv h
    obtain ⟨a1, a2⟩ := stepSprites_vars h1
    obtain ⟨b1, b2⟩ := ih g1 g' h2
    exact ⟨b1.trans a1, fun p i hp => ⟨(b2 p i hp).1.trans (a2 p i hp).1, (b2 p i hp).2.trans (a2 p i hp).2⟩⟩

/-- SPSETV then SPGETV (C56): the value is read back, also any number of frames later; every other variable of every
sprite keeps its value. -/
theorem C56_setv_getv (g g1 g2 : Sprites) (hp : PageOk g) (id ix v : Int) (h : cmdSpsetv g id ix v = .ok (g1, none)) (n : Nat) (hf : frames n g1 = .ok g2) :
    funcSpgetv g2 id ix = .ok v ∧
    ∀ p i k, p < 2 → ¬ (p = g.page.toNat ∧ i = (fpToInt id).toNat ∧ k = (fpToInt ix).toNat) → (g2.info p i).vars k = (g.info p i).vars k := by
  unfold cmdSpsetv ranged at h
  by_cases h1 : fpToInt id < 0 ∨ fpToInt id > 99
  · rw [if_pos h1] at h; cases h
  rw [if_neg h1] at h
  simp only [] at h
  by_cases h2 : fpToInt ix < 0 ∨ fpToInt ix > 7
  · rw [if_pos h2] at h; cases h
  rw [if_neg h2, get_ok hp (by omega) (by omega)] at h
  simp only [Out.bind] at h
  by_cases h3 : (spr g (fpToInt id).toNat).active = false
  · rw [if_pos h3] at h; cases h
  rw [if_neg h3] at h
  have e : g1 = g.set (fpToInt id) { spr g (fpToInt id).toNat with vars := upd (spr g (fpToInt id).toNat).vars (fpToInt ix).toNat v } := by
    cases h; rfl
  obtain ⟨f1, f2⟩ := frames_vars n g1 g2 hf
  have pg : g1.page = g.page := by rw [e]; rfl
  have hp2 : PageOk g2 := by unfold PageOk; rw [f1, pg]; exact hp
  have hpn : g.page.toNat < 2 := by have := hp.1; have := hp.2; omega
  constructor
  · unfold funcSpgetv
    rw [if_neg h1, if_neg h2, get_ok hp2 (by omega) (by omega)]
    simp only [Out.bind]
    have k := f2 g.page.toNat (fpToInt id).toNat hpn
    rw [e, set_info, if_pos ⟨rfl, rfl⟩] at k
    simp only [] at k
    have hs : spr g2 (fpToInt id).toNat = g2.info g.page.toNat (fpToInt id).toNat := by unfold spr; rw [f1, pg]
    rw [hs, k.1, k.2, if_neg h3, upd_same]
  · intro p i k hpp hne
    rw [(f2 p i hpp).1, e, set_info]
    split
    · rename_i hh
      rw [hh.1, hh.2]
      exact upd_other _ _ (fun hk => hne ⟨hh.1, hh.2, hk⟩)
    · rfl

/-- A new sprite starts with all variables 0 (C56). -/
theorem C56_new (g g1 : Sprites) (hp : PageOk g) (id c pa fx fy pr : Int) (sz : Option (Int × Int)) (h : cmdSpset g id c pa fx fy pr sz = .ok (g1, none))
    (ix : Int) (hx : 0 ≤ fpToInt ix ∧ fpToInt ix ≤ 7) : funcSpgetv g1 id ix = .ok 0 := by
  unfold cmdSpset ranged at h
  by_cases h1 : fpToInt id < 0 ∨ fpToInt id > 99
  · rw [if_pos h1] at h; cases h
  rw [if_neg h1] at h
  beta_reduce at h
  by_cases h2 : fpToInt c < 0 ∨ fpToInt c > (if g.page ≠ 0 then 117 else 512)
  · rw [if_pos h2] at h; cases h
  rw [if_neg h2] at h
  beta_reduce at h
  by_cases h3 : fpToInt pa < 0 ∨ fpToInt pa > 15
  · rw [if_pos h3] at h; cases h
  rw [if_neg h3] at h
  beta_reduce at h
  by_cases h4 : fpToInt pr < 0 ∨ fpToInt pr > 3
  · rw [if_pos h4] at h; cases h
  rw [if_neg h4, get_ok hp (by omega) (by omega)] at h
  have hx' : ¬ (fpToInt ix < 0 ∨ fpToInt ix > 7) := by omega
  have key : ∀ s : Sprite, s.active = true → s.vars = (fun _ => 0) → (fin (g.set (fpToInt id) s)) = .ok (g1, none) → funcSpgetv g1 id ix = .ok 0 := by
    intro s ha hv hh
    cases hh
    unfold funcSpgetv
    rw [if_neg h1, if_neg hx', get_ok (g := g.set _ s) hp (by omega) (by omega)]
    simp only [Out.bind]
    have : spr (g.set (fpToInt id) s) (fpToInt id).toNat = s := by
      change (g.set _ s).info g.page.toNat _ = s
      rw [set_info, if_pos ⟨rfl, rfl⟩]
    rw [this, ha, hv]
    rfl
  cases sz with
  | none => exact key (initSprite _ _ _ _ _ _ _ _) rfl rfl h
  | some wh => exact key (initSprite _ _ _ _ _ _ _ _) rfl rfl h

/-! ## C58: commands on sprites that do not exist -/

/-- After SPCLR there is no sprite; after SPSET there is one. -/
theorem C58_spclr (g : Sprites) (hp : PageOk g) (id : Int) (i0 : 0 ≤ fpToInt id) (i1 : fpToInt id ≤ 99) :
    ∃ g1, cmdSpclr g (some id) = .ok (g1, none) ∧ (spr g1 (fpToInt id).toNat).active = false ∧
      ∀ p i, ¬ (p = g.page.toNat ∧ i = (fpToInt id).toNat) → g1.info p i = g.info p i := by
  refine ⟨_, by unfold cmdSpclr; simp only []; rw [get_ok hp i0 i1]; rfl, ?_, ?_⟩
  · change ((g.set _ _).info g.page.toNat (fpToInt id).toNat).active = _
    rw [set_info, if_pos ⟨rfl, rfl⟩]
  · intro p i hn
    rw [set_info, if_neg hn]

/-- SPCLR without argument removes every sprite of the page and none of the other page. -/
theorem C58_spclr_all (g : Sprites) (hp : PageOk g) :
    ∃ g1, cmdSpclr g none = .ok (g1, none) ∧ (∀ i, i < 100 → (spr g1 i).active = false) ∧ ∀ p i, p ≠ g.page.toNat → g1.info p i = g.info p i := by
  have key : ∀ (n : Nat) (f : Nat → Sprite) (i : Nat), (i < n → (clearAll n f i).active = false) := by
    intro n
    induction n with
    | zero => intro f i h; omega
    | succ n ih =>
      intro f i h
      rw [clearAll]
      simp only []
      by_cases hi : i = n
      · rw [hi, upd_same]
      · rw [upd_other _ _ hi]; exact ih f i (by omega)
  refine ⟨_, by unfold cmdSpclr; simp only []; rw [get_ok hp (by omega) (by omega)]; rfl, ?_, ?_⟩
  · intro i hi
    unfold spr
    simp only []
    rw [upd_same]
    exact key _ _ _ hi
  · intro p i hn
    simp only []
    rw [upd_other _ _ hn]

/-- The command reports an error and leaves the sprites as they were. -/
def Refused (g : Sprites) (r : Res) : Prop := ∃ e, r = .ok (g, some e)

theorem ranged_refused {g : Sprites} {v lo hi : Int} {k : Int → Res} (h : Refused g (k (fpToInt v))) : Refused g (ranged g v lo hi k) := by
  unfold ranged
  split
  · exact ⟨_, rfl⟩
  · exact h

theorem get_refused {g : Sprites} (hp : PageOk g) {id : Int} (i0 : 0 ≤ id) (i1 : id ≤ 99) (ha : (spr g id.toNat).active = false) {k : Sprite → Res} :
    Refused g ((g.get id).bind fun s => if s.active = false then fail g .illegalFunctionCall else k s) := by
  rw [get_ok hp i0 i1]
  simp only [Out.bind]
  rw [if_pos ha]
  exact ⟨_, rfl⟩

/-- Commands that need the sprite (C58): on a sprite that does not exist SPOFS, SPSETV, SPCOL, SPCOLVEC, SPHOME, SPANGLE
(and SPSCALE) report an error and change nothing, SPGETV reports Illegal function call. -/
theorem C58_refused_partial (g : Sprites) (hp : PageOk g) (id : Int) (i0 : 0 ≤ fpToInt id) (i1 : fpToInt id ≤ 99) (ha : (spr g (fpToInt id).toNat).active = false) :
    (∀ x y t, Refused g (cmdSpofs g id x y t)) ∧ (∀ k v, Refused g (cmdSpsetv g id k v)) ∧ (∀ x y w h s m, Refused g (cmdSpcol g id x y w h s m)) ∧
    (∀ x y, Refused g (cmdSpcolvec g id x y)) ∧ (∀ x y, Refused g (cmdSphome g id x y)) ∧ (∀ a t, Refused g (cmdSpangle g id a t)) ∧
    (∀ s t, Refused g (cmdSpscale g id s t)) ∧ (∀ k, 0 ≤ fpToInt k ∧ fpToInt k ≤ 7 → funcSpgetv g id k = .err .illegalFunctionCall) := by
  refine ⟨?_, ?_, ?_, ?_, ?_, ?_, ?_, ?_⟩
  · intro x y t
    exact ranged_refused (get_refused hp i0 i1 ha)
  · intro k v
    exact ranged_refused (ranged_refused (get_refused hp i0 i1 ha))
  · intro x y w h s m
    refine ranged_refused (ranged_refused (ranged_refused (ranged_refused (ranged_refused (ranged_refused ?_)))))
    cases m with
    | none => exact get_refused hp i0 i1 ha
    | some m => exact ranged_refused (get_refused hp i0 i1 ha)
  · intro x y
    exact ranged_refused (ranged_refused (ranged_refused (get_refused hp i0 i1 ha)))
  · intro x y
    exact ranged_refused (get_refused hp i0 i1 ha)
  · intro a t
    exact ranged_refused (get_refused hp i0 i1 ha)
  · intro s t
    refine ranged_refused (ranged_refused ?_)
    beta_reduce
    cases t with
    | none => exact get_refused hp i0 i1 ha
    | some t =>
      simp only [decide_eq_true_eq]
      by_cases ht : t < 0
      · rw [if_pos ht]; exact ⟨.outOfRange, rfl⟩
      · rw [if_neg ht]; exact get_refused hp i0 i1 ha
  · intro k hk
    have h1 : ¬ (fpToInt id < 0 ∨ fpToInt id > 99) := by omega
    have h2 : ¬ (fpToInt k < 0 ∨ fpToInt k > 7) := by omega
    unfold funcSpgetv
    rw [if_neg h1, if_neg h2, get_ok hp i0 i1]
    simp only [Out.bind]
    rw [if_pos ha]

/-- SPCHR and SPANIM accept a sprite that does not exist. -/
theorem C58_violated : ((cmdSpchr init 0 (4096 * 5) none).bind fun r => .ok (r.2, (spr r.1 0).chr, (spr r.1 0).active)) = .ok (none, 5, false) ∧
    ((cmdSpanim init 0 4096 4096 none).bind fun r => .ok (r.2, (spr r.1 0).anim.forever, (spr r.1 0).active)) = .ok (none, true, false) := by
  constructor <;> decide +kernel

/-- SPCLR and SPPAGE do not check their arguments: the array of sprites is accessed outside its bounds. -/
theorem C58_bounds_violated : ((cmdSpclr init (some (100 * 4096))).bind fun r => .ok r.2) = .ub ∧
    ((cmdSppage init (5 * 4096)).bind fun r => (cmdSpset r.1 0 0 0 0 0 0 none).bind fun r => .ok r.2) = .ub := by
  constructor <;> decide +kernel

/-- SPSCALE refuses the sprites 32 to 99. -/
theorem C58_spscale_violated : ((cmdSpset init (32 * 4096) 0 0 0 0 0 none).bind fun r => (cmdSpscale r.1 (32 * 4096) (100 * 4096) none).bind fun r => .ok r.2) =
    .ok (some .outOfRange) := by decide +kernel

/-! ## C57: animation -/

/-- `n` frames of one sprite. -/
def spriteFrames : Nat → Sprite → Out Sprite
  | 0, s => .ok s
  | n + 1, s => (spriteFrames n s).bind fun s => (stepSprite s).bind fun r => .ok r.1

/-- The distance between the characters of an animation: one per 256 dots of the sprite. -/
def chrStep (s : Sprite) : Int := if s.w * s.h / 256 < 1 then 1 else ((s.w * s.h / 256 : Nat) : Int)

/-- One frame of the animation part, with everything in range. -/
theorem stepAnim_eq {s : Sprite} {n t k : Int} (hw : s.w < 256) (hh : s.h < 256) (hc : s.chr < 65536) (hn : 1 ≤ n ∧ n ≤ 524287) (ht : 1 ≤ t ∧ t ≤ 524287)
    (e1 : s.anim.chrs = n) (e2 : s.anim.framesPerChr = t) (e3 : s.anim.forever = true ∨ s.anim.loop > 0) {a : Int} (f0 : 0 ≤ s.anim.frame ∧ s.anim.frame < t)
    (a0 : 0 ≤ a ∧ a < n) (ea : s.anim.chr = s.chr + chrStep s * a) (_hk : s.anim.loop = k) :
    stepAnim s = .ok (
      if s.anim.frame + 1 < t then ({ s with anim := { s.anim with frame := s.anim.frame + 1 } }, false)
      else if a + 1 < n then ({ s with anim := { s.anim with frame := 0, chr := s.chr + chrStep s * (a + 1) } }, false)
      else if s.anim.forever = true then ({ s with anim := { s.anim with frame := 0, chr := s.chr } }, false)
      else if s.anim.loop = 1 then ({ s with anim := { s.anim with frame := 0, chr := s.chr + chrStep s * a, loop := 0 } }, true)
      else ({ s with anim := { s.anim with frame := 0, chr := s.chr, loop := s.anim.loop - 1 } }, false)) := by
  have hs : 1 ≤ chrStep s ∧ chrStep s ≤ 254 := by
    unfold chrStep
    have : s.w * s.h ≤ 255 * 255 := Nat.mul_le_mul (by omega) (by omega)
    split <;> omega
  have hprod : 0 ≤ chrStep s * a ∧ chrStep s * a ≤ 254 * 524287 := by
    constructor
    · exact mul_nonneg (by omega) a0.1
    · exact mul_le_mul hs.2 (by omega) a0.1 (by omega)
  unfold stepAnim
  rw [if_pos e3, add32_ok (by unfold I32; omega)]
  simp only [Out.bind]
  by_cases hf : s.anim.frame + 1 < t
  · rw [if_pos hf, e2, if_neg (by omega)]
  rw [if_neg hf, e2, if_pos (by omega)]
  rw [show (if s.w * s.h / 256 < 1 then (1 : Int) else ((s.w * s.h / 256 : Nat) : Int)) = chrStep s from rfl]
  have ec : s.anim.chr + chrStep s = s.chr + chrStep s * (a + 1) := by rw [ea]; ring
  have eb : chrStep s * (a + 1) = chrStep s * a + chrStep s := by ring
  rw [add32_ok (by unfold I32; omega)]
  simp only []
  rw [add32_ok (by unfold I32; omega)]
  simp only []
  have ed : s.anim.chr + chrStep s + -(s.chr : Int) = chrStep s * (a + 1) := by omega
  rw [ed, Int.mul_tdiv_cancel_left _ (by omega), e1]
  by_cases ha : a + 1 < n
  · rw [if_neg (by omega), if_pos ha, ec]
  rw [if_pos (by omega), if_neg ha]
  by_cases hfo : s.anim.forever = true
  · rw [if_pos hfo]
    simp only [hfo, Bool.true_eq_false, false_and, if_false]
  · have hfo' : s.anim.forever = false := by simpa using hfo
    rw [if_neg hfo]
    simp only [hfo', true_and, if_true]
    by_cases hl : s.anim.loop = 1
    · rw [if_pos (by omega), if_pos hl]
      rw [add32_ok (by unfold I32; omega)]
      simp only []
      rw [show s.anim.chr + chrStep s + -chrStep s = s.chr + chrStep s * a by omega, hl]
      rfl
    · rw [if_neg (by omega), if_neg hl]

/-- A sprite right after `SPANIM id,n,t,k`. -/
structure Started (s : Sprite) (n t k : Int) : Prop where
  act : s.active = true
  w : s.w < 256
  h : s.h < 256
  c : s.chr < 65536
  hn : 1 ≤ n ∧ n ≤ 524287
  ht : 1 ≤ t ∧ t ≤ 524287
  hk : 0 ≤ k
  chrs : s.anim.chrs = n
  per : s.anim.framesPerChr = t
  loop : s.anim.loop = k
  fo : s.anim.forever = decide (k = 0)
  frame : s.anim.frame = 0
  chr : s.anim.chr = s.chr

/-- Invariant: `m` frames after SPANIM. -/
structure After (s0 s : Sprite) (n t k : Int) (m : Nat) : Prop where
  act : s.active = true
  w : s.w = s0.w
  h : s.h = s0.h
  c : s.chr = s0.chr
  chrs : s.anim.chrs = n
  per : s.anim.framesPerChr = t
  fo : s.anim.forever = decide (k = 0)
  run : k = 0 ∨ m < k * n * t → s.anim.frame = m % t ∧ s.anim.chr = s0.chr + chrStep s0 * (m / t % n) ∧
    s.anim.loop = if k = 0 then 0 else k - m / t / n
  fin : k ≠ 0 → k * n * t ≤ m → s.anim.loop = 0 ∧ s.anim.chr = s0.chr + chrStep s0 * (n - 1)

theorem divmod_step {m t : Int} (_hm : 0 ≤ m) (ht : 1 ≤ t) :
    (m % t + 1 < t → (m + 1) % t = m % t + 1 ∧ (m + 1) / t = m / t) ∧ (¬ m % t + 1 < t → (m + 1) % t = 0 ∧ (m + 1) / t = m / t + 1) := by
  have h1 := Int.emod_nonneg m (show t ≠ 0 by omega)
  have h2 := Int.emod_lt_of_pos m (show 0 < t by omega)
  have h3 := Int.emod_add_mul_ediv m t
  constructor
  · intro h
    have e : m + 1 = (m % t + 1) + t * (m / t) := by omega
    constructor
    · rw [e, Int.add_mul_emod_self_left]; exact Int.emod_eq_of_lt (by omega) h
    · have : (m + 1) / t = ((m % t + 1) + t * (m / t)) / t := by rw [← e]
      rw [this, Int.add_mul_ediv_left _ _ (by omega), Int.ediv_eq_zero_of_lt (by omega) h]; omega
  · intro h
    have e : m + 1 = 0 + t * (m / t + 1) := by rw [mul_add, mul_one]; omega
    constructor
    · rw [e, Int.add_mul_emod_self_left]; rfl
    · have : (m + 1) / t = (0 + t * (m / t + 1)) / t := by rw [← e]
      rw [this, Int.add_mul_ediv_left _ _ (by omega)]; simp

theorem lt_iff_div {m n t k : Int} (hn : 1 ≤ n) (ht : 1 ≤ t) : m < k * n * t ↔ m / t / n < k := by
  rw [Int.ediv_lt_iff_lt_mul (by omega), Int.ediv_lt_iff_lt_mul (by omega)]

theorem stepSprite_anim {s s' : Sprite} {fl : Bool} (ha : s.active = true) (h : stepSprite s = .ok (s', fl)) :
    ∃ s1, stepAnim s1 = .ok (s', fl) ∧ s1.active = true ∧ s1.w = s.w ∧ s1.h = s.h ∧ s1.chr = s.chr ∧ s1.anim = s.anim := by
  unfold stepSprite at h
  rw [if_neg (by rw [ha]; simp)] at h
  obtain ⟨a, -, h⟩ := bind_inv h
  obtain ⟨b, -, h⟩ := bind_inv h
  obtain ⟨c, -, h⟩ := bind_inv h
  exact ⟨_, h, ha, rfl, rfl, rfl, rfl⟩

theorem after_step {s0 s s' : Sprite} {fl : Bool} {n t k : Int} (h0 : Started s0 n t k) {m : Nat} (hi : After s0 s n t k m) (h : stepSprite s = .ok (s', fl)) :
    After s0 s' n t k (m + 1) ∧ (fl = true ↔ k ≠ 0 ∧ (m : Int) + 1 = k * n * t) := by
  obtain ⟨s1, h1, a1, a2, a3, a4, a5⟩ := stepSprite_anim hi.act h
  have hn := h0.hn
  have ht := h0.ht
  have hk := h0.hk
  have hm0 : (0 : Int) ≤ m := by omega
  have cs : chrStep s1 = chrStep s0 := by unfold chrStep; rw [a2, a3, hi.w, hi.h]
  have hcast : ((m + 1 : Nat) : Int) = (m : Int) + 1 := by omega
  by_cases hr : k = 0 ∨ (m : Int) < k * n * t
  · obtain ⟨r1, r2, r3⟩ := hi.run hr
    have b1 := Int.emod_nonneg (m : Int) (show t ≠ 0 by omega)
    have b2 := Int.emod_lt_of_pos (m : Int) (show 0 < t by omega)
    have b3 := Int.emod_nonneg ((m : Int) / t) (show n ≠ 0 by omega)
    have b4 := Int.emod_lt_of_pos ((m : Int) / t) (show 0 < n by omega)
    have hq : (0 : Int) ≤ (m : Int) / t := Int.ediv_nonneg hm0 (by omega)
    have hq2 : (0 : Int) ≤ (m : Int) / t / n := Int.ediv_nonneg hq (by omega)
    have hlt : k ≠ 0 → (m : Int) / t / n < k := fun hk0 => (lt_iff_div hn.1 ht.1).1 (hr.resolve_left hk0)
    have hrun : s1.anim.forever = true ∨ s1.anim.loop > 0 := by
      rw [a5, hi.fo, r3]
      by_cases hk0 : k = 0
      · left; simpa using hk0
      · right; rw [if_neg hk0]; have := hlt hk0; omega
    have key := stepAnim_eq (s := s1) (n := n) (t := t) (k := s1.anim.loop) (a := (m : Int) / t % n) (by rw [a2, hi.w]; exact h0.w) (by rw [a3, hi.h]; exact h0.h)
      (by rw [a4, hi.c]; exact h0.c) hn ht (by rw [a5]; exact hi.chrs) (by rw [a5]; exact hi.per) hrun (by rw [a5, r1]; exact ⟨b1, b2⟩) ⟨b3, b4⟩
      (by rw [cs, a5, r2, a4, hi.c]) rfl
    rw [h1] at key
    injection key with key
    obtain ⟨d1, d2⟩ := divmod_step hm0 ht.1
    obtain ⟨q1, q2⟩ := divmod_step (m := (m : Int) / t) (t := n) hq hn.1
    have base : ∀ an : Anim, an.chrs = n → an.framesPerChr = t → an.forever = decide (k = 0) →
        (k = 0 ∨ (m : Int) + 1 < k * n * t → an.frame = ((m : Int) + 1) % t ∧ an.chr = s0.chr + chrStep s0 * (((m : Int) + 1) / t % n) ∧ an.loop = if k = 0 then 0 else k - ((m : Int) + 1) / t / n) →
        (k ≠ 0 → k * n * t ≤ (m : Int) + 1 → an.loop = 0 ∧ an.chr = s0.chr + chrStep s0 * (n - 1)) →
        After s0 { s1 with anim := an } n t k (m + 1) := by
      intro an x1 x2 x3 x4 x5
      refine ⟨a1, ?_, ?_, ?_, x1, x2, x3, ?_, ?_⟩
      · change s1.w = _; rw [a2, hi.w]
      · change s1.h = _; rw [a3, hi.h]
      · change s1.chr = _; rw [a4, hi.c]
      · rw [hcast]; exact x4
      · rw [hcast]; exact x5
    have ef : s1.anim.frame = (m : Int) % t := by rw [a5, r1]
    have el : s1.anim.loop = if k = 0 then 0 else k - (m : Int) / t / n := by rw [a5, r3]
    have efo : s1.anim.forever = decide (k = 0) := by rw [a5, hi.fo]
    have ech : s1.chr = s0.chr := by rw [a4, hi.c]
    have eac : s1.anim.chrs = n := by rw [a5, hi.chrs]
    have eap : s1.anim.framesPerChr = t := by rw [a5, hi.per]
    rw [ef] at key
    have notend : ∀ (x : Int), ((m : Int) + 1) / t / n = x → x < k → k ≠ 0 → ¬ k * n * t ≤ (m : Int) + 1 := by
      intro x hx hxk hk0 hle
      have := (lt_iff_div (m := (m : Int) + 1) (k := k) hn.1 ht.1).2 (by omega)
      omega
    by_cases c1 : (m : Int) % t + 1 < t
    · rw [if_pos c1] at key
      obtain ⟨d3, d4⟩ := d1 c1
      cases key
      refine ⟨base _ eac eap efo ?_ ?_, ?_⟩
      · intro _
        refine ⟨d3.symm, ?_, ?_⟩
        · simp only []; rw [d4, a5, r2]
        · simp only []; rw [d4]; exact el
      · intro hk0 hle
        exact absurd hle (notend _ (by rw [d4]) (hlt hk0) hk0)
      · simp only [Bool.false_eq_true, false_iff]
        rintro ⟨hk0, he⟩
        exact absurd (le_of_eq he.symm) (notend _ (by rw [d4]) (hlt hk0) hk0)
    · rw [if_neg c1] at key
      obtain ⟨d3, d4⟩ := d2 c1
      by_cases c2 : (m : Int) / t % n + 1 < n
      · rw [if_pos c2] at key
        obtain ⟨q3, q4⟩ := q1 c2
        cases key
        refine ⟨base _ eac eap efo ?_ ?_, ?_⟩
        · intro _
          refine ⟨d3.symm, ?_, ?_⟩
          · simp only []; rw [d4, q3, cs, ech]
          · simp only []; rw [d4, q4]; exact el
        · intro hk0 hle
          exact absurd hle (notend _ (by rw [d4, q4]) (hlt hk0) hk0)
        · simp only [Bool.false_eq_true, false_iff]
          rintro ⟨hk0, he⟩
          exact absurd (le_of_eq he.symm) (notend _ (by rw [d4, q4]) (hlt hk0) hk0)
      · rw [if_neg c2] at key
        obtain ⟨q3, q4⟩ := q2 c2
        by_cases c3 : k = 0
        · rw [if_pos (by rw [efo]; simpa using c3)] at key
          cases key
          refine ⟨base _ eac eap efo ?_ (fun hk0 => absurd c3 hk0), ?_⟩
          · intro _
            refine ⟨d3.symm, ?_, ?_⟩
            · simp only []; rw [d4, q3, ech]; omega
            · simp only []; rw [el, if_pos c3, if_pos c3]
          · simp only [Bool.false_eq_true, false_iff]
            rintro ⟨hk0, -⟩
            exact hk0 c3
        · rw [if_neg (by rw [efo]; simpa using c3)] at key
          have hl := hlt c3
          by_cases c4 : s1.anim.loop = 1
          · rw [if_pos c4] at key
            rw [el, if_neg c3] at c4
            have hge : ¬ (m : Int) + 1 < k * n * t := by
              rw [lt_iff_div hn.1 ht.1, d4, q4]; omega
            have hlt' := hr.resolve_left c3
            cases key
            refine ⟨base _ eac eap efo ?_ ?_, ?_⟩
            · rintro (hk0 | hk0)
              · exact absurd hk0 c3
              · exact absurd hk0 hge
            · intro _ _
              refine ⟨rfl, ?_⟩
              simp only []
              rw [cs, ech]
              have : (m : Int) / t % n = n - 1 := by omega
              rw [this]
            · simp only [true_iff]
              exact ⟨c3, by omega⟩
          · rw [if_neg c4] at key
            rw [el, if_neg c3] at c4
            cases key
            refine ⟨base _ eac eap efo ?_ ?_, ?_⟩
            · intro _
              refine ⟨d3.symm, ?_, ?_⟩
              · simp only []; rw [d4, q3, ech]; omega
              · simp only []; rw [el, if_neg c3, if_neg c3, d4, q4]; omega
            · intro hk0 hle
              exact absurd hle (notend _ (by rw [d4, q4]) (by omega) hk0)
            · simp only [Bool.false_eq_true, false_iff]
              rintro ⟨hk0, he⟩
              exact absurd (le_of_eq he.symm) (notend _ (by rw [d4, q4]) (by omega) hk0)
  · have hk0 : k ≠ 0 := fun hh => hr (Or.inl hh)
    have hge : k * n * t ≤ (m : Int) := by
      by_contra hh
      exact hr (Or.inr (by omega))
    obtain ⟨r1, r2⟩ := hi.fin hk0 hge
    have stop : stepAnim s1 = .ok (s1, false) := by
      unfold stepAnim
      rw [if_neg]
      rw [a5, hi.fo, r1]
      simp [hk0]
    rw [h1] at stop
    injection stop with stop
    cases stop
    refine ⟨⟨a1, by rw [a2, hi.w], by rw [a3, hi.h], by rw [a4, hi.c], by rw [a5, hi.chrs], by rw [a5, hi.per], by rw [a5, hi.fo], ?_, ?_⟩, ?_⟩
    · rw [hcast]
      rintro (hh | hh)
      · exact absurd hh hk0
      · omega
    · rw [a5]
      intro _ _
      exact ⟨r1, r2⟩
    · simp only [Bool.false_eq_true, false_iff]
      rintro ⟨-, he⟩
      omega

theorem after_frames {s0 : Sprite} {n t k : Int} (h0 : Started s0 n t k) : ∀ (m : Nat) (s : Sprite), spriteFrames m s0 = .ok s → After s0 s n t k m := by
  intro m
  induction m with
  | zero =>
    intro s h
    rw [spriteFrames] at h
    cases h
    refine ⟨h0.act, rfl, rfl, rfl, h0.chrs, h0.per, h0.fo, ?_, ?_⟩
    · intro _
      refine ⟨by rw [h0.frame]; simp, by rw [h0.chr]; simp, ?_⟩
      rw [h0.loop]
      split
      · assumption
      · simp
    · intro hk hle
      have h1 : 0 < k := by have := h0.hk; omega
      have h2 : 0 < k * n := mul_pos h1 (by have := h0.hn; omega)
      have h3 : 0 < k * n * t := mul_pos h2 (by have := h0.ht; omega)
      exfalso
      generalize k * n * t = z at *
      omega
  | succ m ih =>
    intro s h
    rw [spriteFrames] at h
    obtain ⟨s1, h1, h2⟩ := bind_inv h
    obtain ⟨r, h3, h4⟩ := bind_inv h2
    cases h4
    exact (after_step h0 (ih s1 h1) (fl := r.2) h3).1

theorem chrStep_pos (s : Sprite) : 1 ≤ chrStep s := by
  unfold chrStep
  split <;> omega

/-- Animation (C57): `m` frames after `SPANIM id,n,t,k` the sprite shows its character plus `(m / t) mod n` steps; with
`k > 0` the animation runs for exactly `k * n * t` frames (SPCHK bit 3) and then stays at the last character, with
`k = 0` it never ends. -/
theorem C57_animation (s0 s : Sprite) (n t k : Int) (h0 : Started s0 n t k) (m : Nat) (h : spriteFrames m s0 = .ok s) :
    (k = 0 ∨ m < k * n * t → shownChr s = s0.chr + chrStep s0 * (m / t % n) ∧ (s.anim.forever = true ∨ s.anim.loop > 0)) ∧
    (k ≠ 0 → k * n * t ≤ m → shownChr s = s0.chr + chrStep s0 * (n - 1) ∧ ¬ (s.anim.forever = true ∨ s.anim.loop > 0)) := by
  have a := after_frames h0 m s h
  have hs := chrStep_pos s0
  have hn := h0.hn
  have ht := h0.ht
  constructor
  · intro hr
    obtain ⟨r1, r2, r3⟩ := a.run hr
    have b3 := Int.emod_nonneg ((m : Int) / t) (show n ≠ 0 by omega)
    have hp : 0 ≤ chrStep s0 * ((m : Int) / t % n) := mul_nonneg (by omega) b3
    constructor
    · unfold shownChr
      rw [r2, if_pos (by omega)]
    · rw [a.fo, r3]
      by_cases hk0 : k = 0
      · left; simpa using hk0
      · right
        rw [if_neg hk0]
        have := (lt_iff_div hn.1 ht.1).1 (hr.resolve_left hk0)
        omega
  · intro hk0 hle
    obtain ⟨r1, r2⟩ := a.fin hk0 hle
    have hp : 0 ≤ chrStep s0 * (n - 1) := mul_nonneg (by omega) (by omega)
    constructor
    · unfold shownChr
      rw [r2, if_pos (by omega)]
    · rw [a.fo, r1]
      simp [hk0]

/-- SPANIM on an existing sprite starts such an animation (C57). -/
theorem C57_started (g g1 : Sprites) (hp : PageOk g) (id n t : Int) (k : Option Int) (hn : 1 ≤ fpToInt n ∧ I32 n) (ht : 1 ≤ fpToInt t ∧ I32 t)
    (h : cmdSpanim g id n t k = .ok (g1, none)) (ha : (spr g (fpToInt id).toNat).active = true)
    (hw : (spr g (fpToInt id).toNat).w < 256 ∧ (spr g (fpToInt id).toNat).h < 256 ∧ (spr g (fpToInt id).toNat).chr < 65536) :
    Started (spr g1 (fpToInt id).toNat) (fpToInt n) (fpToInt t) ((k.map fpToInt).getD 0) ∧ (spr g1 (fpToInt id).toNat).chr = (spr g (fpToInt id).toNat).chr := by
  unfold cmdSpanim ranged at h
  by_cases h1 : fpToInt id < 0 ∨ fpToInt id > 99
  · rw [if_pos h1] at h; cases h
  rw [if_neg h1] at h
  unfold atLeast at h
  beta_reduce at h
  rw [if_neg (by omega)] at h
  beta_reduce at h
  rw [if_neg (by omega)] at h
  beta_reduce at h
  rw [get_ok hp (by omega) (by omega)] at h
  simp only [Out.bind] at h
  have hn2 : fpToInt n ≤ 524287 := by have := hn.2; unfold I32 fpToInt at *; omega
  have ht2 : fpToInt t ≤ 524287 := by have := ht.2; unfold I32 fpToInt at *; omega
  have key : ∀ s, spr (g.set (fpToInt id) s) (fpToInt id).toNat = s := by
    intro s
    change (g.set _ s).info g.page.toNat _ = s
    rw [set_info, if_pos ⟨rfl, rfl⟩]
  cases k with
  | none =>
    cases h
    rw [key]
    exact ⟨⟨ha, hw.1, hw.2.1, hw.2.2, ⟨hn.1, hn2⟩, ⟨ht.1, ht2⟩, le_refl _, rfl, rfl, rfl, rfl, rfl, rfl⟩, rfl⟩
  | some l =>
    simp only [] at h
    by_cases hl : fpToInt l < 0
    · rw [if_pos hl] at h; cases h
    rw [if_neg hl] at h
    cases h
    have key2 : ∀ s s', spr ((g.set (fpToInt id) s').set (fpToInt id) s) (fpToInt id).toNat = s := by
      intro s s'
      change ((g.set _ s').set _ s).info (g.set (fpToInt id) s').page.toNat _ = s
      rw [set_info, if_pos ⟨rfl, rfl⟩]
    first
      | rw [key2]; exact ⟨⟨ha, hw.1, hw.2.1, hw.2.2, ⟨hn.1, hn2⟩, ⟨ht.1, ht2⟩, by change 0 ≤ fpToInt l; omega, rfl, rfl, rfl, rfl, rfl, rfl⟩, rfl⟩
      | rw [key]; exact ⟨⟨ha, hw.1, hw.2.1, hw.2.2, ⟨hn.1, hn2⟩, ⟨ht.1, ht2⟩, by change 0 ≤ fpToInt l; omega, rfl, rfl, rfl, rfl, rfl, rfl⟩, rfl⟩

/-- A concrete animation: 3 characters, 2 frames each, twice. -/
example : ((run init [fun g => cmdSpset g 0 (4096 * 10) 0 0 0 0 none, fun g => cmdSpanim g 0 (4096 * 3) (4096 * 2) (some (4096 * 2))]).bind fun g =>
    (spriteFrames 9 (spr g 0)).bind fun s => .ok (shownChr s, s.anim.loop)) = .ok (11, 1) := by decide +kernel

/-! ## C59: timed scaling and turning -/

/-- What `m` frames do to the scale. -/
theorem scale_frames : ∀ (m : Nat) (s s' : Sprite), s.active = true → -1 ≤ s.scale.time → spriteFrames m s = .ok s' → s'.active = true ∧
    ((m : Int) ≤ s.scale.time + 1 → s'.scale = { s.scale with v := s.scale.v + m * s.scale.d, time := s.scale.time - m }) ∧
    (s.scale.time + 1 ≤ m → s'.scale = { s.scale with v := s.scale.v + (s.scale.time + 1) * s.scale.d, time := -1 }) := by
  intro m
  induction m with
  | zero =>
    intro s s' ha h1 h
    rw [spriteFrames] at h
    cases h
    refine ⟨ha, by simp, ?_⟩
    intro h0
    have : s.scale.time = -1 := by omega
    generalize s.scale = o at *
    obtain ⟨a, b, c⟩ := o
    simp only [] at this
    subst this
    simp
  | succ m ih =>
    intro s s' ha h1 h
    rw [spriteFrames] at h
    obtain ⟨s1, e1, e2⟩ := bind_inv h
    obtain ⟨r, e3, e4⟩ := bind_inv e2
    obtain ⟨i0, i1, i2⟩ := ih s s1 ha h1 e1
    obtain ⟨c1, -, c3, -, -⟩ := (C49_sprite s1 r.1 r.2 e3).2 i0
    have hs : s' = r.1 := by cases e4; rfl
    rw [hs]
    have hcast : ((m + 1 : Nat) : Int) = (m : Int) + 1 := by omega
    refine ⟨by rw [c1]; exact i0, ?_, ?_⟩
    · intro hm
      rw [hcast] at hm
      rw [c3, i1 (by omega)]
      simp only []
      rw [if_pos (by omega), hcast]
      simp only [Slide.mk.injEq, true_and]
      exact ⟨by ring, by ring⟩
    · intro hm
      rw [hcast] at hm
      by_cases hm2 : s.scale.time + 1 ≤ m
      · rw [c3, i2 hm2]
        rfl
      · rw [c3, i1 (by omega)]
        simp only []
        have : s.scale.time = m := by omega
        rw [if_pos (by omega), this]
        simp only [Slide.mk.injEq, true_and]
        exact ⟨by ring, by ring⟩

/-- What `m` frames do to the angle. -/
theorem angle_frames : ∀ (m : Nat) (s s' : Sprite), s.active = true → -1 ≤ s.angle.time → spriteFrames m s = .ok s' → s'.active = true ∧
    ((m : Int) ≤ s.angle.time + 1 → s'.angle = { s.angle with v := s.angle.v + m * s.angle.d.tmod (360 * 4096), time := s.angle.time - m }) ∧
    (s.angle.time + 1 ≤ m → s'.angle = { s.angle with v := s.angle.v + (s.angle.time + 1) * s.angle.d.tmod (360 * 4096), time := -1 }) := by
  intro m
  induction m with
  | zero =>
    intro s s' ha h1 h
    rw [spriteFrames] at h
    cases h
    refine ⟨ha, by simp, ?_⟩
    intro h0
    have : s.angle.time = -1 := by omega
    generalize s.angle = o at *
    obtain ⟨a, b, c⟩ := o
    simp only [] at this
    subst this
    simp
  | succ m ih =>
    intro s s' ha h1 h
    rw [spriteFrames] at h
    obtain ⟨s1, e1, e2⟩ := bind_inv h
    obtain ⟨r, e3, e4⟩ := bind_inv e2
    obtain ⟨i0, i1, i2⟩ := ih s s1 ha h1 e1
    obtain ⟨c1, -, -, c3, -⟩ := (C49_sprite s1 r.1 r.2 e3).2 i0
    have hs : s' = r.1 := by cases e4; rfl
    rw [hs]
    have hcast : ((m + 1 : Nat) : Int) = (m : Int) + 1 := by omega
    refine ⟨by rw [c1]; exact i0, ?_, ?_⟩
    · intro hm
      rw [hcast] at hm
      rw [c3, i1 (by omega)]
      simp only []
      rw [if_pos (by omega), hcast]
      simp only [Slide.mk.injEq, true_and]
      exact ⟨by ring, by ring⟩
    · intro hm
      rw [hcast] at hm
      by_cases hm2 : s.angle.time + 1 ≤ m
      · rw [c3, i2 hm2]
        rfl
      · rw [c3, i1 (by omega)]
        simp only []
        have : s.angle.time = m := by omega
        rw [if_pos (by omega), this]
        simp only [Slide.mk.injEq, true_and]
        exact ⟨by ring, by ring⟩

/-- SPSCALE with a time (C59), as it is: equal steps of `(target - start) / t`, but `t + 1` of them, so the target is reached after
`t` frames (if divisible) and left again in the next one. -/
theorem C59_spscale_partial (g g1 : Sprites) (hp : PageOk g) (id sc t : Int) (h : cmdSpscale g id sc (some t) = .ok (g1, none)) (m : Nat) (s' : Sprite)
    (hf : spriteFrames m (spr g1 (fpToInt id).toNat) = .ok s') :
    let s := spr g (fpToInt id).toNat
    let target := (fpToInt sc * 4096).tdiv 100
    ((m : Int) ≤ fpToInt t + 1 → s'.scale.v = s.scale.v + m * (target - s.scale.v).tdiv (fpToInt t) ∧ s'.scale.time = fpToInt t - m) ∧
    ((m : Int) = fpToInt t → fpToInt t ∣ target - s.scale.v → s'.scale.v = target) ∧
    (fpToInt t + 1 ≤ m → s'.scale.v = s.scale.v + (fpToInt t + 1) * (target - s.scale.v).tdiv (fpToInt t) ∧ s'.scale.time = -1) := by
  unfold cmdSpscale ranged at h
  by_cases h1 : fpToInt id < 0 ∨ fpToInt id > 31
  · rw [if_pos h1] at h; cases h
  rw [if_neg h1] at h
  beta_reduce at h
  by_cases h2 : fpToInt sc < 0 ∨ fpToInt sc > 200
  · rw [if_pos h2] at h; cases h
  rw [if_neg h2] at h
  simp only [decide_eq_true_eq] at h
  by_cases h3 : t < 0
  · rw [if_pos h3] at h; cases h
  rw [if_neg h3, get_ok hp (by omega) (by omega)] at h
  simp only [Out.bind] at h
  by_cases h4 : (spr g (fpToInt id).toNat).active = false
  · rw [if_pos h4] at h; cases h
  rw [if_neg h4] at h
  unfold atLeast at h
  by_cases h5 : fpToInt t < 0
  · rw [if_pos h5] at h; cases h
  rw [if_neg h5] at h
  beta_reduce at h
  by_cases h6 : fpToInt t = 0
  · rw [if_pos h6] at h; cases h
  rw [if_neg h6] at h
  obtain ⟨d, e1, h⟩ := bind_inv (x := stepTo _ _ _) h
  have hd := stepTo_inv e1
  rw [intToFp_small (by omega)] at hd
  have hg : g1 = g.set (fpToInt id) { spr g (fpToInt id).toNat with scale := { (spr g (fpToInt id).toNat).scale with d := d, time := fpToInt t } } := by
    cases h; rfl
  have hs1 : spr g1 (fpToInt id).toNat = { spr g (fpToInt id).toNat with scale := { (spr g (fpToInt id).toNat).scale with d := d, time := fpToInt t } } := by
    rw [hg]
    change ((g.set _ _).info g.page.toNat _) = _
    rw [set_info, if_pos ⟨rfl, rfl⟩]
  intro s target
  obtain ⟨-, k1, k2⟩ := scale_frames m (spr g1 (fpToInt id).toNat) s' (by rw [hs1]; simpa using h4) (by rw [hs1]; simp only []; omega) hf
  rw [hs1] at k1 k2
  simp only [] at k1 k2
  refine ⟨?_, ?_, ?_⟩
  · intro hm
    rw [k1 hm, hd]
    exact ⟨rfl, rfl⟩
  · intro hm hdv
    rw [k1 (by omega), hd]
    simp only []
    rw [hm, Int.mul_tdiv_cancel' hdv]
    change s.scale.v + (target - s.scale.v) = target
    omega
  · intro hm
    rw [k2 hm, hd]
    exact ⟨rfl, rfl⟩

/-- SPSCALE 0,200,1: the scale ends at 300%; with time 0 the program divides by zero. -/
theorem C59_spscale_violated :
    (((run init [fun g => cmdSpset g 0 0 0 0 0 0 none, fun g => cmdSpscale g 0 (200 * 4096) (some 4096)]).bind (frames 2)).bind fun g => .ok (spr g 0).scale) = .ok ⟨3 * 4096, 4096, -1⟩ ∧
    ((run init [fun g => cmdSpset g 0 0 0 0 0 0 none, fun g => cmdSpscale g 0 (200 * 4096) (some 0)]).bind fun g => .ok (spr g 0).scale) = .ub := by
  constructor <;> decide +kernel

/-- SPANGLE 0,90,2 (default direction): the sprite turns away from 90 degrees and ends at -135. -/
theorem C59_spangle_violated :
    (((run init [fun g => cmdSpset g 0 0 0 0 0 0 none, fun g => cmdSpangle g 0 (90 * 4096) (some (2 * 4096, none))]).bind (frames 5)).bind fun g => .ok (spr g 0).angle) =
      .ok ⟨-135 * 4096, -45 * 4096, -1⟩ := by
  decide +kernel

end Sbc.Sprites
