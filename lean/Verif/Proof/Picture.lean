import Verif.Proof.Display
import Verif.Spec.Bg
import Verif.Spec.Graphics
import Verif.Props.Resources
set_option autoImplicit false
namespace Sbc.Display
open Sbc Sbc.Display.Spec

theorem field (t k n : Nat) : (t &&& ((2 ^ n - 1) <<< k)) >>> k = t / 2 ^ k % 2 ^ n := by
  apply Nat.eq_of_testBit_eq
  intro i
  rw [Nat.testBit_shiftRight, Nat.testBit_and, Nat.testBit_shiftLeft, Nat.testBit_two_pow_sub_one, Nat.testBit_mod_two_pow, Nat.testBit_div_two_pow]
  rw [show k + i - k = i by omega, show i + k = k + i by omega]
  simp [Bool.and_comm]

theorem entryQuad_eq (ox oy : Int) (x y t : Nat) :
    entryQuad ox oy x y t = tileQuad ox oy x y ((t % 1024 : Nat) : Int) (t / 1024 % 2 = 1) (t / 2048 % 2 = 1) (t / 4096 % 16) := by
  have e1 : (t &&& 0x3ff : Nat) = t % 1024 := Nat.and_two_pow_sub_one_eq_mod t 10
  have e2 : (t &&& 0x400) >>> 10 = t / 1024 % 2 := field t 10 1
  have e3 : (t &&& 0x800) >>> 11 = t / 2048 % 2 := field t 11 1
  have e4 : (t &&& 0xf000) >>> 12 = t / 4096 % 16 := field t 12 4
  unfold entryQuad
  rw [e1, e4]
  congr 1
  · rw [e2]; exact decide_eq_decide.mpr (by omega)
  · rw [e3]; exact decide_eq_decide.mpr (by omega)

theorem u32_mod (z : Int) {n : Nat} (hn : (n : Int) ∣ 4294967296) : u32 z % n = (z % n).toNat := by
  unfold u32
  have h1 : 0 ≤ z % 4294967296 := Int.emod_nonneg _ (by decide)
  apply Int.ofNat_inj.mp
  by_cases h0 : n = 0
  · subst h0
    obtain ⟨k, hk⟩ := hn
    simp at hk
  rw [Int.natCast_emod, Int.toNat_of_nonneg h1, Int.toNat_of_nonneg (Int.emod_nonneg _ (by omega)), Int.emod_emod_of_dvd _ hn]

/-- How far the code is off for negative offsets: the division by 8 rounds towards 0. -/
def slip (f : Int) : Int := if f < 0 ∧ f % 8 ≠ 0 then 8 else 0

theorem tdiv_slip (f : Int) : f.tdiv 8 = (f + slip f) / 8 := by
  unfold slip
  by_cases h : 0 ≤ f
  · rw [if_neg (by omega), Int.tdiv_eq_ediv_of_nonneg h]; omega
  · obtain ⟨g, rfl⟩ : ∃ g, f = -g := ⟨-f, by omega⟩
    rw [Int.neg_tdiv, Int.tdiv_eq_ediv_of_nonneg (by omega)]
    split <;> omega

theorem start_spec (f : Int) : u32 (f.tdiv 8) % 64 = ((f + slip f) / 8 % 64).toNat ∧ u32 f % 8 = ((f + slip f) % 8).toNat := by
  refine ⟨?_, ?_⟩
  · rw [tdiv_slip]; exact u32_mod _ (n := 64) (by decide)
  · rw [show (f + slip f) % 8 = f % 8 by unfold slip; split <;> omega]
    exact u32_mod _ (n := 8) (by decide)

theorem bg_axis (p : Nat) (F : Int) : (p + (F % 8).toNat) / 8 + (F / 8 % 64).toNat = ((p + F) / 8 - F / 8 + (F / 8 % 64)).toNat ∧
    ((((p + (F % 8).toNat) / 8 + (F / 8 % 64).toNat) % 64 : Nat) : Int) = (p + F) % 512 / 8 ∧
    (((p + (F % 8).toNat) % 8 : Nat) : Int) = (p + F) % 512 % 8 := by
  have h1 : 0 ≤ F % 8 := Int.emod_nonneg _ (by decide)
  have h2 : F % 8 < 8 := Int.emod_lt_of_pos _ (by decide)
  have h3 : 0 ≤ F / 8 % 64 := Int.emod_nonneg _ (by decide)
  have h4 : F / 8 % 64 < 64 := Int.emod_lt_of_pos _ (by decide)
  obtain ⟨o, ho⟩ : ∃ o : Nat, (F % 8) = o := ⟨(F % 8).toNat, by omega⟩
  obtain ⟨s, hs⟩ : ∃ s : Nat, (F / 8 % 64) = s := ⟨(F / 8 % 64).toNat, by omega⟩
  obtain ⟨q, hq⟩ : ∃ q, F / 8 = 64 * q + s := ⟨F / 8 / 64, by omega⟩
  have hF : F = 512 * q + 8 * s + o := by omega
  rw [ho, hs, Int.toNat_natCast, Int.toNat_natCast]
  have hm : (p + F) % 512 = ((p + o + 8 * s) % 512 : Nat) := by
    rw [hF]; omega
  rw [hm]
  refine ⟨?_, ?_, ?_⟩ <;> omega

/-- The layer shows the map, moved by the offset. -/
theorem background_spec {s : Scene} {b : Res.Bank} (hf : Fresh s b) {screen layer : Nat} (hs : screen < 2) (hl : layer < 2) (hv : s.shows (2 + layer) = true)
    {px py : Nat} (hx : px < 256) (hy : py < 192) {X Y : Nat}
    (hX : (X : Int) = (px + fpToInt (s.bg.ofs screen layer).x + slip (fpToInt (s.bg.ofs screen layer).x)) % 512)
    (hY : (Y : Int) = (py + fpToInt (s.bg.ofs screen layer).y + slip (fpToInt (s.bg.ofs screen layer).y)) % 512) :
    s.background screen layer px py = entryColor b (3 * screen) (8 + 22 * screen) (s.bg.tile screen layer (X / 8 : Nat) (Y / 8 : Nat)) (X % 8) (Y % 8) := by
  have hl' : layer = 0 ∨ layer = 1 := by omega
  have h2 : ¬ (¬ s.shows 2 = true ∧ layer = 0) := by rintro ⟨h, rfl⟩; exact h hv
  have h3 : ¬ (¬ s.shows 3 = true ∧ layer = 1) := by rintro ⟨h, rfl⟩; exact h hv
  unfold Scene.background
  rw [if_neg h2, if_neg h3]
  dsimp only
  unfold Scene.draw
  obtain ⟨a1, a2⟩ := start_spec (fpToInt (s.bg.ofs screen layer).x)
  obtain ⟨b1, b2⟩ := start_spec (fpToInt (s.bg.ofs screen layer).y)
  rw [a1, a2, b1, b2]
  generalize hF : fpToInt (s.bg.ofs screen layer).x + slip (fpToInt (s.bg.ofs screen layer).x) = F
  generalize hG : fpToInt (s.bg.ofs screen layer).y + slip (fpToInt (s.bg.ofs screen layer).y) = G
  rw [Int.add_assoc, hF] at hX
  rw [Int.add_assoc, hG] at hY
  obtain ⟨-, c2, c3⟩ := bg_axis px F
  obtain ⟨-, d2, d3⟩ := bg_axis py G
  rw [← hX] at c2 c3
  rw [← hY] at d2 d3
  have o1 : (F % 8).toNat < 8 := by have := Int.emod_lt_of_pos F (by decide : (0:Int) < 8); have := Int.emod_nonneg F (by decide : (8:Int) ≠ 0); omega
  have o2 : (G % 8).toNat < 8 := by have := Int.emod_lt_of_pos G (by decide : (0:Int) < 8); have := Int.emod_nonneg G (by decide : (8:Int) ≠ 0); omega
  rw [draw_grid (w := 33) (h := 25) _ (fun x y => ⟨_, _, _, _, entryQuad_eq _ _ _ _ _⟩) (by omega) (by omega)]
  dsimp only
  rw [entryQuad_eq]
  have e1 : (((px + (F % 8).toNat) / 8 + (F / 8 % 64).toNat) % 64) = X / 8 := by omega
  have e2 : (((py + (G % 8).toNat) / 8 + (G / 8 % 64).toNat) % 64) = Y / 8 := by omega
  have e3 : (px + (F % 8).toNat) % 8 = X % 8 := by omega
  have e4 : (py + (G % 8).toNat) % 8 = Y % 8 := by omega
  rw [e1, e2]
  have ht : s.bg.scr (Bg.bank screen layer) (Bg.bgIndex ((X / 8 : Nat) : Int) ((Y / 8 : Nat) : Int)) = s.bg.tile screen layer (X / 8 : Nat) (Y / 8 : Nat) := rfl
  rw [ht]
  generalize s.bg.tile screen layer (X / 8 : Nat) (Y / 8 : Nat) = t
  have hs' : screen = 0 ∨ screen = 1 := by omega
  unfold entryColor
  rcases hs' with rfl | rfl
  · rw [if_neg (by decide), if_neg (by decide), tile_paint hf (t := 2) (by decide) (by decide) (by decide) (by omega) (by unfold texSize texBanks; exact Nat.mod_lt _ (by decide)) rfl rfl, e3, e4]
    simp only [decide_eq_true_eq]
    rfl
  · rw [if_pos (by decide), if_pos (by decide), tile_paint hf (t := 7) (by decide) (by decide) (by decide) (by omega) (by unfold texSize texBanks; exact Nat.mod_lt _ (by decide)) rfl rfl, e3, e4]
    simp only [decide_eq_true_eq]
    rfl

/-- A text screen shows its characters. -/
theorem text_spec {s : Scene} {b : Res.Bank} (hf : Fresh s b) {k t : Nat} (hk : k < 6) (hk' : k % 3 ≠ 2) (ht : t < 10) (h5 : 512 ≤ texSize t)
    (chr : Nat → Nat → Int) (pal : Nat → Nat → Nat) {px py : Nat} (hx : px < 256) (hy : py < 192) {n : Nat} (hn : chr (px / 8) (py / 8) = n) (hn5 : n < 512)
    (hp : pal (px / 8) (py / 8) < 16) :
    s.draw k t ((cells 32 24).map fun (x, y) => tileQuad 0 0 x y (chr x y) false false (pal x y)) px py =
      paint b k (pal (px / 8) (py / 8)) (dot b (texBanks t).1 n (px % 8) (py % 8)) := by
  unfold Scene.draw
  have e := draw_grid (colTex := s.colTex) (bank := k) (tex := s.chrTex t) (th := texHeight t) (w := 32) (h := 24) (ox := 0) (oy := 0)
    (fun (xy : Nat × Nat) => tileQuad 0 0 xy.1 xy.2 (chr xy.1 xy.2) false false (pal xy.1 xy.2)) (fun x y => ⟨_, _, _, _, rfl⟩) (px := px) (py := py) (by omega) (by omega)
  refine e.trans ?_
  dsimp only
  rw [Nat.add_zero, Nat.add_zero, hn]
  have := tile_paint hf hk hk' ht (ox := 0) (oy := 0) (x := px / 8) (y := py / 8) (n := n) (h := false) (v := false) hp (by omega) (px := px) (py := py) (by omega) (by omega)
  simp only [Nat.add_zero, Bool.false_eq_true, if_false] at this
  exact this

theorem toChar_lt (w : Nat) : Strs.toChar w < 292 := (Res.toChar_range w).2

/-- A screen of map entries. -/
theorem entries_spec {s : Scene} {b : Res.Bank} (hf : Fresh s b) {k t : Nat} (hk : k < 6) (hk' : k % 3 ≠ 2) (ht : t < 10) (h5 : 1024 ≤ texSize t)
    (e : Nat → Nat → Nat) {px py : Nat} (hx : px < 256) (hy : py < 192) :
    s.draw k t ((cells 32 24).map fun (x, y) => entryQuad 0 0 x y (e x y)) px py =
      entryColor b k (texBanks t).1 (e (px / 8) (py / 8)) (px % 8) (py % 8) := by
  unfold Scene.draw
  have g := draw_grid (colTex := s.colTex) (bank := k) (tex := s.chrTex t) (th := texHeight t) (w := 32) (h := 24) (ox := 0) (oy := 0)
    (fun (xy : Nat × Nat) => entryQuad 0 0 xy.1 xy.2 (e xy.1 xy.2)) (fun x y => ⟨_, _, _, _, entryQuad_eq _ _ _ _ _⟩) (px := px) (py := py) (by omega) (by omega)
  refine g.trans ?_
  dsimp only
  rw [Nat.add_zero, Nat.add_zero, entryQuad_eq]
  generalize e (px / 8) (py / 8) = w
  unfold entryColor
  have := tile_paint hf hk hk' ht (ox := 0) (oy := 0) (x := px / 8) (y := py / 8) (n := w % 1024) (h := decide (w / 1024 % 2 = 1)) (v := decide (w / 2048 % 2 = 1))
    (pal := w / 4096 % 16) (by omega) (by omega) (px := px) (py := py) (by omega) (by omega)
  simp only [Nat.add_zero, decide_eq_true_eq] at this
  exact this

/-- The characters of the upper console. -/
theorem console_text {s : Scene} {b : Res.Bank} (hf : Fresh s b) {px py : Nat} (hx : px < 256) (hy : py < 192) {n : Nat}
    (hn : Strs.toChar (s.con.text (py / 8) (px / 8)) = n) :
    s.draw 0 0 ((cells 32 24).map fun (x, y) => tileQuad 0 0 x y (Strs.toChar (s.con.text y x)) false false (s.con.color y x &&& 0x0f)) px py =
      paint b 0 (s.con.color (py / 8) (px / 8) % 16) (dot b 0 n (px % 8) (py % 8)) := by
  have := toChar_lt (s.con.text (py / 8) (px / 8))
  have e : s.con.color (py / 8) (px / 8) &&& 0x0f = s.con.color (py / 8) (px / 8) % 16 := and15 _
  rw [text_spec hf (t := 0) (by decide) (by decide) (by decide) (by decide) (fun x y => Strs.toChar (s.con.text y x)) (fun x y => s.con.color y x &&& 0x0f) hx hy hn
    (by omega) (by rw [e]; omega), e]
  rfl

/-- Its background colours. -/
theorem console_back {s : Scene} {b : Res.Bank} (hf : Fresh s b) {px py : Nat} (hx : px < 256) (hy : py < 192) :
    s.draw 0 1 ((cells 32 24).map fun (x, y) => tileQuad 0 0 x y (if (s.con.color y x &&& 0xf0) >>> 4 ≠ 0 then 15 else 0) false false ((s.con.color y x &&& 0xf0) >>> 4)) px py =
      paint b 0 (s.con.color (py / 8) (px / 8) / 16 % 16)
        (dot b 4 (if s.con.color (py / 8) (px / 8) / 16 % 16 ≠ 0 then 15 else 0) (px % 8) (py % 8)) := by
  have e : (s.con.color (py / 8) (px / 8) &&& 0xf0) >>> 4 = s.con.color (py / 8) (px / 8) / 16 % 16 := field _ 4 4
  rw [text_spec hf (t := 1) (by decide) (by decide) (by decide) (by decide) (fun x y => if (s.con.color y x &&& 0xf0) >>> 4 ≠ 0 then 15 else 0)
    (fun x y => (s.con.color y x &&& 0xf0) >>> 4) hx hy (n := if s.con.color (py / 8) (px / 8) / 16 % 16 ≠ 0 then 15 else 0)
    (by rw [e]; split <;> rfl) (by split <;> omega) (by rw [e]; omega), e]
  rfl

theorem over_apply (t b : Layer) (x y : Int) : over t b x y = (t x y).or (b x y) := rfl

/-- The dots of the display page. -/
theorem graphics_spec {s : Scene} {b : Res.Bank} (hf : Fresh s b) {screen prio : Nat} (hs : screen < 2) (h5 : s.shows 5 = true) (hp : s.gfx.prio screen = prio)
    (h1 : screen = 1 → (s.panelType = 0 ∨ s.panelType = 1) ∧ s.shows 1 = true) {px py : Nat} (hx : px < 256) (hy : py < 192) {c : Nat}
    (hc : s.gfx.dot (s.gfx.displaypage screen) px py = c) (hc' : c < 256) :
    s.graphics screen prio px py = if c = 0 then none else some (shown (b.word (.col (2 + 3 * screen)) c)) := by
  unfold Scene.graphics
  rw [if_neg (fun h => h.2 (h1 h.1).1), if_neg (fun h => h.2 (h1 h.1).2), if_neg (fun h => h h5), if_pos hp.symm, if_pos (by omega)]
  unfold Graphics.Gfx.dot at hc
  rw [hc, hf.col _ (by omega) c hc', if_pos (by omega : (2 + 3 * screen) % 3 = 2)]

end Sbc.Display
