import Verif.Proof.Circle
import Verif.Props.RealMath
import Verif.Props.Graphics
set_option autoImplicit false
/-!
# C109: GCIRCLE
-/
namespace Sbc.Circle
open Sbc Sbc.Graphics Sbc.RealMath Sbc.RealMath.Spec Sbc.Graphics.Spec Sbc.Circle.Spec

/-- **C109 (partial).** `GCIRCLE x,y,r` and `GCIRCLE x,y,r,c` for every centre and every radius that is not negative: the dots drawn form a
circle (`n u v` is how often the dot at (`u`, `v`) is drawn), within 2.5 dots of the ideal one and without gaps of more than 3.1 dots; only
dots of the screen, on the page drawn to, change.  Missing: in XOR mode a dot is drawn more than once (refuted below), arcs (refuted below). -/
theorem C109_circle_partial {m : Libm} (hm : Accurate m) {rnd : ℝ → ℝ} (h : Rounding rnd) (g : Gfx) (x y r : Int) (a : Option Int) (c : Nat)
    (hc : ColorArg g a c) (hx : I32 x) (hy : I32 y) (hr : I32 r) (h0 : 0 ≤ r) :
    ∃ (g' : Gfx) (n : Int → Int → Nat), cmdGcircle m rnd g x y r a.toList = .ok (g', none) ∧
      IsCircle (x / 4096) (y / 4096) (r / 4096) (fun u v => n u v ≠ 0) ∧
      Draws g g' (fun u v old => putN g.drawmode c (n u v) old) := by
  have hx' : |x / 4096| ≤ 524288 := by rw [abs_le]; unfold I32 at hx; omega
  have hy' : |y / 4096| ≤ 524288 := by rw [abs_le]; unfold I32 at hy; omega
  have hr' : r / 4096 ≤ 524287 := by unfold I32 at hr; omega
  obtain ⟨ps, e, p1, p2⟩ := segments_ok hm h (x / 4096) (y / 4096) (r / 4096) hx' hy' (by omega) hr' (r / 4096 + 16).toNat 0 le_rfl (by omega)
  have ha : (if a.toList.length + 3 = 4 then a.toList.head? else none) = a := by cases a <;> rfl
  refine ⟨_, fun u v => ps.count (u, v), ?_, ?_, drawAll_draws g ps c⟩
  · unfold cmdGcircle
    rw [ha, withColor_ok hc]
    unfold fpToInt
    rw [e]; rfl
  · constructor
    · intro u v huv
      rw [dist_eq]
      exact p1 u v (List.count_pos_iff.1 (Nat.pos_of_ne_zero huv))
    · intro t
      obtain ⟨j, t', j0, j1, ht1, ht2, ec, es⟩ := turn (r / 4096 + 16) (by omega) t
      obtain ⟨u, v, k1, k2⟩ := p2 j j0 (by omega) t' ht1 ht2
      refine ⟨u, v, (List.count_pos_iff.2 k1).ne', ?_⟩
      rw [dist_eq, ← ec, ← es]
      exact k2

theorem putN_normal (c n old : Nat) (h : n ≠ 0) : putN false c n old = c := by
  obtain ⟨k, rfl⟩ := Nat.exists_eq_succ_of_ne_zero h
  unfold putN
  rw [Function.iterate_succ_apply']; rfl

/-- **C109.** In normal drawing mode every dot of the circle gets the colour, and every other dot keeps its own. -/
theorem C109_circle {m : Libm} (hm : Accurate m) {rnd : ℝ → ℝ} (h : Rounding rnd) (g : Gfx) (x y r : Int) (a : Option Int) (c : Nat)
    (hc : ColorArg g a c) (hx : I32 x) (hy : I32 y) (hr : I32 r) (h0 : 0 ≤ r) (hd : g.drawmode = false) :
    ∃ (g' : Gfx) (drawn : Int → Int → Bool), cmdGcircle m rnd g x y r a.toList = .ok (g', none) ∧
      IsCircle (x / 4096) (y / 4096) (r / 4096) (fun u v => drawn u v = true) ∧
      Draws g g' (fun u v old => if drawn u v then c else old) := by
  obtain ⟨g', n, e1, e2, e3⟩ := C109_circle_partial hm h g x y r a c hc hx hy hr h0
  refine ⟨g', fun u v => decide (n u v ≠ 0), e1, ?_, ?_⟩
  · simpa using e2
  · refine ⟨fun u v huv => ?_, e3.beyond, e3.pages, e3.settings⟩
    rw [e3.dots u v huv, hd]
    by_cases hn : n u v = 0
    · simp [hn, putN]
    · rw [putN_normal c _ _ hn]; simp [hn]

/-- **C109.** A colour that is no colour is an error, and nothing is drawn. -/
theorem C109_color (m : Libm) (rnd : ℝ → ℝ) (g : Gfx) (x y r c : Int) (hc : c / 4096 < 0 ∨ 255 < c / 4096) :
    cmdGcircle m rnd g x y r [c] = .ok (g, some .outOfRange) := by
  unfold cmdGcircle
  show withColor g (some c) _ = _
  unfold withColor
  dsimp only
  unfold fpToInt
  rw [if_pos hc]; rfl

/-- **C109.** A radius of -16 or less draws nothing. -/
theorem C109_negative (m : Libm) (rnd : ℝ → ℝ) (g : Gfx) (x y r : Int) (hr : r / 4096 ≤ -16) :
    ∃ g', cmdGcircle m rnd g x y r [] = .ok (g', none) ∧ Draws g g' (fun _ _ old => old) := by
  unfold cmdGcircle withColor
  rw [if_neg (by decide)]
  unfold fpToInt
  rw [show (r / 4096 + 16).toNat = 0 by omega]
  exact ⟨_, rfl, drawAll_draws g [] g.color⟩

theorem segment_zero {rnd : ℝ → ℝ} (h : Rounding rnd) (m : Libm) (x y i : Int) (hx : |x| ≤ 524288) (hy : |y| ≤ 524288) :
    segment m rnd x y 0 i = .ok [(x, y)] := by
  have z : rnd 0 = 0 := by
    have := h.exact 0 0 (by norm_num) (by norm_num)
    simpa using this
  have hc : ∀ (c : Int) (t : ℝ), |c| ≤ 524288 → coord rnd c 0 t = .ok c := by
    intro c t hc
    unfold coord
    have := h.exact c 0 (by linarith) (by norm_num)
    simp only [pow_zero, div_one] at this
    rw [show ((0 : Int) : ℝ) * t = 0 by simp, z, add_zero, this]
    have ht : trunc (c : ℝ) = c := by unfold trunc; split <;> simp
    rw [ht]
    unfold toFixp
    rw [abs_le] at hc
    rw [if_pos (by unfold I32; omega)]
  unfold segment
  rw [hc x _ hx, hc y _ hy, hc x _ hx, hc y _ hy]
  show linePixels x y x y = _
  unfold linePixels
  rw [if_pos (by omega), if_pos ⟨rfl, rfl⟩]

theorem segments_zero {rnd : ℝ → ℝ} (h : Rounding rnd) (m : Libm) (x y : Int) (hx : |x| ≤ 524288) (hy : |y| ≤ 524288) (n : Nat) (i : Int) :
    segments m rnd x y 0 n i = .ok (List.replicate n (x, y)) := by
  induction n generalizing i with
  | zero => rfl
  | succ n ih => rw [segments, segment_zero h m x y i hx hy]; show (segments m rnd x y 0 n (i + 1)).bind _ = _; rw [ih]; rfl

/-- **C109 (refuted case).** In XOR mode the lines cancel each other where they meet: a circle of radius 0, which is one dot in normal mode, is
drawn 16 times and leaves the page as it was. -/
theorem C109_xor_violated (m : Libm) {rnd : ℝ → ℝ} (h : Rounding rnd) (g : Gfx) (x y r : Int) (hx : I32 x) (hy : I32 y) (h0 : r / 4096 = 0)
    (hd : g.drawmode = true) : ∃ g', cmdGcircle m rnd g x y r [] = .ok (g', none) ∧ Draws g g' (fun _ _ old => old) := by
  unfold cmdGcircle withColor
  rw [if_neg (by decide)]
  unfold fpToInt
  rw [h0, segments_zero h m _ _ (by rw [abs_le]; unfold I32 at hx; omega) (by rw [abs_le]; unfold I32 at hy; omega)]
  refine ⟨_, rfl, ?_⟩
  have hdr := drawAll_draws g (List.replicate (0 + 16 : Int).toNat (x / 4096, y / 4096)) g.color
  refine ⟨fun u v huv => ?_, hdr.beyond, hdr.pages, hdr.settings⟩
  rw [hdr.dots u v huv, hd, List.count_replicate]
  split
  · show (put true g.color)^[16] _ = _
    have two : (put true g.color)^[2] = id := by
      funext o
      simp [Function.iterate_succ, put, Nat.xor_assoc]
    rw [show 16 = 2 * 8 by rfl, Function.iterate_mul, two, Function.iterate_id]; rfl
  · rfl

/-- **C109 (refuted case).** The form with angles, `GCIRCLE x,y,r,c,start,end`, draws the whole circle, and in the current colour: colour and
angles are not looked at. -/
theorem C109_arc_violated (m : Libm) (rnd : ℝ → ℝ) (g : Gfx) (x y r c a b : Int) :
    cmdGcircle m rnd g x y r [c, a, b] = cmdGcircle m rnd g x y r [] := rfl

/-- There are a library and a rounding as the theorems want, so that for example `GCIRCLE 128,96,50,3` on the initial page draws a circle. -/
example : ∃ (m : Libm) (rnd : ℝ → ℝ) (g' : Gfx) (drawn : Int → Int → Bool), Accurate m ∧ Rounding rnd ∧
    cmdGcircle m rnd init (128 * 4096) (96 * 4096) (50 * 4096) [3 * 4096] = .ok (g', none) ∧
    IsCircle 128 96 50 (fun u v => drawn u v = true) ∧ Draws init g' (fun u v old => if drawn u v then 3 else old) := by
  obtain ⟨h, hm⟩ := accurate_exists
  obtain ⟨g', d, e⟩ := C109_circle hm h init (128 * 4096) (96 * 4096) (50 * 4096) (some (3 * 4096)) 3 ⟨by decide, by decide, by decide⟩ (by decide) (by decide) (by decide)
    (by decide) rfl
  exact ⟨_, _, g', d, hm, h, e⟩

end Sbc.Circle
