import Verif.Spec.Circle
import Verif.Props.Lines
import Mathlib.Analysis.Real.Pi.Bounds
import Mathlib.Analysis.Complex.Norm
set_option autoImplicit false
namespace Sbc.Circle
open Sbc Sbc.Graphics Sbc.RealMath Sbc.RealMath.Spec Sbc.Graphics.Spec Sbc.Circle.Spec

/-- Rounding with `e` binary places to spare. -/
theorem rnd_near {rnd : ℝ → ℝ} (h : Rounding rnd) (x : ℝ) (e : ℕ) (he : e ≤ 1000) (hx : |x| * 2 ^ e ≤ 2 ^ 53 - 1) :
    |rnd x - x| ≤ 1 / 2 ^ e := by
  have hp : (0 : ℝ) < 2 ^ e := by positivity
  rw [abs_le] 
  have hx' := abs_le.1 (le_refl |x|)
  have e1 := h.mono ((⌊x * 2 ^ e⌋ : ℝ) / 2 ^ e) x (by rw [div_le_iff₀ hp]; exact Int.floor_le _)
  have e2 := h.mono x ((⌈x * 2 ^ e⌉ : ℝ) / 2 ^ e) (by rw [le_div_iff₀ hp]; exact Int.le_ceil _)
  have hb : |x * 2 ^ e| ≤ 2 ^ 53 - 1 := by rw [abs_mul, abs_of_pos hp]; exact hx
  rw [abs_le] at hb
  have f1 := Int.floor_le (x * 2 ^ e)
  have f2 := Int.lt_floor_add_one (x * 2 ^ e)
  have c1 := Int.le_ceil (x * 2 ^ e)
  have c2 := Int.ceil_lt_add_one (x * 2 ^ e)
  rw [h.exact _ e (by
    have : (|((⌊x * 2 ^ e⌋ : ℤ))| : ℝ) ≤ 2 ^ 53 := by rw [abs_le]; constructor <;> linarith
    exact_mod_cast this) he] at e1
  rw [h.exact _ e (by
    have : (|((⌈x * 2 ^ e⌉ : ℤ))| : ℝ) ≤ 2 ^ 53 := by rw [abs_le]; constructor <;> linarith
    exact_mod_cast this) he] at e2
  have g1 : x - 1 / 2 ^ e ≤ (⌊x * 2 ^ e⌋ : ℝ) / 2 ^ e := by
    rw [le_div_iff₀ hp, sub_mul, one_div, inv_mul_cancel₀ hp.ne']; linarith
  have g2 : (⌈x * 2 ^ e⌉ : ℝ) / 2 ^ e ≤ x + 1 / 2 ^ e := by
    rw [div_le_iff₀ hp, add_mul, one_div, inv_mul_cancel₀ hp.ne']; linarith
  constructor <;> linarith

/-- The angle of corner `i`. -/
noncomputable def ideal (i units : Int) : ℝ := 2 * Real.pi * i / units

theorem angle_near {rnd : ℝ → ℝ} (h : Rounding rnd) (i units : Int) (h0 : 0 ≤ i) (hi : i ≤ units) (hu : 16 ≤ units) (hu2 : units ≤ 524303) :
    |angle rnd i units - ideal i units| * units ≤ 1 / 2 ^ 19 := by
  unfold angle ideal
  have hu' : (16 : ℝ) ≤ units := by exact_mod_cast hu
  have hu2' : (units : ℝ) ≤ 524303 := by exact_mod_cast hu2
  have hi0 : (0 : ℝ) ≤ i := by exact_mod_cast h0
  have hi1 : (i : ℝ) ≤ units := by exact_mod_cast hi
  have hup : (0 : ℝ) < units := by linarith
  have p1 := Real.pi_gt_d20
  have p2 := Real.pi_lt_d20
  have a1 := rnd_near h piLit 50 (by norm_num) (by unfold piLit; rw [abs_of_pos (by norm_num)]; norm_num)
  generalize rnd piLit = q1 at *
  unfold piLit at a1
  rw [abs_le] at a1
  have a2 := rnd_near h (2 * q1) 50 (by norm_num) (by rw [abs_of_pos (by norm_num at a1 ⊢; linarith)]; norm_num at a1 ⊢; linarith)
  generalize rnd (2 * q1) = P at *
  rw [abs_le] at a2
  have hP1 : P - 2 * Real.pi ≤ 161 / 100000000000000 := by norm_num at *; linarith
  have hP2 : -(161 / 100000000000000) ≤ P - 2 * Real.pi := by norm_num at *; linarith
  have hP3 : 0 < P ∧ P ≤ 629 / 100 := by norm_num at *; constructor <;> linarith
  have hA : 0 ≤ P * i ∧ P * i ≤ 629 / 100 * units :=
    ⟨mul_nonneg hP3.1.le hi0, mul_le_mul hP3.2 hi1 hi0 (by norm_num)⟩
  have a3 := rnd_near h (P * i) 30 (by norm_num) (by rw [abs_of_nonneg hA.1]; norm_num; linarith)
  generalize rnd (P * i) = A at *
  rw [abs_le] at a3
  have hB : |A / units| ≤ 7 := by
    rw [abs_div, abs_of_pos hup, div_le_iff₀ hup, abs_le]
    norm_num at a3
    constructor <;> linarith
  have a4 := rnd_near h (A / units) 50 (by norm_num) (by norm_num at *; linarith)
  generalize rnd (A / units) = B at *
  have key : (B - 2 * Real.pi * i / units) * units = (B - A / units) * units + (A - P * i) + (P - 2 * Real.pi) * i := by
    field_simp; ring
  rw [← abs_of_pos hup, ← abs_mul, abs_of_pos hup, key, abs_le]
  rw [abs_le] at a4
  have k1 : (B - A / units) * units ≤ 1 / 2 ^ 50 * units := mul_le_mul_of_nonneg_right a4.2 hup.le
  have k2 : -(1 / 2 ^ 50) * units ≤ (B - A / units) * units := mul_le_mul_of_nonneg_right a4.1 hup.le
  have k3 : (P - 2 * Real.pi) * i ≤ 161 / 100000000000000 * i := mul_le_mul_of_nonneg_right hP1 hi0
  have k4 : -(161 / 100000000000000) * i ≤ (P - 2 * Real.pi) * i := mul_le_mul_of_nonneg_right hP2 hi0
  obtain ⟨b1, b2⟩ := a3
  generalize (B - A / units) * units = X at *
  generalize (P - 2 * Real.pi) * i = Y at *
  generalize A - P * i = Z at *
  clear key a4 hA hP3 hP1 hP2 a1 a2 p1 p2 hB h h0 hi hu hu2
  have n1 : (1 : ℝ) / 2 ^ 50 * units ≤ 1 / 1000000000 := by
    have : (1 : ℝ) / 2 ^ 50 * units ≤ 1 / 2 ^ 50 * 524303 := by gcongr
    norm_num at this ⊢; linarith
  have n2 : (161 : ℝ) / 100000000000000 * i ≤ 85 / 100000000 := by linarith
  have n3 : (1 : ℝ) / 2 ^ 30 ≤ 1 / 1000000000 := by norm_num
  have n4 : (186 : ℝ) / 100000000 ≤ 1 / 2 ^ 19 := by norm_num
  rw [neg_mul] at k2 k4
  constructor <;> linarith

theorem trunc_near (y : ℝ) : |(trunc y : ℝ) - y| ≤ 1 := by
  unfold trunc
  rw [abs_le]
  split
  · have := Int.floor_le y; have := Int.lt_floor_add_one y; constructor <;> linarith
  · have := Int.le_ceil y; have := Int.ceil_lt_add_one y; constructor <;> linarith

/-- How far a corner can be from its ideal place in each direction. -/
noncomputable def eps : ℝ := 1 + 1 / 2 ^ 15

theorem coord_near {rnd : ℝ → ℝ} (h : Rounding rnd) (c r : Int) (hc : |c| ≤ 524288) (hr : 0 ≤ r) (hr2 : r ≤ 524287) (t T : ℝ)
    (hT : |T| ≤ 1) (ht : |t - T| * r ≤ 1 / 2 ^ 17) :
    ∃ q : Int, coord rnd c r t = .ok q ∧ |(q : ℝ) - (c + r * T)| ≤ eps ∧ |q| ≤ 1048580 := by
  unfold coord
  have hr' : (0 : ℝ) ≤ r := by exact_mod_cast hr
  have hr2' : (r : ℝ) ≤ 524287 := by exact_mod_cast hr2
  have hc' : |(c : ℝ)| ≤ 524288 := by exact_mod_cast hc
  have e1 : |r * t - r * T| ≤ 1 / 2 ^ 17 := by rw [← mul_sub, abs_mul, abs_of_nonneg hr', mul_comm]; exact ht
  have e2 : |r * T| ≤ 524287 := by
    rw [abs_mul, abs_of_nonneg hr']
    nlinarith [abs_nonneg T]
  rw [abs_le] at hc' e1 e2
  have a1 := rnd_near h (r * t) 31 (by norm_num) (by
    have : |r * t| ≤ 524288 := by rw [abs_le]; norm_num at *; constructor <;> linarith
    have h2 : |r * t| * 2 ^ 31 ≤ 524288 * 2 ^ 31 := by gcongr
    refine h2.trans ?_
    norm_num)
  generalize rnd (r * t) = w at *
  rw [abs_le] at a1
  have a2 := rnd_near h (c + w) 31 (by norm_num) (by
    have : |c + w| ≤ 1048578 := by rw [abs_le]; norm_num at *; constructor <;> linarith
    have h2 : |c + w| * 2 ^ 31 ≤ 1048578 * 2 ^ 31 := by gcongr
    refine h2.trans ?_
    norm_num)
  generalize rnd (c + w) = z at *
  rw [abs_le] at a2
  have tn := trunc_near z
  generalize trunc z = q at *
  rw [abs_le] at tn
  have hq : |q| ≤ 1048580 := by
    have : |(q : ℝ)| ≤ 1048580 := by rw [abs_le]; norm_num at *; constructor <;> linarith
    exact_mod_cast this
  refine ⟨q, ?_, ?_, hq⟩
  · unfold toFixp
    rw [abs_le] at hq
    rw [if_pos (by unfold I32; omega)]
  · unfold eps
    rw [abs_le]
    norm_num at *
    constructor <;> linarith

theorem cos_near {m : Libm} (hm : Accurate m) (a b r : ℝ) (h0 : 0 ≤ r) (h1 : r ≤ 524287) (h : |a - b| * r ≤ 1 / 2 ^ 19) :
    |m.cos a - Real.cos b| * r ≤ 1 / 2 ^ 17 := by
  have h2 := hm.cos a
  unfold Near at h2
  have h3 := Real.abs_cos_le_one a
  have h4 : |Real.cos a - Real.cos b| ≤ |a - b| := by
    have := Real.lipschitzWith_cos.dist_le_mul a b
    simpa [Real.dist_eq] using this
  have h5 : |m.cos a - Real.cos b| ≤ |a - b| + 1 / 2 ^ 40 := by
    have := abs_sub_le (m.cos a) (Real.cos a) (Real.cos b)
    have : |Real.cos a| / 2 ^ 40 ≤ 1 / 2 ^ 40 := by gcongr
    linarith
  have h6 := mul_le_mul_of_nonneg_right h5 h0
  norm_num at *
  nlinarith

theorem sin_near {m : Libm} (hm : Accurate m) (a b r : ℝ) (h0 : 0 ≤ r) (h1 : r ≤ 524287) (h : |a - b| * r ≤ 1 / 2 ^ 19) :
    |m.sin a - Real.sin b| * r ≤ 1 / 2 ^ 17 := by
  have h2 := hm.sin a
  unfold Near at h2
  have h3 := Real.abs_sin_le_one a
  have h4 : |Real.sin a - Real.sin b| ≤ |a - b| := by
    have := Real.lipschitzWith_sin.dist_le_mul a b
    simpa [Real.dist_eq] using this
  have h5 : |m.sin a - Real.sin b| ≤ |a - b| + 1 / 2 ^ 40 := by
    have := abs_sub_le (m.sin a) (Real.sin a) (Real.sin b)
    have : |Real.sin a| / 2 ^ 40 ≤ 1 / 2 ^ 40 := by gcongr
    linarith
  have h6 := mul_le_mul_of_nonneg_right h5 h0
  norm_num at *
  nlinarith

/-- A point of the plane. -/
def pt (a b : ℝ) : ℂ := ⟨a, b⟩
/-- The point of the unit circle at an angle. -/
noncomputable def cis (t : ℝ) : ℂ := ⟨Real.cos t, Real.sin t⟩

theorem dist_eq (a b c d : ℝ) : dist a b c d = ‖pt a b - pt c d‖ := by
  rw [Complex.norm_eq_sqrt_sq_add_sq]; rfl

theorem norm_le_of {z : ℂ} {B : ℝ} (hB : 0 ≤ B) (h : z.re ^ 2 + z.im ^ 2 ≤ B ^ 2) : ‖z‖ ≤ B := by
  rw [Complex.norm_eq_sqrt_sq_add_sq, Real.sqrt_le_left hB]; exact h

theorem le_norm_of {z : ℂ} {B : ℝ} (h : B ^ 2 ≤ z.re ^ 2 + z.im ^ 2) : B ≤ ‖z‖ := by
  rw [Complex.norm_eq_sqrt_sq_add_sq]; exact Real.le_sqrt_of_sq_le h

/-- A point of a chord. -/
noncomputable def mix (s : ℝ) (a b : ℂ) : ℂ := ⟨(1 - s) * a.re + s * b.re, (1 - s) * a.im + s * b.im⟩

theorem mix_near {s e : ℝ} (h0 : 0 ≤ s) (h1 : s ≤ 1) {a b a' b' : ℂ} (ha : ‖a - a'‖ ≤ e) (hb : ‖b - b'‖ ≤ e) : ‖mix s a b - mix s a' b'‖ ≤ e := by
  have : mix s a b - mix s a' b' = ((1 - s : ℝ) : ℂ) * (a - a') + ((s : ℝ) : ℂ) * (b - b') := by
    apply Complex.ext <;> simp [mix] <;> ring
  rw [this]
  refine (norm_add_le _ _).trans ?_
  rw [norm_mul, norm_mul, Complex.norm_real, Complex.norm_real, Real.norm_of_nonneg (by linarith), Real.norm_of_nonneg h0]
  nlinarith [norm_nonneg (a - a'), norm_nonneg (b - b')]

/-- The chord from angle `m - h` to angle `m + h`. -/
theorem chord (m h s : ℝ) : (mix s (cis (m - h)) (cis (m + h))).re = Real.cos m * Real.cos h - Real.sin m * ((2 * s - 1) * Real.sin h) ∧
    (mix s (cis (m - h)) (cis (m + h))).im = Real.sin m * Real.cos h + Real.cos m * ((2 * s - 1) * Real.sin h) := by
  simp only [mix, cis, Real.cos_sub, Real.cos_add, Real.sin_sub, Real.sin_add]
  constructor <;> ring

theorem chord_norm (m h s : ℝ) (h0 : 0 ≤ s) (h1 : s ≤ 1) :
    Real.cos h ≤ ‖mix s (cis (m - h)) (cis (m + h))‖ ∧ ‖mix s (cis (m - h)) (cis (m + h))‖ ≤ 1 := by
  obtain ⟨e1, e2⟩ := chord m h s
  have hm := Real.sin_sq_add_cos_sq m
  have hh := Real.sin_sq_add_cos_sq h
  have hs : (2 * s - 1) ^ 2 ≤ 1 := by nlinarith
  have e3 : (mix s (cis (m - h)) (cis (m + h))).re ^ 2 + (mix s (cis (m - h)) (cis (m + h))).im ^ 2 =
      Real.cos h ^ 2 + (2 * s - 1) ^ 2 * Real.sin h ^ 2 := by
    rw [e1, e2]
    have : ∀ a b c d : ℝ, (a * c - b * d) ^ 2 + (b * c + a * d) ^ 2 = (b ^ 2 + a ^ 2) * (c ^ 2 + d ^ 2) := by intros; ring
    rw [this, hm]; ring
  constructor
  · apply le_norm_of
    rw [e3]
    nlinarith [sq_nonneg ((2 * s - 1) * Real.sin h)]
  · apply norm_le_of (by norm_num)
    rw [e3]
    nlinarith [sq_nonneg (Real.sin h)]

/-- A point of the circle and the point of the chord below it. -/
theorem chord_cover (m h t : ℝ) (hh : 0 ≤ h) (hh2 : h < Real.pi / 2) (ht : |t - m| ≤ h) :
    ∃ s, 0 ≤ s ∧ s ≤ 1 ∧ ‖cis t - mix s (cis (m - h)) (cis (m + h))‖ ≤ 1 - Real.cos h := by
  rcases eq_or_lt_of_le hh with h0 | h0
  · subst h0
    refine ⟨0, le_rfl, by norm_num, ?_⟩
    have : t = m := by
      have := abs_nonpos_iff.1 ht; linarith
    subst this
    rw [Real.cos_zero]
    apply norm_le_of (by norm_num)
    simp [mix, cis]
  · have hs : 0 < Real.sin h := Real.sin_pos_of_pos_of_lt_pi h0 (by linarith [Real.pi_pos])
    rw [abs_le] at ht
    have s1 : Real.sin (t - m) ≤ Real.sin h := Real.sin_le_sin_of_le_of_le_pi_div_two (by linarith) hh2.le ht.2
    have s2 : -Real.sin h ≤ Real.sin (t - m) := by
      rw [← Real.sin_neg]
      exact Real.sin_le_sin_of_le_of_le_pi_div_two (by linarith) (by linarith) ht.1
    refine ⟨(Real.sin (t - m) / Real.sin h + 1) / 2, ?_, ?_, ?_⟩
    · have : -1 ≤ Real.sin (t - m) / Real.sin h := by rw [le_div_iff₀ hs]; linarith
      linarith
    · have : Real.sin (t - m) / Real.sin h ≤ 1 := by rw [div_le_iff₀ hs]; linarith
      linarith
    · obtain ⟨e1, e2⟩ := chord m h ((Real.sin (t - m) / Real.sin h + 1) / 2)
      have e3 : (2 * ((Real.sin (t - m) / Real.sin h + 1) / 2) - 1) * Real.sin h = Real.sin (t - m) := by field_simp; ring
      rw [e3] at e1 e2
      have c1 : Real.cos t = Real.cos m * Real.cos (t - m) - Real.sin m * Real.sin (t - m) := by
        rw [← Real.cos_add]; ring_nf
      have c2 : Real.sin t = Real.sin m * Real.cos (t - m) + Real.cos m * Real.sin (t - m) := by
        rw [← Real.sin_add]; ring_nf
      have c3 : Real.cos h ≤ Real.cos (t - m) := by
        rw [← Real.cos_abs (t - m)]
        exact Real.cos_le_cos_of_nonneg_of_le_pi (abs_nonneg _) (by linarith [Real.pi_pos]) (abs_le.2 ht)
      have c4 := Real.cos_le_one (t - m)
      apply norm_le_of (by linarith [Real.cos_le_one h])
      rw [Complex.sub_re, Complex.sub_im, e1, e2]
      simp only [cis]
      rw [c1, c2]
      have hm := Real.sin_sq_add_cos_sq m
      have : ∀ a b c d e : ℝ, (a * c - b * d - (a * e - b * d)) ^ 2 + (b * c + a * d - (b * e + a * d)) ^ 2 = (b ^ 2 + a ^ 2) * (c - e) ^ 2 := by
        intros; ring
      rw [this, hm, one_mul]
      apply sq_le_sq'
      · linarith
      · linarith

/-- The bow over a chord is flat. -/
theorem bow (r : Int) (hr : 0 ≤ r) : (r : ℝ) * (1 - Real.cos (Real.pi / ((r + 16 : Int) : ℝ))) ≤ 772 / 10000 := by
  have hr' : (0 : ℝ) ≤ r := by exact_mod_cast hr
  have hc : ((r + 16 : Int) : ℝ) = r + 16 := by push_cast; rfl
  rw [hc]
  have h1 := Real.one_sub_sq_div_two_le_cos (x := Real.pi / (r + 16))
  have p2 := Real.pi_lt_d4
  have p0 := Real.pi_pos
  have hp : Real.pi ^ 2 ≤ 98697 / 10000 := by nlinarith
  have h2 : (r : ℝ) * (1 - Real.cos (Real.pi / (r + 16))) ≤ r * ((Real.pi / (r + 16)) ^ 2 / 2) := by
    apply mul_le_mul_of_nonneg_left _ hr'; linarith
  refine h2.trans ?_
  have h3 : (r : ℝ) * ((Real.pi / (r + 16)) ^ 2 / 2) = r * Real.pi ^ 2 / (2 * (r + 16) ^ 2) := by field_simp
  rw [h3, div_le_iff₀ (by positivity)]
  nlinarith [sq_nonneg ((r : ℝ) - 16), mul_le_mul_of_nonneg_left hp hr']

theorem straight_near {a b c d : Int} {f : Int → Int} (hf : Straight a b c d f) {t : Int} (h1 : min a c ≤ t) (h2 : t ≤ max a c) (hne : a ≠ c) :
    |(f t : ℝ) - (b + (t - a) / (c - a) * (d - b))| ≤ 1 := by
  have h := hf.near t h1 h2 hne
  have hd : ((c : ℝ) - a) ≠ 0 := by
    intro h0
    have : (c : ℝ) = a := by linarith
    exact hne (by exact_mod_cast this.symm)
  have hp : 0 < |(c : ℝ) - a| := abs_pos.2 hd
  have h' : |((f t - b) * (c - a) - (t - a) * (d - b) : ℝ)| ≤ |(c : ℝ) - a| := by
    have : (|(f t - b) * (c - a) - (t - a) * (d - b)| : Int) ≤ |c - a| := by
      rw [Int.abs_eq_natAbs, Int.abs_eq_natAbs]; exact_mod_cast h.le
    exact_mod_cast this
  have e : (f t : ℝ) - (b + (t - a) / (c - a) * (d - b)) = ((f t - b) * (c - a) - (t - a) * (d - b)) / (c - a) := by
    field_simp; ring
  rw [e, abs_div, div_le_one hp]
  exact h'

theorem straight_point {a b c d : Int} {f : Int → Int} (hf : Straight a b c d f) {t : Int} (h1 : min a c ≤ t) (h2 : t ≤ max a c) :
    ∃ s : ℝ, 0 ≤ s ∧ s ≤ 1 ∧ (t : ℝ) = (1 - s) * a + s * c ∧ |(f t : ℝ) - ((1 - s) * b + s * d)| ≤ 1 := by
  by_cases hne : a = c
  · subst hne
    have : t = a := by omega
    subst this
    refine ⟨0, le_rfl, by norm_num, by ring, ?_⟩
    rw [hf.start]
    norm_num
  · have hd : ((c : ℝ) - a) ≠ 0 := by
      intro h0
      have : (c : ℝ) = a := by linarith
      exact hne (by exact_mod_cast this.symm)
    have hn := straight_near hf h1 h2 hne
    refine ⟨(t - a) / (c - a), ?_, ?_, ?_, ?_⟩
    · rcases lt_or_gt_of_ne hne with hlt | hlt
      · have : (a : ℝ) ≤ t := by exact_mod_cast (by omega : a ≤ t)
        have : (a : ℝ) < c := by exact_mod_cast hlt
        exact div_nonneg (by linarith) (by linarith)
      · have : (t : ℝ) ≤ a := by exact_mod_cast (by omega : t ≤ a)
        have : (c : ℝ) < a := by exact_mod_cast hlt
        exact div_nonneg_of_nonpos (by linarith) (by linarith)
    · rcases lt_or_gt_of_ne hne with hlt | hlt
      · have : (t : ℝ) ≤ c := by exact_mod_cast (by omega : t ≤ c)
        have : (a : ℝ) < c := by exact_mod_cast hlt
        rw [div_le_one (by linarith)]; linarith
      · have : (c : ℝ) ≤ t := by exact_mod_cast (by omega : c ≤ t)
        have : (c : ℝ) < a := by exact_mod_cast hlt
        rw [div_le_one_of_neg (by linarith)]; linarith
    · field_simp; ring
    · have e : (1 - ((t : ℝ) - a) / (c - a)) * b + (t - a) / (c - a) * d = b + (t - a) / (c - a) * (d - b) := by ring
      rw [e]; exact hn

theorem straight_cover {a b c d : Int} {f : Int → Int} (hf : Straight a b c d f) (hs : (d - b).natAbs ≤ (c - a).natAbs) (s : ℝ) (h0 : 0 ≤ s)
    (h1 : s ≤ 1) : ∃ t : Int, min a c ≤ t ∧ t ≤ max a c ∧ |(t : ℝ) - ((1 - s) * a + s * c)| ≤ 1 / 2 ∧
      |(f t : ℝ) - ((1 - s) * b + s * d)| ≤ 3 / 2 := by
  by_cases hne : a = c
  · subst hne
    have : d = b := by omega
    subst this
    refine ⟨a, by omega, by omega, ?_, ?_⟩
    · rw [show (a : ℝ) - ((1 - s) * a + s * a) = 0 by ring]; norm_num
    · rw [hf.start, show (d : ℝ) - ((1 - s) * d + s * d) = 0 by ring]; norm_num
  · have hd : ((c : ℝ) - a) ≠ 0 := by
      intro h0
      have : (c : ℝ) = a := by linarith
      exact hne (by exact_mod_cast this.symm)
    have hp : 0 < |(c : ℝ) - a| := abs_pos.2 hd
    have hq : ∃ q : ℝ, q = (1 - s) * a + s * c := ⟨_, rfl⟩
    obtain ⟨q, hq⟩ := hq
    have f1 := Int.floor_le (q + 1 / 2)
    have f2 := Int.lt_floor_add_one (q + 1 / 2)
    have ht1 : min a c ≤ ⌊q + 1 / 2⌋ := by
      rw [Int.le_floor]
      rcases lt_or_gt_of_ne hne with hlt | hlt
      · have : (a : ℝ) < c := by exact_mod_cast hlt
        rw [min_eq_left (by omega)]
        nlinarith
      · have : (c : ℝ) < a := by exact_mod_cast hlt
        rw [min_eq_right (by omega)]
        nlinarith
    have ht2 : ⌊q + 1 / 2⌋ ≤ max a c := by
      have : ⌊q + 1 / 2⌋ < max a c + 1 := by
        rw [Int.floor_lt]
        push_cast
        rcases lt_or_gt_of_ne hne with hlt | hlt
        · have : (a : ℝ) < c := by exact_mod_cast hlt
          rw [max_eq_right (by linarith)]
          nlinarith
        · have : (c : ℝ) < a := by exact_mod_cast hlt
          rw [max_eq_left (by linarith)]
          nlinarith
      omega
    generalize ⌊q + 1 / 2⌋ = t at *
    have hn := straight_near hf ht1 ht2 hne
    have hh : |(t : ℝ) - q| ≤ 1 / 2 := by rw [abs_le]; constructor <;> linarith
    refine ⟨t, ht1, ht2, by rw [← hq]; exact hh, ?_⟩
    have hs' : |(d : ℝ) - b| ≤ |(c : ℝ) - a| := by
      have : (|d - b| : Int) ≤ |c - a| := by rw [Int.abs_eq_natAbs, Int.abs_eq_natAbs]; exact_mod_cast hs
      exact_mod_cast this
    have e : (f t : ℝ) - ((1 - s) * b + s * d) = (f t - (b + (t - a) / (c - a) * (d - b))) + (t - q) * ((d - b) / (c - a)) := by
      rw [hq]; field_simp; ring
    rw [e]
    refine (abs_add_le _ _).trans ?_
    have hg : |((d : ℝ) - b) / (c - a)| ≤ 1 := by rw [abs_div, div_le_one hp]; exact hs'
    rw [abs_mul]
    have : |(t : ℝ) - q| * |((d : ℝ) - b) / (c - a)| ≤ 1 / 2 * 1 := mul_le_mul hh hg (abs_nonneg _) (by norm_num)
    linarith

theorem line_dot {x1 y1 x2 y2 : Int} {ps : List (Int × Int)} (h : IsLine x1 y1 x2 y2 ps) {u v : Int} (hm : (u, v) ∈ ps) :
    ∃ s : ℝ, 0 ≤ s ∧ s ≤ 1 ∧ ‖pt u v - mix s (pt x1 y1) (pt x2 y2)‖ ≤ 1 := by
  obtain ⟨-, h⟩ := h
  split at h
  · obtain ⟨f, hf, hmem⟩ := h
    obtain ⟨h1, h2, rfl⟩ := (hmem u v).1 hm
    obtain ⟨s, g0, g1, g2, g3⟩ := straight_point hf h1 h2
    refine ⟨s, g0, g1, norm_le_of (by norm_num) ?_⟩
    have e1 : (pt u (f u) - mix s (pt x1 y1) (pt x2 y2)).re = 0 := by simp only [Complex.sub_re, pt, mix]; linarith
    have e2 : (pt u (f u) - mix s (pt x1 y1) (pt x2 y2)).im = f u - ((1 - s) * y1 + s * y2) := rfl
    rw [e1, e2]
    rw [abs_le] at g3
    nlinarith
  · obtain ⟨f, hf, hmem⟩ := h
    obtain ⟨h1, h2, rfl⟩ := (hmem u v).1 hm
    obtain ⟨s, g0, g1, g2, g3⟩ := straight_point hf h1 h2
    refine ⟨s, g0, g1, norm_le_of (by norm_num) ?_⟩
    have e1 : (pt (f v) v - mix s (pt x1 y1) (pt x2 y2)).im = 0 := by simp only [Complex.sub_im, pt, mix]; linarith
    have e2 : (pt (f v) v - mix s (pt x1 y1) (pt x2 y2)).re = f v - ((1 - s) * x1 + s * x2) := rfl
    rw [e1, e2]
    rw [abs_le] at g3
    nlinarith

theorem line_cover {x1 y1 x2 y2 : Int} {ps : List (Int × Int)} (h : IsLine x1 y1 x2 y2 ps) (s : ℝ) (h0 : 0 ≤ s) (h1 : s ≤ 1) :
    ∃ u v, (u, v) ∈ ps ∧ ‖pt u v - mix s (pt x1 y1) (pt x2 y2)‖ ≤ 15812 / 10000 := by
  obtain ⟨-, h⟩ := h
  split at h
  · rename_i hs
    obtain ⟨f, hf, hmem⟩ := h
    obtain ⟨t, t1, t2, t3, t4⟩ := straight_cover hf hs s h0 h1
    refine ⟨t, f t, (hmem _ _).2 ⟨t1, t2, rfl⟩, norm_le_of (by norm_num) ?_⟩
    have e1 : (pt t (f t) - mix s (pt x1 y1) (pt x2 y2)).re = t - ((1 - s) * x1 + s * x2) := rfl
    have e2 : (pt t (f t) - mix s (pt x1 y1) (pt x2 y2)).im = f t - ((1 - s) * y1 + s * y2) := rfl
    rw [e1, e2]
    have q1 := sq_le_sq' (abs_le.1 t3).1 (abs_le.1 t3).2
    have q2 := sq_le_sq' (abs_le.1 t4).1 (abs_le.1 t4).2
    norm_num at *
    linarith
  · rename_i hs
    obtain ⟨f, hf, hmem⟩ := h
    obtain ⟨t, t1, t2, t3, t4⟩ := straight_cover hf (by omega) s h0 h1
    refine ⟨f t, t, (hmem _ _).2 ⟨t1, t2, rfl⟩, norm_le_of (by norm_num) ?_⟩
    have e1 : (pt (f t) t - mix s (pt x1 y1) (pt x2 y2)).im = t - ((1 - s) * y1 + s * y2) := rfl
    have e2 : (pt (f t) t - mix s (pt x1 y1) (pt x2 y2)).re = f t - ((1 - s) * x1 + s * x2) := rfl
    rw [e1, e2]
    have q1 := sq_le_sq' (abs_le.1 t3).1 (abs_le.1 t3).2
    have q2 := sq_le_sq' (abs_le.1 t4).1 (abs_le.1 t4).2
    norm_num at *
    linarith

theorem corner_near {a b a' b' : ℝ} (h1 : |a - a'| ≤ eps) (h2 : |b - b'| ≤ eps) : ‖pt a b - pt a' b'‖ ≤ 141426 / 100000 := by
  apply norm_le_of (by norm_num)
  have e1 : (pt a b - pt a' b').re = a - a' := rfl
  have e2 : (pt a b - pt a' b').im = b - b' := rfl
  rw [e1, e2]
  have q1 := sq_le_sq' (abs_le.1 h1).1 (abs_le.1 h1).2
  have q2 := sq_le_sq' (abs_le.1 h2).1 (abs_le.1 h2).2
  unfold eps at q1 q2
  norm_num at *
  linarith

/-- A point on the ideal circle. -/
noncomputable def onCircle (x y r : Int) (t : ℝ) : ℂ := pt (x + r * Real.cos t) (y + r * Real.sin t)

theorem mix_circle (x y r : Int) (s a b : ℝ) : mix s (onCircle x y r a) (onCircle x y r b) - pt x y = ((r : ℝ) : ℂ) * mix s (cis a) (cis b) := by
  apply Complex.ext <;> simp [mix, onCircle, cis, pt] <;> ring

theorem segment_ok {m : Libm} (hm : Accurate m) {rnd : ℝ → ℝ} (h : Rounding rnd) (x y r i : Int) (hx : |x| ≤ 524288) (hy : |y| ≤ 524288)
    (hr : 0 ≤ r) (hr2 : r ≤ 524287) (hi : 0 ≤ i) (hi2 : i < r + 16) :
    ∃ ps, segment m rnd x y r i = .ok ps ∧ (∀ u v, (u, v) ∈ ps → |‖pt u v - pt x y‖ - r| ≤ 5 / 2) ∧
      ∀ t : ℝ, ideal i (r + 16) ≤ t → t ≤ ideal (i + 1) (r + 16) → ∃ u v, (u, v) ∈ ps ∧ ‖pt u v - onCircle x y r t‖ ≤ 31 / 10 := by
  have hr' : (0 : ℝ) ≤ r := by exact_mod_cast hr
  have hr2' : (r : ℝ) ≤ 524287 := by exact_mod_cast hr2
  have hrun : (r : ℝ) ≤ ((r + 16 : Int) : ℝ) := by push_cast; linarith
  have hu : (0 : ℝ) < ((r + 16 : Int) : ℝ) := by push_cast; linarith
  have n1 := angle_near h i (r + 16) hi (by omega) (by omega) (by omega)
  have n2 := angle_near h (i + 1) (r + 16) (by omega) (by omega) (by omega) (by omega)
  have m1 : |angle rnd i (r + 16) - ideal i (r + 16)| * r ≤ 1 / 2 ^ 19 := (mul_le_mul_of_nonneg_left hrun (abs_nonneg _)).trans n1
  have m2 : |angle rnd (i + 1) (r + 16) - ideal (i + 1) (r + 16)| * r ≤ 1 / 2 ^ 19 := (mul_le_mul_of_nonneg_left hrun (abs_nonneg _)).trans n2
  have i2 : ideal (i + 1) (r + 16) = ideal i (r + 16) + 2 * (Real.pi / ((r + 16 : Int) : ℝ)) := by
    unfold ideal; rw [Int.cast_add i 1]; field_simp; push_cast; ring
  obtain ⟨x1, ex1, nx1, -⟩ := coord_near h x r hx hr hr2 _ _ (Real.abs_cos_le_one _) (cos_near hm _ _ _ hr' hr2' m1)
  obtain ⟨y1, ey1, ny1, -⟩ := coord_near h y r hy hr hr2 _ _ (Real.abs_sin_le_one _) (sin_near hm _ _ _ hr' hr2' m1)
  obtain ⟨x2, ex2, nx2, -⟩ := coord_near h x r hx hr hr2 _ _ (Real.abs_cos_le_one _) (cos_near hm _ _ _ hr' hr2' m2)
  obtain ⟨y2, ey2, ny2, -⟩ := coord_near h y r hy hr hr2 _ _ (Real.abs_sin_le_one _) (sin_near hm _ _ _ hr' hr2' m2)
  generalize hα : ideal i (r + 16) = α at *
  generalize hβ : ideal (i + 1) (r + 16) = β at *
  obtain ⟨w, hw⟩ : ∃ w, w = Real.pi / ((r + 16 : Int) : ℝ) := ⟨_, rfl⟩
  rw [← hw] at i2
  have hw0 : 0 < w := by rw [hw]; exact div_pos Real.pi_pos hu
  have hrw : (r : ℝ) * w ≤ 4 := by
    rw [hw, ← mul_div_assoc, div_le_iff₀ hu]
    nlinarith [Real.pi_lt_d4]
  have hw1 : w < Real.pi / 2 := by
    rw [hw]
    apply div_lt_div_of_pos_left Real.pi_pos (by norm_num)
    push_cast; linarith
  have hbow : (r : ℝ) * (1 - Real.cos w) ≤ 772 / 10000 := by rw [hw]; exact bow r hr
  -- the corners are close together
  have close : ∀ a b : Int, |(a : ℝ) - b| ≤ 1000 → (a - b).natAbs ≤ 2049 := by
    intro a b hab
    have : (|a - b| : Int) ≤ 1000 := by exact_mod_cast hab
    rw [Int.abs_eq_natAbs] at this
    omega
  have dcos : |(r : ℝ) * Real.cos β - r * Real.cos α| ≤ 8 := by
    rw [← mul_sub, abs_mul, abs_of_nonneg hr']
    have := Real.abs_cos_sub_cos_le β α
    have hab : |β - α| = 2 * w := by rw [i2, add_sub_cancel_left, abs_of_pos (by linarith)]
    rw [hab] at this
    nlinarith [mul_le_mul_of_nonneg_left this hr']
  have dsin : |(r : ℝ) * Real.sin β - r * Real.sin α| ≤ 8 := by
    rw [← mul_sub, abs_mul, abs_of_nonneg hr']
    have := Real.abs_sin_sub_sin_le β α
    have hab : |β - α| = 2 * w := by rw [i2, add_sub_cancel_left, abs_of_pos (by linarith)]
    rw [hab] at this
    nlinarith [mul_le_mul_of_nonneg_left this hr']
  have he : eps ≤ 2 := by unfold eps; norm_num
  have cx : (x2 - x1).natAbs ≤ 2049 := by
    apply close
    rw [abs_le] at *
    constructor <;> linarith
  have cy : (y2 - y1).natAbs ≤ 2049 := by
    apply close
    rw [abs_le] at *
    constructor <;> linarith
  obtain ⟨ps, hps, hl⟩ := linePixels_eq x1 y1 x2 y2 (by omega) (by omega)
  have hline := hl cx cy
  have c1 : ‖pt x1 y1 - onCircle x y r α‖ ≤ 141426 / 100000 := corner_near nx1 ny1
  have c2 : ‖pt x2 y2 - onCircle x y r β‖ ≤ 141426 / 100000 := corner_near nx2 ny2
  have hα' : α = (α + w) - w := by ring
  have hβ' : β = (α + w) + w := by rw [i2]; ring
  refine ⟨ps, ?_, ?_, ?_⟩
  · unfold segment
    rw [ex1, ey1, ex2, ey2]
    exact hps
  · intro u v huv
    obtain ⟨s, s0, s1, sd⟩ := line_dot hline huv
    have hmix := mix_near s0 s1 c1 c2
    have hz := mix_circle x y r s α β
    obtain ⟨k1, k2⟩ := chord_norm (α + w) w s s0 s1
    rw [← hα', ← hβ'] at k1 k2
    have hn : ‖mix s (onCircle x y r α) (onCircle x y r β) - pt x y‖ = r * ‖mix s (cis α) (cis β)‖ := by
      rw [hz, norm_mul, Complex.norm_real, Real.norm_of_nonneg hr']
    have t1 : ‖pt u v - mix s (onCircle x y r α) (onCircle x y r β)‖ ≤ 1 + 141426 / 100000 :=
      (norm_sub_le_norm_sub_add_norm_sub _ _ _).trans (add_le_add sd hmix)
    have t2 : |‖pt u v - pt x y‖ - ‖mix s (onCircle x y r α) (onCircle x y r β) - pt x y‖| ≤ 1 + 141426 / 100000 := by
      refine (abs_norm_sub_norm_le _ _).trans ?_
      rw [sub_sub_sub_cancel_right]; exact t1
    rw [hn] at t2
    have k3 := mul_le_mul_of_nonneg_left k1 hr'
    have k4 := mul_le_mul_of_nonneg_left k2 hr'
    rw [abs_le] at t2 ⊢
    constructor <;> linarith
  · intro t ht1 ht2
    obtain ⟨s, s0, s1, sd⟩ := chord_cover (α + w) w t hw0.le hw1 (by rw [abs_le]; constructor <;> linarith)
    rw [← hα', ← hβ'] at sd
    obtain ⟨u, v, huv, hd⟩ := line_cover hline s s0 s1
    have hmix := mix_near s0 s1 c1 c2
    have hz : onCircle x y r t - mix s (onCircle x y r α) (onCircle x y r β) = ((r : ℝ) : ℂ) * (cis t - mix s (cis α) (cis β)) := by
      apply Complex.ext <;> simp [onCircle, cis, pt, mix] <;> ring
    have t1 : ‖onCircle x y r t - mix s (onCircle x y r α) (onCircle x y r β)‖ ≤ 772 / 10000 := by
      rw [hz, norm_mul, Complex.norm_real, Real.norm_of_nonneg hr']
      exact (mul_le_mul_of_nonneg_left sd hr').trans hbow
    refine ⟨u, v, huv, ?_⟩
    have t2 := norm_sub_le_norm_sub_add_norm_sub (pt u v) (mix s (pt x1 y1) (pt x2 y2)) (onCircle x y r t)
    have t3 := norm_sub_le_norm_sub_add_norm_sub (mix s (pt x1 y1) (pt x2 y2)) (mix s (onCircle x y r α) (onCircle x y r β)) (onCircle x y r t)
    linarith [norm_sub_rev (mix s (onCircle x y r α) (onCircle x y r β)) (onCircle x y r t)]

theorem segments_ok {m : Libm} (hm : Accurate m) {rnd : ℝ → ℝ} (h : Rounding rnd) (x y r : Int) (hx : |x| ≤ 524288) (hy : |y| ≤ 524288)
    (hr : 0 ≤ r) (hr2 : r ≤ 524287) (n : Nat) : ∀ i : Int, 0 ≤ i → i + n ≤ r + 16 →
    ∃ ps, segments m rnd x y r n i = .ok ps ∧ (∀ u v, (u, v) ∈ ps → |‖pt u v - pt x y‖ - r| ≤ 5 / 2) ∧
      ∀ j : Int, i ≤ j → j < i + n → ∀ t : ℝ, ideal j (r + 16) ≤ t → t ≤ ideal (j + 1) (r + 16) →
        ∃ u v, (u, v) ∈ ps ∧ ‖pt u v - onCircle x y r t‖ ≤ 31 / 10 := by
  induction n with
  | zero => intro i _ _; exact ⟨[], rfl, by simp, fun j h1 h2 => by omega⟩
  | succ n ih =>
    intro i h0 hn
    obtain ⟨ps, e1, p1, p2⟩ := segment_ok hm h x y r i hx hy hr hr2 h0 (by omega)
    obtain ⟨qs, e2, q1, q2⟩ := ih (i + 1) (by omega) (by omega)
    refine ⟨ps ++ qs, ?_, ?_, ?_⟩
    · rw [segments, e1]
      show (segments m rnd x y r n (i + 1)).bind _ = _
      rw [e2]; rfl
    · intro u v huv
      rcases List.mem_append.1 huv with huv | huv
      · exact p1 u v huv
      · exact q1 u v huv
    · intro j h1 h2 t ht1 ht2
      by_cases hj : j = i
      · subst hj
        obtain ⟨u, v, k1, k2⟩ := p2 t ht1 ht2
        exact ⟨u, v, List.mem_append_left _ k1, k2⟩
      · obtain ⟨u, v, k1, k2⟩ := q2 j (by omega) (by omega) t ht1 ht2
        exact ⟨u, v, List.mem_append_right _ k1, k2⟩

/-- Every angle lies over some line, up to full turns. -/
theorem turn (units : Int) (hu : 0 < units) (t : ℝ) : ∃ (j : Int) (t' : ℝ), 0 ≤ j ∧ j < units ∧ ideal j units ≤ t' ∧ t' ≤ ideal (j + 1) units ∧
    Real.cos t' = Real.cos t ∧ Real.sin t' = Real.sin t := by
  have hu' : (0 : ℝ) < units := by exact_mod_cast hu
  have p0 := Real.two_pi_pos
  obtain ⟨k, hk⟩ : ∃ k : Int, k = ⌊t / (2 * Real.pi)⌋ := ⟨_, rfl⟩
  have f1 := Int.floor_le (t / (2 * Real.pi))
  have f2 := Int.lt_floor_add_one (t / (2 * Real.pi))
  rw [← hk] at f1 f2
  rw [le_div_iff₀ p0] at f1
  rw [div_lt_iff₀ p0] at f2
  obtain ⟨t', ht'⟩ : ∃ t', t' = t - k * (2 * Real.pi) := ⟨_, rfl⟩
  have g1 : 0 ≤ t' := by rw [ht']; linarith
  have g2 : t' < 2 * Real.pi := by rw [ht']; linarith
  have e1 := Int.floor_le (t' * units / (2 * Real.pi))
  have e2 := Int.lt_floor_add_one (t' * units / (2 * Real.pi))
  refine ⟨⌊t' * units / (2 * Real.pi)⌋, t', ?_, ?_, ?_, ?_, ?_, ?_⟩
  · rw [Int.floor_nonneg]; positivity
  · rw [Int.floor_lt, div_lt_iff₀ p0, mul_comm]
    exact mul_lt_mul_of_pos_left g2 hu'
  · unfold ideal
    rw [le_div_iff₀ p0] at e1
    rw [div_le_iff₀ hu']; linarith
  · unfold ideal
    rw [div_lt_iff₀ p0] at e2
    rw [le_div_iff₀ hu']; push_cast; linarith
  · rw [ht', Real.cos_sub_int_mul_two_pi]
  · rw [ht', Real.sin_sub_int_mul_two_pi]

end Sbc.Circle
