import Mathlib.Data.Int.Log
import Verif.Spec.RealMath
import Mathlib.Analysis.Real.Pi.Bounds
import Mathlib.Analysis.Complex.ExponentialBounds
import Mathlib.Analysis.SpecialFunctions.Trigonometric.Bounds
import Mathlib.Tactic.Linarith
import Mathlib.Tactic.NormNum
import Mathlib.Tactic.Positivity
set_option autoImplicit false
/-!
# SQR, SIN, COS, TAN, ATAN, EXP, LOG, POW (C98)
-/
namespace Sbc.RealMath
open Sbc Sbc.RealMath.Spec

theorem toFixp_ok {n : Int} (h : I32 n) : toFixp n = .ok n := if_pos h
theorem toFixp_ub {n : Int} (h : ¬ I32 n) : toFixp n = .ub := if_neg h

/-- A floored result. -/
theorem floored_ok {y x B e : ℝ} (h : Near y x) (hx : |x| ≤ B) (hB : 4096 * B + e ≤ 2147483646) (he : 4096 * (B / 2 ^ 40) ≤ e) :
    ∃ r, floored y = .ok r ∧ Down e r x := by
  unfold Near at h
  have h1 : |y - x| ≤ B / 2 ^ 40 := h.trans (by gcongr)
  obtain ⟨h2, h3⟩ := abs_le.mp h1
  obtain ⟨h4, h5⟩ := abs_le.mp hx
  have f1 := Int.floor_le (4096 * y)
  have f2 := Int.lt_floor_add_one (4096 * y)
  refine ⟨⌊4096 * y⌋, ?_, ?_, ?_⟩
  · apply toFixp_ok
    have a1 : (⌊4096 * y⌋ : ℝ) ≤ 2147483646 := by linarith
    have a2 : (-2147483648 : ℝ) < ⌊4096 * y⌋ := by linarith
    have b1 : ⌊4096 * y⌋ ≤ 2147483646 := by exact_mod_cast a1
    have b2 : -2147483648 < ⌊4096 * y⌋ := by exact_mod_cast a2
    unfold I32
    omega
  · linarith
  · linarith

/-- **C98.** SIN: the sine, rounded down to 12 binary places (an error of 2⁻²⁸ units apart), for every argument. -/
theorem C98_sin {m : Libm} (hm : Accurate m) (v : Int) : ∃ r, fnSin m v = .ok r ∧ Down (1 / 2 ^ 28) r (Real.sin (num v)) :=
  floored_ok (hm.sin _) (Real.abs_sin_le_one _) (by norm_num) (by norm_num)

/-- **C98.** COS, likewise. -/
theorem C98_cos {m : Libm} (hm : Accurate m) (v : Int) : ∃ r, fnCos m v = .ok r ∧ Down (1 / 2 ^ 28) r (Real.cos (num v)) :=
  floored_ok (hm.cos _) (Real.abs_cos_le_one _) (by norm_num) (by norm_num)

/-- **C98.** ATAN with one argument: the angle, rounded down. -/
theorem C98_atan {m : Libm} (hm : Accurate m) (v : Int) : ∃ r, fnAtan m v = .ok r ∧ Down (1 / 2 ^ 27) r (Real.arctan (num v)) := by
  have h : |Real.arctan (num v)| ≤ 2 := by
    have h1 := Real.arctan_lt_pi_div_two (num v)
    have h2 := Real.neg_pi_div_two_lt_arctan (num v)
    have h3 := Real.pi_le_four
    rw [abs_le]
    constructor <;> linarith
  exact floored_ok (hm.atan _) h (by norm_num) (by norm_num)

/-- **C98.** ATAN(y,x): the angle of the point (x,y), between −π and π, rounded down. -/
theorem C98_atan2 {m : Libm} (hm : Accurate m) (y x : Int) : ∃ r, fnAtan2 m y x = .ok r ∧ Down (1 / 2 ^ 26) r (Complex.arg ⟨num x, num y⟩) := by
  have h : |Complex.arg ⟨num x, num y⟩| ≤ 4 := by
    have h3 := Real.pi_le_four
    exact (Complex.abs_arg_le_pi _).trans h3
  exact floored_ok (hm.atan2 _ _) h (by norm_num) (by norm_num)

/-- **C98 (partial).** TAN: the tangent, rounded down, if it is in the range of numbers (up to 524287).  Missing: what happens
otherwise (`C98_tan_violated`). -/
theorem C98_tan_partial {m : Libm} (hm : Accurate m) (v : Int) (h : |Real.tan (num v)| ≤ 524287) :
    ∃ r, fnTan m v = .ok r ∧ Down (1 / 2 ^ 9) r (Real.tan (num v)) :=
  floored_ok (hm.tan _) h (by norm_num) (by norm_num)

/-- **C98 (partial).** EXP: the power of e, rounded down, if it is in the range of numbers.  Missing: larger ones
(`C98_exp_violated`). -/
theorem C98_exp_partial {m : Libm} (hm : Accurate m) (v : Int) (h : Real.exp (num v) ≤ 524287) :
    ∃ r, fnExp m v = .ok r ∧ Down (1 / 2 ^ 9) r (Real.exp (num v)) :=
  floored_ok (B := 524287) (hm.exp _) (by rw [abs_of_pos (Real.exp_pos _)]; exact h) (by norm_num) (by norm_num)

/-- A floored result that is too large. -/
theorem floored_ub {y x : ℝ} (h : Near y x) (hx : 524289 ≤ x) : floored y = .ub := by
  unfold Near at h
  rw [abs_of_pos (by linarith : (0 : ℝ) < x)] at h
  have h2 := (abs_le.mp h).1
  have h3 : (524288 : ℝ) ≤ y := by
    have : x / 2 ^ 40 ≤ x / 1000000 := by
      apply div_le_div_of_nonneg_left (by linarith) (by norm_num) (by norm_num)
    linarith
  apply toFixp_ub
  have : (2147483648 : ℤ) ≤ ⌊4096 * y⌋ := by
    rw [Int.le_floor]
    push_cast
    linarith
  unfold I32
  omega

/-- **C98 (violated).** EXP of a number from 13.18 on is outside the range; instead of reporting an overflow, the program
converts it, which is undefined. -/
theorem C98_exp_violated {m : Libm} (hm : Accurate m) (v : Int) (h : 53986 ≤ v) : fnExp m v = .ub := by
  apply floored_ub (hm.exp _)
  have h1 : (53986 : ℝ) ≤ v := by exact_mod_cast h
  have h2 : (13.18 : ℝ) ≤ num v := by
    unfold num
    rw [le_div_iff₀ (by norm_num)]
    linarith
  have h3 : Real.exp (19 * Real.log 2) = 524288 := by
    rw [show (19 : ℝ) * Real.log 2 = ((19 : ℕ) : ℝ) * Real.log 2 by norm_num, Real.exp_nat_mul, Real.exp_log (by norm_num)]
    norm_num
  have h4 := Real.log_two_lt_d9
  have h5 : Real.exp (num v) = Real.exp (19 * Real.log 2) * Real.exp (num v - 19 * Real.log 2) := by
    rw [← Real.exp_add]; congr 1; ring
  have h6 := Real.add_one_le_exp (num v - 19 * Real.log 2)
  rw [h5, h3]
  have h7 : (1.01 : ℝ) ≤ Real.exp (num v - 19 * Real.log 2) := by linarith
  linarith

/-- **C98 (violated).** TAN(344.00439…) (the number 1409042/4096) is about 964476, outside the range; instead of reporting an
overflow, the program converts it, which is undefined. -/
theorem C98_tan_violated {m : Libm} (hm : Accurate m) : fnTan m 1409042 = .ub := by
  apply floored_ub (hm.tan _)
  have p1 := Real.pi_gt_d20
  have p2 := Real.pi_lt_d20
  set d : ℝ := 219 * Real.pi / 2 - num 1409042 with hd
  have n1 : num 1409042 = 1409042 / 4096 := by unfold num; norm_num
  have d1 : 0.00000103 < d := by rw [hd, n1]; linarith
  have d2 : d < 0.00000104 := by rw [hd, n1]; linarith
  have e1 : num 1409042 = (Real.pi / 2 - d) + (109 : ℤ) * Real.pi := by rw [hd]; push_cast; ring
  have e2 : Real.tan (num 1409042) = Real.cos d / Real.sin d := by
    rw [e1, Real.tan_add_int_mul_pi, Real.tan_pi_div_two_sub, Real.tan_eq_sin_div_cos, inv_div]
  rw [e2]
  have s1 : Real.sin d ≤ d := Real.sin_le (by linarith)
  have s2 : 0 < Real.sin d := Real.sin_pos_of_pos_of_lt_pi (by linarith) (by linarith)
  have c1 : 1 - d ^ 2 / 2 ≤ Real.cos d := Real.one_sub_sq_div_two_le_cos
  rw [le_div_iff₀ s2]
  have c2 : d ^ 2 ≤ 0.00000104 ^ 2 := by gcongr
  have : (524289 : ℝ) * Real.sin d ≤ 524289 * 0.00000104 := by
    have := s1.trans d2.le
    linarith
  norm_num at this c2 ⊢
  linarith

/-- **C98 (violated).** SQR of a negative number is not reported: the program converts a not-a-number, which is undefined. -/
theorem C98_sqr_violated (m : Libm) (v : Int) (h : v < 0) : fnSqr m v = .ub := if_pos h

/-- **C98 (partial).** SQR of a number that is not negative: the square root, rounded down, exactly.  Missing: negative numbers
(`C98_sqr_violated`). -/
theorem C98_sqr_partial {m : Libm} (hm : Accurate m) (v : Int) (h0 : 0 ≤ v) (hv : I32 v) :
    ∃ r : Nat, fnSqr m v = .ok r ∧ (r : Int) ^ 2 ≤ 4096 * v ∧ 4096 * v < ((r : Int) + 1) ^ 2 := by
  obtain ⟨rnd, hr, hs⟩ := hm.sqrt
  obtain ⟨n, rfl⟩ := Int.eq_ofNat_of_zero_le h0
  have hn : n ≤ 2147483647 := by unfold I32 at hv; omega
  have q1 := Nat.sqrt_le' (4096 * n)
  have q2 := Nat.lt_succ_sqrt' (4096 * n)
  set r := Nat.sqrt (4096 * n) with hrd
  have hrle : r < 4194303 := by
    by_contra hc
    have : 4194303 ^ 2 ≤ r ^ 2 := Nat.pow_le_pow_left (by omega) 2
    omega
  refine ⟨r, ?_, by exact_mod_cast q1, by exact_mod_cast q2⟩
  have hnn : 0 ≤ num n := by unfold num; positivity
  unfold fnSqr
  rw [if_neg (by omega), hs _ hnn]
  set x := Real.sqrt (num n) with hx
  have x0 : 0 ≤ x := Real.sqrt_nonneg _
  have xs : x ^ 2 = (n : ℝ) / 4096 := by rw [hx, Real.sq_sqrt hnn]; unfold num; simp
  -- the bounds of the square root
  have q1r : (r : ℝ) ^ 2 ≤ 4096 * n := by exact_mod_cast q1
  have q2r : (4096 * n : ℝ) + 1 ≤ ((r : ℝ) + 1) ^ 2 := by exact_mod_cast q2
  have rr : (r : ℝ) + 1 ≤ 4194303 := by exact_mod_cast hrle
  have r0 : (0 : ℝ) ≤ r := Nat.cast_nonneg r
  have y2 : (4096 * x) ^ 2 = 4096 * n := by rw [mul_pow, xs]; ring
  have lo : (r : ℝ) ≤ 4096 * x := by
    apply le_of_sq_le_sq _ (by positivity)
    rw [y2]; exact q1r
  have hi : 4096 * x ≤ r + 1 - 1 / 8388608 := by
    apply le_of_sq_le_sq
    · rw [y2]
      nlinarith
    · linarith
  have lo2 : ((r : ℤ) : ℝ) / 2 ^ 12 ≤ rnd x := by
    rw [← hr.exact (r : ℤ) 12 (by rw [abs_of_nonneg (by positivity)]; push_cast; omega) (by norm_num)]
    apply hr.mono
    push_cast
    rw [div_le_iff₀ (by norm_num)]
    linarith
  have hi2 : rnd x ≤ (((r : ℤ) + 1) * 8388608 - 1 : ℤ) / 2 ^ 35 := by
    rw [← hr.exact (((r : ℤ) + 1) * 8388608 - 1) 35 (by rw [abs_of_nonneg (by omega)]; omega) (by norm_num)]
    apply hr.mono
    push_cast
    rw [le_div_iff₀ (by norm_num)]
    linarith
  have fl : ⌊4096 * rnd x⌋ = (r : ℤ) := by
    rw [Int.floor_eq_iff]
    push_cast at lo2 hi2 ⊢
    constructor
    · rw [div_le_iff₀ (by norm_num)] at lo2
      linarith
    · rw [le_div_iff₀ (by norm_num)] at hi2
      linarith
  unfold floored
  rw [fl]
  apply toFixp_ok
  unfold I32
  omega

/-- **C98.** LOG: the natural logarithm, rounded to the nearest number of 12 binary places, for every positive number; otherwise
an error is reported. -/
theorem C98_log {m : Libm} (hm : Accurate m) (v : Int) (hv : I32 v) :
    (v ≤ 0 → fnLog m v = .err .illegalFunctionCall) ∧
    (0 < v → ∃ r : Int, fnLog m v = .ok r ∧ |(r : ℝ) - 4096 * Real.log (num v)| ≤ 1 / 2 + 1 / 2 ^ 24) := by
  refine ⟨fun h => if_pos h, fun h => ?_⟩
  have h1 : (1 : ℝ) ≤ v := by exact_mod_cast h
  have h2 : (v : ℝ) ≤ 2147483647 := by exact_mod_cast hv.2
  have hp : 0 < num v := by unfold num; positivity
  have hl2 := Real.log_two_lt_d9
  have hl3 := Real.log_two_gt_d9
  -- the logarithm is small
  have e1 : Real.log (num v) = Real.log v - 12 * Real.log 2 := by
    unfold num
    rw [Real.log_div (by positivity) (by norm_num), show (4096 : ℝ) = 2 ^ 12 by norm_num, Real.log_pow]
    norm_num
  have e2 : 0 ≤ Real.log v := Real.log_nonneg h1
  have e3 : Real.log v ≤ 31 * Real.log 2 := by
    rw [show (31 : ℝ) * Real.log 2 = Real.log (2 ^ 31) by rw [Real.log_pow]; norm_num]
    exact Real.log_le_log (by positivity) (by linarith [h2])
  have hb : |Real.log (num v)| ≤ 14 := by
    rw [e1, abs_le]
    constructor <;> linarith
  have hn := hm.log _ hp
  unfold Near at hn
  have hn2 : |m.log (num v) - Real.log (num v)| ≤ 14 / 2 ^ 40 := hn.trans (by gcongr)
  obtain ⟨a1, a2⟩ := abs_le.mp hn2
  obtain ⟨b1, b2⟩ := abs_le.mp hb
  set y := 4096 * m.log (num v) with hy
  have hr : |(cRound y : ℝ) - y| ≤ 1 / 2 := by
    unfold cRound
    split
    · have f1 := Int.floor_le (y + 1 / 2)
      have f2 := Int.lt_floor_add_one (y + 1 / 2)
      rw [abs_le]; constructor <;> linarith
    · have f1 := Int.le_ceil (y - 1 / 2)
      have f2 := Int.ceil_lt_add_one (y - 1 / 2)
      rw [abs_le]; constructor <;> linarith
  obtain ⟨c1, c2⟩ := abs_le.mp hr
  refine ⟨cRound y, ?_, ?_⟩
  · unfold fnLog
    rw [if_neg (by omega)]
    show toFixp (cRound y) = _
    apply toFixp_ok
    have k1 : (cRound y : ℝ) ≤ 100000 := by norm_num at a2; linarith
    have k2 : (-100000 : ℝ) ≤ cRound y := by norm_num at a1; linarith
    have l1 : cRound y ≤ 100000 := by exact_mod_cast k1
    have l2 : -100000 ≤ cRound y := by exact_mod_cast k2
    unfold I32
    omega
  · rw [abs_le]
    norm_num at a1 a2 ⊢
    constructor <;> linarith

/-- The samples are real: the identity is a rounding, and so is rounding down to multiples of 2⁻¹⁰⁰⁰; with it the exact functions
are an accurate library. -/
theorem accurate_exists : Rounding (fun x => (⌊x * 2 ^ 1000⌋ : ℝ) / 2 ^ 1000) ∧
    Accurate ⟨fun x => (⌊Real.sqrt x * 2 ^ 1000⌋ : ℝ) / 2 ^ 1000, Real.sin, Real.cos, Real.tan, Real.arctan, fun y x => Complex.arg ⟨x, y⟩, Real.exp, Real.log⟩ := by
  have hr : Rounding (fun x => (⌊x * 2 ^ 1000⌋ : ℝ) / 2 ^ 1000) := by
    refine ⟨fun x y h => ?_, fun k e _ he => ?_⟩
    · show (⌊x * 2 ^ 1000⌋ : ℝ) / 2 ^ 1000 ≤ (⌊y * 2 ^ 1000⌋ : ℝ) / 2 ^ 1000
      have : ⌊x * 2 ^ 1000⌋ ≤ ⌊y * 2 ^ 1000⌋ := Int.floor_le_floor (by gcongr)
      have : (⌊x * 2 ^ 1000⌋ : ℝ) ≤ ⌊y * 2 ^ 1000⌋ := by exact_mod_cast this
      gcongr
    · show (⌊(k : ℝ) / 2 ^ e * 2 ^ 1000⌋ : ℝ) / 2 ^ 1000 = _
      have e1 : (k : ℝ) / 2 ^ e * 2 ^ 1000 = ((k * 2 ^ (1000 - e) : ℤ) : ℝ) := by
        push_cast
        rw [div_mul_eq_mul_div, div_eq_iff (by positivity), mul_assoc, ← pow_add]
        congr 2
        omega
      rw [e1, Int.floor_intCast, ← e1]
      field_simp
  have near : ∀ x : ℝ, Near x x := fun x => by unfold Near; rw [sub_self, abs_zero]; positivity
  exact ⟨hr, ⟨⟨_, hr, fun _ _ => rfl⟩, fun _ => near _, fun _ => near _, fun _ => near _, fun _ => near _, fun _ _ => near _, fun _ => near _, fun _ _ => near _⟩⟩

/-! ## POW -/

theorem trunc_le {y : ℝ} (h : 0 ≤ y) : (trunc y : ℝ) ≤ y ∧ y < trunc y + 1 := by
  unfold trunc
  rw [if_pos h]
  exact ⟨Int.floor_le _, Int.lt_floor_add_one _⟩

theorem pow_result (p : ℝ) (f : F32) (hp : 0 < p) (hf : PowfOk p f) :
    (p ≤ 524287 → ∃ r, powResult f = .ok r ∧ |(r : ℝ) - 4096 * p| ≤ 1 + 4096 * p / 2 ^ 22 + 1 / 2 ^ 88) ∧
    (524289 ≤ p → ∃ e, powResult f = .err e) := by
  cases f with
  | nan => exact absurd hf id
  | inf =>
    have : (2 : ℝ) ^ 127 ≤ p := hf
    refine ⟨fun h => ?_, fun _ => ⟨_, rfl⟩⟩
    have : (2 : ℝ) ^ 127 ≤ 524287 := this.trans h
    norm_num at this
  | fin f =>
    have hf' : |f - p| ≤ p / 2 ^ 22 + 1 / 2 ^ 100 := hf
    obtain ⟨h1, h2⟩ := abs_le.mp hf'
    constructor
    · intro h
      have k1 : p / 2 ^ 22 ≤ 524287 / 2 ^ 22 := by gcongr
      have f1 : f < 524288 := by
        have : (524287 : ℝ) / 2 ^ 22 + 1 / 2 ^ 100 < 1 := by norm_num
        linarith
      have f0 : -1 < f := by
        have : (524287 : ℝ) / 2 ^ 22 + 1 / 2 ^ 100 < 1 := by norm_num
        linarith
      have ht : |(trunc (4096 * f) : ℝ) - 4096 * f| ≤ 1 := by
        unfold trunc
        split
        · have a := Int.floor_le (4096 * f)
          have b := Int.lt_floor_add_one (4096 * f)
          rw [abs_le]; constructor <;> linarith
        · have a := Int.le_ceil (4096 * f)
          have b := Int.ceil_lt_add_one (4096 * f)
          rw [abs_le]; constructor <;> linarith
      obtain ⟨t1, t2⟩ := abs_le.mp ht
      have hup : trunc (4096 * f) < 2147483648 := by
        have hh : 0 ≤ 4096 * f ∨ 4096 * f < 0 := le_or_gt 0 _
        rcases hh with hh | hh
        · have := (trunc_le hh).1
          have : (trunc (4096 * f) : ℝ) < 2147483648 := by linarith
          exact_mod_cast this
        · have : (trunc (4096 * f) : ℝ) < 2147483648 := by linarith
          exact_mod_cast this
      have hlo : -10000 ≤ trunc (4096 * f) := by
        have : (-10000 : ℝ) ≤ trunc (4096 * f) := by linarith
        exact_mod_cast this
      refine ⟨trunc (4096 * f), ?_, ?_⟩
      · unfold powResult
        dsimp only
        rw [if_neg (by rintro (x | x) <;> linarith)]
        apply toFixp_ok
        unfold I32
        omega
      · rw [abs_le]
        have e : (4096 : ℝ) * (1 / 2 ^ 100) = 1 / 2 ^ 88 := by norm_num
        constructor <;> linarith
    · intro h
      refine ⟨.overflow, if_pos (Or.inl ?_)⟩
      have : p - (p / 2 ^ 22 + 1 / 2 ^ 100) ≤ f := by linarith
      have e : (524288 : ℝ) ≤ 524289 * (1 - 1 / 2 ^ 22) - 1 / 2 ^ 100 := by norm_num
      have : p / 2 ^ 22 = p * (1 / 2 ^ 22) := by ring
      nlinarith

/-- **C98 (partial).** POW of a positive base, both arguments up to 4096: if the power `p` is at most 524287, the result is `p`
but for an error of less than a unit and a relative error of 2⁻²²; from 524289 on, an error is reported.  Missing: negative bases
(`C98_pow_nan_violated`) and larger arguments (`C98_pow_single_violated`). -/
theorem C98_pow_partial {m : LibmF} (hm : AccurateF m) (b e : Int) (hb : 0 < b) (hb2 : b ≤ 2 ^ 24) (he : |e| ≤ 2 ^ 24) :
    (num b ^ num e ≤ 524287 → ∃ r, fnPow m b e = .ok r ∧ |(r : ℝ) - 4096 * num b ^ num e| ≤ 1 + 4096 * num b ^ num e / 2 ^ 22 + 1 / 2 ^ 88) ∧
    (524289 ≤ num b ^ num e → ∃ x, fnPow m b e = .err x) := by
  have hbr : (0 : ℝ) < b := by exact_mod_cast hb
  have hnb : 0 < num b := by unfold num; positivity
  unfold fnPow
  rw [hm.single b (by rw [abs_of_pos hb]; exact hb2), hm.single e he]
  exact pow_result _ _ (Real.rpow_pos_of_pos hnb _) (hm.pow _ _ hnb)

/-- **C98 (violated).** POW of a negative base and a broken exponent is not a number: instead of reporting an error, the program
converts it, which is undefined. -/
theorem C98_pow_nan_violated {m : LibmF} (hm : AccurateF m) (b e : Int) (hb : b < 0) (hb2 : -2 ^ 24 ≤ b) (he : |e| ≤ 2 ^ 24) (hf : e % 4096 ≠ 0) :
    fnPow m b e = .ub := by
  unfold fnPow
  rw [hm.single b (by rw [abs_of_neg hb]; omega), hm.single e he, hm.nan]
  · rfl
  · have : (b : ℝ) < 0 := by exact_mod_cast hb
    linarith
  · rintro ⟨k, hk⟩
    rw [div_eq_iff (by norm_num)] at hk
    have : e = k * 4096 := by exact_mod_cast hk
    omega

theorem single_result (f : ℝ) (hf : Single f) : powResult (.fin f) ≠ .ok 16777217 := by
  intro h
  unfold powResult at h
  dsimp only at h
  split at h
  · cases h
  · unfold toFixp at h
    split at h
    · next hlt hi =>
      injection h with h
      -- the number of which this is the integral part
      have hnn : 0 ≤ 4096 * f := by
        by_contra hc
        unfold trunc at h
        rw [if_neg hc] at h
        have : ⌈4096 * f⌉ ≤ 0 := Int.ceil_le.mpr (by push_cast; linarith)
        omega
      obtain ⟨t1, t2⟩ := trunc_le hnn
      rw [h] at t1 t2
      push_cast at t1 t2
      obtain ⟨k, e, hk, rfl⟩ := hf
      have hk' : (k : ℝ) < 16777216 := by
        have := (abs_lt.mp hk).2
        norm_num at this
        exact_mod_cast this
      by_cases he : e ≤ -12
      · have : (2 : ℝ) ^ e ≤ 2 ^ (-12 : ℤ) := zpow_le_zpow_right₀ (by norm_num) he
        have hp : (0 : ℝ) < 2 ^ e := by positivity
        have h12 : (2 : ℝ) ^ (-12 : ℤ) = 1 / 4096 := by norm_num
        rw [h12] at this
        nlinarith
      · -- an even integer
        have : ∃ j : ℕ, e = (j : ℤ) - 11 := ⟨(e + 11).toNat, by omega⟩
        obtain ⟨j, rfl⟩ := this
        have e1 : (4096 : ℝ) * (k * 2 ^ ((j : ℤ) - 11)) = ((2 * (k * 2 ^ j) : ℤ) : ℝ) := by
          rw [zpow_sub₀ (by norm_num)]
          push_cast
          rw [zpow_natCast]
          norm_num
          ring
        rw [e1] at t1 t2
        have u1 : (16777217 : ℤ) ≤ 2 * (k * 2 ^ j) := by
          have : ((16777217 : ℤ) : ℝ) ≤ ((2 * (k * 2 ^ j) : ℤ) : ℝ) := by push_cast at t1 ⊢; exact t1
          exact Int.cast_le.mp this
        have u2 : 2 * (k * 2 ^ j) < 16777218 := by
          have : ((2 * (k * 2 ^ j) : ℤ) : ℝ) < ((16777218 : ℤ) : ℝ) := by push_cast at t2 ⊢; linarith
          exact Int.cast_lt.mp this
        omega
    · cases h

/-- **C98 (violated).** POW calculates in single precision: whatever the arguments, the result is never 4096 + 1/4096, so that for
this number x POW(x,1) is not x. -/
theorem C98_pow_single_violated {m : LibmF} (hm : AccurateF m) (b e : Int) : fnPow m b e ≠ .ok 16777217 := by
  unfold fnPow
  cases h : m.powf (m.single b / 4096) (m.single e / 4096) with
  | nan => intro x; cases x
  | inf => intro x; cases x
  | fin f => exact single_result f (hm.fin _ _ f h)

/-- A power cut to 24 binary digits. -/
noncomputable def cutTo (p : ℝ) : ℝ := (⌊p * 2 ^ (23 - Int.log 2 p)⌋ : ℝ) * 2 ^ (Int.log 2 p - 23)

theorem cut_ok {p : ℝ} (hp : 0 < p) : Single (cutTo p) ∧ |cutTo p - p| ≤ p / 2 ^ 22 := by
  have l1 : (2 : ℝ) ^ Int.log 2 p ≤ p := by exact_mod_cast Int.zpow_log_le_self (b := 2) (by norm_num) hp
  have l2 : p < (2 : ℝ) ^ (Int.log 2 p + 1) := by exact_mod_cast Int.lt_zpow_succ_log_self (b := 2) (by norm_num) p
  unfold cutTo
  set e := Int.log 2 p with he
  have pe : (0 : ℝ) < 2 ^ (23 - e) := by positivity
  have pi : (2 : ℝ) ^ (23 - e) * 2 ^ (e - 23) = 1 := by rw [← zpow_add₀ (by norm_num)]; norm_num
  have f1 := Int.floor_le (p * 2 ^ (23 - e))
  have f2 := Int.lt_floor_add_one (p * 2 ^ (23 - e))
  have qe : (0 : ℝ) < 2 ^ (e - 23) := by positivity
  have q23 : (2 : ℝ) ^ (e - 23) = 2 ^ e / 2 ^ 23 := by rw [zpow_sub₀ (by norm_num)]; norm_num
  constructor
  · refine ⟨⌊p * 2 ^ (23 - e)⌋, e - 23, ?_, rfl⟩
    have n0 : 0 ≤ ⌊p * 2 ^ (23 - e)⌋ := Int.floor_nonneg.mpr (by positivity)
    rw [abs_of_nonneg n0]
    have : (⌊p * 2 ^ (23 - e)⌋ : ℝ) < 2 ^ 24 := by
      have : p * 2 ^ (23 - e) < 2 ^ (e + 1) * 2 ^ (23 - e) := by gcongr
      rw [← zpow_add₀ (by norm_num), show e + 1 + (23 - e) = (24 : ℕ) by push_cast; ring, zpow_natCast] at this
      linarith
    exact_mod_cast this
  · have e1 : p = p * 2 ^ (23 - e) * 2 ^ (e - 23) := by rw [mul_assoc, pi, mul_one]
    have a1 : (⌊p * 2 ^ (23 - e)⌋ : ℝ) * 2 ^ (e - 23) ≤ p := by
      conv_rhs => rw [e1]
      gcongr
    have a2 : p ≤ (⌊p * 2 ^ (23 - e)⌋ : ℝ) * 2 ^ (e - 23) + 2 ^ (e - 23) := by
      conv_lhs => rw [e1]
      have : p * 2 ^ (23 - e) * 2 ^ (e - 23) ≤ (⌊p * 2 ^ (23 - e)⌋ + 1) * 2 ^ (e - 23) := by gcongr
      linarith
    have a3 : (2 : ℝ) ^ (e - 23) ≤ p / 2 ^ 22 := by
      rw [q23]
      have : (2 : ℝ) ^ e / 2 ^ 23 ≤ p / 2 ^ 23 := by gcongr
      have : p / 2 ^ 23 ≤ p / 2 ^ 22 := by
        apply div_le_div_of_nonneg_left hp.le (by norm_num) (by norm_num)
      linarith
    rw [abs_le]
    constructor <;> linarith

open Classical in
/-- There is a library as the theorems want. -/
theorem accurateF_exists : ∃ m : LibmF, AccurateF m := by
  refine ⟨⟨fun x y => if x < 0 ∧ ¬ ∃ k : ℤ, y = k then .nan else if 0 < x then .fin (cutTo (x ^ y)) else .fin 0, fun v => v⟩, ⟨fun _ _ => rfl, ?_, ?_, ?_⟩⟩
  · intro x y hx
    show PowfOk _ (if x < 0 ∧ ¬ ∃ k : ℤ, y = k then .nan else if 0 < x then .fin (cutTo (x ^ y)) else .fin 0)
    rw [if_neg (fun h => absurd h.1 (not_lt.mpr hx.le)), if_pos hx]
    have := (cut_ok (Real.rpow_pos_of_pos hx y)).2
    show |cutTo (x ^ y) - x ^ y| ≤ _
    have : (0 : ℝ) < 1 / 2 ^ 100 := by positivity
    linarith
  · intro x y hx hy
    exact if_pos ⟨hx, hy⟩
  · intro x y f h
    have h : (if x < 0 ∧ ¬ ∃ k : ℤ, y = k then F32.nan else if 0 < x then .fin (cutTo (x ^ y)) else .fin 0) = .fin f := h
    split at h
    · cases h
    · split at h
      · next hx =>
        injection h with h
        rw [← h]
        exact (cut_ok (Real.rpow_pos_of_pos hx y)).1
      · injection h with h
        exact ⟨0, 0, by norm_num, by rw [← h]; norm_num⟩

end Sbc.RealMath
