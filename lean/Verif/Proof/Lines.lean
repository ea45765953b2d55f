import Verif.Proof.Graphics
import Mathlib.Tactic.Ring
import Mathlib.Tactic.Linarith
set_option autoImplicit false
namespace Sbc.Graphics
open Sbc Sbc.Graphics.Spec

/-- The slope, as a rounded-down quotient, for a positive run. -/
theorem slope_pos (d n : Int) (hn : 0 < n) (hn2 : n ≤ 1048576) (hd : -n ≤ d ∧ d ≤ n) :
    slope d n * n ≤ 4096 * d ∧ 4096 * d < slope d n * n + n ∧ -4096 ≤ slope d n ∧ slope d n ≤ 4096 := by
  have key : ∀ t : Int, t * 1048576 * n ≤ 0 + d * 4294967296 + (n - 1) → d * 4294967296 - 1048576 * n < t * 1048576 * n →
      t * n ≤ 4096 * d ∧ 4096 * d < t * n + n := by
    intro t h1 h2
    constructor
    · have : t * n * 1048576 ≤ 4096 * d * 1048576 + (n - 1) := by nlinarith
      omega
    · have : 4096 * d * 1048576 < (t * n + n) * 1048576 := by nlinarith
      omega
  have hq : ∃ q, q = (d * 4294967296).tdiv n := ⟨_, rfl⟩
  obtain ⟨q, hq⟩ := hq
  have hqb : d * 4294967296 - n < q * n ∧ q * n < d * 4294967296 + n := by
    have h1 := Int.mul_tdiv_add_tmod (d * 4294967296) n
    have h2 := Int.tmod_lt_of_pos (d * 4294967296) hn
    have h3 := Int.lt_tmod_of_pos (d * 4294967296) hn
    rw [← hq] at h1
    have : n * q = q * n := Int.mul_comm _ _
    omega
  have hlow : 0 ≤ d → q * n ≤ d * 4294967296 := by
    intro h0
    have h1 := Int.mul_tdiv_add_tmod (d * 4294967296) n
    have h2 := Int.tmod_nonneg n (show 0 ≤ d * 4294967296 by omega)
    rw [← hq] at h1
    have : n * q = q * n := Int.mul_comm _ _
    omega
  have hup : d < 0 → d * 4294967296 ≤ q * n := by
    intro h0
    have h1 := Int.mul_tdiv_add_tmod (d * 4294967296) n
    have h2 : (d * 4294967296).tmod n ≤ 0 := by
      have := Int.tmod_nonneg n (show 0 ≤ -(d * 4294967296) by omega)
      rw [Int.neg_tmod] at this
      omega
    rw [← hq] at h1
    have : n * q = q * n := Int.mul_comm _ _
    omega
  obtain ⟨t, ht⟩ : ∃ t, t = q / 1048576 := ⟨_, rfl⟩
  have ht1 : t * 1048576 ≤ q := by omega
  have ht2 : q < t * 1048576 + 1048576 := by omega
  have hk := key t (by nlinarith) (by
    by_cases h0 : 0 ≤ d
    · -- q n > d 2^32 - n, and q ≤ t 2^20 + (2^20 - 1)
      have : q ≤ t * 1048576 + 1048575 := by omega
      have : q * n ≤ (t * 1048576 + 1048575) * n := Int.mul_le_mul_of_nonneg_right this (by omega)
      have h5 : (t * 1048576 + 1048575) * n = t * 1048576 * n + 1048575 * n := by ring
      omega
    · have h4 := hup (by omega)
      have : q ≤ t * 1048576 + 1048575 := by omega
      have : q * n ≤ (t * 1048576 + 1048575) * n := Int.mul_le_mul_of_nonneg_right this (by omega)
      have h5 : (t * 1048576 + 1048575) * n = t * 1048576 * n + 1048575 * n := by ring
      omega)
  have hb1 : -4096 ≤ t := by
    by_contra hc
    have : t + 1 ≤ -4096 := by omega
    have : (t + 1) * n ≤ -4096 * n := Int.mul_le_mul_of_nonneg_right this (by omega)
    have h5 : (t + 1) * n = t * n + n := by ring
    omega
  have hb2 : t ≤ 4096 := by
    by_contra hc
    have : 4097 ≤ t := by omega
    have : 4097 * n ≤ t * n := Int.mul_le_mul_of_nonneg_right this (by omega)
    omega
  have hs : slope d n = t := by
    unfold slope
    rw [← hq, ← ht]
    apply wrap32_of_i32
    unfold I32; omega
  rw [hs]
  exact ⟨hk.1, hk.2, hb1, hb2⟩

theorem slope_neg (d n : Int) : slope d n = slope (-d) (-n) := by
  unfold slope
  rw [show (-d) * 4294967296 = -(d * 4294967296) by ring, Int.neg_tdiv, Int.tdiv_neg, Int.neg_neg]

/-- The value the loop computes at step `k`. -/
def minor (s k base : Int) : Int := (s * k + 2048) / 4096 + base

theorem lineLoop_ok (s base : Int) (N : Int) (hs : -4096 ≤ s ∧ s ≤ 4096) (hN : N ≤ 524287) :
    ∀ (n : Nat) (k : Int), 0 ≤ k → k + n ≤ N + 1 →
      lineLoop s base n k = .ok ((List.range n).map fun (i : Nat) => (k + (i : Int), minor s (k + (i : Int)) base)) := by
  intro n
  induction n with
  | zero => intro k _ _; rfl
  | succ n ih =>
    intro k hk hkn
    have hb : -2147479552 ≤ s * k ∧ s * k ≤ 2147479552 := by
      have hk' : k ≤ 524287 := by omega
      have a1 : s * k ≤ 4096 * k := Int.mul_le_mul_of_nonneg_right hs.2 hk
      have a2 : -4096 * k ≤ s * k := Int.mul_le_mul_of_nonneg_right hs.1 hk
      omega
    rw [lineLoop]
    unfold minorAt
    rw [if_neg (by unfold I32; omega), if_neg (by unfold I32; omega)]
    simp only [Out.bind]
    rw [ih (k + 1) (by omega) (by omega)]
    simp only []
    rw [List.range_succ_eq_map, List.map_cons, List.map_map]
    congr 1
    congr 1
    · simp [minor, fpToInt]
    · apply List.map_congr_left
      intro i _
      simp only [Function.comp]
      rw [show k + 1 + (i : Int) = k + ((i + 1 : Nat) : Int) by omega]

/-- The minor coordinate, without rounding trouble, for lines up to 2049 dots. -/
theorem minor_props (d n base : Int) (hn : 0 < n) (hn2 : n ≤ 1048576) (hd : -n ≤ d ∧ d ≤ n) :
    minor (slope d n) 0 base = base ∧
    (n ≤ 2049 → minor (slope d n) n base = base + d) ∧
    (∀ k, -1 ≤ minor (slope d n) (k + 1) base - minor (slope d n) k base ∧ minor (slope d n) (k + 1) base - minor (slope d n) k base ≤ 1) ∧
    (n ≤ 2049 → ∀ k, 0 ≤ k → k ≤ n → ((minor (slope d n) k base - base) * n - k * d).natAbs < n.natAbs) := by
  obtain ⟨h1, h2, h3, h4⟩ := slope_pos d n hn hn2 hd
  generalize slope d n = s at *
  refine ⟨?_, ?_, ?_, ?_⟩
  · unfold minor; omega
  · intro hle; unfold minor; omega
  · intro k; unfold minor
    have : s * (k + 1) = s * k + s := by ring
    rw [this]
    generalize s * k = w
    omega
  · intro hle k hk0 hkn
    unfold minor
    obtain ⟨m, hm⟩ : ∃ m, m = (s * k + 2048) / 4096 := ⟨_, rfl⟩
    rw [← hm]
    have m1 : 4096 * m ≤ s * k + 2048 := by omega
    have m2 : s * k + 2048 < 4096 * m + 4096 := by omega
    have e1 : s * k * n ≤ 4096 * d * k := by
      have : s * n * k ≤ 4096 * d * k := Int.mul_le_mul_of_nonneg_right h1 hk0
      have e : s * k * n = s * n * k := by ring
      omega
    have e2 : 4096 * d * k ≤ s * k * n + (n - 1) * k := by
      have : 4096 * d * k ≤ (s * n + n - 1) * k := Int.mul_le_mul_of_nonneg_right (by omega) hk0
      have e : (s * n + n - 1) * k = s * k * n + (n - 1) * k := by ring
      omega
    have p1 : 4096 * m * n ≤ (s * k + 2048) * n := Int.mul_le_mul_of_nonneg_right m1 (by omega)
    have p2 : (s * k + 2048) * n ≤ (4096 * m + 4095) * n := Int.mul_le_mul_of_nonneg_right (by omega) (by omega)
    have p3 : (n - 1) * k ≤ 2048 * n := by nlinarith
    have q1 : (s * k + 2048) * n = s * k * n + 2048 * n := by ring
    have q2 : (4096 * m + 4095) * n = 4096 * m * n + 4095 * n := by ring
    have goal1 : 4096 * (m * n - k * d) ≤ 2048 * n := by
      have : 4096 * (m * n - k * d) = 4096 * m * n - 4096 * d * k := by ring
      omega
    have goal2 : -(4096 * n) < 4096 * (m * n - k * d) := by
      have : 4096 * (m * n - k * d) = 4096 * m * n - 4096 * d * k := by ring
      omega
    have e3 : m + base - base = m := by omega
    rw [e3]
    omega

/-- The loop over the longer direction, for either orientation. -/
theorem long_line (a b c d : Int) (hne : a ≠ c) (hlen : (c - a).natAbs ≤ 524287) (hdc : (d - b).natAbs ≤ (c - a).natAbs) :
    ∃ f : Int → Int, ((c - a).natAbs ≤ 2049 → Straight a b c d f) ∧
      lineLoop (slope (d - b) (c - a)) (if a > c then d else b) (c - a).natAbs.succ 0 =
        .ok ((List.range (c - a).natAbs.succ).map fun (i : Nat) => ((i : Int), f (min a c + i))) := by
  by_cases h : a > c
  · have hsl : slope (d - b) (c - a) = slope (b - d) (a - c) := by
      rw [slope_neg, show -(d - b) = b - d by omega, show -(c - a) = a - c by omega]
    obtain ⟨p1, p2, p3, p4⟩ := minor_props (b - d) (a - c) d (by omega) (by omega) (by omega)
    obtain ⟨-, -, hs1, hs2⟩ := slope_pos (b - d) (a - c) (by omega) (by omega) (by omega)
    rw [if_pos h, hsl, lineLoop_ok _ _ 524287 ⟨hs1, hs2⟩ (by omega) _ _ (by omega) (by omega)]
    refine ⟨fun t => minor (slope (b - d) (a - c)) (t - c) d, fun hle => ⟨?_, ?_, ?_, ?_⟩, ?_⟩
    · show minor _ (a - c) d = b
      rw [p2 (by omega)]; omega
    · show minor _ (c - c) d = d
      rw [Int.sub_self, p1]
    · intro t _ _
      show -1 ≤ minor _ (t + 1 - c) d - minor _ (t - c) d ∧ minor _ (t + 1 - c) d - minor _ (t - c) d ≤ 1
      have := p3 (t - c)
      rw [show t + 1 - c = t - c + 1 by omega]
      exact this
    · intro t ht1 ht2 _
      have := p4 (by omega) (t - c) (by omega) (by omega)
      show ((minor _ (t - c) d - b) * (c - a) - (t - a) * (d - b)).natAbs < _
      generalize minor (slope (b - d) (a - c)) (t - c) d = m at *
      have e : (m - b) * (c - a) - (t - a) * (d - b) = -((m - d) * (a - c) - (t - c) * (b - d)) := by ring
      rw [e, Int.natAbs_neg]
      omega
    · congr 1
      apply List.map_congr_left
      intro i _
      simp only [Prod.mk.injEq]
      refine ⟨by omega, ?_⟩
      rw [show min a c + (i : Int) - c = 0 + i by omega]
  · obtain ⟨p1, p2, p3, p4⟩ := minor_props (d - b) (c - a) b (by omega) (by omega) (by omega)
    obtain ⟨-, -, hs1, hs2⟩ := slope_pos (d - b) (c - a) (by omega) (by omega) (by omega)
    rw [if_neg h, lineLoop_ok _ _ 524287 ⟨hs1, hs2⟩ (by omega) _ _ (by omega) (by omega)]
    refine ⟨fun t => minor (slope (d - b) (c - a)) (t - a) b, fun hle => ⟨?_, ?_, ?_, ?_⟩, ?_⟩
    · show minor _ (a - a) b = b
      rw [Int.sub_self, p1]
    · show minor _ (c - a) b = d
      rw [p2 (by omega)]; omega
    · intro t _ _
      show -1 ≤ minor _ (t + 1 - a) b - minor _ (t - a) b ∧ minor _ (t + 1 - a) b - minor _ (t - a) b ≤ 1
      have := p3 (t - a)
      rw [show t + 1 - a = t - a + 1 by omega]
      exact this
    · intro t ht1 ht2 _
      exact p4 (by omega) (t - a) (by omega) (by omega)
    · congr 1
      apply List.map_congr_left
      intro i _
      simp only [Prod.mk.injEq]
      refine ⟨by omega, ?_⟩
      rw [show min a c + (i : Int) - a = 0 + i by omega]

end Sbc.Graphics
