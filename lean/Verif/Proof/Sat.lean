import Verif.Spec.Sprites
import Mathlib.Tactic.Linarith
import Mathlib.Tactic.Ring
import Mathlib.Tactic.FieldSimp
import Mathlib.Tactic.Positivity
set_option autoImplicit false
/-!
# The separating axis theorem for a moving and a resting rectangle
-/
namespace Sbc.Sprites
open Sbc

/-- Movement to the right and down. -/
theorem core_pos {p q r s u v : Rat} (hpq : p ≤ q) (hrs : r ≤ s) (hu : 0 ≤ u) (hv : 0 ≤ v)
    (h1 : p ≤ u) (h2 : 0 ≤ q) (h3 : r ≤ v) (h4 : 0 ≤ s) (h5 : p * v ≤ s * u) (h6 : r * u ≤ q * v) :
    ∃ lam : Rat, 0 ≤ lam ∧ lam ≤ 1 ∧ p ≤ lam * u ∧ lam * u ≤ q ∧ r ≤ lam * v ∧ lam * v ≤ s := by
  rcases hu.eq_or_lt with hu0 | hu0
  · subst hu0
    rcases hv.eq_or_lt with hv0 | hv0
    · subst hv0
      exact ⟨0, by simp, by simp, by simpa using h1, by simpa using h2, by simpa using h3, by simpa using h4⟩
    · by_cases hr : r ≤ 0
      · exact ⟨0, by simp, by simp, by simpa using h1, by simpa using h2, by simpa using hr, by simpa using h4⟩
      · refine ⟨r / v, by apply div_nonneg <;> linarith, (div_le_one hv0).2 h3, by simpa using h1, by simpa using h2, ?_, ?_⟩
        · rw [div_mul_cancel₀ _ hv0.ne']
        · rw [div_mul_cancel₀ _ hv0.ne']; exact hrs
  · rcases hv.eq_or_lt with hv0 | hv0
    · subst hv0
      by_cases hp : p ≤ 0
      · exact ⟨0, by simp, by simp, by simpa using hp, by simpa using h2, by simpa using h3, by simpa using h4⟩
      · refine ⟨p / u, by apply div_nonneg <;> linarith, (div_le_one hu0).2 h1, ?_, ?_, by simpa using h3, by simpa using h4⟩
        · rw [div_mul_cancel₀ _ hu0.ne']
        · rw [div_mul_cancel₀ _ hu0.ne']; exact hpq
    · have k1 : p / u ≤ s / v := by rw [div_le_div_iff₀ hu0 hv0]; exact h5
      have k2 : r / v ≤ q / u := by rw [div_le_div_iff₀ hv0 hu0]; exact h6
      have k3 : p / u ≤ q / u := by gcongr
      have k4 : r / v ≤ s / v := by gcongr
      have k5 : p / u ≤ 1 := (div_le_one hu0).2 h1
      have k6 : r / v ≤ 1 := (div_le_one hv0).2 h3
      have k7 : 0 ≤ q / u := div_nonneg h2 hu
      have k8 : 0 ≤ s / v := div_nonneg h4 hv
      refine ⟨max 0 (max (p / u) (r / v)), le_max_left _ _, by simp [k5, k6], ?_, ?_, ?_, ?_⟩
      · rw [← div_le_iff₀ hu0]; exact le_trans (le_max_left _ _) (le_max_right _ _)
      · rw [← le_div_iff₀ hu0]; simp [k2, k3, k7]
      · rw [← div_le_iff₀ hv0]; exact le_trans (le_max_right _ _) (le_max_right _ _)
      · rw [← le_div_iff₀ hv0]; simp [k1, k4, k8]

/-- Four products, as the projections on the normal of the movement give them. -/
theorem core {p q r s u v : Rat} (hpq : p ≤ q) (hrs : r ≤ s)
    (h1 : p ≤ 0 ∨ p ≤ u) (h2 : 0 ≤ q ∨ u ≤ q) (h3 : r ≤ 0 ∨ r ≤ v) (h4 : 0 ≤ s ∨ v ≤ s)
    (h5 : p * v ≤ r * u ∨ p * v ≤ s * u ∨ q * v ≤ r * u ∨ q * v ≤ s * u)
    (h6 : r * u ≤ p * v ∨ s * u ≤ p * v ∨ r * u ≤ q * v ∨ s * u ≤ q * v) :
    ∃ lam : Rat, 0 ≤ lam ∧ lam ≤ 1 ∧ p ≤ lam * u ∧ lam * u ≤ q ∧ r ≤ lam * v ∧ lam * v ≤ s := by
  rcases le_total 0 u with hu | hu <;> rcases le_total 0 v with hv | hv
  · refine core_pos hpq hrs hu hv ?_ ?_ ?_ ?_ ?_ ?_
    · rcases h1 with h | h <;> linarith
    · rcases h2 with h | h <;> linarith
    · rcases h3 with h | h <;> linarith
    · rcases h4 with h | h <;> linarith
    · rcases h5 with h | h | h | h <;> nlinarith
    · rcases h6 with h | h | h | h <;> nlinarith
  · obtain ⟨l, a1, a2, a3, a4, a5, a6⟩ := core_pos (p := p) (q := q) (r := -s) (s := -r) (u := u) (v := -v) hpq (by linarith) hu (by linarith)
      (by rcases h1 with h | h <;> linarith) (by rcases h2 with h | h <;> linarith)
      (by rcases h4 with h | h <;> linarith) (by rcases h3 with h | h <;> linarith)
      (by rcases h6 with h | h | h | h <;> nlinarith) (by rcases h5 with h | h | h | h <;> nlinarith)
    exact ⟨l, a1, a2, a3, a4, by linarith, by linarith⟩
  · obtain ⟨l, a1, a2, a3, a4, a5, a6⟩ := core_pos (p := -q) (q := -p) (r := r) (s := s) (u := -u) (v := v) (by linarith) hrs (by linarith) hv
      (by rcases h2 with h | h <;> linarith) (by rcases h1 with h | h <;> linarith)
      (by rcases h3 with h | h <;> linarith) (by rcases h4 with h | h <;> linarith)
      (by rcases h6 with h | h | h | h <;> nlinarith) (by rcases h5 with h | h | h | h <;> nlinarith)
    exact ⟨l, a1, a2, by linarith, by linarith, a5, a6⟩
  · obtain ⟨l, a1, a2, a3, a4, a5, a6⟩ := core_pos (p := -q) (q := -p) (r := -s) (s := -r) (u := -u) (v := -v) (by linarith) (by linarith) (by linarith) (by linarith)
      (by rcases h2 with h | h <;> linarith) (by rcases h1 with h | h <;> linarith)
      (by rcases h4 with h | h <;> linarith) (by rcases h3 with h | h <;> linarith)
      (by rcases h5 with h | h | h | h <;> nlinarith) (by rcases h6 with h | h | h | h <;> nlinarith)
    exact ⟨l, a1, a2, by linarith, by linarith, by linarith, by linarith⟩

/-- Necessity of the six conditions. -/
theorem core_conv {p q r s u v lam : Rat} (l0 : 0 ≤ lam) (l1 : lam ≤ 1) (a1 : p ≤ lam * u) (a2 : lam * u ≤ q) (a3 : r ≤ lam * v) (a4 : lam * v ≤ s) :
    (p ≤ 0 ∨ p ≤ u) ∧ (0 ≤ q ∨ u ≤ q) ∧ (r ≤ 0 ∨ r ≤ v) ∧ (0 ≤ s ∨ v ≤ s) ∧
    (p * v ≤ r * u ∨ p * v ≤ s * u ∨ q * v ≤ r * u ∨ q * v ≤ s * u) ∧
    (r * u ≤ p * v ∨ s * u ≤ p * v ∨ r * u ≤ q * v ∨ s * u ≤ q * v) := by
  refine ⟨?_, ?_, ?_, ?_, ?_, ?_⟩
  · rcases le_total 0 u with hu | hu
    · right; nlinarith
    · left; nlinarith
  · rcases le_total 0 u with hu | hu
    · left; nlinarith
    · right; nlinarith
  · rcases le_total 0 v with hu | hu
    · right; nlinarith
    · left; nlinarith
  · rcases le_total 0 v with hu | hu
    · left; nlinarith
    · right; nlinarith
  · rcases le_total 0 u with hu | hu <;> rcases le_total 0 v with hv | hv
    · right; left; nlinarith [mul_le_mul_of_nonneg_right a1 hv, mul_le_mul_of_nonneg_right a4 hu]
    · right; right; right; nlinarith [mul_le_mul_of_nonpos_right a2 hv, mul_le_mul_of_nonneg_right a4 hu]
    · left; nlinarith [mul_le_mul_of_nonneg_right a1 hv, mul_le_mul_of_nonpos_right a3 hu]
    · right; right; left; nlinarith [mul_le_mul_of_nonpos_right a2 hv, mul_le_mul_of_nonpos_right a3 hu]
  · rcases le_total 0 u with hu | hu <;> rcases le_total 0 v with hv | hv
    · right; right; left; nlinarith [mul_le_mul_of_nonneg_right a2 hv, mul_le_mul_of_nonneg_right a3 hu]
    · left; nlinarith [mul_le_mul_of_nonpos_right a1 hv, mul_le_mul_of_nonneg_right a3 hu]
    · right; right; right; nlinarith [mul_le_mul_of_nonneg_right a2 hv, mul_le_mul_of_nonpos_right a4 hu]
    · right; left; nlinarith [mul_le_mul_of_nonpos_right a1 hv, mul_le_mul_of_nonpos_right a4 hu]

end Sbc.Sprites
