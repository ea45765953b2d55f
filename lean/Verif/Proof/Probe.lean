import Mathlib.Data.Fintype.EquivFin
import Mathlib.Data.Nat.ModEq
import Mathlib.Algebra.Order.Ring.Nat
import Mathlib.Data.Nat.Prime.Basic
import Mathlib.Tactic.Ring
import Mathlib.Tactic.Linarith
/-!
# Triangular probing visits every slot of a power-of-two table exactly once
-/
namespace Sbc.Probe

/-- Total displacement after the steps `0, 1, …, k`. -/
def tri : Nat → Nat
  | 0 => 0
  | k + 1 => tri k + (k + 1)

theorem two_tri (k : Nat) : 2 * tri k = k * (k + 1) := by
  induction k with
  | zero => rfl
  | succ k ih => simp only [tri, Nat.mul_add]; rw [ih]; ring

/-- Position probed at step `k`, starting from hash `h`. -/
def pos (m h k : Nat) : Nat := (h + tri k) % m

theorem pos_lt {m : Nat} (hm : 0 < m) (h k : Nat) : pos m h k < m := Nat.mod_lt _ hm

theorem pos_succ (m h k : Nat) : pos m h (k + 1) = (pos m h k + (k + 1)) % m := by
  unfold pos; simp only [tri]; rw [Nat.mod_add_mod, Nat.add_assoc]

open Nat in
theorem tri_inj_aux (n i j : Nat) (hi : i < j) (hj : j < 2 ^ n)
    (h : tri i % 2 ^ n = tri j % 2 ^ n) : False := by
  have hd : (2 ^ n) ∣ (tri j - tri i) := (Nat.modEq_iff_dvd' (by
    have h1 := two_tri i; have h2 := two_tri j
    have : i * (i + 1) ≤ j * (j + 1) := Nat.mul_le_mul (by omega) (by omega)
    omega)).1 h
  have hd2 : 2 ^ (n + 1) ∣ (j - i) * (j + i + 1) := by
    obtain ⟨c, hc⟩ := hd
    refine ⟨c, ?_⟩
    have h1 := two_tri i; have h2 := two_tri j
    obtain ⟨d, rfl⟩ : ∃ d, j = i + d := ⟨j - i, by omega⟩
    have e : (i + d - i) * (i + d + i + 1) + i * (i + 1) = (i + d) * (i + d + 1) := by
      rw [Nat.add_sub_cancel_left]; ring
    have e2 : 2 ^ (n + 1) * c = 2 * (2 ^ n * c) := by ring
    rw [e2, ← hc]
    omega
  have hcop : ∀ a : Nat, a % 2 = 1 → Nat.Coprime (2 ^ (n + 1)) a := by
    intro a ha
    apply Nat.Coprime.pow_left
    exact Nat.coprime_two_left.2 (Nat.odd_iff.2 ha)
  have hpow : 2 ^ (n + 1) = 2 * 2 ^ n := by ring
  rcases Nat.mod_two_eq_zero_or_one (j - i) with h0 | h1
  · have : (j + i + 1) % 2 = 1 := by omega
    have := (hcop _ this).dvd_of_dvd_mul_right hd2
    have := Nat.le_of_dvd (by omega) this
    omega
  · have := (hcop _ h1).dvd_of_dvd_mul_left hd2
    have := Nat.le_of_dvd (by omega) this
    omega

theorem pos_inj (n h i j : Nat) (hi : i < 2 ^ n) (hj : j < 2 ^ n)
    (e : pos (2 ^ n) h i = pos (2 ^ n) h j) : i = j := by
  have key : tri i % 2 ^ n = tri j % 2 ^ n := by
    have : Nat.ModEq (2 ^ n) (h + tri i) (h + tri j) := e
    exact Nat.ModEq.add_left_cancel' h this
  rcases Nat.lt_trichotomy i j with h1 | h1 | h1
  · exact (tri_inj_aux n i j h1 hj key).elim
  · exact h1
  · exact (tri_inj_aux n j i h1 hi key.symm).elim

/-- Every slot is probed. -/
theorem pos_surj (n h i : Nat) (hi : i < 2 ^ n) : ∃ k < 2 ^ n, pos (2 ^ n) h k = i := by
  have hp : 0 < 2 ^ n := Nat.pos_of_ne_zero (by simp)
  let f : Fin (2 ^ n) → Fin (2 ^ n) := fun k => ⟨pos (2 ^ n) h k.1, pos_lt hp _ _⟩
  have hf : Function.Injective f := by
    intro a b hab
    apply Fin.ext
    exact pos_inj n h a.1 b.1 a.2 b.2 (congrArg Fin.val hab)
  obtain ⟨k, hk⟩ := (Finite.injective_iff_surjective.1 hf) ⟨i, hi⟩
  exact ⟨k.1, k.2, congrArg Fin.val hk⟩

end Sbc.Probe
