import Verif.Model.Sort
import Verif.Proof.Strs
import Mathlib.Logic.Equiv.Basic
set_option autoImplicit false
namespace Sbc.Sort
open Sbc Sbc.Strs Sbc.Strs.Spec

/-- `st'` is `st` with the arrays rearranged by `π`, everything else unchanged. -/
structure PermBy (π : Equiv.Perm Nat) (arrays : List Nat) (st st' : Store) : Prop where
  moved : ∀ a, a ∈ arrays → ∀ k, st' a k = st a (π k)
  other : ∀ a, a ∉ arrays → st' a = st a

theorem PermBy.refl (arrays : List Nat) (st : Store) : PermBy (Equiv.refl Nat) arrays st st :=
  ⟨fun _ _ _ => rfl, fun _ _ => rfl⟩

theorem PermBy.trans {π₁ π₂ : Equiv.Perm Nat} {arrays : List Nat} {a b c : Store} (h1 : PermBy π₁ arrays a b)
    (h2 : PermBy π₂ arrays b c) : PermBy (π₂.trans π₁) arrays a c :=
  ⟨fun x hx k => by rw [h2.moved x hx, h1.moved x hx]; rfl, fun x hx => by rw [h2.other x hx, h1.other x hx]⟩

/-- `π` only moves indexes in `[lo, hi]`. -/
def Within (π : Equiv.Perm Nat) (lo hi : Nat) : Prop := ∀ k, ¬ (lo ≤ k ∧ k ≤ hi) → π k = k

theorem Within.trans {π₁ π₂ : Equiv.Perm Nat} {lo hi : Nat} (h1 : Within π₁ lo hi) (h2 : Within π₂ lo hi) :
    Within (π₂.trans π₁) lo hi := fun k hk => by
  show π₁ (π₂ k) = k
  rw [h2 k hk, h1 k hk]

theorem Within.mono {π : Equiv.Perm Nat} {lo hi lo' hi' : Nat} (h : Within π lo hi) (hl : lo' ≤ lo) (hh : hi ≤ hi') :
    Within π lo' hi' := fun k hk => h k (by omega)

theorem swapOne_eq (st : Store) (a i j : Nat) (x k : Nat) :
    swapOne st a i j x k = if x = a then st x (Equiv.swap i j k) else st x k := by
  unfold swapOne
  by_cases hx : x = a
  · subst hx
    simp only [if_true]
    rw [Equiv.swap_apply_def]
    split
    · rfl
    · split <;> rfl
  · simp only [hx, if_false]

theorem sortSwap_perm (arrays : List Nat) (hnd : arrays.Nodup) (st : Store) (i j : Nat) :
    PermBy (Equiv.swap i j) arrays st (sortSwap st arrays i j) := by
  unfold sortSwap
  induction arrays generalizing st with
  | nil => exact ⟨fun a ha => by simp at ha, fun a _ => rfl⟩
  | cons a l ih =>
    rw [List.nodup_cons] at hnd
    have ih := ih hnd.2 (swapOne st a i j)
    rw [List.foldl_cons]
    constructor
    · intro x hx k
      by_cases hxl : x ∈ l
      · rw [ih.moved x hxl, swapOne_eq, if_neg (by rintro rfl; exact hnd.1 hxl)]
      · have : x = a := by simpa [hxl] using hx
        rw [ih.other x hxl, swapOne_eq, if_pos this]
    · intro x hx
      simp only [List.mem_cons, not_or] at hx
      rw [ih.other x hx.2]
      funext k
      rw [swapOne_eq, if_neg hx.1]

theorem scanUp_spec {c : Val → Val → Bool} {d : Nat → Val} {pv : Val} {n : Nat} (fuel i k : Nat) (hik : i ≤ k) (hk : k < n)
    (hf : n < fuel + i) (hs : c (d k) pv = false) :
    ∃ i', scanUp c d pv n fuel i = .ok i' ∧ i ≤ i' ∧ i' ≤ k ∧ c (d i') pv = false ∧ ∀ x, i ≤ x → x < i' → c (d x) pv = true := by
  induction fuel generalizing i with
  | zero => omega
  | succ f ih =>
    rw [scanUp, if_pos (by omega)]
    cases hc : c (d i) pv with
    | false => exact ⟨i, by simp, Nat.le_refl _, hik, hc, fun x h1 h2 => by omega⟩
    | true =>
      rw [if_pos rfl]
      have hne : i ≠ k := by rintro rfl; rw [hs] at hc; cases hc
      obtain ⟨i', h1, h2, h3, h4, h5⟩ := ih (i + 1) (by omega) (by omega)
      refine ⟨i', h1, by omega, h3, h4, ?_⟩
      intro x hx1 hx2
      by_cases hxi : x = i
      · rw [hxi]; exact hc
      · exact h5 x (by omega) hx2

theorem scanDown_spec {c : Val → Val → Bool} {d : Nat → Val} {pv : Val} {n : Nat} (j k : Nat) (hkj : k ≤ j) (hj : j < n)
    (hs : c pv (d k) = false) :
    ∃ j', scanDown c d pv n j = .ok j' ∧ k ≤ j' ∧ j' ≤ j ∧ c pv (d j') = false ∧ ∀ x, j' < x → x ≤ j → c pv (d x) = true := by
  induction j with
  | zero =>
    have : k = 0 := by omega
    subst this
    rw [scanDown, if_pos hj, hs]
    exact ⟨0, rfl, Nat.le_refl _, Nat.le_refl _, hs, fun x _ _ => by omega⟩
  | succ j ih =>
    rw [scanDown, if_pos hj]
    cases hc : c pv (d (j + 1)) with
    | false => exact ⟨j + 1, rfl, hkj, Nat.le_refl _, hc, fun x _ _ => by omega⟩
    | true =>
      rw [if_pos rfl]
      have hne : k ≠ j + 1 := by rintro rfl; rw [hs] at hc; cases hc
      obtain ⟨j', h1, h2, h3, h4, h5⟩ := ih (by omega) (by omega)
      refine ⟨j', h1, h2, by omega, h4, ?_⟩
      intro x hx1 hx2
      by_cases hxj : x = j + 1
      · rw [hxj]; exact hc
      · exact h5 x hx1 (by omega)

theorem partLoop_spec (c : Val → Val → Bool) (arrays : List Nat) (hnd : arrays.Nodup) (hne : arrays ≠ []) (pv : Val)
    (n lo hi : Nat) (hhi : hi < n) :
    ∀ (fuel i j : Nat) (st : Store), n < fuel + i → lo ≤ i → j ≤ hi →
      (∃ k, i ≤ k ∧ k ≤ hi ∧ c (st (arrays.headD 0) k) pv = false) →
      (∃ k, lo ≤ k ∧ k ≤ j ∧ c pv (st (arrays.headD 0) k) = false) →
      ∃ p st', partLoop c arrays pv n fuel i j st = .ok (p, st') ∧ lo ≤ p ∧ p ≤ hi ∧
        ∃ π, Within π lo hi ∧ PermBy π arrays st st' := by
  intro fuel
  induction fuel with
  | zero => intro i j st hf _ _ h _; obtain ⟨k, _, _, _⟩ := h; omega
  | succ f ih =>
    intro i j st hf hlo hj h1 h2
    obtain ⟨k1, a1, a2, a3⟩ := h1
    obtain ⟨k2, b1, b2, b3⟩ := h2
    rw [partLoop]
    obtain ⟨i', u1, u2, u3, u4, u5⟩ := scanUp_spec (n := n) (n + 1) i k1 a1 (by omega) (by omega) a3
    obtain ⟨j', d1, d2, d3, d4, d5⟩ := scanDown_spec (n := n) j k2 b2 (by omega) b3
    rw [u1]; simp only [Out.bind]; rw [d1]; simp only []
    by_cases hij : i' ≥ j'
    · rw [if_pos hij]
      exact ⟨i', st, rfl, by omega, by omega, Equiv.refl _, fun _ _ => rfl, PermBy.refl _ _⟩
    · rw [if_neg hij]
      have hp := sortSwap_perm arrays hnd st i' j'
      have hkey : arrays.headD 0 ∈ arrays := by cases arrays <;> simp_all
      obtain ⟨p, st', e1, e2, e3, π, e4, e5⟩ := ih (i' + 1) (j' - 1) (sortSwap st arrays i' j') (by omega) (by omega) (by omega)
        ⟨j', by omega, by omega, by rw [hp.moved _ hkey, Equiv.swap_apply_right]; exact u4⟩
        ⟨i', by omega, by omega, by rw [hp.moved _ hkey, Equiv.swap_apply_left]; exact d4⟩
      refine ⟨p, st', e1, e2, e3, π.trans (Equiv.swap i' j'), ?_, hp.trans e5⟩
      refine Within.trans ?_ e4
      intro k hk
      exact Equiv.swap_apply_of_ne_of_ne (by omega) (by omega)

theorem partition_spec (c : Val → Val → Bool) (hirr : ∀ v, c v v = false) (arrays : List Nat) (hnd : arrays.Nodup)
    (hne : arrays ≠ []) (n lo hi : Nat) (hhi : hi < n) (hle : lo ≤ hi) (st : Store) :
    ∃ p st', partition c arrays n lo hi st = .ok (p, st') ∧ lo ≤ p ∧ p ≤ hi ∧
      ∃ π, Within π lo hi ∧ PermBy π arrays st st' := by
  unfold partition
  split
  · exact ⟨lo, st, rfl, Nat.le_refl _, hle, Equiv.refl _, fun _ _ => rfl, PermBy.refl _ _⟩
  · exact partLoop_spec c arrays hnd hne _ n lo hi hhi (n + 1) lo hi st (by omega) (Nat.le_refl _) (Nat.le_refl _)
      ⟨lo + (hi - lo) / 2, by omega, by omega, hirr _⟩ ⟨lo + (hi - lo) / 2, by omega, by omega, hirr _⟩

theorem quickSort_spec (c : Val → Val → Bool) (hirr : ∀ v, c v v = false) (arrays : List Nat) (hnd : arrays.Nodup)
    (hne : arrays ≠ []) (n : Nat) :
    ∀ (fuel lo : Nat) (stop : Int) (st : Store) (r : Out Store), stop < n → quickSort c arrays n fuel lo stop st = some r →
      ∃ st' π, r = .ok st' ∧ Within π lo stop.toNat ∧ PermBy π arrays st st' := by
  intro fuel
  induction fuel with
  | zero => intro lo stop st r _ h; simp [quickSort] at h
  | succ f ih =>
    intro lo stop st r hn h
    rw [quickSort] at h
    split at h
    · injection h with h
      exact ⟨st, Equiv.refl _, h.symm, fun _ _ => rfl, PermBy.refl _ _⟩
    · rename_i hgt
      obtain ⟨p, st1, e1, e2, e3, π, e4, e5⟩ := partition_spec c hirr arrays hnd hne n lo stop.toNat (by omega) (by omega) st
      rw [e1] at h
      simp only [] at h
      cases hq : quickSort c arrays n f lo (p : Int) st1 with
      | none => rw [hq] at h; simp at h
      | some r1 =>
        obtain ⟨st2, π2, g1, g2, g3⟩ := ih lo p st1 r1 (by omega) hq
        subst g1
        rw [hq] at h
        simp only [] at h
        obtain ⟨st3, π3, k1, k2, k3⟩ := ih (p + 1) stop st2 r hn h
        refine ⟨st3, (π3.trans (π2.trans π)), k1, ?_, (e5.trans g3).trans k3⟩
        exact Within.trans (Within.trans e4 (g2.mono (Nat.le_refl _) (by simpa using e3))) (k2.mono (by omega) (Nat.le_refl _))

theorem strSortComp_eq (a b : Str) : strSortComp a b = decide (strLex a b < 0) := by
  have : ∀ n i, strSortComp.go a b n i =
      decide (strLex.go a b n i (if strLen a < strLen b then -1 else if strLen b < strLen a then 1 else 0) < 0) := by
   intro n i
   induction n generalizing i with
   | zero =>
     rw [strSortComp.go, strLex.go]
     by_cases h : strLen a < strLen b
     · simp [h]
     · rw [if_neg h]
       by_cases h2 : strLen b < strLen a
       · simp [h2]; omega
       · simp [h2]; omega
   | succ n ih =>
     rw [strSortComp.go, strLex.go]
     split
     · simp
     · split
       · simp
       · exact ih (i + 1)
  exact this _ _

theorem strRsortComp_eq (a b : Str) : strRsortComp a b = decide (strLex a b > 0) := by
  have : ∀ n i, strRsortComp.go a b n i =
      decide (strLex.go a b n i (if strLen a < strLen b then -1 else if strLen b < strLen a then 1 else 0) > 0) := by
   intro n i
   induction n generalizing i with
   | zero =>
     rw [strRsortComp.go, strLex.go]
     by_cases h : strLen a < strLen b
     · simp [h]; omega
     · rw [if_neg h]
       by_cases h2 : strLen b < strLen a
       · simp [h2]
       · simp [h2]
   | succ n ih =>
     rw [strRsortComp.go, strLex.go]
     by_cases h1 : strAtWide a i = strAtWide b i
     · rw [if_pos h1, if_neg (by omega), if_neg (by omega)]; exact ih (i + 1)
     · rw [if_neg h1]
       by_cases h2 : strAtWide a i < strAtWide b i
       · rw [if_pos h2]; simp; omega
       · rw [if_neg h2, if_pos (by omega)]; simp; omega
  exact this _ _

end Sbc.Sort
