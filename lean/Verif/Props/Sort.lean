import Verif.Proof.Sort
set_option autoImplicit false
/-!
# C21, C22: SORT and RSORT
-/
namespace Sbc.Sort
open Sbc Sbc.Strs Sbc.Strs.Spec

/-- The order SORT promises: numbers by value, strings by their characters; RSORT the reverse. -/
def Spec.Before (reverse : Bool) : Val → Val → Prop
  | .num a, .num b => if reverse then b < a else a < b
  | .str a, .str b => if reverse then text b < text a else text a < text b
  | _, _ => False

theorem lexSign_neg (x y : List Nat) : lexSign x y < 0 ↔ x < y := by
  unfold lexSign; split
  · simp [*]
  · split <;> simp [*]

theorem lexSign_pos (x y : List Nat) : lexSign x y > 0 ↔ y < x := by
  unfold lexSign; split
  · rename_i h; simp; exact fun h2 => absurd (List.lt_trans h h2) (nat_list_lt_irrefl _)
  · split <;> simp [*]

/-- **C22 (partial).** The comparison used is the promised order (numbers and strings, both directions).
This is the part of C22 that holds unconditionally: the sorting itself is refuted below. -/
theorem C22_comparison_partial (reverse : Bool) (a b : Val) : comp reverse a b = true ↔ Spec.Before reverse a b := by
  cases a <;> cases b <;> cases reverse <;>
    simp [comp, Spec.Before, fixpSortComp, fixpRsortComp, strSortComp_eq, strRsortComp_eq, strLex_eq, lexSign_neg]
  exact lexSign_pos _ _

theorem comp_irrefl (reverse : Bool) (v : Val) : comp reverse v v = false := by
  cases h : comp reverse v v with
  | false => rfl
  | true =>
    rw [C22_comparison_partial] at h
    cases v <;> cases reverse <;> simp [Spec.Before] at h <;> first | omega | exact absurd h (nat_list_lt_irrefl _)

/-- Number of elements every given array has. -/
def Spec.common (dims : Nat → Nat × Option Nat) (key : Nat) (extra : List Nat) (n : Nat) : Prop :=
  (∀ a ∈ key :: extra, n ≤ (dims a).1) ∧ ∃ a ∈ key :: extra, (dims a).1 = n

theorem foldl_min (dims : Nat → Nat × Option Nat) (l : List Nat) (m : Nat) :
    let n := l.foldl (fun m e => if (dims e).1 < m then (dims e).1 else m) m
    n ≤ m ∧ (∀ e ∈ l, n ≤ (dims e).1) ∧ (n = m ∨ ∃ e ∈ l, (dims e).1 = n) := by
  induction l generalizing m with
  | nil => simp
  | cons a l ih =>
    simp only [List.foldl_cons]
    have := ih (if (dims a).1 < m then (dims a).1 else m)
    simp only [] at this
    generalize l.foldl _ _ = n at this
    obtain ⟨h1, h2, h3⟩ := this
    refine ⟨by split at h1 <;> omega, ?_, ?_⟩
    · intro e he
      rcases List.mem_cons.mp he with rfl | he
      · split at h1 <;> omega
      · exact h2 e he
    · rcases h3 with h3 | ⟨e, he, h3⟩
      · split at h3
        · exact Or.inr ⟨a, by simp, h3.symm⟩
        · exact Or.inl h3
      · exact Or.inr ⟨e, by simp [he], h3⟩

/-- **C21 (partial).** For one-dimensional, pairwise different arrays (at most 32 extra ones) of any contents:
arguments outside the arrays are reported as errors; otherwise, whenever SORT/RSORT finishes, it has
rearranged elements `start … start+size-1` of the key array and of every extra array by one and the same
permutation, and has changed nothing else; it never accesses memory outside the arrays.
Missing: it does not finish for some contents (`C22_diverges_violated`), and an array given twice as an extra
is not rearranged (`C21_duplicate_violated`). -/
theorem C21_sort_partial (reverse : Bool) (dims : Nat → Nat × Option Nat) (fuel : Nat) (startF sizeF : Int)
    (key : Nat) (extra : List Nat) (st : Store) (n : Nat) (hn : Spec.common dims key extra n)
    (h1d : ∀ a ∈ key :: extra, (dims a).2 = none) (hnd : (key :: extra).Nodup) (h32 : extra.length ≤ 32) (r : Out Store)
    (hr : cmdSort reverse dims fuel startF sizeF key extra st = some r) :
    (¬ (0 ≤ startF / 4096 ∧ startF / 4096 < n ∧ 0 ≤ sizeF / 4096 ∧ startF / 4096 + sizeF / 4096 ≤ n) →
      r = .err .outOfRange) ∧
    (0 ≤ startF / 4096 ∧ startF / 4096 < n ∧ 0 ≤ sizeF / 4096 ∧ startF / 4096 + sizeF / 4096 ≤ n →
      ∃ st' π, r = .ok st' ∧
        (∀ k : Nat, ¬ (startF / 4096 ≤ k ∧ k < startF / 4096 + sizeF / 4096) → (π : Equiv.Perm Nat) k = k) ∧
        (∀ a ∈ key :: extra, ∀ k, st' a k = st a (π k)) ∧
        (∀ a, a ∉ key :: extra → st' a = st a)) := by
  have hmin : extra.foldl (fun m e => if (dims e).1 < m then (dims e).1 else m) (dims key).1 = n := by
    have := foldl_min dims extra (dims key).1
    simp only [] at this
    generalize extra.foldl _ _ = m at *
    obtain ⟨h1, h2, h3⟩ := this
    obtain ⟨c1, a, ha, c2⟩ := hn
    have hle : n ≤ m := by
      rcases h3 with h3 | ⟨e, he, h3⟩
      · rw [h3]; exact c1 key (by simp)
      · rw [← h3]; exact c1 e (by simp [he])
    have hge : m ≤ n := by
      rw [← c2]
      rcases List.mem_cons.mp ha with rfl | ha
      · exact h1
      · exact h2 a ha
    omega
  unfold cmdSort at hr
  rw [if_neg (by omega), if_neg (by simp [h1d key])] at hr
  have hfind : extra.find? (fun e => decide ((dims e).2 ≠ none ∨ e = key)) = none := by
    rw [List.find?_eq_none]
    intro e he
    have h1 := h1d e (by simp [he])
    have h2 : e ≠ key := by rintro rfl; simp [he] at hnd
    simp [h1, h2]
  simp only [hfind, hmin] at hr
  unfold fpToInt at hr
  constructor
  · intro h
    split at hr
    · injection hr with hr; exact hr.symm
    · rw [if_pos (by omega)] at hr
      injection hr with hr; exact hr.symm
  · intro h
    rw [if_neg (by omega), if_neg (by omega)] at hr
    obtain ⟨st', π, h1, h2, h3⟩ := quickSort_spec (comp reverse) (comp_irrefl reverse) (key :: extra) hnd (by simp) n
      fuel _ _ st r (by omega) hr
    refine ⟨st', π, h1, ?_, h3.moved, h3.other⟩
    intro k hk
    by_cases hsz : sizeF / 4096 = 0
    · -- an empty range: nothing is touched because the permutation moves at most one index
      by_contra hne
      have hw : ∀ x, x ≠ (startF / 4096).toNat ∨ (startF / 4096 + sizeF / 4096 - 1).toNat < (startF / 4096).toNat → π x = x := by
        intro x hx; apply h2; omega
      have hk' : k = (startF / 4096).toNat := by
        by_contra hc; exact hne (hw k (Or.inl hc))
      have : π (π k) = π k := hw (π k) (Or.inl (by rw [← hk']; exact hne))
      exact hne (π.injective this)
    · exact h2 k (by omega)

/-- **C21 (refuted case).** An array given twice as an extra array is exchanged twice, i.e. not at all: here
the keys 3,1,2 are rearranged but the extra array keeps its order. -/
theorem C21_duplicate_violated :
    ∃ st' : Store, cmdSort false (fun _ => (3, none)) 5 0 (3 * 4096) 0 [1, 1]
        (fun a k => .num (if a = 0 then [5, 7, 6].getD k 0 else [10, 20, 30].getD k 0)) = some (.ok st') ∧
      [st' 0 0, st' 0 1, st' 0 2] = [.num 5, .num 6, .num 7] ∧
      [st' 1 0, st' 1 1, st' 1 2] = [.num 10, .num 20, .num 30] := by
  refine ⟨_, rfl, ?_, ?_⟩ <;> decide

example : Spec.common (fun _ => (3, none)) 0 [1, 2] 3 ∧ [0, 1, 2].Nodup ∧
    (cmdSort false (fun _ => (3, none)) 5 0 (3 * 4096) 0 [1] (fun a k => .num (if a = 0 then [5, 7, 6].getD k 0
      else [10, 20, 30].getD k 0))).isSome := by
  refine ⟨⟨by simp, 0, by simp⟩, by decide, by decide⟩

/-! ## Sorting -/

theorem scanUp_skip {c : Val → Val → Bool} {d : Nat → Val} {pv : Val} {n fuel i k : Nat} (hik : i ≤ k) (hk : k < n)
    (hf : n < fuel + i) (hs : c (d k) pv = false) (hb : ∀ x, i ≤ x → x < k → c (d x) pv = true) :
    scanUp c d pv n fuel i = .ok k := by
  obtain ⟨i', h1, h2, h3, h4, h5⟩ := scanUp_spec fuel i k hik hk hf hs
  have : i' = k := by
    by_contra hne
    rw [hb i' h2 (by omega)] at h4; cases h4
  rw [h1, this]

theorem scanDown_skip {c : Val → Val → Bool} {d : Nat → Val} {pv : Val} {n j k : Nat} (hkj : k ≤ j) (hj : j < n)
    (hs : c pv (d k) = false) (hb : ∀ x, k < x → x ≤ j → c pv (d x) = true) :
    scanDown c d pv n j = .ok k := by
  obtain ⟨j', h1, h2, h3, h4, h5⟩ := scanDown_spec j k hkj hj hs
  have : j' = k := by
    by_contra hne
    rw [hb j' (by omega) h3] at h4; cases h4
  rw [h1, this]

theorem quickSort_strict (c : Val → Val → Bool) (hirr : ∀ v, c v v = false) (arrays : List Nat) (n : Nat) (st : Store) :
    ∀ (fuel lo : Nat) (stop : Int), stop < n → stop - lo < fuel →
      (∀ x y : Nat, lo ≤ x → x < y → (y : Int) ≤ stop → c (st (arrays.headD 0) x) (st (arrays.headD 0) y) = true) →
      (0 < fuel) → quickSort c arrays n fuel lo stop st = some (.ok st) := by
  intro fuel
  induction fuel with
  | zero => intro _ _ _ _ _ h; omega
  | succ f ih =>
    intro lo stop hn hf hs _
    rw [quickSort]
    by_cases hle : stop - lo ≤ 1
    · rw [if_pos hle]
    · rw [if_neg hle]
      have hp : partition c arrays n lo stop.toNat st = .ok (lo + (stop.toNat - lo) / 2, st) := by
        unfold partition
        rw [if_neg (by omega), partLoop]
        rw [scanUp_skip (k := lo + (stop.toNat - lo) / 2) (by omega) (by omega) (by omega) (hirr _)
          (fun x h1 h2 => hs x _ h1 h2 (by omega))]
        simp only [Out.bind]
        rw [scanDown_skip (k := lo + (stop.toNat - lo) / 2) (by omega) (by omega) (hirr _)
          (fun x h1 h2 => hs _ x (by omega) h1 (by omega))]
        simp
      rw [hp]
      simp only []
      rw [ih lo _ (by omega) (by omega) (fun x y h1 h2 h3 => hs x y h1 h2 (by omega)) (by omega)]
      simp only []
      exact ih _ stop hn (by omega) (fun x y h1 h2 h3 => hs x y (by omega) h2 h3) (by omega)

/-- **C22 (partial).** A range already in strictly ascending (RSORT: descending) order is left as it is, and
the command finishes.  Missing: every other content (see the refutations). -/
theorem C22_sorted_partial (reverse : Bool) (dims : Nat → Nat × Option Nat) (start size key n : Nat) (st : Store)
    (hd : dims key = (n, none)) (h1 : start < n) (h2 : start + size ≤ n)
    (hs : ∀ x y, start ≤ x → x < y → y < start + size → Spec.Before reverse (st key x) (st key y)) :
    cmdSort reverse dims (n + 1) (start * 4096) (size * 4096) key [] st = some (.ok st) := by
  unfold cmdSort fpToInt
  have e1 : (start : Int) * 4096 / 4096 = start := by omega
  have e2 : (size : Int) * 4096 / 4096 = size := by omega
  simp only [hd, List.find?_nil, List.foldl_nil, e1, e2, List.length_nil]
  rw [if_neg (by omega), if_neg (by simp), if_neg (by omega), if_neg (by omega)]
  refine quickSort_strict (comp reverse) (comp_irrefl reverse) [key] n st (n + 1) _ _ (by omega) (by omega) ?_ (by omega)
  intro x y hx hxy hy
  rw [C22_comparison_partial]
  exact hs x y (by omega) hxy (by omega)

/-- **C22 (refuted case).** Two elements are never sorted: `SORT 0,2,A` leaves 2,1 as it is; and three
elements 2,0,1 become 0,2,1. -/
theorem C22_sort_violated :
    (∃ st' : Store, cmdSort false (fun _ => (10, none)) 5 0 (2 * 4096) 0 [] (fun _ k => .num ([2, 1].getD k 0)) = some (.ok st') ∧
      st' 0 0 = .num 2 ∧ st' 0 1 = .num 1) ∧
    (∃ st' : Store, cmdSort false (fun _ => (3, none)) 5 0 (3 * 4096) 0 [] (fun _ k => .num ([2, 0, 1].getD k 0)) = some (.ok st') ∧
      [st' 0 0, st' 0 1, st' 0 2] = [.num 0, .num 2, .num 1]) := by
  refine ⟨⟨_, rfl, by decide, by decide⟩, ⟨_, rfl, by decide⟩⟩

theorem quickSort_loop (c : Val → Val → Bool) (x q : Val) (hxq : c x q = true) (hqq : c q q = false) (n : Nat) (hn : 3 ≤ n)
    (st : Store) (h0 : st 0 0 = x) (h1 : st 0 1 = q) (h2 : st 0 2 = q) :
    ∀ fuel, quickSort c [0] n fuel 0 2 st = none := by
  have hswap : sortSwap st [0] 1 2 = st := by
    funext a k
    unfold sortSwap
    rw [List.foldl_cons, List.foldl_nil, swapOne_eq]
    by_cases ha : a = 0
    · rw [if_pos ha, ha, Equiv.swap_apply_def]
      by_cases hk1 : k = 1
      · rw [if_pos hk1, hk1, h1, h2]
      · rw [if_neg hk1]
        by_cases hk2 : k = 2
        · rw [if_pos hk2, hk2, h1, h2]
        · rw [if_neg hk2]
    · rw [if_neg ha]
  have hp : partition c [0] n 0 2 st = .ok (2, st) := by
    unfold partition
    rw [if_neg (by omega)]
    simp only [List.headD_cons, Nat.zero_add, Nat.sub_zero]
    rw [show 2 / 2 = 1 from rfl, h1, partLoop]
    simp only [List.headD_cons]
    rw [scanUp_skip (k := 1) (by omega) (by omega) (by omega) (by rw [h1, hqq]) (by
      intro y _ hy; have : y = 0 := by omega
      subst this; rw [h0, hxq])]
    simp only [Out.bind]
    rw [scanDown_skip (k := 2) (by omega) (by omega) (by rw [h2, hqq]) (by intro y h1 h2; omega)]
    simp only []
    rw [if_neg (by omega), hswap]
    obtain ⟨m, rfl⟩ : ∃ m, n = m + 1 := ⟨n - 1, by omega⟩
    rw [partLoop]
    simp only [List.headD_cons]
    rw [scanUp_skip (k := 2) (by omega) (by omega) (by omega) (by rw [h2, hqq]) (by intro y h1 h2; omega)]
    simp only [Out.bind]
    rw [scanDown_skip (k := 1) (by omega) (by omega) (by rw [h1, hqq]) (by intro y h1 h2; omega)]
    simp
  intro fuel
  induction fuel with
  | zero => rfl
  | succ f ih =>
    rw [quickSort, if_neg (by decide)]
    rw [show (2 : Int).toNat = 2 from rfl, hp]
    simp only []
    rw [show ((2 : Nat) : Int) = 2 from rfl, ih]

/-- **C22 (refuted case).** `SORT 0,3,A` with A = 1,2,2 (any three elements of which the last two are equal
and greater than the first) recurses forever. -/
theorem C22_diverges_violated (x q : Int) (h : x < q) (fuel : Nat) (dims : Nat → Nat × Option Nat) (n : Nat)
    (hd : dims 0 = (n, none)) (hn : 3 ≤ n) (st : Store)
    (h0 : st 0 0 = .num x) (h1 : st 0 1 = .num q) (h2 : st 0 2 = .num q) :
    cmdSort false dims fuel 0 (3 * 4096) 0 [] st = none := by
  unfold cmdSort fpToInt
  simp only [hd, List.find?_nil, List.foldl_nil, List.length_nil]
  rw [if_neg (by omega), if_neg (by simp), if_neg (by omega), if_neg (by omega)]
  exact quickSort_loop (comp false) (.num x) (.num q) (by simpa [comp, fixpSortComp] using h) (comp_irrefl _ _) n hn st h0 h1 h2 fuel

end Sbc.Sort
