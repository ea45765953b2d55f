import Verif.Spec.Arrays
import Mathlib.Tactic.Ring
import Mathlib.Tactic.Linarith
set_option autoImplicit false
/-!
# The array pool refines independent tables
-/
namespace Sbc.Arrays
open Sbc Sbc.Arrays.Spec

/-- Second header word. -/
def hdr2 : Option Int → Int
  | none => unused
  | some y => y

/-- Element counts as naturals. -/
def cnt (a : Arr) : Nat := (count a.d1 a.d2).toNat

/-- `(x, y)` is a cell of `a`. -/
def InArr (a : Arr) (x y : Int) : Prop :=
  0 ≤ x ∧ x < a.d1 ∧ 0 ≤ y ∧ match a.d2 with
    | none => y = 0
    | some d => y < d

/-- Offset of a cell. -/
def off (a : Arr) (x y : Int) : Nat := (x + y * a.d1).toNat

structure Block (c : Pool) (p : Nat) (a : Arr) : Prop where
  ok : DimOk a.d1 a.d2
  h1 : c.mem p = a.d1
  h2 : c.mem (p + 1) = hdr2 a.d2
  fits : p + 2 + cnt a ≤ c.next
  cells : ∀ x y, InArr a x y → c.mem (p + 2 + off a x y) = a.cell x y

structure Rel (c : St) (s : Spec.St) : Prop where
  size : c.pool.size = s.size
  used : c.pool.next = s.used
  small : s.size ≤ 2147483648
  next : c.pool.next ≤ c.pool.size
  len : c.ptrs.length = s.arrs.length
  block : ∀ (id : Nat) (p : Nat) (a : Arr), c.ptrs[id]? = some p → s.arrs[id]? = some a → Block c.pool p a
  disj : ∀ (i j : Nat) (p q : Nat) (a b : Arr), i < j → c.ptrs[i]? = some p → c.ptrs[j]? = some q →
    s.arrs[i]? = some a → s.arrs[j]? = some b → p + 2 + cnt a ≤ q

theorem count_nonneg {s1 : Int} {s2 : Option Int} (h : DimOk s1 s2) :
    0 ≤ count s1 s2 ∧ count s1 s2 < 1073741824 := by
  unfold DimOk at h
  cases s2 with
  | none => simp only [count]; omega
  | some y =>
    simp only [count] at *
    exact ⟨Int.mul_nonneg (by omega) (by omega), by omega⟩

theorem off_lt {a : Arr} (ok : DimOk a.d1 a.d2) {x y : Int} (h : InArr a x y) : off a x y < cnt a := by
  unfold InArr at h; unfold off cnt count
  obtain ⟨hx0, hx, hy0, hy⟩ := h
  unfold DimOk at ok
  cases hd : a.d2 with
  | none => rw [hd] at hy; simp only [] at hy; subst hy; simp only [Int.zero_mul]; omega
  | some d =>
    rw [hd] at hy; simp only [] at hy
    have h1 : 0 ≤ y * a.d1 := Int.mul_nonneg hy0 (by omega)
    have h2 : x + y * a.d1 < a.d1 * d := by nlinarith
    show (x + y * a.d1).toNat < (a.d1 * d).toNat
    omega

theorem off_inj {a : Arr} (ok : DimOk a.d1 a.d2) {x y x' y' : Int} (h : InArr a x y)
    (h' : InArr a x' y') (e : off a x y = off a x' y') : x = x' ∧ y = y' := by
  obtain ⟨hx0, hx, hy0, _⟩ := h
  obtain ⟨hx0', hx', hy0', _⟩ := h'
  have hd : 0 < a.d1 := by omega
  unfold off at e
  have n1 : 0 ≤ y * a.d1 := Int.mul_nonneg hy0 (by omega)
  have n2 : 0 ≤ y' * a.d1 := Int.mul_nonneg hy0' (by omega)
  have e' : x + y * a.d1 = x' + y' * a.d1 := by omega
  have hyy : y = y' := by
    have h1 : (x + y * a.d1) / a.d1 = y := by
      rw [Int.add_mul_ediv_right _ _ (by omega), Int.ediv_eq_zero_of_lt hx0 hx]; omega
    have h2 : (x' + y' * a.d1) / a.d1 = y' := by
      rw [Int.add_mul_ediv_right _ _ (by omega), Int.ediv_eq_zero_of_lt hx0' hx']; omega
    rw [← h1, ← h2, e']
  subst hyy
  exact ⟨by omega, rfl⟩

theorem toU32_of_nonneg {x : Int} (h : 0 ≤ x) (h2 : x < 4294967296) : (toU32 x : Int) = x := by
  unfold toU32; omega

theorem toU32_of_neg {x : Int} (h : x < 0) (h2 : -4294967296 ≤ x) : (toU32 x : Int) = x + 4294967296 := by
  unfold toU32; omega

theorem alloc_spec {c : Pool} {s1 : Int} {s2 : Option Int} (h : DimOk s1 s2) (d : Int)
    (hn : c.next ≤ c.size) (hs : c.size ≤ 2147483648) :
    alloc c (toU32 s1) (dim2 s2) d =
      if (c.next : Int) + count s1 s2 + 2 ≥ c.size then (c, .ok none)
      else ({ c with
          next := c.next + (count s1 s2).toNat + 2,
          mem := fill (fun w => if w = c.next then s1 else if w = c.next + 1 then hdr2 s2 else c.mem w)
            (c.next + 2) (count s1 s2).toNat d }, .ok (some c.next)) := by
  obtain ⟨hc0, hc1⟩ := count_nonneg h
  have hs1 : (toU32 s1 : Int) = s1 := toU32_of_nonneg h.1 (by have := h.2.1; omega)
  have hsize : (if dim2 s2 ≠ unused then wrap32 (wrap32 (toU32 s1) * (dim2 s2)) else wrap32 (toU32 s1))
      = count s1 s2 := by
    rw [hs1]
    have hw : wrap32 s1 = s1 := wrap32_of_i32 (by have := h.1; have := h.2.1; unfold I32; omega)
    rw [hw]
    cases s2 with
    | none => simp [dim2, count]
    | some y =>
      have hy := h.2.2
      simp only [] at hy
      have : (toU32 y : Int) = y := toU32_of_nonneg (by omega) (by omega)
      have hne : dim2 (some y) ≠ unused := by
        show toU32 y ≠ 4294967295
        omega
      rw [if_pos hne]
      show wrap32 (s1 * (toU32 y : Int)) = s1 * y
      rw [this]
      have hc0' : 0 ≤ s1 * y := hc0
      exact wrap32_of_i32 (by unfold I32; omega)
  have hd2 : (dim2 s2 : Int) = hdr2 s2 := by
    cases s2 with
    | none => rfl
    | some y =>
      have hy := h.2.2
      simp only [] at hy
      exact toU32_of_nonneg (by omega) (by omega)
  unfold alloc
  simp only [hsize]
  simp only [hs1, hd2]
  have hnx : toU32 ((c.next : Int) + count s1 s2 + 2) = c.next + (count s1 s2).toNat + 2 := by
    unfold toU32; omega
  rw [hnx]
  by_cases hge : (c.next : Int) + count s1 s2 + 2 ≥ c.size
  · rw [if_pos (by omega), if_pos hge]
  · rw [if_neg (by omega), if_neg hge, if_neg (by omega)]

theorem fill_ne {mem : Nat → Int} {base n a : Nat} {d : Int} (h : a < base ∨ base + n ≤ a) :
    fill mem base n d a = mem a := by
  unfold fill; rw [if_neg (by omega)]

theorem fill_in {mem : Nat → Int} {base n a : Nat} {d : Int} (h : base ≤ a) (h2 : a < base + n) :
    fill mem base n d a = d := by
  unfold fill; rw [if_pos ⟨h, h2⟩]

theorem entryChecked_spec {c : St} {s : Spec.St} (r : Rel c s) {id p : Nat} {a : Arr}
    (hp : c.ptrs[id]? = some p) (ha : s.arrs[id]? = some a) {ix : Int} {iy : Option Int}
    (h : SubOk a ix iy) :
    (∃ x y, locate a ix iy = .ok (x, y) ∧ InArr a x y ∧
      entryChecked c.pool p (toU32 ix) (dim2 iy) = .ok (p + 2 + off a x y) ∧
      p + 2 + off a x y < c.pool.size) ∨
    (∃ e, locate a ix iy = .error e ∧ entryChecked c.pool p (toU32 ix) (dim2 iy) = .err e) := by
  have b := r.block id p a hp ha
  obtain ⟨hok, hh1, hh2, hfit, _⟩ := b
  have s0 : arrSize c.pool p 0 = a.d1.toNat := by unfold arrSize; rw [Nat.add_zero, hh1]
  have hd1 := hok.1
  have hd1b := hok.2.1
  obtain ⟨hi0, hi1, hsub⟩ := h
  have hix : toU32 ix < arrSize c.pool p 0 ↔ (0 ≤ ix ∧ ix < a.d1) := by
    rw [s0]
    rcases Int.lt_or_le ix 0 with hneg | hpos
    · have := toU32_of_neg hneg (by omega); omega
    · have := toU32_of_nonneg hpos (by omega); omega
  have hsz := r.size; have hsm := r.small; have hnx := r.next
  unfold entryChecked locate
  by_cases hin : 0 ≤ ix ∧ ix < a.d1
  · rw [if_pos (hix.2 hin), if_pos hin]
    have hixn := toU32_of_nonneg hin.1 (by omega)
    cases iy with
    | none =>
      left
      have hcell : InArr a ix 0 := by
        refine ⟨hin.1, hin.2, by omega, ?_⟩
        cases hd : a.d2 with
        | none => rfl
        | some d => have := hok.2.2; rw [hd] at this; simp only [] at this ⊢; omega
      have hlt := off_lt hok hcell
      have he : entry c.pool p (toU32 ix) 0 = p + 2 + off a ix 0 := by
        unfold entry off; rw [s0]
        simp only [Nat.zero_mul, Nat.add_zero, Int.zero_mul, Int.add_zero]
        omega
      refine ⟨ix, 0, rfl, hcell, ?_, by omega⟩
      rw [if_pos (by rfl), he]
      exact if_pos (by omega)
    | some y =>
      simp only [] at hsub
      obtain ⟨hy0, hy1, hyne, hd2⟩ := hsub
      have hnu : dim2 (some y) ≠ unused := by
        show toU32 y ≠ 4294967295
        rcases Int.lt_or_le y 0 with hneg | hpos
        · have := toU32_of_neg hneg (by omega); omega
        · have := toU32_of_nonneg hpos (by omega); omega
      cases hd : a.d2 with
      | none => exact absurd hd hd2
      | some d =>
        have hokd := hok.2.2
        rw [hd] at hokd; simp only [] at hokd
        have s1 : arrSize c.pool p 1 = d.toNat := by unfold arrSize; rw [hh2, hd]; rfl
        have hiy : dim2 (some y) < arrSize c.pool p 1 ↔ (0 ≤ y ∧ y < d) := by
          rw [s1]; show toU32 y < _ ↔ _
          rcases Int.lt_or_le y 0 with hneg | hpos
          · have := toU32_of_neg hneg (by omega); omega
          · have := toU32_of_nonneg hpos (by omega); omega
        simp only []
        by_cases hyin : 0 ≤ y ∧ y < d
        · left
          have hcell : InArr a ix y := ⟨hin.1, hin.2, hyin.1, by rw [hd]; exact hyin.2⟩
          have hlt := off_lt hok hcell
          have hcnt : cnt a < 2147483648 := by
            have := count_nonneg hok; unfold cnt; omega
          have hyn := toU32_of_nonneg hyin.1 (by omega)
          have he : entry c.pool p (toU32 ix) (dim2 (some y)) = p + 2 + off a ix y := by
            have hprod : ((toU32 ix + toU32 y * a.d1.toNat : Nat) : Int) = ix + y * a.d1 := by
              push_cast
              rw [hixn, hyn, Int.toNat_of_nonneg hd1]
            have hn0 : 0 ≤ y * a.d1 := Int.mul_nonneg hyin.1 hd1
            unfold entry dim2; rw [s0]
            unfold off at hlt ⊢
            generalize toU32 ix + toU32 y * a.d1.toNat = z at *
            generalize ix + y * a.d1 = z' at *
            omega
          refine ⟨ix, y, by rw [if_pos hyin], hcell, ?_, by omega⟩
          rw [if_neg hnu, if_pos (hiy.2 hyin), he]
          exact if_pos (by omega)
        · right
          refine ⟨.subscriptY, by rw [if_neg hyin], ?_⟩
          rw [if_neg hnu, if_neg (fun h => hyin (hiy.1 h))]
  · right
    refine ⟨.subscriptX, by rw [if_neg hin], ?_⟩
    rw [if_neg (fun h => hin (hix.1 h))]

theorem getElem?_ptr {c : St} {s : Spec.St} (r : Rel c s) {id : Nat} {a : Arr}
    (ha : s.arrs[id]? = some a) : ∃ p, c.ptrs[id]? = some p := by
  have : id < s.arrs.length := by
    rw [List.getElem?_eq_some_iff] at ha; exact ha.1
  exact ⟨_, List.getElem?_eq_getElem (by rw [r.len]; exact this)⟩

theorem rel_step {c : St} {s : Spec.St} (r : Rel c s) (op : Op) (hop : s.Allows op) :
    (step c op).2 = (Spec.step s op).2 ∧ Rel (step c op).1 (Spec.step s op).1 := by
  cases op with
  | dim s1 s2 d =>
    have hop : DimOk s1 s2 := hop
    simp only [step, Spec.step]
    rw [alloc_spec hop d r.next (by rw [r.size]; exact r.small)]
    have hu := r.used; have hsz := r.size
    obtain ⟨hc0, hc1⟩ := count_nonneg hop
    by_cases hge : (c.pool.next : Int) + count s1 s2 + 2 ≥ c.pool.size
    · rw [if_pos hge, if_pos (by omega)]
      exact ⟨rfl, r⟩
    · rw [if_neg hge, if_neg (by omega)]
      simp only []
      refine ⟨by rw [r.len], ?_⟩
      have hnx := r.next
      constructor
      · exact r.size
      · simp only []; rw [hu]
      · exact r.small
      · simp only []; omega
      · simp [r.len]
      · intro id p a hp ha
        rcases Nat.lt_trichotomy id c.ptrs.length with hlt | heq | hgt
        · rw [List.getElem?_append_left hlt] at hp
          rw [List.getElem?_append_left (by rw [← r.len]; exact hlt)] at ha
          obtain ⟨b1, b2, b3, b4, b5⟩ := r.block id p a hp ha
          refine ⟨b1, ?_, ?_, ?_, ?_⟩
          · simp only []; rw [fill_ne (by omega), if_neg (by omega), if_neg (by omega)]; exact b2
          · simp only []; rw [fill_ne (by omega), if_neg (by omega), if_neg (by omega)]; exact b3
          · simp only []; omega
          · intro x y hxy
            have := off_lt b1 hxy
            simp only []
            rw [fill_ne (by omega), if_neg (by omega), if_neg (by omega)]
            exact b5 x y hxy
        · subst heq
          have e1 : p = c.pool.next := by simpa using hp.symm
          have e2 : a = { d1 := s1, d2 := s2, cell := fun _ _ => d } := by
            rw [r.len] at ha; simpa using ha.symm
          subst e1 e2
          refine ⟨hop, ?_, ?_, ?_, ?_⟩
          · simp only []; rw [fill_ne (by omega), if_pos rfl]
          · simp only []; rw [fill_ne (by omega), if_neg (by omega), if_pos rfl]
          · simp only [cnt]; omega
          · intro x y hxy
            have := off_lt (a := { d1 := s1, d2 := s2, cell := fun _ _ => d }) hop hxy
            simp only [cnt] at this
            simp only []
            rw [fill_in (by omega) (by omega)]
        · rw [List.getElem?_eq_none (by simp; omega)] at hp; cases hp
      · intro i j p q a b hij hp hq ha hb
        have hj : j < c.ptrs.length + 1 := by
          rw [List.getElem?_eq_some_iff] at hq
          obtain ⟨h, _⟩ := hq; simpa using h
        have hi : i < c.ptrs.length := by omega
        rw [List.getElem?_append_left hi] at hp
        rw [List.getElem?_append_left (by rw [← r.len]; exact hi)] at ha
        rcases Nat.lt_or_ge j c.ptrs.length with hlt | hge
        · rw [List.getElem?_append_left hlt] at hq
          rw [List.getElem?_append_left (by rw [← r.len]; exact hlt)] at hb
          exact r.disj i j p q a b hij hp hq ha hb
        · have hj' : j = c.ptrs.length := by omega
          subst hj'
          have e1 : q = c.pool.next := by simpa using hq.symm
          subst e1
          exact (r.block i p a hp ha).fits
  | read id ix iy =>
    obtain ⟨a, ha, hsub⟩ := hop
    obtain ⟨p, hp⟩ := getElem?_ptr r ha
    simp only [step, Spec.step, hp, ha]
    have b := r.block id p a hp ha
    rcases entryChecked_spec r hp ha hsub with ⟨x, y, h1, h2, h3, h4⟩ | ⟨e, h1, h2⟩
    · rw [h1, h3]
      simp only []
      rw [b.cells x y h2]
      exact ⟨rfl, r⟩
    · rw [h1, h2]; exact ⟨rfl, r⟩
  | write id ix iy v =>
    obtain ⟨a, ha, hsub⟩ := hop
    obtain ⟨p, hp⟩ := getElem?_ptr r ha
    simp only [step, Spec.step, hp, ha]
    have b := r.block id p a hp ha
    rcases entryChecked_spec r hp ha hsub with ⟨x, y, h1, h2, h3, h4⟩ | ⟨e, h1, h2⟩
    · rw [h1, h3]
      simp only []
      refine ⟨trivial, ?_⟩
      have hlt := off_lt b.ok h2
      have hfit := b.fits
      have hlen : id < s.arrs.length := by rw [List.getElem?_eq_some_iff] at ha; exact ha.1
      constructor
      · exact r.size
      · exact r.used
      · exact r.small
      · exact r.next
      · simp [r.len]
      · intro id' q a' hq ha'
        simp only [] at hq ha' ⊢
        by_cases hid : id' = id
        · subst hid
          rw [hp] at hq; injection hq with hq; subst hq
          rw [List.getElem?_set_self hlen] at ha'
          injection ha' with ha'; subst ha'
          refine ⟨b.ok, ?_, ?_, b.fits, ?_⟩
          · simp only []; rw [if_neg (by omega)]; exact b.h1
          · simp only []; rw [if_neg (by omega)]; exact b.h2
          · intro x' y' hxy'
            simp only []
            have hxy2 : InArr a x' y' := hxy'
            have heq : off { a with cell := fun x' y' => if x' = x ∧ y' = y then v else a.cell x' y' } x' y' = off a x' y' := rfl
            rw [heq]
            by_cases hxx : x' = x ∧ y' = y
            · obtain ⟨rfl, rfl⟩ := hxx
              rw [if_pos rfl, if_pos ⟨rfl, rfl⟩]
            · rw [if_neg, if_neg hxx]
              · exact b.cells x' y' hxy2
              · intro he
                exact hxx (off_inj b.ok hxy2 h2 (by omega))
        · rw [List.getElem?_set_ne (fun h => hid h.symm)] at ha'
          have b' := r.block id' q a' hq ha'
          have hdis : q + 2 + cnt a' ≤ p ∨ p + 2 + cnt a ≤ q := by
            rcases Nat.lt_or_gt_of_ne hid with h | h
            · exact Or.inl (r.disj id' id q p a' a h hq hp ha' ha)
            · exact Or.inr (r.disj id id' p q a a' h hp hq ha ha')
          refine ⟨b'.ok, ?_, ?_, b'.fits, ?_⟩
          · simp only []; rw [if_neg (by omega)]; exact b'.h1
          · simp only []; rw [if_neg (by omega)]; exact b'.h2
          · intro x' y' hxy'
            have := off_lt b'.ok hxy'
            simp only []
            rw [if_neg (by omega)]; exact b'.cells x' y' hxy'
      · intro i j p' q' a' b' hij hp' hq' ha' hb'
        simp only [] at hp' hq' ha' hb'
        have lift : ∀ (k : Nat) (w : Arr), (s.arrs.set id { a with cell := fun x' y' => if x' = x ∧ y' = y then v else a.cell x' y' })[k]? = some w →
            ∃ w', s.arrs[k]? = some w' ∧ cnt w' = cnt w := by
          intro k w hw
          by_cases hk : k = id
          · subst hk
            rw [List.getElem?_set_self hlen] at hw
            injection hw with hw; subst hw
            exact ⟨a, ha, rfl⟩
          · rw [List.getElem?_set_ne (fun h => hk h.symm)] at hw
            exact ⟨w, hw, rfl⟩
        obtain ⟨a2, ha2, hca⟩ := lift i a' ha'
        obtain ⟨b2, hb2, hcb⟩ := lift j b' hb'
        rw [← hca]
        exact r.disj i j p' q' a2 b2 hij hp' hq' ha2 hb2
    · rw [h1, h2]; exact ⟨rfl, r⟩

theorem rel_init {size : Nat} (h : size ≤ 2147483648) : Rel (init size) { size, used := 0, arrs := [] } := by
  constructor
  · rfl
  · rfl
  · exact h
  · exact Nat.zero_le _
  · rfl
  · intro id p a hp; simp [init] at hp
  · intro i j p q a b _ hp; simp [init] at hp

theorem rel_run {c : St} {s : Spec.St} (r : Rel c s) (ops : List Op) (h : Valid s ops) :
    (run c ops).2 = (Spec.run s ops).2 ∧ Rel (run c ops).1 (Spec.run s ops).1 := by
  induction ops generalizing c s with
  | nil => exact ⟨rfl, r⟩
  | cons op ops ih =>
    obtain ⟨h1, h2⟩ := rel_step r op h.1
    obtain ⟨h3, h4⟩ := ih h2 h.2
    simp only [run, Spec.run]
    rw [h1, h3]
    exact ⟨rfl, h4⟩

end Sbc.Arrays
