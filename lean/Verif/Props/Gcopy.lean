import Verif.Proof.Graphics
set_option autoImplicit false
/-!
# C53: GCOPY, C55: GPUTCHR
-/
namespace Sbc.Graphics
open Sbc Sbc.Graphics.Spec

/-- The dot of page `p`, 0 off the screen. -/
def seen (m : Nat → Page) (p : Nat) (q : Int × Int) : Nat := if OnScreen q.1 q.2 then m p (grpIndex q.1 q.2) else 0

theorem copyPixel_seen (src dst : Nat) (mode : Bool) (dx dy : Int) (m : Nat → Page) (q : Int × Int) (p : Nat) (r : Int × Int) (hr : OnScreen r.1 r.2) :
    copyPixel src dst mode dx dy m q.1 q.2 p (grpIndex r.1 r.2) =
      if p = dst ∧ r = (q.1 + dx, q.2 + dy) ∧ (mode = true ∨ seen m src q ≠ 0) then seen m src q else m p (grpIndex r.1 r.2) := by
  unfold copyPixel
  have hs : (if q.1 ≥ 0 ∧ q.2 ≥ 0 ∧ q.1 < gw ∧ q.2 < gh then m src (grpIndex q.1 q.2) else 0) = seen m src q := by
    unfold seen gw gh
    by_cases h : OnScreen q.1 q.2
    · rw [if_pos h]; unfold OnScreen at h; rw [if_pos (by omega)]
    · rw [if_neg h]; unfold OnScreen at h; rw [if_neg (by omega)]
  simp only [hs]
  generalize seen m src q = v
  by_cases hv : mode = true ∨ v ≠ 0
  · rw [if_pos hv]
    by_cases ht : OnScreen (q.1 + dx) (q.2 + dy)
    · have ht' := ht
      unfold OnScreen at ht'
      rw [if_pos (by unfold gw gh; omega)]
      by_cases hp : p = dst
      · subst hp
        rw [upd_same]
        by_cases he : r = (q.1 + dx, q.2 + dy)
        · subst he
          rw [upd_same, if_pos ⟨rfl, rfl, hv⟩]
        · rw [upd_other, if_neg (fun hh => he hh.2.1)]
          intro hi
          have := grpIndex_inj hr ht hi
          exact he (Prod.ext this.1 this.2)
      · rw [upd_other _ _ hp, if_neg (fun hh => hp hh.1)]
    · have ht' := ht
      unfold OnScreen at ht'
      rw [if_neg (by unfold gw gh; omega), if_neg]
      rintro ⟨-, rfl, -⟩
      exact ht hr
  · rw [if_neg hv, if_neg (fun hh => hv hh.2.2)]

theorem copyPixel_beyond (src dst : Nat) (mode : Bool) (dx dy : Int) (m : Nat → Page) (q : Int × Int) (p : Nat) (i : Nat) (hi : 49152 ≤ i ∨ p ≠ dst) :
    copyPixel src dst mode dx dy m q.1 q.2 p i = m p i := by
  unfold copyPixel
  generalize (if q.1 ≥ 0 ∧ q.2 ≥ 0 ∧ q.1 < gw ∧ q.2 < gh then m src (grpIndex q.1 q.2) else 0) = v
  split
  · split
    · rename_i h
      by_cases hp : p = dst
      · subst hp
        rw [upd_same, upd_other]
        have := grpIndex_lt (x := q.1 + dx) (y := q.2 + dy) (by unfold OnScreen; unfold gw gh at h; omega)
        have : 49152 ≤ i := by rcases hi with h | h
                               · exact h
                               · exact absurd rfl h
        omega
      · rw [upd_other _ _ hp]
    · rfl
  · rfl

theorem copyFold (src dst : Nat) (mode : Bool) (dx dy : Int) (r : Int × Int) (hr : OnScreen r.1 r.2) : ∀ (l : List (Int × Int)) (m : Nat → Page),
    l.Pairwise (fun p q => q ≠ (p.1 + dx, p.2 + dy)) →
    (l.foldl (fun m p => copyPixel src dst mode dx dy m p.1 p.2) m) dst (grpIndex r.1 r.2) =
      if (r.1 - dx, r.2 - dy) ∈ l ∧ (mode = true ∨ seen m src (r.1 - dx, r.2 - dy) ≠ 0) then seen m src (r.1 - dx, r.2 - dy)
      else m dst (grpIndex r.1 r.2) := by
  intro l
  induction l with
  | nil => intro m _; simp
  | cons p l ih =>
    intro m hp
    rw [List.pairwise_cons] at hp
    rw [List.foldl_cons, ih _ hp.2]
    have hseen : ∀ q ∈ l, seen (copyPixel src dst mode dx dy m p.1 p.2) src q = seen m src q := by
      intro q hq
      unfold seen
      by_cases hs : OnScreen q.1 q.2
      · rw [if_pos hs, if_pos hs, copyPixel_seen _ _ _ _ _ _ _ _ _ hs, if_neg]
        exact fun hh => hp.1 q hq hh.2.1
      · rw [if_neg hs, if_neg hs]
    have hr2 : (r = (p.1 + dx, p.2 + dy)) ↔ p = (r.1 - dx, r.2 - dy) := by
      constructor
      · intro h; rw [h]; simp
      · intro h; rw [h]; simp
    by_cases hin : (r.1 - dx, r.2 - dy) ∈ l
    · rw [hseen _ hin]
      by_cases hv : mode = true ∨ seen m src (r.1 - dx, r.2 - dy) ≠ 0
      · rw [if_pos ⟨hin, hv⟩, if_pos ⟨List.mem_cons_of_mem _ hin, hv⟩]
      · rw [if_neg (fun hh => hv hh.2), if_neg (fun hh => hv hh.2), copyPixel_seen _ _ _ _ _ _ _ _ _ hr, if_neg]
        rintro ⟨-, h2, h3⟩
        rw [hr2] at h2
        rw [h2] at h3
        exact hv h3
    · rw [if_neg (fun hh => hin hh.1), copyPixel_seen _ _ _ _ _ _ _ _ _ hr]
      by_cases he : p = (r.1 - dx, r.2 - dy)
      · have he2 := hr2.2 he
        rw [← he] at *
        by_cases hv : mode = true ∨ seen m src p ≠ 0
        · rw [if_pos ⟨rfl, he2, hv⟩, if_pos ⟨List.mem_cons_self, hv⟩]
        · rw [if_neg (fun hh => hv hh.2.2), if_neg (fun hh => hv hh.2)]
      · rw [if_neg (fun hh => he (hr2.1 hh.2.1)), if_neg]
        rintro ⟨h1, -⟩
        rw [List.mem_cons] at h1
        rcases h1 with h1 | h1
        · exact he h1.symm
        · exact hin h1

theorem copyFold_beyond (src dst : Nat) (mode : Bool) (dx dy : Int) (p : Nat) (i : Nat) (hi : 49152 ≤ i ∨ p ≠ dst) : ∀ (l : List (Int × Int)) (m : Nat → Page),
    (l.foldl (fun m p => copyPixel src dst mode dx dy m p.1 p.2) m) p i = m p i := by
  intro l
  induction l with
  | nil => intro m; rfl
  | cons q l ih => intro m; rw [List.foldl_cons, ih, copyPixel_beyond _ _ _ _ _ _ _ _ _ hi]

theorem mem_upTo (a b x : Int) : x ∈ upTo a b ↔ a ≤ x ∧ x ≤ b := by
  unfold upTo
  rw [List.mem_map]
  constructor
  · rintro ⟨i, h1, h2⟩; rw [List.mem_range] at h1; omega
  · intro h; exact ⟨(x - a).toNat, by rw [List.mem_range]; omega, by omega⟩

theorem upTo_sorted (a b : Int) : (upTo a b).Pairwise (· < ·) := by
  unfold upTo
  rw [List.pairwise_map]
  exact List.Pairwise.imp (fun h => by omega) List.pairwise_lt_range

theorem mem_copyOrder (x1 y1 x2 y2 x y : Int) : (x, y) ∈ copyOrder x1 y1 x2 y2 ↔ x1 ≤ x ∧ x ≤ x2 ∧ y1 ≤ y ∧ y ≤ y2 := by
  unfold copyOrder
  rw [List.mem_flatMap]
  constructor
  · rintro ⟨v, h1, h2⟩
    rw [List.mem_map] at h2
    obtain ⟨u, h3, h4⟩ := h2
    rw [mem_upTo] at h1 h3
    simp only [Prod.mk.injEq] at h4
    omega
  · intro h
    exact ⟨y, (mem_upTo _ _ _).2 (by omega), List.mem_map.2 ⟨x, (mem_upTo _ _ _).2 (by omega), rfl⟩⟩

theorem copyOrder_sorted (x1 y1 x2 y2 : Int) : (copyOrder x1 y1 x2 y2).Pairwise (fun p q => p.2 < q.2 ∨ (p.2 = q.2 ∧ p.1 < q.1)) := by
  unfold copyOrder
  rw [List.pairwise_flatMap]
  constructor
  · intro y _
    rw [List.pairwise_map]
    exact List.Pairwise.imp (fun h => .inr ⟨rfl, h⟩) (upTo_sorted x1 x2)
  · refine List.Pairwise.imp ?_ (upTo_sorted y1 y2)
    intro a b hab p hp q hq
    rw [List.mem_map] at hp hq
    obtain ⟨_, _, rfl⟩ := hp
    obtain ⟨_, _, rfl⟩ := hq
    exact .inl hab

/-- **C53.** `GCOPY [page,]x1,y1,x2,y2,x3,y3,mode` (corners in any order): every dot of the screen that is the image
of a dot of the rectangle gets that dot's colour *before the command* — also when source and destination
overlap — where dots off the screen count as 0 and, without `mode`, colour 0 is not copied; no other dot,
page or byte changes. -/
theorem C53_gcopy (g : Gfx) (page : Option Int) (src : Nat) (x1 y1 x2 y2 x3 y3 mode : Int)
    (hp : match page with | none => src = g.page | some v => 0 ≤ v / 4096 ∧ v / 4096 ≤ 3 ∧ (src : Int) = v / 4096) :
    ∃ g', cmdGcopy g page x1 y1 x2 y2 x3 y3 mode = .ok (g', none) ∧
      Draws g g' (fun u v old =>
        let p := u - x3 / 4096 + min (x1 / 4096) (x2 / 4096)
        let q := v - y3 / 4096 + min (y1 / 4096) (y2 / 4096)
        let color := if OnScreen p q then g.dot src p q else 0
        if p ≤ max (x1 / 4096) (x2 / 4096) ∧ min (x1 / 4096) (x2 / 4096) ≤ p ∧
           q ≤ max (y1 / 4096) (y2 / 4096) ∧ min (y1 / 4096) (y2 / 4096) ≤ q ∧ (mode / 4096 ≠ 0 ∨ color ≠ 0)
        then color else old) := by
  obtain ⟨xa, hxa⟩ : ∃ v, v = min (x1 / 4096) (x2 / 4096) := ⟨_, rfl⟩
  obtain ⟨xb, hxb⟩ : ∃ v, v = max (x1 / 4096) (x2 / 4096) := ⟨_, rfl⟩
  obtain ⟨ya, hya⟩ : ∃ v, v = min (y1 / 4096) (y2 / 4096) := ⟨_, rfl⟩
  obtain ⟨yb, hyb⟩ : ∃ v, v = max (y1 / 4096) (y2 / 4096) := ⟨_, rfl⟩
  rw [← hxa, ← hxb, ← hya, ← hyb]
  let order := if y3 / 4096 < ya ∨ (y3 / 4096 = ya ∧ x3 / 4096 < xa) then copyOrder xa ya xb yb else (copyOrder xa ya xb yb).reverse
  have hx : (if x1 / 4096 > x2 / 4096 then (x2 / 4096, x1 / 4096) else (x1 / 4096, x2 / 4096)) = (xa, xb) := by
    split <;> (rw [Prod.mk.injEq]; omega)
  have hy : (if y1 / 4096 > y2 / 4096 then (y2 / 4096, y1 / 4096) else (y1 / 4096, y2 / 4096)) = (ya, yb) := by
    split <;> (rw [Prod.mk.injEq]; omega)
  have hcmd : cmdGcopy g page x1 y1 x2 y2 x3 y3 mode =
      .ok ({ g with grp := order.foldl (fun m p => copyPixel src g.page (decide (mode / 4096 ≠ 0)) (x3 / 4096 - xa) (y3 / 4096 - ya) m p.1 p.2) g.grp }, none) := by
    unfold cmdGcopy fpToInt
    cases page with
    | none =>
      simp only [] at hp ⊢
      rw [hx, hy, hp]
      rfl
    | some v =>
      simp only [] at hp ⊢
      rw [if_neg (by omega), hx, hy, show (v / 4096).toNat = src by omega]
      rfl
  refine ⟨_, hcmd, ?_⟩
  have hsorted := copyOrder_sorted xa ya xb yb
  have hpw : order.Pairwise (fun p q => q ≠ (p.1 + (x3 / 4096 - xa), p.2 + (y3 / 4096 - ya))) := by
    show List.Pairwise _ (if _ then _ else _)
    split
    · rename_i h
      refine List.Pairwise.imp ?_ hsorted
      rintro p q hpq rfl
      simp only [] at hpq
      omega
    · rename_i h
      rw [List.pairwise_reverse]
      refine List.Pairwise.imp ?_ hsorted
      rintro p q hpq rfl
      simp only [] at hpq
      omega
  have hmem : ∀ x y, (x, y) ∈ order ↔ xa ≤ x ∧ x ≤ xb ∧ ya ≤ y ∧ y ≤ yb := by
    intro x y
    rw [← mem_copyOrder]
    show _ ∈ (if _ then _ else _) ↔ _
    split
    · exact Iff.rfl
    · rw [List.mem_reverse]
  refine ⟨?_, ?_, ?_, rfl⟩
  · intro u v huv
    have h := copyFold src g.page (decide (mode / 4096 ≠ 0)) (x3 / 4096 - xa) (y3 / 4096 - ya) (u, v) huv order g.grp hpw
    refine h.trans ?_
    simp only [hmem]
    rw [show u - (x3 / 4096 - xa) = u - x3 / 4096 + xa by omega, show v - (y3 / 4096 - ya) = v - y3 / 4096 + ya by omega]
    unfold seen Gfx.dot
    simp only [decide_eq_true_eq]
    generalize (if OnScreen (u - x3 / 4096 + xa) (v - y3 / 4096 + ya) then g.grp src (grpIndex (u - x3 / 4096 + xa) (v - y3 / 4096 + ya)) else 0) = col
    refine if_congr ?_ rfl rfl
    constructor
    · rintro ⟨⟨h1, h2, h3, h4⟩, h5⟩; exact ⟨h2, h1, h4, h3, h5⟩
    · rintro ⟨h2, h1, h4, h3, h5⟩; exact ⟨⟨h1, h2, h3, h4⟩, h5⟩
  · intro i hi
    exact copyFold_beyond _ _ _ _ _ _ _ (.inl hi) _ _
  · intro p hpp
    funext i
    exact copyFold_beyond _ _ _ _ _ _ _ (.inr hpp) _ _

/-- Overlapping copy by one dot to the right in one row: the old colours move. -/
example : ∃ g', cmdGcopy { init with grp := fun _ i => i % 8 } none 0 0 (3 * 4096) 0 4096 0 4096 = .ok (g', none) ∧
    g'.dot 0 1 0 = 0 ∧ g'.dot 0 2 0 = 1 ∧ g'.dot 0 3 0 = 2 ∧ g'.dot 0 4 0 = 3 ∧ g'.dot 0 5 0 = 5 := by
  refine ⟨_, rfl, ?_⟩; decide +kernel

/-! ## GPUTCHR -/

/-- Colour number 0..15 of dot `i,j` of an 8×8 character pattern: two dots a byte, low half first. -/
def chrDot (src : Nat → Nat) (i j : Nat) : Nat := src (i / 2 + 4 * j) / 16 ^ (i % 2) % 16

/-- **C55 (partial).** `GPUTCHR x,y,…,pal,size`: the dots drawn are exactly those of the `size`-fold enlarged
pattern with non-zero colour, in palette `pal`, that lie on the screen below its first row.  Missing: the
first row of the screen, refuted below.  Only the drawing is modelled. -/
theorem C55_gputchr_partial (src : Nat → Nat) (hsrc : ∀ i, src i < 256) (xs ys : Int) (pal size : Nat) (u v : Int) (hv : v ≠ 0)
    (c : Nat) (hon : OnScreen u v) :
    (u, v, c) ∈ chrPixels src xs ys pal size ↔
      ∃ i j : Nat, i < 8 ∧ j < 8 ∧ xs + (i * size : Nat) ≤ u ∧ u < xs + ((i + 1) * size : Nat) ∧ ys + (j * size : Nat) ≤ v ∧ v < ys + ((j + 1) * size : Nat) ∧
        chrDot src i j ≠ 0 ∧ c = 16 * pal + chrDot src i j := by
  unfold OnScreen at hon
  have hlow : ∀ b : Nat, b &&& 0x0f = b % 16 := fun b => Nat.and_two_pow_sub_one_eq_mod b 4
  have hhigh : ∀ b : Nat, b < 256 → b >>> 4 = b / 16 % 16 := fun b hb => by rw [Nat.shiftRight_eq_div_pow]; omega
  have hblock : ∀ (y xh off col : Nat), (u, v, c) ∈ ((List.range size).flatMap fun i => (List.range size).filterMap fun j =>
        let xp : Int := xs + (2 * xh * size + j + off : Nat)
        let yp : Int := ys + (y * size + i : Nat)
        if col ≠ 0 ∧ xp ≥ 0 ∧ xp < gw ∧ yp ≠ 0 ∧ yp < gh then some (xp, yp, 16 * pal + col) else none) ↔
      (xs + (2 * xh * size + off : Nat) ≤ u ∧ u < xs + (2 * xh * size + off : Nat) + size ∧ ys + (y * size : Nat) ≤ v ∧ v < ys + (y * size : Nat) + size ∧
        col ≠ 0 ∧ c = 16 * pal + col) := by
    intro y xh off col
    simp only [List.mem_flatMap, List.mem_range, List.mem_filterMap, Option.ite_none_right_eq_some, Option.some.injEq, Prod.mk.injEq]
    generalize 2 * xh * size = A
    generalize y * size = B
    constructor
    · rintro ⟨i, hi, j, hj, ⟨h1, h2, h3, h4, h5⟩, h6, h7, h8⟩
      refine ⟨by omega, by omega, by omega, by omega, h1, h8.symm⟩
    · rintro ⟨h1, h2, h3, h4, h5, h6⟩
      refine ⟨(v - ys - B).toNat, by omega, (u - xs - A - off).toNat, by omega, ⟨h5, ?_, ?_, ?_, ?_⟩, ?_, ?_, h6.symm⟩
      · omega
      · unfold gw; omega
      · omega
      · unfold gh; omega
      · omega
      · omega
  unfold chrPixels
  simp only [List.mem_flatMap, List.mem_range, List.mem_append, hblock]
  constructor
  · rintro ⟨y, hy, xh, hxh, h | h⟩
    · obtain ⟨h1, h2, h3, h4, h5, h6⟩ := h
      have hcd : chrDot src (2 * xh) y = src (xh + 4 * y) &&& 0x0f := by
        unfold chrDot
        rw [show 2 * xh / 2 = xh by omega, show 2 * xh % 2 = 0 by omega, hlow]; simp
      refine ⟨2 * xh, y, by omega, hy, by simpa using h1, ?_, h3, ?_, by rw [hcd]; exact h5, by rw [hcd]; exact h6⟩
      · rw [Nat.succ_mul]; omega
      · rw [Nat.succ_mul]; omega
    · obtain ⟨h1, h2, h3, h4, h5, h6⟩ := h
      have hcd : chrDot src (2 * xh + 1) y = src (xh + 4 * y) >>> 4 := by
        unfold chrDot
        rw [show (2 * xh + 1) / 2 = xh by omega, show (2 * xh + 1) % 2 = 1 by omega, hhigh _ (hsrc _)]
      refine ⟨2 * xh + 1, y, by omega, hy, ?_, ?_, h3, ?_, by rw [hcd]; exact h5, by rw [hcd]; exact h6⟩
      · rw [Nat.succ_mul]; omega
      · rw [Nat.succ_mul, Nat.succ_mul]; omega
      · rw [Nat.succ_mul]; omega
  · rintro ⟨i, j, hi, hj, h1, h2, h3, h4, h5, h6⟩
    refine ⟨j, hj, i / 2, by omega, ?_⟩
    rw [Nat.succ_mul] at h2 h4
    by_cases hp : i % 2 = 0
    · left
      have hcd : chrDot src i j = src (i / 2 + 4 * j) &&& 0x0f := by
        unfold chrDot; rw [hp, hlow]; simp
      have hi2 : 2 * (i / 2) = i := by omega
      rw [hi2]
      refine ⟨by simpa using h1, by omega, h3, by omega, by rw [← hcd]; exact h5, by rw [← hcd]; exact h6⟩
    · right
      have hcd : chrDot src i j = src (i / 2 + 4 * j) >>> 4 := by
        unfold chrDot; rw [show i % 2 = 1 by omega, hhigh _ (hsrc _)]
      have hi2 : 2 * (i / 2) * size + size = i * size := by
        have : i = 2 * (i / 2) + 1 := by omega
        conv_rhs => rw [this, Nat.succ_mul]
      rw [hi2]
      refine ⟨h1, by omega, h3, by omega, by rw [← hcd]; exact h5, by rw [← hcd]; exact h6⟩

/-- **C55 (refuted case).** `GPUTCHR 0,0,…` with a fully coloured pattern leaves the whole first row of the
screen undrawn (`yp &&` instead of `yp >= 0`). -/
theorem C55_first_row_violated (src : Nat → Nat) (xs ys : Int) (pal size : Nat) (u : Int) (c : Nat) :
    (u, 0, c) ∉ chrPixels src xs ys pal size ∧ chrDot (fun _ => 0x11) 0 0 ≠ 0 := by
  refine ⟨?_, by decide⟩
  unfold chrPixels
  simp only [List.mem_flatMap, List.mem_range, List.mem_append, List.mem_filterMap, Option.ite_none_right_eq_some, Option.some.injEq, Prod.mk.injEq]
  rintro ⟨y, hy, xh, hxh, h | h⟩
  · obtain ⟨i, hi, j, hj, ⟨h1, h2, h3, h4, h5⟩, h6, h7, h8⟩ := h
    exact h4 h7
  · obtain ⟨i, hi, j, hj, ⟨h1, h2, h3, h4, h5⟩, h6, h7, h8⟩ := h
    exact h4 h7

end Sbc.Graphics
