import Verif.Model.Paint
import Verif.Spec.Paint
import Verif.Proof.Graphics
import Mathlib.Data.Finset.Prod
import Mathlib.Data.Finset.Card
import Mathlib.Data.Nat.Bitwise
set_option autoImplicit false
namespace Sbc.Graphics
open Sbc Sbc.Graphics.Spec

/-- The colour counts as "inside". -/
def mcol (mt : Int) (v : Nat) : Bool := if mt ≥ 0 then decide ((v : Int) = mt) else decide ((v : Int) ≠ -mt - 1)

/-- `inside` as a proposition. -/
def Ins (mt : Int) (d : Page) (x y : Int) : Prop := inside d x y mt = true

theorem Ins_iff (mt : Int) (d : Page) (x y : Int) : Ins mt d x y ↔ OnScreen x y ∧ mcol mt (d (grpIndex x y)) = true := by
  unfold Ins inside mcol OnScreen gw gh
  by_cases h : x < 0 ∨ x ≥ 256 ∨ y < 0 ∨ y ≥ 192
  · rw [if_pos h]
    constructor
    · intro hh; exact absurd hh (by decide)
    · intro hh; omega
  · rw [if_neg h]
    constructor
    · intro hh; exact ⟨by omega, hh⟩
    · intro hh; exact hh.2

/-- `d'` is `d` with the dots `S` of the screen painted in colour `c`. -/
structure Painted (c : Nat) (d d' : Page) (S : Int → Int → Prop) : Prop where
  on : ∀ x y, OnScreen x y → S x y → d' (grpIndex x y) = c
  off : ∀ x y, OnScreen x y → ¬ S x y → d' (grpIndex x y) = d (grpIndex x y)
  beyond : ∀ i, 49152 ≤ i → d' i = d i

theorem Painted.refl (c : Nat) (d : Page) : Painted c d d (fun _ _ => False) :=
  ⟨fun _ _ _ h => h.elim, fun _ _ _ _ => rfl, fun _ _ => rfl⟩

theorem Painted.trans {c : Nat} {d d1 d2 : Page} {S T : Int → Int → Prop} (h1 : Painted c d d1 S) (h2 : Painted c d1 d2 T) :
    Painted c d d2 (fun x y => S x y ∨ T x y) := by
  refine ⟨?_, ?_, ?_⟩
  · intro x y ho h
    by_cases ht : T x y
    · exact h2.on x y ho ht
    · rw [h2.off x y ho ht]
      exact h1.on x y ho (h.resolve_right ht)
  · intro x y ho h
    rw [h2.off x y ho (fun hh => h (.inr hh)), h1.off x y ho (fun hh => h (.inl hh))]
  · intro i hi; rw [h2.beyond i hi, h1.beyond i hi]

theorem Painted.congr {c : Nat} {d d' : Page} {S T : Int → Int → Prop} (h : Painted c d d' S) (he : ∀ x y, S x y ↔ T x y) : Painted c d d' T :=
  ⟨fun x y ho ht => h.on x y ho ((he x y).2 ht), fun x y ho ht => h.off x y ho (fun hh => ht ((he x y).1 hh)), h.beyond⟩

theorem Painted.one {c : Nat} {d : Page} {x y : Int} (ho : OnScreen x y) :
    Painted c d (upd d (grpIndex x y) c) (fun u v => u = x ∧ v = y) := by
  refine ⟨?_, ?_, ?_⟩
  · rintro u v _ ⟨rfl, rfl⟩; rw [upd_same]
  · intro u v hu hne
    rw [upd_other]
    intro he
    exact hne (grpIndex_inj hu ho he)
  · intro i hi
    rw [upd_other]
    have := grpIndex_lt ho
    omega

/-- Painting makes dots no longer inside and changes nothing else about it. -/
theorem Painted.ins {c : Nat} {mt : Int} (hc : mcol mt c = false) {d d' : Page} {S : Int → Int → Prop} (h : Painted c d d' S) (x y : Int) :
    Ins mt d' x y ↔ Ins mt d x y ∧ ¬ S x y := by
  rw [Ins_iff, Ins_iff]
  constructor
  · rintro ⟨ho, hm⟩
    by_cases hs : S x y
    · rw [h.on x y ho hs, hc] at hm; exact absurd hm (by decide)
    · rw [h.off x y ho hs] at hm; exact ⟨⟨ho, hm⟩, hs⟩
  · rintro ⟨⟨ho, hm⟩, hs⟩
    rw [h.off x y ho hs]; exact ⟨ho, hm⟩

section
variable {mt : Int} {c : Nat} (hc : mcol mt c = false)
include hc

theorem leftLoop_spec (y : Nat) : ∀ (x : Nat) (d : Page), ∃ d' x', leftLoop mt c y x d = (d', x') ∧ x' ≤ x ∧
    Painted c d d' (fun u v => v = y ∧ (x' : Int) ≤ u ∧ u < x) ∧ (∀ u : Int, (x' : Int) ≤ u → u < x → Ins mt d u y) ∧
    ¬ Ins mt d (x' - 1) y := by
  intro x
  induction x with
  | zero =>
    intro d
    refine ⟨d, 0, rfl, by omega, (Painted.refl c d).congr (fun u v => ⟨fun h => h.elim, fun h => by omega⟩), by intro u h1 h2; omega, ?_⟩
    rw [Ins_iff]; rintro ⟨h, -⟩; unfold OnScreen at h; omega
  | succ x ih =>
    intro d
    rw [leftLoop]
    by_cases hi : Ins mt d x y
    · have hi' := hi
      unfold Ins at hi
      rw [if_pos hi]
      have ho := ((Ins_iff mt d x y).1 hi').1
      have h1 := Painted.one (c := c) (d := d) ho
      obtain ⟨d', x', e1, e2, e3, e4, e5⟩ := ih (upd d (grpIndex x y) c)
      refine ⟨d', x', e1, by omega, (h1.trans e3).congr ?_, ?_, ?_⟩
      · intro u v; constructor
        · rintro (⟨rfl, rfl⟩ | ⟨rfl, h2, h3⟩)
          · exact ⟨rfl, by omega, by omega⟩
          · exact ⟨rfl, h2, by omega⟩
        · rintro ⟨rfl, h2, h3⟩
          by_cases hu : u = x
          · exact .inl ⟨hu, rfl⟩
          · exact .inr ⟨rfl, h2, by omega⟩
      · intro u h2 h3
        by_cases hu : u = x
        · rw [hu]; exact hi'
        · exact ((h1.ins hc u y).1 (e4 u h2 (by omega))).1
      · intro hh
        apply e5
        rw [h1.ins hc]
        exact ⟨hh, by omega⟩
    · have hi' := hi
      unfold Ins at hi
      rw [if_neg hi]
      refine ⟨d, x + 1, rfl, by omega, (Painted.refl c d).congr (fun u v => ⟨fun h => h.elim, fun h => by omega⟩), by intro u h1 h2; omega, ?_⟩
      rw [show (((x + 1 : Nat) : Int) - 1) = x by omega]; exact hi'

theorem rightLoop_spec (y : Nat) : ∀ (n : Nat) (d : Page) (x1 : Nat), 256 ≤ x1 + n → ∃ d' x', rightLoop mt c y n d x1 = (d', x') ∧ x1 ≤ x' ∧
    Painted c d d' (fun u v => v = y ∧ (x1 : Int) ≤ u ∧ u < x') ∧ (∀ u : Int, (x1 : Int) ≤ u → u < x' → Ins mt d u y) ∧
    ¬ Ins mt d x' y := by
  intro n
  induction n with
  | zero =>
    intro d x1 hx
    refine ⟨d, x1, rfl, by omega, (Painted.refl c d).congr (fun u v => ⟨fun h => h.elim, fun h => by omega⟩), by intro u h1 h2; omega, ?_⟩
    rw [Ins_iff]; rintro ⟨h, -⟩; unfold OnScreen at h; omega
  | succ n ih =>
    intro d x1 hx
    rw [rightLoop]
    by_cases hi : Ins mt d x1 y
    · have hi' := hi
      unfold Ins at hi
      rw [if_pos hi]
      have ho := ((Ins_iff mt d x1 y).1 hi').1
      have h1 := Painted.one (c := c) (d := d) ho
      obtain ⟨d', x', e1, e2, e3, e4, e5⟩ := ih (upd d (grpIndex x1 y) c) (x1 + 1) (by omega)
      refine ⟨d', x', e1, by omega, (h1.trans e3).congr ?_, ?_, ?_⟩
      · intro u v; constructor
        · rintro (⟨rfl, rfl⟩ | ⟨rfl, h2, h3⟩)
          · exact ⟨rfl, by omega, by omega⟩
          · exact ⟨rfl, by omega, by omega⟩
        · rintro ⟨rfl, h2, h3⟩
          by_cases hu : u = x1
          · exact .inl ⟨hu, rfl⟩
          · exact .inr ⟨rfl, by omega, by omega⟩
      · intro u h2 h3
        by_cases hu : u = x1
        · rw [hu]; exact hi'
        · exact ((h1.ins hc u y).1 (e4 u (by omega) (by omega))).1
      · intro hh
        apply e5
        rw [h1.ins hc]
        exact ⟨hh, by omega⟩
    · have hi' := hi
      unfold Ins at hi
      rw [if_neg hi]
      exact ⟨d, x1, rfl, by omega, (Painted.refl c d).congr (fun u v => ⟨fun h => h.elim, fun h => by omega⟩), by intro u h1 h2; omega, hi'⟩

omit hc in
theorem skipLoop_spec (y x2 : Nat) (d : Page) : ∀ (n x1 : Nat), x2 ≤ x1 + n → ∃ x', skipLoop mt y x2 n d x1 = x' ∧ x1 ≤ x' ∧
    (∀ u : Int, (x1 : Int) ≤ u → u < x' → ¬ Ins mt d u y) ∧ (x1 ≤ x2 → x' ≤ x2) := by
  intro n
  induction n with
  | zero => intro x1 h; exact ⟨x1, rfl, by omega, by intro u h1 h2; omega, by omega⟩
  | succ n ih =>
    intro x1 h
    rw [skipLoop]
    by_cases hh : x1 < x2 ∧ inside d x1 y mt = false
    · rw [if_pos hh]
      obtain ⟨x', e1, e2, e3, e4⟩ := ih (x1 + 1) (by omega)
      refine ⟨x', e1, by omega, ?_, by omega⟩
      intro u h1 h2
      by_cases hu : u = x1
      · rw [hu]; unfold Ins; rw [hh.2]; decide
      · exact e3 u (by omega) h2
    · rw [if_neg hh]
      exact ⟨x1, rfl, by omega, by intro u h1 h2; omega, by omega⟩

end

/-! ### Packed entries -/

theorem or_parts (a b y e : Nat) (ha : a < 256) (hb : b < 256) (hy : y < 256) (he : e < 2) :
    a ||| b * 256 ||| y * 65536 ||| e * 16777216 = a + b * 256 + y * 65536 + e * 16777216 := by
  have h1 : a ||| b * 256 = b * 256 + a := by
    rw [Nat.or_comm, show b * 256 = 2 ^ 8 * b by omega, Nat.two_pow_add_eq_or_of_lt (i := 8) (by omega)]
  have h2 : (b * 256 + a) ||| y * 65536 = y * 65536 + (b * 256 + a) := by
    rw [Nat.or_comm, show y * 65536 = 2 ^ 16 * y by omega, Nat.two_pow_add_eq_or_of_lt (i := 16) (by omega)]
  have h3 : (y * 65536 + (b * 256 + a)) ||| e * 16777216 = e * 16777216 + (y * 65536 + (b * 256 + a)) := by
    rw [Nat.or_comm, show e * 16777216 = 2 ^ 24 * e by omega, Nat.two_pow_add_eq_or_of_lt (i := 24) (by omega)]
  rw [h1, h2, h3]; omega

theorem and_field (v k : Nat) : (v &&& (255 * 2 ^ k)) >>> k = v / 2 ^ k % 256 := by
  rw [Nat.shiftRight_and_distrib, Nat.shiftRight_eq_div_pow, Nat.shiftRight_eq_div_pow, Nat.mul_div_cancel _ (Nat.pow_pos (by omega))]
  exact Nat.and_two_pow_sub_one_eq_mod _ 8

theorem unpack_eq (v : Nat) : unpack v = (v % 256, v / 256 % 256, v / 65536 % 256, if v / 16777216 % 2 = 1 then 1 else -1) := by
  unfold unpack
  have h1 : v &&& 0xff = v % 256 := Nat.and_two_pow_sub_one_eq_mod v 8
  have h2 : (v &&& 0xff00) >>> 8 = v / 256 % 256 := and_field v 8
  have h3 : (v &&& 0xff0000) >>> 16 = v / 65536 % 256 := and_field v 16
  rw [h1, h2, h3]
  have h4 : (v &&& 0x1000000 ≠ 0) ↔ v / 16777216 % 2 = 1 := by
    have e : v &&& 0x1000000 = if v.testBit 24 then 2 ^ 24 else 0 := by
      have := Nat.and_two_pow v 24
      rw [show (0x1000000 : Nat) = 2 ^ 24 by decide, this]
      cases v.testBit 24 <;> simp
    rw [e, Nat.testBit_eq_decide_div_mod_eq]
    by_cases h : v / 2 ^ 24 % 2 = 1
    · simp [h, show v / 16777216 % 2 = 1 from h]
    · simp [h, show ¬ v / 16777216 % 2 = 1 from h]
  simp only [h4]

/-- What the algorithm gets back from the stack. -/
theorem unpack_pack (a b : Nat) (y dy : Int) (ha : a < 256) (hb : b < 256) (hy : 0 ≤ y) (hy2 : y < 256) (hd : dy = 1 ∨ dy = -1) :
    unpack (pack a b y dy) = (a, b, y.toNat, dy) := by
  obtain ⟨n, rfl⟩ := Int.eq_ofNat_of_zero_le hy
  have hp : pack a b n dy = a + b * 256 + n * 65536 + (if dy > 0 then 1 else 0) * 16777216 := by
    unfold pack bits
    rw [show ((a : Int) % 4294967296).toNat = a by omega, show ((b : Int) * 256 % 4294967296).toNat = b * 256 by omega,
      show ((n : Int) * 65536 % 4294967296).toNat = n * 65536 by omega]
    rcases hd with rfl | rfl
    · exact or_parts a b n 1 ha hb (by omega) (by omega)
    · exact or_parts a b n 0 ha hb (by omega) (by omega)
  rw [hp, unpack_eq]
  rcases hd with rfl | rfl
  · simp only [if_pos (show (1 : Int) > 0 by decide)]
    rw [if_pos (by omega)]
    refine Prod.ext (by simp only []; omega) (Prod.ext (by simp only []; omega) (Prod.ext (by simp only []; omega) rfl))
  · simp only [if_neg (show ¬ (-1 : Int) > 0 by decide)]
    rw [if_neg (by omega)]
    refine Prod.ext (by simp only []; omega) (Prod.ext (by simp only []; omega) (Prod.ext (by simp only []; omega) rfl))

/-- Row -1 comes back as row 255, off the screen too. -/
theorem unpack_pack_above (a b : Nat) (dy : Int) (ha : a < 256) (hb : b < 256) :
    unpack (pack a b (-1) dy) = (a, b, 255, 1) := by
  have hp : pack a b (-1) dy = a + b * 256 + 65535 * 65536 := by
    unfold pack bits
    rw [show ((a : Int) % 4294967296).toNat = a by omega, show ((b : Int) * 256 % 4294967296).toNat = b * 256 by omega,
      show ((-1 : Int) * 65536 % 4294967296).toNat = 4294901760 by decide]
    have h1 : a ||| b * 256 = b * 256 + a := by
      rw [Nat.or_comm, show b * 256 = 2 ^ 8 * b by omega, Nat.two_pow_add_eq_or_of_lt (i := 8) (by omega)]
    have h2 : (b * 256 + a) ||| 4294901760 = 4294901760 + (b * 256 + a) := by
      rw [Nat.or_comm, show 4294901760 = 2 ^ 16 * 65535 by decide, Nat.two_pow_add_eq_or_of_lt (i := 16) (by omega)]
    rw [h1, h2]
    split
    · have h3 : (4294901760 + (b * 256 + a)) ||| 16777216 = 4294901760 + (b * 256 + a) := by
        rw [← h2]
        rw [Nat.or_assoc, show (4294901760 ||| 16777216 : Nat) = 4294901760 by decide]
      rw [h3]; omega
    · rw [Nat.or_zero]; omega
  rw [hp, unpack_eq, if_pos (by omega)]
  refine Prod.ext (by simp only []; omega) (Prod.ext (by simp only []; omega) (Prod.ext (by simp only []; omega) rfl))

/-- The entry `v` stands for a range of columns containing `x` in row `y`. -/
def Covers (v : Nat) (x y : Int) : Prop :=
  ((unpack v).1 : Int) ≤ x ∧ x ≤ (unpack v).2.1 ∧ y = (unpack v).2.2.1

/-- An entry pushed from row `y` for columns `a..b`: it covers them in row `y+dy` if that is on the screen, and
when popped refers back to row `y`. -/
theorem pushed (a b : Nat) (y : Nat) (dy : Int) (ha : a < 256) (hb : b < 256) (hy : y < 192) (hd : dy = 1 ∨ dy = -1) :
    (∀ x : Int, (a : Int) ≤ x → x ≤ b → 0 ≤ (y : Int) + dy → Covers (pack a b (y + dy) dy) x (y + dy)) ∧
    (unpack (pack a b (y + dy) dy)).1 = a ∧ (unpack (pack a b (y + dy) dy)).2.1 = b ∧
    ((unpack (pack a b (y + dy) dy)).2.2.1 < 192 →
      ((unpack (pack a b (y + dy) dy)).2.2.1 : Int) - (unpack (pack a b (y + dy) dy)).2.2.2 = y) := by
  by_cases h0 : (y : Int) + dy = -1
  · rw [h0, unpack_pack_above a b dy ha hb]
    refine ⟨fun x _ _ h => absurd h (by decide), rfl, rfl, fun h => absurd h (by simp)⟩
  · have hp := unpack_pack a b (y + dy) dy ha hb (by omega) (by omega) hd
    unfold Covers
    rw [hp]
    refine ⟨fun x h1 h2 h3 => ⟨h1, h2, by simp only []; omega⟩, rfl, rfl, fun _ => by simp only []; omega⟩

end Sbc.Graphics
