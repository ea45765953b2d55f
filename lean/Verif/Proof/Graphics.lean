import Verif.Spec.Graphics
import Mathlib.Logic.Function.Iterate
import Mathlib.Data.List.Nodup
set_option autoImplicit false
namespace Sbc.Graphics
open Sbc Sbc.Graphics.Spec

/-- The position of a dot from the digits of its coordinates. -/
theorem grpIndex_digits (px tx cx py ty cy : Nat) (h1 : px < 8) (h2 : tx < 8) (h3 : cx < 4) (h4 : py < 8) (h5 : ty < 8) (h6 : cy < 3) :
    grpIndex ((px + 8 * tx + 64 * cx : Nat) : Int) ((py + 8 * ty + 64 * cy : Nat) : Int) =
      px + py * 8 + tx * 64 + ty * 512 + cx * 4096 + cy * 16384 := by
  unfold grpIndex
  have ha : (((px + 8 * tx + 64 * cx : Nat) : Int) % 256).toNat = px + 8 * tx + 64 * cx := by omega
  have hb : (((py + 8 * ty + 64 * cy : Nat) : Int) % 256).toNat = py + 8 * ty + 64 * cy := by omega
  rw [ha, hb]
  simp only []
  rw [show (px + 8 * tx + 64 * cx) % 8 = px by omega, show (px + 8 * tx + 64 * cx) / 8 % 8 = tx by omega,
    show (px + 8 * tx + 64 * cx) / 64 = cx by omega, show (py + 8 * ty + 64 * cy) % 8 = py by omega,
    show (py + 8 * ty + 64 * cy) / 8 % 8 = ty by omega, show (py + 8 * ty + 64 * cy) / 64 = cy by omega]

theorem onScreen_digits {x y : Int} (h : OnScreen x y) : ∃ px tx cx py ty cy : Nat, px < 8 ∧ tx < 8 ∧ cx < 4 ∧ py < 8 ∧ ty < 8 ∧ cy < 3 ∧
    x = ((px + 8 * tx + 64 * cx : Nat) : Int) ∧ y = ((py + 8 * ty + 64 * cy : Nat) : Int) := by
  obtain ⟨h1, h2, h3, h4⟩ := h
  obtain ⟨a, rfl⟩ := Int.eq_ofNat_of_zero_le h1
  obtain ⟨b, rfl⟩ := Int.eq_ofNat_of_zero_le h3
  exact ⟨a % 8, a / 8 % 8, a / 64, b % 8, b / 8 % 8, b / 64, by omega, by omega, by omega, by omega, by omega, by omega, by omega, by omega⟩

theorem grpIndex_lt {x y : Int} (h : OnScreen x y) : grpIndex x y < 49152 := by
  obtain ⟨px, tx, cx, py, ty, cy, h1, h2, h3, h4, h5, h6, rfl, rfl⟩ := onScreen_digits h
  rw [grpIndex_digits _ _ _ _ _ _ h1 h2 h3 h4 h5 h6]; omega

theorem digits_inj {px tx cx py ty cy px' tx' cx' py' ty' cy' : Nat} (h1 : px < 8) (h2 : tx < 8) (h3 : cx < 4) (h4 : py < 8) (h5 : ty < 8)
    (h1' : px' < 8) (h2' : tx' < 8) (h3' : cx' < 4) (h4' : py' < 8) (h5' : ty' < 8)
    (h : px + py * 8 + tx * 64 + ty * 512 + cx * 4096 + cy * 16384 = px' + py' * 8 + tx' * 64 + ty' * 512 + cx' * 4096 + cy' * 16384) :
    px = px' ∧ tx = tx' ∧ cx = cx' ∧ py = py' ∧ ty = ty' ∧ cy = cy' := by
  have e1 : px = px' := by omega
  subst e1
  have e2 : py = py' := by omega
  subst e2
  have e3 : tx = tx' := by omega
  subst e3
  have e4 : ty = ty' := by omega
  subst e4
  have e5 : cx = cx' := by omega
  subst e5
  exact ⟨rfl, rfl, rfl, rfl, rfl, by omega⟩

theorem grpIndex_inj {x y x' y' : Int} (h : OnScreen x y) (h' : OnScreen x' y') (he : grpIndex x y = grpIndex x' y') :
    x = x' ∧ y = y' := by
  obtain ⟨px, tx, cx, py, ty, cy, h1, h2, h3, h4, h5, h6, rfl, rfl⟩ := onScreen_digits h
  obtain ⟨px', tx', cx', py', ty', cy', h1', h2', h3', h4', h5', h6', rfl, rfl⟩ := onScreen_digits h'
  rw [grpIndex_digits _ _ _ _ _ _ h1 h2 h3 h4 h5 h6, grpIndex_digits _ _ _ _ _ _ h1' h2' h3' h4' h5' h6'] at he
  obtain ⟨rfl, rfl, rfl, rfl, rfl, rfl⟩ := digits_inj h1 h2 h3 h4 h5 h1' h2' h3' h4' h5' he
  exact ⟨rfl, rfl⟩

theorem grpIndex_surj {i : Nat} (h : i < 49152) : ∃ x y, OnScreen x y ∧ grpIndex x y = i := by
  refine ⟨((i % 8 + 8 * (i / 64 % 8) + 64 * (i / 4096 % 4) : Nat) : Int), ((i / 8 % 8 + 8 * (i / 512 % 8) + 64 * (i / 16384) : Nat) : Int), ?_, ?_⟩
  · unfold OnScreen; omega
  · rw [grpIndex_digits _ _ _ _ _ _ (by omega) (by omega) (by omega) (by omega) (by omega) (by omega)]
    obtain ⟨q1, hq1⟩ : ∃ q, q = i / 8 := ⟨_, rfl⟩
    obtain ⟨q2, hq2⟩ : ∃ q, q = i / 64 := ⟨_, rfl⟩
    obtain ⟨q3, hq3⟩ : ∃ q, q = i / 512 := ⟨_, rfl⟩
    obtain ⟨q4, hq4⟩ : ∃ q, q = i / 4096 := ⟨_, rfl⟩
    obtain ⟨q5, hq5⟩ : ∃ q, q = i / 16384 := ⟨_, rfl⟩
    rw [← hq1, ← hq2, ← hq3, ← hq4, ← hq5]
    have a1 : i % 8 + 8 * q1 = i := by omega
    have a2 : q1 % 8 + 8 * q2 = q1 := by omega
    have a3 : q2 % 8 + 8 * q3 = q2 := by omega
    have a4 : q3 % 8 + 8 * q4 = q3 := by omega
    have a5 : q4 % 4 + 4 * q5 = q4 := by omega
    generalize i % 8 = r1 at *
    generalize q1 % 8 = r2 at *
    generalize q2 % 8 = r3 at *
    generalize q3 % 8 = r4 at *
    generalize q4 % 4 = r5 at *
    clear hq1 hq2 hq3 hq4 hq5
    omega

theorem grpPixel_dot (page : Page) (x y : Int) (c : Nat) (m : Bool) {a b : Int} (h : OnScreen a b) :
    grpPixel page x y c m (grpIndex a b) = if x = a ∧ y = b then put m c (page (grpIndex a b)) else page (grpIndex a b) := by
  unfold grpPixel gw gh
  by_cases he : x = a ∧ y = b
  · obtain ⟨rfl, rfl⟩ := he
    have h' := h
    unfold OnScreen at h'
    rw [if_pos (show x ≥ 0 ∧ x < 256 by omega), if_pos (show y ≥ 0 ∧ y < 192 by omega)]
    cases m <;> simp [put, upd]
  · rw [if_neg he]
    by_cases hx : x ≥ 0 ∧ x < 256
    · by_cases hy : y ≥ 0 ∧ y < 192
      · have hne : grpIndex a b ≠ grpIndex x y := fun hh => by
          have := grpIndex_inj h ⟨hx.1, hx.2, hy.1, hy.2⟩ hh
          exact he ⟨this.1.symm, this.2.symm⟩
        rw [if_pos hx, if_pos hy]
        cases m <;> simp [upd, hne]
      · rw [if_pos hx, if_neg hy]
    · rw [if_neg hx]

theorem grpPixel_beyond (page : Page) (x y : Int) (c : Nat) (m : Bool) {i : Nat} (h : 49152 ≤ i) :
    grpPixel page x y c m i = page i := by
  unfold grpPixel gw gh
  split
  · split
    · have hlt : grpIndex x y < 49152 := grpIndex_lt (by unfold OnScreen; omega)
      have hne : i ≠ grpIndex x y := by omega
      split <;> simp [upd, hne]
    · rfl
  · rfl

theorem drawAll_dot (ps : List (Int × Int)) (c : Nat) (m : Bool) {a b : Int} (h : OnScreen a b) : ∀ (page : Page),
    drawAll page ps c m (grpIndex a b) = putN m c (ps.count (a, b)) (page (grpIndex a b)) := by
  induction ps with
  | nil => intro page; rfl
  | cons p ps ih =>
    intro page
    show drawAll (grpPixel page p.1 p.2 c m) ps c m (grpIndex a b) = _
    rw [ih, grpPixel_dot _ _ _ _ _ h, List.count_cons]
    by_cases he : p = (a, b)
    · subst he
      simp only [and_self, if_true, beq_self_eq_true]
      unfold putN
      rw [Function.iterate_add_apply]
      rfl
    · have h1 : ¬ (p.1 = a ∧ p.2 = b) := fun hh => he (Prod.ext hh.1 hh.2)
      have h2 : ¬ ((p == (a, b)) = true) := by simpa using he
      rw [if_neg h1, if_neg h2]; rfl

theorem drawAll_beyond (ps : List (Int × Int)) (c : Nat) (m : Bool) {i : Nat} (h : 49152 ≤ i) : ∀ (page : Page),
    drawAll page ps c m i = page i := by
  induction ps with
  | nil => intro page; rfl
  | cons p ps ih =>
    intro page
    show drawAll (grpPixel page p.1 p.2 c m) ps c m i = _
    rw [ih, grpPixel_beyond _ _ _ _ _ h]

theorem put_false_iter (c n old : Nat) : putN false c n old = if n = 0 then old else c := by
  unfold putN
  cases n with
  | zero => rfl
  | succ n => rw [Function.iterate_succ_apply']; simp [put]

theorem put_true_iter (c n old : Nat) : putN true c n old = if n % 2 = 0 then old else old ^^^ c := by
  unfold putN
  induction n with
  | zero => rfl
  | succ n ih =>
    rw [Function.iterate_succ_apply', ih]
    simp only [put, if_true]
    by_cases h : n % 2 = 0
    · rw [if_pos h, if_neg (by omega)]
    · rw [if_neg h, if_pos (by omega), Nat.xor_assoc, Nat.xor_self, Nat.xor_zero]

theorem setPage_draws (g : Gfx) (p : Page) (f : Int → Int → Nat → Nat)
    (h : ∀ x y, OnScreen x y → p (grpIndex x y) = f x y (g.grp g.page (grpIndex x y)))
    (h2 : ∀ i, 49152 ≤ i → p i = g.grp g.page i) : Draws g (g.setPage p) f := by
  refine ⟨?_, ?_, ?_, rfl⟩
  · intro x y hxy; unfold Gfx.dot Gfx.setPage; simp only [upd_same]; exact h x y hxy
  · intro i hi; unfold Gfx.setPage; simp only [upd_same]; exact h2 i hi
  · intro q hq; unfold Gfx.setPage; simp only []; rw [upd_other _ _ hq]

theorem drawAll_draws (g : Gfx) (ps : List (Int × Int)) (c : Nat) :
    Draws g (g.setPage (drawAll (g.grp g.page) ps c g.drawmode)) (fun x y old => putN g.drawmode c (ps.count (x, y)) old) :=
  setPage_draws g _ _ (fun _ _ h => drawAll_dot ps c _ h _) (fun _ h => drawAll_beyond ps c _ h _)

theorem count_upTo (a b x : Int) : (upTo a b).count x = if a ≤ x ∧ x ≤ b then 1 else 0 := by
  unfold upTo
  have hn : ((List.range (b + 1 - a).toNat).map fun (i : Nat) => a + (i : Int)).Nodup :=
    List.Nodup.map (by intro i j h; simp only [] at h; omega) List.nodup_range
  rw [hn.count]
  by_cases h : a ≤ x ∧ x ≤ b
  · rw [if_pos h, if_pos]
    rw [List.mem_map]
    exact ⟨(x - a).toNat, by rw [List.mem_range]; omega, by omega⟩
  · rw [if_neg h, if_neg]
    rw [List.mem_map]
    rintro ⟨i, h1, h2⟩
    rw [List.mem_range] at h1
    omega

theorem withColor_ok {g : Gfx} {a : Option Int} {c : Nat} (h : ColorArg g a c) (f : Nat → Res) : withColor g a f = f c := by
  unfold withColor ColorArg at *
  cases a with
  | none => simp only [] at h ⊢; rw [h]
  | some v =>
    simp only [] at h ⊢
    unfold fpToInt
    rw [if_neg (by omega)]
    congr 1; omega

theorem withColor_bad {g : Gfx} {a : Option Int} (h : ∀ c, ¬ ColorArg g a c) (f : Nat → Res) : withColor g a f = .ok (g, some .outOfRange) := by
  unfold withColor ColorArg at *
  cases a with
  | none => exact absurd rfl (h _)
  | some v =>
    simp only [] at h ⊢
    unfold fpToInt
    rw [if_pos]; rfl
    by_contra hc
    exact h (v / 4096).toNat ⟨by omega, by omega, by omega⟩

end Sbc.Graphics
