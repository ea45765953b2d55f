import Verif.Spec.Display
set_option autoImplicit false
namespace Sbc.Display
open Sbc Sbc.Display.Spec

theorem stores_spec (n : Nat) (f : Nat → Nat) : ∀ (l : List (Nat × Nat)) (m : Nat → Nat), (∀ kv ∈ l, kv.1 < n ∧ kv.2 = f kv.1) →
    ∃ m', stores n l m = .ok m' ∧ (∀ kv ∈ l, m' kv.1 = kv.2) ∧ (∀ k, m k = f k → m' k = f k)
  | [], m, _ => ⟨m, rfl, by simp, fun _ h => h⟩
  | (k, v) :: r, m, h => by
    obtain ⟨m', h1, h2, h3⟩ := stores_spec n f r (upd m k v) fun kv hkv => h kv (List.mem_cons_of_mem _ hkv)
    have hk := h (k, v) (by simp)
    refine ⟨m', by rw [stores, if_pos hk.1]; exact h1, ?_, ?_⟩
    · intro kv hkv
      rcases List.mem_cons.mp hkv with rfl | hkv
      · have := h3 k (by rw [upd_same]; exact hk.2)
        rw [this]; exact hk.2.symm
      · exact h2 kv hkv
    · intro j hj
      apply h3
      by_cases e : j = k
      · subst e; rw [upd_same]; exact hk.2
      · rw [upd_other _ _ e]; exact hj

theorem and15 (c : Nat) : c &&& 0x0f = c % 16 := Nat.and_two_pow_sub_one_eq_mod c 4

theorem chrDot_eq (src : Nat → Nat) (i cx cy : Nat) :
    chrDot src i cx cy = src (32 * i + (cx + 8 * cy) / 2) / (if cx % 2 = 0 then 1 else 16) % 16 := by
  unfold chrDot
  have h1 : cx &&& 1 = cx % 2 := Nat.and_two_pow_sub_one_eq_mod cx 1
  dsimp only
  rw [h1, and15, and15, Nat.shiftRight_eq_div_pow, show 32 * i + (cx + 8 * cy) / 2 = 32 * i + cx / 2 + 4 * cy by omega]
  by_cases h : cx % 2 = 0
  · rw [if_neg (by omega), if_pos h, Nat.div_one]
  · rw [if_pos h, if_neg h]

theorem genChr_spec (junk src : Nat → Nat) (m : Nat) :
    ∃ a, genChr junk src (32 * m) = .ok a ∧ ∀ i < 32 * m, ∀ cx < 8, ∀ cy < 8,
      a (4 * (8 * (i % 32) + cx + 256 * (8 * (i / 32) + cy))) = chrDot src i cx cy := by
  obtain ⟨a, h1, h2, -⟩ := stores_spec (4 * (32 * m) * 64)
    (fun k => chrDot src (k / 4 % 256 / 8 + 32 * (k / 4 / 256 / 8)) (k / 4 % 256 % 8) (k / 4 / 256 % 8))
    ((List.range (32 * m)).flatMap fun i => (List.range 8).flatMap fun cx => (List.range 8).map fun cy =>
    (4 * (8 * (i % 32) + cx + 256 * (8 * (i / 32) + cy)), chrDot src i cx cy)) junk (by
      intro kv hkv
      simp only [List.mem_flatMap, List.mem_map, List.mem_range] at hkv
      obtain ⟨i, hi, cx, hcx, cy, hcy, rfl⟩ := hkv
      dsimp only
      refine ⟨by omega, ?_⟩
      congr 1 <;> omega)
  refine ⟨a, h1, fun i hi cx hcx cy hcy => ?_⟩
  exact h2 (4 * (8 * (i % 32) + cx + 256 * (8 * (i / 32) + cy)), chrDot src i cx cy) (by
    simp only [List.mem_flatMap, List.mem_map, List.mem_range]
    exact ⟨i, hi, cx, hcx, cy, hcy, rfl⟩)

theorem shl (a n : Nat) : a <<< n = a * 2 ^ n := Nat.shiftLeft_eq a n

theorem mask5 (s k : Nat) : (s &&& (0x1f <<< k)) = (s / 2 ^ k % 32) * 2 ^ k := by
  apply Nat.eq_of_testBit_eq
  intro i
  rw [Nat.testBit_and, Nat.testBit_shiftLeft, Nat.testBit_mul_two_pow, show (0x1f : Nat) = 2 ^ 5 - 1 by decide, Nat.testBit_two_pow_sub_one,
    show (32 : Nat) = 2 ^ 5 by decide, Nat.testBit_mod_two_pow, Nat.testBit_div_two_pow]
  by_cases h : k ≤ i
  · rw [show i - k + k = i by omega]
    simp [h, Bool.and_comm]
  · simp [h]

theorem mask1 (s k : Nat) : (s &&& (1 <<< k)) = (s / 2 ^ k % 2) * 2 ^ k := by
  apply Nat.eq_of_testBit_eq
  intro i
  rw [Nat.testBit_and, Nat.testBit_shiftLeft, Nat.testBit_mul_two_pow, show (1 : Nat) = 2 ^ 1 - 1 by decide, Nat.testBit_two_pow_sub_one,
    show (2 : Nat) = 2 ^ 1 by decide, Nat.testBit_mod_two_pow, Nat.testBit_div_two_pow]
  by_cases h : k ≤ i
  · rw [show i - k + k = i by omega]
    simp [h, Bool.and_comm]
  · simp [h]

theorem colBytes_eq (i s : Nat) : colBytes i s = [(4 * i, (shown s).1), (4 * i + 1, (shown s).2.1), (4 * i + 2, (shown s).2.2),
    (4 * i + 3, if (if i / 256 % 3 = 2 then i % 256 else i % 16) = 0 then 0 else 255)] := by
  unfold colBytes shown
  have e1 : s &&& 0x001f = s % 32 := Nat.and_two_pow_sub_one_eq_mod s 5
  have e2 : s &&& 0x03e0 = (s / 32 % 32) * 32 := mask5 s 5
  have e3 : s &&& 0x7c00 = (s / 1024 % 32) * 1024 := mask5 s 10
  have e4 : s &&& 0x8000 = (s / 32768 % 2) * 32768 := mask1 s 15
  rw [e1, e2, e3, e4, shl, Nat.shiftRight_eq_div_pow, Nat.shiftRight_eq_div_pow, Nat.shiftRight_eq_div_pow]
  have g : (s / 32 % 32 * 32 / 2 ^ 2 ||| s / 32768 % 2 * 32768 / 2 ^ 13) = 8 * (s / 32 % 32) + 4 * (s / 32768 % 2) := by
    have : s / 32 % 32 * 32 / 2 ^ 2 = (s / 32 % 32) <<< 3 := by rw [shl]; omega
    rw [this, ← Nat.shiftLeft_add_eq_or_of_lt (by omega : s / 32768 % 2 * 32768 / 2 ^ 13 < 2 ^ 3), shl]
    omega
  rw [g]
  have a1 : s % 32 * 2 ^ 3 % 256 = 8 * (s % 32) := by omega
  have a2 : (8 * (s / 32 % 32) + 4 * (s / 32768 % 2)) % 256 = 8 * (s / 32 % 32) + 4 * (s / 32768 % 2) := by omega
  have a3 : s / 1024 % 32 * 1024 / 2 ^ 7 % 256 = 8 * (s / 1024 % 32) := by omega
  rw [a1, a2, a3]
  by_cases h : i / 256 % 3 = 2
  · by_cases h' : i % 256 = 0 <;> simp [h, h']
  · by_cases h' : i % 16 = 0 <;> simp [h, h']

theorem genCol_spec (junk src : Nat → Nat) :
    ∃ a, genCol junk src = .ok a ∧ ∀ i < 1536, a (4 * i) = (shown (src i)).1 ∧ a (4 * i + 1) = (shown (src i)).2.1 ∧
      a (4 * i + 2) = (shown (src i)).2.2 ∧ a (4 * i + 3) = if (if i / 256 % 3 = 2 then i % 256 else i % 16) = 0 then 0 else 255 := by
  obtain ⟨a, h1, h2, -⟩ := stores_spec (4 * 256 * 6)
    (fun k => if k % 4 = 0 then (shown (src (k / 4))).1 else if k % 4 = 1 then (shown (src (k / 4))).2.1 else if k % 4 = 2 then (shown (src (k / 4))).2.2
      else if (if k / 4 / 256 % 3 = 2 then k / 4 % 256 else k / 4 % 16) = 0 then 0 else 255)
    ((List.range (256 * 6)).flatMap fun i => colBytes i (src i)) junk (by
      intro kv hkv
      simp only [List.mem_flatMap, List.mem_range] at hkv
      obtain ⟨i, hi, hkv⟩ := hkv
      rw [colBytes_eq] at hkv
      simp only [List.mem_cons, List.not_mem_nil, or_false] at hkv
      rcases hkv with rfl | rfl | rfl | rfl
      · refine ⟨by dsimp only; omega, ?_⟩
        dsimp only
        rw [if_pos (by omega), show 4 * i / 4 = i by omega]
      · refine ⟨by dsimp only; omega, ?_⟩
        dsimp only
        rw [if_neg (by omega), if_pos (by omega), show (4 * i + 1) / 4 = i by omega]
      · refine ⟨by dsimp only; omega, ?_⟩
        dsimp only
        rw [if_neg (by omega), if_neg (by omega), if_pos (by omega), show (4 * i + 2) / 4 = i by omega]
      · refine ⟨by dsimp only; omega, ?_⟩
        dsimp only
        rw [if_neg (by omega : ¬ (4 * i + 3) % 4 = 0), if_neg (by omega : ¬ (4 * i + 3) % 4 = 1), if_neg (by omega : ¬ (4 * i + 3) % 4 = 2),
          show (4 * i + 3) / 4 = i by omega])
  refine ⟨a, h1, fun i hi => ?_⟩
  have hm : ∀ kv ∈ colBytes i (src i), a kv.1 = kv.2 := fun kv hkv => h2 kv (by
    simp only [List.mem_flatMap, List.mem_range]; exact ⟨i, by omega, hkv⟩)
  rw [colBytes_eq] at hm
  simp only [List.forall_mem_cons] at hm
  exact ⟨hm.1, hm.2.1, hm.2.2.1, hm.2.2.2.1⟩

theorem clamp_lt {n k : Nat} (h : k < n) : clamp n (k : Int) = k := by
  unfold clamp
  rw [Int.toNat_natCast]; omega

/-- The colour texture of a memory shows the colours of the memory. -/
theorem colorAt_spec {src a : Nat → Nat} (h : ∀ i < 1536, a (4 * i) = (shown (src i)).1 ∧ a (4 * i + 1) = (shown (src i)).2.1 ∧
      a (4 * i + 2) = (shown (src i)).2.2 ∧ a (4 * i + 3) = if (if i / 256 % 3 = 2 then i % 256 else i % 16) = 0 then 0 else 255)
    {k c : Nat} (hk : k < 6) (hc : c < 256) : colorAt a k c =
      if (if k % 3 = 2 then c else c % 16) = 0 then none else some (shown (src (256 * k + c))) := by
  unfold colorAt
  have e1 : clamp 256 (c * 256 / 255 : Nat) = c := by
    unfold clamp
    rw [Int.toNat_natCast]; omega
  have e2 : clamp 6 (k * 6 / 5 : Nat) = k := by
    unfold clamp
    rw [Int.toNat_natCast]; omega
  rw [e1, e2]
  dsimp only
  obtain ⟨h1, h2, h3, h4⟩ := h (c + 256 * k) (by omega)
  rw [h1, h2, h3, h4, show (c + 256 * k) / 256 = k by omega, show (c + 256 * k) % 256 = c by omega, show (c + 256 * k) % 16 = c % 16 by omega,
    show 256 * k + c = c + 256 * k by omega]
  by_cases h0 : (if k % 3 = 2 then c else c % 16) = 0
  · rw [if_pos h0, if_pos rfl, if_pos h0]
  · rw [if_neg h0, if_neg h0]
    rfl

theorem texSize_32 {t : Nat} (h : t < 10) : texSize t = 32 * (8 * (texBanks t).2) ∧ texHeight t = 8 * (8 * (texBanks t).2) ∧ 0 < (texBanks t).2 := by
  have : ∀ t : Fin 10, texSize t.1 = 32 * (8 * (texBanks t.1).2) ∧ texHeight t.1 = 8 * (8 * (texBanks t.1).2) ∧ 0 < (texBanks t.1).2 := by decide
  exact this ⟨t, h⟩

/-- The texture of a memory shows the characters of the memory. -/
theorem texel_spec (junk : Nat → Nat) (b : Res.Bank) {t : Nat} (ht : t < 10) :
    ∃ a, genChr junk (chrSrc b (texBanks t).1) (texSize t) = .ok a ∧ ∀ n < texSize t, ∀ x < 8, ∀ y < 8,
      texel a (texHeight t) (8 * (n % 32) + x : Nat) (8 * (n / 32) + y : Nat) = dot b (texBanks t).1 n x y := by
  obtain ⟨h1, h2, -⟩ := texSize_32 ht
  obtain ⟨a, k1, k2⟩ := genChr_spec junk (chrSrc b (texBanks t).1) (8 * (texBanks t).2)
  refine ⟨a, by rw [h1]; exact k1, fun n hn x hx y hy => ?_⟩
  rw [h1] at hn
  unfold texel
  rw [clamp_lt (by omega), clamp_lt (by rw [h2]; omega), k2 n hn x hx y hy, chrDot_eq]
  unfold chrSrc dot
  rw [show (32 * n + (x + 8 * y) / 2) / 8192 = n / 256 by omega, show (32 * n + (x + 8 * y) / 2) % 8192 = 32 * (n % 256) + (x + 8 * y) / 2 by omega]

/-! ### Quads -/

theorem interp_right {x0 u p : Int} (h : inside x0 (x0 + 8) p) : interp x0 (x0 + 8) u (u + 8) p = u + (p - x0) := by
  unfold inside at h
  unfold interp
  rw [Int.fdiv_eq_ediv_of_nonneg _ (by omega), show x0 + 8 - x0 = 8 by omega, show u + 8 - u = 8 by omega]
  omega

theorem interp_left {x0 u p : Int} (h : inside x0 (x0 + 8) p) : interp x0 (x0 + 8) (u + 8) u p = u + 7 - (p - x0) := by
  unfold inside at h
  unfold interp
  rw [Int.fdiv_eq_ediv_of_nonneg _ (by omega), show x0 + 8 - x0 = 8 by omega, show u - (u + 8) = -8 by omega]
  omega

theorem interp_back {x0 u p : Int} (h : inside x0 (x0 - 8) p) : interp x0 (x0 - 8) u (u + 8) p = u + (x0 - 1 - p) := by
  unfold inside at h
  unfold interp
  rw [show x0 - 8 - x0 = -8 by omega, show u + 8 - u = 8 by omega, show (2 : Int) * -8 = -16 by omega]
  obtain ⟨i, rfl⟩ : ∃ i, p = x0 - 1 - i := ⟨x0 - 1 - p, by omega⟩
  rw [show 2 * u * -8 + (2 * (x0 - 1 - i - x0) + 1) * 8 = -(16 * (u + i) + 8) by omega,
    show (-16 : Int) = -(16) by omega, Int.neg_fdiv_neg, Int.fdiv_eq_ediv_of_nonneg _ (by omega)]
  omega

/-- The colour a quad gives to a pixel. -/
def Quad.color (colTex : Nat → Nat) (bank : Nat) (tex : Nat → Nat) (h : Nat) (px py : Int) (q : Quad) : Option Rgb :=
  match q.at px py with
  | some (u, v) => shade colTex bank q.a.pal (texel tex h u v)
  | none => none

theorem drawVa_eq (colTex : Nat → Nat) (bank : Nat) (tex : Nat → Nat) (h : Nat) (qs : List Quad) (px py : Int) :
    drawVa colTex bank tex h qs px py = qs.foldl (fun acc q => (q.color colTex bank tex h px py).or acc) none := by
  unfold drawVa
  congr 1
  funext acc q
  unfold Quad.color
  cases q.at px py <;> rfl

theorem fold_unique {α : Type} [DecidableEq α] (f : α → Option Rgb) (q0 : α) : ∀ (l : List α) (acc : Option Rgb),
    (∀ q ∈ l, f q = none ∨ q = q0) → (acc = none ∨ acc = f q0) →
    l.foldl (fun acc q => (f q).or acc) acc = if q0 ∈ l ∨ acc = f q0 then f q0 else none
  | [], acc, _, ha => by
    rcases ha with rfl | rfl
    · cases f q0 <;> simp
    · simp
  | q :: l, acc, h, ha => by
    rw [List.foldl_cons]
    have h' : ∀ q ∈ l, f q = none ∨ q = q0 := fun q hq => h q (List.mem_cons_of_mem _ hq)
    rcases h q (by simp) with hq | rfl
    · rw [hq, Option.none_or, fold_unique f q0 l acc h' ha]
      by_cases e : q = q0
      · subst e
        rcases ha with rfl | rfl <;> simp [hq]
      · have e' : ¬ q0 = q := fun h => e h.symm
        simp [e']
    · have : (f q).or acc = f q := by rcases ha with rfl | rfl <;> cases f q <;> rfl
      rw [this, fold_unique f q l (f q) h' (Or.inr rfl)]
      simp

theorem draw_unique {colTex : Nat → Nat} {bank : Nat} {tex : Nat → Nat} {h : Nat} {qs : List Quad} {px py : Int} {q0 : Quad} (hm : q0 ∈ qs)
    (hu : ∀ q ∈ qs, q.at px py = none ∨ q = q0) : drawVa colTex bank tex h qs px py = q0.color colTex bank tex h px py := by
  rw [drawVa_eq, fold_unique _ q0 qs none (fun q hq => (hu q hq).imp (fun e => by unfold Quad.color; rw [e]) id) (Or.inl rfl)]
  simp [hm]

theorem tile_none {ox oy : Int} {x y : Nat} {chr : Int} {h v : Bool} {pal : Nat} {px py : Int}
    (hn : ¬ (x * 8 - ox ≤ px ∧ px < x * 8 - ox + 8 ∧ y * 8 - oy ≤ py ∧ py < y * 8 - oy + 8)) : (tileQuad ox oy x y chr h v pal).at px py = none := by
  unfold Quad.at
  rw [if_neg]
  unfold tileQuad inside
  dsimp only
  omega

theorem tile_at {ox oy : Int} {x y : Nat} {n : Nat} {h v : Bool} {pal : Nat} {i j : Nat} (hi : i < 8) (hj : j < 8) :
    (tileQuad ox oy x y n h v pal).at (x * 8 - ox + i) (y * 8 - oy + j) =
      some (((8 * (n % 32) + (if h then 7 - i else i) : Nat) : Int), ((8 * (n / 32) + (if v then 7 - j else j) : Nat) : Int)) := by
  unfold Quad.at
  have tm : (n : Int).tmod 32 = (n % 32 : Nat) := by rw [Int.tmod_eq_emod_of_nonneg (by omega)]; rfl
  have td : (n : Int).tdiv 32 = (n / 32 : Nat) := by rw [Int.tdiv_eq_ediv_of_nonneg (by omega)]; rfl
  have ix : inside ((x : Int) * 8 + 0 - ox) ((x : Int) * 8 + 0 - ox + 8) (x * 8 - ox + i) := by unfold inside; omega
  have iy : inside ((y : Int) * 8 + 0 - oy) ((y : Int) * 8 + 0 - oy + 8) (y * 8 - oy + j) := by unfold inside; omega
  unfold tileQuad texCoords
  dsimp only
  have ex : (x : Int) * 8 + 8 - ox = x * 8 + 0 - ox + 8 := by omega
  have ey : (y : Int) * 8 + 8 - oy = y * 8 + 0 - oy + 8 := by omega
  rw [if_pos ⟨by rw [ex]; exact ix, by rw [ey]; exact iy⟩, ex, ey, tm, td]
  congr 1
  refine Prod.ext ?_ ?_
  · dsimp only
    cases h with
    | false =>
      have := interp_right (u := 8 * ((n % 32 : Nat) : Int)) ix
      simp only [Bool.toNat_false, Bool.not_false, Bool.toNat_true, Bool.false_eq_true, if_false]
      rw [show 8 * (((n % 32 : Nat) : Int) + ((0 : Nat) : Int)) = 8 * ((n % 32 : Nat) : Int) by omega,
        show 8 * (((n % 32 : Nat) : Int) + ((1 : Nat) : Int)) = 8 * ((n % 32 : Nat) : Int) + 8 by omega, this]
      omega
    | true =>
      have := interp_left (u := 8 * ((n % 32 : Nat) : Int)) ix
      simp only [Bool.toNat_false, Bool.not_true, Bool.toNat_true, if_true]
      rw [show 8 * (((n % 32 : Nat) : Int) + ((0 : Nat) : Int)) = 8 * ((n % 32 : Nat) : Int) by omega,
        show 8 * (((n % 32 : Nat) : Int) + ((1 : Nat) : Int)) = 8 * ((n % 32 : Nat) : Int) + 8 by omega, this]
      omega
  · dsimp only
    cases v with
    | false =>
      have := interp_right (u := 8 * ((n / 32 : Nat) : Int)) iy
      simp only [Bool.toNat_false, Bool.not_false, Bool.toNat_true, Bool.false_eq_true, if_false]
      rw [show 8 * (((n / 32 : Nat) : Int) + ((0 : Nat) : Int)) = 8 * ((n / 32 : Nat) : Int) by omega,
        show 8 * (((n / 32 : Nat) : Int) + ((1 : Nat) : Int)) = 8 * ((n / 32 : Nat) : Int) + 8 by omega, this]
      omega
    | true =>
      have := interp_left (u := 8 * ((n / 32 : Nat) : Int)) iy
      simp only [Bool.toNat_false, Bool.not_true, Bool.toNat_true, if_true]
      rw [show 8 * (((n / 32 : Nat) : Int) + ((0 : Nat) : Int)) = 8 * ((n / 32 : Nat) : Int) by omega,
        show 8 * (((n / 32 : Nat) : Int) + ((1 : Nat) : Int)) = 8 * ((n / 32 : Nat) : Int) + 8 by omega, this]
      omega

theorem mem_cells {w h x y : Nat} : (x, y) ∈ cells w h ↔ x < w ∧ y < h := by
  unfold cells
  simp only [List.mem_flatMap, List.mem_range, List.mem_map, Prod.mk.injEq]
  constructor
  · rintro ⟨b, hb, a, ha, rfl, rfl⟩; exact ⟨ha, hb⟩
  · rintro ⟨h1, h2⟩; exact ⟨y, h2, x, h1, rfl, rfl⟩

/-- A grid of tiles shows the tile the pixel is in. -/
theorem draw_grid {colTex : Nat → Nat} {bank : Nat} {tex : Nat → Nat} {th w h : Nat} {ox oy : Nat} (f : Nat × Nat → Quad)
    (hf : ∀ x y, ∃ (chr : Int) (fh fv : Bool) (pal : Nat), f (x, y) = tileQuad ox oy x y chr fh fv pal) {px py : Nat}
    (hx : (px + ox) / 8 < w) (hy : (py + oy) / 8 < h) :
    drawVa colTex bank tex th ((cells w h).map f) px py = (f ((px + ox) / 8, (py + oy) / 8)).color colTex bank tex th px py := by
  apply draw_unique
  · exact List.mem_map_of_mem (mem_cells.mpr ⟨hx, hy⟩)
  · intro q hq
    obtain ⟨⟨x, y⟩, hxy, rfl⟩ := List.mem_map.mp hq
    by_cases e : x = (px + ox) / 8 ∧ y = (py + oy) / 8
    · right; rw [e.1, e.2]
    · left
      obtain ⟨chr, fh, fv, pal, he⟩ := hf x y
      rw [he]
      apply tile_none
      omega

theorem tile_color {colTex : Nat → Nat} {bank : Nat} {tex : Nat → Nat} {th : Nat} {ox oy x y n : Nat} {h v : Bool} {pal : Nat} (hp : pal < 16)
    {px py : Nat} (hx : (px + ox) / 8 = x) (hy : (py + oy) / 8 = y) :
    (tileQuad ox oy x y n h v pal).color colTex bank tex th px py = shade colTex bank (16 * pal)
      (texel tex th (8 * (n % 32) + (if h then 7 - (px + ox) % 8 else (px + ox) % 8) : Nat)
        (8 * (n / 32) + (if v then 7 - (py + oy) % 8 else (py + oy) % 8) : Nat)) := by
  unfold Quad.color
  have e := tile_at (ox := ox) (oy := oy) (x := x) (y := y) (n := n) (h := h) (v := v) (pal := pal)
    (Nat.mod_lt (px + ox) (by decide : 8 > 0)) (Nat.mod_lt (py + oy) (by decide : 8 > 0))
  rw [show (x : Int) * 8 - ox + ((px + ox) % 8 : Nat) = px by omega, show (y : Int) * 8 - oy + ((py + oy) % 8 : Nat) = py by omega] at e
  rw [e]
  show shade colTex bank (16 * pal % 256) _ = _
  rw [Nat.mod_eq_of_lt (by omega)]

theorem shade_spec {s : Scene} {b : Res.Bank} (hf : Fresh s b) {k pal d : Nat} (hk : k < 6) (hk' : k % 3 ≠ 2) (hp : pal < 16) (hd : d < 16) :
    shade s.colTex k (16 * pal) d = paint b k pal d := by
  unfold shade paint
  by_cases h : d = 0
  · subst h
    rw [if_neg (by omega), hf.col k hk 0 (by omega), if_neg hk', if_pos rfl, if_pos rfl]
  · rw [if_pos h, hf.col k hk _ (by omega), if_neg hk', if_neg (by omega), if_neg h]

theorem dot_lt (b : Res.Bank) (bank n x y : Nat) : dot b bank n x y < 16 := Nat.mod_lt _ (by decide)

/-- A tile drawn from a fresh texture. -/
theorem tile_paint {s : Scene} {b : Res.Bank} (hf : Fresh s b) {k t : Nat} (hk : k < 6) (hk' : k % 3 ≠ 2) (ht : t < 10) {ox oy x y n : Nat}
    {h v : Bool} {pal : Nat} (hp : pal < 16) (hn : n < texSize t) {px py : Nat} (hx : (px + ox) / 8 = x) (hy : (py + oy) / 8 = y) :
    (tileQuad ox oy x y n h v pal).color s.colTex k (s.chrTex t) (texHeight t) px py =
      paint b k pal (dot b (texBanks t).1 n (if h then 7 - (px + ox) % 8 else (px + ox) % 8) (if v then 7 - (py + oy) % 8 else (py + oy) % 8)) := by
  rw [tile_color hp hx hy, hf.chr t ht n hn _ (by split <;> omega) _ (by split <;> omega), shade_spec hf hk hk' hp (dot_lt _ _ _ _ _)]

end Sbc.Display
