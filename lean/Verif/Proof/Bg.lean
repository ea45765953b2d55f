import Verif.Spec.Bg
import Mathlib.Tactic.Common
import Verif.Proof.Num
set_option autoImplicit false
namespace Sbc.Bg
open Sbc Sbc.Strs

theorem bgIndex_eq {x y : Int} (hx : 0 ≤ x ∧ x < 256) (hy : 0 ≤ y ∧ y < 256) :
    bgIndex x y = x.toNat % 32 + y.toNat % 32 * 32 + x.toNat / 32 * 1024 + y.toNat / 32 * 2048 := by
  unfold bgIndex
  rw [show (x % 256) = x by omega, show (y % 256) = y by omega]
  simp only []
  omega

theorem bgIndex_lt {x y : Int} (h : InMap x y) : bgIndex x y < 4096 := by
  unfold InMap at h
  rw [bgIndex_eq (by omega) (by omega)]
  omega

theorem bgIndex_inj {x y u v : Int} (h : InMap x y) (h' : InMap u v) (e : bgIndex x y = bgIndex u v) : x = u ∧ y = v := by
  unfold InMap at h h'
  rw [bgIndex_eq (by omega) (by omega), bgIndex_eq (by omega) (by omega)] at e
  omega

theorem bgIndex_surj (i : Nat) (h : i < 4096) : ∃ x y, InMap x y ∧ bgIndex x y = i := by
  refine ⟨(i % 32 + i / 1024 % 2 * 32 : Nat), (i / 32 % 32 + i / 2048 * 32 : Nat), ?_, ?_⟩
  · unfold InMap; omega
  · rw [bgIndex_eq (by omega) (by omega)]; omega

theorem range_ok {v lo hi : Int} (h : lo ≤ v / 4096 ∧ v / 4096 ≤ hi) : range v lo hi = .ok (v / 4096) := by
  unfold range fpToInt
  rw [if_neg (by omega)]

theorem range_err {v lo hi : Int} (h : ¬ (lo ≤ v / 4096 ∧ v / 4096 ≤ hi)) : range v lo hi = .err .outOfRange := by
  unfold range fpToInt
  rw [if_pos (by omega)]

theorem toTiledata_eq {c p h v : Nat} (hc : c < 1024) (hp : p < 16) (hh : h < 2) (hv : v < 2) : toTiledata c p h v = tileOf c p h v := by
  unfold toTiledata tileOf
  have e1 : c &&& 0x3ff = c := by rw [show 0x3ff = 2 ^ 10 - 1 from rfl, Nat.and_two_pow_sub_one_eq_mod]; omega
  have e2 : h &&& 1 = h := by rw [show 1 = 2 ^ 1 - 1 from rfl, Nat.and_two_pow_sub_one_eq_mod]; omega
  have e3 : v &&& 1 = v := by rw [show 1 = 2 ^ 1 - 1 from rfl, Nat.and_two_pow_sub_one_eq_mod]; omega
  have e4 : p &&& 0xf = p := by rw [show 0xf = 2 ^ 4 - 1 from rfl, Nat.and_two_pow_sub_one_eq_mod]; omega
  rw [e1, e2, e3, e4, Nat.shiftLeft_eq, Nat.shiftLeft_eq, Nat.shiftLeft_eq]
  have f1 : c ||| h * 2 ^ 10 = 2 ^ 10 * h + c := by
    rw [Nat.or_comm, Nat.mul_comm h]; exact (Nat.two_pow_add_eq_or_of_lt (by omega) _).symm
  rw [f1]
  have f2 : (2 ^ 10 * h + c) ||| v * 2 ^ 11 = 2 ^ 11 * v + (2 ^ 10 * h + c) := by
    rw [Nat.or_comm, Nat.mul_comm v]; exact (Nat.two_pow_add_eq_or_of_lt (by omega) _).symm
  rw [f2]
  have f3 : (2 ^ 11 * v + (2 ^ 10 * h + c)) ||| p * 2 ^ 12 = 2 ^ 12 * p + (2 ^ 11 * v + (2 ^ 10 * h + c)) := by
    rw [Nat.or_comm, Nat.mul_comm p]; exact (Nat.two_pow_add_eq_or_of_lt (by omega) _).symm
  rw [f3]
  omega

theorem field (t k n : Nat) : (t &&& ((2 ^ n - 1) <<< k)) >>> k = t / 2 ^ k % 2 ^ n := by
  rw [Nat.shiftRight_and_distrib, Nat.shiftLeft_shiftRight, Nat.and_two_pow_sub_one_eq_mod, Nat.shiftRight_eq_div_pow]

/-- The tile arguments denote a tile, or the command reports an error. -/
theorem tileData_arg {t : Tile} {n : Nat} (h : TileArg t n) : tileData t = .ok n := by
  cases t with
  | num v =>
    unfold TileArg at h
    simp only [tileData, fpToInt]
    refine congrArg _ ?_
    omega
  | str s =>
    obtain ⟨m, h1, h2⟩ := h
    simp only [tileData]
    rw [h1]
    simp only [Out.bind, fpToInt]
    refine congrArg _ ?_
    omega
  | parts c p hh v =>
    obtain ⟨c', p', h', v', e1, l1, e2, l2, e3, l3, e4, l4, e5⟩ := h
    simp only [tileData]
    rw [range_ok (v := c) (by omega), range_ok (v := p) (by omega), range_ok (v := hh) (by omega), range_ok (v := v) (by omega)]
    simp only [Out.bind]
    rw [e1, e2, e3, e4, e5]
    exact congrArg _ (toTiledata_eq l1 l2 l3 l4)

theorem hexMax {cs : List Nat} {base : Nat} (f neg : Bool) (n : Nat) : (Num.intLoop base false cs f neg n).maximum = 1 := by
  induction cs generalizing f neg n with
  | nil => rfl
  | cons c cs ih =>
    rw [Num.intLoop]
    split
    · simp only []
      split
      · rfl
      · exact ih _ _ _
    · rw [if_neg (by simp)]
      split
      · split
        · rfl
        · exact ih _ _ _
      · rfl

theorem strToNumber_total (cs : List Nat) (base : Nat) : ∃ n, Num.strToNumber cs base false = .ok n := by
  unfold Num.strToNumber
  simp only []
  rw [if_neg (by rw [hexMax]; decide)]
  split
  · exact ⟨_, rfl⟩
  · exact ⟨_, rfl⟩

theorem tileArg_or (t : Tile) : (∃ n, TileArg t n) ∨ tileData t = .err .outOfRange := by
  cases t with
  | num v => exact .inl ⟨(v / 4096 % 65536).toNat, by unfold TileArg; omega⟩
  | str s =>
    obtain ⟨n, hn⟩ := strToNumber_total (wideChars s) 16
    exact .inl ⟨(n / 4096 % 65536).toNat, n, hn, by omega⟩
  | parts c p h v =>
    by_cases h1 : 0 ≤ c / 4096 ∧ c / 4096 ≤ 1023
    · by_cases h2 : 0 ≤ p / 4096 ∧ p / 4096 ≤ 15
      · by_cases h3 : 0 ≤ h / 4096 ∧ h / 4096 ≤ 1
        · by_cases h4 : 0 ≤ v / 4096 ∧ v / 4096 ≤ 1
          · exact .inl ⟨_, (c / 4096).toNat, (p / 4096).toNat, (h / 4096).toNat, (v / 4096).toNat, by omega, by omega, by omega, by omega, by omega, by omega, by omega, by omega, rfl⟩
          · right; simp only [tileData]; rw [range_ok h1, range_ok h2, range_ok h3, range_err h4]; rfl
        · right; simp only [tileData]; rw [range_ok h1, range_ok h2, range_err h3]; rfl
      · right; simp only [tileData]; rw [range_ok h1, range_err h2]; rfl
    · right; simp only [tileData]; rw [range_err h1]; rfl

theorem tileArg_lt {t : Tile} {n : Nat} (h : TileArg t n) : n < 65536 := by
  cases t with
  | num v => unfold TileArg at h; omega
  | str s => obtain ⟨m, -, h⟩ := h; omega
  | parts c p h' v =>
    obtain ⟨c', p', h', v', _, _, _, _, _, _, _, _, e⟩ := h
    unfold tileOf at e; omega

theorem setLayer_changes (g : Bg) (l : Nat) (m : Nat → Nat) (f : Int → Int → Nat)
    (h : ∀ x y, InMap x y → m (bgIndex x y) = f x y) (h2 : ∀ i, 4096 ≤ i → m i = g.layer l i) : Changes g (g.setLayer l m) l f := by
  refine ⟨?_, ?_, ?_, rfl⟩
  · intro x y hxy; unfold Bg.tile Bg.setLayer; simp only [upd_same]; exact h x y hxy
  · intro i hi; unfold Bg.setLayer; simp only [upd_same]; exact h2 i hi
  · intro b hb; unfold Bg.setLayer; simp only []; rw [upd_other _ _ hb]

theorem store_ok (m : Nat → Nat) {x y : Int} (h : InMap x y) (v : Nat) : store m (bgIndex x y) v = .ok (upd m (bgIndex x y) v) := by
  unfold store scrCells
  rw [if_pos (bgIndex_lt h)]

theorem mem_upTo (a b x : Int) : x ∈ upTo a b ↔ a ≤ x ∧ x ≤ b := by
  unfold upTo
  rw [List.mem_map]
  constructor
  · rintro ⟨i, hi, rfl⟩
    rw [List.mem_range] at hi
    omega
  · intro h
    exact ⟨(x - a).toNat, by rw [List.mem_range]; omega, by omega⟩

theorem mem_cellsOf (x1 y1 x2 y2 : Int) (p : Int × Int) : p ∈ cellsOf x1 y1 x2 y2 ↔ x1 ≤ p.1 ∧ p.1 ≤ x2 ∧ y1 ≤ p.2 ∧ p.2 ≤ y2 := by
  unfold cellsOf
  rw [List.mem_flatMap]
  constructor
  · rintro ⟨y, hy, hp⟩
    rw [List.mem_map] at hp
    obtain ⟨x, hx, rfl⟩ := hp
    rw [mem_upTo] at hx hy
    exact ⟨hx.1, hx.2, hy.1, hy.2⟩
  · rintro ⟨h1, h2, h3, h4⟩
    exact ⟨p.2, (mem_upTo _ _ _).2 ⟨h3, h4⟩, List.mem_map.2 ⟨p.1, (mem_upTo _ _ _).2 ⟨h1, h2⟩, rfl⟩⟩

/-- Storing the same tile at every cell of a list. -/
theorem storeAll_fill (t : Nat) : ∀ (l : List (Int × Int)) (m : Nat → Nat), (∀ p ∈ l, InMap p.1 p.2) →
    ∃ m', storeAll (fun _ p => (bgIndex p.1 p.2, t)) l m = .ok m' ∧
      (∀ x y, InMap x y → m' (bgIndex x y) = if (x, y) ∈ l then t else m (bgIndex x y)) ∧ ∀ i, 4096 ≤ i → m' i = m i := by
  intro l
  induction l with
  | nil => intro m _; exact ⟨m, rfl, fun x y _ => by simp, fun _ _ => rfl⟩
  | cons p l ih =>
    intro m h
    have hp := h p (by simp)
    obtain ⟨m', h1, h2, h3⟩ := ih (upd m (bgIndex p.1 p.2) t) (fun q hq => h q (by simp [hq]))
    refine ⟨m', ?_, ?_, ?_⟩
    · rw [storeAll]
      simp only []
      rw [store_ok _ hp]
      exact h1
    · intro x y hxy
      rw [h2 x y hxy]
      by_cases hm : (x, y) ∈ l
      · rw [if_pos hm, if_pos (List.mem_cons_of_mem _ hm)]
      · rw [if_neg hm]
        by_cases he : (x, y) = p
        · subst he
          rw [upd_same, if_pos (by simp)]
        · rw [upd_other, if_neg (by rw [List.mem_cons]; tauto)]
          intro hi
          obtain ⟨a, b⟩ := bgIndex_inj hxy hp hi
          exact he (Prod.ext a b)
    · intro i hi
      rw [h3 i hi, upd_other]
      have := bgIndex_lt hp
      omega

/-- Copying a list of cells by a displacement in an order in which no source is overwritten before it is read. -/
theorem storeAll_copy (a b c d : Int) : ∀ (l : List (Int × Int)) (m : Nat → Nat),
    (∀ p ∈ l, InMap p.1 p.2 ∧ InMap (p.1 - a + b) (p.2 - c + d)) →
    l.Pairwise (fun p q => q ≠ (p.1 - a + b, p.2 - c + d)) → l.Nodup →
    ∃ m', storeAll (fun m p => (bgIndex (p.1 - a + b) (p.2 - c + d), m (bgIndex p.1 p.2))) l m = .ok m' ∧
      (∀ x y, InMap x y → m' (bgIndex x y) = if (x - b + a, y - d + c) ∈ l then m (bgIndex (x - b + a) (y - d + c)) else m (bgIndex x y)) ∧
      ∀ i, 4096 ≤ i → m' i = m i := by
  intro l
  induction l with
  | nil => intro m _ _ _; exact ⟨m, rfl, fun x y _ => by simp, fun _ _ => rfl⟩
  | cons p l ih =>
    intro m h hp hn
    rw [List.pairwise_cons] at hp
    rw [List.nodup_cons] at hn
    obtain ⟨hp1, hp2⟩ := h p (by simp)
    obtain ⟨m', h1, h2, h3⟩ := ih (upd m (bgIndex (p.1 - a + b) (p.2 - c + d)) (m (bgIndex p.1 p.2))) (fun q hq => h q (by simp [hq])) hp.2 hn.2
    refine ⟨m', ?_, ?_, ?_⟩
    · rw [storeAll]
      simp only []
      rw [store_ok _ hp2]
      exact h1
    · intro x y hxy
      rw [h2 x y hxy]
      by_cases hm : (x - b + a, y - d + c) ∈ l
      · rw [if_pos hm, if_pos (List.mem_cons_of_mem _ hm), upd_other]
        intro hi
        have hq := (h _ (List.mem_cons_of_mem _ hm)).1
        obtain ⟨e1, e2⟩ := bgIndex_inj hq hp2 hi
        exact hp.1 _ hm (Prod.ext e1 e2)
      · rw [if_neg hm]
        by_cases he : (x - b + a, y - d + c) = p
        · rw [if_pos (by rw [he]; simp)]
          have e1 : x = p.1 - a + b := by rw [← he]; simp only []; omega
          have e2 : y = p.2 - c + d := by rw [← he]; simp only []; omega
          rw [e1, e2, upd_same]
          rw [show p.1 - a + b - b + a = p.1 by omega, show p.2 - c + d - d + c = p.2 by omega]
        · rw [if_neg (by rw [List.mem_cons]; tauto), upd_other]
          intro hi
          obtain ⟨e1, e2⟩ := bgIndex_inj hxy hp2 hi
          apply he
          refine Prod.ext ?_ ?_
          · simp only []; omega
          · simp only []; omega
    · intro i hi
      rw [h3 i hi, upd_other]
      have := bgIndex_lt hp2
      omega

theorem upTo_pairwise (a b : Int) : (upTo a b).Pairwise (· < ·) := by
  unfold upTo
  rw [List.pairwise_map]
  refine List.Pairwise.imp ?_ List.pairwise_lt_range
  intro i j h; omega

/-- The cells come in reading order. -/
theorem cellsOf_pairwise (x1 y1 x2 y2 : Int) : (cellsOf x1 y1 x2 y2).Pairwise (fun p q => p.2 < q.2 ∨ (p.2 = q.2 ∧ p.1 < q.1)) := by
  unfold cellsOf
  rw [List.flatMap_def, List.pairwise_flatten]
  constructor
  · intro l hl
    rw [List.mem_map] at hl
    obtain ⟨y, _, rfl⟩ := hl
    rw [List.pairwise_map]
    exact (upTo_pairwise x1 x2).imp (fun h => .inr ⟨rfl, h⟩)
  · rw [List.pairwise_map]
    refine (upTo_pairwise y1 y2).imp ?_
    intro u v huv p hp q hq
    rw [List.mem_map] at hp hq
    obtain ⟨_, _, rfl⟩ := hp
    obtain ⟨_, _, rfl⟩ := hq
    exact .inl huv

theorem cellsOf_nodup (x1 y1 x2 y2 : Int) : (cellsOf x1 y1 x2 y2).Nodup := by
  refine (cellsOf_pairwise x1 y1 x2 y2).imp ?_
  intro p q h e
  subst e
  omega

theorem clamp_bounds (v : Int) : 0 ≤ clamp v ∧ clamp v ≤ 63 := by 
  unfold clamp
  split
  · omega
  · split <;> omega

theorem clamp_eq (v : Int) : clamp v = max 0 (min 63 v) := by
  unfold clamp
  split
  · omega
  · split <;> omega

theorem clearLayer_get (m : Nat → Nat) (i : Nat) : clearLayer m i = if i < 4096 then 0 else m i := by
  unfold clearLayer scrCells
  generalize 4096 = n
  induction n with
  | zero => simp
  | succ n ih =>
    rw [List.range_succ, List.foldl_append, List.foldl_cons, List.foldl_nil]
    by_cases h : i = n
    · rw [h, upd_same, if_pos (by omega)]
    · rw [upd_other _ _ h, ih]
      by_cases h2 : i < n
      · rw [if_pos h2, if_pos (by omega)]
      · rw [if_neg h2, if_neg (by omega)]

end Sbc.Bg
