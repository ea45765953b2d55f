import Verif.Model.Arith
/-!
# C07, C08, C09, C51: numeric operators and integer functions
-/
namespace Sbc.Arith
open Sbc

/-! ## Specification (independent of the model) -/

/-- `z` is the exact real number `n/d` (`d > 0`) rounded toward minus infinity. -/
def IsFloorOf (z n d : Int) : Prop := d * z ≤ n ∧ n < d * (z + 1)

/-- `z` is the real number `n/d` (`d ≠ 0`) rounded toward zero: the residue `n - z*d` is smaller in
magnitude than `d` and has the sign of `n` (or is zero). -/
def IsTruncOf (z n d : Int) : Prop :=
  (n - z * d).natAbs < d.natAbs ∧ (0 ≤ n → 0 ≤ n - z * d) ∧ (n ≤ 0 → n - z * d ≤ 0)

/-! ## C07: exact or Overflow -/

theorem C07_add (x y z : Int) : opAdd x y = .ok z ↔ I32 z ∧ z = x + y := by
  unfold opAdd checked I32; split <;> simp <;> omega

theorem C07_add_overflow (x y : Int) : opAdd x y = .err .overflow ↔ ¬ I32 (x + y) := by
  unfold opAdd checked I32; split <;> simp <;> omega

theorem C07_sub (x y z : Int) : opSub x y = .ok z ↔ I32 z ∧ z = x - y := by
  unfold opSub checked I32; split <;> simp <;> omega

theorem C07_sub_overflow (x y : Int) : opSub x y = .err .overflow ↔ ¬ I32 (x - y) := by
  unfold opSub checked I32; split <;> simp <;> omega

theorem C07_mult (x y z : Int) : opMult x y = .ok z ↔ I32 z ∧ IsFloorOf z (x * y) 4096 := by
  unfold opMult checked I32 IsFloorOf; split <;> simp <;> omega

theorem C07_mult_overflow (x y : Int) :
    opMult x y = .err .overflow ↔ ∃ z, IsFloorOf z (x * y) 4096 ∧ ¬ I32 z := by
  unfold opMult checked I32 IsFloorOf
  constructor
  · intro h
    refine ⟨(x * y) / 4096, ?_, ?_⟩
    · omega
    · split at h
      · omega
      · cases h
  · rintro ⟨z, h1, h2⟩
    have : z = (x * y) / 4096 := by omega
    subst this
    rw [if_pos (by omega)]

theorem isTruncOf_iff (z n d : Int) (hd : d ≠ 0) : IsTruncOf z n d ↔ z = n.tdiv d := by
  have key : IsTruncOf (n.tdiv d) n d := by
    have h1 := Int.mul_tdiv_add_tmod n d
    have h2 := Int.mul_comm d (n.tdiv d)
    have h3 : n - n.tdiv d * d = n.tmod d := by omega
    refine ⟨?_, ?_, ?_⟩
    · rw [h3, Int.natAbs_tmod]; exact Nat.mod_lt _ (by omega)
    · intro h; rw [h3]; exact Int.tmod_nonneg _ h
    · intro h; rw [h3]
      have h4 := Int.tmod_nonneg (a := -n) d (by omega)
      rw [Int.neg_tmod] at h4; omega
  constructor
  · rintro ⟨a1, a2, a3⟩
    obtain ⟨b1, b2, b3⟩ := key
    have e : (n - z * d) - (n - n.tdiv d * d) = (n.tdiv d - z) * d := by
      rw [Int.sub_mul]; omega
    have lt : ((n.tdiv d - z) * d).natAbs < d.natAbs := by
      rw [← e]; rcases Int.le_total 0 n with h | h
      · have := a2 h; have := b2 h; omega
      · have := a3 h; have := b3 h; omega
    rw [Int.natAbs_mul] at lt
    have : (n.tdiv d - z).natAbs = 0 := by
      rcases Nat.eq_zero_or_pos (n.tdiv d - z).natAbs with h | h
      · exact h
      · exfalso
        have := Nat.le_mul_of_pos_left d.natAbs h
        omega
    omega
  · rintro rfl; exact key

theorem C07_div (x y z : Int) (hy : y ≠ 0) :
    opDiv x y = .ok z ↔ I32 z ∧ IsTruncOf z (x * 4096) y := by
  rw [isTruncOf_iff _ _ _ hy]
  unfold opDiv checked I32; rw [if_neg hy]; split <;> simp <;> omega

theorem C07_div_overflow (x y : Int) (hy : y ≠ 0) :
    opDiv x y = .err .overflow ↔ ∃ z, IsTruncOf z (x * 4096) y ∧ ¬ I32 z := by
  constructor
  · intro h
    refine ⟨(x * 4096).tdiv y, (isTruncOf_iff _ _ _ hy).2 rfl, ?_⟩
    unfold opDiv checked at h; rw [if_neg hy] at h
    unfold I32; split at h
    · omega
    · cases h
  · rintro ⟨z, h1, h2⟩
    rw [isTruncOf_iff _ _ _ hy] at h1
    subst h1
    unfold opDiv checked; rw [if_neg hy, if_pos]
    unfold I32 at h2; omega

theorem mul_i32_bounds {x y : Int} (hx : I32 x) (hy : I32 y) :
    -4611686018427387904 ≤ x * y ∧ x * y ≤ 4611686018427387904 := by
  have h : (x * y).natAbs ≤ 2147483648 * 2147483648 := by
    rw [Int.natAbs_mul]
    apply Nat.mul_le_mul <;> (unfold I32 at hx hy; omega)
  omega

theorem C07_no_intermediate_overflow (x y : Int) (hx : I32 x) (hy : I32 y) :
    (-9223372036854775808 ≤ x * y ∧ x * y ≤ 9223372036854775807) ∧
    (-9223372036854775808 ≤ x * 4096 ∧ x * 4096 ≤ 9223372036854775807) ∧
    (-9223372036854775808 ≤ x + y ∧ x + y ≤ 9223372036854775807) ∧
    (-9223372036854775808 ≤ x - y ∧ x - y ≤ 9223372036854775807) := by
  have := mul_i32_bounds hx hy
  unfold I32 at *; omega

/-- Every operator result is one of the two documented outcomes, never undefined. -/
theorem C07_total (x y : Int) :
    opAdd x y ≠ .ub ∧ opSub x y ≠ .ub ∧ opMult x y ≠ .ub ∧ opDiv x y ≠ .ub := by
  unfold opAdd opSub opMult opDiv checked
  refine ⟨?_, ?_, ?_, ?_⟩ <;> repeat' split <;> simp

example : opMult (-6144) 2048 = .ok (-3072) := by decide           -- -1.5 * 0.5 = -0.75
example : opMult (-1) 1 = .ok (-1) := by decide                     -- rounds down
example : opDiv (-4096) 12288 = .ok (-1365) := by decide            -- -1/3, toward zero
example : opMult 2147483647 8192 = .err .overflow := by decide
example : opDiv 4096 1 = .ok 16777216 ∧ opDiv 2147483647 1 = .err .overflow := by decide

/-! ## C08: division by zero, remainder -/

theorem C08_div_zero (x y : Int) : opDiv x y = .err .divideByZero ↔ y = 0 := by
  unfold opDiv checked; repeat' split
  all_goals simp_all

theorem C08_mod_zero (x y : Int) : opModulo x y = .err .divideByZero ↔ y = 0 := by
  unfold opModulo; repeat' split
  all_goals simp_all

/-- The remainder law, for every pair except `INT_MIN % -1` (undefined in C; see
`C08_modulo_violated`). -/
theorem C08_modulo_partial (x y : Int) (_hx : I32 x) (hy : I32 y) (h0 : y ≠ 0)
    (hne : ¬ (x = -2147483648 ∧ y = -1)) :
    ∃ r, opModulo x y = .ok r ∧ I32 r ∧ (∃ q, x = q * y + r) ∧ r.natAbs < y.natAbs ∧
      (0 ≤ x → 0 ≤ r) ∧ (x ≤ 0 → r ≤ 0) := by
  refine ⟨x.tmod y, ?_, ?_, ⟨x.tdiv y, ?_⟩, ?_, ?_, ?_⟩
  · unfold opModulo; rw [if_neg h0, if_neg hne]
  · have h1 : (x.tmod y).natAbs ≤ x.natAbs := by rw [Int.natAbs_tmod]; exact Nat.mod_le _ _
    have h2 : (x.tmod y).natAbs < y.natAbs := by
      rw [Int.natAbs_tmod]; exact Nat.mod_lt _ (by omega)
    unfold I32 at *; omega
  · have := Int.mul_tdiv_add_tmod x y
    rw [Int.mul_comm] at this; omega
  · rw [Int.natAbs_tmod]; exact Nat.mod_lt _ (by omega)
  · intro h; exact Int.tmod_nonneg _ h
  · intro h
    have h4 := Int.tmod_nonneg (a := -x) y (by omega)
    rw [Int.neg_tmod] at h4; omega

/-- Defect: one pair of operands reaches undefined behaviour (SIGFPE on x86). -/
theorem C08_modulo_violated : opModulo (-2147483648) (-1) = .ub := by decide

/-- `-x` is exact except for the most negative number, which is undefined behaviour. -/
theorem C08_negate (x : Int) (_hx : I32 x) :
    (opNegate x = .ok (-x) ∧ I32 (-x)) ∨ (x = -2147483648 ∧ opNegate x = .ub) := by
  unfold opNegate I32 at *; split
  · right; simp_all
  · left; exact ⟨rfl, by omega⟩

example : opModulo (-12288) 8192 = .ok (-4096) := by decide   -- -3 % 2 = -1

/-! ## C09: bitwise operators and comparisons -/

/-- Bit `i` of the (infinite) two's complement representation of an integer. -/
def ibit (x : Int) (i : Nat) : Bool := (x / 2 ^ i) % 2 == 1

theorem floor_bounds {x : Int} (hx : I32 x) : -524288 ≤ fpToInt x ∧ fpToInt x ≤ 524287 := by
  unfold I32 at hx; unfold fpToInt; omega

theorem bits20 {v : Int} (h : -524288 ≤ v ∧ v ≤ 524287) :
    bits v = (BitVec.ofInt 20 v).signExtend 32 := by
  apply BitVec.eq_of_toInt_eq
  rw [BitVec.toInt_signExtend_of_le (by omega)]
  unfold bits
  rw [BitVec.toInt_ofInt, BitVec.toInt_ofInt]
  rw [Int.bmod_eq_of_le, Int.bmod_eq_of_le] <;> simp <;> omega

theorem toInt20 (b : BitVec 20) : -524288 ≤ b.toInt ∧ b.toInt ≤ 524287 := by
  have h1 := BitVec.le_toInt b
  have h2 := BitVec.toInt_lt (x := b)
  simp at h1 h2; omega

theorem ibit_bits (x : Int) (i : Nat) (hi : i < 32) : ibit x i = (bits x).getLsbD i := by
  unfold ibit bits BitVec.getLsbD
  rw [BitVec.toNat_ofInt, Nat.testBit_eq_decide_div_mod_eq]
  have e : ((x % (2 ^ 32 : Nat)).toNat : Int) = x % (2 ^ 32 : Nat) := by
    apply Int.toNat_of_nonneg; omega
  have key : (((x % (2 ^ 32 : Nat)).toNat / 2 ^ i % 2 : Nat) : Int) = x / 2 ^ i % 2 := by
    rw [Int.natCast_emod, Int.natCast_ediv, e, Int.natCast_pow 2 i]
    show x % ((2 ^ 32 : Nat) : Int) / 2 ^ i % 2 = x / 2 ^ i % 2
    obtain ⟨k, hk⟩ : ∃ k, 32 = i + 1 + k := ⟨31 - i, by omega⟩
    have h32 : ((2 ^ 32 : Nat) : Int) = 2 ^ i * (2 * 2 ^ k) := by
      rw [Int.natCast_pow, hk, Int.pow_add, Int.pow_succ, Int.mul_assoc]; rfl
    rw [h32]
    have hpos : (0 : Int) < 2 ^ i := Int.pow_pos (by omega)
    have h1 := Int.mul_ediv_add_emod x (2 ^ i * (2 * 2 ^ k))
    have h2 : x % (2 ^ i * (2 * 2 ^ k)) =
        x + 2 ^ i * (-(2 * (2 ^ k * (x / (2 ^ i * (2 * 2 ^ k)))))) := by
      have : (2:Int) ^ i * (2 * 2 ^ k) * (x / (2 ^ i * (2 * 2 ^ k)))
          = 2 ^ i * (2 * (2 ^ k * (x / (2 ^ i * (2 * 2 ^ k))))) := by
        simp [Int.mul_assoc]
      rw [Int.mul_neg, ← this]; omega
    rw [h2, Int.add_mul_ediv_left _ _ (by omega)]
    omega
  generalize (x % (2 ^ 32 : Nat)).toNat / 2 ^ i % 2 = a at *
  generalize x / 2 ^ i % 2 = b at *
  subst key
  by_cases h : a = 1
  · simp [h]
  · have : ¬ (a : Int) = 1 := by omega
    simp [h, this]

/-- AND works bit by bit on the integer parts and gives an integer in range. -/
theorem C09_and (x y : Int) (hx : I32 x) (hy : I32 y) :
    ∃ r, opAnd x y = .ok (r * 4096) ∧ (-524288 ≤ r ∧ r ≤ 524287) ∧
      ∀ i < 32, ibit r i = (ibit (x / 4096) i && ibit (y / 4096) i) := by
  have bx := floor_bounds hx; have by' := floor_bounds hy
  have hr : (-524288 ≤ (bits (fpToInt x) &&& bits (fpToInt y)).toInt ∧
      (bits (fpToInt x) &&& bits (fpToInt y)).toInt ≤ 524287) := by
    rw [bits20 bx, bits20 by', ← BitVec.signExtend_and, BitVec.toInt_signExtend_of_le (by omega)]
    exact toInt20 _
  refine ⟨_, ?_, hr, ?_⟩
  · unfold opAnd; rw [intToFp_small hr]
  · intro i hi
    rw [ibit_bits _ _ hi, ibit_bits _ _ hi, ibit_bits _ _ hi, ← BitVec.getLsbD_and]
    unfold fpToInt bits; rw [BitVec.ofInt_toInt]

/-- OR, bit by bit. -/
theorem C09_or (x y : Int) (hx : I32 x) (hy : I32 y) :
    ∃ r, opOr x y = .ok (r * 4096) ∧ (-524288 ≤ r ∧ r ≤ 524287) ∧
      ∀ i < 32, ibit r i = (ibit (x / 4096) i || ibit (y / 4096) i) := by
  have bx := floor_bounds hx; have by' := floor_bounds hy
  have hr : (-524288 ≤ (bits (fpToInt x) ||| bits (fpToInt y)).toInt ∧
      (bits (fpToInt x) ||| bits (fpToInt y)).toInt ≤ 524287) := by
    rw [bits20 bx, bits20 by', ← BitVec.signExtend_or, BitVec.toInt_signExtend_of_le (by omega)]
    exact toInt20 _
  refine ⟨_, ?_, hr, ?_⟩
  · unfold opOr; rw [intToFp_small hr]
  · intro i hi
    rw [ibit_bits _ _ hi, ibit_bits _ _ hi, ibit_bits _ _ hi, ← BitVec.getLsbD_or]
    unfold fpToInt bits; rw [BitVec.ofInt_toInt]

/-- XOR, bit by bit. -/
theorem C09_xor (x y : Int) (hx : I32 x) (hy : I32 y) :
    ∃ r, opXor x y = .ok (r * 4096) ∧ (-524288 ≤ r ∧ r ≤ 524287) ∧
      ∀ i < 32, ibit r i = (ibit (x / 4096) i ^^ ibit (y / 4096) i) := by
  have bx := floor_bounds hx; have by' := floor_bounds hy
  have hr : (-524288 ≤ (bits (fpToInt x) ^^^ bits (fpToInt y)).toInt ∧
      (bits (fpToInt x) ^^^ bits (fpToInt y)).toInt ≤ 524287) := by
    rw [bits20 bx, bits20 by', ← BitVec.signExtend_xor, BitVec.toInt_signExtend_of_le (by omega)]
    exact toInt20 _
  refine ⟨_, ?_, hr, ?_⟩
  · unfold opXor; rw [intToFp_small hr]
  · intro i hi
    rw [ibit_bits _ _ hi, ibit_bits _ _ hi, ibit_bits _ _ hi, ← BitVec.getLsbD_xor]
    unfold fpToInt bits; rw [BitVec.ofInt_toInt]

/-- NOT: the bitwise complement of the integer part, `-floor(x) - 1`. -/
theorem C09_not (x : Int) (hx : I32 x) : opNot x = .ok ((-(x / 4096) - 1) * 4096) := by
  have bx := floor_bounds hx
  have e : (~~~ bits (fpToInt x)).toInt = -(x / 4096) - 1 := by
    rw [BitVec.toInt_not]
    unfold bits; rw [BitVec.toNat_ofInt]
    unfold fpToInt at *
    simp only [Int.bmod]
    omega
  unfold opNot
  rw [e, intToFp_small (by unfold fpToInt at bx; omega)]

/-- NOT, bit by bit. -/
theorem C09_not_bits (x : Int) (hx : I32 x) :
    ∃ r, opNot x = .ok (r * 4096) ∧ (-524288 ≤ r ∧ r ≤ 524287) ∧
      ∀ i < 32, ibit r i = !ibit (x / 4096) i := by
  have bx := floor_bounds hx; unfold fpToInt at bx
  refine ⟨_, C09_not x hx, by omega, ?_⟩
  intro i hi
  have hc : bits (-(x / 4096) - 1) = ~~~ bits (x / 4096) := by
    apply BitVec.eq_of_toInt_eq
    rw [BitVec.toInt_not]
    unfold bits; rw [BitVec.toNat_ofInt, BitVec.toInt_ofInt]
    simp only [Int.bmod]; omega
  rw [ibit_bits _ _ hi, ibit_bits _ _ hi, hc, BitVec.getLsbD_not]
  simp [hi]

/-- Comparisons give `1` (4096) or `0` according to the numeric order; `!x` is `1` exactly for `0`. -/
theorem C09_compare (x y : Int) :
    opEqual x y = .ok (if x = y then 4096 else 0) ∧
    opInequal x y = .ok (if x = y then 0 else 4096) ∧
    opLess x y = .ok (if x < y then 4096 else 0) ∧
    opGreater x y = .ok (if y < x then 4096 else 0) ∧
    opLessEqual x y = .ok (if x ≤ y then 4096 else 0) ∧
    opGreaterEqual x y = .ok (if y ≤ x then 4096 else 0) ∧
    opLogicalNot x = .ok (if x = 0 then 4096 else 0) := by
  have h1 : intToFp 1 = 4096 := by decide
  have h0 : intToFp 0 = 0 := by decide
  unfold opEqual opInequal opLess opGreater opLessEqual opGreaterEqual opLogicalNot truth
  refine ⟨?_, ?_, ?_, ?_, ?_, ?_, ?_⟩ <;> (by_cases h : x = y <;> simp [h, h0, h1]) <;>
    split <;> simp_all

example : opAnd 28672 14336 = .ok 12288 ∧ opXor (-4096) 20480 = .ok (-24576) ∧
    opNot 2048 = .ok (-4096) := by decide
example : I32 28672 ∧ I32 14336 := by decide

/-! ## C51: integer mathematics functions -/

/-- RND(n) is an integer with `0 ≤ r < n` for positive `n`, `n < r ≤ 0` for negative `n`, and `0` for
`n = 0`, whatever non-negative value the C generator returns. -/
theorem C51_rnd (r0 a : Int) (h0 : 0 ≤ r0) (ha : I32 a) :
    ∃ r, fnRnd r0 a = .ok (r * 4096) ∧ (0 < a / 4096 → 0 ≤ r ∧ r < a / 4096) ∧
      (a / 4096 < 0 → a / 4096 < r ∧ r ≤ 0) ∧ (a / 4096 = 0 → r = 0) := by
  have ba := floor_bounds ha
  unfold fnRnd
  have aux : ∀ m : Int, 0 < m → 0 ≤ r0.tmod m ∧ r0.tmod m < m := fun m hm =>
    ⟨Int.tmod_nonneg _ h0, Int.tmod_lt_of_pos _ hm⟩
  simp only []
  rcases Int.lt_trichotomy (fpToInt a) 0 with h | h | h
  · have := aux (-(fpToInt a)) (by omega)
    rw [if_neg (by omega : ¬ fpToInt a = 0), if_pos h, intToFp_small (by omega)]
    exact ⟨_, rfl, by unfold fpToInt at *; omega, by unfold fpToInt at *; omega,
      by unfold fpToInt at *; omega⟩
  · have := aux 1 (by omega)
    rw [if_pos h, if_neg (by omega), intToFp_small (by omega)]
    exact ⟨_, rfl, by unfold fpToInt at *; omega, by unfold fpToInt at *; omega,
      by unfold fpToInt at *; omega⟩
  · have := aux (fpToInt a) (by omega)
    rw [if_neg (by omega : ¬ fpToInt a = 0), if_neg (by omega), intToFp_small (by omega)]
    exact ⟨_, rfl, by unfold fpToInt at *; omega, by unfold fpToInt at *; omega,
      by unfold fpToInt at *; omega⟩

/-- FLOOR(x) is the greatest integer not above `x`. -/
theorem C51_floor (a : Int) (ha : I32 a) :
    ∃ r, fnFloor a = .ok (r * 4096) ∧ r * 4096 ≤ a ∧ a < (r + 1) * 4096 := by
  have ba := floor_bounds ha
  refine ⟨fpToInt a, ?_, ?_⟩
  · unfold fnFloor; rw [intToFp_small ba]
  · unfold fpToInt; omega

/-- ABS is the absolute value, except that the most negative number is returned unchanged. -/
theorem C51_abs (a : Int) (_ha : I32 a) :
    fnAbs a = .ok (if a = -2147483648 then a else (a.natAbs : Int)) := by
  unfold fnAbs; repeat' split
  all_goals (congr 1; try omega)

/-- SGN and ABS decompose the number: `SGN(x) * ABS(x) = x`. -/
theorem C51_sgn_abs (a s b : Int) (ha : I32 a) (hs : fnSgn a = .ok s)
    (hb : fnAbs a = .ok b) (h : a ≠ -2147483648) : opMult s b = .ok a ∧ 0 ≤ b ∧ s ≤ 4096 ∧ -4096 ≤ s := by
  unfold fnSgn at hs; unfold fnAbs at hb; rw [if_neg h] at hb
  injection hs with hs; injection hb with hb
  subst hs hb
  rw [C07_mult]; unfold IsFloorOf
  refine ⟨⟨ha, ?_⟩, ?_⟩ <;> repeat' split
  all_goals omega

/-- RAD converts degrees to radians with factor 12867/(180*4096), truncating, and never overflows. -/
theorem C51_rad (d : Int) (hd : I32 d) :
    ∃ r, fnRad d = .ok r ∧ IsTruncOf r (d * 12867) (180 * 4096) := by
  refine ⟨(d * 12867).tdiv (180 * 4096), ?_, (isTruncOf_iff _ _ _ (by decide)).2 rfl⟩
  unfold fnRad fixpPi
  rw [wrap32_of_i32]
  have h : ((d * 12867).tdiv (180 * 4096)).natAbs ≤ 2147483648 * 12867 / 737280 := by
    rw [Int.natAbs_tdiv, Int.natAbs_mul]
    apply Nat.div_le_div_right
    apply Nat.mul_le_mul_right
    unfold I32 at hd; omega
  unfold I32; omega

/-- DEG is exact (truncating) as long as the result fits in a number. -/
theorem C51_deg_partial (r : Int) (h : (r * (180 * 4096)).natAbs < 12867 * 2147483647) :
    ∃ d, fnDeg r = .ok d ∧ IsTruncOf d (r * (180 * 4096)) 12867 := by
  refine ⟨(r * (180 * 4096)).tdiv 12867, ?_, (isTruncOf_iff _ _ _ (by decide)).2 rfl⟩
  unfold fnDeg fixpPi
  rw [wrap32_of_i32]
  have h2 : ((r * (180 * 4096)).tdiv 12867).natAbs ≤ 2147483646 := by
    rw [Int.natAbs_tdiv]
    show (r * (180 * 4096)).natAbs / 12867 ≤ 2147483646
    omega
  unfold I32; omega

/-- Defect: unlike the arithmetic operators, DEG of a large number silently wraps around instead of
reporting Overflow: DEG(9152.83...) is negative. -/
theorem C51_deg_violated : ∃ r d, I32 r ∧ 0 < r ∧ fnDeg r = .ok d ∧ d < 0 :=
  ⟨37490000, -2146787674, by decide, by decide, by decide, by decide⟩

example : fnRnd 12345 (-40960) = .ok (-20480) ∧ fnFloor (-1) = .ok (-4096) := by decide

end Sbc.Arith
