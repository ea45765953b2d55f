import Verif.Proof.Num
set_option autoImplicit false
/-!
# C10–C13: STR$, VAL, HEX$
-/
namespace Sbc.Num
open Sbc Sbc.Strs Sbc.Num.Spec Sbc.Strs.Spec

/-- The canonical text of a number: sign, integer digits, optional decimals. -/
def Spec.numeral (neg : Bool) (ds fs : List Nat) : List Nat :=
  (if neg then [45] else []) ++ ds ++ (if fs = [] then [] else 46 :: fs)

/-- **C10 (partial).** For every number except `INT_MIN` and those whose fraction is 4094/4096 or
4095/4096, `STR$` is a canonical numeral with the exact integer part and whose decimals differ from the
fraction by at most 2096/4096000 (0.000512), i.e. it is rounded to the printed three decimals (with the
implementation's rounding offset).  Missing: the excluded numbers, for which it is false. -/
theorem C10_str_partial (n : Int) (hn : I32 n) (hmin : n ≠ -2147483648) (hfrac : n.natAbs % 4096 < 4094) :
    ∃ ds fs, funcStr n = .ok ⟨false, Spec.numeral (n < 0) ds fs⟩ ∧ Canonical ds fs ∧
      decVal ds = n.natAbs / 4096 ∧
      4096 * thousandths fs ≤ 1000 * (n.natAbs % 4096) + 2096 ∧
      1000 * (n.natAbs % 4096) ≤ 4096 * thousandths fs + 2096 := by
  have hint : n.natAbs / 4096 < 10 ^ 6 := by unfold I32 at hn; omega
  have hdec : (n.natAbs % 4096 + 2) * 1000 / 4096 < 10 ^ 3 := by omega
  obtain ⟨d1, d2, d3, d4, d5⟩ := decDigits_spec 3 _ hdec
  have hpow6 : [100000, 10000, 1000, 100, 10, 1] = pows 6 := by decide
  have hpow3 : [100, 10, 1] = pows 3 := by decide
  have hthou : thousandths (decDigits (pows 3) ((n.natAbs % 4096 + 2) * 1000 / 4096)) = (n.natAbs % 4096 + 2) * 1000 / 4096 := d3
  refine ⟨if n.natAbs / 4096 ≠ 0 then intDigits (pows 6) (n.natAbs / 4096) false else [48],
    decDigits (pows 3) ((n.natAbs % 4096 + 2) * 1000 / 4096), ?_, ?_, ?_, ?_, ?_⟩
  · unfold funcStr fixpToChar
    rw [if_neg hmin]
    simp only [Out.bind, hpow6, hpow3]
    unfold Spec.numeral
    congr 2
    congr 1
    · by_cases hneg : n < 0 <;> simp [hneg, show (100000 :: 10000 :: 1000 :: pows 3) = pows 6 from by decide]
    · by_cases hz : (n.natAbs % 4096 + 2) * 1000 / 4096 = 0
      · rw [hz]; simp [pows, decDigits]
      · rw [if_pos hz, if_neg (d5 hz)]
  · by_cases hz : n.natAbs / 4096 = 0
    · rw [if_neg (by simp [hz])]
      exact ⟨by
        intro c hc
        rcases List.mem_append.mp hc with h | h
        · simp only [List.mem_singleton] at h; rw [h]; rfl
        · exact d1 c h, by simp, by simp, d2, d4⟩
    · rw [if_pos hz]
      obtain ⟨i1, i2, i3, i4⟩ := intDigits_false 6 _ hint (by omega)
      exact ⟨by
        intro c hc
        rcases List.mem_append.mp hc with h | h
        · exact i1 c h
        · exact d1 c h, i2, fun h => absurd h i3, d2, d4⟩
  · by_cases hz : n.natAbs / 4096 = 0
    · rw [if_neg (by simp [hz]), hz]; rfl
    · rw [if_pos hz]
      exact (intDigits_false 6 _ hint (by omega)).2.2.2
  · rw [hthou]; omega
  · rw [hthou]; omega

/-- **C10 (refuted cases).** `STR$(0.9995…)` (raw value 4094 or 4095) is `"0.:"`; `STR$` of the smallest
number negates `INT_MIN`. -/
theorem C10_str_violated :
    funcStr 4095 = .ok ⟨false, [48, 46, 58]⟩ ∧ funcStr 4094 = .ok ⟨false, [48, 46, 58]⟩ ∧
    funcStr (-2147483648) = .ub := by
  refine ⟨?_, ?_, by decide⟩ <;>
    simp +decide [funcStr, fixpToChar, decDigits, subLoop_eq, Out.bind]

/-- **C11 (partial).** `VAL` of every non-empty string not starting with `&` whose leading decimal numeral
has an integer part below 524288 and at most six decimals is that numeral's value truncated to 1/4096;
whatever follows the numeral is ignored.  Missing: more than six decimals, the empty string, `"&"`. -/
theorem C11_val_partial (j0 j1 : Nat) (s : Str) (h : ∀ c ∈ chars s, c < 256) (hne : chars s ≠ [])
    (h0 : (chars s).head? ≠ some 38) (hb : decVal (ints (chars s)) < 524288) (hl : (fracs (chars s)).length ≤ 6) :
    funcVal j0 j1 s = .ok (value (chars s)) := by
  have hd := decVal_lt _ (fracs_digits (chars s))
  have : 10 ^ (fracs (chars s)).length ≤ 10 ^ 6 := Nat.pow_le_pow_right (by decide) hl
  apply funcVal_decimal j0 j1 s h _ hb (by omega) (by omega)
  cases hc : chars s with
  | nil => exact absurd hc hne
  | cons a l => rw [hc] at h0; simpa using h0

theorem pow10_mod : ∀ k : Fin 32, 10 ^ k.1 % 4294967296 ≠ 0 := by decide +kernel

/-- Denominator accumulated by the fraction loop, whatever the numerator. -/
theorem fracLoop_max (cs : List Nat) (h : ∀ c ∈ cs, c < 256) (f m : Nat) (hm : m < 4294967296) :
    (fracLoop 10 (cs.map toWide) f m).2 = m * 10 ^ (cs.takeWhile isDigit).length % 4294967296 := by
  induction cs generalizing f m with
  | nil => simp [fracLoop, Nat.mod_eq_of_lt hm]
  | cons c cs ih =>
    rw [List.map_cons, fracLoop, digitIn10 (h c (by simp))]
    by_cases hd : isDigit c = true
    · rw [if_pos hd]
      simp only []
      rw [ih (fun x hx => h x (by simp [hx])) _ _ (Nat.mod_lt _ (by decide)), List.takeWhile_cons_of_pos hd,
        List.length_cons, Nat.mod_mul_mod, Nat.pow_succ, Nat.mul_assoc, Nat.mul_comm 10]
    · rw [if_neg hd, List.takeWhile_cons_of_neg hd]
      simp [Nat.mod_eq_of_lt hm]

/-- Denominator after the whole parse: the early exits leave it at 1. -/
theorem intLoop_max (cs : List Nat) (h : ∀ c ∈ cs, c < 256) (first neg : Bool) (n : Nat)
    (hl : ∀ pre r, cs = pre ++ 46 :: r → (r.takeWhile isDigit).length ≤ 31) :
    (intLoop 10 true (cs.map toWide) first neg n).maximum ≠ 0 := by
  induction cs generalizing first neg n with
  | nil => simp [intLoop]
  | cons c cs ih =>
    have ih' : ∀ (first neg : Bool) (n : Nat), (intLoop 10 true (cs.map toWide) first neg n).maximum ≠ 0 := fun first neg n =>
      ih (fun x hx => h x (by simp [hx])) first neg n
        (fun pre r he => hl (c :: pre) r (by rw [he]; rfl))
    rw [List.map_cons, intLoop]
    split
    · simp only []
      split
      · simp
      · exact ih' _ _ _
    · split
      · rename_i hdot
        have hc : c = 46 := toWide_inj (h c (by simp)) (by decide) hdot.1
        subst hc
        simp only []
        rw [fracLoop_max cs (fun x hx => h x (by simp [hx])) 0 1 (by decide), Nat.one_mul]
        have := hl [] cs rfl
        exact pow10_mod ⟨(cs.takeWhile isDigit).length, by omega⟩
      · split
        · split
          · simp
          · exact ih' _ _ _
        · simp

/-- **C11 (partial).** `VAL` of every string of at least two characters that has no run of more than 31
digits after a period gives a number or reports an error, and never crashes. -/
theorem C11_total_partial (j0 j1 : Nat) (s : Str) (h : ∀ c ∈ chars s, c < 256) (h2 : 2 ≤ (chars s).length)
    (hl : ∀ pre r, chars s = pre ++ 46 :: r → (r.takeWhile isDigit).length ≤ 31) :
    funcVal j0 j1 s ≠ .ub := by
  unfold funcVal
  have hc : copyBuf s.wide false s.data = chars s := by unfold copyBuf chars; cases s.wide <;> rfl
  simp only [hc]
  split
  · split
    · rw [if_neg (by omega)]
      have : ∀ (cs : List Nat) (base : Nat) (first neg : Bool) (n : Nat), (intLoop base false cs first neg n).maximum = 1 := by
        intro cs base
        induction cs with
        | nil => intros; rfl
        | cons c cs ih =>
          intro first neg n
          rw [intLoop]
          split
          · simp only []
            split
            · rfl
            · exact ih _ _ _
          · simp only [Bool.false_eq_true, and_false, if_false]
            split
            · split
              · rfl
              · exact ih _ _ _
            · rfl
      unfold strToNumber
      simp only [this]
      rw [if_neg (by decide)]
      split <;> (generalize intLoop _ _ _ _ _ _ = r; cases r.neg <;> simp [Out.bind])
    · simp
  · unfold strToNumber
    simp only []
    rw [if_neg (intLoop_max _ h _ _ _ hl)]
    generalize intLoop _ _ _ _ _ _ = r
    cases r.neg <;> simp [Out.bind]

/-- **C11 (refuted cases).** `VAL("0.1048576")` is 0; 32 decimals divide by zero; `VAL("")` reads
uninitialised memory and can report a syntax error. -/
theorem C11_val_violated :
    funcVal 0 0 ⟨false, [48, 46, 49, 48, 52, 56, 53, 55, 54]⟩ = .ok 0 ∧
    funcVal 0 0 ⟨false, [48, 46] ++ List.replicate 32 48⟩ = .ub ∧
    funcVal 38 0 ⟨false, []⟩ = .err .syntax := by decide +kernel

example : funcVal 0 0 ⟨false, [45, 49, 50, 46, 53, 120]⟩ = .ok (-(12 * 4096 + 2048)) ∧
    value [45, 49, 50, 46, 53, 120] = -(12 * 4096 + 2048) := by decide +kernel

theorem takeWhile_append_stop {p : Nat → Bool} {l r : List Nat} (h : ∀ c ∈ l, p c = true)
    (hr : ∀ c, r.head? = some c → p c = false) : (l ++ r).takeWhile p = l ∧ (l ++ r).dropWhile p = r := by
  induction l with
  | nil =>
    cases r with
    | nil => simp
    | cons c r =>
      have := hr c rfl
      simp [List.takeWhile_cons, List.dropWhile_cons, this]
  | cons c l ih =>
    have hc := h c (by simp)
    have := ih (fun x hx => h x (by simp [hx]))
    simp [List.takeWhile_cons, List.dropWhile_cons, hc, this.1, this.2]

/-- Reading a canonical numeral back. -/
theorem parse_numeral (neg : Bool) (ds fs : List Nat) (hc : Canonical ds fs) :
    isNeg (Spec.numeral neg ds fs) = neg ∧ ints (Spec.numeral neg ds fs) = ds ∧ fracs (Spec.numeral neg ds fs) = fs := by
  obtain ⟨d1, d2, -, -, -⟩ := hc
  have hds : ∀ c ∈ ds, isDigit c = true := fun c h => d1 c (by simp [h])
  have hfs : ∀ c ∈ fs, isDigit c = true := fun c h => d1 c (by simp [h])
  have hn : isNeg (Spec.numeral neg ds fs) = neg := by
    unfold isNeg Spec.numeral
    cases neg with
    | true => simp
    | false =>
      cases hd : ds with
      | nil => exact absurd hd d2
      | cons c l =>
        have := isDigit_lt (hds c (by rw [hd]; simp))
        simp; omega
  have hb : body (Spec.numeral neg ds fs) = ds ++ (if fs = [] then [] else 46 :: fs) := by
    unfold body; rw [hn]
    unfold Spec.numeral
    cases neg <;> simp
  have ht := takeWhile_append_stop (p := isDigit) (l := ds) (r := if fs = [] then [] else 46 :: fs) hds (by
    intro c hc
    split at hc
    · simp at hc
    · simp at hc; subst hc; rfl)
  refine ⟨hn, ?_, ?_⟩
  · unfold ints; rw [hb, ht.1]
  · unfold fracs; rw [hb, ht.2]
    by_cases hf : fs = []
    · rw [if_pos hf, hf]
    · rw [if_neg hf]
      simp only []
      have := (takeWhile_append_stop (p := isDigit) (l := fs) (r := []) hfs (by simp)).1
      simpa using this

/-- **C12 (partial).** `VAL(STR$(x))` differs from `x` by less than one thousandth (at most 3/4096), and
equals `x` when `x` is an integer, for every number except the ones `STR$` misprints. -/
theorem C12_val_str_partial (j0 j1 : Nat) (n : Int) (hn : I32 n) (hmin : n ≠ -2147483648)
    (hfrac : n.natAbs % 4096 < 4094) :
    ∃ s v, funcStr n = .ok s ∧ funcVal j0 j1 s = .ok v ∧ -3 ≤ v - n ∧ v - n ≤ 3 ∧ (n % 4096 = 0 → v = n) := by
  obtain ⟨ds, fs, h1, h2, h3, h4, h5⟩ := C10_str_partial n hn hmin hfrac
  obtain ⟨p1, p2, p3⟩ := parse_numeral (n < 0) ds fs h2
  refine ⟨_, value (Spec.numeral (n < 0) ds fs), h1, ?_, ?_⟩
  · have hch : chars ⟨false, Spec.numeral (n < 0) ds fs⟩ = Spec.numeral (n < 0) ds fs := rfl
    have hdig : ∀ c ∈ ds ++ fs, c < 256 := fun c hc => by have := isDigit_lt (h2.digits c hc); omega
    have := C11_val_partial j0 j1 ⟨false, Spec.numeral (n < 0) ds fs⟩ (by
      rw [hch]
      intro c hc
      unfold Spec.numeral at hc
      rcases List.mem_append.mp hc with hc | hc
      · rcases List.mem_append.mp hc with hc | hc
        · split at hc
          · simp at hc; omega
          · simp at hc
        · exact hdig c (by simp [hc])
      · split at hc
        · simp at hc
        · rcases List.mem_cons.mp hc with hc | hc
          · omega
          · exact hdig c (by simp [hc])) (by
      rw [hch]; unfold Spec.numeral; have := h2.nonempty; simp [this]) (by
      rw [hch]
      intro hh
      unfold Spec.numeral at hh
      cases hd : ds with
      | nil => exact h2.nonempty hd
      | cons c l =>
        have hc := isDigit_lt (h2.digits c (by rw [hd]; simp))
        rw [hd] at hh
        by_cases hneg : n < 0
        · simp [hneg] at hh
        · simp [hneg] at hh; omega)
      (by rw [hch, p2, h3]; unfold I32 at hn; omega) (by rw [hch, p3]; have := h2.short; omega)
    rw [this, hch]
  · have hm : magnitude (Spec.numeral (n < 0) ds fs) = n.natAbs / 4096 * 4096 + thousandths fs * 4096 / 1000 := by
      unfold magnitude
      rw [p2, p3, h3]
      refine congrArg (fun x => n.natAbs / 4096 * 4096 + x) ?_
      unfold thousandths
      have hs := h2.short
      have hp : (10 : Nat) ^ (3 - fs.length) * 10 ^ fs.length = 1000 := by
        rw [← Nat.pow_add, Nat.sub_add_cancel hs]
      have hpos : 0 < 10 ^ (3 - fs.length) := Nat.pow_pos (by decide)
      rw [← hp, Nat.mul_comm (10 ^ (3 - fs.length)), Nat.mul_right_comm, Nat.mul_div_mul_right _ _ hpos]
    unfold value
    rw [p1, hm]
    by_cases hneg : n < 0
    · simp only [hneg, decide_true, if_true]
      refine ⟨by omega, by omega, fun hz => ?_⟩
      have : n.natAbs % 4096 = 0 := by omega
      omega
    · simp only [hneg, decide_false, Bool.false_eq_true, if_false]
      refine ⟨by omega, by omega, fun hz => ?_⟩
      have : n.natAbs % 4096 = 0 := by omega
      omega

/-- **C12 (refuted case).** `VAL(STR$(4095/4096))` is 0. -/
theorem C12_val_str_violated : ∃ s, funcStr 4095 = .ok s ∧ funcVal 0 0 s = .ok 0 :=
  ⟨_, C10_str_violated.1, by decide +kernel⟩

example : I32 (-5123456) ∧ (-5123456 : Int).natAbs % 4096 < 4094 := by decide

/-! ## HEX$ -/

/-- **C13.** `HEX$(n)` is the minimal upper-case hexadecimal numeral of the integer part of `n` modulo 2^20. -/
theorem C13_hex (n : Int) :
    ∃ l, funcHex n none = .ok ⟨false, l⟩ ∧ (∀ c ∈ l, isHexDigit c = true) ∧
      (hexVal l : Int) = n / 4096 % 1048576 ∧ (l.head? = some 48 → l = [48]) ∧ l ≠ [] ∧ l.length ≤ 5 := by
  have hlt : (n / 4096 % 1048576).toNat < 16 ^ (4 + 1) := by omega
  obtain ⟨a, b, c, d, e⟩ := hexMin_spec (n / 4096 % 1048576).toNat
  refine ⟨_, rfl, ?_, ?_, ?_, ?_, ?_⟩
  · simp only [hexPad, fpToInt, Nat.zero_sub, List.replicate_zero, List.nil_append]; exact b
  · simp only [hexPad, fpToInt, Nat.zero_sub, List.replicate_zero, List.nil_append]; rw [a]; omega
  · simp only [hexPad, fpToInt, Nat.zero_sub, List.replicate_zero, List.nil_append]
    intro h; rw [d h]; rw [hexMin]; rfl
  · simp only [hexPad, fpToInt, Nat.zero_sub, List.replicate_zero, List.nil_append]; exact c
  · simp only [hexPad, fpToInt, Nat.zero_sub, List.replicate_zero, List.nil_append]; exact e 4 hlt

/-- **C13.** `HEX$(n,d)` with `1 ≤ d ≤ 5` has exactly `d` digits, whose value is `n` modulo `16^d`, when `n`
is between `-16^d/2` and `16^d-1`; other values and other digit counts report an error. -/
theorem C13_hex_digits (n dF : Int) :
    (¬ (1 ≤ dF / 4096 ∧ dF / 4096 ≤ 5) → funcHex n (some dF) = .err .outOfRange) ∧
    (∀ d : Nat, dF / 4096 = d → 1 ≤ d → d ≤ 5 →
      (¬ (-(16 ^ d / 2 : Int) ≤ n / 4096 ∧ n / 4096 < 16 ^ d) → funcHex n (some dF) = .err .illegalFunctionCall) ∧
      (-(16 ^ d / 2 : Int) ≤ n / 4096 ∧ n / 4096 < 16 ^ d →
        ∃ l, funcHex n (some dF) = .ok ⟨false, l⟩ ∧ l.length = d ∧ (∀ c ∈ l, isHexDigit c = true) ∧
          (hexVal l : Int) = n / 4096 % 16 ^ d)) := by
  constructor
  · intro h
    unfold funcHex fpToInt; simp only []; rw [if_pos (by omega)]
  · intro d hd h1 h5
    have key : ∀ d : Fin 5, (2 : Int) ^ (4 * (d.1 + 1)) = 16 ^ (d.1 + 1) ∧
        (2 : Int) ^ (4 * (d.1 + 1) - 1) = 16 ^ (d.1 + 1) / 2 ∧ (2 : Nat) ^ (4 * (d.1 + 1)) = 16 ^ (d.1 + 1) := by decide +kernel
    have k := key ⟨d - 1, by omega⟩
    simp only [show d - 1 + 1 = d by omega] at k
    obtain ⟨k1, k2, k3⟩ := k
    have hp : (0 : Int) < 16 ^ d := Int.pow_pos (by decide)
    unfold funcHex fpToInt; simp only []
    rw [hd, if_neg (by omega)]
    simp only [Int.toNat_natCast]
    rw [k1, k2, k3]
    constructor
    · intro h; rw [if_pos (by omega)]
    · intro h
      rw [if_neg (by omega)]
      have hdvd : ((16 : Int) ^ d) ∣ 1048576 := by
        have kd : ∀ d : Fin 6, ((16 : Int) ^ d.1) ∣ 1048576 := by decide
        exact kd ⟨d, by omega⟩
      have hval : (((n / 4096 % 1048576).toNat % 16 ^ d : Nat) : Int) = n / 4096 % 16 ^ d := by
        rw [Int.natCast_emod, Int.toNat_of_nonneg (Int.emod_nonneg _ (by decide))]
        push_cast
        exact Int.emod_emod_of_dvd _ hdvd
      have hlt : (n / 4096 % 1048576).toNat % 16 ^ d < 16 ^ (d - 1 + 1) := by
        rw [show d - 1 + 1 = d by omega]
        exact Nat.mod_lt _ (Nat.pow_pos (by decide))
      obtain ⟨a, b, c, d', e⟩ := hexMin_spec ((n / 4096 % 1048576).toNat % 16 ^ d)
      have hl := e (d - 1) hlt
      refine ⟨_, rfl, ?_, ?_, ?_⟩
      · unfold hexPad; simp; omega
      · intro x hx
        unfold hexPad at hx
        rcases List.mem_append.mp hx with hx | hx
        · rw [List.eq_of_mem_replicate hx]; rfl
        · exact b x hx
      · unfold hexPad; rw [hexVal_replicate, a, hval]

/-- **C13.** `VAL("&H"+HEX$(n))` is the integer part of `n`, for every number. -/
theorem C13_val_hex (j0 j1 : Nat) (n : Int) (hn : I32 n) :
    ∃ h t, funcHex n none = .ok h ∧ opAdd ⟨false, [38, 72]⟩ h = .ok t ∧
      funcVal j0 j1 t = .ok (n / 4096 * 4096) := by
  obtain ⟨l, h1, h2, h3, h4, h5, h6⟩ := C13_hex n
  refine ⟨_, ⟨false, [38, 72] ++ l⟩, h1, ?_, ?_⟩
  · unfold opAdd strLen maxLen
    rw [if_neg (by simp; omega)]
    unfold strConcat strLen maxLen
    rw [if_neg (by simp; omega)]
    rfl
  · unfold funcVal
    have : intLoop 16 false (l.map toWide) true false 0 = ⟨false, hexVal l, 0, 1⟩ := by
      have := intLoop_hex l h2 true 0 (by omega)
      simpa using this
    simp (config := { decide := true }) only [copyBuf, List.cons_append, List.nil_append, List.getD_cons_zero, List.getD_cons_succ,
      if_true, true_or, List.length_cons, List.drop_succ_cons, List.drop_zero]
    rw [if_neg (by omega)]
    unfold strToNumber
    simp only [this]
    rw [if_neg (by decide)]
    simp only [Bool.false_eq_true, if_false, Out.bind]
    refine congrArg Out.ok ?_
    unfold wrap32 I32 at *
    omega

example : funcHex (-4096) none = .ok ⟨false, [70, 70, 70, 70, 70]⟩ ∧
    funcHex (255 * 4096) (some (4 * 4096)) = .ok ⟨false, [48, 48, 70, 70]⟩ ∧
    funcHex (256 * 4096) (some (2 * 4096)) = .err .illegalFunctionCall := by
  refine ⟨?_, ?_, ?_⟩ <;> simp +decide [funcHex, hexPad, hexMin, fpToInt]

end Sbc.Num
