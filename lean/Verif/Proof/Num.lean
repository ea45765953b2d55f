import Verif.Spec.Num
import Verif.Proof.Strs
set_option autoImplicit false
/-!
# Lemmas on numerals
-/
namespace Sbc.Num
open Sbc Sbc.Strs Sbc.Num.Spec Sbc.Strs.Spec

theorem subLoop_eq (x d ch : Nat) (hd : 0 < d) : subLoop x d ch = (x % d, ch + x / d) := by
  induction x, ch using subLoop.induct d with
  | case1 x ch h ih =>
    rw [subLoop, if_pos h, ih]
    have e1 : x % d = (x - d) % d := Nat.mod_eq_sub_mod h.2
    have e2 : x / d = (x - d) / d + 1 := Nat.div_eq_sub_div h.1 h.2
    rw [e1, e2]; congr 1; omega
  | case2 x ch h =>
    rw [subLoop, if_neg h]
    have : x < d := by omega
    rw [Nat.mod_eq_of_lt this, Nat.div_eq_of_lt this]; rfl

/-- Descending powers of ten. -/
def pows : Nat → List Nat
  | 0 => []
  | k + 1 => 10 ^ k :: pows k

theorem foldl_acc (cs : List Nat) (a : Nat) :
    cs.foldl (fun n c => n * 10 + (c - 48)) a = a * 10 ^ cs.length + decVal cs := by
  unfold decVal
  induction cs generalizing a with
  | nil => simp
  | cons c cs ih =>
    simp only [List.foldl_cons, List.length_cons]
    rw [ih, ih (0 * 10 + (c - 48)), Nat.pow_succ, Nat.add_mul]
    have : a * 10 * 10 ^ cs.length = a * (10 ^ cs.length * 10) := by
      rw [Nat.mul_assoc, Nat.mul_comm 10]
    rw [this, Nat.zero_mul, Nat.zero_add]
    omega

theorem decVal_cons (c : Nat) (cs : List Nat) : decVal (c :: cs) = (c - 48) * 10 ^ cs.length + decVal cs := by
  have := foldl_acc cs (0 * 10 + (c - 48))
  unfold decVal at *
  simp only [List.foldl_cons]
  rw [this]; simp

theorem isDigit_add {d : Nat} (h : d ≤ 9) : isDigit (48 + d) = true := by
  unfold isDigit; simp; omega

theorem div_pow_le {n k : Nat} (h : n < 10 ^ (k + 1)) : n / 10 ^ k ≤ 9 := by
  have : n < 10 * 10 ^ k := by rw [Nat.pow_succ] at h; omega
  have := (Nat.div_lt_iff_lt_mul (Nat.pow_pos (n := k) (by decide : 0 < 10))).2 this
  omega

theorem intDigits_true (k n : Nat) (h : n < 10 ^ k) :
    (∀ c ∈ intDigits (pows k) n true, isDigit c = true) ∧ (intDigits (pows k) n true).length = k ∧
      decVal (intDigits (pows k) n true) = n := by
  induction k generalizing n with
  | zero =>
    have : n = 0 := by simpa using h
    subst this; simp [pows, intDigits, decVal]
  | succ k ih =>
    have hp : 0 < 10 ^ k := Nat.pow_pos (by decide)
    have e : intDigits (pows (k + 1)) n true = (48 + n / 10 ^ k) :: intDigits (pows k) (n % 10 ^ k) true := by
      rw [pows, intDigits]
      split
      · rename_i hlt
        rw [Nat.mod_eq_of_lt hlt, Nat.div_eq_of_lt hlt]; simp
      · rw [subLoop_eq _ _ _ hp]
    obtain ⟨h1, h2, h3⟩ := ih (n % 10 ^ k) (Nat.mod_lt _ hp)
    rw [e]
    refine ⟨?_, by simp [h2], ?_⟩
    · intro c hc
      rcases List.mem_cons.mp hc with hc | hc
      · rw [hc]; exact isDigit_add (div_pow_le h)
      · exact h1 c hc
    · rw [decVal_cons, h2, h3]
      have := Nat.div_add_mod n (10 ^ k)
      rw [Nat.mul_comm] at this
      have e2 : 48 + n / 10 ^ k - 48 = n / 10 ^ k := Nat.add_sub_cancel_left _ _
      rw [e2]; exact this

theorem intDigits_false (k n : Nat) (h : n < 10 ^ k) (h0 : 0 < n) :
    (∀ c ∈ intDigits (pows k) n false, isDigit c = true) ∧ intDigits (pows k) n false ≠ [] ∧
      (intDigits (pows k) n false).head? ≠ some 48 ∧ decVal (intDigits (pows k) n false) = n := by
  induction k generalizing n with
  | zero => have : n = 0 := by simpa using h
            omega
  | succ k ih =>
    have hp : 0 < 10 ^ k := Nat.pow_pos (by decide)
    rw [pows, intDigits]
    split
    · rename_i hlt
      simp only [Bool.false_eq_true, if_false]
      exact ih n hlt h0
    · rename_i hge
      rw [subLoop_eq _ _ _ hp]
      simp only []
      obtain ⟨h1, h2, h3⟩ := intDigits_true k (n % 10 ^ k) (Nat.mod_lt _ hp)
      have hq : 0 < n / 10 ^ k := Nat.div_pos (by omega) hp
      refine ⟨?_, by simp, by simp; omega, ?_⟩
      · intro c hc
        rcases List.mem_cons.mp hc with hc | hc
        · rw [hc]; exact isDigit_add (div_pow_le h)
        · exact h1 c hc
      · rw [decVal_cons, h2, h3]
        have := Nat.div_add_mod n (10 ^ k)
        rw [Nat.mul_comm] at this
        have e2 : 48 + n / 10 ^ k - 48 = n / 10 ^ k := Nat.add_sub_cancel_left _ _
        rw [e2]; exact this

theorem decDigits_spec (k n : Nat) (h : n < 10 ^ k) :
    (∀ c ∈ decDigits (pows k) n, isDigit c = true) ∧ (decDigits (pows k) n).length ≤ k ∧
      decVal (decDigits (pows k) n) * 10 ^ (k - (decDigits (pows k) n).length) = n ∧
      (decDigits (pows k) n).getLast? ≠ some 48 ∧ (n ≠ 0 → decDigits (pows k) n ≠ []) := by
  induction k generalizing n with
  | zero =>
    have : n = 0 := by simpa using h
    subst this; simp [pows, decDigits, decVal]
  | succ k ih =>
    have hp : 0 < 10 ^ k := Nat.pow_pos (by decide)
    by_cases hn : n = 0
    · subst hn; simp [pows, decDigits, decVal]
    have e : decDigits (pows (k + 1)) n = (48 + n / 10 ^ k) :: decDigits (pows k) (n % 10 ^ k) := by
      rw [pows, decDigits, if_neg hn]
      split
      · rename_i hlt
        rw [Nat.mod_eq_of_lt hlt, Nat.div_eq_of_lt hlt]
      · rw [subLoop_eq _ _ _ hp]
    obtain ⟨h1, h2, h3, h4, h5⟩ := ih (n % 10 ^ k) (Nat.mod_lt _ hp)
    rw [e]
    refine ⟨?_, by simp [h2], ?_, ?_, by simp⟩
    · intro c hc
      rcases List.mem_cons.mp hc with hc | hc
      · rw [hc]; exact isDigit_add (div_pow_le h)
      · exact h1 c hc
    · rw [decVal_cons, List.length_cons]
      have e2 : 48 + n / 10 ^ k - 48 = n / 10 ^ k := Nat.add_sub_cancel_left _ _
      have e3 : k + 1 - ((decDigits (pows k) (n % 10 ^ k)).length + 1) = k - (decDigits (pows k) (n % 10 ^ k)).length := by omega
      rw [e2, e3, Nat.add_mul, h3, Nat.mul_assoc, ← Nat.pow_add, Nat.add_sub_cancel' h2, Nat.mul_comm]
      exact Nat.div_add_mod n (10 ^ k)
    · by_cases hr : n % 10 ^ k = 0
      · have : decDigits (pows k) (n % 10 ^ k) = [] := by
          rw [hr]; cases k <;> simp [pows, decDigits]
        rw [this]
        simp only [List.getLast?_singleton, ne_eq, Option.some.injEq]
        intro hc
        have hq : n / 10 ^ k = 0 := by omega
        have := Nat.div_add_mod n (10 ^ k)
        rw [hq, hr] at this
        simp at this; omega
      · have := h5 hr
        rw [List.getLast?_cons]
        cases hl : (decDigits (pows k) (n % 10 ^ k)).getLast? with
        | none => exact absurd (List.getLast?_eq_none_iff.mp hl) this
        | some z => rw [hl] at h4; simpa using h4

/-! ## Parsing -/

theorem digitIn10_all : ∀ c : Fin 256, digitIn 10 (toWide c.1) = if isDigit c.1 then some (c.1 - 48) else none := by
  decide +kernel

theorem digitIn10 {c : Nat} (h : c < 256) : digitIn 10 (toWide c) = if isDigit c then some (c - 48) else none :=
  digitIn10_all ⟨c, h⟩

theorem digitIn16_all : ∀ c : Fin 256, digitIn 16 (toWide c.1) = if isHexDigit c.1 then some (hexDigitVal c.1) else none := by
  decide +kernel

theorem toWide_inj {c d : Nat} (hc : c < 256) (hd : d < 256) (h : toWide c = toWide d) : c = d := by
  have h1 := roundtrip_all ⟨c, hc⟩
  have h2 := roundtrip_all ⟨d, hd⟩
  simp only [] at h1 h2
  rw [h, h2] at h1; omega

theorem isDigit_lt {c : Nat} (h : isDigit c = true) : 48 ≤ c ∧ c ≤ 57 := by
  unfold isDigit at h; simpa using h

theorem fracLoop_digits (cs : List Nat) (h : ∀ c ∈ cs, c < 256) (f m : Nat)
    (hb : (f * 10 ^ (cs.takeWhile isDigit).length + decVal (cs.takeWhile isDigit)) < 4294967296) :
    fracLoop 10 (cs.map toWide) f m =
      (f * 10 ^ (cs.takeWhile isDigit).length + decVal (cs.takeWhile isDigit),
       if (cs.takeWhile isDigit) = [] then m else m * 10 ^ (cs.takeWhile isDigit).length % 4294967296) := by
  induction cs generalizing f m with
  | nil => simp [fracLoop, decVal]
  | cons c cs ih =>
    have hc : c < 256 := h c (by simp)
    have hcs : ∀ c ∈ cs, c < 256 := fun x hx => h x (by simp [hx])
    rw [List.map_cons, fracLoop, digitIn10 hc]
    by_cases hd : isDigit c = true
    · rw [if_pos hd]
      simp only []
      rw [List.takeWhile_cons_of_pos hd] at hb ⊢
      rw [decVal_cons, List.length_cons] at hb
      have e : (f * 10 + (c - 48)) * 10 ^ (cs.takeWhile isDigit).length + decVal (cs.takeWhile isDigit)
          = f * 10 ^ ((cs.takeWhile isDigit).length + 1) + ((c - 48) * 10 ^ (cs.takeWhile isDigit).length + decVal (cs.takeWhile isDigit)) := by
        rw [Nat.pow_succ, Nat.add_mul, Nat.mul_assoc, Nat.mul_comm 10, Nat.add_assoc]
      have hp : 0 < 10 ^ (cs.takeWhile isDigit).length := Nat.pow_pos (by decide)
      have hle : f * 10 + (c - 48) ≤ (f * 10 + (c - 48)) * 10 ^ (cs.takeWhile isDigit).length :=
        Nat.le_mul_of_pos_right _ hp
      have hf : (f * 10 % 4294967296 + (c - 48)) % 4294967296 = f * 10 + (c - 48) := by omega
      rw [hf, ih hcs _ _ (by omega), e, decVal_cons, List.length_cons]
      congr 1
      simp only [reduceCtorEq, if_false]
      split
      · rename_i h0; rw [h0]; simp
      · rw [Nat.mod_mul_mod, Nat.pow_succ, Nat.mul_assoc, Nat.mul_comm 10]
    · rw [if_neg hd]
      rw [List.takeWhile_cons_of_neg hd]
      simp [decVal]

/-- Fraction part reached after the integer digits. -/
def fracOf (cs : List Nat) : Nat × Nat :=
  match cs with
  | 46 :: r => fracLoop 10 (r.map toWide) 0 1
  | _ => (0, 1)

theorem intLoop_digits (cs : List Nat) (h : ∀ c ∈ cs, c < 256) (first neg : Bool) (n : Nat)
    (hfirst : first = true → cs.head? ≠ some 45)
    (hb : n * 10 ^ (cs.takeWhile isDigit).length + decVal (cs.takeWhile isDigit) < 524288) :
    intLoop 10 true (cs.map toWide) first neg n =
      ⟨neg, n * 10 ^ (cs.takeWhile isDigit).length + decVal (cs.takeWhile isDigit),
        (fracOf (cs.dropWhile isDigit)).1, (fracOf (cs.dropWhile isDigit)).2⟩ := by
  induction cs generalizing first n with
  | nil => simp [intLoop, decVal, fracOf]
  | cons c cs ih =>
    have hc : c < 256 := h c (by simp)
    have hcs : ∀ c ∈ cs, c < 256 := fun x hx => h x (by simp [hx])
    rw [List.map_cons, intLoop, digitIn10 hc]
    by_cases hd : isDigit c = true
    · rw [if_pos hd]
      simp only []
      rw [List.takeWhile_cons_of_pos hd] at hb ⊢
      rw [List.dropWhile_cons_of_pos hd]
      rw [decVal_cons, List.length_cons] at hb
      have e : (n * 10 + (c - 48)) * 10 ^ (cs.takeWhile isDigit).length + decVal (cs.takeWhile isDigit)
          = n * 10 ^ ((cs.takeWhile isDigit).length + 1) + ((c - 48) * 10 ^ (cs.takeWhile isDigit).length + decVal (cs.takeWhile isDigit)) := by
        rw [Nat.pow_succ, Nat.add_mul, Nat.mul_assoc, Nat.mul_comm 10, Nat.add_assoc]
      have hp : 0 < 10 ^ (cs.takeWhile isDigit).length := Nat.pow_pos (by decide)
      have hle : n * 10 + (c - 48) ≤ (n * 10 + (c - 48)) * 10 ^ (cs.takeWhile isDigit).length :=
        Nat.le_mul_of_pos_right _ hp
      have hf : (n * 10 % 4294967296 + (c - 48)) % 4294967296 = n * 10 + (c - 48) := by omega
      rw [hf, if_neg (by omega), ih hcs false _ (by simp) (by omega), e, decVal_cons, List.length_cons]
    · rw [if_neg hd]
      simp only []
      rw [List.takeWhile_cons_of_neg hd, List.dropWhile_cons_of_neg hd]
      by_cases hdot : c = 46
      · subst hdot
        simp [decVal, fracOf]
      · have hne : toWide c ≠ toWide 46 := fun he => hdot (toWide_inj hc (by decide) he)
        rw [if_neg (by simp [hne])]
        have hne2 : ¬ (first = true ∧ toWide c = toWide 45) := by
          rintro ⟨hf, he⟩
          have := toWide_inj hc (by decide) he
          subst this
          exact hfirst hf rfl
        rw [if_neg hne2]
        have : fracOf (c :: cs) = (0, 1) := by
          unfold fracOf
          split
          · rename_i heq; injection heq with h1; exact absurd h1 hdot
          · rfl
        rw [this]; simp [decVal]

/-- The accumulators after parsing any 8-bit string. -/
theorem parse_acc (cs : List Nat) (h : ∀ c ∈ cs, c < 256) (hb : decVal (ints cs) < 524288) :
    intLoop 10 true (cs.map toWide) true false 0 =
      ⟨isNeg cs, decVal (ints cs), (fracOf ((body cs).dropWhile isDigit)).1,
        (fracOf ((body cs).dropWhile isDigit)).2⟩ := by
  unfold ints body at *
  by_cases hn : isNeg cs = true
  · cases cs with
    | nil => simp [isNeg] at hn
    | cons c r =>
      have hc : c = 45 := by simpa [isNeg] using hn
      subst hc
      rw [if_pos hn] at hb ⊢
      rw [hn]
      simp only [List.tail_cons] at hb ⊢
      rw [List.map_cons, intLoop]
      have hd : digitIn 10 (toWide 45) = none := by decide
      rw [hd]
      simp only []
      rw [if_neg (by decide), if_pos (by simp), if_neg (by decide)]
      have := intLoop_digits r (fun x hx => h x (by simp [hx])) false true 0 (by simp) (by simpa using hb)
      rw [this]; simp
  · rw [if_neg hn] at hb ⊢
    have hn' : isNeg cs = false := by simpa using hn
    rw [hn']
    have := intLoop_digits cs h true false 0 (by
      intro _ hh; apply hn; simp [isNeg, hh]) (by simpa using hb)
    rw [this]; simp

theorem dropWhile_mem {p : Nat → Bool} {l : List Nat} {x : Nat} (h : x ∈ l.dropWhile p) : x ∈ l :=
  (List.dropWhile_sublist p).mem h

theorem body_mem {cs : List Nat} {x : Nat} (h : x ∈ body cs) : x ∈ cs := by
  unfold body at h
  split at h
  · exact List.mem_of_mem_tail h
  · exact h

theorem fracs_eq (cs : List Nat) : (∃ r, (body cs).dropWhile isDigit = 46 :: r ∧ fracs cs = r.takeWhile isDigit) ∨
    (fracOf ((body cs).dropWhile isDigit) = (0, 1) ∧ fracs cs = []) := by
  unfold fracs fracOf
  split
  · rename_i r heq; left; exact ⟨r, heq ▸ rfl, rfl⟩
  · rename_i hne
    right
    refine ⟨?_, rfl⟩
    split
    · rename_i r heq; exact absurd heq (hne r)
    · rfl

theorem frac_acc (cs : List Nat) (h : ∀ c ∈ cs, c < 256) (hb : decVal (fracs cs) < 4294967296) :
    fracOf ((body cs).dropWhile isDigit) =
      (decVal (fracs cs), if fracs cs = [] then 1 else 10 ^ (fracs cs).length % 4294967296) := by
  rcases fracs_eq cs with ⟨r, h1, h2⟩ | ⟨h1, h2⟩
  · have hr : ∀ c ∈ r, c < 256 := by
      intro c hc
      apply h; apply body_mem; apply dropWhile_mem (p := isDigit)
      rw [h1]; simp [hc]
    rw [h2] at hb
    have := fracLoop_digits r hr 0 1 (by simpa using hb)
    rw [h1, h2, fracOf, this]; simp
  · rw [h1, h2]; simp [decVal]

theorem decVal_lt (ds : List Nat) (h : ∀ c ∈ ds, isDigit c = true) : decVal ds < 10 ^ ds.length := by
  induction ds with
  | nil => simp [decVal]
  | cons c cs ih =>
    rw [decVal_cons, List.length_cons, Nat.pow_succ]
    have h1 := ih (fun x hx => h x (by simp [hx]))
    have h2 := isDigit_lt (h c (by simp))
    have : (c - 48) * 10 ^ cs.length ≤ 9 * 10 ^ cs.length := Nat.mul_le_mul_right _ (by omega)
    omega

theorem mem_takeWhile_imp' {p : Nat → Bool} {l : List Nat} {x : Nat} (h : x ∈ l.takeWhile p) : p x = true := by
  induction l with
  | nil => simp at h
  | cons c cs ih =>
    by_cases hc : p c = true
    · rw [List.takeWhile_cons_of_pos hc] at h
      rcases List.mem_cons.mp h with h | h
      · rw [h]; exact hc
      · exact ih h
    · rw [List.takeWhile_cons_of_neg hc] at h; simp at h

theorem fracs_digits (cs : List Nat) : ∀ c ∈ fracs cs, isDigit c = true := by
  unfold fracs
  split
  · intro c hc; exact mem_takeWhile_imp' hc
  · simp

/-- Parsing any 8-bit string with a small integer part and at most six decimals. -/
theorem strToNumber_eq (cs : List Nat) (h : ∀ c ∈ cs, c < 256) (hb : decVal (ints cs) < 524288)
    (hf : decVal (fracs cs) < 1048576) (hl : (fracs cs).length ≤ 9) :
    strToNumber (cs.map toWide) 10 true = .ok (value cs) := by
  unfold strToNumber
  simp only []
  rw [parse_acc cs h hb, frac_acc cs h (by omega)]
  simp only []
  have hmax : (if fracs cs = [] then 1 else 10 ^ (fracs cs).length % 4294967296) = 10 ^ (fracs cs).length := by
    split
    · rename_i h0; rw [h0]; rfl
    · have : 10 ^ (fracs cs).length ≤ 10 ^ 9 := Nat.pow_le_pow_right (by decide) hl
      exact Nat.mod_eq_of_lt (by omega)
  have hp : 0 < 10 ^ (fracs cs).length := Nat.pow_pos (by decide)
  rw [hmax, if_neg (by omega), Nat.mod_eq_of_lt (show 4096 * decVal (fracs cs) < 4294967296 by omega)]
  unfold value magnitude
  rw [Nat.mul_comm 4096]
  split
  · rename_i hn
    refine congrArg Out.ok ?_
    by_cases hz : decVal (ints cs) = 0
    · rw [hz]
      rw [show ((4294967296 - 0) % 4294967296 : Nat) = 0 by decide]
      rw [show intToFp ((0 : Nat) : Int) = 0 by decide]
      generalize decVal (fracs cs) * 4096 / 10 ^ (fracs cs).length = z
      omega
    · have : (4294967296 - decVal (ints cs)) % 4294967296 = 4294967296 - decVal (ints cs) := Nat.mod_eq_of_lt (by omega)
      rw [this]
      have e : intToFp ((4294967296 - decVal (ints cs) : Nat) : Int) = -(decVal (ints cs) * 4096 : Int) := by
        unfold intToFp wrap32; omega
      rw [e]
      generalize decVal (fracs cs) * 4096 / 10 ^ (fracs cs).length = z
      omega
  · congr 1

theorem value_i32 (cs : List Nat) (hb : decVal (ints cs) < 524288) : I32 (value cs) := by
  have h1 : decVal (fracs cs) * 4096 / 10 ^ (fracs cs).length < 4096 := by
    have := decVal_lt _ (fracs_digits cs)
    have hp : 0 < 10 ^ (fracs cs).length := Nat.pow_pos (by decide)
    rw [Nat.div_lt_iff_lt_mul hp]
    rw [Nat.mul_comm]
    exact Nat.mul_lt_mul_of_pos_left this (by decide)
  unfold value magnitude I32
  generalize decVal (fracs cs) * 4096 / 10 ^ (fracs cs).length = z at *
  split <;> omega

/-- `VAL` in base ten. -/
theorem funcVal_decimal (j0 j1 : Nat) (s : Str) (h : ∀ c ∈ chars s, c < 256) (h0 : (chars s).getD 0 j0 ≠ 38)
    (hb : decVal (ints (chars s)) < 524288) (hf : decVal (fracs (chars s)) < 1048576) (hl : (fracs (chars s)).length ≤ 9) :
    funcVal j0 j1 s = .ok (value (chars s)) := by
  unfold funcVal
  have hc : copyBuf s.wide false s.data = chars s := by unfold copyBuf chars; cases s.wide <;> rfl
  simp only [hc]
  rw [if_neg h0, strToNumber_eq _ h hb hf hl]
  simp only [Out.bind]
  rw [wrap32_of_i32 (value_i32 _ hb)]

/-! ## Hexadecimal -/

theorem hexChar_all : ∀ d : Fin 16, digitIn 16 (toWide (hexChar d.1)) = some d.1 ∧ hexDigitVal (hexChar d.1) = d.1 ∧
    isHexDigit (hexChar d.1) = true := by decide +kernel

theorem hexVal_snoc (ds : List Nat) (c : Nat) : hexVal (ds ++ [c]) = hexVal ds * 16 + hexDigitVal c := by
  unfold hexVal; simp

theorem hexMin_spec (n : Nat) : hexVal (hexMin n) = n ∧ (∀ c ∈ hexMin n, isHexDigit c = true) ∧ hexMin n ≠ [] ∧
    ((hexMin n).head? = some 48 → n = 0) ∧ (∀ k, n < 16 ^ (k + 1) → (hexMin n).length ≤ k + 1) := by
  induction n using hexMin.induct with
  | case1 n h =>
    have a := hexChar_all ⟨n, h⟩
    simp only [] at a
    rw [hexMin, if_pos h]
    refine ⟨by simp [hexVal, a.2.1], by simpa using a.2.2, by simp, ?_, fun k _ => by simp⟩
    simp only [List.head?_cons, Option.some.injEq]
    unfold hexChar; split <;> omega
  | case2 n h ih =>
    have a := hexChar_all ⟨n % 16, Nat.mod_lt _ (by decide)⟩
    simp only [] at a
    obtain ⟨i1, i2, i3, i4, i5⟩ := ih
    rw [hexMin, if_neg h]
    refine ⟨?_, ?_, by simp, ?_, ?_⟩
    · rw [hexVal_snoc, i1, a.2.1]; omega
    · intro c hc
      rcases List.mem_append.mp hc with hc | hc
      · exact i2 c hc
      · simp only [List.mem_singleton] at hc; rw [hc]; exact a.2.2
    · rw [List.head?_append]
      intro hh
      cases hx : (hexMin (n / 16)).head? with
      | none => exact absurd (List.head?_eq_none_iff.mp hx) i3
      | some z => rw [hx] at hh; have := i4 (by rw [hx]; simpa using hh); omega
    · intro k hk
      cases k with
      | zero => simp at hk; omega
      | succ k =>
        have : n / 16 < 16 ^ (k + 1) := by
          rw [Nat.div_lt_iff_lt_mul (by decide)]
          rw [Nat.pow_succ] at hk; exact hk
        have := i5 k this
        simp; omega

theorem hexFold_acc (cs : List Nat) (a : Nat) :
    cs.foldl (fun n c => n * 16 + hexDigitVal c) a = a * 16 ^ cs.length + hexVal cs := by
  unfold hexVal
  induction cs generalizing a with
  | nil => simp
  | cons c cs ih =>
    simp only [List.foldl_cons, List.length_cons]
    rw [ih, ih (0 * 16 + hexDigitVal c), Nat.pow_succ, Nat.add_mul]
    have : a * 16 * 16 ^ cs.length = a * (16 ^ cs.length * 16) := by
      rw [Nat.mul_assoc, Nat.mul_comm 16]
    rw [this, Nat.zero_mul, Nat.zero_add]
    omega

theorem hexVal_replicate (k : Nat) (l : List Nat) : hexVal (List.replicate k 48 ++ l) = hexVal l := by
  induction k with
  | zero => simp
  | succ k ih => rw [List.replicate_succ, List.cons_append, ← ih]; rfl

/-- Parsing hexadecimal digits of a value below 2^20 (the loop may stop early only after the last one). -/
theorem intLoop_hex (cs : List Nat) (h : ∀ c ∈ cs, isHexDigit c = true) (first : Bool) (n : Nat)
    (hb : n * 16 ^ cs.length + hexVal cs < 1048576) :
    intLoop 16 false (cs.map toWide) first false n = ⟨false, n * 16 ^ cs.length + hexVal cs, 0, 1⟩ := by
  induction cs generalizing first n with
  | nil => simp [intLoop, hexVal]
  | cons c cs ih =>
    have hd := h c (by simp)
    have hc : c < 256 := by unfold isHexDigit at hd; simp at hd; omega
    have e1 := digitIn16_all ⟨c, hc⟩
    simp only [] at e1
    rw [if_pos hd] at e1
    rw [List.map_cons, intLoop, e1]
    simp only []
    have e2 : hexVal (c :: cs) = hexDigitVal c * 16 ^ cs.length + hexVal cs := by
      have := hexFold_acc cs (0 * 16 + hexDigitVal c)
      unfold hexVal at *
      simp only [List.foldl_cons]; rw [this]; simp
    rw [List.length_cons, e2] at hb ⊢
    have e : (n * 16 + hexDigitVal c) * 16 ^ cs.length + hexVal cs
        = n * 16 ^ (cs.length + 1) + (hexDigitVal c * 16 ^ cs.length + hexVal cs) := by
      rw [Nat.pow_succ, Nat.add_mul, Nat.mul_assoc, Nat.mul_comm 16, Nat.add_assoc]
    have hp : 0 < 16 ^ cs.length := Nat.pow_pos (by decide)
    have hle : n * 16 + hexDigitVal c ≤ (n * 16 + hexDigitVal c) * 16 ^ cs.length :=
      Nat.le_mul_of_pos_right _ hp
    have hf : (n * 16 % 4294967296 + hexDigitVal c) % 4294967296 = n * 16 + hexDigitVal c := by omega
    rw [hf]
    by_cases hbig : n * 16 + hexDigitVal c ≥ 524288
    · rw [if_pos hbig]
      cases cs with
      | nil => simp [hexVal]
      | cons c' cs' =>
        exfalso
        rw [List.length_cons, Nat.pow_succ] at e
        have hp' : 0 < 16 ^ cs'.length := Nat.pow_pos (by decide)
        have : (n * 16 + hexDigitVal c) * 1 * 16 ≤ (n * 16 + hexDigitVal c) * (16 ^ cs'.length * 16) := by
          rw [Nat.mul_assoc]; exact Nat.mul_le_mul_left _ (by omega)
        rw [List.length_cons, Nat.pow_succ (n := 16) (m := cs'.length)] at hb
        omega
    · rw [if_neg hbig, ih (fun x hx => h x (by simp [hx])) false _ (by omega), e]

end Sbc.Num
