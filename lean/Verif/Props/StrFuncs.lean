import Verif.Props.Strs
set_option autoImplicit false
/-!
# C16, C17, C18, C47: substring functions, search, replacement, date and time parsing
-/
namespace Sbc.Strs
open Sbc Sbc.Strs.Spec

theorem chars_length (s : Str) : (chars s).length = strLen s := by unfold chars strLen; split <;> simp

theorem copyRange_eq (s : Str) (a n : Nat) (h : a + n ≤ strLen s) (hn : n ≤ 256) :
    copyRange s a n = .ok (((chars s).drop a).take n) := by
  unfold copyRange maxLen
  rw [if_pos ⟨h, hn⟩]
  congr 1
  unfold copyBuf chars
  cases s.wide <;> simp [List.map_drop, List.map_take]

/-- **C16.** `LEFT$(s,n)` is the first `min(n, LEN(s))` characters; a negative `n` reports an error. -/
theorem C16_left (s : Str) (hl : strLen s ≤ 256) (n : Int) :
    funcLeft s n = if n / 4096 < 0 then .err .outOfRange else .ok ⟨false, (chars s).take (n / 4096).toNat⟩ := by
  have hc := chars_length s
  unfold funcLeft funcSubstring fpToInt
  simp only []
  by_cases h : n / 4096 < 0
  · rw [if_pos h, if_pos h]
  · rw [if_neg h, if_neg h]
    by_cases h0 : n / 4096 = 0
    · rw [if_pos h0, h0]; simp [emptyStr]
    · rw [if_neg h0]
      by_cases hgt : n / 4096 > (strLen s : Int)
      · rw [if_pos hgt]
        simp only [Bool.false_eq_true, if_false]
        rw [copyRange_eq s 0 _ (by omega) (by omega)]
        simp only [Out.bind, List.drop_zero]
        rw [List.take_of_length_le (by omega), List.take_of_length_le (by omega)]
      · rw [if_neg hgt]
        simp only [Bool.false_eq_true, if_false]
        rw [copyRange_eq s 0 _ (by omega) (by omega)]
        simp only [Out.bind, List.drop_zero]

/-- **C16.** `RIGHT$(s,n)` is the last `min(n, LEN(s))` characters; a negative `n` reports an error. -/
theorem C16_right (s : Str) (hl : strLen s ≤ 256) (n : Int) :
    funcRight s n = if n / 4096 < 0 then .err .outOfRange
      else .ok ⟨false, (chars s).drop ((chars s).length - (n / 4096).toNat)⟩ := by
  have hc := chars_length s
  unfold funcRight funcSubstring fpToInt
  simp only []
  by_cases h : n / 4096 < 0
  · rw [if_pos h, if_pos h]
  · rw [if_neg h, if_neg h]
    by_cases h0 : n / 4096 = 0
    · rw [if_pos h0, h0]; simp [emptyStr]
    · rw [if_neg h0]
      by_cases hgt : n / 4096 > (strLen s : Int)
      · rw [if_pos hgt]
        simp only [if_true]
        rw [copyRange_eq s _ _ (by omega) (by omega)]
        simp only [Out.bind]
        rw [List.take_of_length_le (by simp; omega)]
        congr 3; omega
      · rw [if_neg hgt]
        simp only [if_true]
        rw [copyRange_eq s _ _ (by omega) (by omega)]
        simp only [Out.bind]
        rw [List.take_of_length_le (by simp; omega)]
        congr 3; omega

/-- **C16.** `LEFT$(s,n)+RIGHT$(s,LEN(s)-n) = s` for every 8-bit string and `0 ≤ n ≤ LEN(s)`. -/
theorem C16_left_right (s : Str) (hw : s.WF) (h8 : s.wide = false) (n : Nat) (hn : n ≤ strLen s) :
    ∃ l r, funcLeft s (n * 4096) = .ok l ∧ funcRight s (((strLen s : Int) - n) * 4096) = .ok r ∧
      opAdd l r = .ok s := by
  have hl : strLen s ≤ 256 := hw.1
  have hc := chars_length s
  have e1 : ((n : Int) * 4096) / 4096 = n := by omega
  have e2 : (((strLen s : Int) - n) * 4096) / 4096 = (strLen s : Int) - n := by omega
  refine ⟨_, _, by rw [C16_left s hw.1, e1, if_neg (by omega)], by rw [C16_right s hw.1, e2, if_neg (by omega)], ?_⟩
  rw [C19_concat]
  have e3 : (chars s).length - ((strLen s : Int) - n).toNat = n := by omega
  rw [e3]
  simp only [Int.toNat_natCast]
  have : ∀ l, chars ⟨false, l⟩ = l := fun _ => rfl
  simp only [this]
  rw [if_pos (by simp; omega), List.take_append_drop]
  obtain ⟨w, d⟩ := s
  simp only [] at h8; subst h8; rfl

/-- **C16 (partial).** `MID$(s,i,n)` is the at most `n` characters from position `i`, for all arguments
up to 32767; negative arguments report an error.  Missing: larger arguments, for which it is false. -/
theorem C16_mid_partial (s : Str) (hl : strLen s ≤ 256) (i n : Int) (hi : i / 4096 ≤ 32767) (hn : n / 4096 ≤ 32767) :
    funcMid s i n = if i / 4096 < 0 ∨ n / 4096 < 0 then .err .outOfRange
      else .ok ⟨false, ((chars s).drop (i / 4096).toNat).take (n / 4096).toNat⟩ := by
  have hc := chars_length s
  unfold funcMid fpToInt
  simp only []
  generalize i / 4096 = a at *
  generalize n / 4096 = b at *
  by_cases h1 : a < 0
  · rw [if_pos h1, if_pos (Or.inl h1)]
  by_cases h2 : b < 0
  · rw [if_neg h1, if_pos h2, if_pos (Or.inr h2)]
  rw [if_neg h1, if_neg h2, if_neg (show ¬ (a < 0 ∨ b < 0) by omega)]
  have e : toS16 (toS16 (strLen s) - toS16 a) = strLen s - a := by unfold toS16; omega
  have e2 : toS16 b = b := by unfold toS16; omega
  rw [e, e2]
  by_cases h3 : (strLen s : Int) - a ≤ 0
  · rw [if_pos h3, List.drop_eq_nil_of_le (by omega)]; simp [emptyStr]
  · rw [if_neg h3]
    by_cases h4 : (strLen s : Int) - a ≤ b
    · rw [if_pos h4, if_neg (by omega), copyRange_eq s _ _ (by omega) (by omega)]
      simp only [Out.bind]
      have : (a % 65536).toNat = a.toNat := by omega
      rw [this, List.take_of_length_le (by simp; omega), List.take_of_length_le (by simp; omega)]
    · rw [if_neg h4, if_neg (by omega), copyRange_eq s _ _ (by omega) (by omega)]
      simp only [Out.bind]
      have : (a % 65536).toNat = a.toNat := by omega
      rw [this]

/-- **C16 (refuted cases).** `MID$("ABC",65536,1)` is `"A"` instead of empty, `MID$("ABC",0,32768)` copies
32768 characters into a 256-character buffer, and `MID$("ABC",0,65536)` yields a string claiming 65536
characters. -/
theorem C16_mid_violated :
    funcMid ⟨false, [65, 66, 67]⟩ (65536 * 4096) 4096 = .ok ⟨false, [65]⟩ ∧
    funcMid ⟨false, [65, 66, 67]⟩ 0 (32768 * 4096) = .ub ∧
    funcMid ⟨false, [65, 66, 67]⟩ 0 (65536 * 4096) = .ub := by decide

example : funcMid ⟨false, [65, 66, 67, 68]⟩ 4096 (2 * 4096) = .ok ⟨false, [66, 67]⟩ ∧
    funcLeft ⟨false, [65, 66, 67]⟩ (2 * 4096) = .ok ⟨false, [65, 66]⟩ ∧
    funcRight ⟨true, [0xff21, 0xff22, 0xff23]⟩ (2 * 4096) = .ok ⟨false, [66, 67]⟩ := by decide

/-! ## INSTR -/

theorem occursAt_iff (s t : List Nat) (i : Nat) :
    OccursAt s t i ↔ i + t.length ≤ s.length ∧ ∀ k, k < t.length → s[i + k]? = t[k]? := by
  unfold OccursAt
  constructor
  · rintro ⟨h, he⟩
    refine ⟨h, fun k hk => ?_⟩
    have : ((s.drop i).take t.length)[k]? = t[k]? := by rw [he]
    rw [List.getElem?_take, if_pos hk, List.getElem?_drop] at this
    exact this
  · rintro ⟨h, he⟩
    refine ⟨h, ?_⟩
    apply List.ext_getElem?
    intro k
    rw [List.getElem?_take]
    split
    · rename_i hk; rw [List.getElem?_drop]; exact he k hk
    · rename_i hk; rw [List.getElem?_eq_none (by omega)]

/-- What the search loop computes: the first occurrence, or a failure. -/
theorem instrLoop_spec (str sub : Str) (hpos : 0 < strLen sub) (pos j : Nat) (hj : j ≤ strLen sub)
    (hm : ∀ k, k < j → (text str)[pos + k]? = (text sub)[k]?)
    (hjl : pos + j ≤ strLen str ∨ j = 0) :
    ((instrLoop str sub pos j).2 = strLen sub ∧ pos ≤ (instrLoop str sub pos j).1 ∧
      OccursAt (text str) (text sub) (instrLoop str sub pos j).1 ∧
      ∀ q, pos ≤ q → q < (instrLoop str sub pos j).1 → ¬ OccursAt (text str) (text sub) q) ∨
    ((instrLoop str sub pos j).2 ≠ strLen sub ∧
      ∀ q, pos ≤ q → ¬ OccursAt (text str) (text sub) q) := by
  have l1 := text_length str
  have l2 := text_length sub
  induction pos, j using instrLoop.induct str sub with
  | case1 pos j hlt hgt =>
    rw [instrLoop, if_pos hlt, if_pos hgt]
    right
    refine ⟨by simp only []; omega, fun q hq ho => ?_⟩
    have := ho.1; omega
  | case2 pos hlt hge =>
    rw [instrLoop, if_pos hlt, if_neg hge, if_pos rfl]
    left
    refine ⟨rfl, Nat.le_refl _, ?_, fun q h1 h2 => by simp only [] at h2; omega⟩
    rw [occursAt_iff]
    exact ⟨by simp only []; omega, fun k hk => hm k (by omega)⟩
  | case3 pos j hlt hge hne heq ih =>
    rw [instrLoop, if_pos hlt, if_neg hge, if_neg hne, if_pos heq]
    apply ih
    · omega
    · intro k hk
      rcases Nat.lt_or_ge k j with h | h
      · exact hm k h
      · have : k = j := by omega
        subst this
        rw [← strAtWide_text str _ hlt, ← strAtWide_text sub k (by omega), heq]
    · left; omega
  | case4 pos j hlt hge hne hneq ih =>
    rw [instrLoop, if_pos hlt, if_neg hge, if_neg hne, if_neg hneq]
    have hno : ¬ OccursAt (text str) (text sub) pos := by
      rw [occursAt_iff]
      rintro ⟨_, h⟩
      have := h j (by omega)
      rw [← strAtWide_text str _ hlt, ← strAtWide_text sub j (by omega)] at this
      injection this with this
      exact hneq this
    rcases ih (by omega) (fun k hk => absurd hk (by omega)) (Or.inr rfl) with ⟨h1, h2, h3, h4⟩ | ⟨h1, h2⟩
    · left
      refine ⟨h1, by omega, h3, fun q hq1 hq2 => ?_⟩
      rcases Nat.lt_or_ge pos q with h | h
      · exact h4 q h hq2
      · have : q = pos := by omega
        subst this; exact hno
    · right
      refine ⟨h1, fun q hq => ?_⟩
      rcases Nat.lt_or_ge pos q with h | h
      · exact h2 q h
      · have : q = pos := by omega
        subst this; exact hno
  | case5 pos j hlt =>
    rw [instrLoop, if_neg hlt]
    simp only []
    by_cases he : j = strLen sub
    · left
      refine ⟨he, Nat.le_refl _, ?_, fun q h1 h2 => by omega⟩
      rw [occursAt_iff]
      exact ⟨by omega, fun k hk => hm k (by omega)⟩
    · right
      refine ⟨he, fun q hq ho => ?_⟩
      have := ho.1; omega

/-- **C17 (partial).** For every pair of strings in any representation, `t` not empty, and every
non-negative start position, `INSTR` gives the least position at or after `start` at which `t` occurs, or
-1 if there is none; an empty `t` is found at position 0.  Missing: negative start positions, for which
it is false. -/
theorem C17_instr_partial (s t : Str) (hl : strLen s ≤ 256) (start : Int) (h0 : 0 ≤ start / 4096) :
    (text t = [] → funcInstr s t start = .ok 0) ∧
    (text t ≠ [] →
      (∃ i : Nat, funcInstr s t start = .ok ((i : Int) * 4096) ∧ start / 4096 ≤ i ∧
        OccursAt (text s) (text t) i ∧ ∀ q : Nat, start / 4096 ≤ q → q < i → ¬ OccursAt (text s) (text t) q) ∨
      (funcInstr s t start = .ok (-4096) ∧ ∀ q : Nat, start / 4096 ≤ q → ¬ OccursAt (text s) (text t) q)) := by
  have lt := text_length t
  have ls := text_length s
  constructor
  · intro h
    have : strLen t = 0 := by rw [← lt, h]; rfl
    unfold funcInstr; simp only []; rw [if_pos this]; rfl
  · intro h
    have hp : 0 < strLen t := by
      rcases Nat.eq_zero_or_pos (strLen t) with h' | h'
      · rw [← lt] at h'; exact absurd (List.length_eq_zero_iff.mp h') h
      · exact h'
    unfold funcInstr fpToInt; simp only []
    rw [if_neg (by omega), if_neg (by omega)]
    generalize start / 4096 = a at *
    rcases instrLoop_spec s t hp a.toNat 0 (by omega) (by intro k hk; omega) (Or.inr rfl) with
      ⟨h1, h2, h3, h4⟩ | ⟨h1, h2⟩
    · left
      refine ⟨_, by rw [if_pos h1, intToFp_small]; have := h3.1; omega, by omega, h3, ?_⟩
      intro q hq1 hq2
      exact h4 q (by omega) hq2
    · right
      exact ⟨by rw [if_neg h1], fun q hq => h2 q (by omega)⟩

/-- **C17 (refuted case).** A negative start position makes `INSTR` read outside the string. -/
theorem C17_instr_violated : funcInstr ⟨false, [65, 66]⟩ ⟨false, [66]⟩ (-4096) = .ub := by decide

example : funcInstr ⟨false, [65, 65, 66, 65, 65, 66]⟩ ⟨true, [0xff21, 0xff22]⟩ (2 * 4096) = .ok (4 * 4096) := by
  simp +decide [funcInstr, instrLoop, strLen, strAtWide, fpToInt, toWide, intToFp, wrap32]

/-! ## SUBST$ -/

/-- The specification of `SUBST$`: a negative or too large count means "up to the end". -/
def Spec.subst (s : List Nat) (i : Nat) (n : Int) (r : List Nat) : List Nat :=
  s.take i ++ r ++ (if n < 0 then [] else s.drop (i + n.toNat))

/-- **C18 (partial).** For every string, position and count, if the result has at most 256 characters
`SUBST$` gives the string with the range replaced; if the replacement itself ends beyond 256 characters
String too long is reported, and positions outside the string report an error.  Missing: results over
256 characters whose replacement ends earlier. -/
theorem C18_subst_partial (s r : Str) (i n : Int) :
    (i / 4096 < 0 ∨ (chars s).length < i / 4096 → funcSubst s i n r = .err .outOfRange) ∧
    (0 ≤ i / 4096 → i / 4096 ≤ (chars s).length → i / 4096 + (chars r).length > 256 →
      funcSubst s i n r = .err .stringTooLong) ∧
    (0 ≤ i / 4096 → i / 4096 ≤ (chars s).length →
      (Spec.subst (chars s) (i / 4096).toNat (n / 4096) (chars r)).length ≤ 256 →
      funcSubst s i n r = .ok ⟨false, Spec.subst (chars s) (i / 4096).toNat (n / 4096) (chars r)⟩) := by
  have ls := chars_length s
  have lr := chars_length r
  unfold funcSubst fpToInt maxLen; simp only []
  generalize i / 4096 = a at *
  generalize n / 4096 = b at *
  have hcb : ∀ l : List Nat, copyBuf r.wide false r.data = chars r := fun _ => copyBuf_chars r
  have htake : ∀ k, copyBuf s.wide false (s.data.take k) = (chars s).take k := by
    intro k; unfold copyBuf chars; cases s.wide <;> simp [List.map_take]
  have hdrop : ∀ k m, copyBuf s.wide false ((s.data.drop k).take m) = ((chars s).drop k).take m := by
    intro k m; unfold copyBuf chars; cases s.wide <;> simp [List.map_take, List.map_drop]
  refine ⟨?_, ?_, ?_⟩
  · intro h; rw [if_pos (by omega)]
  · intro h1 h2 h3; rw [if_neg (by omega), if_pos (by omega)]
  · intro h1 h2 h3
    rw [if_neg (by omega)]
    unfold Spec.subst at h3 ⊢
    rw [copyBuf_chars, htake, hdrop]
    have h3' : a + strLen r ≤ 256 := by
      simp only [List.length_append, List.length_take] at h3; omega
    rw [if_neg (by omega)]
    by_cases hb : b < 0
    · rw [if_pos (Or.inl hb), if_neg (show ¬ (strLen s : Int) - a - strLen s > 0 by omega),
        if_neg (show ¬ (strLen s : Int) - a - strLen s > 0 by omega), if_neg (by omega), if_pos hb]
    · rw [if_neg hb] at h3 ⊢
      by_cases hb2 : b > strLen s
      · rw [if_pos (Or.inr hb2), if_neg (show ¬ (strLen s : Int) - a - strLen s > 0 by omega),
          if_neg (show ¬ (strLen s : Int) - a - strLen s > 0 by omega), if_neg (by omega)]
        rw [List.drop_eq_nil_of_le (by omega)]
      · have hbn : ¬ (b < 0 ∨ b > (strLen s : Int)) := by omega
        rw [if_neg hbn]
        have e : (a + b).toNat = a.toNat + b.toNat := by omega
        rw [e]
        by_cases hrem : (strLen s : Int) - a - b > 0
        · rw [if_pos hrem, if_pos hrem, if_neg, List.take_of_length_le (l := List.drop _ _) (by simp; omega)]
          simp only [List.length_append, List.length_take, List.length_drop] at h3; omega
        · rw [if_neg hrem, if_neg hrem, if_neg (by omega), List.drop_eq_nil_of_le (by omega)]

/-- **C18 (refuted case).** Inserting one character at the start of a 256-character string writes 257
characters into the 256-character buffer instead of reporting String too long. -/
theorem C18_subst_violated :
    funcSubst ⟨false, List.replicate 256 65⟩ 0 0 ⟨false, [66]⟩ = .ub := by decide +kernel

example : funcSubst ⟨false, [65, 66, 67, 68]⟩ 4096 (2 * 4096) ⟨false, [88, 89, 90]⟩ =
    .ok ⟨false, [65, 88, 89, 90, 68]⟩ := by decide

/-! ## DTREAD and TMREAD -/

/-- Two-digit decimal numeral. -/
def Spec.two (a b : Nat) : List Nat := [48 + a, 48 + b]

theorem formatOk_iff (s : Str) (fmt : List Nat) :
    formatOk s fmt = true ↔ s.data.length = fmt.length ∧ formatOk.go s fmt 0 = true := by
  unfold formatOk strLen; simp

theorem isDigit_iff (c : Nat) : (48 ≤ c ∧ c ≤ 57) ↔ ∃ d, d ≤ 9 ∧ c = 48 + d :=
  ⟨fun h => ⟨c - 48, by omega, by omega⟩, fun ⟨d, h1, h2⟩ => by omega⟩

/-- **C47 (partial).** On 8-bit strings DTREAD succeeds exactly on `NNNN/NN/NN` and returns the numbers
written, and reports an error otherwise.  Missing: wide strings. -/
theorem C47_dtread_partial (l : List Nat) (hl : ∀ c ∈ l, c < 256) :
    (∀ y1 y2 y3 y4 m1 m2 d1 d2, y1 ≤ 9 → y2 ≤ 9 → y3 ≤ 9 → y4 ≤ 9 → m1 ≤ 9 → m2 ≤ 9 → d1 ≤ 9 → d2 ≤ 9 →
      l = [48 + y1, 48 + y2, 48 + y3, 48 + y4, 47, 48 + m1, 48 + m2, 47, 48 + d1, 48 + d2] →
      dtread ⟨false, l⟩ = .ok (((y1 * 1000 + y2 * 100 + y3 * 10 + y4 : Nat) : Int) * 4096,
        ((m1 * 10 + m2 : Nat) : Int) * 4096, ((d1 * 10 + d2 : Nat) : Int) * 4096)) ∧
    ((¬ ∃ y1 y2 y3 y4 m1 m2 d1 d2, y1 ≤ 9 ∧ y2 ≤ 9 ∧ y3 ≤ 9 ∧ y4 ≤ 9 ∧ m1 ≤ 9 ∧ m2 ≤ 9 ∧ d1 ≤ 9 ∧ d2 ≤ 9 ∧
      l = [48 + y1, 48 + y2, 48 + y3, 48 + y4, 47, 48 + m1, 48 + m2, 47, 48 + d1, 48 + d2]) →
      dtread ⟨false, l⟩ = .err .syntax) := by
  constructor
  · intro y1 y2 y3 y4 m1 m2 d1 d2 a1 a2 a3 a4 a5 a6 a7 a8 h
    subst h
    have hf : formatOk ⟨false, [48 + y1, 48 + y2, 48 + y3, 48 + y4, 47, 48 + m1, 48 + m2, 47, 48 + d1, 48 + d2]⟩ dateFmt = true := by
      rw [formatOk_iff]
      refine ⟨rfl, ?_⟩
      simp only [dateFmt, formatOk.go, strAtChar, List.getD_cons_zero, List.getD_cons_succ]
      simp (config := { decide := true }) only [if_true, if_false]
      rw [if_pos (by omega), if_pos (by omega), if_pos (by omega), if_pos (by omega), if_pos (by omega),
        if_pos (by omega), if_pos (by omega), if_pos (by omega)]
    unfold dtread
    rw [if_pos hf]
    simp only [strAtChar, List.getD_cons_zero, List.getD_cons_succ]
    congr 1
    refine Prod.ext ?_ (Prod.ext ?_ ?_) <;> simp only [] <;> omega
  · intro hno
    unfold dtread
    rw [if_neg]
    intro hf
    rw [formatOk_iff] at hf
    obtain ⟨hlen, hgo⟩ := hf
    apply hno
    match l, hlen with
    | [c0, c1, c2, c3, c4, c5, c6, c7, c8, c9], _ =>
      simp only [List.mem_cons, List.not_mem_nil, or_false, forall_eq_or_imp, forall_eq] at hl
      simp (config := { decide := true }) only [dateFmt, formatOk.go, strAtChar, List.getD_cons_zero, List.getD_cons_succ, if_true, if_false] at hgo
      repeat' (split at hgo)
      all_goals cases hgo
      exact ⟨c0 - 48, c1 - 48, c2 - 48, c3 - 48, c5 - 48, c6 - 48, c8 - 48, c9 - 48, by omega, by omega, by omega,
        by omega, by omega, by omega, by omega, by omega, by
          simp only [List.cons.injEq, and_true]; omega⟩

/-- **C47 (partial).** On 8-bit strings TMREAD succeeds exactly on `NN:NN:NN` and returns the numbers
written, and reports an error otherwise.  Missing: wide strings. -/
theorem C47_tmread_partial (l : List Nat) (hl : ∀ c ∈ l, c < 256) :
    (∀ h1 h2 m1 m2 s1 s2, h1 ≤ 9 → h2 ≤ 9 → m1 ≤ 9 → m2 ≤ 9 → s1 ≤ 9 → s2 ≤ 9 →
      l = [48 + h1, 48 + h2, 58, 48 + m1, 48 + m2, 58, 48 + s1, 48 + s2] →
      tmread ⟨false, l⟩ = .ok (((h1 * 10 + h2 : Nat) : Int) * 4096,
        ((m1 * 10 + m2 : Nat) : Int) * 4096, ((s1 * 10 + s2 : Nat) : Int) * 4096)) ∧
    ((¬ ∃ h1 h2 m1 m2 s1 s2, h1 ≤ 9 ∧ h2 ≤ 9 ∧ m1 ≤ 9 ∧ m2 ≤ 9 ∧ s1 ≤ 9 ∧ s2 ≤ 9 ∧
      l = [48 + h1, 48 + h2, 58, 48 + m1, 48 + m2, 58, 48 + s1, 48 + s2]) →
      tmread ⟨false, l⟩ = .err .syntax) := by
  constructor
  · intro h1 h2 m1 m2 s1 s2 a1 a2 a3 a4 a5 a6 h
    subst h
    have hf : formatOk ⟨false, [48 + h1, 48 + h2, 58, 48 + m1, 48 + m2, 58, 48 + s1, 48 + s2]⟩ timeFmt = true := by
      rw [formatOk_iff]
      refine ⟨rfl, ?_⟩
      simp only [timeFmt, formatOk.go, strAtChar, List.getD_cons_zero, List.getD_cons_succ]
      simp (config := { decide := true }) only [if_true, if_false]
      rw [if_pos (by omega), if_pos (by omega), if_pos (by omega), if_pos (by omega), if_pos (by omega),
        if_pos (by omega)]
    unfold tmread
    rw [if_pos hf]
    simp only [strAtChar, List.getD_cons_zero, List.getD_cons_succ]
    congr 1
    refine Prod.ext ?_ (Prod.ext ?_ ?_) <;> simp only [] <;> omega
  · intro hno
    unfold tmread
    rw [if_neg]
    intro hf
    rw [formatOk_iff] at hf
    obtain ⟨hlen, hgo⟩ := hf
    apply hno
    match l, hlen with
    | [c0, c1, c2, c3, c4, c5, c6, c7], _ =>
      simp only [List.mem_cons, List.not_mem_nil, or_false, forall_eq_or_imp, forall_eq] at hl
      simp (config := { decide := true }) only [timeFmt, formatOk.go, strAtChar, List.getD_cons_zero, List.getD_cons_succ, if_true, if_false] at hgo
      repeat' (split at hgo)
      all_goals cases hgo
      exact ⟨c0 - 48, c1 - 48, c3 - 48, c4 - 48, c6 - 48, c7 - 48, by omega, by omega, by omega,
        by omega, by omega, by omega, by
          simp only [List.cons.injEq, and_true]; omega⟩

/-- **C47 (refuted case).** On wide strings only the low byte of each character is checked: TMREAD accepts
`U+1030 …` as a digit and stores 10 * 4096 + … hours. -/
theorem C47_wide_violated :
    tmread ⟨true, [0x1030, 0x30, 0x3a, 0x30, 0x30, 0x3a, 0x30, 0x30]⟩ = .ok (40960 * 4096, 0, 0) := by decide

example : dtread ⟨false, [50, 48, 49, 50, 47, 49, 50, 47, 51, 49]⟩ = .ok (2012 * 4096, 12 * 4096, 31 * 4096) ∧
    tmread ⟨false, [50, 51, 58, 53, 57, 58, 48, 55]⟩ = .ok (23 * 4096, 59 * 4096, 7 * 4096) := by decide

end Sbc.Strs
