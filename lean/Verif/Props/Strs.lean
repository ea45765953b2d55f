import Verif.Proof.Strs
import Verif.Model.StrFuncs
set_option autoImplicit false
/-!
# C14, C15, C19: character codes, string comparison, concatenation
-/
namespace Sbc.Strs
open Sbc Sbc.Strs.Spec

/-- **C14.** Every 8-bit character code survives conversion to its wide form and back. -/
theorem C14_roundtrip (c : Nat) (h : c < 256) : toChar (toWide c) = c := roundtrip_all ⟨c, h⟩

/-- **C14.** Different codes have different wide forms, all of them 16-bit. -/
theorem C14_injective (c d : Nat) (hc : c < 256) (hd : d < 256) :
    toWide c < 65536 ∧ (toWide c = toWide d ↔ c = d) := by
  refine ⟨toWide_lt_all ⟨c, hc⟩, fun h => ?_, fun h => by rw [h]⟩
  have h1 := C14_roundtrip c hc
  have h2 := C14_roundtrip d hd
  rw [h, h2] at h1
  exact (Int.ofNat_inj.mp h1).symm

/-- **C14.** Copying any 8-bit string to a wide buffer and back gives the same string. -/
theorem C14_copy_roundtrip (l : List Nat) (h : ∀ c ∈ l, c < 256) :
    copyBuf true false (copyBuf false true l) = l := by
  simp only [copyBuf, List.map_map]
  conv => rhs; rw [← List.map_id l]
  apply List.map_congr_left
  intro c hc
  simp only [Function.comp, id]
  rw [C14_roundtrip c (h c hc)]
  unfold toU8
  have := h c hc
  omega

/-- **C14.** `ASC(CHR$(n)) = n` for the codes 0..255 (given as fixed-point numbers, the fraction being
ignored); `CHR$` of any other number reports an error. -/
theorem C14_asc_chr (x : Int) :
    (0 ≤ x / 4096 ∧ x / 4096 ≤ 255 →
      ∃ s, funcChr x = .ok s ∧ chars s = [(x / 4096).toNat] ∧ funcAsc s = .ok (x / 4096 * 4096)) ∧
    (¬ (0 ≤ x / 4096 ∧ x / 4096 ≤ 255) → funcChr x = .err .outOfRange) := by
  constructor
  · intro h
    refine ⟨⟨false, [(x / 4096).toNat]⟩, ?_, rfl, ?_⟩
    · unfold funcChr fpToInt; simp only []; rw [if_neg (by omega)]
    · unfold funcAsc strLen strAtChar
      simp only [List.length_singleton, List.getD_cons_zero]
      rw [if_neg (by omega), intToFp_small ⟨by omega, by omega⟩]
      congr 1; omega
  · intro h
    unfold funcChr fpToInt; simp only []; rw [if_pos (by omega)]

/-- **C14.** `CHR$(ASC(s))` is the first character of any non-empty 8-bit string; `ASC` of the empty
string reports an error. -/
theorem C14_chr_asc (s : Str) (h8 : s.wide = false) (hw : s.WF) :
    (∀ c l, chars s = c :: l → ∃ x, funcAsc s = .ok x ∧ ∃ t, funcChr x = .ok t ∧ chars t = [c]) ∧
    (chars s = [] → funcAsc s = .err .syntax) := by
  obtain ⟨w, d⟩ := s
  simp only [] at h8; subst h8
  constructor
  · intro c l h
    have hd : d = c :: l := h
    have hc : c < 256 := by have := hw.2 c (by rw [hd]; simp); simpa using this
    subst hd
    refine ⟨(c : Int) * 4096, ?_, ⟨false, [c]⟩, ?_, rfl⟩
    · unfold funcAsc strLen strAtChar
      simp only [List.length_cons, List.getD_cons_zero]
      rw [if_neg (by omega), intToFp_small ⟨by omega, by omega⟩]
    · unfold funcChr fpToInt
      simp only []
      have e : ((c : Int) * 4096) / 4096 = c := by omega
      rw [e, if_neg (by omega)]; simp
  · intro h
    have hd : d = [] := h
    subst hd
    rfl

theorem intToFp_bool (p : Prop) [Decidable p] : intToFp (if p then 1 else 0) = truth p := by
  unfold truth; split <;> rfl

/-- **C15.** The six comparison operators on strings are the lexicographic comparison of the strings'
characters, independently of how either string is represented.  (`same` tells whether both operands are
the same object, in which case their contents coincide.) -/
theorem C15_compare (a b : Str) (same : Bool) (hs : same = true → a = b) :
    opEqual same a b = truth (text a = text b) ∧
    opInequal same a b = truth (text a ≠ text b) ∧
    opLess a b = truth (text a < text b) ∧
    opGreater a b = truth (text b < text a) ∧
    opLessEqual a b = truth (¬ text b < text a) ∧
    opGreaterEqual a b = truth (¬ text a < text b) := by
  have hc := strComp_iff a b same hs
  have hl := strLex_eq a b
  refine ⟨?_, ?_, ?_, ?_, ?_, ?_⟩
  · unfold opEqual; rw [intToFp_bool]; unfold truth
    by_cases h : text a = text b
    · rw [if_pos (hc.2 h), if_pos h]
    · rw [if_neg (fun h' => h (hc.1 h')), if_neg h]
  · unfold opInequal
    by_cases h : text a = text b
    · rw [if_pos (hc.2 h)]; simp [truth, h]; rfl
    · rw [if_neg (fun h' => h (hc.1 h'))]; simp [truth, h]; rfl
  all_goals
    first | unfold opLess | unfold opGreater | unfold opLessEqual | unfold opGreaterEqual
    rw [intToFp_bool, hl]
    unfold truth lexSign
    by_cases h1 : text a < text b
    · have := nat_list_lt_asymm h1
      simp [h1, this]
    · by_cases h2 : text b < text a
      · simp [h1, h2]
      · simp [h1, h2]

/-- **C15.** The order is total, antisymmetric and transitive, and consistent with equality. -/
theorem C15_total_order (a b c : Str) :
    (opLessEqual a b = 4096 ∨ opLessEqual b a = 4096) ∧
    (opLessEqual a b = 4096 → opLessEqual b a = 4096 → opEqual false a b = 4096) ∧
    (opLessEqual a b = 4096 → opLessEqual b c = 4096 → opLessEqual a c = 4096) ∧
    (opLess a b = 4096 ↔ opLessEqual a b = 4096 ∧ opEqual false a b = 0) := by
  have t : ∀ (p : Prop) [Decidable p], truth p = 4096 ↔ p := by intro p _; unfold truth; split <;> simp_all
  have t0 : ∀ (p : Prop) [Decidable p], truth p = 0 ↔ ¬ p := by intro p _; unfold truth; split <;> simp_all
  have hab := C15_compare a b false (by simp)
  have hba := C15_compare b a false (by simp)
  have hbc := C15_compare b c false (by simp)
  have hac := C15_compare a c false (by simp)
  rw [hab.2.2.2.2.1, hba.2.2.2.2.1, hbc.2.2.2.2.1, hac.2.2.2.2.1, hab.1, hab.2.2.1]
  simp only [t, t0]
  refine ⟨?_, ?_, ?_, ?_⟩
  · by_cases h : text b < text a
    · exact Or.inr (nat_list_lt_asymm h)
    · exact Or.inl h
  · intro h1 h2
    rcases nat_list_trichotomy (text a) (text b) with h | h | h
    · exact absurd h h2
    · exact h
    · exact absurd h h1
  · intro h1 h2 h3
    rcases nat_list_trichotomy (text a) (text b) with h | h | h
    · exact h2 (List.lt_trans h3 h)
    · rw [h] at h3; exact h2 h3
    · exact h1 h
  · constructor
    · intro h
      exact ⟨nat_list_lt_asymm h, fun e => nat_list_lt_irrefl _ (by rw [e] at h; exact h)⟩
    · rintro ⟨h1, h2⟩
      rcases nat_list_trichotomy (text a) (text b) with h | h | h
      · exact h
      · exact absurd h h2
      · exact absurd h h1

/-- Different representations, same characters: a wide "A" equals an 8-bit "A"; "A" < "AB" < "B". -/
example : opEqual false ⟨true, [0xff21]⟩ ⟨false, [65]⟩ = 4096 ∧ opLess ⟨false, [65]⟩ ⟨false, [65, 66]⟩ = 4096 ∧
    opLess ⟨false, [65, 66]⟩ ⟨true, [0xff22]⟩ = 4096 := by decide

theorem copyBuf_chars (s : Str) : copyBuf s.wide false s.data = chars s := by
  unfold copyBuf chars; cases s.wide <;> rfl

/-- **C19.** `s+t` is the concatenation when it has at most 256 characters; otherwise String too long is
reported.  The result is 8-bit and fits its 256-cell buffer. -/
theorem C19_concat (a b : Str) :
    opAdd a b = if (chars a).length + (chars b).length ≤ 256 then .ok ⟨false, chars a ++ chars b⟩
      else .err .stringTooLong := by
  have la : (chars a).length = strLen a := by unfold chars strLen; split <;> simp
  have lb : (chars b).length = strLen b := by unfold chars strLen; split <;> simp
  rw [la, lb]
  unfold opAdd maxLen
  by_cases h : strLen a + strLen b > 256
  · rw [if_pos h, if_neg (by omega)]
  · rw [if_neg h, if_pos (by omega)]
    unfold strConcat maxLen
    rw [if_neg h]
    simp only [copyBuf_chars]

/-- **C19.** `s*n` is the `n`-fold repetition (none for `n ≤ 0`, the fraction of `n` being ignored) when it
has at most 256 characters; otherwise String too long is reported. -/
theorem C19_repeat (s : Str) (hl : strLen s ≤ 256) (n : Int) (hn : I32 n) :
    opMult s n = if (n / 4096).toNat * (chars s).length ≤ 256 then .ok ⟨false, repeated (chars s) (n / 4096).toNat⟩
      else .err .stringTooLong := by
  have la : (chars s).length = strLen s := by unfold chars strLen; split <;> simp
  rw [la]
  unfold opMult fpToInt
  simp only []
  have hb : (n / 4096).toNat ≤ 524287 := by unfold I32 at hn; omega
  have hp : (n / 4096).toNat * strLen s ≤ 524287 * 256 := Nat.mul_le_mul hb hl
  rw [Nat.mod_eq_of_lt (by omega)]
  unfold maxLen
  by_cases h : (n / 4096).toNat * strLen s > 256
  · rw [if_pos h, if_neg (by omega)]
  · rw [if_neg h, if_pos (by omega)]
    have := repeatLoop_eq s (n / 4096).toNat 0 [] rfl (by unfold maxLen; rw [Nat.zero_add]; omega)
    rw [this, copyBuf_chars]
    simp

/-- **C19 (refuted case).** A wide string holding a character without 8-bit code (typed through
`LINPUT`) is not preserved by concatenation: here U+4E00 becomes code 255. -/
theorem C19_concat_wide_violated :
    ∃ a b r, Str.WF a ∧ Str.WF b ∧ opAdd a b = .ok r ∧ text r ≠ text a ++ text b := by
  refine ⟨⟨true, [0x4e00]⟩, ⟨false, []⟩, ⟨false, [255]⟩, ⟨by decide, by decide⟩, ⟨by decide, by decide⟩, by decide, by decide⟩

/-- On 8-bit strings the concatenation is the concatenation of the characters seen by the user. -/
theorem C19_concat_text (a b r : Str) (ha : a.wide = false) (hb : b.wide = false) (h : opAdd a b = .ok r) :
    text r = text a ++ text b := by
  rw [C19_concat] at h
  split at h
  · injection h with h; subst h
    simp [text, chars, ha, hb]
  · cases h

example : opAdd ⟨false, [65, 66]⟩ ⟨true, [0xff23]⟩ = .ok ⟨false, [65, 66, 67]⟩ ∧
    opMult ⟨false, [65, 66]⟩ (3 * 4096 + 5) = .ok ⟨false, [65, 66, 65, 66, 65, 66]⟩ ∧
    opMult ⟨false, [65, 66]⟩ (-4096) = .ok ⟨false, []⟩ ∧
    opMult ⟨false, [65, 66]⟩ (129 * 4096) = .err .stringTooLong := by decide

end Sbc.Strs
