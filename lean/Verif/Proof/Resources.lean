import Verif.Spec.Resources
set_option autoImplicit false
namespace Sbc.Res
open Sbc Sbc.Strs

/-- What follows the type: nothing or the separator. -/
def Tail (tail : List Nat) : Prop := tail = [] ∨ ∃ f, tail = 58 :: f

theorem tail_ch {tail : List Nat} (h : Tail tail) : tail.getD 0 0 = 58 ∨ tail.getD 0 0 = 0 := by
  rcases h with h | ⟨f, h⟩ <;> subst h <;> simp

theorem entryOk_3 {a b c : Nat} {tail : List Nat} (h : Tail tail) (v : List Nat × Nat × Nat) :
    entryOk (a :: b :: c :: tail) v = true ↔ [a, b, c] = v.1 := by
  have := tail_ch h
  unfold entryOk
  have hc : ch (a :: b :: c :: tail) 3 = tail.getD 0 0 := rfl
  rw [hc]
  by_cases h1 : [a, b, c] = v.1
  · rw [if_neg (by simpa using h1)]
    by_cases h2 : v.2.1 = 0
    · rw [if_pos h2]; simpa using h1
    · rw [if_neg h2]; dsimp only; rw [if_pos (show _ = sepChar ∨ _ from this)]; simpa using h1
  · rw [if_pos (by simpa using h1)]; simpa using h1

theorem entryOk_4 {a b c d : Nat} {tail : List Nat} (h : Tail tail) (h58 : d ≠ 58) (h0 : d ≠ 0) (v : List Nat × Nat × Nat) :
    entryOk (a :: b :: c :: d :: tail) v = true ↔ [a, b, c] = v.1 ∧ (v.2.1 = 0 ∨ 48 ≤ d ∧ d ≤ v.2.1) := by
  have := tail_ch h
  unfold entryOk
  have hc : ch (a :: b :: c :: d :: tail) 3 = d := rfl
  have hd : ch (a :: b :: c :: d :: tail) 4 = tail.getD 0 0 := rfl
  rw [hc, hd]
  by_cases h1 : [a, b, c] = v.1
  · rw [if_neg (by simpa using h1)]
    by_cases h2 : v.2.1 = 0
    · rw [if_pos h2]; simp [h1, h2]
    · rw [if_neg h2]; dsimp only; rw [if_neg (show ¬ (d = sepChar ∨ d = 0) by unfold sepChar; omega)]
      by_cases h3 : 48 > d ∨ d > v.2.1
      · rw [if_pos h3]; simp; omega
      · rw [if_neg h3, if_pos (show _ = sepChar ∨ _ from this)]; simp [h1]; omega
  · rw [if_pos (by simpa using h1)]; simp [h1]

theorem entryOk_5 {a b c d e : Nat} {tail : List Nat} (h58 : d ≠ 58) (h0 : d ≠ 0) (e58 : e ≠ 58) (e0 : e ≠ 0)
    (v : List Nat × Nat × Nat) :
    entryOk (a :: b :: c :: d :: e :: tail) v = true ↔ [a, b, c] = v.1 ∧ (v.2.1 = 0 ∨ (48 ≤ d ∧ d ≤ v.2.1) ∧
      (v.2.2 = 0 ∨ (v.2.2 = 80 ∧ (e = 76 ∨ e = 85)) ∨ (v.2.2 ≠ 80 ∧ v.2.2 = e))) := by
  unfold entryOk
  have hc : ch (a :: b :: c :: d :: e :: tail) 3 = d := rfl
  have hd : ch (a :: b :: c :: d :: e :: tail) 4 = e := rfl
  rw [hc, hd]
  by_cases h1 : [a, b, c] = v.1
  · rw [if_neg (by simpa using h1)]
    by_cases h2 : v.2.1 = 0
    · rw [if_pos h2]; simp [h1, h2]
    · rw [if_neg h2]; dsimp only; rw [if_neg (show ¬ (d = sepChar ∨ d = 0) by unfold sepChar; omega)]
      by_cases h3 : 48 > d ∨ d > v.2.1
      · rw [if_pos h3]; simp; omega
      · rw [if_neg h3, if_neg (show ¬ (e = sepChar ∨ e = 0) by unfold sepChar; omega)]
        have h3' : 48 ≤ d ∧ d ≤ v.2.1 := by omega
        by_cases h4 : v.2.2 = 0
        · rw [if_pos h4]; simp [h1, h3', h4]
        · rw [if_neg h4]
          by_cases h5 : v.2.2 = 80
          · rw [if_pos h5]
            by_cases h6 : e ≠ 76 ∧ e ≠ 85
            · rw [if_pos h6]; simp [h2, h5]; omega
            · rw [if_neg h6]; simp [h1, h3', h5]; omega
          · rw [if_neg h5]
            by_cases h6 : v.2.2 ≠ e
            · rw [if_pos h6]; simp [h2, h4, h5, h6]
            · rw [if_neg h6]; simp [h1, h3', h4, h5]
              exact Or.inr (by simpa using h6)
  · rw [if_pos (by simpa using h1)]; simp [h1]

theorem TypeName.length {t : List Nat} (h : TypeName t) : 3 ≤ t.length ∧ t.length ≤ 5 := by
  have hl : ∀ k : Kind, k.letters.length = 3 := by intro k; cases k <;> rfl
  cases h <;> simp [hl] <;> omega

theorem any_3 {a b c : Nat} {tail : List Nat} (h : Tail tail) :
    validTypes.any (entryOk (a :: b :: c :: tail)) = true ↔ TypeName [a, b, c] := by
  rw [List.any_eq_true]
  constructor
  · rintro ⟨v, hv, he⟩
    rw [entryOk_3 h] at he
    rw [he]
    simp only [validTypes, List.mem_cons, List.not_mem_nil, or_false] at hv
    rcases hv with h|h|h|h|h|h|h|h|h|h|h <;> subst h
    · exact .letters .prg
    · exact .letters .mem
    · exact .letters .bgu
    · exact .letters .bgd
    · exact .letters .bgf
    · exact .letters .spu
    · exact .letters .sps
    · exact .letters .spd
    · exact .letters .col
    · exact .letters .scu
    · exact .letters .grp
  · intro ht
    have hk : ∃ k : Kind, [a, b, c] = k.letters := by
      generalize hx : [a, b, c] = x at ht
      cases ht with
      | letters k => exact ⟨k, rfl⟩
      | bank k b h => have := congrArg List.length hx; cases k <;> simp [Kind.letters] at this
      | screen k b p h hp => have := congrArg List.length hx; cases k <;> simp [Kind.letters] at this
      | grp b p h => have := congrArg List.length hx; simp [Kind.letters] at this
      | rest k r h hr =>
        refine ⟨k, ?_⟩
        have := congrArg List.length hx
        have hl : k.letters.length = 3 := by cases k <;> rfl
        simp [hl] at this
        simp [this]
    obtain ⟨k, hk⟩ := hk
    cases k
    · exact ⟨([66, 71, 85], 51, 80), by decide, by rw [entryOk_3 h]; exact hk⟩
    · exact ⟨([66, 71, 68], 49, 80), by decide, by rw [entryOk_3 h]; exact hk⟩
    · exact ⟨([66, 71, 70], 48, 80), by decide, by rw [entryOk_3 h]; exact hk⟩
    · exact ⟨([83, 80, 85], 55, 85), by decide, by rw [entryOk_3 h]; exact hk⟩
    · exact ⟨([83, 80, 83], 49, 80), by decide, by rw [entryOk_3 h]; exact hk⟩
    · exact ⟨([83, 80, 68], 51, 76), by decide, by rw [entryOk_3 h]; exact hk⟩
    · exact ⟨([67, 79, 76], 50, 80), by decide, by rw [entryOk_3 h]; exact hk⟩
    · exact ⟨([83, 67, 85], 49, 80), by decide, by rw [entryOk_3 h]; exact hk⟩
    · exact ⟨([71, 82, 80], 51, 0), by decide, by rw [entryOk_3 h]; exact hk⟩
    · exact ⟨([80, 82, 71], 0, 0), by decide, by rw [entryOk_3 h]; exact hk⟩
    · exact ⟨([77, 69, 77], 0, 0), by decide, by rw [entryOk_3 h]; exact hk⟩

/-- The entry of a kind in the table. -/
def entryOf : Kind → List Nat × Nat × Nat
  | .bgu => ([66, 71, 85], 51, 80) | .bgd => ([66, 71, 68], 49, 80) | .bgf => ([66, 71, 70], 48, 80)
  | .spu => ([83, 80, 85], 55, 85) | .sps => ([83, 80, 83], 49, 80) | .spd => ([83, 80, 68], 51, 76)
  | .col => ([67, 79, 76], 50, 80) | .scu => ([83, 67, 85], 49, 80) | .grp => ([71, 82, 80], 51, 0)
  | .prg => ([80, 82, 71], 0, 0) | .mem => ([77, 69, 77], 0, 0)

theorem entryOf_mem (k : Kind) : entryOf k ∈ validTypes := by cases k <;> decide

theorem entryOf_1 (k : Kind) : (entryOf k).1 = k.letters := by cases k <;> rfl

theorem entryOf_2 (k : Kind) : (entryOf k).2.1 = if k.banks = 0 then 0 else 47 + k.banks := by cases k <;> rfl

theorem mem_entryOf {v : List Nat × Nat × Nat} (h : v ∈ validTypes) : ∃ k, v = entryOf k := by
  simp only [validTypes, List.mem_cons, List.not_mem_nil, or_false] at h
  rcases h with h|h|h|h|h|h|h|h|h|h|h <;> subst h
  · exact ⟨.prg, rfl⟩
  · exact ⟨.mem, rfl⟩
  · exact ⟨.bgu, rfl⟩
  · exact ⟨.bgd, rfl⟩
  · exact ⟨.bgf, rfl⟩
  · exact ⟨.spu, rfl⟩
  · exact ⟨.sps, rfl⟩
  · exact ⟨.spd, rfl⟩
  · exact ⟨.col, rfl⟩
  · exact ⟨.scu, rfl⟩
  · exact ⟨.grp, rfl⟩

theorem letters_3 (k : Kind) : k.letters.length = 3 := by cases k <;> rfl

theorem any_4 {a b c d : Nat} {tail : List Nat} (h : Tail tail) (h58 : d ≠ 58) (h0 : d ≠ 0) :
    validTypes.any (entryOk (a :: b :: c :: d :: tail)) = true ↔ TypeName [a, b, c, d] := by
  rw [List.any_eq_true]
  constructor
  · rintro ⟨v, hv, he⟩
    obtain ⟨k, rfl⟩ := mem_entryOf hv
    rw [entryOk_4 h h58 h0, entryOf_1, entryOf_2] at he
    obtain ⟨h1, h2⟩ := he
    have hx : [a, b, c, d] = k.letters ++ [d] := by rw [← h1]; rfl
    by_cases hb : k.banks = 0
    · rw [hx]; exact .rest k [d] hb (by simp)
    · rw [if_neg hb] at h2
      rw [hx, show d = 48 + (d - 48) by omega]
      exact .bank k (d - 48) (by omega)
  · intro ht
    have hk : ∃ k : Kind, [a, b, c] = k.letters ∧ (k.banks = 0 ∨ 48 ≤ d ∧ d < 48 + k.banks) := by
      generalize hx : [a, b, c, d] = x at ht
      cases ht with
      | letters k => have := congrArg List.length hx; simp [letters_3] at this
      | bank k b' h =>
        refine ⟨k, ?_⟩
        have h3 := congrArg (List.take 3) hx
        have h4 := congrArg (List.drop 3) hx
        rw [List.take_left' (letters_3 k)] at h3
        rw [List.drop_left' (letters_3 k)] at h4
        simp at h3 h4
        exact ⟨h3, Or.inr (by omega)⟩
      | screen k b p h hp => have := congrArg List.length hx; simp [letters_3] at this
      | grp b p h => have := congrArg List.length hx; simp [letters_3] at this
      | rest k r h hr =>
        refine ⟨k, ?_, Or.inl h⟩
        have h3 := congrArg (List.take 3) hx
        rw [List.take_left' (letters_3 k)] at h3
        simpa using h3
    obtain ⟨k, hk, hd⟩ := hk
    refine ⟨entryOf k, entryOf_mem k, ?_⟩
    rw [entryOk_4 h h58 h0, entryOf_1, entryOf_2]
    refine ⟨hk, ?_⟩
    rcases hd with hd | hd
    · rw [if_pos hd]; exact Or.inl rfl
    · by_cases hb : k.banks = 0
      · rw [if_pos hb]; exact Or.inl rfl
      · rw [if_neg hb]; exact Or.inr (by omega)

theorem any_5 {a b c d e : Nat} {tail : List Nat} (h58 : d ≠ 58) (h0 : d ≠ 0) (e58 : e ≠ 58) (e0 : e ≠ 0) :
    validTypes.any (entryOk (a :: b :: c :: d :: e :: tail)) = true ↔ TypeName [a, b, c, d, e] := by
  rw [List.any_eq_true]
  constructor
  · rintro ⟨v, hv, he⟩
    obtain ⟨k, rfl⟩ := mem_entryOf hv
    rw [entryOk_5 h58 h0 e58 e0, entryOf_1, entryOf_2] at he
    obtain ⟨h1, h2⟩ := he
    have hx : [a, b, c, d, e] = k.letters ++ [d, e] := by rw [← h1]; rfl
    by_cases hb : k.banks = 0
    · rw [hx]; exact .rest k [d, e] hb (by simp)
    · rw [if_neg hb] at h2
      rw [hx, show d = 48 + (d - 48) by omega]
      rcases h2 with h2 | ⟨h2, h3⟩
      · omega
      · by_cases hg : k = .grp
        · subst hg; exact .grp (d - 48) e (by simp [Kind.banks] at h2; omega)
        · refine .screen k (d - 48) e (by omega) ?_
          cases k <;> simp [entryOf, Kind.screens, Kind.banks] at h3 hg hb ⊢ <;> omega
  · intro ht
    have hk : ∃ k : Kind, [a, b, c] = k.letters ∧ (k.banks = 0 ∨ (48 ≤ d ∧ d < 48 + k.banks) ∧ (k = .grp ∨ e ∈ k.screens)) := by
      generalize hx : [a, b, c, d, e] = x at ht
      cases ht with
      | letters k => have := congrArg List.length hx; simp [letters_3] at this
      | bank k b' h => have := congrArg List.length hx; simp [letters_3] at this
      | screen k b p h hp =>
        refine ⟨k, ?_⟩
        have h3 := congrArg (List.take 3) hx
        have h4 := congrArg (List.drop 3) hx
        rw [List.take_left' (letters_3 k)] at h3
        rw [List.drop_left' (letters_3 k)] at h4
        simp at h3 h4
        exact ⟨h3, Or.inr ⟨by omega, Or.inr (by rw [h4.2]; exact hp)⟩⟩
      | grp b p h =>
        simp [Kind.letters] at hx
        exact ⟨.grp, by simp [Kind.letters, hx], Or.inr ⟨by simp [Kind.banks]; omega, Or.inl rfl⟩⟩
      | rest k r h hr =>
        refine ⟨k, ?_, Or.inl h⟩
        have h3 := congrArg (List.take 3) hx
        rw [List.take_left' (letters_3 k)] at h3
        simpa using h3
    obtain ⟨k, hk, hd⟩ := hk
    refine ⟨entryOf k, entryOf_mem k, ?_⟩
    rw [entryOk_5 h58 h0 e58 e0, entryOf_1, entryOf_2]
    refine ⟨hk, ?_⟩
    by_cases hb : k.banks = 0
    · rw [if_pos hb]; exact Or.inl rfl
    · rw [if_neg hb]
      rcases hd with hd | ⟨hd, hs⟩
      · exact absurd hd hb
      · refine Or.inr ⟨by omega, ?_⟩
        cases k <;> simp [entryOf, Kind.screens] at hs hb ⊢ <;> omega

theorem findIdx_none {t : List Nat} (h : 58 ∉ t) : t.findIdx? (· == sepChar) = none := by
  rw [List.findIdx?_eq_none_iff]
  intro x hx; simp [sepChar]; rintro rfl; exact h hx

theorem findIdx_some {t f : List Nat} (h : 58 ∉ t) : (t ++ 58 :: f).findIdx? (· == sepChar) = some t.length := by
  rw [List.findIdx?_append, findIdx_none h]
  simp [List.findIdx?_cons, sepChar]

/-- The length check of `verify_resource_type`, for a type and what follows it. -/
theorem verifyType_eq {t tail : List Nat} (h : 58 ∉ t) (ht : Tail tail) :
    verifyType (t ++ tail) = if t.length > 5 then false else validTypes.any (entryOk (t ++ tail)) := by
  unfold verifyType
  rcases ht with rfl | ⟨f, rfl⟩
  · rw [List.append_nil, findIdx_none h]
  · rw [findIdx_some h]

/-- `verify_resource_type` accepts exactly the valid types. -/
theorem verifyType_iff {t tail : List Nat} (h58 : 58 ∉ t) (h0 : 0 ∉ t) (ht : Tail tail) :
    verifyType (t ++ tail) = true ↔ TypeName t := by
  rw [verifyType_eq h58 ht]
  by_cases hl : t.length > 5
  · rw [if_pos hl]
    exact ⟨fun h => (by cases h), fun h => by have := h.length; omega⟩
  · rw [if_neg hl]
    have short : t.length < 3 → (validTypes.any (entryOk (t ++ tail)) = true ↔ TypeName t) := by
      intro hs
      refine ⟨fun h => ?_, fun h => by have := h.length; omega⟩
      rw [List.any_eq_true] at h
      obtain ⟨v, hv, he⟩ := h
      obtain ⟨k, rfl⟩ := mem_entryOf hv
      unfold entryOk at he
      by_cases hx : (t ++ tail).take 3 = k.letters
      · exfalso
        rcases ht with rfl | ⟨f, rfl⟩
        · have := congrArg List.length hx
          simp [letters_3] at this; omega
        · have h58 : 58 ∈ (t ++ 58 :: f).take 3 := by
            match t, hs with
            | [], _ => simp
            | [_], _ => simp
            | [_, _], _ => simp
          rw [hx] at h58
          cases k <;> simp [Kind.letters] at h58
      · rw [if_pos (by rw [entryOf_1]; exact hx)] at he; cases he
    match t, hl, h58, h0, short with
    | [], _, _, _, sh => exact sh (by simp)
    | [_], _, _, _, sh => exact sh (by simp)
    | [_, _], _, _, _, sh => exact sh (by simp)
    | [a, b, c], _, _, _, _ => exact any_3 ht
    | [a, b, c, d], _, h58, h0, _ =>
      simp at h58 h0
      exact any_4 ht (by omega) (by omega)
    | [a, b, c, d, e], _, h58, h0, _ =>
      simp at h58 h0
      exact any_5 (by omega) (by omega) (by omega) (by omega)
    | _ :: _ :: _ :: _ :: _ :: _ :: _, hl, _, _, _ => simp at hl

theorem verifyFile_iff (f : List Nat) : verifyFile f = true ↔ FileName f := by
  unfold verifyFile FileName
  by_cases h : f.length = 0 ∨ f.length > 8
  · rw [if_pos h]; exact ⟨fun h => (by cases h), fun h => by omega⟩
  · rw [if_neg h, List.all_eq_true]
    constructor
    · intro hf
      refine ⟨by omega, by omega, fun c hc => ?_⟩
      have := hf c hc
      simpa [isName] using this
    · intro hf c hc
      have := hf.2.2 c hc
      simpa [isName] using this

end Sbc.Res
