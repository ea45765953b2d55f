import Verif.Spec.Strs
set_option autoImplicit false
/-!
# Lemmas on strings
-/
namespace Sbc.Strs
open Sbc Sbc.Strs.Spec

theorem roundtrip_all : ∀ c : Fin 256, toChar (toWide c.1) = c.1 := by decide +kernel

theorem toWide_lt_all : ∀ c : Fin 256, toWide c.1 < 65536 := by decide +kernel

theorem text_length (s : Str) : (text s).length = strLen s := by
  unfold text strLen; split <;> simp

theorem strAtWide_text (s : Str) (i : Nat) (h : i < strLen s) :
    some (strAtWide s i) = (text s)[i]? := by
  unfold strAtWide text
  unfold strLen at h
  split
  · simp [List.getD, List.getElem?_eq_getElem h]
  · simp [List.getD, List.getElem?_eq_getElem h]

/-- Two lists agree from index `i` on iff the rest agrees. -/
theorem drop_cons {l : List Nat} {i : Nat} {x : Nat} (h : some x = l[i]?) :
    l.drop i = x :: l.drop (i + 1) := by
  have hi : i < l.length := by
    rcases Nat.lt_or_ge i l.length with h' | h'
    · exact h'
    · rw [List.getElem?_eq_none h'] at h; cases h
  rw [List.getElem?_eq_getElem hi] at h
  injection h with h
  rw [List.drop_eq_getElem_cons hi, h]

theorem strComp_go (a b : Str) : ∀ (n i : Nat), i + n = strLen a → i + n = strLen b →
    (strComp.go a b n i = true ↔ (text a).drop i = (text b).drop i)
  | 0, i, ha, hb => by
    have h1 : (text a).drop i = [] := List.drop_eq_nil_of_le (by rw [text_length]; omega)
    have h2 : (text b).drop i = [] := List.drop_eq_nil_of_le (by rw [text_length]; omega)
    simp [strComp.go, h1, h2]
  | n + 1, i, ha, hb => by
    have h1 := drop_cons (strAtWide_text a i (by omega))
    have h2 := drop_cons (strAtWide_text b i (by omega))
    have ih := strComp_go a b n (i + 1) (by omega) (by omega)
    rw [strComp.go, h1, h2]
    split
    · rename_i hne; simp [hne]
    · rename_i he
      have he : strAtWide a i = strAtWide b i := by simpa using he
      rw [ih, he]; simp

theorem strComp_iff (a b : Str) (same : Bool) (hs : same = true → a = b) :
    strComp same a b = true ↔ text a = text b := by
  unfold strComp
  split
  · rename_i h; simp [hs h]
  · split
    · rename_i h
      constructor
      · intro h'; simp at h'
      · intro h'
        have := congrArg List.length h'
        rw [text_length, text_length] at this
        exact absurd this h
    · rename_i h
      have h : strLen a = strLen b := by simpa using h
      rw [strComp_go a b (strLen a) 0 (by omega) (by omega)]
      simp

/-- Three-way result of comparing two lists. -/
def lexSign (x y : List Nat) : Int := if x < y then -1 else if y < x then 1 else 0

theorem lexSign_cons_lt {a b : Nat} {x y : List Nat} (h : a < b) : lexSign (a :: x) (b :: y) = -1 := by
  unfold lexSign
  rw [if_pos (by rw [List.cons_lt_cons_iff]; exact Or.inl h)]

theorem lexSign_cons_gt {a b : Nat} {x y : List Nat} (h : b < a) : lexSign (a :: x) (b :: y) = 1 := by
  unfold lexSign
  rw [if_neg (by rw [List.cons_lt_cons_iff]; omega), if_pos (by rw [List.cons_lt_cons_iff]; exact Or.inl h)]

theorem lexSign_cons_eq {a : Nat} {x y : List Nat} : lexSign (a :: x) (a :: y) = lexSign x y := by
  unfold lexSign
  simp [List.cons_lt_cons_iff]

theorem strLex_go (a b : Str) (fin : Int)
    (hfin : fin = if strLen a < strLen b then -1 else if strLen b < strLen a then 1 else 0) :
    ∀ (n i : Nat), i + n = min (strLen a) (strLen b) →
    strLex.go a b n i fin = lexSign ((text a).drop i) ((text b).drop i)
  | 0, i, h => by
    rw [strLex.go, hfin]
    unfold lexSign
    rcases Nat.lt_trichotomy (strLen a) (strLen b) with hlt | heq | hgt
    · have h1 : (text a).drop i = [] := List.drop_eq_nil_of_le (by rw [text_length]; omega)
      have h2 := drop_cons (strAtWide_text b i (by omega))
      rw [h1, h2]; simp [hlt]
    · have h1 : (text a).drop i = [] := List.drop_eq_nil_of_le (by rw [text_length]; omega)
      have h2 : (text b).drop i = [] := List.drop_eq_nil_of_le (by rw [text_length]; omega)
      rw [h1, h2]; simp [heq]
    · have h1 : (text b).drop i = [] := List.drop_eq_nil_of_le (by rw [text_length]; omega)
      have h2 := drop_cons (strAtWide_text a i (by omega))
      rw [h1, h2]
      rw [if_neg (by omega), if_pos hgt, if_neg (by simp), if_pos (by simp)]
  | n + 1, i, h => by
    have h1 := drop_cons (strAtWide_text a i (by omega))
    have h2 := drop_cons (strAtWide_text b i (by omega))
    have ih := strLex_go a b fin hfin n (i + 1) (by omega)
    rw [strLex.go, h1, h2]
    split
    · rename_i hlt; rw [lexSign_cons_lt hlt]
    · split
      · rename_i hgt; rw [lexSign_cons_gt hgt]
      · have he : strAtWide a i = strAtWide b i := by omega
        rw [ih, he, lexSign_cons_eq]

theorem strLex_eq (a b : Str) : strLex a b = lexSign (text a) (text b) := by
  unfold strLex
  simp only []
  rw [strLex_go a b _ rfl _ 0 (by split <;> omega)]
  simp

theorem nat_list_lt_irrefl (x : List Nat) : ¬ x < x := List.lt_irrefl x

theorem nat_list_trichotomy (x y : List Nat) : x < y ∨ x = y ∨ y < x := by
  induction x generalizing y with
  | nil => cases y <;> simp
  | cons a x ih =>
    cases y with
    | nil => simp
    | cons b y =>
      rw [List.cons_lt_cons_iff, List.cons_lt_cons_iff]
      rcases Nat.lt_trichotomy a b with h | h | h
      · exact Or.inl (Or.inl h)
      · subst h
        rcases ih y with h | h | h
        · exact Or.inl (Or.inr ⟨rfl, h⟩)
        · exact Or.inr (Or.inl (by rw [h]))
        · exact Or.inr (Or.inr (Or.inr ⟨rfl, h⟩))
      · exact Or.inr (Or.inr (Or.inl h))

theorem nat_list_lt_asymm {x y : List Nat} (h : x < y) : ¬ y < x :=
  fun h' => nat_list_lt_irrefl x (List.lt_trans h h')

theorem repeated_length (l : List Nat) (n : Nat) : (repeated l n).length = n * l.length := by
  induction n with
  | zero => simp [repeated]
  | succ n ih => simp [repeated, ih, Nat.add_mul]; omega

theorem repeated_snoc (l : List Nat) (n : Nat) : repeated l n ++ l = repeated l (n + 1) := by
  induction n with
  | zero => simp [repeated]
  | succ n ih => simp only [repeated, List.append_assoc] at *; rw [ih]

theorem repeatLoop_eq (x : Str) : ∀ (n m : Nat) (pre : List Nat), pre = repeated (copyBuf x.wide false x.data) m →
    (m + n) * strLen x ≤ maxLen →
    repeatLoop x n ⟨false, pre⟩ = ⟨false, repeated (copyBuf x.wide false x.data) (m + n)⟩
  | 0, m, pre, h, _ => by rw [repeatLoop, h]; rfl
  | n + 1, m, pre, h, hb => by
    have hl : (copyBuf x.wide false x.data).length = strLen x := by
      unfold copyBuf strLen; split <;> simp_all
    rw [repeatLoop]
    have hc : strConcat false ⟨false, pre⟩ x = some ⟨false, repeated (copyBuf x.wide false x.data) (m + 1)⟩ := by
      unfold strConcat
      rw [if_neg]
      · simp only [copyBuf, h]
        have := repeated_snoc (copyBuf x.wide false x.data) m
        cases hw : x.wide <;> simp only [hw, copyBuf] at this ⊢ <;> rw [this]
      · have h1 : strLen ⟨false, pre⟩ = m * strLen x := by
          unfold strLen; simp only []; rw [h, repeated_length, hl]; rfl
        rw [h1]
        have : (m + 1) * strLen x ≤ (m + (n + 1)) * strLen x := Nat.mul_le_mul_right _ (by omega)
        have h2 : (m + 1) * strLen x = m * strLen x + strLen x := by rw [Nat.add_mul]; omega
        omega
    rw [hc]
    simp only [Option.getD_some]
    rw [repeatLoop_eq x n (m + 1) _ rfl (by rw [show m + 1 + n = m + (n + 1) by omega]; exact hb)]
    rw [show m + 1 + n = m + (n + 1) by omega]

end Sbc.Strs
