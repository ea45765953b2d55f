import Verif.Model.Names
/-!
# Stored names compare like the names themselves
-/
namespace Sbc.Names

/-- The name held in a stored 16-byte field. -/
def fieldName (b : List Nat) : List Nat := (b.take 16).takeWhile (fun c => c != 0)

theorem namecmpLoop_iff (room : Nat) (a b : List Nat) (hb : b.length = room)
    (ha : a.length ≤ room) (h0 : ∀ c ∈ a, c ≠ 0) :
    namecmpLoop a b room = true ↔ (b.take room).takeWhile (fun c => c != 0) = a := by
  induction room generalizing a b with
  | zero =>
    have : b = [] := List.eq_nil_of_length_eq_zero hb
    have : a = [] := List.eq_nil_of_length_eq_zero (by omega)
    subst_vars; simp [namecmpLoop]
  | succ r ih =>
    cases b with
    | nil => simp at hb
    | cons y ys =>
      cases a with
      | nil =>
        simp [namecmpLoop]
        by_cases hy : y = 0 <;> simp [hy]
      | cons x xs =>
        simp only [namecmpLoop]
        have hx : x ≠ 0 := h0 x (by simp)
        simp only [List.length_cons] at hb ha
        by_cases hxy : x = y
        · subst hxy
          rw [if_neg (by simp), ih xs ys (by omega) (by omega)
            (fun c hc => h0 c (by simp [hc]))]
          simp [hx]
        · rw [if_pos hxy]
          simp only [List.take_succ_cons, List.takeWhile_cons]
          by_cases hy : y = 0
          · simp [hy]
          · simp [hy]; intro h; exact absurd h.symm hxy

theorem namecmp_iff (a b : List Nat) (hb : b.length = 16) (ha : GoodName a) :
    namecmp a b = true ↔ fieldName b = a :=
  namecmpLoop_iff 16 a b hb ha.2.1 ha.2.2

theorem storeName_length (n old : List Nat) (h : old.length = 16) (hn : n.length ≤ 16) :
    (storeName n old).length = 16 := by
  unfold storeName; split
  · simp [List.length_drop, h]; omega
  · omega

theorem takeWhile_append_zero (n rest : List Nat) (h : ∀ c ∈ n, c ≠ 0) :
    (n ++ 0 :: rest).takeWhile (fun c => c != 0) = n := by
  induction n with
  | nil => simp
  | cons x xs ih =>
    have hx : x ≠ 0 := h x (by simp)
    simp [hx, ih (fun c hc => h c (by simp [hc]))]

theorem takeWhile_all (n : List Nat) (h : ∀ c ∈ n, c ≠ 0) :
    n.takeWhile (fun c => c != 0) = n := by
  induction n with
  | nil => simp
  | cons x xs ih =>
    have hx : x ≠ 0 := h x (by simp)
    simp [hx, ih (fun c hc => h c (by simp [hc]))]

theorem fieldName_storeName (n old : List Nat) (h : old.length = 16) (hn : GoodName n) :
    fieldName (storeName n old) = n := by
  have hl := storeName_length n old h hn.2.1
  unfold fieldName
  rw [List.take_of_length_le (by omega)]
  unfold storeName
  split
  · exact takeWhile_append_zero _ _ hn.2.2
  · exact takeWhile_all _ hn.2.2

end Sbc.Names
