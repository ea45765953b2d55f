import Verif.Model.Swap
set_option autoImplicit false
/-!
# C46: SWAP exchanges two variables (in memory, bytes)
-/
namespace Sbc.Swap

theorem memcpy_eq (m : Mem) (dst src n a : Nat) :
    memcpy m dst src n a = if dst ≤ a ∧ a < dst + n then m (src + (a - dst)) else m a := by
  induction n with
  | zero => rw [if_neg (by omega)]; rfl
  | succ n ih =>
    unfold memcpy
    rw [ih]
    by_cases h : a = dst + n
    · subst h; rw [if_pos rfl, if_pos (by omega), show dst + n - dst = n by omega]
    · rw [if_neg h]
      by_cases h2 : dst ≤ a ∧ a < dst + n
      · rw [if_pos h2, if_pos (by omega)]
      · rw [if_neg h2, if_neg (by omega)]

theorem memput_eq (m : Mem) (dst : Nat) (c : Nat → Nat) (n a : Nat) :
    memput m dst c n a = if dst ≤ a ∧ a < dst + n then c (a - dst) else m a := by
  induction n with
  | zero => rw [if_neg (by omega)]; rfl
  | succ n ih =>
    unfold memput
    rw [ih]
    by_cases h : a = dst + n
    · subst h; rw [if_pos rfl, if_pos (by omega), show dst + n - dst = n by omega]
    · rw [if_neg h]
      by_cases h2 : dst ≤ a ∧ a < dst + n
      · rw [if_pos h2, if_pos (by omega)]
      · rw [if_neg h2, if_neg (by omega)]

/-- C46: for two variables (or array elements) whose values occupy `w` bytes each and do not overlap, or that are the
same one: each gets the other's value, and every other byte of memory is unchanged. -/
theorem C46_swap_exchanges (w : Nat) (m : Mem) (a b : Nat) (h : a = b ∨ a + w ≤ b ∨ b + w ≤ a) :
    (∀ i, i < w → cmdSwap w m a b (a + i) = m (b + i)) ∧ (∀ i, i < w → cmdSwap w m a b (b + i) = m (a + i)) ∧
    ∀ x, ¬ (a ≤ x ∧ x < a + w) → ¬ (b ≤ x ∧ x < b + w) → cmdSwap w m a b x = m x := by
  unfold cmdSwap
  refine ⟨?_, ?_, ?_⟩
  · intro i hi
    simp only [memput_eq, memcpy_eq]
    by_cases hab : b ≤ a + i ∧ a + i < b + w
    · have : a = b := by omega
      subst this
      rw [if_pos hab]; congr 1; omega
    · rw [if_neg hab, if_pos (by omega)]; congr 1; omega
  · intro i hi
    simp only [memput_eq]
    rw [if_pos (by omega)]; congr 1; omega
  · intro x h1 h2
    simp only [memput_eq, memcpy_eq]
    rw [if_neg h2, if_neg h1]

/-- C46: SWAP twice, in either order of the arguments, is the identity. -/
theorem C46_swap_twice (w : Nat) (m : Mem) (a b : Nat) (h : a = b ∨ a + w ≤ b ∨ b + w ≤ a) :
    cmdSwap w (cmdSwap w m a b) a b = m ∧ cmdSwap w (cmdSwap w m a b) b a = m := by
  have key : ∀ a' b', (a' = a ∧ b' = b ∨ a' = b ∧ b' = a) → cmdSwap w (cmdSwap w m a b) a' b' = m := by
    intro a' b' hab
    have h1 := C46_swap_exchanges w m a b h
    have h2 := C46_swap_exchanges w (cmdSwap w m a b) a' b' (by omega)
    funext x
    by_cases hxa : a ≤ x ∧ x < a + w
    · have e : x = a + (x - a) := by omega
      rcases hab with ⟨rfl, rfl⟩ | ⟨rfl, rfl⟩
      · rw [e, h2.1 _ (by omega), h1.2.1 _ (by omega)]
      · rw [e, h2.2.1 _ (by omega), h1.2.1 _ (by omega)]
    · by_cases hxb : b ≤ x ∧ x < b + w
      · have e : x = b + (x - b) := by omega
        rcases hab with ⟨rfl, rfl⟩ | ⟨rfl, rfl⟩
        · rw [e, h2.2.1 _ (by omega), h1.1 _ (by omega)]
        · rw [e, h2.1 _ (by omega), h1.1 _ (by omega)]
      · rw [h2.2.2 x (by omega) (by omega), h1.2.2 x hxa hxb]
  exact ⟨key a b (Or.inl ⟨rfl, rfl⟩), key b a (Or.inr ⟨rfl, rfl⟩)⟩

/-- C46 is violated for a system variable (4 bytes at `a`) where pointers have 8 bytes: the four bytes that follow the
system variable in memory, which belong to something else, are overwritten with the upper half of the other variable's
cell whenever they differ from it. -/
theorem C46_swap_sysvar_violated (m : Mem) (a b : Nat) (h : a + 8 ≤ b ∨ b + 8 ≤ a) (i : Nat) (hi : 4 ≤ i ∧ i < 8)
    (hd : m (a + i) ≠ m (b + i)) : cmdSwap 8 m a b (a + i) ≠ m (a + i) := by
  rw [(C46_swap_exchanges 8 m a b (by omega)).1 i (by omega)]
  exact fun hh => hd hh.symm

/-- With 4-byte pointers system variables are safe. -/
example (m : Mem) (a b : Nat) (h : a + 4 ≤ b ∨ b + 4 ≤ a) (x : Nat) (h1 : ¬ (a ≤ x ∧ x < a + 4)) (h2 : ¬ (b ≤ x ∧ x < b + 4)) :
    cmdSwap 4 m a b x = m x := (C46_swap_exchanges 4 m a b (by omega)).2.2 x h1 h2

example : (List.range 12).map (cmdSwap 4 (fun x => x) 0 8) = [8, 9, 10, 11, 4, 5, 6, 7, 0, 1, 2, 3] := by decide

end Sbc.Swap
