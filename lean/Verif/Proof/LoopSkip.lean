import Verif.Proof.Loop
set_option autoImplicit false
/-!
# Loops that do not run
-/
namespace Sbc.Machine
open Sbc Sbc.Tok Sbc.Tok.Spec

variable {σ : Type} {env : Env σ}

theorem afterMatch_skip (c r : List Instr) (n : Nat) (h : ∀ i ∈ c, i.op ≠ bcCommandFirst) : afterMatch n (c ++ r) = afterMatch n r := by
  induction c with
  | nil => rfl
  | cons i c ih =>
    have hi := h i (by simp)
    simp only [List.cons_append, afterMatch]
    rw [if_neg (fun e => hi (by rw [e]; rfl)), if_neg (fun e => hi (by rw [e]; rfl)), ih (fun j hj => h j (by simp [hj]))]

theorem afterMatch_none (c : List Instr) (n : Nat) (h : ∀ i ∈ c, i.op ≠ bcCommandFirst) : afterMatch n c = none := by
  have := afterMatch_skip c [] n h
  rw [List.append_nil] at this
  rw [this]; rfl

/-- First instruction that starts a statement. -/
theorem first_stmt (t : List Instr) (hw : ∀ i ∈ t, i.WF) (h : ¬ ∀ i ∈ t, i.op ≠ bcCommandFirst) :
    ∃ c x d, t = c ++ .simple bcCommandFirst x :: d ∧ ∀ i ∈ c, i.op ≠ bcCommandFirst := by
  induction t with
  | nil => simp at h
  | cons z t ih =>
    by_cases hz : z.op = bcCommandFirst
    · obtain ⟨y, rfl⟩ := simpleOp bcCommandFirst cmdFirstOp z (hw z (by simp)) hz
      exact ⟨[], y, t, rfl, by simp⟩
    · obtain ⟨c, x, d, h1, h2⟩ := ih (fun j hj => hw j (by simp [hj])) (by simpa [hz] using h)
      exact ⟨z :: c, x, d, by rw [h1]; rfl, by simpa [hz] using h2⟩

theorem scanPair_mid (a c d : List Instr) (i : Instr) (find : Nat) (hw : ∀ j ∈ c ++ i :: d, j.WF)
    (hc : ∀ j ∈ c, j.op ≠ find) (hi : i.op = find) :
    bcScanPair (encode (a ++ (c ++ i :: d))) (posAfter a) find = .ok (lastPos a c none, some (posAfter (a ++ c))) := by
  unfold bcScanPair
  rw [scanPair_spec find (c ++ i :: d) a _ none hw (by rw [encode_append a, List.length_append]; omega),
    splitAt_mid find c d i hc hi]

theorem byte_op (a d : List Instr) (i : Instr) : byte (encode (a ++ i :: d)) (posAfter a) = .ok i.op := by
  unfold byte
  rw [code_split]
  rw [show (encode a ++ (i.op :: arg i :: (tail i ++ encode d)))[posAfter a]? = some i.op from get_at _ _ 0]

/-- A NEXT preceded by something that is no variable. -/
theorem skipKind_generic (c : Core σ) (a u d : List Instr) (cur : Ptr) (hu : ∀ x i, u = x ++ [i] → isVarOp i = false) :
    skipKind c (encode (a ++ (u ++ d))) (lastPos a u none) cur = .ok (c, .generic) := by
  unfold lastPos
  by_cases h : u = []
  · rw [if_pos h]; rfl
  · rw [if_neg h]
    have hsplit : u = u.dropLast ++ [u.getLast h] := (List.dropLast_append_getLast h).symm
    have hv := hu _ _ hsplit
    generalize u.getLast h = i at hsplit hv
    generalize u.dropLast = x at hsplit
    subst hsplit
    unfold isVarOp at hv
    simp only [Bool.or_eq_false_iff, beq_eq_false_iff_ne] at hv
    have e : a ++ (x ++ [i] ++ d) = (a ++ x) ++ i :: d := by simp
    unfold skipKind
    dsimp only
    rw [e, byte_op (a ++ x) d i, byte_arg (a ++ x) d i]
    simp only [Out.bind]
    rw [if_neg hv.1.1, if_neg hv.1.2, if_neg hv.2]

theorem anonymous_tail {c d : List Instr} {i : Instr} (h : Anonymous (c ++ i :: d)) : Anonymous d := by
  intro x j y hd
  exact h (c ++ i :: x) j y (by rw [hd]; simp)

/-- Skipping follows the brackets. -/
theorem skipLoop_anonymous (cur : Ptr) (c : Core σ) (post : List Instr) (hpost : ∀ i ∈ post, i.WF) : (fuel n : Nat) → (t a : List Instr) →
    (∀ i ∈ t, i.WF) → Anonymous t → t.length + 1 < fuel → afterMatch n t = some [] →
    skipLoop (encode (a ++ (t ++ post))) cur fuel (n + 1) (posAfter a) c = .ok (c, some (posAfter (a ++ t)))
  | 0, _, _, _, _, _, h, _ => absurd h (Nat.not_lt_zero _)
  | fuel + 1, n, t, a, hw, han, hf, hm => by
    have hne : ¬ ∀ i ∈ t, i.op ≠ bcCommandFirst := fun h => by rw [afterMatch_none t n h] at hm; cases hm
    obtain ⟨u, x, d, rfl, hu⟩ := first_stmt t hw hne
    have e1 : u ++ .simple bcCommandFirst x :: d ++ post = u ++ .simple bcCommandFirst x :: (d ++ post) := by simp
    have e2 : a ++ (u ++ .simple bcCommandFirst x :: (d ++ post)) = (a ++ u ++ [.simple bcCommandFirst x]) ++ (d ++ post) := by simp
    have e3 : posAfter (a ++ u) + 2 = posAfter (a ++ u ++ [.simple bcCommandFirst x]) := by rw [posAfter_snoc]; rfl
    have e4 : posAfter (a ++ (u ++ .simple bcCommandFirst x :: d)) = posAfter (a ++ u ++ [.simple bcCommandFirst x] ++ d) := by simp
    have hwall : ∀ j ∈ u ++ .simple bcCommandFirst x :: (d ++ post), j.WF := by
      intro j hj
      rw [← e1] at hj
      rcases List.mem_append.mp hj with h | h
      · exact hw j h
      · exact hpost j h
    have hbyte : byte (encode (a ++ (u ++ .simple bcCommandFirst x :: (d ++ post)))) (posAfter (a ++ u) + 1) = .ok x := by
      rw [← List.append_assoc]; exact byte_arg (a ++ u) (d ++ post) (.simple bcCommandFirst x)
    have hlen : d.length + 1 < fuel := by
      simp only [List.length_append, List.length_cons] at hf; omega
    have hwd : ∀ i ∈ d, i.WF := fun i hi => hw i (by simp [hi])
    rw [afterMatch_skip u _ n hu] at hm
    unfold afterMatch at hm
    rw [e1, e4]
    simp only [skipLoop]
    rw [scanPair_mid a u (d ++ post) (.simple bcCommandFirst x) bcCommandFirst hwall hu rfl]
    simp only [Out.bind]
    rw [hbyte]
    dsimp only
    by_cases hnext : x = cmdNext
    · subst hnext
      rw [if_neg (by decide), if_pos (show Instr.simple bcCommandFirst cmdNext = nextI from rfl)] at hm
      rw [if_pos rfl, skipKind_generic c a u (.simple bcCommandFirst cmdNext :: (d ++ post)) cur (fun z i hz => han z i d (by rw [hz]; simp [nextI]))]
      dsimp only
      cases n with
      | zero =>
        cases hm
        rw [List.append_nil, e3]
        cases fuel with
        | zero => exact absurd hlen (Nat.not_lt_zero _)
        | succ fuel => rfl
      | succ n =>
        dsimp only at hm
        rw [e2, e3]
        exact skipLoop_anonymous cur c post hpost fuel n d _ hwd (anonymous_tail han) hlen hm
    · rw [if_neg hnext]
      by_cases hfor : x = cmdFor
      · subst hfor
        rw [if_pos (show Instr.simple bcCommandFirst cmdFor = forI from rfl)] at hm
        rw [if_pos rfl, e2, e3]
        exact skipLoop_anonymous cur c post hpost fuel (n + 1) d _ hwd (anonymous_tail han) hlen hm
      · rw [if_neg (by intro h; cases h; exact hfor rfl), if_neg (by intro h; cases h; exact hnext rfl)] at hm
        rw [if_neg hfor, e2, e3]
        exact skipLoop_anonymous cur c post hpost fuel n d _ hwd (anonymous_tail han) hlen hm

end Sbc.Machine
