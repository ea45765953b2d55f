import Verif.Spec.Signature
import Mathlib.Tactic.Tauto
set_option autoImplicit false
namespace Sbc.Tok.Sig
open Sbc Sbc.Tok

/-- The alternatives joined again. -/
def joinAlts : List (List Nat) → List Nat
  | [] => []
  | [a] => a
  | a :: b :: r => a ++ 44 :: joinAlts (b :: r)

theorem alternatives_ne (v : List Nat) : alternatives v ≠ [] := by
  induction v with
  | nil => simp [alternatives]
  | cons c r ih =>
    unfold alternatives
    split
    · simp
    · split <;> simp

theorem join_alternatives (v : List Nat) : joinAlts (alternatives v) = v := by
  induction v with
  | nil => rfl
  | cons c r ih =>
    unfold alternatives
    split
    · rename_i h
      subst h
      cases ha : alternatives r with
      | nil => exact absurd ha (alternatives_ne r)
      | cons a as => rw [ha] at ih; simp [joinAlts, ih]
    · split
      · rename_i a as ha
        rw [ha] at ih
        cases as with
        | nil => simp only [joinAlts] at ih ⊢; rw [ih]
        | cons b bs => simp only [joinAlts, List.cons_append] at ih ⊢; rw [ih]
      · rename_i ha
        exact absurd ha (alternatives_ne r)

theorem fixedChar_cases {c : Nat} (h : fixedChar c = true) :
    c = 78 ∨ c = 110 ∨ c = 83 ∨ c = 115 ∨ c = 76 ∨ c = 65 ∨ c = 59 := by
  simpa [fixedChar] using h

theorem fixedCase_eq {c : Nat} (h : fixedChar c = true) (s : Nat) : fixedCase c s = some (accepts c s) := by
  rcases fixedChar_cases h with rfl | rfl | rfl | rfl | rfl | rfl | rfl <;>
    simp [fixedCase, accepts, cN, cn, cS, cs, cL, cA, c0, cSemi] <;>
    (try rw [Bool.eq_iff_iff]; simp; try tauto)

theorem fixedChar_not {c : Nat} (h : fixedChar c = true) : c ≠ 44 ∧ c ≠ 42 ∧ c ≠ 48 ∧ isList c = false := by
  rcases fixedChar_cases h with rfl | rfl | rfl | rfl | rfl | rfl | rfl <;> decide

theorem isList_cases {c : Nat} (h : isList c = true) : c = 108 ∨ c = 118 ∨ c = 97 := by
  simpa [isList, cl, cv, ca, or_assoc] using h

theorem listCase_eq {c : Nat} (h : isList c = true) (s : Nat) : listCase c s = elem c s := by
  rcases isList_cases h with rfl | rfl | rfl <;> simp [listCase, elem, cl, cv, cn, cs, cS, cL, cLess, cA] <;>
    (try rw [Bool.eq_iff_iff]; simp; try tauto)

/-- Pointwise acceptance of a fixed sequence. -/
def allAcc : List Nat → List Nat → Bool
  | [], _ => true
  | _ :: _, [] => false
  | p :: ps, s :: st => accepts p s && allAcc ps st

/-- A fixed sequence inside the loop. -/
theorem loop_fixed (stack : List Nat) : (f r st : List Nat) → (ok : Bool) → f.all fixedChar = true →
    checkLoop stack (f ++ r) st ok =
      if f.length ≤ st.length then checkLoop stack r (st.drop f.length) (ok && allAcc f st) else false
  | [], r, st, ok, _ => by simp [allAcc]
  | p :: ps, r, st, ok, h => by
    simp only [List.all_cons, Bool.and_eq_true] at h
    obtain ⟨n1, n2, n3, n4⟩ := fixedChar_not h.1
    simp only [List.cons_append, checkLoop]
    rw [if_neg (by simpa [cComma] using n1)]
    cases st with
    | nil => simp [n4]
    | cons s st' =>
      simp only []
      rw [if_neg (by simpa [cStar] using n2), n4, fixedCase_eq h.1 s]
      simp only [Bool.false_eq_true, if_false]
      rw [loop_fixed stack ps r st' _ h.2]
      simp [allAcc, Bool.and_assoc]

theorem fits_cons (p : Nat) (ps st : List Nat) : fits (p :: ps) st =
    if p = 42 ∧ ps = [] then true
    else if p = 48 ∧ ps = [] then st.isEmpty
    else if isList p then ps.isEmpty && !st.isEmpty && st.all (elem p)
    else match st with
      | s :: st' => accepts p s && fits ps st'
      | [] => false := by
  cases st <;> rfl

theorem fits_fixed : (f st : List Nat) → f.all fixedChar = true → fits f st = (decide (f.length = st.length) && allAcc f st)
  | [], st, _ => by cases st <;> rfl
  | p :: ps, st, h => by
    simp only [List.all_cons, Bool.and_eq_true] at h
    obtain ⟨n1, n2, n3, n4⟩ := fixedChar_not h.1
    have e : fits (p :: ps) st = match st with
        | s :: st' => accepts p s && fits ps st'
        | [] => false := by
      rw [fits_cons, if_neg (fun h => n2 h.1), if_neg (fun h => n3 h.1), n4]
      rfl
    rw [e]
    cases st with
    | nil => simp
    | cons s st' =>
      simp only []
      rw [fits_fixed ps st' h.2]
      simp only [allAcc, List.length_cons, Nat.add_right_cancel_iff]
      cases accepts p s <;> simp

/-- A fixed sequence followed by a list. -/
theorem fits_list : (f : List Nat) → (p : Nat) → (st : List Nat) → f.all fixedChar = true → isList p = true →
    fits (f ++ [p]) st = (decide (f.length < st.length) && allAcc f st && (st.drop f.length).all (elem p))
  | [], p, st, _, hp => by
    have e : fits [p] st = (!st.isEmpty && st.all (elem p)) := by
      rw [fits_cons, if_neg (fun h => by rw [h.1] at hp; simp [isList, cl, cv, ca] at hp),
        if_neg (fun h => by rw [h.1] at hp; simp [isList, cl, cv, ca] at hp), hp]
      simp
    simp only [List.nil_append, e]
    cases st <;> simp [allAcc]
  | q :: f, p, st, h, hp => by
    simp only [List.all_cons, Bool.and_eq_true] at h
    obtain ⟨n1, n2, n3, n4⟩ := fixedChar_not h.1
    have e : fits ((q :: f) ++ [p]) st = match st with
        | s :: st' => accepts q s && fits (f ++ [p]) st'
        | [] => false := by
      rw [List.cons_append, fits_cons, if_neg (fun h => n2 h.1), if_neg (fun h => n3 h.1), n4]
      rfl
    rw [e]
    cases st with
    | nil => simp
    | cons s st' =>
      simp only []
      rw [fits_list f p st' h.2 hp]
      simp only [allAcc, List.length_cons, Nat.add_lt_add_iff_right, List.drop_succ_cons]
      cases accepts q s <;> simp

/-- What one alternative accepts in the loop. -/
def acc (a st : List Nat) : Bool := fits a st || bareList a st

theorem goodAlt_cases {a : List Nat} (h : goodAlt a = true) :
    (a ≠ [] ∧ a.all fixedChar = true ∧ fixedLen a = a.length) ∨
    ∃ f p, a = f ++ [p] ∧ f.all fixedChar = true ∧ isList p = true ∧ fixedLen a = f.length := by
  unfold goodAlt at h
  simp only [Bool.and_eq_true, Bool.not_eq_true'] at h
  obtain ⟨⟨h1, h2⟩, h3⟩ := h
  have hne : a ≠ [] := by intro h; subst h; simp at h1
  have hl := List.dropLast_concat_getLast hne
  have hg := List.getLast?_eq_some_getLast hne
  rw [hg] at h3
  simp only [Bool.or_eq_true] at h3
  rcases h3 with h3 | h3
  · left
    refine ⟨hne, ?_, ?_⟩
    · rw [← hl, List.all_append, h2]; simp [h3]
    · unfold fixedLen
      rw [hg]
      obtain ⟨_, _, n3, n4⟩ := fixedChar_not h3
      simp [n3, n4]
  · right
    refine ⟨a.dropLast, a.getLast hne, hl.symm, h2, h3, ?_⟩
    unfold fixedLen
    rw [hg]
    simp [h3]

theorem acc_fixed {a : List Nat} (hne : a ≠ []) (h : a.all fixedChar = true) (st : List Nat) : acc a st = fits a st := by
  have : bareList a st = false := by
    unfold bareList
    rw [List.getLast?_eq_some_getLast hne]
    have := List.all_eq_true.mp h _ (List.getLast_mem hne)
    simp [(fixedChar_not this).2.2.2]
  simp [acc, this]

theorem acc_list {f : List Nat} {p : Nat} (h : f.all fixedChar = true) (hp : isList p = true) (st : List Nat) (hst : st ≠ []) :
    acc (f ++ [p]) st = (decide (f.length ≤ st.length) && allAcc f st && (st.drop f.length).all (elem p)) := by
  unfold acc bareList
  rw [fits_list f p st h hp]
  simp only [List.getLast?_append, List.getLast?_singleton, Option.some_or, hp, Bool.true_and, List.dropLast_concat,
    List.length_append, List.length_singleton]
  rw [fits_fixed f st h]
  have hs : st.length ≠ 0 := by simpa using hst
  rcases Nat.lt_trichotomy f.length st.length with h' | h' | h'
  · have e1 : decide (f.length < st.length) = true := by simpa using h'
    have e2 : decide (f.length ≤ st.length) = true := by simp; omega
    have e3 : decide (f.length = st.length) = false := by simp; omega
    simp [e1, e2, e3]
  · have e1 : decide (f.length < st.length) = false := by simp; omega
    have e2 : decide (f.length ≤ st.length) = true := by simp; omega
    have e3 : decide (f.length = st.length) = true := by simp [h']
    have e4 : decide (2 ≤ f.length + 1) = true := by simp; omega
    have e5 : st.drop f.length = [] := by rw [h']; simp
    simp only [e1, e2, e3, e4, e5, Bool.false_and, Bool.true_and, Bool.false_or, List.all_nil, Bool.and_true]
  · have e1 : decide (f.length < st.length) = false := by simp; omega
    have e2 : decide (f.length ≤ st.length) = false := by simp; omega
    have e3 : decide (f.length = st.length) = false := by simp; omega
    simp [e1, e2, e3]

theorem acc_len {a st : List Nat} (h : goodAlt a = true) (hst : st ≠ []) (ha : acc a st = true) : fixedLen a ≤ st.length := by
  rcases goodAlt_cases h with ⟨hne, hf, hl⟩ | ⟨f, p, rfl, hf, hp, hl⟩
  · rw [acc_fixed hne hf, fits_fixed a st hf] at ha
    simp only [Bool.and_eq_true, decide_eq_true_eq] at ha
    omega
  · rw [acc_list hf hp st hst] at ha
    simp only [Bool.and_eq_true, decide_eq_true_eq] at ha
    omega

theorem dropWhile_nil {p : Nat → Bool} : (l : List Nat) → (l.dropWhile p = [] ↔ l.all p = true)
  | [] => by simp
  | x :: l => by
    simp only [List.dropWhile, List.all_cons]
    cases p x <;> simp [dropWhile_nil l]

/-- A list character inside the loop. -/
theorem loop_list (stack r st : List Nat) (p : Nat) (ok : Bool) (hp : isList p = true) :
    (st.all (elem p) = true → checkLoop stack (p :: r) st ok = ok) ∧
    (st.all (elem p) = false → ∃ rest, checkLoop stack (p :: r) st ok = checkLoop stack r rest false) := by
  have n1 : ¬ p = cComma := by rcases isList_cases hp with rfl | rfl | rfl <;> decide
  have n2 : ¬ p = cStar := by rcases isList_cases hp with rfl | rfl | rfl <;> decide
  have hfun : listCase p = elem p := funext fun s => listCase_eq hp s
  cases st with
  | nil =>
    refine ⟨fun _ => ?_, fun h => by simp at h⟩
    simp only [checkLoop]
    rw [if_neg n1, hp]; rfl
  | cons s st' =>
    simp only [checkLoop]
    rw [if_neg n1, if_neg n2, hp, hfun]
    simp only [if_true]
    constructor
    · intro h
      rw [(dropWhile_nil _).mpr h]
    · intro h
      cases hd : (s :: st').dropWhile (elem p) with
      | nil => rw [(dropWhile_nil _).mp hd] at h; cases h
      | cons x rest => exact ⟨rest, rfl⟩

/-- The loop over good alternatives. -/
theorem loop_alts (stack : List Nat) (hst : stack ≠ []) : (as : List (List Nat)) → as ≠ [] → goodAlts as = true →
    checkLoop stack (joinAlts as) stack true = as.any fun a => acc a stack
  | [], h, _ => absurd rfl h
  | [a], _, hg => by
    simp only [goodAlts, Bool.and_eq_true] at hg
    have ha := hg.1.1.1
    simp only [joinAlts, List.any_cons, List.any_nil, Bool.or_false]
    rcases goodAlt_cases ha with ⟨hne, hf, hl⟩ | ⟨f, p, rfl, hf, hp, hl⟩
    · have := loop_fixed stack a [] stack true hf
      rw [List.append_nil] at this
      rw [this, acc_fixed hne hf, fits_fixed a stack hf]
      split
      · rename_i hle
        simp only [checkLoop, Bool.true_and, List.isEmpty_iff, List.drop_eq_nil_iff]
        cases allAcc a stack
        · simp
        · simp only [Bool.and_true]
          rw [Bool.eq_iff_iff]
          simp only [List.isEmpty_iff, List.drop_eq_nil_iff, decide_eq_true_eq]
          omega
      · rename_i hle
        have : decide (a.length = stack.length) = false := by simp; omega
        simp [this]
    · rw [loop_fixed stack f [p] stack true hf, acc_list hf hp stack hst]
      split
      · rename_i hle
        have e2 : decide (f.length ≤ stack.length) = true := by simpa using hle
        simp only [e2, Bool.true_and]
        obtain ⟨l1, l2⟩ := loop_list stack [] (stack.drop f.length) p (allAcc f stack) hp
        cases hall : (stack.drop f.length).all (elem p) with
        | true => rw [l1 hall]; simp
        | false =>
          obtain ⟨rest, hr⟩ := l2 hall
          rw [hr]
          simp [checkLoop]
      · rename_i hle
        have e2 : decide (f.length ≤ stack.length) = false := by simpa using hle
        simp [e2]
  | a :: b :: r, _, hg => by
    have ih := loop_alts stack hst (b :: r) (by simp)
    have hgr : goodAlts (b :: r) = true := by
      rw [goodAlts] at hg; simp only [Bool.and_eq_true] at hg; exact hg.2
    rw [goodAlts] at hg
    simp only [Bool.and_eq_true] at hg
    obtain ⟨⟨⟨ha, hsorted⟩, hlast⟩, _⟩ := hg
    have hgood : ∀ x ∈ b :: r, goodAlt x = true := by
      have : ∀ (l : List (List Nat)), goodAlts l = true → ∀ x ∈ l, goodAlt x = true := by
        intro l
        induction l with
        | nil => intro _ x hx; cases hx
        | cons y l ih =>
          intro h x hx
          rw [goodAlts] at h
          simp only [Bool.and_eq_true] at h
          rcases List.mem_cons.mp hx with rfl | hx
          · exact h.1.1.1
          · exact ih h.2 x hx
      exact this _ hgr
    have hsort : ∀ x ∈ b :: r, fixedLen a ≤ max 1 (fixedLen x) := by
      intro x hx
      have := List.all_eq_true.mp hsorted x hx
      simpa using this
    have hshort : stack.length < fixedLen a → ((b :: r).any fun a => acc a stack) = false := by
      intro hlt
      rw [List.any_eq_false]
      intro x hx hacc
      have := acc_len (hgood x hx) hst hacc
      have := hsort x hx
      have : stack.length ≠ 0 := by simpa using hst
      omega
    have hcomma : ∀ st ok, checkLoop stack (44 :: joinAlts (b :: r)) st ok =
        ((ok && st.isEmpty) || (b :: r).any fun a => acc a stack) := by
      intro st ok
      simp only [checkLoop]
      rw [if_pos (by rfl), ih hgr]
      cases (ok && st.isEmpty) <;> simp
    simp only [joinAlts]
    rw [List.any_cons]
    rcases goodAlt_cases ha with ⟨hne, hf, hl⟩ | ⟨f, p, rfl, hf, hp, hl⟩
    · rw [loop_fixed stack a _ stack true hf, acc_fixed hne hf, fits_fixed a stack hf]
      split
      · rename_i hle
        rw [hcomma]
        congr 1
        rw [Bool.eq_iff_iff]
        simp only [Bool.true_and, Bool.and_eq_true, List.isEmpty_iff, List.drop_eq_nil_iff, decide_eq_true_eq]
        constructor
        · rintro ⟨h1, h2⟩; exact ⟨by omega, h1⟩
        · rintro ⟨h1, h2⟩; exact ⟨h2, by omega⟩
      · rename_i hle
        rw [hshort (by omega)]
        have : decide (a.length = stack.length) = false := by simp; omega
        simp [this]
    · have hf0 : f = [] := by
        simp only [Bool.or_eq_true, decide_eq_true_eq, List.isEmpty_iff, List.length_append, List.length_singleton] at hlast
        rcases hlast with (h | h) | h
        · cases h
        · omega
        · exact List.length_eq_zero_iff.mp (by omega)
      subst hf0
      rw [acc_list hf hp stack hst]
      simp only [List.nil_append, List.cons_append, List.length_nil, Nat.zero_le, decide_true, Bool.true_and, allAcc, List.drop_zero]
      obtain ⟨l1, l2⟩ := loop_list stack (44 :: joinAlts (b :: r)) stack p true hp
      cases hall : stack.all (elem p) with
      | true => rw [l1 hall]; simp
      | false =>
        obtain ⟨rest, hr⟩ := l2 hall
        rw [hr, hcomma]
        simp

theorem goodAlt_not_nil {a : List Nat} (h : goodAlt a = true) : a ≠ [] ∧ a ≠ [48] ∧ a ≠ [42] ∧ fits a [] = false := by
  rcases goodAlt_cases h with ⟨hne, hf, hl⟩ | ⟨f, p, rfl, hf, hp, hl⟩
  · refine ⟨hne, ?_, ?_, ?_⟩
    · intro e; rw [e] at hf; simp [fixedChar] at hf
    · intro e; rw [e] at hf; simp [fixedChar] at hf
    · rw [fits_fixed a [] hf]
      cases a with
      | nil => exact absurd rfl hne
      | cons x y => simp
  · refine ⟨by simp, ?_, ?_, ?_⟩
    · intro e
      have : p = 48 := by
        have := congrArg List.getLast? e; simpa using this
      subst this; simp [isList, cl, cv, ca] at hp
    · intro e
      have : p = 42 := by
        have := congrArg List.getLast? e; simpa using this
      subst this; simp [isList, cl, cv, ca] at hp
    · rw [fits_list f p [] hf hp]; simp

theorem goodAlts_all : (l : List (List Nat)) → goodAlts l = true → ∀ x ∈ l, goodAlt x = true
  | [], _, x, hx => by cases hx
  | y :: l, h, x, hx => by
    rw [goodAlts] at h
    simp only [Bool.and_eq_true] at h
    rcases List.mem_cons.mp hx with rfl | hx
    · exact h.1.1.1
    · exact goodAlts_all l h.2 x hx

theorem bareList_nil {a : List Nat} (h : goodAlt a = true) : bareList a [] = false := by
  rcases goodAlt_cases h with ⟨hne, hf, hl⟩ | ⟨f, p, rfl, hf, hp, hl⟩
  · have h1 := acc_fixed hne hf []
    unfold acc at h1
    rw [(goodAlt_not_nil h).2.2.2] at h1
    simpa using h1
  · unfold bareList
    simp only [List.getLast?_append, List.getLast?_singleton, Option.some_or, hp, Bool.true_and, List.dropLast_concat,
      List.length_append, List.length_singleton]
    rw [fits_fixed f [] hf]
    cases f with
    | nil => simp
    | cons x y => simp

/-- `check_cmd` on a good signature. -/
theorem checkCmd_good (valid st : List Nat) (hg : good valid = true) :
    checkCmd st valid = (matchesSig valid st || (alternatives valid).any fun a => bareList a st) := by
  unfold good at hg
  simp only [Bool.or_eq_true] at hg
  have hj := join_alternatives valid
  rcases hg with hg | hg
  · have : valid = [42] := by simpa using hg
    subst this
    cases st with
    | nil => decide
    | cons s st' =>
      have : matchesSig [42] (s :: st') = true := by
        simp [matchesSig, alternatives, fits]
      rw [this]
      simp [checkCmd, checkLoop, c0, cStar, cComma]
  · have hany : ∀ (l : List (List Nat)), ((l.any fun a => fits a st) || l.any fun a => bareList a st) = l.any fun a => acc a st := by
      intro l
      induction l with
      | nil => rfl
      | cons x l ih =>
        simp only [List.any_cons]
        rw [← ih]
        unfold acc
        cases fits x st <;> cases bareList x st <;> simp
    unfold matchesSig
    rw [hany]
    -- the two shapes of the alternatives
    have key : (∃ r, alternatives valid = [48] :: r ∧ goodAlts r = true) ∨ goodAlts (alternatives valid) = true := by
      cases ha : alternatives valid with
      | nil => exact absurd ha (alternatives_ne valid)
      | cons a r =>
        rw [ha] at hg
        by_cases h48 : a = [48]
        · subst h48; exact Or.inl ⟨r, rfl, hg⟩
        · right
          split at hg
          · rename_i h; cases h; exact absurd rfl h48
          · exact hg
    rcases key with ⟨r, hr, hgr⟩ | hga
    · rw [hr] at hj ⊢
      have hzero : acc [48] st = st.isEmpty := by simp [acc, fits, bareList, isList, cl, cv, ca]
      cases r with
      | nil =>
        simp only [joinAlts] at hj
        subst hj
        simp only [List.any_cons, List.any_nil, Bool.or_false, hzero]
        simp [checkCmd, c0]
      | cons b r =>
        simp only [joinAlts] at hj
        simp only [List.any_cons, hzero]
        unfold checkCmd
        rw [if_neg (by rw [← hj]; simp [c0])]
        cases st with
        | nil => rw [← hj]; rfl
        | cons s st' =>
          simp only [List.isEmpty_cons, Bool.false_eq_true, if_false, Bool.false_or]
          have := loop_alts (s :: st') (by simp) (b :: r) (by simp) hgr
          rw [← hj]
          show checkLoop (s :: st') (48 :: 44 :: joinAlts (b :: r)) (s :: st') true = _
          rw [List.any_cons] at this
          rw [← this]
          simp [checkLoop, cComma, cStar, isList, cl, cv, ca, fixedCase, cN, cn, cS, cs, cL, cA, c0]
    · have h0 : valid ≠ [c0] := by
        intro h
        subst h
        have := goodAlts_all _ hga [48] (by simp [alternatives, c0])
        simp [goodAlt, fixedChar, isList, cl, cv, ca] at this
      unfold checkCmd
      rw [if_neg h0]
      cases st with
      | nil =>
        simp only [List.isEmpty_nil, if_true]
        have hfalse : ((alternatives valid).any fun a => acc a []) = false := by
          rw [List.any_eq_false]
          intro x hx
          have hgx := goodAlts_all _ hga x hx
          simp [acc, (goodAlt_not_nil hgx).2.2.2, bareList_nil hgx]
        rw [hfalse]
        cases hv : valid with
        | nil => rfl
        | cons v vs =>
          simp only []
          cases hal : alternatives valid with
          | nil => exact absurd hal (alternatives_ne valid)
          | cons a r =>
            have hga' := goodAlts_all _ hga a (by rw [hal]; simp)
            have hhead : a.head? = some v := by
              rw [hal, hv] at hj
              have hne := (goodAlt_not_nil hga').1
              cases a with
              | nil => exact absurd rfl hne
              | cons x y =>
                cases r with
                | nil => simp only [joinAlts, List.cons.injEq] at hj; simp [hj.1]
                | cons b r' => simp only [joinAlts, List.cons_append, List.cons.injEq] at hj; simp [hj.1]
            have hch : fixedChar v = true ∨ isList v = true := by
              rcases goodAlt_cases hga' with ⟨hne, hf, _⟩ | ⟨f, p, rfl, hf, hp, _⟩
              · cases a with
                | nil => exact absurd rfl hne
                | cons x y =>
                  simp only [List.head?_cons, Option.some.injEq] at hhead
                  subst hhead
                  simp only [List.all_cons, Bool.and_eq_true] at hf
                  exact Or.inl hf.1
              · cases f with
                | nil => simp only [List.nil_append, List.head?_cons, Option.some.injEq] at hhead; subst hhead; exact Or.inr hp
                | cons x y =>
                  simp only [List.cons_append, List.head?_cons, Option.some.injEq] at hhead
                  subst hhead
                  simp only [List.all_cons, Bool.and_eq_true] at hf
                  exact Or.inl hf.1
            rcases hch with h | h
            · obtain ⟨_, n2, n3, _⟩ := fixedChar_not h
              simp [cStar, c0, n2, n3]
            · rcases isList_cases h with rfl | rfl | rfl <;> decide
      | cons s st' =>
        simp only [List.isEmpty_cons, Bool.false_eq_true, if_false]
        have := loop_alts (s :: st') (by simp) (alternatives valid) (alternatives_ne valid) hga
        rw [hj] at this
        exact this

end Sbc.Tok.Sig
