import Verif.Proof.SourceEval
import Verif.Proof.Types
set_option autoImplicit false
/-!
# Lines of source through `tok_test`
-/
namespace Sbc.Source
open Sbc Sbc.Tok Sbc.Tok.Spec Sbc.Tok.Sig

theorem E.type_num (e : E) (h : e.WF) : ∃ c, e.tree.type = some c ∧ isNum c = true := by
  have h := h.number
  unfold E.isNumber at h
  cases ht : e.tree.type with
  | none => rw [ht] at h; cases h
  | some c => rw [ht] at h; exact ⟨c, rfl, h⟩

theorem E.type_text (e : E) (h : e.Text) : ∃ c, e.tree.type = some c ∧ isStr c = true := by
  have h := h.text
  unfold E.isText at h
  cases ht : e.tree.type with
  | none => rw [ht] at h; cases h
  | some c => rw [ht] at h; exact ⟨c, rfl, h⟩

theorem E.type_some (a : E) (h : a.Good) : a.tree.type ≠ none := by
  have h := h.typed
  intro e
  rw [e] at h; cases h

theorem loose_read (cs : List Nat) (h : cs ≠ []) (hc : ∀ c ∈ cs, c = 110 ∨ c = 115) : looseSig (signature cmdRead) cs = true := by
  have h1 : signature cmdRead = [118] := by decide +kernel
  have h2 : alternatives [118] = [[118]] := rfl
  have h3 : fits [118] cs = true := by
    cases cs with
    | nil => exact absurd rfl h
    | cons c r =>
      have : (c :: r).all (elem 118) = true := by
        rw [List.all_eq_true]
        intro x hx
        rcases hc x hx with rfl | rfl <;> rfl
      unfold fits
      rw [if_neg (by decide), if_neg (by decide), if_pos (by decide), this]
      rfl
  unfold looseSig accepted matchesSig
  rw [h1, h2]
  simp [h3]

/-- The type of an element of an array is that of its name. -/
theorem cell_type {l : E} (h : l.isCell = true) {c : Nat} (ht : l.tree.type = some c) : ∃ w, c = varType w := by
  obtain ⟨w, sq, a, hc⟩ := E.cell_call h
  rw [hc] at ht
  simp only [Expr.type] at ht
  cases ha : a.types with
  | none => rw [ha] at ht; cases ht
  | some cs =>
    rw [ha] at ht
    simp only [Option.bind_some, reduceCtorEq, if_false] at ht
    split at ht
    · cases ht; exact ⟨w, rfl⟩
    · cases ht

theorem varType_cases (w : List Nat) : varType w = 110 ∨ varType w = 115 := by
  unfold varType
  split
  · exact Or.inr rfl
  · exact Or.inl rfl

/-- The types of what can be read into. -/
theorem place_types : (a : E) → (r : List E) → (∀ x ∈ a :: r, x.isPlace = true ∧ x.Good) →
    ∃ cs, (argTrees a r).types = some cs ∧ cs ≠ [] ∧ ∀ c ∈ cs, c = 110 ∨ c = 115 := by
  have one : ∀ a : E, a.isPlace = true ∧ a.Good → ∃ c, a.tree.type = some c ∧ (c = 110 ∨ c = 115) := by
    rintro a ⟨hp, hg⟩
    have key : a.isCell = true → ∃ c, a.tree.type = some c ∧ (c = 110 ∨ c = 115) := by
      intro hc
      cases ht : a.tree.type with
      | none => exact absurd ht (E.type_some a hg)
      | some c => obtain ⟨w, rfl⟩ := cell_type hc ht; exact ⟨_, rfl, varType_cases w⟩
    cases a with
    | var w => exact ⟨_, rfl, varType_cases w⟩
    | arr1 => exact key rfl
    | arr2 => exact key rfl
    | _ => cases hp
  intro a r
  induction r generalizing a with
  | nil =>
    intro h
    obtain ⟨c, h1, h2⟩ := one a (h a (by simp))
    refine ⟨[c], ?_, by simp, by simpa using h2⟩
    simp [argTrees, Args.types, h1]
  | cons b r ih =>
    intro h
    obtain ⟨c, h1, h2⟩ := one a (h a (by simp))
    obtain ⟨cs, h3, _, h4⟩ := ih b fun x hx => h x (by simp only [List.mem_cons] at hx ⊢; exact Or.inr hx)
    refine ⟨c :: cs, ?_, by simp, ?_⟩
    · simp [argTrees, Args.types, h1, h3]
    · intro x hx
      rcases List.mem_cons.mp hx with rfl | hx
      · exact h2
      · exact h4 x hx

theorem S.loose {s : S} (h : s.WF) : s.simple.loose := by
  cases s with
  | assign w e =>
    rcases h.1 with ⟨h1, h2⟩ | ⟨h1, h2⟩
    · obtain ⟨c, e1, e2⟩ := E.type_num e h2
      refine ⟨110, c, ?_, e1, Or.inl ⟨rfl, e2⟩⟩
      show some (varType w) = some 110
      unfold varType
      rw [if_neg h1.2.1]
    · obtain ⟨c, e1, e2⟩ := E.type_text e h2
      refine ⟨115, c, ?_, e1, Or.inr ⟨rfl, e2⟩⟩
      show some (varType w) = some 115
      unfold varType
      rw [if_pos h1.1]
  | cmd c args =>
    obtain ⟨⟨hc, ho, hx⟩, _, hacc, _⟩ := h
    have hne : c ≠ 23 ∧ c ≠ cmdSort ∧ c ≠ cmdRsort := by
      simp only [ordinary, List.mem_cons, List.not_mem_nil, or_false, not_or] at ho
      exact ⟨fun e => hx (by simp [e]), ho.2.2.2.2.2.2.1, ho.2.2.2.2.2.2.2.1⟩
    cases args with
    | nil =>
      show looseSig (signature c) [] = true
      rw [loose_exact hc hne]; exact hacc
    | cons a r =>
      obtain ⟨cs, h1, h2⟩ := hacc
      exact ⟨cs, h1, by rw [loose_exact hc hne]; exact h2⟩
  | print items last =>
    obtain ⟨hi, hl, _⟩ := h
    have hm : ∀ o : Option E, (∀ a, o = some a → a.Good) → ∀ e, o.map E.tree = some e → e.type ≠ none := by
      intro o ho e he
      cases o with
      | none => cases he
      | some a => cases he; exact E.type_some a (ho a rfl)
    refine ⟨?_, hm last hl⟩
    intro x hx e he
    obtain ⟨y, hy, rfl⟩ := List.mem_map.mp hx
    exact hm y.1 (hi y hy).1 e he
  | goto l => trivial
  | gosub l => trivial
  | ret => show looseSig (signature cmdReturn) [] = true; decide +kernel
  | fin => show looseSig (signature cmdEnd) [] = true; decide +kernel
  | stop => show looseSig (signature cmdStop) [] = true; decide +kernel
  | for' w a b st => trivial
  | on e sub ls => trivial
  | restore l => trivial
  | dim l r => trivial
  | put l e =>
    obtain ⟨hc, h, _⟩ := h
    have hv : ∀ w, varType w = 110 ∨ varType w = 115 := by
      intro w
      unfold varType
      split
      · exact Or.inr rfl
      · exact Or.inl rfl
    rcases h with ⟨h1, h2⟩ | ⟨h1, h2⟩
    · obtain ⟨c, e1, e2⟩ := E.type_num l h1
      obtain ⟨d, e3, e4⟩ := E.type_num e h2
      obtain ⟨w, rfl⟩ := cell_type hc e1
      refine ⟨_, d, e1, e3, Or.inl ⟨?_, e4⟩⟩
      rcases hv w with h | h
      · exact h
      · rw [h] at e2; cases e2
    · obtain ⟨c, e1, e2⟩ := E.type_text l h1
      obtain ⟨d, e3, e4⟩ := E.type_text e h2
      obtain ⟨w, rfl⟩ := cell_type hc e1
      refine ⟨_, d, e1, e3, Or.inr ⟨?_, e4⟩⟩
      rcases hv w with h | h
      · rw [h] at e2; cases e2
      · exact h
  | read ls =>
    cases ls with
    | nil => exact absurd rfl h.1
    | cons l r =>
      obtain ⟨cs, h1, h2, h3⟩ := place_types l r h.2.1
      exact ⟨cs, h1, loose_read cs h2 h3⟩
  | next w =>
    cases w with
    | none => show looseSig (signature cmdNext) [] = true; decide +kernel
    | some x =>
      refine ⟨[110], ?_, by decide +kernel⟩
      show (some (varType x)).bind (fun c => some [c]) = some [110]
      unfold varType
      rw [if_neg (h x rfl).2.1]
      rfl

/-- The two types of command words. -/
def Cmd (k : TT) : Prop := k = .command ∨ k = .firstCommand

theorem test_kind {k : TT} (h : Cmd k) (t : TestSt) (c : Nat) :
    testStep t ⟨k, [], c, 0⟩ = testStep t ⟨.firstCommand, [], c, 0⟩ := by
  rcases h with rfl | rfl <;> rfl

theorem test_swap : (a : List Tk) → (x y : Tk) → (∀ t, testStep t x = testStep t y) → (r : List Tk) → (t : TestSt) →
    testLoop (a ++ x :: r) t = testLoop (a ++ y :: r) t
  | [], x, y, h, r, t => by simp only [List.nil_append, testLoop_cons, h]
  | z :: a, x, y, h, r, t => by
    simp only [List.cons_append, testLoop_cons]
    congr 1
    funext q
    cases q with
    | inl q => exact test_swap a x y h r q
    | inr e => rfl

theorem test_postS {k : TT} (h : Cmd k) (st : Stmt) (rest : List Tk) (t : TestSt) :
    testLoop (postS k st ++ rest) t = testLoop (st.postP ++ rest) t := by
  cases st with
  | empty => rfl
  | assign l e => rfl
  | cmd0 c => exact test_swap [] _ _ (fun t => test_kind h t c) rest t
  | cmd c a =>
    simp only [postS, Stmt.postP, List.append_assoc, List.singleton_append]
    exact test_swap _ _ _ (fun t => test_kind h t c) rest t
  | print i l =>
    simp only [postS, Stmt.postP, List.append_assoc, List.singleton_append]
    rw [← List.append_assoc, ← List.append_assoc]
    exact test_swap _ _ _ (fun t => test_kind h t cmdPrint) rest t

theorem postP_len (st : Stmt) : st.postP.length = st.post.length := by
  have := congrArg List.length (Stmt.postP_bare st)
  simpa using this

theorem exprP_len (e : Expr) (n : Nat) : (e.postP n).length = e.post.length := by
  have := congrArg List.length (Expr.postP_bare n e)
  simpa using this

theorem S.short {s : S} (h : s.WF) : s.simple.post.length ≤ 40 := by
  cases s with
  | assign w e =>
    have := h.2
    simp only [S.simple, Stmt.post, Expr.post, List.length_append, List.length_cons, List.length_nil]
    omega
  | cmd c args => exact h.2.2.2
  | print items last => exact h.2.2
  | goto l => simp [S.simple, Stmt.post]
  | gosub l => simp [S.simple, Stmt.post]
  | ret => simp [S.simple, Stmt.post]
  | fin => simp [S.simple, Stmt.post]
  | stop => simp [S.simple, Stmt.post]
  | for' w a b st => simp [S.simple, Stmt.post]
  | on e sub ls => simp [S.simple, Stmt.post]
  | restore l => simp [S.simple, Stmt.post]
  | dim l r => simp [S.simple, Stmt.post]
  | put l e =>
    have := h.2.2
    simp only [S.simple, Stmt.post, List.length_append, List.length_cons, List.length_nil]
    omega
  | read ls => exact h.2.2
  | next w => cases w <;> simp [S.simple, Stmt.post, Args.post, Expr.post]

theorem test_jump {k : TT} (h : Cmd k) (c : Nat) (hc : c = cmdGoto ∨ c = cmdGosub ∨ c = cmdRestore) (l : List Nat) (rest : List Tk) :
    testLoop (⟨.labelString, l, 0, 0⟩ :: ⟨k, [], c, 0⟩ :: rest) ⟨[], 0⟩ = testLoop rest ⟨[], 0⟩ := by
  have h2 : testStep ⟨[cL], 0⟩ ⟨.firstCommand, [], c, 0⟩ = .ok (.inl ⟨[], 0⟩) := by
    rcases hc with rfl | rfl | rfl <;> decide +kernel
  rw [testLoop_cons, show testStep ⟨[], 0⟩ ⟨.labelString, l, 0, 0⟩ = .ok (.inl ⟨[cL], 0⟩) from rfl]
  show testLoop (_ :: rest) _ = _
  rw [testLoop_cons, test_kind h, h2]
  rfl

theorem check_star (l : List Nat) : checkCmd l [42] = true := by
  cases l with
  | nil => rfl
  | cons x y => rfl

/-- FOR and TO take whatever there is and keep it. -/
theorem test_keep (k : TT) (hk : Cmd k) (c : Nat) (hc : c = cmdFor ∨ c = cmdTo) (t : List Nat) :
    testStep ⟨t, 0⟩ ⟨k, [], c, 0⟩ = .ok (.inl ⟨t, 0⟩) := by
  rw [test_kind hk]
  show testCommand ⟨t, 0⟩ c = _
  unfold testCommand
  rcases hc with rfl | rfl
  · rw [if_neg (by decide), show cmdFormat[cmdFor]? = some [42] by decide +kernel]
    simp only [check_star]
    rw [if_neg (by decide), if_neg (by decide)]
  · rw [if_neg (by decide), show cmdFormat[cmdTo]? = some [42] by decide +kernel]
    simp only [check_star]
    rw [if_neg (by decide), if_neg (by decide)]

theorem test_stepWord (t : List Nat) : testStep ⟨t, 0⟩ ⟨.command, [], cmdStep, 0⟩ = .ok (.inl ⟨[], 0⟩) := by
  show testCommand ⟨t, 0⟩ cmdStep = _
  unfold testCommand
  rw [if_neg (by decide), show cmdFormat[cmdStep]? = some [42] by decide +kernel]
  simp only [check_star]
  rw [if_neg (by decide), if_pos (by decide)]

/-- An expression adds the type of a number. -/
theorem test_value (e : E) (h : e.WF) (st : List Nat) (rest : List Tk) (hl : st.length + e.tree.post.length ≤ 40) :
    ∃ c, (c = 78 ∨ c = 110) ∧ testLoop (e.tree.postP 0 ++ rest) ⟨st, 0⟩ = testLoop rest ⟨c :: st, 0⟩ := by
  obtain ⟨c, e1, e2⟩ := E.type_num e h
  have hc := test_expr e.tree 0 rfl st rest h.tree (E.known _ h.leaves) (by rw [exprP_len]; exact hl)
  rw [e1] at hc
  simp only [Option.map_some, Outcome, List.reverse_cons, List.reverse_nil, List.nil_append, List.singleton_append] at hc
  exact ⟨c, by simpa [isNum] using e2, hc⟩

theorem test_for (w : List Nat) (a b : E) (s : Option E) (h : (S.for' w a b s).WF) {k : TT} (hk : Cmd k) (rest : List Tk) :
    testLoop ((S.for' w a b s).postQ k ++ rest) ⟨[], 0⟩ = testLoop rest ⟨[], 0⟩ := by
  obtain ⟨hv, ⟨ha, hal⟩, ⟨hb, hbl⟩, hs, _⟩ := h
  show testLoop (⟨.name, w, 0, 0⟩ :: ⟨k, [], cmdFor, 0⟩ :: _ ++ rest) _ = _
  simp only [List.cons_append, List.append_assoc, List.nil_append]
  have h1 : testStep ⟨[], 0⟩ ⟨.name, w, 0, 0⟩ = .ok (.inl ⟨[110], 0⟩) := by
    show TRes.of (TestSt.push ⟨[], 0⟩ (nameType w)) = _
    rw [tpush_ok _ _ _ (by simp)]
    unfold nameType
    rw [if_neg hv.2.1]
    rfl
  rw [testLoop_cons, h1]
  show testLoop (_ :: _) _ = _
  rw [testLoop_cons, test_keep k hk cmdFor (Or.inl rfl)]
  show testLoop (_ ++ _) _ = _
  obtain ⟨c, hc, e1⟩ := test_value a ha [110] (opP opAssign 0 :: (b.tree.postP 0 ++ ⟨.command, [], cmdTo, 0⟩ :: (stepPost s ++ loopTok :: rest))) (by
    simp only [List.length_singleton]; omega)
  rw [e1, testLoop_cons]
  have h2 : testStep ⟨[c, 110], 0⟩ (opP opAssign 0) = .ok (.inl ⟨[], 0⟩) := by
    rcases hc with rfl | rfl <;> decide +kernel
  rw [h2]
  show testLoop (_ ++ _) _ = _
  obtain ⟨d, hd, e2⟩ := test_value b hb [] (⟨.command, [], cmdTo, 0⟩ :: (stepPost s ++ loopTok :: rest)) (by
    simp only [List.length_nil]; omega)
  rw [e2, testLoop_cons, test_keep .command (Or.inl rfl) cmdTo (Or.inr rfl)]
  show testLoop (_ ++ _) _ = _
  cases s with
  | none => rfl
  | some e =>
    obtain ⟨he, hel⟩ := hs e rfl
    obtain ⟨f, hf, e3⟩ := test_value e he [d] (⟨.command, [], cmdStep, 0⟩ :: loopTok :: rest) (by
      simp only [List.length_singleton]; omega)
    show testLoop ((e.tree.postP 0 ++ [_]) ++ _) _ = _
    rw [List.append_assoc, List.singleton_append, e3, testLoop_cons, test_stepWord]
    rfl

theorem test_labels : (ls : List (List Nat)) → (st : List Nat) → (rest : List Tk) → st.length + ls.length ≤ 40 →
    testLoop (ls.map labelStr ++ rest) ⟨st, 0⟩ = testLoop rest ⟨List.replicate ls.length cL ++ st, 0⟩
  | [], _, _, _ => rfl
  | l :: r, st, rest, h => by
    simp only [List.length_cons] at h
    have h1 : testStep ⟨st, 0⟩ (labelStr l) = .ok (.inl ⟨cL :: st, 0⟩) := by
      show TRes.of (TestSt.push ⟨st, 0⟩ cL) = _
      rw [tpush_ok _ _ _ (by omega)]
      rfl
    rw [List.map_cons, List.cons_append, testLoop_cons, h1]
    show testLoop _ _ = _
    rw [test_labels r (cL :: st) rest (by simp only [List.length_cons]; omega)]
    congr 2
    rw [List.length_cons, List.replicate_succ', List.append_assoc]
    rfl

theorem check_labels (n : Nat) (h : 0 < n) : checkCmd (List.replicate n cL) [76, 44, 108] = true := by
  have hd : (List.replicate n cL).dropWhile (listCase cl) = [] := by
    clear h
    induction n with
    | zero => rfl
    | succ n ih => rw [List.replicate_succ, List.dropWhile_cons, if_pos (by decide), ih]
  obtain ⟨m, rfl⟩ : ∃ m, n = m + 1 := ⟨n - 1, by omega⟩
  rw [List.replicate_succ] at hd ⊢
  unfold checkCmd
  rw [if_neg (by decide), if_neg (by simp)]
  unfold checkLoop
  rw [if_neg (by decide)]
  simp only
  rw [if_neg (by decide), if_neg (by decide), show fixedCase 76 cL = some true by decide]
  simp only
  unfold checkLoop
  rw [if_pos (by decide)]
  split
  · rfl
  · unfold checkLoop
    rw [if_neg (by decide)]
    simp only
    rw [if_neg (by decide), if_pos (by decide), show (108 : Nat) = cl from rfl, hd]

theorem test_on (e : E) (sub : Bool) (ls : List (List Nat)) (h : (S.on e sub ls).WF) {k : TT} (hk : Cmd k) (rest : List Tk) :
    testLoop ((S.on e sub ls).postQ k ++ rest) ⟨[], 0⟩ = testLoop rest ⟨[], 0⟩ := by
  obtain ⟨⟨he, hel⟩, ⟨hne, hll⟩, _⟩ := h
  show testLoop ((e.tree.postP 0 ++ _) ++ rest) _ = _
  simp only [List.cons_append, List.append_assoc, List.nil_append]
  obtain ⟨c, hc, e1⟩ := test_value e he [] (⟨k, [], cmdOn, 0⟩ :: (ls.map labelStr ++ ⟨.command, [], jumpWord sub, 0⟩ :: rest)) (by
    simp only [List.length_nil]; omega)
  have h2 : testStep ⟨[c], 0⟩ ⟨k, [], cmdOn, 0⟩ = .ok (.inl ⟨[], 0⟩) := by
    rw [test_kind hk]
    rcases hc with rfl | rfl <;> decide +kernel
  rw [e1, testLoop_cons, h2]
  show testLoop _ _ = _
  rw [test_labels ls [] _ (by simpa using hll), testLoop_cons]
  have hn : 0 < ls.length := List.length_pos_iff.mpr hne
  have h3 : testStep ⟨List.replicate ls.length cL ++ [], 0⟩ ⟨.command, [], jumpWord sub, 0⟩ = .ok (.inl ⟨[], 0⟩) := by
    show testCommand _ (jumpWord sub) = _
    unfold testCommand
    rw [if_neg (by cases sub <;> decide), show cmdFormat[jumpWord sub]? = some [76, 44, 108] by cases sub <;> decide +kernel]
    simp only [List.append_nil, List.reverse_replicate, check_labels _ hn]
    rw [if_neg (by decide), if_pos (by cases sub <;> decide)]
  rw [h3]
  rfl

theorem argsP_len (a : Args) (n : Nat) : (a.postP n).length = a.post.length := by
  have := congrArg List.length (Args.postP_bare n a)
  simpa using this

/-- DIM, one array. -/
theorem test_dim (l : E) (h : l.isCell = true ∧ l.Good ∧ l.tree.post.length ≤ 40) (rest : List Tk) :
    testLoop (dimPost l.tree ++ rest) ⟨[], 0⟩ = testLoop rest ⟨[], 0⟩ := by
  obtain ⟨hcell, hg, hl⟩ := h
  obtain ⟨w, sq, a, hc⟩ := E.cell_call hcell
  obtain ⟨ht, _, _, hk⟩ := E.tree_wf hg
  have hty := hg.typed
  rw [hc] at ht hk hl hty ⊢
  have hlen : (a.postP 8).length ≤ 40 := by
    rw [argsP_len]
    simp only [Expr.post, List.length_append] at hl
    omega
  have ih := test_args a 8 rfl [] (⟨.argCount, [], a.count, 8⟩ :: ⟨.dimArr, w, 0, 7⟩ :: rest) ht.2 hk.2 (by simpa using hlen)
  obtain ⟨cs, hcs, hty⟩ := some_of_bind (show (a.types.bind _).isSome = true from hty)
  have hcnt := types_length a cs hcs
  have hpos := Args.count_pos a
  have hacc : (cs.all isNum && decide (cs.length ≤ 2)) = true := by
    cases hh : (cs.all isNum && decide (cs.length ≤ 2)) with
    | true => rfl
    | false => rw [hh] at hty; simp at hty
  rw [hcs] at ih
  simp only [Outcome, List.append_nil] at ih
  show testLoop ((a.postP 8 ++ _) ++ rest) _ = _
  rw [List.append_assoc]
  show testLoop (a.postP 8 ++ _ :: _ :: rest) _ = _
  rw [ih, testLoop_cons, show testStep ⟨cs.reverse, 0⟩ ⟨.argCount, [], a.count, 8⟩ = .ok (.inl ⟨cs.reverse, a.count⟩) from rfl]
  show testLoop (_ :: rest) _ = _
  have hstep : testStep ⟨cs.reverse, a.count⟩ ⟨.dimArr, w, 0, 7⟩ = .ok (.inl ⟨[], 0⟩) := by
    show testArr _ = _
    unfold testArr
    have e1 : cs.reverse.take a.count = cs.reverse := by rw [List.take_of_length_le (by simp; omega)]
    have e2 : cs.reverse.drop a.count = [] := by rw [List.drop_eq_nil_of_le (by simp; omega)]
    rw [if_neg (by simp only; omega), if_neg (by simp; omega)]
    simp only [e1, e2, List.reverse_reverse]
    rw [check_arr cs (by omega), hacc, if_neg (by decide)]
  rw [testLoop_cons, hstep]
  rfl

/-- DIM. -/
theorem test_dims : (ls : List E) → (∀ l ∈ ls, l.isCell = true ∧ l.Good ∧ l.tree.post.length ≤ 40) → (rest : List Tk) →
    testLoop (ls.flatMap (fun l => dimPost l.tree) ++ rest) ⟨[], 0⟩ = testLoop rest ⟨[], 0⟩
  | [], _, _ => rfl
  | l :: r, h, rest => by
    rw [List.flatMap_cons, List.append_assoc, test_dim l (h l (by simp)), test_dims r fun x hx => h x (by simp [hx])]

/-- `tok_test` over a statement. -/
theorem test_s (s : S) (h : s.WF) {k : TT} (hk : Cmd k) (rest : List Tk) :
    testLoop (s.postQ k ++ rest) ⟨[], 0⟩ = testLoop rest ⟨[], 0⟩ := by
  have key : testLoop (postS k s.simple ++ rest) ⟨[], 0⟩ = testLoop rest ⟨[], 0⟩ := by
    rw [test_postS hk]
    exact (test_stmt s.simple rest (S.simple_wf h).1 (S.simple_wf h).2.2.2 (by rw [postP_len]; exact S.short h)).1 (S.loose h)
  cases s with
  | goto l => exact test_jump hk cmdGoto (Or.inl rfl) l rest
  | gosub l => exact test_jump hk cmdGosub (Or.inr (Or.inl rfl)) l rest
  | restore l => exact test_jump hk cmdRestore (Or.inr (Or.inr rfl)) l rest
  | read ws => exact key
  | put l e => exact key
  | dim l r => exact test_dims (l :: r) h rest
  | assign w e => exact key
  | cmd c a => exact key
  | print i l => exact key
  | ret => exact key
  | fin => exact key
  | stop => exact key
  | for' w a b st => exact test_for w a b st h hk rest
  | on e sub ls => exact test_on e sub ls h hk rest
  | next w => exact key

theorem test_join : (ss : List S) → (∀ x ∈ ss, x.WF) → {k : TT} → Cmd k → (rest : List Tk) →
    testLoop (postJoin k ss ++ rest) ⟨[], 0⟩ = testLoop rest ⟨[], 0⟩
  | [], _, _, _, _ => rfl
  | s :: r, h, k, hk, rest => by
    rw [postJoin, List.append_assoc, test_s s (h s (by simp)) hk]
    exact test_join r (fun x hx => h x (by simp [hx])) (Or.inr rfl) rest

/-- ELSE and ENDIF take whatever there is. -/
theorem test_star (c : Nat) (hc : c = cmdElse ∨ c = cmdEndif) (t : List Nat) : testStep ⟨t, 0⟩ (cmdTk c) = .ok (.inl ⟨[], 0⟩) := by
  show testCommand ⟨t, 0⟩ c = _
  unfold testCommand
  rcases hc with rfl | rfl
  · rw [if_neg (by decide), show cmdFormat[cmdElse]? = some [42] by decide +kernel]
    simp only [check_star]
    rw [if_neg (by decide), if_pos (by decide)]
  · rw [if_neg (by decide), show cmdFormat[cmdEndif]? = some [42] by decide +kernel]
    simp only [check_star]
    rw [if_neg (by decide), if_pos (by decide)]

theorem test_branch (b : Branch) (h : b.WF) (c : Nat) (hc : c = cmdElse ∨ c = cmdEndif) (rest : List Tk) :
    testLoop (b.postQ ++ cmdTk c :: rest) ⟨[], 0⟩ = testLoop rest ⟨[], 0⟩ := by
  cases b with
  | jump l =>
    show testLoop (⟨.labelString, l, 0, 0⟩ :: cmdTk c :: rest) ⟨[], 0⟩ = _
    rw [testLoop_cons, show testStep ⟨[], 0⟩ ⟨.labelString, l, 0, 0⟩ = .ok (.inl ⟨[cL], 0⟩) from rfl]
    show testLoop (_ :: rest) _ = _
    rw [testLoop_cons, test_star c hc]
    rfl
  | run ss =>
    show testLoop (postJoin .command ss ++ _) _ = _
    rw [test_join ss h.2.1 (Or.inl rfl), testLoop_cons, test_star c hc]
    rfl

theorem test_if (i : If) (h : i.WF) : testLoop (i.postQ ++ [endifTok]) ⟨[], 0⟩ = .ok (.inl ⟨[], 0⟩) := by
  obtain ⟨c, e1, e2⟩ := E.type_num i.cond h.cond
  have hc := test_expr i.cond.tree 0 rfl [] (⟨.firstCommand, [], cmdIf, 0⟩ :: (i.yes.postQ ++ elsePost i.no ++ [endifTok])) h.cond.tree
    (E.known _ h.cond.leaves) (by rw [exprP_len]; simpa using h.short)
  rw [e1] at hc
  simp only [Option.map_some, Outcome, List.reverse_cons, List.reverse_nil, List.nil_append, List.singleton_append] at hc
  have hif : testStep ⟨[c], 0⟩ ⟨.firstCommand, [], cmdIf, 0⟩ = .ok (.inl ⟨[], 0⟩) := by
    have : c = 78 ∨ c = 110 := by simpa [isNum] using e2
    rcases this with rfl | rfl <;> decide +kernel
  unfold If.postQ
  rw [List.append_assoc, List.cons_append, hc, testLoop_cons, hif]
  show testLoop _ _ = _
  rw [List.append_assoc]
  cases hn : i.no with
  | none => exact test_branch i.yes h.yes cmdEndif (Or.inr rfl) []
  | some b =>
    show testLoop (i.yes.postQ ++ (cmdTk cmdElse :: b.postQ ++ [endifTok])) _ = _
    rw [List.cons_append, test_branch i.yes h.yes cmdElse (Or.inl rfl)]
    exact test_branch b (h.no b hn) cmdEndif (Or.inr rfl) []

/-- `tok_test` on a line. -/
theorem tokTest_src (l : Line) (h : l.WF) : tokTest l.postQ = .ok 0 := by
  have h1 : testLoop (postJoin .firstCommand l.stmts ++ ifPost l.last ++ dataPost l.data) ⟨[], 0⟩ = .ok (.inl ⟨[], 0⟩) := by
    rw [List.append_assoc, test_join l.stmts h.stmts (Or.inr rfl)]
    cases hd : l.data with
    | none =>
      rw [dataPost, List.append_nil]
      cases hl : l.last with
      | none => rfl
      | some i => exact test_if i (h.last i hl)
    | some d =>
      rw [(h.data d hd).2.2]
      rfl
  have h2 : testLoop l.postQ ⟨[], 0⟩ = .ok (.inl ⟨[], 0⟩) := by
    unfold Line.postQ
    cases l.label with
    | none => exact h1
    | some w =>
      show testLoop (labelTk w :: _) _ = _
      rw [testLoop_cons, show testStep ⟨[], 0⟩ (labelTk w) = .ok (.inl ⟨[], 0⟩) from rfl]
      exact h1
  unfold tokTest
  rw [h2]
  rfl

end Sbc.Source
