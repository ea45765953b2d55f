import Verif.Proof.Stmt
import Verif.Proof.Signature
import Verif.Spec.Types
set_option autoImplicit false
namespace Sbc.Tok.Spec
open Sbc Sbc.Tok Sbc.Tok.Sig

/-- The possible types. -/
def isType (c : Nat) : Prop := c = 78 ∨ c = 110 ∨ c = 83 ∨ c = 115

theorem funcFormat_length : funcFormat.length = 46 := by decide +kernel
theorem funcReturn_length : funcReturn.length = 46 := by decide +kernel
theorem cmdFormat_length : cmdFormat.length = 110 := by decide +kernel

theorem funcReturn_type : ∀ c ∈ funcReturn, isType c := by
  have : funcReturn.all (fun c => c == 78 || c == 83) = true := by decide +kernel
  intro c hc
  have := List.all_eq_true.mp this c hc
  simp only [Bool.or_eq_true, beq_iff_eq] at this
  unfold isType; omega

/-- Every function signature is good or empty, and has no list. -/
theorem funcFormat_good : ∀ f ∈ funcFormat, f = [] ∨ (good f = true ∧ (alternatives f).all (fun a => fixedLen a == a.length || a == [48]) = true) := by
  have : funcFormat.all (fun f => f.isEmpty || (good f && (alternatives f).all (fun a => fixedLen a == a.length || a == [48]))) = true := by
    decide +kernel
  intro f hf
  have := List.all_eq_true.mp this f hf
  simpa [List.isEmpty_iff] using this

theorem bareList_fixed {a st : List Nat} (h : fixedLen a = a.length ∨ a = [48]) : bareList a st = false := by
  unfold bareList
  unfold fixedLen at h
  cases hg : a.getLast? with
  | none => rfl
  | some p =>
    rw [hg] at h
    simp only [] at h ⊢
    cases hp : isList p with
    | false => rfl
    | true =>
      exfalso
      have hne : a.length ≠ 0 := by
        intro h0
        rw [List.length_eq_zero_iff.mp h0] at hg
        cases hg
      rcases h with h | h
      · rw [hp] at h
        simp only [Bool.true_or, if_true] at h
        omega
      · subst h
        simp only [List.getLast?_singleton, Option.some.injEq] at hg
        subst hg
        simp [isList, cl, cv, ca] at hp

theorem checkCmd_exact {f : List Nat} (h : f = [] ∨ (good f = true ∧ (alternatives f).all (fun a => fixedLen a == a.length || a == [48]) = true))
    (st : List Nat) : checkCmd st f = accepted f st := by
  rcases h with rfl | ⟨h1, h2⟩
  · cases st <;> rfl
  · rw [checkCmd_good f st h1]
    have hne : f ≠ [] := by rintro rfl; simp [good, alternatives, goodAlts, goodAlt] at h1
    have : ((alternatives f).any fun a => bareList a st) = false := by
      rw [List.any_eq_false]
      intro a ha
      have := List.all_eq_true.mp h2 a ha
      simp only [Bool.or_eq_true, beq_iff_eq] at this
      simp [bareList_fixed this]
    rw [this, Bool.or_false]
    unfold accepted
    cases f with
    | nil => exact absurd rfl hne
    | cons x y => simp

theorem getElem?_mem' {α : Type} {l : List α} {i : Nat} {x : α} (h : l[i]? = some x) : x ∈ l := List.mem_of_getElem? h

/-- Types are types. -/
theorem opType_isType {op a b c : Nat} (h : opType op a b = some c) : isType c := by
  unfold opType at h
  unfold isType
  repeat' split at h
  all_goals first | (cases h; done) | (cases h; simp)

theorem varType_isType (t : List Nat) : isType (varType t) := by unfold varType isType; split <;> simp
theorem sysvarType_isType (t : Nat) : isType (sysvarType t) := by unfold sysvarType isType; split <;> simp

theorem sysType_eq (id : Nat) : sysType id = sysvarType id := by
  unfold sysType sysvarType
  simp only [List.mem_cons, List.not_mem_nil, or_false]
  rfl

mutual
theorem type_isType (e : Expr) (c : Nat) (h : e.type = some c) : isType c := by
  match e with
  | .atom t =>
    simp only [Expr.type] at h
    split at h
    · cases h; simp [isType]
    · cases h; exact varType_isType _
    · cases h; exact sysvarType_isType _
    · cases h; simp [isType]
  | .un op e =>
    simp only [Expr.type] at h
    cases he : e.type with
    | none => rw [he] at h; cases h
    | some a =>
      rw [he] at h
      simp only [Option.bind_some] at h
      split at h
      · cases h; simp [isType]
      · cases h
  | .bin op l r =>
    simp only [Expr.type] at h
    cases hl : l.type with
    | none => rw [hl] at h; cases h
    | some a =>
      cases hr : r.type with
      | none => rw [hl, hr] at h; cases h
      | some b =>
        rw [hl, hr] at h
        exact opType_isType h
  | .paren e => exact type_isType e c h
  | .call hd sq a =>
    simp only [Expr.type] at h
    cases ha : a.types with
    | none => rw [ha] at h; cases h
    | some cs =>
      rw [ha] at h
      simp only [Option.bind_some] at h
      split at h
      · split at h
        · exact funcReturn_type c (List.mem_of_getElem? h)
        · cases h
      · split at h
        · cases h; exact varType_isType _
        · cases h
  | .call0 hd =>
    simp only [Expr.type] at h
    split at h
    · exact funcReturn_type c (List.mem_of_getElem? h)
    · cases h
theorem types_isType (a : Args) (cs : List Nat) (h : a.types = some cs) : ∀ c ∈ cs, isType c := by
  match a with
  | .one e =>
    simp only [Args.types] at h
    cases he : e.type with
    | none => rw [he] at h; cases h
    | some x =>
      rw [he] at h; cases h
      intro c hc
      simp only [List.mem_singleton] at hc
      subst hc; exact type_isType e c he
  | .more e a =>
    simp only [Args.types] at h
    cases he : e.type with
    | none => rw [he] at h; cases h
    | some x =>
      cases ha : a.types with
      | none => rw [he, ha] at h; cases h
      | some ys =>
        rw [he, ha] at h; cases h
        intro c hc
        rcases List.mem_cons.mp hc with rfl | hc
        · exact type_isType e c he
        · exact types_isType a ys ha c hc
end

theorem types_length : (a : Args) → (cs : List Nat) → a.types = some cs → cs.length = a.count
  | .one e, cs, h => by
    simp only [Args.types] at h
    cases he : e.type with
    | none => rw [he] at h; cases h
    | some x => rw [he] at h; cases h; rfl
  | .more e a, cs, h => by
    simp only [Args.types] at h
    cases he : e.type with
    | none => rw [he] at h; cases h
    | some x =>
      cases ha : a.types with
      | none => rw [he, ha] at h; cases h
      | some ys => rw [he, ha] at h; cases h; simp [types_length a ys ha, Args.count]

theorem Args.count_pos : (a : Args) → 1 ≤ a.count
  | .one _ => by simp [Args.count]
  | .more _ a => by have := a.count_pos; simp [Args.count]

/-- The operator signatures mean the documented operand types. -/
theorem check_op (op k : Nat) (h : prec op = some k) (a b : Nat) (ha : isType a) (hb : isType b) :
    ∃ f, opFormat[op]? = some f ∧
      (checkCmd [a, b] f = true → opType op a b = some (binResult op a)) ∧
      (checkCmd [a, b] f = false → opType op a b = none) := by
  rcases prec_cases h with ⟨_, h⟩ | ⟨_, h⟩ | ⟨_, h⟩ | ⟨_, h⟩
  all_goals
    have hop : op < 24 := by omega
    have key : ∀ op < 24, op ∈ [15, 16, 17, 8, 9, 10, 11, 12, 13, 0, 2, 3, 4, 14] → ∀ a ∈ [78, 110, 83, 115], ∀ b ∈ [78, 110, 83, 115],
      ∃ f, opFormat[op]? = some f ∧ (checkCmd [a, b] f = true → opType op a b = some (binResult op a)) ∧
        (checkCmd [a, b] f = false → opType op a b = none) := by
      intro op _ hm a ha b hb
      simp only [List.mem_cons, List.not_mem_nil, or_false] at hm ha hb
      rcases hm with rfl | rfl | rfl | rfl | rfl | rfl | rfl | rfl | rfl | rfl | rfl | rfl | rfl | rfl <;>
        rcases ha with rfl | rfl | rfl | rfl <;> rcases hb with rfl | rfl | rfl | rfl <;>
        exact ⟨_, rfl, by decide +kernel, by decide +kernel⟩
    exact key op hop (by simp only [List.mem_cons, List.not_mem_nil, or_false]; omega) a (by simpa [isType] using ha) b (by simpa [isType] using hb)

theorem check_un (a : Nat) : checkCmd [a] [cN] = isNum a := by
  simp [checkCmd, checkLoop, cN, c0, cComma, cStar, isList, cl, cv, ca, fixedCase, isNum, cn]
  rw [Bool.eq_iff_iff]; simp

theorem check_arr (cs : List Nat) (h : 1 ≤ cs.length) : checkCmd cs [78, 44, 78, 78] = (cs.all isNum && decide (cs.length ≤ 2)) := by
  have : [78, 44, 78, 78] ∈ cmdFormat := by decide +kernel
  rw [checkCmd_exact (Or.inr ⟨by decide +kernel, by decide +kernel⟩)]
  match cs, h with
  | [a], _ =>
    simp [accepted, matchesSig, alternatives, fits, isList, cl, cv, ca, accepts, isNum]
  | [a, b], _ =>
    simp [accepted, matchesSig, alternatives, fits, isList, cl, cv, ca, accepts, isNum]
  | a :: b :: c :: r, _ =>
    simp [accepted, matchesSig, alternatives, fits, isList, cl, cv, ca, accepts, isNum]

theorem testLoop_cons (k : Tk) (ks : List Tk) (t : TestSt) : testLoop (k :: ks) t = (testStep t k).bind fun r => match r with
    | .inl t => testLoop ks t
    | .inr e => .ok (.inr e) := rfl

theorem tpush_ok (st : List Nat) (a c : Nat) (h : st.length < 40) : TestSt.push ⟨st, a⟩ c = .ok ⟨c :: st, a⟩ := by
  unfold TestSt.push
  rw [if_pos h]

/-- Outcome of checking some tokens: either they leave these types on the stack, or an error. -/
def Outcome (ts rest : List Tk) (st : List Nat) : Option (List Nat) → Prop
  | some cs => testLoop (ts ++ rest) ⟨st, 0⟩ = testLoop rest ⟨cs.reverse ++ st, 0⟩
  | none => ∃ e, 0 < e ∧ testLoop (ts ++ rest) ⟨st, 0⟩ = .ok (.inr e)

mutual
theorem test_expr (e : Expr) (n : Nat) (hn : n % 8 = 0) (st : List Nat) (rest : List Tk) (hw : e.WF) (hk : e.known)
    (hlen : st.length + (e.postP n).length ≤ 40) : Outcome (e.postP n) rest st (e.type.map fun c => [c]) := by
  match e with
  | .atom t =>
    have hl : st.length < 40 := by simp [Expr.postP] at hlen; omega
    simp only [Expr.WF, List.mem_cons, List.not_mem_nil, or_false] at hw
    simp only [Expr.postP, Expr.type]
    rcases hw with h | h | h | h | h <;>
      simp only [h, Option.map_some, Outcome, List.cons_append, List.nil_append, testLoop_cons, testStep, TRes.of, testArr,
        if_true, Out.bind, sysType_eq, tpush_ok st 0 _ hl, List.reverse_cons, List.reverse_nil] <;> rfl
  | .un op e =>
    obtain ⟨hu, hlev, hwe⟩ := hw
    have hl1 : st.length + (e.postP n).length ≤ 40 := by simp [Expr.postP] at hlen; omega
    have ih := test_expr e n hn st (opP op (n + 6) :: rest) hwe hk hl1
    simp only [Expr.postP, Expr.type]
    have hop : ∀ c, testStep ⟨c :: st, 0⟩ (opP op (n + 6)) =
        if isNum c = false then .ok (.inr errTestOperation) else .ok (.inl ⟨78 :: st, 0⟩) := by
      intro c
      have h1 : ¬ op = opComma := by rcases unary_cases hu with h | h | h <;> rw [h] <;> decide
      have h2 : ¬ op = opSemicolon := by rcases unary_cases hu with h | h | h <;> rw [h] <;> decide
      have h3 : ¬ (n + 6) % 8 ≠ 6 := by omega
      simp only [testStep, opP, testOp]
      rw [if_neg h1, if_neg h2, if_neg h3, check_un]
      rfl
    cases ht : e.type with
    | none =>
      rw [ht] at ih
      simp only [Option.map_none, Outcome, Option.bind_none, List.append_assoc, List.cons_append, List.nil_append] at ih ⊢
      exact ih
    | some c =>
      rw [ht] at ih
      simp only [Option.map_some, Outcome, List.reverse_cons, List.reverse_nil, List.nil_append, List.cons_append] at ih
      simp only [Option.bind_some]
      cases hc : isNum c with
      | true =>
        simp only [if_true, Option.map_some, Outcome, List.append_assoc, List.cons_append, List.nil_append]
        rw [ih, testLoop_cons, hop, hc]
        rfl
      | false =>
        simp only [Bool.false_eq_true, if_false, Option.map_none, Outcome, List.append_assoc, List.cons_append, List.nil_append]
        refine ⟨errTestOperation, by decide, ?_⟩
        rw [ih, testLoop_cons, hop, hc]
        rfl
  | .bin op l r =>
    obtain ⟨k, hk', _, _, hwl, hwr⟩ := hw
    have hk5 : 2 ≤ k ∧ k ≤ 5 := by rcases prec_cases hk' with ⟨h, _⟩ | ⟨h, _⟩ | ⟨h, _⟩ | ⟨h, _⟩ <;> omega
    have hlen' : st.length + ((l.postP n).length + ((r.postP n).length + 1)) ≤ 40 := by simpa [Expr.postP] using hlen
    have hr1 : 1 ≤ (r.postP n).length := by
      have := Expr.postP_ne r n
      rcases hrr : r.postP n with _ | ⟨x, y⟩
      · exact absurd hrr this
      · simp
    have ihl := test_expr l n hn st (r.postP n ++ opP op (n + k) :: rest) hwl hk.1 (by omega)
    simp only [Expr.postP, Expr.type, hk', Option.getD_some]
    cases htl : l.type with
    | none =>
      rw [htl] at ihl
      simp only [Option.map_none, Outcome, Option.bind_none, List.append_assoc, List.cons_append, List.nil_append] at ihl ⊢
      exact ihl
    | some a =>
      rw [htl] at ihl
      simp only [Option.map_some, Outcome, List.reverse_cons, List.reverse_nil, List.nil_append, List.cons_append] at ihl
      have ihr := test_expr r n hn (a :: st) (opP op (n + k) :: rest) hwr hk.2 (by simp only [List.length_cons]; omega)
      cases htr : r.type with
      | none =>
        rw [htr] at ihr
        simp only [Option.map_none, Outcome, Option.bind_none, Option.bind_some, List.append_assoc, List.cons_append, List.nil_append] at ihr ⊢
        obtain ⟨e, he, hh⟩ := ihr
        exact ⟨e, he, by rw [ihl, hh]⟩
      | some b =>
        rw [htr] at ihr
        simp only [Option.map_some, Outcome, List.reverse_cons, List.reverse_nil, List.nil_append, List.cons_append] at ihr
        simp only [Option.bind_some]
        obtain ⟨f, hf, hf1, hf2⟩ := check_op op k hk' a b (type_isType l a htl) (type_isType r b htr)
        have hop : testStep ⟨b :: a :: st, 0⟩ (opP op (n + k)) =
            if checkCmd [a, b] f = false then .ok (.inr errTestOperation) else .ok (.inl ⟨binResult op a :: st, 0⟩) := by
          have h1 : ¬ op = opComma := by
            rcases prec_cases hk' with ⟨_, h⟩ | ⟨_, h⟩ | ⟨_, h⟩ | ⟨_, h⟩ <;> simp only [opComma] <;> omega
          have h2 : ¬ op = opSemicolon := by
            rcases prec_cases hk' with ⟨_, h⟩ | ⟨_, h⟩ | ⟨_, h⟩ | ⟨_, h⟩ <;> simp only [opSemicolon] <;> omega
          have h3 : (n + k) % 8 ≠ 6 := by omega
          have h4 : ¬ op = opAssign := by
            rcases prec_cases hk' with ⟨_, h⟩ | ⟨_, h⟩ | ⟨_, h⟩ | ⟨_, h⟩ <;> simp only [opAssign] <;> omega
          show testOp ⟨b :: a :: st, 0⟩ op (n + k) = _
          unfold testOp
          rw [if_neg h1, if_neg h2, if_pos h3]
          simp only [hf]
          rw [if_neg h4]
        cases hcc : checkCmd [a, b] f with
        | true =>
          rw [hf1 hcc]
          simp only [Option.map_some, Outcome, List.append_assoc, List.cons_append, List.nil_append, List.reverse_cons, List.reverse_nil]
          rw [ihl, ihr, testLoop_cons, hop, hcc]
          rfl
        | false =>
          rw [hf2 hcc]
          simp only [Option.map_none, Outcome, List.append_assoc, List.cons_append, List.nil_append]
          refine ⟨errTestOperation, by decide, ?_⟩
          rw [ihl, ihr, testLoop_cons, hop, hcc]
          rfl
  | .paren e => exact test_expr e (n + 8) (by omega) st rest hw hk (by simpa [Expr.postP] using hlen)
  | .call h sq a =>
    obtain ⟨hh, ha⟩ := hw
    have hlen' : st.length + ((a.postP (n + 8)).length + 2) ≤ 40 := by simpa [Expr.postP] using hlen
    have ih := test_args a (n + 8) (by omega) st (⟨.argCount, [], a.count, n + 8⟩ :: { headTk h with prio := n + 7 } :: rest) ha hk.2 (by omega)
    simp only [Expr.postP, Expr.type]
    cases hts : a.types with
    | none =>
      rw [hts] at ih
      simp only [Outcome, Option.bind_none, Option.map_none, List.append_assoc, List.cons_append, List.nil_append] at ih ⊢
      exact ih
    | some cs =>
      rw [hts] at ih
      simp only [Outcome] at ih
      have hcl := types_length a cs hts
      have hcp := a.count_pos
      have e1 : (cs.reverse ++ st).take a.count = cs.reverse := by rw [← hcl, ← List.length_reverse, List.take_left]
      have e2 : (cs.reverse ++ st).drop a.count = st := by rw [← hcl, ← List.length_reverse, List.drop_left]
      have e3 : ¬ (cs.reverse ++ st).length < a.count := by simp [hcl]
      have harg : testStep ⟨cs.reverse ++ st, 0⟩ ⟨.argCount, [], a.count, n + 8⟩ = .ok (.inl ⟨cs.reverse ++ st, a.count⟩) := rfl
      simp only [Option.bind_some]
      simp only [List.mem_cons, List.not_mem_nil, or_false] at hh
      rcases hh with hf | hnm
      · have hlt := hk.1 hf
        have hhd : headTk h = h := by unfold headTk; rw [if_neg (by rw [hf]; decide)]
        obtain ⟨fmt, hfmt⟩ : ∃ f, funcFormat[h.cmd]? = some f := ⟨_, List.getElem?_eq_getElem (by rw [funcFormat_length]; exact hlt)⟩
        obtain ⟨ret, hret⟩ : ∃ f, funcReturn[h.cmd]? = some f := ⟨_, List.getElem?_eq_getElem (by rw [funcReturn_length]; exact hlt)⟩
        have hstep : testStep ⟨cs.reverse ++ st, a.count⟩ { headTk h with prio := n + 7 } =
            if accepted fmt cs = false then .ok (.inr errTestFunction) else .ok (.inl ⟨ret :: st, 0⟩) := by
          rw [hhd]
          simp only [testStep, hf, testFunc]
          rw [if_neg e3]
          simp only [hfmt, hret, e1, e2, List.reverse_reverse]
          rw [checkCmd_exact (funcFormat_good fmt (List.mem_of_getElem? hfmt))]
          split
          · rfl
          · rw [tpush_ok _ _ _ (by omega)]; rfl
        have hcond : accepted (funcFormat[h.cmd]?.getD []) cs = accepted fmt cs := by rw [hfmt]; rfl
        rw [if_pos hf, hcond, hret]
        cases hacc : accepted fmt cs with
        | true =>
          simp only [if_true, Option.map_some, Outcome, List.append_assoc, List.cons_append, List.nil_append]
          rw [ih, testLoop_cons, harg]
          simp only [Out.bind]
          rw [testLoop_cons, hstep, hacc]
          rfl
        | false =>
          simp only [Bool.false_eq_true, if_false, Option.map_none, Outcome, List.append_assoc, List.cons_append, List.nil_append]
          refine ⟨errTestFunction, by decide, ?_⟩
          rw [ih, testLoop_cons, harg]
          simp only [Out.bind]
          rw [testLoop_cons, hstep, hacc]
          rfl
      · have hnf : ¬ h.ty = .function := by rw [hnm]; decide
        have hhd : headTk h = { h with ty := .arrayName } := by unfold headTk; rw [if_pos hnm]
        have hstep : testStep ⟨cs.reverse ++ st, a.count⟩ { headTk h with prio := n + 7 } =
            if (cs.all isNum && decide (cs.length ≤ 2)) = false then .ok (.inr errTestArray) else .ok (.inl ⟨varType h.text :: st, 0⟩) := by
          rw [hhd]
          simp only [testStep, testArr]
          rw [if_neg (by omega), if_neg e3]
          simp only [e1, e2, List.reverse_reverse]
          rw [check_arr cs (by omega)]
          split
          · rfl
          · simp only [Out.bind, TRes.of, tpush_ok st 0 _ (by omega)]
            rfl
        rw [if_neg hnf]
        cases hacc : (cs.all isNum && decide (cs.length ≤ 2)) with
        | true =>
          simp only [if_true, Option.map_some, Outcome, List.append_assoc, List.cons_append, List.nil_append]
          rw [ih, testLoop_cons, harg]
          simp only [Out.bind]
          rw [testLoop_cons, hstep, hacc]
          rfl
        | false =>
          simp only [Bool.false_eq_true, if_false, Option.map_none, Outcome, List.append_assoc, List.cons_append, List.nil_append]
          refine ⟨errTestArray, by decide, ?_⟩
          rw [ih, testLoop_cons, harg]
          simp only [Out.bind]
          rw [testLoop_cons, hstep, hacc]
          rfl
  | .call0 h =>
    have hlt : h.cmd < 46 := hk
    have hf : h.ty = .function := hw
    have hlen' : st.length + 2 ≤ 40 := by simpa [Expr.postP] using hlen
    obtain ⟨fmt, hfmt⟩ : ∃ f, funcFormat[h.cmd]? = some f := ⟨_, List.getElem?_eq_getElem (by rw [funcFormat_length]; exact hlt)⟩
    obtain ⟨ret, hret⟩ : ∃ f, funcReturn[h.cmd]? = some f := ⟨_, List.getElem?_eq_getElem (by rw [funcReturn_length]; exact hlt)⟩
    have harg : testStep ⟨st, 0⟩ ⟨.argCount, [], 0, n + 8⟩ = .ok (.inl ⟨st, 0⟩) := rfl
    have hstep : testStep ⟨st, 0⟩ { h with prio := n + 7 } =
        if accepted fmt [] = false then .ok (.inr errTestFunction) else .ok (.inl ⟨ret :: st, 0⟩) := by
      simp only [testStep, hf, testFunc]
      rw [if_neg (by simp)]
      simp only [hfmt, hret, List.take_zero, List.reverse_nil, List.drop_zero]
      rw [checkCmd_exact (funcFormat_good fmt (List.mem_of_getElem? hfmt))]
      split
      · rfl
      · rw [tpush_ok _ _ _ (by omega)]; rfl
    have hcond : accepted (funcFormat[h.cmd]?.getD []) [] = accepted fmt [] := by rw [hfmt]; rfl
    simp only [Expr.postP, Expr.type]
    rw [hcond, hret]
    cases hacc : accepted fmt [] with
    | true =>
      simp only [if_true, Option.map_some, Outcome, List.cons_append, List.nil_append]
      rw [testLoop_cons, harg]
      simp only [Out.bind]
      rw [testLoop_cons, hstep, hacc]
      rfl
    | false =>
      simp only [Bool.false_eq_true, if_false, Option.map_none, Outcome, List.cons_append, List.nil_append]
      refine ⟨errTestFunction, by decide, ?_⟩
      rw [testLoop_cons, harg]
      simp only [Out.bind]
      rw [testLoop_cons, hstep, hacc]
      rfl
theorem test_args (a : Args) (n : Nat) (hn : n % 8 = 0) (st : List Nat) (rest : List Tk) (hw : a.WF) (hk : a.known)
    (hlen : st.length + (a.postP n).length ≤ 40) : Outcome (a.postP n) rest st a.types := by
  match a with
  | .one e => exact test_expr e n hn st rest hw hk hlen
  | .more e a =>
    have hlen' : st.length + ((e.postP n).length + (a.postP n).length) ≤ 40 := by simpa [Args.postP] using hlen
    have hr1 : 1 ≤ (e.postP n).length := by
      have := Expr.postP_ne e n
      rcases hrr : e.postP n with _ | ⟨x, y⟩
      · exact absurd hrr this
      · simp
    have ih := test_expr e n hn st (a.postP n ++ rest) hw.1 hk.1 (by omega)
    simp only [Args.postP, Args.types]
    cases ht : e.type with
    | none =>
      rw [ht] at ih
      simp only [Option.map_none, Outcome, Option.bind_none, List.append_assoc] at ih ⊢
      exact ih
    | some c =>
      rw [ht] at ih
      simp only [Option.map_some, Outcome, List.reverse_cons, List.reverse_nil, List.nil_append, List.cons_append] at ih
      have ih2 := test_args a n hn (c :: st) rest hw.2 hk.2 (by simp only [List.length_cons]; omega)
      simp only [Option.bind_some]
      cases hts : a.types with
      | none =>
        rw [hts] at ih2
        simp only [Option.map_none, Outcome, List.append_assoc] at ih2 ⊢
        obtain ⟨x, hx, hh⟩ := ih2
        exact ⟨x, hx, by rw [ih, hh]⟩
      | some cs =>
        rw [hts] at ih2
        simp only [Option.map_some, Outcome, List.append_assoc, List.reverse_cons, List.cons_append, List.nil_append] at ih2 ⊢
        rw [ih, ih2]
end

/-! ## Statements -/

/-- Every command signature is good or empty. -/
theorem cmdFormat_good : ∀ f ∈ cmdFormat, f = [] ∨ good f = true := by
  have : cmdFormat.all (fun f => f.isEmpty || good f) = true := by decide +kernel
  intro f hf
  have := List.all_eq_true.mp this f hf
  simpa [List.isEmpty_iff] using this

/-- What `check_cmd` accepts for a command. -/
def looseSig (f cs : List Nat) : Bool := accepted f cs || (!f.isEmpty && (alternatives f).any fun a => bareList a cs)

theorem checkCmd_loose {f : List Nat} (h : f = [] ∨ good f = true) (st : List Nat) : checkCmd st f = looseSig f st := by
  rcases h with rfl | h
  · cases st <;> rfl
  · rw [checkCmd_good f st h]
    have hne : f ≠ [] := by rintro rfl; simp [good, alternatives, goodAlts, goodAlt] at h
    unfold looseSig accepted
    cases f with
    | nil => exact absurd rfl hne
    | cons x y => simp

/-- Acceptance as the program implements it. -/
def Stmt.loose : Stmt → Prop
  | .empty => True
  | .assign l e => ∃ a b, l.type = some a ∧ e.type = some b ∧ ((a = 110 ∧ isNum b) ∨ (a = 115 ∧ isStr b))
  | .cmd0 c => looseSig (signature c) [] = true
  | .cmd c a => ∃ cs, a.types = some cs ∧ looseSig (signature c) cs = true
  | .print items last => (∀ x ∈ items, ∀ e, x.1 = some e → e.type ≠ none) ∧ ∀ e, last = some e → e.type ≠ none

theorem test_cmd (c : Nat) (hc : c < 110) (ho : ordinary c) (ht : c ≠ cmdTo) (st : List Nat) :
    testStep ⟨st, 0⟩ ⟨.firstCommand, [], c, 0⟩ =
      if looseSig (signature c) st.reverse = false then .ok (.inr errTestCommand) else .ok (.inl ⟨[], 0⟩) := by
  obtain ⟨f, hf⟩ : ∃ f, cmdFormat[c]? = some f := ⟨_, List.getElem?_eq_getElem (by rw [cmdFormat_length]; exact hc)⟩
  have hsig : signature c = f := by unfold signature; rw [hf]; rfl
  simp only [ordinary, List.mem_cons, List.not_mem_nil, or_false, not_or] at ho
  show testCommand ⟨st, 0⟩ c = _
  unfold testCommand
  rw [if_neg ho.2.2.2.2.2.1, hf, hsig]
  simp only []
  rw [checkCmd_loose (cmdFormat_good f (List.mem_of_getElem? hf))]
  cases looseSig f st.reverse with
  | false => rfl
  | true =>
    simp only [Bool.true_eq_false, if_false]
    exact if_pos ⟨by simp_all, ht⟩

theorem test_print (st : List Nat) : testStep ⟨st, 0⟩ ⟨.firstCommand, [], cmdPrint, 0⟩ = .ok (.inl ⟨[], 0⟩) := by
  have : ∀ l, checkCmd l [42] = true := by
    intro l
    cases l with
    | nil => rfl
    | cons x y => rfl
  show testCommand ⟨st, 0⟩ cmdPrint = _
  unfold testCommand
  rw [if_neg (by decide)]
  have hf : cmdFormat[cmdPrint]? = some [42] := by decide +kernel
  rw [hf]
  simp only [this]
  rfl

theorem test_sep (st : List Nat) (op : Nat) (h : op = opComma ∨ op = opSemicolon) (hl : st.length < 40) :
    ∃ c, testStep ⟨st, 0⟩ (opP op 1) = .ok (.inl ⟨c :: st, 0⟩) := by
  rcases h with rfl | rfl
  · refine ⟨cLess, ?_⟩
    show TRes.of (TestSt.push ⟨st, 0⟩ cLess) = _
    rw [tpush_ok _ _ _ hl]; rfl
  · refine ⟨cSemi, ?_⟩
    show TRes.of (TestSt.push ⟨st, 0⟩ cSemi) = _
    rw [tpush_ok _ _ _ hl]; rfl

theorem test_opt (o : Option Expr) (st : List Nat) (rest : List Tk) (hw : ∀ e, o = some e → e.WF) (hk : ∀ e, o = some e → e.known)
    (hlen : st.length + (optPostP o).length ≤ 40) :
    ((∀ e, o = some e → e.type ≠ none) → ∃ cs : List Nat, cs.length ≤ (optPostP o).length ∧
      testLoop (optPostP o ++ rest) ⟨st, 0⟩ = testLoop rest ⟨cs ++ st, 0⟩) ∧
    ((¬ ∀ e, o = some e → e.type ≠ none) → ∃ e, 0 < e ∧ testLoop (optPostP o ++ rest) ⟨st, 0⟩ = .ok (.inr e)) := by
  cases o with
  | none => exact ⟨fun _ => ⟨[], by simp, rfl⟩, fun h => absurd (fun e he => by cases he) h⟩
  | some e =>
    have ih := test_expr e 0 rfl st rest (hw e rfl) (hk e rfl) hlen
    have hne : 1 ≤ (e.postP 0).length := by
      have := Expr.postP_ne e 0
      rcases hrr : e.postP 0 with _ | ⟨x, y⟩
      · exact absurd hrr this
      · simp
    simp only [optPostP]
    cases ht : e.type with
    | none =>
      rw [ht] at ih
      exact ⟨fun h => absurd ht (h e rfl), fun _ => ih⟩
    | some c =>
      rw [ht] at ih
      refine ⟨fun _ => ⟨[c], hne, ih⟩, fun h => absurd ?_ h⟩
      intro x hx
      cases hx; rw [ht]; simp

theorem test_items : (l : List (Option Expr × Nat)) → (st : List Nat) → (rest : List Tk) →
    (∀ x ∈ l, (∀ e, x.1 = some e → e.WF) ∧ (x.2 = opComma ∨ x.2 = opSemicolon)) →
    (∀ x ∈ l, ∀ e, x.1 = some e → e.known) → st.length + (itemPostP l).length ≤ 40 →
    ((∀ x ∈ l, ∀ e, x.1 = some e → e.type ≠ none) → ∃ cs : List Nat, cs.length ≤ (itemPostP l).length ∧
      testLoop (itemPostP l ++ rest) ⟨st, 0⟩ = testLoop rest ⟨cs ++ st, 0⟩) ∧
    ((¬ ∀ x ∈ l, ∀ e, x.1 = some e → e.type ≠ none) → ∃ e, 0 < e ∧ testLoop (itemPostP l ++ rest) ⟨st, 0⟩ = .ok (.inr e))
  | [], st, rest, _, _, _ => ⟨fun _ => ⟨[], by simp, rfl⟩, fun h => absurd (fun x hx => by cases hx) h⟩
  | x :: l, st, rest, hw, hk, hlen => by
    have hlen' : st.length + ((optPostP x.1).length + ((itemPostP l).length + 1)) ≤ 40 := by simpa [itemPostP] using hlen
    have hx := hw x (by simp)
    obtain ⟨o1, o2⟩ := test_opt x.1 st (opP x.2 1 :: (itemPostP l ++ rest)) hx.1 (hk x (by simp)) (by omega)
    by_cases ht : ∀ e, x.1 = some e → e.type ≠ none
    · obtain ⟨cs, hcs, h1⟩ := o1 ht
      obtain ⟨c, hc⟩ := test_sep (cs ++ st) x.2 hx.2 (by simp only [List.length_append]; omega)
      obtain ⟨i1, i2⟩ := test_items l (c :: (cs ++ st)) rest (fun y hy => hw y (by simp [hy])) (fun y hy => hk y (by simp [hy]))
        (by simp only [List.length_cons, List.length_append]; omega)
      have step : testLoop (itemPostP (x :: l) ++ rest) ⟨st, 0⟩ = testLoop (itemPostP l ++ rest) ⟨c :: (cs ++ st), 0⟩ := by
        simp only [itemPostP, List.append_assoc, List.cons_append]
        rw [h1, testLoop_cons, hc]
        rfl
      constructor
      · intro h
        obtain ⟨ds, hds, h2⟩ := i1 (fun y hy => h y (by simp [hy]))
        refine ⟨ds ++ c :: cs, ?_, ?_⟩
        · simp only [itemPostP, List.length_append, List.length_cons]; omega
        · rw [step, h2]; simp
      · intro h
        have : ¬ ∀ y ∈ l, ∀ e, y.1 = some e → e.type ≠ none := by
          intro h'
          apply h
          intro y hy
          rcases List.mem_cons.mp hy with rfl | hy
          · exact ht
          · exact h' y hy
        obtain ⟨e, he, h2⟩ := i2 this
        exact ⟨e, he, by rw [step, h2]⟩
    · constructor
      · intro h; exact absurd (h x (by simp)) ht
      · intro _
        obtain ⟨e, he, h2⟩ := o2 ht
        refine ⟨e, he, ?_⟩
        simp only [itemPostP, List.append_assoc, List.cons_append]
        exact h2

theorem check_assign (a b : Nat) (ha : isType a) (hb : isType b) :
    checkCmd [a, b] [110, 78, 44, 115, 83] = true ↔ ((a = 110 ∧ isNum b) ∨ (a = 115 ∧ isStr b)) := by
  unfold isType at ha hb
  rcases ha with rfl | rfl | rfl | rfl <;> rcases hb with rfl | rfl | rfl | rfl <;> decide +kernel

/-- `tok_test` over one statement. -/
theorem test_stmt (s : Stmt) (rest : List Tk) (hw : s.WF) (hk : s.known) (hlen : s.postP.length ≤ 40) :
    (s.loose → testLoop (s.postP ++ rest) ⟨[], 0⟩ = testLoop rest ⟨[], 0⟩) ∧
    (¬ s.loose → ∃ e, 0 < e ∧ testLoop (s.postP ++ rest) ⟨[], 0⟩ = .ok (.inr e)) := by
  cases s with
  | empty => exact ⟨fun _ => rfl, fun h => absurd trivial h⟩
  | assign l e =>
    obtain ⟨hl, he, _⟩ := hw
    have hlen' : (l.postP 0).length + ((e.postP 0).length + 1) ≤ 40 := by simpa [Stmt.postP] using hlen
    have ne1 : 1 ≤ (l.postP 0).length := by
      have := Expr.postP_ne l 0
      rcases hrr : l.postP 0 with _ | ⟨x, y⟩
      · exact absurd hrr this
      · simp
    have ihl := test_expr l 0 rfl [] (e.postP 0 ++ opP opAssign 0 :: rest) hl hk.1 (by simp only [List.length_nil]; omega)
    simp only [Stmt.postP, List.append_assoc, List.cons_append, List.nil_append, Stmt.loose]
    cases htl : l.type with
    | none =>
      rw [htl] at ihl
      refine ⟨fun h => ?_, fun _ => ihl⟩
      obtain ⟨a, b, h1, _⟩ := h
      cases h1
    | some a =>
      rw [htl] at ihl
      simp only [Option.map_some, Outcome, List.reverse_cons, List.reverse_nil, List.nil_append, List.append_nil] at ihl
      have ihe := test_expr e 0 rfl [a] (opP opAssign 0 :: rest) he hk.2 (by simp only [List.length_singleton]; omega)
      cases hte : e.type with
      | none =>
        rw [hte] at ihe
        refine ⟨fun h => ?_, fun _ => ?_⟩
        · obtain ⟨a, b, _, h2, _⟩ := h
          cases h2
        · obtain ⟨x, hx, hh⟩ := ihe
          exact ⟨x, hx, by rw [ihl, hh]⟩
      | some b =>
        rw [hte] at ihe
        simp only [Option.map_some, Outcome, List.reverse_cons, List.reverse_nil, List.nil_append, List.cons_append] at ihe
        have hop : testStep ⟨[b, a], 0⟩ (opP opAssign 0) =
            if checkCmd [a, b] [110, 78, 44, 115, 83] = false then .ok (.inr errTestOperation) else .ok (.inl ⟨[], 0⟩) := by
          have hf : opFormat[opAssign]? = some [110, 78, 44, 115, 83] := by decide +kernel
          show testOp ⟨[b, a], 0⟩ opAssign 0 = _
          unfold testOp
          rw [if_neg (by decide), if_neg (by decide), if_pos (by decide)]
          simp only [hf]
          rw [if_pos trivial]
        have hiff := check_assign a b (type_isType l a htl) (type_isType e b hte)
        constructor
        · rintro ⟨a', b', h1, h2, h3⟩
          cases h1; cases h2
          rw [ihl, ihe, testLoop_cons, hop, hiff.mpr h3]
          rfl
        · intro h
          have : checkCmd [a, b] [110, 78, 44, 115, 83] = false := by
            cases hh : checkCmd [a, b] [110, 78, 44, 115, 83] with
            | false => rfl
            | true => exact absurd ⟨a, b, rfl, rfl, hiff.mp hh⟩ h
          refine ⟨errTestOperation, by decide, ?_⟩
          rw [ihl, ihe, testLoop_cons, hop, this]
          rfl
  | cmd0 c =>
    have hstep := test_cmd c hk.1 hw hk.2 []
    have hrev : ([] : List Nat).reverse = [] := rfl
    rw [hrev] at hstep
    simp only [Stmt.postP, List.cons_append, List.nil_append, Stmt.loose]
    cases hh : looseSig (signature c) [] with
    | true =>
      rw [hh] at hstep
      refine ⟨fun _ => ?_, fun h => absurd rfl h⟩
      rw [testLoop_cons, hstep]
      rfl
    | false =>
      rw [hh] at hstep
      refine ⟨fun h => absurd h Bool.false_ne_true, fun _ => ⟨errTestCommand, ⟨by decide, ?_⟩⟩⟩
      rw [testLoop_cons, hstep]
      rfl
  | cmd c a =>
    have hlen' : (a.postP 0).length + 1 ≤ 40 := by simpa [Stmt.postP] using hlen
    have ih := test_args a 0 rfl [] (⟨.firstCommand, [], c, 0⟩ :: rest) hw.2 hk.2.2 (by simp only [List.length_nil]; omega)
    simp only [Stmt.postP, List.append_assoc, List.cons_append, List.nil_append, Stmt.loose]
    cases hts : a.types with
    | none =>
      rw [hts] at ih
      refine ⟨fun h => ?_, fun _ => ih⟩
      obtain ⟨cs, h1, _⟩ := h
      cases h1
    | some cs =>
      rw [hts] at ih
      simp only [Outcome, List.append_nil] at ih
      have hstep := test_cmd c hk.1 hw.1 hk.2.1 cs.reverse
      rw [List.reverse_reverse] at hstep
      constructor
      · rintro ⟨cs', h1, h2⟩
        cases h1
        rw [ih, testLoop_cons, hstep, h2]
        rfl
      · intro h
        have : looseSig (signature c) cs = false := by
          cases hh : looseSig (signature c) cs with
          | false => rfl
          | true => exact absurd ⟨cs, rfl, hh⟩ h
        refine ⟨errTestCommand, by decide, ?_⟩
        rw [ih, testLoop_cons, hstep, this]
        rfl
  | print i l =>
    have hlen' : (itemPostP i).length + ((optPostP l).length + 1) ≤ 40 := by simpa [Stmt.postP] using hlen
    obtain ⟨i1, i2⟩ := test_items i [] (optPostP l ++ ⟨.firstCommand, [], cmdPrint, 0⟩ :: rest) hw.1 hk.1
      (by simp only [List.length_nil]; omega)
    simp only [Stmt.postP, List.append_assoc, List.cons_append, List.nil_append, Stmt.loose]
    by_cases hi : ∀ x ∈ i, ∀ e, x.1 = some e → e.type ≠ none
    · obtain ⟨cs, hcs, h1⟩ := i1 hi
      rw [List.append_nil] at h1
      obtain ⟨o1, o2⟩ := test_opt l cs (⟨.firstCommand, [], cmdPrint, 0⟩ :: rest) hw.2 hk.2 (by omega)
      constructor
      · rintro ⟨_, h⟩
        obtain ⟨ds, _, h2⟩ := o1 h
        rw [h1, h2, testLoop_cons, test_print]
        rfl
      · intro h
        obtain ⟨x, hx, h2⟩ := o2 (fun h' => h ⟨hi, h'⟩)
        exact ⟨x, hx, by rw [h1, h2]⟩
    · constructor
      · rintro ⟨h, _⟩; exact absurd h hi
      · intro _; exact i2 hi

theorem test_line : (l : List (Stmt × Tk)) → (∀ x ∈ l, x.1.WF ∧ x.1.known ∧ x.1.postP.length ≤ 40) →
    ((∀ x ∈ l, x.1.loose) → tokTest (linePostP l) = .ok 0) ∧
    ((¬ ∀ x ∈ l, x.1.loose) → ∃ e, 0 < e ∧ tokTest (linePostP l) = .ok e)
  | [], _ => ⟨fun _ => rfl, fun h => absurd (fun x hx => by cases hx) h⟩
  | (s, nl) :: r, h => by
    obtain ⟨hw, hk, hl⟩ := h (s, nl) (by simp)
    obtain ⟨s1, s2⟩ := test_stmt s (linePostP r) hw hk hl
    obtain ⟨r1, r2⟩ := test_line r (fun y hy => h y (by simp [hy]))
    by_cases hs : s.loose
    · have e : tokTest (linePostP ((s, nl) :: r)) = tokTest (linePostP r) := by
        unfold tokTest
        simp only [linePostP]
        rw [s1 hs]
      rw [e]
      constructor
      · intro h; exact r1 (fun y hy => h y (by simp [hy]))
      · intro h
        refine r2 (fun h' => h ?_)
        intro y hy
        rcases List.mem_cons.mp hy with rfl | hy
        · exact hs
        · exact h' y hy
    · constructor
      · intro h; exact absurd (h (s, nl) (by simp)) hs
      · intro _
        obtain ⟨x, hx, hh⟩ := s2 hs
        refine ⟨x, hx, ?_⟩
        unfold tokTest
        simp only [linePostP]
        rw [hh]
        rfl

/-- Only INPUT has a signature with a fixed part followed by a list (SORT and RSORT are not ordinary). -/
theorem loose_exact {c : Nat} (hc : c < 110) (h : c ≠ 23 ∧ c ≠ cmdSort ∧ c ≠ cmdRsort) (cs : List Nat) :
    looseSig (signature c) cs = accepted (signature c) cs := by
  have key : ∀ c < 110, (c = 23 ∨ c = 87 ∨ c = 83) ∨
      (alternatives (signature c)).all (fun a => fixedLen a == a.length || a == [48] || decide (a.length < 2)) = true := by
    decide +kernel
  rcases key c hc with h' | h'
  · rcases h' with h' | h' | h'
    · exact absurd h' h.1
    · exact absurd h' h.2.1
    · exact absurd h' h.2.2
  · have : ((alternatives (signature c)).any fun a => bareList a cs) = false := by
      rw [List.any_eq_false]
      intro a ha
      have := List.all_eq_true.mp h' a ha
      simp only [Bool.or_eq_true, beq_iff_eq, decide_eq_true_eq] at this
      rcases this with this | this
      · simp [bareList_fixed this]
      · unfold bareList
        cases a.getLast? with
        | none => simp
        | some p => simp only []; rw [decide_eq_false (by omega)]; simp
    unfold looseSig
    rw [this]
    simp

end Sbc.Tok.Spec
