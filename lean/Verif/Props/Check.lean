import Verif.Proof.Types
import Verif.Proof.Stmt
set_option autoImplicit false
/-!
# C50: commands accept exactly the documented argument shapes
-/
namespace Sbc.Props.Check
open Sbc Sbc.Tok Sbc.Tok.Spec Sbc.Tok.Sig

/-- For every signature that is `*` or alternatives in order of length, and every argument list: the arguments are
accepted if and only if they have the shape of one of the alternatives, or of an alternative without the list it
ends in (see the violation below). -/
theorem C50_check_iff_match_partial (sig args : List Nat) (h : good sig = true) :
    checkCmd args sig = true ↔
      (∃ a ∈ alternatives sig, fits a args = true) ∨ ∃ a ∈ alternatives sig, bareList a args = true := by
  rw [checkCmd_good sig args h]
  simp [matchesSig, List.any_eq_true]

/-- Exactly for the signatures in which no list follows something else. -/
theorem C50_check_iff_match (sig args : List Nat) (h : good sig = true)
    (hl : ∀ a ∈ alternatives sig, fixedLen a = a.length ∨ a.length < 2) :
    checkCmd args sig = true ↔ ∃ a ∈ alternatives sig, fits a args = true := by
  rw [C50_check_iff_match_partial sig args h]
  constructor
  · rintro (h | ⟨a, ha, hb⟩)
    · exact h
    · exfalso
      rcases hl a ha with h' | h'
      · rw [bareList_fixed (Or.inl h')] at hb; cases hb
      · unfold bareList at hb
        cases hg : a.getLast? with
        | none => rw [hg] at hb; cases hb
        | some p =>
          rw [hg] at hb
          simp only [Bool.and_eq_true, decide_eq_true_eq] at hb
          omega
  · exact Or.inl

/-- Every command of the table has such a signature (or none at all: then nothing is accepted). -/
theorem C50_all_commands_covered : ∀ c < 110, signature c = [] ∨ good (signature c) = true := by decide +kernel

/-- The commands that take more than the alternatives say: INPUT, SORT and RSORT. -/
theorem C50_commands_exact : ∀ c < 110, c ≠ 23 → c ≠ cmdSort → c ≠ cmdRsort → ∀ args,
    checkCmd args (signature c) = true ↔ signature c ≠ [] ∧ ∃ a ∈ alternatives (signature c), fits a args = true := by
  intro c hc h1 h2 h3 args
  rw [checkCmd_loose (C50_all_commands_covered c hc), loose_exact hc ⟨h1, h2, h3⟩]
  unfold accepted matchesSig
  cases hs : signature c with
  | nil => simp
  | cons x y => simp [List.any_eq_true]

/-- No INPUT in the statement (its accepted arguments are wider, see below). -/
def noInput : Stmt → Prop
  | .cmd0 c => c ≠ 23
  | .cmd c _ => c ≠ 23
  | _ => True

theorem postP_length (s : Stmt) : s.postP.length = s.post.length := by
  have := congrArg List.length (Stmt.postP_bare s)
  simpa using this

theorem loose_iff {s : Stmt} (hw : s.WF) (hk : s.known) (hi : noInput s) : s.loose ↔ s.acceptable := by
  cases s with
  | empty => exact Iff.rfl
  | assign l e => exact Iff.rfl
  | cmd0 c =>
    simp only [Stmt.loose, Stmt.acceptable]
    rw [loose_exact hk.1]
    have ho : ordinary c := hw
    simp only [ordinary, List.mem_cons, List.not_mem_nil, or_false, not_or] at ho
    exact ⟨hi, ho.2.2.2.2.2.2.1, ho.2.2.2.2.2.2.2.1⟩
  | cmd c a =>
    have ho : ordinary c := hw.1
    simp only [ordinary, List.mem_cons, List.not_mem_nil, or_false, not_or] at ho
    have : ∀ cs, looseSig (signature c) cs = accepted (signature c) cs :=
      loose_exact hk.1 ⟨hi, ho.2.2.2.2.2.2.1, ho.2.2.2.2.2.2.2.1⟩
    simp only [Stmt.loose, Stmt.acceptable, this]
  | print i l => exact Iff.rfl

/-- A line of assignments, PRINTs and commands passes the compiler's check if and only if every statement is
acceptable: every expression well-typed, every assignment between equal types, every argument list of one of the
shapes in the command's signature.  Not covered: INPUT, the commands with a syntax of their own (DIM, FOR, IF,
DATA, SORT, RSORT), labels as arguments, statements of more than 40 compiled tokens (see below). -/
theorem C50_line_accepted_iff_partial (pre : Tk) (l : List (Stmt × Tk))
    (h : ∀ x ∈ l, x.1.WF ∧ x.1.Plain ∧ x.1.shallow 62 ∧ x.2.ty = .newline)
    (hk : ∀ x ∈ l, x.1.known ∧ x.1.post.length ≤ 40 ∧ noInput x.1) (hlen : (lineToks l).length ≤ 100) :
    ∃ e, (tokEval (tokPrio pre (lineToks l))).bind tokTest = .ok e ∧ (e = 0 ↔ ∀ x ∈ l, x.1.acceptable) := by
  rw [tokEval_line pre l h hlen]
  obtain ⟨t1, t2⟩ := test_line l (fun x hx => ⟨(h x hx).1, (hk x hx).1, by rw [postP_length]; exact (hk x hx).2.1⟩)
  have hiff : (∀ x ∈ l, x.1.loose) ↔ ∀ x ∈ l, x.1.acceptable :=
    forall₂_congr fun x hx => loose_iff (h x hx).1 (hk x hx).1 (hk x hx).2.2
  by_cases hl : ∀ x ∈ l, x.1.loose
  · exact ⟨0, t1 hl, ⟨fun _ => hiff.mp hl, fun _ => rfl⟩⟩
  · obtain ⟨e, he, ht⟩ := t2 hl
    exact ⟨e, ht, ⟨fun h0 => by omega, fun ha => absurd (hiff.mpr ha) hl⟩⟩

/-! Example: `LOCATE 1,2` is accepted, `LOCATE 1,"A"` and `A=B$` are not. -/
/-- `LOCATE 1,2` -/
def ok1 : Stmt := .cmd 1 (.more (.atom ⟨.number, [49], 0, 0⟩) (.one (.atom ⟨.number, [50], 0, 0⟩)))
/-- `LOCATE 1,"A"` -/
def bad1 : Stmt := .cmd 1 (.more (.atom ⟨.number, [49], 0, 0⟩) (.one (.atom ⟨.string, [65], 0, 0⟩)))
/-- `A=B$` -/
def bad2 : Stmt := .assign (.atom ⟨.name, [65], 0, 0⟩) (.atom ⟨.name, [66, 36], 0, 0⟩)
/-- end of line -/
def nl : Tk := ⟨.newline, [13], 0, 0⟩

theorem example_hyp : ∀ x ∈ [(ok1, nl), (bad1, nl), (bad2, nl)],
    (x.1.WF ∧ x.1.Plain ∧ x.1.shallow 62 ∧ x.2.ty = .newline) ∧ x.1.known ∧ x.1.post.length ≤ 40 ∧ noInput x.1 := by
  intro x hx
  simp only [List.mem_cons, List.not_mem_nil, or_false] at hx
  rcases hx with rfl | rfl | rfl
  · refine ⟨⟨⟨by unfold ordinary; decide, by simp [Args.WF, Expr.WF]⟩, by simp [ok1, Stmt.Plain, Args.Plain, Expr.Plain],
      by simp [ok1, Stmt.shallow, Args.depth, Expr.depth], rfl⟩, ⟨by decide, by decide, by simp [Args.known, Expr.known]⟩, by decide,
      by simp [ok1, noInput]⟩
  · refine ⟨⟨⟨by unfold ordinary; decide, by simp [Args.WF, Expr.WF]⟩, by simp [bad1, Stmt.Plain, Args.Plain, Expr.Plain],
      by simp [bad1, Stmt.shallow, Args.depth, Expr.depth], rfl⟩, ⟨by decide, by decide, by simp [Args.known, Expr.known]⟩, by decide,
      by simp [bad1, noInput]⟩
  · refine ⟨⟨⟨by simp [Expr.WF], by simp [Expr.WF], Or.inl ⟨_, rfl, by simp⟩⟩, by simp [bad2, Stmt.Plain, Expr.Plain],
      by simp [bad2, Stmt.shallow, Expr.depth], rfl⟩, by simp [bad2, Stmt.known, Expr.known], by decide, trivial⟩

example : (tokEval (tokPrio nl (lineToks [(ok1, nl)]))).bind tokTest = .ok 0 := by decide +kernel
example : (tokEval (tokPrio nl (lineToks [(ok1, nl), (bad1, nl)]))).bind tokTest = .ok errTestCommand := by decide +kernel
example : (tokEval (tokPrio nl (lineToks [(bad2, nl)]))).bind tokTest = .ok errTestOperation := by decide +kernel
example : ok1.acceptable ∧ ¬ bad1.acceptable ∧ ¬ bad2.acceptable := by
  refine ⟨⟨[78, 78], rfl, by decide +kernel⟩, ?_, ?_⟩
  · rintro ⟨cs, h1, h2⟩
    cases h1
    revert h2
    decide +kernel
  · rintro ⟨a, b, h1, h2, h3⟩
    cases h1; cases h2
    revert h3
    decide +kernel

/-- `INPUT "x";` and `SORT 0,5` lack the variables and the arrays of every alternative of their signatures, and
are accepted. -/
theorem C50_missing_list_accepted_violated :
    (checkCmd [83, 59] (signature 23) = true ∧ ∀ a ∈ alternatives (signature 23), fits a [83, 59] = false) ∧
    (checkCmd [78, 78] (signature 87) = true ∧ ∀ a ∈ alternatives (signature 87), fits a [78, 78] = false) := by
  decide +kernel

/-- A PRINT of 21 numbers pushes 41 types onto the 40 places of the checker's stack: undefined behaviour,
although the statement is acceptable. -/
theorem C50_long_statement_undefined_violated :
    let one : Option Expr := some (.atom ⟨.number, [49], 0, 0⟩)
    let s : Stmt := .print (List.replicate 20 (one, opSemicolon)) one
    s.acceptable ∧ (lineToks [(s, nl)]).length ≤ 100 ∧
      (tokEval (tokPrio nl (lineToks [(s, nl)]))).bind tokTest = .ub := by
  refine ⟨?_, by decide +kernel, by decide +kernel⟩
  constructor
  · intro x hx e he
    rw [List.eq_of_mem_replicate hx] at he
    cases he
    simp [Expr.type]
  · intro e he
    cases he
    simp [Expr.type]

/-- `A=SIN(,)`: the argument count is larger than the checker's stack, the index wraps around. -/
theorem C50_empty_arguments_undefined_violated :
    (tokEval (tokPrio nl [⟨.name, [65], 0, 0⟩, opTk opAssign, ⟨.function, [], 29, 0⟩, opTk opOpenParen, opTk opComma,
      opTk opCloseParen, nl])).bind tokTest = .ub := by decide +kernel

end Sbc.Props.Check
