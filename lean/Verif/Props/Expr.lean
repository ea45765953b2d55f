import Verif.Proof.Stmt
set_option autoImplicit false
/-!
# C36: expressions respect precedence and parentheses
-/
namespace Sbc.Props.Expr
open Sbc Sbc.Tok Sbc.Tok.Spec

/-- A line of statements (assignments to variables and array elements, commands with argument lists, PRINT with
its separators), whatever expressions they contain, compiles to the statements' postfix forms one after the
other.  `pre` is the memory before the token array.  Excluded (see the two violations below): a minus sign
directly after a hexadecimal, binary or string constant, and directly after a square bracket. -/
theorem C36_line_compiles_to_postfix_partial (pre : Tk) (l : List (Stmt × Tk))
    (h : ∀ x ∈ l, x.1.WF ∧ x.1.Plain ∧ x.1.shallow 62 ∧ x.2.ty = .newline) (hlen : (lineToks l).length ≤ 100) :
    ∃ R, tokEval (tokPrio pre (lineToks l)) = .ok R ∧ R.map bare = (linePost l).map bare :=
  ⟨_, tokEval_line pre l h hlen, linePostP_bare l⟩

/-- Running the postfix form of any expression pushes the value of its parse tree: under every meaning of the
atoms, operators and functions, over every kind of state, errors included. -/
theorem C36_postfix_has_tree_value {σ V : Type} (m : Sem σ V) (e : Expr) (hw : e.WF) (s : σ) (vs : List V) (n : Nat) :
    ∃ n', postRun m e.post (s, vs, n) = (e.value m s).map fun r => (r.2, r.1 :: vs, n') :=
  value_expr m e hw s vs n

/-- The two together, for the statement `v = e`: the compiled line is the variable, then code that pushes the
value of `e`, then the assignment. -/
theorem C36_assignment_value_partial {σ V : Type} (m : Sem σ V) (hm : m.scratchFree) (pre v nl : Tk) (e : Expr)
    (hv : v.ty = .name) (hnl : nl.ty = .newline) (hw : e.WF) (hp : e.Plain) (hd : e.depth ≤ 62)
    (hlen : e.toks.length ≤ 97) :
    ∃ code, (tokEval (tokPrio pre (v :: opTk opAssign :: e.toks ++ [nl]))) =
        .ok ({ v with prio := 0 } :: code ++ [opTk opAssign]) ∧
      ∀ s vs n, ∃ n', postRun m code (s, vs, n) = (e.value m s).map fun r => (r.2, r.1 :: vs, n') := by
  have hl := tokEval_line pre [(.assign (.atom v) e, nl)] (by
    intro x hx
    simp only [List.mem_singleton] at hx
    subst hx
    exact ⟨⟨by simp [Expr.WF, hv], hw, Or.inl ⟨v, rfl, by simp [hv]⟩⟩, ⟨trivial, hp⟩, ⟨by simp [Expr.depth], hd⟩, hnl⟩)
    (by simp [lineToks, Stmt.toks, Expr.toks]; omega)
  refine ⟨e.postP 0, ?_, ?_⟩
  · have e1 : lineToks [(.assign (.atom v) e, nl)] = v :: opTk opAssign :: e.toks ++ [nl] := by
      simp [lineToks, Stmt.toks, Expr.toks]
    rw [← e1, hl]
    simp [linePostP, Stmt.postP, Expr.postP]
    rfl
  · intro s vs n
    obtain ⟨n', h⟩ := value_expr m e hw s vs n
    refine ⟨n', ?_⟩
    rw [← postRun_bare m hm, Expr.postP_bare, postRun_bare m hm, h]

/-- Text is unambiguous: two parse trees written with the same tokens have the same value (no two readings of
one text are both well-formed up to value), within the limits of the compiler. -/
theorem C36_unambiguous {σ V : Type} (m : Sem σ V) (hm : m.scratchFree) (e f : Expr) (he : e.WF) (hf : f.WF) (pe : e.Plain)
    (pf : f.Plain) (de : e.depth ≤ 62) (df : f.depth ≤ 62) (hlen : e.toks.length ≤ 97) (h : e.toks = f.toks) (s : σ) :
    e.value m s = f.value m s := by
  have v : Tk := ⟨.name, [65], 0, 0⟩
  obtain ⟨c, h1, h2⟩ := C36_assignment_value_partial m hm ⟨.newline, [], 0, 0⟩ ⟨.name, [65], 0, 0⟩ ⟨.newline, [], 0, 0⟩ e rfl rfl he pe de hlen
  obtain ⟨d, k1, k2⟩ := C36_assignment_value_partial m hm ⟨.newline, [], 0, 0⟩ ⟨.name, [65], 0, 0⟩ ⟨.newline, [], 0, 0⟩ f rfl rfl hf pf df (by rw [← h]; exact hlen)
  rw [h, k1] at h1
  simp only [Out.ok.injEq, List.cons_append, List.cons.injEq, List.append_cancel_right_eq, true_and] at h1
  subst h1
  obtain ⟨n1, a1⟩ := h2 s [] 0
  obtain ⟨n2, a2⟩ := k2 s [] 0
  rw [a1] at a2
  cases he' : e.value m s <;> cases hf' : f.value m s
  · rfl
  · rw [he', hf'] at a2; cases a2
  · rw [he', hf'] at a2; cases a2
  · rw [he', hf'] at a2
    simp only [Option.map_some, Option.some.injEq, Prod.mk.injEq, List.cons.injEq, and_true] at a2
    rw [Prod.ext_iff.mpr ⟨a2.2.1, a2.1⟩]

/-! Example: `X=A+B*-C(1,2)-(D<2)` -/

/-- a one-letter variable -/
def nm (c : Nat) : Tk := ⟨.name, [c], 0, 0⟩
/-- a number -/
def nu (c : Nat) : Tk := ⟨.number, [c], 0, 0⟩
/-- end of line -/
def nl : Tk := ⟨.newline, [13], 0, 0⟩
/-- `A+B*-C(1,2)-(D<2)` -/
def ex : Expr :=
  .bin opSubtract
    (.bin opAdd (.atom (nm 65)) (.bin opMultiply (.atom (nm 66))
      (.un opNegate (.call (nm 67) false (.more (.atom (nu 49)) (.one (.atom (nu 50))))))))
    (.paren (.bin 10 (.atom (nm 68)) (.atom (nu 50))))

example : ex.WF ∧ ex.Plain ∧ ex.depth ≤ 62 ∧ ex.toks.length ≤ 97 := by
  refine ⟨?_, ?_, ?_, ?_⟩
  · simp only [ex, Expr.WF, Args.WF]
    refine ⟨4, rfl, by decide, by decide, ⟨4, rfl, by decide, by decide, by decide, ⟨5, rfl, by decide, by decide, by decide,
      ⟨by decide, by decide, by decide, by decide, by decide⟩⟩⟩, ⟨3, rfl, by decide, by decide, by decide, by decide⟩⟩
  · simp only [ex, Expr.Plain, Args.Plain]
    decide
  · decide
  · decide

example : (tokEval (tokPrio nl (lineToks [(.assign (.atom (nm 88)) ex, nl)]))).bind (fun r => .ok (r.map bare)) =
    .ok [nm 88, nm 65, nm 66, nu 49, nu 50, argTk 2, { nm 67 with ty := .arrayName }, opTk opNegate, opTk opMultiply,
      opTk opAdd, nm 68, nu 50, opTk 10, opTk opSubtract, opTk opAssign] := by decide +kernel

/-- The restriction to `Plain` expressions is necessary: a minus sign after a hexadecimal constant is compiled as
a negation, so `PRINT &H10-1` prints two items, 16 and -1. -/
theorem C36_minus_after_base_number_violated :
    let h : Tk := ⟨.baseNumber, [38, 72, 49, 48], 0, 0⟩
    let e : Expr := .bin opSubtract (.atom h) (.atom (nu 49))
    e.WF ∧ ∀ pre, ∃ R, tokEval (tokPrio pre (lineToks [(.print [] (some e), nl)])) = .ok R ∧
      R.map bare = [h, nu 49, opTk opNegate, ⟨.firstCommand, [], cmdPrint, 0⟩] := by
  refine ⟨?_, fun pre => ⟨_, rfl, by decide +kernel⟩⟩
  exact ⟨4, rfl, by decide, by decide, by simp [Expr.WF], by simp [Expr.WF, nu]⟩

/-- The same for a minus sign directly after a square bracket, which is compiled as a subtraction: the two
arguments of `COLOR 1,A[-1+5]` become the single argument `A[(1-1)+5]`. -/
theorem C36_minus_after_bracket_violated :
    let e : Expr := .call (nm 65) true (.one (.bin opAdd (.un opNegate (.atom (nu 49))) (.atom (nu 53))))
    e.WF ∧ ∀ pre, ∃ R, tokEval (tokPrio pre (lineToks [(.cmd 2 (.more (.atom (nu 49)) (.one e)), nl)])) = .ok R ∧
      R.map bare = [nu 49, nu 49, opTk opSubtract, nu 53, opTk opAdd, argTk 1, { nm 65 with ty := .arrayName },
        ⟨.firstCommand, [], 2, 0⟩] := by
  refine ⟨?_, fun pre => ⟨_, rfl, by decide +kernel⟩⟩
  simp only [Expr.WF, Args.WF]
  exact ⟨by decide, ⟨4, rfl, by decide, by decide, ⟨by decide, by decide, by decide⟩, by decide⟩⟩

/-- Only a line that starts with a minus sign depends on the memory before the token array. -/
theorem prioLoop_pre (pre pre' : Tk) : (ts : List Tk) → (p : Tk) → (d : List Tk) → (n : Int) →
    prioLoop pre (p :: d) n ts = prioLoop pre' (p :: d) n ts
  | [], _, _, _ => rfl
  | t :: ts, p, d, n => by
    have h1 : prioStep pre (p :: d) n t = prioStep pre' (p :: d) n t := rfl
    have h2 : ∃ p' d', (prioStep pre' (p :: d) n t).1 = p' :: d' := by
      unfold prioStep
      split
      · split
        · split <;> exact ⟨_, _, rfl⟩
        · split
          · exact ⟨_, _, rfl⟩
          · split
            · exact ⟨_, _, rfl⟩
            · split <;> exact ⟨_, _, rfl⟩
      · split <;> exact ⟨_, _, rfl⟩
    obtain ⟨p', d', h2⟩ := h2
    rw [prioLoop_cons, prioLoop_cons, h1, h2]
    exact prioLoop_pre pre pre' ts p' d' _

/-- Nor can the bound on nesting be dropped: 64 brackets in a row (a line of 67 tokens) run past the end of the
compiler's array of argument counts. -/
theorem C36_deep_nesting_violated (pre : Tk) :
    tokEval (tokPrio pre (nm 65 :: opTk opAssign :: (List.replicate 64 (opTk opOpenParen) ++ [nl]))) = .ub := by
  have : tokPrio pre (nm 65 :: opTk opAssign :: (List.replicate 64 (opTk opOpenParen) ++ [nl])) =
    tokPrio nl (nm 65 :: opTk opAssign :: (List.replicate 64 (opTk opOpenParen) ++ [nl])) := by
    have h : ∀ ts, tokPrio pre (nm 65 :: ts) = tokPrio nl (nm 65 :: ts) :=
      fun ts => prioLoop_pre pre nl ts _ _ _
    exact h _
  rw [this]
  decide +kernel

end Sbc.Props.Expr
