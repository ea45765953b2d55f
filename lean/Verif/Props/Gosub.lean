import Verif.Proof.Control
import Verif.Spec.Sample
set_option autoImplicit false
/-!
# C31 GOSUB/RETURN nest, C62 execution stays on instructions
-/
namespace Sbc.Machine
open Sbc Sbc.Tok Sbc.Tok.Spec

variable {σ : Type} {env : Env σ}

instance (m : Mach σ) (d : Nat) : Decidable (AtCmd m d) := by unfold AtCmd; infer_instance

/-! ## Specification: histories and pending returns -/

/-- `t 0`, …, `t n` are the states of an execution. -/
def History (env : Env σ) (t : Nat → Mach σ) (n : Nat) : Prop := ∀ j < n, step env (t j) = .ok (t (j + 1))

/-- GOSUB was executed in state `j` and jumped (it does not when the number of an ON … GOSUB is out of range, when the
label does not exist or when the call stack is full). -/
def Called (t : Nat → Mach σ) (j : Nat) : Prop := AtCmd (t j) cmdGosub ∧ (t (j + 1)).calls.length = (t j).calls.length + 1

instance (t : Nat → Mach σ) (j : Nat) : Decidable (Called t j) := by unfold Called; infer_instance

/-- The positions after the GOSUBs that have not been returned from, most recent first, computed from the history
alone: each GOSUB adds the position after it, each RETURN removes the most recent one. -/
def pending (t : Nat → Mach σ) : Nat → List Nat
  | 0 => []
  | j + 1 =>
    if Called t j then ((t j).exec.index + 2) :: pending t j
    else if AtCmd (t j) cmdReturn then (pending t j).tail
    else pending t j

/-! ## The invariant -/

theorem start_good {p : List Instr} {labels : Labels.Table} {core : Core σ} (hl : LabelsOk p labels) :
    Good p (start (encode p) labels core) := by
  refine ⟨?_, ?_, hl, ⟨rfl, ⟨[], p, rfl, rfl⟩, rfl⟩⟩
  · intro c hc; cases hc
  · exact Nat.zero_le _

theorem steps_good {p : List Instr} (hp : Compiled p) : (n : Nat) → (m m' : Mach σ) → Good p m → steps env n m = .ok m' → Good p m'
  | 0, m, m', h, e => by cases e; exact h
  | n + 1, m, m', h, e => by
    obtain ⟨x, e1, e⟩ := bind_inv e
    exact steps_good hp n x m' (step_good hp h e1).1 e

theorem history_good {p : List Instr} {t : Nat → Mach σ} {n : Nat} (hp : Compiled p) (h0 : Good p (t 0)) (h : History env t n) :
    ∀ j ≤ n, Good p (t j)
  | 0, _ => h0
  | j + 1, hj => (step_good hp (history_good hp h0 h j (by omega)) (h j (by omega))).1

/-- Return addresses on the call stack. -/
def rets (l : List Call) : List Nat := (l.filter Call.gosub).map Call.addr

theorem rets_for {fors : List Call} (h : ∀ x ∈ fors, x.gosub = false) (l : List Call) : rets (fors ++ l) = rets l := by
  unfold rets
  rw [List.filter_append, List.filter_eq_nil_iff.mpr (fun x hx => by rw [h x hx]; simp)]
  rfl

theorem rets_call {c : Call} (h : c.gosub = true) (l : List Call) : rets (c :: l) = c.addr :: rets l := by
  unfold rets; rw [List.filter_cons_of_pos h]; rfl

theorem rets_erase : (l : List Call) → (k : Nat) → (c : Call) → l[k]? = some c → c.gosub = false → rets (l.eraseIdx k) = rets l
  | [], k, c, h, _ => by cases h
  | x :: l, 0, c, h, hc => by
    cases h
    exact (rets_for (fors := [x]) (by simpa using hc) l).symm
  | x :: l, k + 1, c, h, hc => by
    have ih := rets_erase l k c h hc
    show rets (x :: l.eraseIdx k) = rets (x :: l)
    by_cases hx : x.gosub = true
    · rw [rets_call hx, rets_call hx, ih]
    · have hf := rets_for (fors := [x]) (by simpa using hx)
      rw [show x :: l.eraseIdx k = [x] ++ l.eraseIdx k from rfl, show x :: l = [x] ++ l from rfl, hf, hf, ih]

theorem pending_rets {p : List Instr} {t : Nat → Mach σ} {n : Nat} (hp : Compiled p) (h0 : Good p (t 0)) (hc : (t 0).calls = [])
    (h : History env t n) : ∀ j ≤ n, pending t j = rets (t j).calls
  | 0, _ => by rw [hc]; rfl
  | j + 1, hj => by
    have ih := pending_rets hp h0 hc h j (by omega)
    have ef := (step_good hp (history_good hp h0 h j (by omega)) (h j (by omega))).2
    have excl : AtCmd (t j) cmdGosub → ¬ AtCmd (t j) cmdReturn := fun h1 h2 => by
      have := h1.2.2.symm.trans h2.2.2
      cases this
    unfold pending
    rw [ih]
    cases ef with
    | same h1 h2 =>
      rw [if_neg (fun hcl => by have := hcl.2; rw [h1] at this; omega), h1]
      rcases h2 with h2 | ⟨h2, _⟩
      · rw [if_neg h2]
      · rw [h2]; split <;> rfl
    | «open» c h1 h2 h3 h4 =>
      rw [if_neg (fun hcl => h4 hcl.1), if_neg h3, h1]
      exact (rets_for (fors := [c]) (by simpa using h2) _).symm
    | close k c h1 h2 h3 h4 =>
      rw [if_neg (fun hcl => by
        have := hcl.2
        rw [h3] at this
        have := List.length_eraseIdx_le (t j).calls k
        omega), if_neg h4, h3]
      exact (rets_erase _ k c h1 h2).symm
    | call c h1 h2 h3 h4 =>
      rw [if_pos ⟨h1, by rw [h4]; rfl⟩, h4, rets_call h2, h3]
    | ret fors rest c h1 h2 h3 h4 h5 h6 =>
      rw [if_neg (fun hcl => excl hcl.1 h1), if_pos h1, h2, h5, rets_for h3, rets_call h4]
      rfl

/-! ## C62 -/

/-- Whatever a compiled program does, the interpreter always fetches at the start of an instruction (or is at the
end): jumps, returns, loops, skipped branches and skipped loops never end up inside one. -/
theorem C62_on_instruction {p : List Instr} {labels : Labels.Table} {core : Core σ} {m : Mach σ} (hp : Compiled p)
    (hl : LabelsOk p labels) (h : Reaches env (start (encode p) labels core) m) : OnInstruction p m := by
  obtain ⟨n, h⟩ := h
  have g := (steps_good hp n _ m (start_good hl) h).run
  unfold OnInstruction
  match hf : m.frames with
  | [] => rw [hf] at g; exact ⟨g.1, g.2.1⟩
  | [f] =>
    rw [hf] at g
    obtain ⟨g1, g2, _, ⟨a, s, b, g3, _, g4, g5⟩, _⟩ := g
    exact ⟨g1, g2, a, s, b, g3, g4, g5⟩
  | f :: f2 :: fs => rw [hf] at g; exact g.elim

/-- The interpreter never reads an instruction beyond the end of the code it is executing. -/
theorem C62_fetch {p : List Instr} {labels : Labels.Table} {core : Core σ} {m : Mach σ} (hp : Compiled p)
    (hl : LabelsOk p labels) (h : Reaches env (start (encode p) labels core) m) (hn : m.ended = false) :
    m.exec.index + 2 ≤ m.exec.code.length := by
  have := C62_on_instruction hp hl h
  have hidx : m.exec.index < m.exec.code.length := by
    unfold Mach.ended at hn
    simp only [Bool.or_eq_false_iff, decide_eq_false_iff_not] at hn
    omega
  have key : ∀ s : List Instr, m.exec.code = encode s → Boundary s m.exec.index → m.exec.index + 2 ≤ m.exec.code.length := by
    intro s hc hb
    obtain ⟨a, b, rfl, hi⟩ := hb
    rw [hc] at hidx ⊢
    cases b with
    | nil => rw [hi, List.append_nil] at hidx; exact absurd hidx (Nat.lt_irrefl _)
    | cons i b =>
      rw [code_split, hi]
      simp only [List.length_append, List.length_cons]
      unfold posAfter; omega
  unfold OnInstruction at this
  split at this
  · exact key p this.1 this.2
  · obtain ⟨_, _, a, s, b, _, h1, h2⟩ := this
    exact key s h1 h2
  · exact this.elim

/-- Expressions of a loop's limit are never evaluated inside one another, and the label table is never consulted while
they are. -/
theorem C62_frames {p : List Instr} {labels : Labels.Table} {core : Core σ} {m : Mach σ} (hp : Compiled p)
    (hl : LabelsOk p labels) (h : Reaches env (start (encode p) labels core) m) :
    m.frames.length ≤ 1 ∧ (m.frames = [] ↔ m.exec.main = true) := by
  obtain ⟨n, h⟩ := h
  have g := (steps_good hp n _ m (start_good hl) h).run
  match hf : m.frames with
  | [] => rw [hf] at g; simp [g.2.2]
  | [f] => rw [hf] at g; simp [g.2.2.2.2.1]
  | f :: f2 :: fs => rw [hf] at g; exact g.elim

/-! ## C31 -/

/-- RETURN continues after the most recent GOSUB that has not been returned from. -/
theorem C31_return {p : List Instr} {labels : Labels.Table} {core : Core σ} {t : Nat → Mach σ} {n : Nat} (hp : Compiled p)
    (hl : LabelsOk p labels) (h0 : t 0 = start (encode p) labels core) (h : History env t n) {j : Nat} (hj : j < n)
    (hr : AtCmd (t j) cmdReturn) :
    match pending t j with
    | [] => (t (j + 1)).core.error = eReturnWithoutGosub
    | a :: _ => (t (j + 1)).exec.index = a := by
  have g0 : Good p (t 0) := h0 ▸ start_good hl
  rw [pending_rets hp g0 (by rw [h0]; rfl) h j (by omega)]
  have ef := (step_good hp (history_good hp g0 h j (by omega)) (h j hj)).2
  cases ef with
  | same h1 h2 =>
    rcases h2 with h2 | ⟨h2, h3⟩
    · exact absurd hr h2
    · rw [h2]; exact h3
  | «open» c h1 h2 h3 h4 => exact absurd hr h3
  | close k c h1 h2 h3 h4 => exact absurd hr h4
  | call c h1 h2 h3 h4 =>
    have := h1.2.2.symm.trans hr.2.2
    cases this
  | ret fors rest c h1 h2 h3 h4 h5 h6 =>
    rw [h2, rets_for h3, rets_call h4]
    exact h6

/-- RETURN closes exactly the loops opened since that GOSUB: what remains of the call stack is what was under it. -/
theorem C31_discards_loops {p : List Instr} {labels : Labels.Table} {core : Core σ} {t : Nat → Mach σ} {n : Nat} (hp : Compiled p)
    (hl : LabelsOk p labels) (h0 : t 0 = start (encode p) labels core) (h : History env t n) {j : Nat} (hj : j < n)
    (hr : AtCmd (t j) cmdReturn) (hne : pending t j ≠ []) :
    ∃ loops c, (t j).calls = loops ++ c :: (t (j + 1)).calls ∧ (∀ x ∈ loops, x.gosub = false) ∧ c.gosub = true := by
  have g0 : Good p (t 0) := h0 ▸ start_good hl
  rw [pending_rets hp g0 (by rw [h0]; rfl) h j (by omega)] at hne
  have ef := (step_good hp (history_good hp g0 h j (by omega)) (h j hj)).2
  cases ef with
  | same h1 h2 =>
    rcases h2 with h2 | ⟨h2, h3⟩
    · exact absurd hr h2
    · rw [h2] at hne; exact absurd rfl hne
  | «open» c h1 h2 h3 h4 => exact absurd hr h3
  | close k c h1 h2 h3 h4 => exact absurd hr h4
  | call c h1 h2 h3 h4 =>
    have := h1.2.2.symm.trans hr.2.2
    cases this
  | ret fors rest c h1 h2 h3 h4 h5 h6 => exact ⟨fors, c, by rw [h5]; exact h2, h3, h4⟩

/-- Nesting is bounded. -/
theorem C31_depth {p : List Instr} {labels : Labels.Table} {core : Core σ} {m : Mach σ} (hp : Compiled p)
    (hl : LabelsOk p labels) (h : Reaches env (start (encode p) labels core) m) : m.calls.length ≤ 255 := by
  obtain ⟨n, h⟩ := h
  exact (steps_good hp n _ m (start_good hl) h).depth

/-- GOSUB to an existing label: continues at the label, remembering the position after the GOSUB, unless 255 calls and
loops are open; then Out of memory is reported and the call stack unchanged. -/
theorem C31_gosub {m : Mach σ} {a b : List Instr} {i : Instr} {s : List Nat} {k : Nat} (hi : isCmd cmdGosub i) (h : At m a (i :: b))
    (hm : m.exec.main = true) (hs : m.core.stack = [.str true s]) (hlen : s.length ≤ 16) (hl : Labels.labelIndex m.labels s = some k) :
    ∃ m', step env m = .ok m' ∧
      (m.calls.length = 255 → m'.core.error = eOutOfMemory ∧ m'.calls = m.calls) ∧
      (m.calls.length ≠ 255 → m'.core.error = 0 ∧ m'.exec.index = k ∧ m'.calls = ⟨true, posAfter (a ++ [i]), .slot 0⟩ :: m.calls) := by
  have hpos : m.exec.index + 2 = posAfter (a ++ [i]) := by
    rw [posAfter_snoc, h.index]; rcases hi with rfl | rfl <;> rfl
  have hsearch : searchLabel (m.skip 2) true s = .ok (m.skip 2, k) := by
    unfold searchLabel
    rw [show (m.skip 2).exec.main = true from hm, show (m.skip 2).labels = m.labels from rfl]
    simp only [Bool.not_true, Bool.false_eq_true, if_false, Bool.true_and, decide_eq_true_eq, if_true, Bool.false_and]
    rw [if_neg (by omega), hl]
  have hx : execCmd env cmdGosub (m.skip 2) = jump true (m.skip 2) true s := by
    show cmdJumpM true (m.skip 2) = _
    unfold cmdJumpM
    rw [show (m.skip 2).core.stack = [.str true s] from hs]
    rfl
  have hj : jump true (m.skip 2) true s = if m.calls.length = 255 then .ok ((m.skip 2).fail eOutOfMemory)
      else .ok { m.skip 2 with calls := ⟨true, m.exec.index + 2, .slot 0⟩ :: m.calls, exec := { (m.skip 2).exec with index := k } } := by
    unfold jump
    rw [hsearch]
    rfl
  have hstep : step env m = (execCmd env cmdGosub (m.skip 2)).bind fun x => .ok (clearArgc i.op { x with core := { x.core with stack := [] } }) := by
    rw [h.step]
    have : execInstr env i.op (arg i) (m.skip 2) = (execCmd env cmdGosub (m.skip 2)).bind fun m' =>
        .ok { m' with core := { m'.core with stack := [] } } := by
      rcases hi with rfl | rfl <;> rfl
    rw [this]
    cases execCmd env cmdGosub (m.skip 2) <;> rfl
  have hop : i.op ≠ bcArgcount := by rcases hi with rfl | rfl <;> exact (by decide)
  rw [hstep, hx, hj]
  by_cases hd : m.calls.length = 255
  · rw [if_pos hd]
    refine ⟨_, rfl, fun _ => ?_, fun hn => absurd hd hn⟩
    rw [clearArgc_ne hop]
    exact ⟨rfl, rfl⟩
  · rw [if_neg hd]
    refine ⟨_, rfl, fun hn => absurd hn hd, fun _ => ?_⟩
    rw [clearArgc_ne hop]
    exact ⟨h.error, rfl, by rw [← hpos]⟩

/-- RETURN outside any subroutine but inside a loop is not reported: the search runs off the call stack. -/
theorem C31_return_in_loop_violated {m : Mach σ} {a b : List Instr} {i : Instr} (hi : isCmd cmdReturn i) (h : At m a (i :: b))
    (h1 : m.calls ≠ []) (h2 : ∀ c ∈ m.calls, c.gosub = false) : step env m = .ub := by
  have hx : execCmd env cmdReturn (m.skip 2) = .ub := by
    show cmdReturnM (m.skip 2) = _
    unfold cmdReturnM
    rw [if_neg (show (m.skip 2).calls ≠ [] from h1)]
    have : (m.skip 2).calls.dropWhile (fun c => !c.gosub) = [] := by
      have gen : ∀ l : List Call, (∀ c ∈ l, c.gosub = false) → l.dropWhile (fun c => !c.gosub) = [] := by
        intro l hl
        induction l with
        | nil => rfl
        | cons x l ih =>
          rw [List.dropWhile_cons_of_pos (by rw [hl x (by simp)]; rfl)]
          exact ih fun c hc => hl c (by simp [hc])
      exact gen _ h2
    rw [this]
  rw [h.step]
  have : execInstr env i.op (arg i) (m.skip 2) = (execCmd env cmdReturn (m.skip 2)).bind fun m' =>
      .ok { m' with core := { m'.core with stack := [] } } := by
    rcases hi with rfl | rfl <;> rfl
  rw [this, hx]
  rfl

/-! ## Examples -/
namespace Sample
/-- `@S` is at position 22:
`GOSUB @S:END` / `@S:FOR I=0 TO 9:RETURN` -/
def sub : List Instr :=
  [l [83], c cmdGosub, c cmdEnd, label [83], v 73, c cmdFor, n 0, o opAssign, n 9, k cmdTo, begin', c cmdReturn]
/-- Its labels. -/
def subLabels : Labels.Table := (Labels.add none' [83] 12).1

/-- The program's only loop has its assignment and BEGIN_LOOP. -/
theorem sub_compiled : Compiled sub := by
  refine ⟨?_, by decide +kernel, ?_⟩
  · intro i hi
    simp only [sub, List.mem_cons, List.not_mem_nil, or_false] at hi
    rcases hi with rfl | rfl | rfl | rfl | rfl | rfl | rfl | rfl | rfl | rfl | rfl | rfl <;>
      simp [l, c, label, v, n, o, k, begin', Instr.WF, hasText, hasName, bcLabelString, bcString, bcLabel, bcData, bcCommandFirst,
        bcWideString, bcNumber, bcVariableId, bcDim, bcVariableName, bcArrayName, bcSmallNumber, bcOperator, bcCommand, bcBeginLoop]
  · intro a i cc r h hi hno
    -- FOR is the sixth instruction
    have ha : a.length = 5 ∧ cc = [n 0] ∧ r = [n 9, k cmdTo, begin', c cmdReturn] := by
      rcases a with _ | ⟨x0, _ | ⟨x1, _ | ⟨x2, _ | ⟨x3, _ | ⟨x4, _ | ⟨x5, a⟩⟩⟩⟩⟩⟩
      all_goals (try (
        simp only [sub, List.nil_append, List.cons_append, List.cons.injEq] at h
        exfalso
        rcases hi with rfl | rfl <;> simp [l, c, k, v, n, o, label, begin', cmdFor, cmdGosub, cmdEnd, cmdReturn, cmdTo, bcCommand, bcCommandFirst, bcVariableName] at h
        done))
      · simp only [sub, List.nil_append, List.cons_append, List.cons.injEq] at h
        obtain ⟨_, _, _, _, _, _, h⟩ := h
        rcases cc with _ | ⟨y0, _ | ⟨y1, cc⟩⟩
        · simp [n, assign, bcSmallNumber, bcOperator] at h
        · simp only [List.cons_append, List.nil_append, List.cons.injEq] at h
          obtain ⟨h1, _, h2⟩ := h
          exact ⟨rfl, by rw [← h1], h2.symm⟩
        · simp only [List.cons_append, List.cons.injEq] at h
          exact absurd (show assign ∈ y0 :: y1 :: cc by rw [← h.2.1]; simp [assign, o]) hno
      · exfalso
        have hm : i ∈ [n 0, o opAssign, n 9, k cmdTo, begin', c cmdReturn] := by
          simp only [sub, List.cons_append, List.cons.injEq] at h
          rw [h.2.2.2.2.2.2]; simp
        simp only [List.mem_cons, List.not_mem_nil, or_false] at hm
        rcases hi with rfl | rfl <;> simp [n, o, k, begin', c, cmdFor, cmdTo, cmdReturn, bcSmallNumber, bcOperator, bcCommand, bcCommandFirst, bcBeginLoop] at hm
    obtain ⟨_, _, rfl⟩ := ha
    refine ⟨[n 9, k cmdTo], 0, [c cmdReturn], rfl, ?_, by decide +kernel⟩
    intro j hj
    simp only [List.mem_cons, List.not_mem_nil, or_false] at hj
    rcases hj with rfl | rfl
    · exact ⟨by decide, by decide, fun h => absurd h (by decide)⟩
    · exact ⟨by decide, by decide, fun _ => Or.inl rfl⟩

theorem sub_labels : LabelsOk sub subLabels := by
  intro name i h
  have : i = 12 ∨ i = 0 := by
    unfold Labels.labelIndex at h
    obtain ⟨x, _, h⟩ := Option.map_eq_some_iff.mp h
    rw [← h]
    have hs : Labels.findSlot none' [83] = some 3 := by decide +kernel
    unfold subLabels Labels.add
    rw [hs]
    dsimp only
    by_cases hx : x = 3
    · rw [if_pos hx]; exact Or.inl rfl
    · rw [if_neg hx]; exact Or.inr rfl
  rcases this with rfl | rfl
  · exact ⟨[l [83], c cmdGosub, c cmdEnd, label [83]], [v 73, c cmdFor, n 0, o opAssign, n 9, k cmdTo, begin', c cmdReturn], rfl, by decide +kernel⟩
  · exact ⟨[], sub, rfl, rfl⟩

theorem st_history {m : Mach Unit} {n : Nat} (h : ∀ j : Fin n, stuck (step Sample.env (st m j)) = false) : History Sample.env (st m) n := by
  intro j hj
  have := h ⟨j, hj⟩
  dsimp only at this
  simp only [st]
  cases hs : step Sample.env (st m j) with
  | ok m => rfl
  | ub => rw [hs] at this; cases this
  | err e => rw [hs] at this; cases this

/-- After the GOSUB (steps 0, 1) the loop is entered; RETURN is executed in state 9, goes back to the END at position 6
and drops the loop. -/
example : History Sample.env (st (boot sub subLabels)) 11 := st_history (by decide +kernel)
example : AtCmd (st (boot sub subLabels) 9) cmdReturn ∧ pending (st (boot sub subLabels)) 9 = [6] ∧
    (st (boot sub subLabels) 9).calls.length = 2 ∧ (st (boot sub subLabels) 10).calls.length = 0 ∧
    (st (boot sub subLabels) 10).exec.index = 6 := by decide +kernel

/-- `FOR I=0 TO 9:RETURN`: the state before RETURN. -/
example : (st (boot (sub.drop 4) none') 7).calls.length = 1 ∧ ((st (boot (sub.drop 4) none') 7).calls.all fun x => !x.gosub) = true ∧
    stuck (step Sample.env (st (boot (sub.drop 4) none') 7)) = true := by decide +kernel

end Sample
end Sbc.Machine
