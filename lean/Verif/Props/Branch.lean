import Verif.Props.Loop
import Verif.Spec.Sample
set_option autoImplicit false
/-!
# C33 ON GOTO/GOSUB selects the n-th label, C48 IF executes exactly one branch
-/
namespace Sbc.Machine
open Sbc Sbc.Tok Sbc.Tok.Spec

variable {σ : Type} {env : Env σ}

/-! ## Specification -/

/-- `ON e GOTO l0,l1,…` (or GOSUB) as the compiler arranges it. -/
def onCode (e : List Instr) (labels : List (List Nat)) (j : Instr) : List Instr :=
  e ++ .simple bcCommandFirst cmdOn :: (labels.map (Instr.text bcLabelString) ++ [j])

/-- Result of a jump to a label (`push`: GOSUB) from the state `m`, the statement ending at position `here`. -/
def Jumped (push : Bool) (m m' : Mach σ) (here : Nat) (s : List Nat) : Prop :=
  if push = true ∧ m.calls.length = 255 then m'.core.error = eOutOfMemory
  else match Labels.labelIndex m.labels s with
    | none => m'.core.error = eLabelNotFound
    | some k => m'.core.error = 0 ∧ m'.exec.index = k ∧
        m'.calls = if push then ⟨true, here, .slot 0⟩ :: m.calls else m.calls

/-- `code`, started between statements in a state satisfying `Pre`, runs to its end, and `Post` holds; the call stack is
as before. -/
def Runs (env : Env σ) (Pre Post : Core σ → Prop) (code : List Instr) : Prop :=
  ∀ (m : Mach σ) (a b : List Instr), (∀ i ∈ b, i.WF) → Ready Pre m a (code ++ b) →
    ∃ m', Reaches env m m' ∧ Ready Post m' (a ++ code) b ∧ m'.calls = m.calls ∧ m'.frames = m.frames ∧ m'.labels = m.labels

/-- `IF c THEN t ELSE e` as the compiler arranges it (ENDIF is put at the end of the line). -/
def ifElse (c t e : List Instr) : List Instr :=
  c ++ .simple bcCommandFirst cmdIf :: (t ++ .simple bcCommand cmdElse :: (e ++ [.simple bcCommand cmdEndif]))

/-- `IF c THEN t`. -/
def ifThen (c t : List Instr) : List Instr := c ++ .simple bcCommandFirst cmdIf :: (t ++ [.simple bcCommand cmdEndif])

/-- The statements contain no ELSE or ENDIF of another IF. -/
def NoElse (t : List Instr) : Prop := Instr.simple bcCommand cmdElse ∉ t ∧ Instr.simple bcCommand cmdEndif ∉ t

/-- The statements do not begin with a label, or the label is that of a GOTO or GOSUB. -/
def Proper (t : List Instr) : Prop :=
  (∀ i r, t = i :: r → i.op ≠ bcLabelString) ∨
  ∃ s d r, t = .text bcLabelString s :: .simple bcCommand d :: r ∧ (d = cmdGoto ∨ d = cmdGosub)

/-! ## Labels -/

theorem tail_text (s : List Nat) (op : Nat) : tail (.text op s) = padText s := rfl

theorem padText_length (s : List Nat) : (padText s).length = s.length + s.length % 2 := by
  unfold padText
  split
  · rename_i h; rw [List.length_append, h]; rfl
  · omega

theorem take_pad (s r : List Nat) : (padText s ++ r).take s.length = s := by
  unfold padText
  split
  · rw [List.append_assoc, List.take_left]
  · rw [List.take_left]

theorem At.label {m : Mach σ} {a b : List Instr} {s : List Nat} (h : At m a (.text bcLabelString s :: b)) (hargc : m.exec.argc = 0)
    (hs : m.core.stack.length < 100) :
    Reaches env m (Machine.after m a [.text bcLabelString s] { m.core with stack := m.core.stack ++ [.str true s] }) := by
  refine Reaches.one ?_
  rw [h.step]
  have hd : m.exec.code.drop (m.exec.index + 2) = padText s ++ encode b := h.drop
  have hx : execInstr env bcLabelString s.length (m.skip 2) =
      .ok { (m.skip 2).skip (s.length + s.length % 2) with core := { m.core with stack := m.core.stack ++ [.str true s] } } := by
    rw [exec_text _ _ _ (by decide)]
    rw [if_pos (Or.inr rfl)]
    rw [show (m.skip 2).exec.code.drop (m.skip 2).exec.index = padText s ++ encode b from hd, take_pad, if_neg (Nat.lt_irrefl _)]
    show onCore _ (m.core.push _) = _
    rw [push_ok _ _ hs]
    rfl
  show (execInstr env bcLabelString s.length (m.skip 2)).bind _ = _
  rw [hx]
  show Out.ok (clearArgc bcLabelString _) = _
  rw [clearArgc_ne (by decide)]
  simp only [Machine.after, Mach.skip]
  rw [posAfter_snoc, h.index, tail_text, padText_length, hargc, Nat.add_assoc]

theorem push_labels : (labels : List (List Nat)) → (m : Mach σ) → (a b : List Instr) →
    At m a (labels.map (Instr.text bcLabelString) ++ b) → m.exec.argc = 0 → m.core.stack.length + labels.length ≤ 100 →
    Reaches env m (after m a (labels.map (Instr.text bcLabelString))
      { m.core with stack := m.core.stack ++ labels.map (Entry.str true) })
  | [], m, a, b, h, _, _ => by
    have : after m a [] { m.core with stack := m.core.stack ++ [] } = m := by
      unfold after
      rw [List.append_nil, List.append_nil, ← h.index]
    simp only [List.map_nil]
    rw [this]
    exact Reaches.refl m
  | s :: labels, m, a, b, h, ha, hs => by
    simp only [List.length_cons] at hs
    have h1 : At m a (.text bcLabelString s :: (labels.map (Instr.text bcLabelString) ++ b)) := h
    have r1 := h1.label (env := env) ha (by omega)
    have h2 := At.after (m := m) (a := a) (e := [.text bcLabelString s]) (c := { m.core with stack := m.core.stack ++ [.str true s] }) h1 h.error
    have r2 := push_labels labels _ _ _ h2 ha (by
      show (m.core.stack ++ [_]).length + _ ≤ 100
      simp only [List.length_append, List.length_singleton]; omega)
    rw [after_after] at r2
    have r := r1.trans r2
    simp only [after, List.append_assoc, List.singleton_append] at r
    exact r

/-- The state after a command that clears the stack. -/
theorem step_jump {m : Mach σ} {a b : List Instr} {j : Instr} {push : Bool} (hj : isCmd (if push then cmdGosub else cmdGoto) j)
    (h : At m a (j :: b)) :
    step env m = (cmdJumpM push (m.skip 2)).bind fun x =>
      .ok { x with core := { x.core with stack := [] }, exec := { x.exec with argc := 0 } } := by
  rw [h.step]
  have hop : j.op ≠ bcArgcount := by rcases hj with rfl | rfl <;> simp [Instr.op, bcCommand, bcCommandFirst, bcArgcount]
  have : execInstr env j.op (arg j) (m.skip 2) = (cmdJumpM push (m.skip 2)).bind fun m' =>
      .ok { m' with core := { m'.core with stack := [] } } := by
    cases push <;> rcases hj with rfl | rfl <;> rfl
  rw [this]
  cases cmdJumpM push (m.skip 2) with
  | ok x => show Out.ok (clearArgc j.op _) = _; rw [clearArgc_ne hop]; rfl
  | err e => rfl
  | ub => rfl

theorem jump_result {m : Mach σ} {a b : List Instr} {j : Instr} {push : Bool} {s : List Nat} (hop : posAfter (a ++ [j]) = m.exec.index + 2)
    (he : m.core.error = 0) (hm : m.exec.main = true) (hlen : s.length ≤ 16) :
    ∃ x, jump push (m.skip 2) true s = .ok x ∧ Jumped push m x (posAfter (a ++ [j])) s := by
  unfold jump searchLabel
  rw [show (m.skip 2).exec.main = true from hm, show (m.skip 2).labels = m.labels from rfl]
  simp only [Bool.not_true, Bool.false_eq_true, if_false, Bool.true_and, decide_eq_true_eq, if_true, Bool.false_and]
  rw [if_neg (by omega)]
  unfold Jumped
  cases hl : Labels.labelIndex m.labels s with
  | none =>
    simp only [Out.bind]
    cases push with
    | false => exact ⟨_, rfl, rfl⟩
    | true =>
      rw [if_pos rfl]
      by_cases hd : m.calls.length = 255
      · rw [if_pos (show ((m.skip 2).fail eLabelNotFound).calls.length = 255 from hd)]
        refine ⟨_, rfl, ?_⟩
        rw [if_pos ⟨rfl, hd⟩]
        rfl
      · rw [if_neg (show ¬ ((m.skip 2).fail eLabelNotFound).calls.length = 255 from hd)]
        refine ⟨_, rfl, ?_⟩
        rw [if_neg (fun h => hd h.2)]
        rfl
  | some k =>
    simp only [Out.bind]
    cases push with
    | false => exact ⟨_, rfl, he, rfl, rfl⟩
    | true =>
      rw [if_pos rfl]
      by_cases hd : m.calls.length = 255
      · rw [if_pos (show (m.skip 2).calls.length = 255 from hd)]
        refine ⟨_, rfl, ?_⟩
        rw [if_pos ⟨rfl, hd⟩]
        rfl
      · rw [if_neg (show ¬ (m.skip 2).calls.length = 255 from hd)]
        refine ⟨_, rfl, ?_⟩
        rw [if_neg (fun h => hd h.2)]
        refine ⟨he, rfl, ?_⟩
        rw [hop]; rfl

/-! ## C33 -/

/-- ON: with `n` the floor of the value, the jump goes to the `n`th label of the list (counted from 0), and if there is
none, execution continues after the statement. -/
theorem C33_on {Inv : Core σ → Prop} {p : Ptr} {e : List Instr} {v : Int} (he : Evals env Inv p e v) {labels : List (List Nat)}
    {push : Bool} {j : Instr} (hj : isCmd (if push then cmdGosub else cmdGoto) j) (hlab : ∀ s ∈ labels, s.length ≤ 16)
    (hlen : e.length ≤ 100 ∧ labels.length ≤ 99) {m : Mach σ} {a b : List Instr} (h : Ready Inv m a (onCode e labels j ++ b)) :
    ∃ m', Reaches env m m' ∧ m'.frames = m.frames ∧ m'.labels = m.labels ∧
      ((v / 4096 < 0 ∨ labels.length ≤ v / 4096) →
        m'.core.error = 0 ∧ m'.exec.index = posAfter (a ++ onCode e labels j) ∧ m'.calls = m.calls) ∧
      (∀ n : Nat, v / 4096 = n → ∀ s, labels[n]? = some s → Jumped push m m' (posAfter (a ++ onCode e labels j)) s) := by
  obtain ⟨hat, hargc, hmain, hstack, hinv⟩ := h
  unfold onCode at hat
  have h1 : At m a (e ++ (.simple bcCommandFirst cmdOn :: (labels.map (Instr.text bcLabelString) ++ (j :: b)))) := hat.regroup rfl (by simp)
  obtain ⟨c1, en, r1, s1, n1, v1, e1, _, _, i1⟩ := he m a _ h1 hargc (by rw [hstack]; simp only [List.length_nil]; omega) hinv
  rw [hstack, List.nil_append] at s1
  have h2 := h1.after (c := c1) e1
  have r2 : Reaches env (after m a e c1) (after (after m a e c1) (a ++ e) [.simple bcCommandFirst cmdOn] c1) := by
    refine At.simple h2 (by decide) c1 hargc ?_
    rfl
  rw [after_after] at r2
  have h3 : At (after m a (e ++ [.simple bcCommandFirst cmdOn]) c1) (a ++ (e ++ [.simple bcCommandFirst cmdOn]))
      (labels.map (Instr.text bcLabelString) ++ (j :: b)) :=
    At.after (h1.regroup rfl (by simp)) e1
  have r3 := push_labels (env := env) labels _ _ _ h3 hargc (by show c1.stack.length + _ ≤ 100; rw [s1]; simp only [List.length_singleton]; omega)
  have h4 := h3.after (c := { c1 with stack := c1.stack ++ labels.map (Entry.str true) }) e1
  have reach := (r1.trans r2).trans r3
  rw [after_after] at reach
  rw [after_after] at h4
  change At (after m a (e ++ [.simple bcCommandFirst cmdOn] ++ labels.map (Instr.text bcLabelString))
    { c1 with stack := c1.stack ++ labels.map (Entry.str true) }) _ _ at h4
  change Reaches env m (after m a (e ++ [.simple bcCommandFirst cmdOn] ++ labels.map (Instr.text bcLabelString))
    { c1 with stack := c1.stack ++ labels.map (Entry.str true) }) at reach
  generalize hM : after m a (e ++ [.simple bcCommandFirst cmdOn] ++ labels.map (Instr.text bcLabelString))
    { c1 with stack := c1.stack ++ labels.map (Entry.str true) } = M at h4 reach
  have hMs : M.core.stack = en :: labels.map (Entry.str true) := by
    rw [← hM]; show c1.stack ++ _ = _; rw [s1]; rfl
  have hMn : M.core.num en = .ok v := by rw [← hM]; exact (core_num_stack _ _ _).trans v1
  have hMe : M.core.error = 0 := by rw [← hM]; exact e1
  have hMm : M.exec.main = true := by rw [← hM]; exact hmain
  have hMc : M.calls = m.calls := by rw [← hM]; rfl
  have hMf : M.frames = m.frames := by rw [← hM]; rfl
  have hMl : M.labels = m.labels := by rw [← hM]; rfl
  have e4 : a ++ (e ++ [.simple bcCommandFirst cmdOn]) ++ labels.map (Instr.text bcLabelString) ++ [j] = a ++ onCode e labels j := by
    simp [onCode]
  have hpos : posAfter (a ++ onCode e labels j) = M.exec.index + 2 := by
    rw [← e4, posAfter_snoc, h4.index]
    rcases hj with rfl | rfl <;> rfl
  have hcmd : cmdJumpM push (M.skip 2) = if v / 4096 < 0 ∨ v / 4096 + 1 ≥ ((labels.length + 1 : Nat) : Int) then .ok (M.skip 2)
      else match (en :: labels.map (Entry.str true))[(v / 4096).toNat + 1]? with
        | some (.sep _) => .ok ((M.skip 2).fail eSyntax)
        | some (.str l s) => jump push (M.skip 2) l s
        | _ => .ub := by
    unfold cmdJumpM
    rw [show (M.skip 2).core = M.core from rfl, hMs]
    simp only [List.getElem?_cons_zero, n1, if_true, hMn, Out.bind, fpToInt, List.length_cons, List.length_map]
    rfl
  have hstep := step_jump (env := env) hj h4
  by_cases hr : v / 4096 < 0 ∨ labels.length ≤ v / 4096
  · rw [hcmd, if_pos (by omega)] at hstep
    refine ⟨_, reach.trans (Reaches.one hstep), hMf, hMl, fun _ => ⟨hMe, ?_, hMc⟩, ?_⟩
    · rw [hpos]; rfl
    · intro n hn s hs
      have : n < labels.length := by
        by_contra hc
        rw [List.getElem?_eq_none (by omega)] at hs; cases hs
      omega
  · obtain ⟨n, hn⟩ : ∃ n : Nat, v / 4096 = n := ⟨(v / 4096).toNat, by omega⟩
    have hlt : n < labels.length := by omega
    obtain ⟨s, hs⟩ : ∃ s, labels[n]? = some s := ⟨labels[n], by simp [hlt]⟩
    have hmem : s ∈ labels := List.mem_of_getElem? hs
    rw [hcmd, if_neg (by omega)] at hstep
    rw [show (v / 4096).toNat = n by omega, List.getElem?_cons_succ, List.getElem?_map, hs] at hstep
    dsimp only [Option.map] at hstep
    obtain ⟨x, hx, hjd⟩ := jump_result (m := M) (a := a ++ (e ++ [.simple bcCommandFirst cmdOn]) ++ labels.map (Instr.text bcLabelString))
      (b := b) (j := j) (push := push) (s := s) (by rw [e4]; exact hpos) hMe hMm (hlab s hmem)
    rw [e4] at hjd
    rw [hx] at hstep
    have hx2 : x.frames = M.frames ∧ x.labels = M.labels := by
      unfold jump searchLabel at hx
      rw [show (M.skip 2).exec.main = true from hMm] at hx
      have := hlab s hmem
      simp only [Bool.not_true, Bool.false_eq_true, if_false, Bool.true_and, decide_eq_true_eq, Bool.false_and] at hx
      rw [if_neg (by omega)] at hx
      obtain ⟨r, h1, hx⟩ := bind_inv hx
      have hr' : r.1.frames = M.frames ∧ r.1.labels = M.labels := by
        split at h1 <;> (cases h1; exact ⟨rfl, rfl⟩)
      split at hx
      · split at hx
        · cases hx; exact hr'
        · cases hx; exact hr'
      · cases hx; exact hr'
    refine ⟨_, reach.trans (Reaches.one hstep), by rw [← hMf]; exact hx2.1, by rw [← hMl]; exact hx2.2, fun hc => absurd hc hr, ?_⟩
    intro n' hn' s' hs'
    have : n' = n := by omega
    subst this
    rw [hs] at hs'
    cases hs'
    unfold Jumped at hjd ⊢
    rw [hMc, hMl] at hjd
    exact hjd

/-- A string variable in the list is not followed: its storage is taken for the label. -/
theorem C33_variable_violated {m : Mach σ} {a b : List Instr} {j : Instr} {push : Bool} (hj : isCmd (if push then cmdGosub else cmdGoto) j)
    (h : At m a (j :: b)) {v : Int} {p : Ptr} (hs : m.core.stack = [.num v, .var true false p]) (hv : v / 4096 = 0) : step env m = .ub := by
  rw [step_jump hj h]
  unfold cmdJumpM
  rw [show (m.skip 2).core = m.core from rfl, hs]
  simp only [List.getElem?_cons_zero, isNum, if_true, Core.num, Out.bind, fpToInt, hv, List.length_cons, List.length_nil]
  rfl

/-! ## C48 -/

theorem get_op (a b : List Instr) (i : Instr) (k : Nat) : (encode (a ++ i :: b))[posAfter a + k]? = (i.op :: arg i :: (tail i ++ encode b))[k]? := by
  rw [code_split]
  exact get_at _ _ k

/-- The branch is entered at its beginning. -/
theorem ifTarget_proper {m : Mach σ} {a t b : List Instr} {i : Instr} (hp : Proper t) (hi : i.op ≠ bcLabelString)
    (hc : m.exec.code = encode (a ++ (t ++ i :: b))) : ifTarget m (posAfter a) = .ok (m, posAfter a) := by
  unfold ifTarget
  rw [hc]
  cases t with
  | nil =>
    rw [List.nil_append, show posAfter a = posAfter a + 0 from rfl, get_op]
    dsimp only [List.getElem?_cons_zero]
    rw [if_neg hi]
  | cons j t =>
    rw [List.cons_append, show posAfter a = posAfter a + 0 from rfl, get_op]
    dsimp only [List.getElem?_cons_zero]
    rcases hp with hp | ⟨s, d, r, ht, hd⟩
    · rw [if_neg (hp j t rfl)]
    · cases ht
      rw [if_pos (show Instr.op (.text bcLabelString s) = bcLabelString from rfl)]
      have hb : byte (encode (a ++ .text bcLabelString s :: (.simple bcCommand d :: r ++ i :: b))) (posAfter a + 0 + 1) = .ok s.length := by
        rw [Nat.add_zero]; exact byte_arg _ _ _
      rw [hb]
      simp only [Out.bind]
      have hj : jumpFollows (encode (a ++ .text bcLabelString s :: (.simple bcCommand d :: r ++ i :: b)))
          (posAfter a + 0 + 2 + s.length + s.length % 2) = true := by
        have e1 : posAfter a + 0 + 2 + s.length + s.length % 2 = posAfter (a ++ [.text bcLabelString s]) := by
          rw [posAfter_snoc, tail_text, padText_length]; omega
        have e2 : a ++ .text bcLabelString s :: (.simple bcCommand d :: r ++ i :: b) =
            (a ++ [.text bcLabelString s]) ++ .simple bcCommand d :: (r ++ i :: b) := by simp
        unfold jumpFollows
        have g0 := get_op (a ++ [.text bcLabelString s]) (r ++ i :: b) (.simple bcCommand d) 0
        have g1 := get_op (a ++ [.text bcLabelString s]) (r ++ i :: b) (.simple bcCommand d) 1
        rw [Nat.add_zero] at g0
        rw [e1, e2, g0, g1]
        rcases hd with rfl | rfl <;> rfl
      rw [hj]
      rfl

/-- IF, as a step. -/
theorem step_if {m : Mach σ} {a b : List Instr} (h : At m a (.simple bcCommandFirst cmdIf :: b)) :
    step env m = (cmdIfM (m.skip 2)).bind fun x => .ok { x with core := { x.core with stack := [] }, exec := { x.exec with argc := 0 } } := by
  rw [h.step]
  have : execInstr env bcCommandFirst cmdIf (m.skip 2) = (cmdIfM (m.skip 2)).bind fun m' => .ok { m' with core := { m'.core with stack := [] } } := rfl
  show (execInstr env bcCommandFirst cmdIf (m.skip 2)).bind _ = _
  rw [this]
  cases cmdIfM (m.skip 2) with
  | ok x => show Out.ok (clearArgc bcCommandFirst _) = _; rw [clearArgc_ne (by decide)]; rfl
  | err e => rfl
  | ub => rfl

/-- The condition is evaluated. -/
theorem condition {Inv : Core σ → Prop} {p : Ptr} {c : List Instr} {v : Int} (hc : Evals env Inv p c v) (hlen : c.length ≤ 100)
    {m : Mach σ} {a r : List Instr} (h : Ready Inv m a (c ++ .simple bcCommandFirst cmdIf :: r)) :
    ∃ M, Reaches env m M ∧ At M (a ++ c) (.simple bcCommandFirst cmdIf :: r) ∧ M.core.argNum 0 = .ok v ∧ M.exec.main = true ∧
      Inv M.core ∧ M.calls = m.calls ∧ M.frames = m.frames ∧ M.labels = m.labels := by
  obtain ⟨hat, hargc, hmain, hstack, hinv⟩ := h
  obtain ⟨c1, en, r1, s1, n1, v1, e1, _, _, i1⟩ := hc m a _ hat hargc (by rw [hstack]; simp only [List.length_nil]; omega) hinv
  rw [hstack, List.nil_append] at s1
  refine ⟨_, r1, hat.after e1, ?_, hmain, i1, rfl, rfl, rfl⟩
  show c1.argNum 0 = _
  unfold Core.argNum
  rw [s1]
  exact v1

/-- A true condition leads to the statements after THEN. -/
theorem C48_true {Inv : Core σ → Prop} (hst : ∀ c st, Inv c → Inv { c with stack := st }) {p : Ptr} {c t : List Instr} {v : Int}
    (hc : Evals env Inv p c v) (hlen : c.length ≤ 100) (hv : v ≠ 0) (hp : Proper t) {m : Mach σ} {a r : List Instr} {i : Instr}
    (hi : i.op ≠ bcLabelString) (h : Ready Inv m a (c ++ .simple bcCommandFirst cmdIf :: (t ++ i :: r))) :
    ∃ m', Reaches env m m' ∧ Ready Inv m' (a ++ (c ++ [.simple bcCommandFirst cmdIf])) (t ++ i :: r) ∧
      m'.calls = m.calls ∧ m'.frames = m.frames ∧ m'.labels = m.labels := by
  obtain ⟨M, r1, hat, hv0, hmain, hinv, hcalls, hframes, hlabels⟩ := condition hc hlen h
  have e1 : a ++ c ++ [.simple bcCommandFirst cmdIf] = a ++ (c ++ [.simple bcCommandFirst cmdIf]) := by simp
  have hidx : M.exec.index + 2 = posAfter (a ++ (c ++ [.simple bcCommandFirst cmdIf])) := by
    rw [← e1, posAfter_snoc, hat.index]; rfl
  have hcode : M.exec.code = encode ((a ++ (c ++ [.simple bcCommandFirst cmdIf])) ++ (t ++ i :: r)) := by rw [hat.code]; simp
  have htarget : ifTarget (M.skip 2) (M.skip 2).exec.index = .ok (M.skip 2, M.exec.index + 2) := by
    rw [show (M.skip 2).exec.index = M.exec.index + 2 from rfl, hidx]
    exact ifTarget_proper hp hi hcode
  have hif : cmdIfM (M.skip 2) = .ok (M.skip 2) := by
    unfold cmdIfM
    rw [show (M.skip 2).core = M.core from rfl, hv0]
    simp only [Out.bind]
    rw [if_pos hv, htarget]
    rfl
  have hs := step_if (env := env) hat
  rw [hif] at hs
  exact ⟨_, r1.trans (Reaches.one hs), ⟨⟨hcode, hidx, hat.error⟩, rfl, hmain, rfl, hst _ _ hinv⟩, hcalls, hframes, hlabels⟩

/-- A false condition leads to the statements after ELSE. -/
theorem C48_false_else {Inv : Core σ → Prop} (hst : ∀ c st, Inv c → Inv { c with stack := st }) {p : Ptr} {c t e : List Instr}
    (hc : Evals env Inv p c 0) (hlen : c.length ≤ 100) (hno : NoElse t) (hp : Proper e) {m : Mach σ} {a r : List Instr} {i : Instr}
    (hi : i.op ≠ bcLabelString) (hw : ∀ j ∈ t ++ .simple bcCommand cmdElse :: (e ++ i :: r), j.WF)
    (h : Ready Inv m a (c ++ .simple bcCommandFirst cmdIf :: (t ++ .simple bcCommand cmdElse :: (e ++ i :: r)))) :
    ∃ m', Reaches env m m' ∧ Ready Inv m' (a ++ (c ++ .simple bcCommandFirst cmdIf :: (t ++ [.simple bcCommand cmdElse]))) (e ++ i :: r) ∧
      m'.calls = m.calls ∧ m'.frames = m.frames ∧ m'.labels = m.labels := by
  obtain ⟨M, r1, hat, hv0, hmain, hinv, hcalls, hframes, hlabels⟩ := condition hc hlen h
  have hidx : M.exec.index + 2 = posAfter (a ++ c ++ [.simple bcCommandFirst cmdIf]) := by
    rw [posAfter_snoc, hat.index]; rfl
  have hcode : M.exec.code = encode ((a ++ c ++ [.simple bcCommandFirst cmdIf]) ++ (t ++ .simple bcCommand cmdElse :: (e ++ i :: r))) := by
    rw [hat.code]; simp
  have hscan : (M.skip 2).exec.scanFor bcCommand (fun d => d == cmdElse || d == cmdEndif) (M.skip 2).exec.index =
      .ok (some (posAfter (a ++ c ++ [.simple bcCommandFirst cmdIf] ++ t))) := by
    rw [show (M.skip 2).exec.index = M.exec.index + 2 from rfl, hidx]
    refine execScan_mid bcCommand _ cmdOp t (e ++ i :: r) cmdElse hcode (by decide) hw ?_
    intro y hy
    by_contra hne
    simp only [Bool.not_eq_false, Bool.or_eq_true, beq_iff_eq] at hne
    rcases hne with rfl | rfl
    · exact hno.1 hy
    · exact hno.2 hy
  have hbyte : byte (M.skip 2).exec.code (posAfter (a ++ c ++ [.simple bcCommandFirst cmdIf] ++ t) + 1) = .ok cmdElse := by
    rw [show (M.skip 2).exec.code = M.exec.code from rfl, hcode, ← List.append_assoc]
    exact byte_arg _ _ (.simple bcCommand cmdElse)
  have e2 : posAfter (a ++ c ++ [.simple bcCommandFirst cmdIf] ++ t) + 2 =
      posAfter (a ++ (c ++ .simple bcCommandFirst cmdIf :: (t ++ [.simple bcCommand cmdElse]))) := by
    have : a ++ (c ++ .simple bcCommandFirst cmdIf :: (t ++ [.simple bcCommand cmdElse])) =
        (a ++ c ++ [.simple bcCommandFirst cmdIf] ++ t) ++ [.simple bcCommand cmdElse] := by simp
    rw [this, posAfter_snoc]; rfl
  have hcode2 : M.exec.code = encode ((a ++ (c ++ .simple bcCommandFirst cmdIf :: (t ++ [.simple bcCommand cmdElse]))) ++ (e ++ i :: r)) := by
    rw [hat.code]; simp
  have hif : cmdIfM (M.skip 2) = .ok { M.skip 2 with exec := { (M.skip 2).exec with
      index := posAfter (a ++ (c ++ .simple bcCommandFirst cmdIf :: (t ++ [.simple bcCommand cmdElse]))) } } := by
    unfold cmdIfM
    rw [show (M.skip 2).core = M.core from rfl, hv0]
    simp only [Out.bind]
    rw [if_neg (by decide), hscan]
    dsimp only
    rw [hbyte]
    dsimp only
    rw [if_pos rfl, e2, ifTarget_proper (m := M.skip 2) hp hi hcode2]
  have hs := step_if (env := env) hat
  rw [hif] at hs
  exact ⟨_, r1.trans (Reaches.one hs), ⟨⟨hcode2, rfl, hat.error⟩, rfl, hmain, rfl, hst _ _ hinv⟩, hcalls, hframes, hlabels⟩

/-- A false condition of an IF without ELSE leads to the end of the line. -/
theorem C48_false_end {Inv : Core σ → Prop} (hst : ∀ c st, Inv c → Inv { c with stack := st }) {p : Ptr} {c t : List Instr}
    (hc : Evals env Inv p c 0) (hlen : c.length ≤ 100) (hno : NoElse t) {m : Mach σ} {a r : List Instr}
    (hw : ∀ j ∈ t ++ .simple bcCommand cmdEndif :: r, j.WF) (h : Ready Inv m a (ifThen c t ++ r)) :
    ∃ m', Reaches env m m' ∧ Ready Inv m' (a ++ ifThen c t) r ∧
      m'.calls = m.calls ∧ m'.frames = m.frames ∧ m'.labels = m.labels := by
  have h' : Ready Inv m a (c ++ .simple bcCommandFirst cmdIf :: (t ++ .simple bcCommand cmdEndif :: r)) :=
    ⟨h.at'.regroup rfl (by simp [ifThen]), h.argc, h.main, h.stack, h.inv⟩
  obtain ⟨M, r1, hat, hv0, hmain, hinv, hcalls, hframes, hlabels⟩ := condition hc hlen h'
  have hidx : M.exec.index + 2 = posAfter (a ++ c ++ [.simple bcCommandFirst cmdIf]) := by
    rw [posAfter_snoc, hat.index]; rfl
  have hcode : M.exec.code = encode ((a ++ c ++ [.simple bcCommandFirst cmdIf]) ++ (t ++ .simple bcCommand cmdEndif :: r)) := by
    rw [hat.code]; simp
  have hscan : (M.skip 2).exec.scanFor bcCommand (fun d => d == cmdElse || d == cmdEndif) (M.skip 2).exec.index =
      .ok (some (posAfter (a ++ c ++ [.simple bcCommandFirst cmdIf] ++ t))) := by
    rw [show (M.skip 2).exec.index = M.exec.index + 2 from rfl, hidx]
    refine execScan_mid bcCommand _ cmdOp t r cmdEndif hcode (by decide) hw ?_
    intro y hy
    by_contra hne
    simp only [Bool.not_eq_false, Bool.or_eq_true, beq_iff_eq] at hne
    rcases hne with rfl | rfl
    · exact hno.1 hy
    · exact hno.2 hy
  have hbyte : byte (M.skip 2).exec.code (posAfter (a ++ c ++ [.simple bcCommandFirst cmdIf] ++ t) + 1) = .ok cmdEndif := by
    rw [show (M.skip 2).exec.code = M.exec.code from rfl, hcode, ← List.append_assoc]
    exact byte_arg _ _ (.simple bcCommand cmdEndif)
  have e2 : posAfter (a ++ c ++ [.simple bcCommandFirst cmdIf] ++ t) + 2 = posAfter (a ++ ifThen c t) := by
    have : a ++ ifThen c t = (a ++ c ++ [.simple bcCommandFirst cmdIf] ++ t) ++ [.simple bcCommand cmdEndif] := by simp [ifThen]
    rw [this, posAfter_snoc]; rfl
  have hif : cmdIfM (M.skip 2) = .ok { M.skip 2 with exec := { (M.skip 2).exec with index := posAfter (a ++ ifThen c t) } } := by
    unfold cmdIfM
    rw [show (M.skip 2).core = M.core from rfl, hv0]
    simp only [Out.bind]
    rw [if_neg (by decide), hscan]
    dsimp only
    rw [hbyte]
    dsimp only
    rw [if_neg (by decide), e2]
    rfl
  have hs := step_if (env := env) hat
  rw [hif] at hs
  refine ⟨_, r1.trans (Reaches.one hs), ⟨⟨?_, rfl, hat.error⟩, rfl, hmain, rfl, hst _ _ hinv⟩, hcalls, hframes, hlabels⟩
  show M.exec.code = _
  rw [hat.code]; simp [ifThen]

theorem same_stack {c : Core σ} (h : c.stack = []) : ({ c with stack := [] } : Core σ) = c := by
  rw [← h]

/-- ENDIF does nothing. -/
theorem endif_runs {Inv : Core σ → Prop} {m : Mach σ} {a r : List Instr} (h : Ready Inv m a (.simple bcCommand cmdEndif :: r)) :
    ∃ m', Reaches env m m' ∧ Ready Inv m' (a ++ [.simple bcCommand cmdEndif]) r ∧
      m'.calls = m.calls ∧ m'.frames = m.frames ∧ m'.labels = m.labels := by
  have r1 : Reaches env m (after m a [.simple bcCommand cmdEndif] m.core) := by
    refine At.simple h.at' (by decide) _ h.argc ?_
    show Out.ok _ = Out.ok _
    rw [show (m.skip 2).core = m.core from rfl, same_stack h.stack]
    rfl
  exact ⟨_, r1, ⟨At.after (e := [.simple bcCommand cmdEndif]) h.at' h.at'.error, h.argc, h.main, h.stack, h.inv⟩, rfl, rfl, rfl⟩

/-- ELSE, reached at the end of the statements after THEN, leads to the end of the line. -/
theorem C48_else {Inv : Core σ → Prop} {m : Mach σ} {a e r : List Instr} (hno : Instr.simple bcCommand cmdEndif ∉ e)
    (hw : ∀ j ∈ e ++ .simple bcCommand cmdEndif :: r, j.WF)
    (h : Ready Inv m a (.simple bcCommand cmdElse :: (e ++ .simple bcCommand cmdEndif :: r))) :
    ∃ m', Reaches env m m' ∧ Ready Inv m' (a ++ .simple bcCommand cmdElse :: (e ++ [.simple bcCommand cmdEndif])) r ∧
      m'.calls = m.calls ∧ m'.frames = m.frames ∧ m'.labels = m.labels := by
  obtain ⟨hat, hargc, hmain, hstack, hinv⟩ := h
  have hidx : m.exec.index + 2 = posAfter (a ++ [.simple bcCommand cmdElse]) := by
    rw [posAfter_snoc, hat.index]; rfl
  have hcode : m.exec.code = encode ((a ++ [.simple bcCommand cmdElse]) ++ (e ++ .simple bcCommand cmdEndif :: r)) := by
    rw [hat.code]; simp
  have hscan : (m.skip 2).exec.scanFor bcCommand (· == cmdEndif) (m.skip 2).exec.index =
      .ok (some (posAfter (a ++ [.simple bcCommand cmdElse] ++ e))) := by
    rw [show (m.skip 2).exec.index = m.exec.index + 2 from rfl, hidx]
    refine execScan_mid bcCommand _ cmdOp e r cmdEndif hcode (by decide) hw ?_
    intro y hy
    by_contra hne
    simp only [Bool.not_eq_false, beq_iff_eq] at hne
    subst hne
    exact hno hy
  have e2 : posAfter (a ++ [.simple bcCommand cmdElse] ++ e) + 2 =
      posAfter (a ++ .simple bcCommand cmdElse :: (e ++ [.simple bcCommand cmdEndif])) := by
    have : a ++ .simple bcCommand cmdElse :: (e ++ [.simple bcCommand cmdEndif]) =
        (a ++ [.simple bcCommand cmdElse] ++ e) ++ [.simple bcCommand cmdEndif] := by simp
    rw [this, posAfter_snoc]; rfl
  have hx : cmdElseM (m.skip 2) = .ok { m.skip 2 with exec := { (m.skip 2).exec with
      index := posAfter (a ++ .simple bcCommand cmdElse :: (e ++ [.simple bcCommand cmdEndif])) } } := by
    unfold cmdElseM
    rw [hscan]
    show Out.ok _ = _
    rw [e2]
  have hs : step env m = .ok { m with core := { m.core with stack := [] }, exec := { m.exec with
      index := posAfter (a ++ .simple bcCommand cmdElse :: (e ++ [.simple bcCommand cmdEndif])), argc := 0 } } := by
    rw [hat.step]
    have : execInstr env bcCommand cmdElse (m.skip 2) = (cmdElseM (m.skip 2)).bind fun m' => .ok { m' with core := { m'.core with stack := [] } } := rfl
    show (execInstr env bcCommand cmdElse (m.skip 2)).bind _ = _
    rw [this, hx]
    show Out.ok (clearArgc bcCommand _) = _
    rw [clearArgc_ne (by decide)]
    rfl
  rw [same_stack hstack] at hs
  refine ⟨_, Reaches.one hs, ⟨⟨?_, rfl, hat.error⟩, rfl, hmain, hstack, hinv⟩, rfl, rfl, rfl⟩
  show m.exec.code = _
  rw [hat.code]; simp

/-- `IF c THEN t ELSE e` without IFs inside does what `t` does if the condition is true and what `e` does if it is
false, and nothing else. -/
theorem C48_if_else_partial {Inv PostT PostE : Core σ → Prop} (hst : ∀ c st, Inv c → Inv { c with stack := st }) {p : Ptr} {c t e : List Instr}
    {v : Int} (hc : Evals env Inv p c v) (hlen : c.length ≤ 100) (hno : NoElse t) (hno' : NoElse e) (hpt : Proper t) (hpe : Proper e)
    (hw : ∀ i ∈ ifElse c t e, i.WF) (ht : Runs env Inv PostT t) (he : Runs env Inv PostE e) :
    Runs env Inv (fun x => if v ≠ 0 then PostT x else PostE x) (ifElse c t e) := by
  intro m a b hwb h
  have h' : Ready Inv m a (c ++ .simple bcCommandFirst cmdIf :: (t ++ .simple bcCommand cmdElse :: (e ++ .simple bcCommand cmdEndif :: b))) :=
    ⟨h.at'.regroup rfl (by simp [ifElse]), h.argc, h.main, h.stack, h.inv⟩
  have hwall : ∀ i, i ∈ t ++ .simple bcCommand cmdElse :: (e ++ .simple bcCommand cmdEndif :: b) → i.WF := by
    intro i hi
    by_cases hb : i ∈ b
    · exact hwb i hb
    · refine hw i ?_
      simp only [ifElse, List.mem_append, List.mem_cons, List.not_mem_nil, or_false] at hi ⊢
      tauto
  by_cases hv : v = 0
  · subst hv
    obtain ⟨m1, r1, h1, c1, f1, l1⟩ := C48_false_else hst hc hlen hno hpe (i := .simple bcCommand cmdEndif) (by decide) hwall h'
    obtain ⟨m2, r2, h2, c2, f2, l2⟩ := he m1 _ _ (by
      intro i hi; exact hwall i (by simp only [List.mem_append, List.mem_cons] at hi ⊢; tauto)) h1
    obtain ⟨m3, r3, h3, c3, f3, l3⟩ := endif_runs (env := env) h2
    refine ⟨m3, (r1.trans r2).trans r3, ⟨h3.at'.regroup (by simp [ifElse]) rfl, h3.argc, h3.main, h3.stack, ?_⟩,
      by rw [c3, c2, c1], by rw [f3, f2, f1], by rw [l3, l2, l1]⟩
    rw [if_neg (by simp)]
    exact h3.inv
  · obtain ⟨m1, r1, h1, c1, f1, l1⟩ := C48_true hst hc hlen hv hpt (i := .simple bcCommand cmdElse) (by decide) h'
    obtain ⟨m2, r2, h2, c2, f2, l2⟩ := ht m1 _ _ (by
      intro i hi; exact hwall i (by simp only [List.mem_append, List.mem_cons] at hi ⊢; tauto)) h1
    obtain ⟨m3, r3, h3, c3, f3, l3⟩ := C48_else (env := env) hno'.2 (by
      intro i hi; exact hwall i (by simp only [List.mem_append, List.mem_cons] at hi ⊢; tauto)) h2
    refine ⟨m3, (r1.trans r2).trans r3, ⟨h3.at'.regroup (by simp [ifElse]) rfl, h3.argc, h3.main, h3.stack, ?_⟩,
      by rw [c3, c2, c1], by rw [f3, f2, f1], by rw [l3, l2, l1]⟩
    rw [if_pos hv]
    exact h3.inv

/-- `IF c THEN t` does what `t` does if the condition is true and nothing otherwise. -/
theorem C48_if_then_partial {Inv PostT : Core σ → Prop} (hst : ∀ c st, Inv c → Inv { c with stack := st }) {p : Ptr} {c t : List Instr}
    {v : Int} (hc : Evals env Inv p c v) (hlen : c.length ≤ 100) (hno : NoElse t) (hpt : Proper t)
    (hw : ∀ i ∈ ifThen c t, i.WF) (ht : Runs env Inv PostT t) :
    Runs env Inv (fun x => if v ≠ 0 then PostT x else Inv x) (ifThen c t) := by
  intro m a b hwb h
  have hwall : ∀ i, i ∈ t ++ .simple bcCommand cmdEndif :: b → i.WF := by
    intro i hi
    by_cases hb : i ∈ b
    · exact hwb i hb
    · refine hw i ?_
      simp only [ifThen, List.mem_append, List.mem_cons, List.not_mem_nil, or_false] at hi ⊢
      tauto
  by_cases hv : v = 0
  · subst hv
    obtain ⟨m1, r1, h1, c1, f1, l1⟩ := C48_false_end hst hc hlen hno hwall h
    refine ⟨m1, r1, ⟨h1.at', h1.argc, h1.main, h1.stack, ?_⟩, c1, f1, l1⟩
    rw [if_neg (by simp)]
    exact h1.inv
  · have h' : Ready Inv m a (c ++ .simple bcCommandFirst cmdIf :: (t ++ .simple bcCommand cmdEndif :: b)) :=
      ⟨h.at'.regroup rfl (by simp [ifThen]), h.argc, h.main, h.stack, h.inv⟩
    obtain ⟨m1, r1, h1, c1, f1, l1⟩ := C48_true hst hc hlen hv hpt (i := .simple bcCommand cmdEndif) (by decide) h'
    obtain ⟨m2, r2, h2, c2, f2, l2⟩ := ht m1 _ _ (by
      intro i hi; exact hwall i (by simp only [List.mem_append, List.mem_cons] at hi ⊢; tauto)) h1
    obtain ⟨m3, r3, h3, c3, f3, l3⟩ := endif_runs (env := env) h2
    refine ⟨m3, (r1.trans r2).trans r3, ⟨h3.at'.regroup (by simp [ifThen]) rfl, h3.argc, h3.main, h3.stack, ?_⟩,
      by rw [c3, c2, c1], by rw [f3, f2, f1], by rw [l3, l2, l1]⟩
    rw [if_pos hv]
    exact h3.inv

/-- `IF c THEN @L`: a true condition jumps to the label. -/
theorem C48_label {Inv : Core σ → Prop} {p : Ptr} {c : List Instr} {v : Int} {s : List Nat} {k : Nat}
    (hc : Evals env Inv p c v) (hlen : c.length ≤ 100) (hv : v ≠ 0) {m : Mach σ} {a r : List Instr} {i : Instr}
    (hi : jumpFollows (encode (i :: r)) 0 = false) (hs : s.length ≤ 16) (hl : Labels.labelIndex m.labels s = some k)
    (h : Ready Inv m a (c ++ .simple bcCommandFirst cmdIf :: (.text bcLabelString s :: i :: r))) :
    ∃ m', Reaches env m m' ∧ m'.exec.index = k ∧ m'.core.error = 0 ∧ m'.calls = m.calls := by
  obtain ⟨M, r1, hat, hv0, hmain, hinv, hcalls, hframes, hlabels⟩ := condition hc hlen h
  have hidx : M.exec.index + 2 = posAfter (a ++ c ++ [.simple bcCommandFirst cmdIf]) := by
    rw [posAfter_snoc, hat.index]; rfl
  have hcode : M.exec.code = encode ((a ++ c ++ [.simple bcCommandFirst cmdIf]) ++ .text bcLabelString s :: (i :: r)) := by rw [hat.code]; simp
  have htarget : ifTarget (M.skip 2) (M.skip 2).exec.index = .ok (M.skip 2, k) := by
    rw [show (M.skip 2).exec.index = M.exec.index + 2 from rfl, hidx]
    unfold ifTarget
    rw [show (M.skip 2).exec.code = M.exec.code from rfl, hcode]
    generalize a ++ c ++ [.simple bcCommandFirst cmdIf] = x
    rw [show posAfter x = posAfter x + 0 from rfl, get_op]
    dsimp only [List.getElem?_cons_zero]
    rw [if_pos (show Instr.op (.text bcLabelString s) = bcLabelString from rfl), Nat.add_zero]
    rw [show byte (encode (x ++ .text bcLabelString s :: i :: r)) (posAfter x + 1) = .ok s.length from byte_arg _ _ _]
    simp only [Out.bind]
    have e1 : posAfter x + 2 + s.length + s.length % 2 = posAfter (x ++ [.text bcLabelString s]) := by
      rw [posAfter_snoc, tail_text, padText_length]; omega
    have e2 : x ++ .text bcLabelString s :: i :: r = (x ++ [.text bcLabelString s]) ++ i :: r := by simp
    have hj : jumpFollows (encode (x ++ .text bcLabelString s :: i :: r)) (posAfter x + 2 + s.length + s.length % 2) = false := by
      rw [e1, e2, ← hi]
      unfold jumpFollows
      have g0 := get_op (x ++ [.text bcLabelString s]) r i 0
      have g1 := get_op (x ++ [.text bcLabelString s]) r i 1
      have g2 := get_op [] r i 0
      have g3 := get_op [] r i 1
      rw [List.nil_append, show posAfter [] + 0 = 0 from rfl] at g2
      rw [List.nil_append, show posAfter [] + 1 = 0 + 1 from rfl] at g3
      rw [Nat.add_zero] at g0
      rw [g0, g1, g2, g3]
    rw [if_neg (by rw [hj]; simp)]
    have hd : (encode (x ++ .text bcLabelString s :: i :: r)).drop (posAfter x + 2) = padText s ++ encode (i :: r) := by
      rw [code_split, show posAfter x = (encode x).length from rfl, drop_code]
      rfl
    rw [hd, take_pad]
    unfold searchLabel
    rw [show (M.skip 2).exec.main = true from hmain, show (M.skip 2).labels = m.labels from hlabels]
    simp only [Bool.not_true, Bool.false_eq_true, if_false, Bool.true_and, decide_eq_true_eq, if_true, Bool.false_and]
    rw [if_neg (by omega), hl]
  have hif : cmdIfM (M.skip 2) = .ok { M.skip 2 with exec := { (M.skip 2).exec with index := k } } := by
    unfold cmdIfM
    rw [show (M.skip 2).core = M.core from rfl, hv0]
    simp only [Out.bind]
    rw [if_pos hv, htarget]
  have hs := step_if (env := env) hat
  rw [hif] at hs
  exact ⟨_, r1.trans (Reaches.one hs), rfl, hat.error, hcalls⟩

/-- A line has a single ENDIF and an ELSE is not tied to an IF: in `IF c1 THEN … IF c2 THEN t ELSE e` a false `c1` leads to
`e` as well, where the reader expects nothing to be executed. -/
theorem C48_nested {Inv : Core σ → Prop} (hst : ∀ c st, Inv c → Inv { c with stack := st }) {p : Ptr} {c1 t1 c2 t e : List Instr}
    (hc : Evals env Inv p c1 0) (hlen : c1.length ≤ 100) (hno1 : NoElse t1) (hno2 : NoElse c2) (hno : NoElse t) (hp : Proper e)
    {m : Mach σ} {a r : List Instr} (hw : ∀ j ∈ t1 ++ ifElse c2 t e ++ r, j.WF)
    (h : Ready Inv m a (c1 ++ .simple bcCommandFirst cmdIf :: (t1 ++ ifElse c2 t e ++ r))) :
    ∃ m' a', Reaches env m m' ∧ Ready Inv m' a' (e ++ .simple bcCommand cmdEndif :: r) ∧ m'.calls = m.calls := by
  have h' : Ready Inv m a (c1 ++ .simple bcCommandFirst cmdIf :: ((t1 ++ c2 ++ .simple bcCommandFirst cmdIf :: t) ++
      .simple bcCommand cmdElse :: (e ++ .simple bcCommand cmdEndif :: r))) :=
    ⟨h.at'.regroup rfl (by simp [ifElse]), h.argc, h.main, h.stack, h.inv⟩
  have hn : NoElse (t1 ++ c2 ++ .simple bcCommandFirst cmdIf :: t) := by
    constructor
    · intro hm
      simp only [List.mem_append, List.mem_cons] at hm
      rcases hm with (hm | hm) | hm | hm
      · exact hno1.1 hm
      · exact hno2.1 hm
      · simp [bcCommand, bcCommandFirst] at hm
      · exact hno.1 hm
    · intro hm
      simp only [List.mem_append, List.mem_cons] at hm
      rcases hm with (hm | hm) | hm | hm
      · exact hno1.2 hm
      · exact hno2.2 hm
      · simp [bcCommand, bcCommandFirst] at hm
      · exact hno.2 hm
  obtain ⟨m', r1, h1, hcalls, _⟩ := C48_false_else hst hc hlen hn hp (i := .simple bcCommand cmdEndif) (by decide) (by
    intro j hj
    refine hw j ?_
    simp only [ifElse, List.mem_append, List.mem_cons, List.not_mem_nil, or_false] at hj ⊢
    tauto) h'
  exact ⟨m', _, r1, h1, hcalls⟩

/-- `IF c THEN RESTORE @D` jumps to `@D` instead of executing RESTORE. -/
theorem C48_restore_violated {Inv : Core σ → Prop} {p : Ptr} {c : List Instr} {v : Int} {s : List Nat} {k : Nat}
    (hc : Evals env Inv p c v) (hlen : c.length ≤ 100) (hv : v ≠ 0) {m : Mach σ} {a r : List Instr}
    (hs : s.length ≤ 16) (hl : Labels.labelIndex m.labels s = some k)
    (h : Ready Inv m a (ifThen c [.text bcLabelString s, .simple bcCommandFirst cmdRestore] ++ r)) :
    ∃ m', Reaches env m m' ∧ m'.exec.index = k ∧ m'.core.error = 0 :=
  have ⟨m', r1, hi, he, _⟩ := C48_label (i := .simple bcCommandFirst cmdRestore) (r := .simple bcCommand cmdEndif :: r) hc hlen hv rfl hs hl
    ⟨h.at'.regroup rfl (by simp [ifThen]), h.argc, h.main, h.stack, h.inv⟩
  ⟨m', r1, hi, he⟩

/-! ## Examples -/
namespace Sample

/-- `IF c THEN X=1 ELSE X=2` with variable 1 as `X`. -/
def pick (cond : Nat) : List Instr :=
  ifElse [n cond] [.simple bcVariableIdSmall 1, n 1, assign] [.simple bcVariableIdSmall 1, n 2, assign]

/-- Variable 1 is a number variable. -/
def oneVar (c : Core Unit) : Prop := 1 < c.vars.max ∧ (c.vars.slots 1).ty = some .num

theorem set_runs (w : Nat) (hw : w ≤ 99) :
    Runs Sample.env oneVar (fun c => oneVar c ∧ c.mem (.slot 1) = w * 4096) [.simple bcVariableIdSmall 1, n w, assign] := by
  intro m a b _ h
  have hrun := runs_assign (env := Sample.env) oneVar (fun c => oneVar c ∧ c.mem (.slot 1) = w * 4096) (.slot 2) (.slot 1) (m.core.mem (.slot 2)) (w * 4096)
    [.simple bcVariableIdSmall 1] [n w] (by simp)
    (pushesVar_id _ (fun _ _ h => h) 1 (fun c h => ⟨h.1.1, h.1.2⟩))
    (evals_small _ (fun _ _ h => h) _ w hw) (by simp) (fun c hc _ => ⟨hc, by simp [Core.store]⟩)
  obtain ⟨m', r1, h1, h2, h3, h4, h5, h6, h7, _, h8⟩ := hrun m a b h.at' h.argc h.main h.stack rfl h.inv
  exact ⟨m', r1, ⟨h1, h2, h3, h4, h8⟩, h5, h6, h7⟩

/-- The hypotheses of `C48_if_else_partial` hold for it, whatever the condition. -/
theorem pick_runs (cond : Nat) (hc : cond ≤ 99) :
    Runs Sample.env oneVar (fun c => if (cond : Int) * 4096 ≠ 0 then oneVar c ∧ c.mem (.slot 1) = (1 : Nat) * 4096 else oneVar c ∧ c.mem (.slot 1) = (2 : Nat) * 4096)
      (pick cond) := by
  refine C48_if_else_partial (fun _ _ h => h) (p := .slot 2) (evals_small _ (fun _ _ h => h) _ cond hc) (by simp) ?_ ?_ ?_ ?_ ?_ (set_runs 1 (by decide)) (set_runs 2 (by decide))
  · constructor <;> decide
  · constructor <;> decide
  · left; intro i r h; cases h; decide
  · left; intro i r h; cases h; decide
  · intro i hi
    simp only [ifElse, List.cons_append, List.nil_append, List.mem_cons, List.not_mem_nil, or_false] at hi
    rcases hi with rfl | rfl | rfl | rfl | rfl | rfl | rfl | rfl | rfl | rfl <;>
      simp [n, assign, Instr.WF, hasText, hasName, bcLabelString, bcString, bcLabel, bcData, bcCommandFirst,
        bcWideString, bcNumber, bcVariableId, bcDim, bcVariableName, bcArrayName, bcSmallNumber, bcOperator, bcCommand, bcBeginLoop, bcVariableIdSmall]
    all_goals omega

/-- `IF A THEN IF B THEN X=1 ELSE X=2` sets `X` to 2 although `A` is 0. -/
def nested : List Instr :=
  [v 65, c cmdIf, v 66, c cmdIf, v 88, n 1, assign, k cmdElse, v 88, n 2, assign, k cmdEndif]

theorem C48_nested_violated :
    ((st (boot nested none') 5).core.vars.slots 0).name.head? = some 88 ∧ (st (boot nested none') 5).core.mem (.slot 0) = 8192 ∧
    ((st (boot nested none') 1).core.vars.slots 1).name.head? = some 65 ∧ (st (boot nested none') 1).core.mem (.slot 1) = 0 := by
  decide +kernel

/-- `ON 1 GOTO @A,@B` at the start of a program jumps to `@B` (position 12), as `C33_on` says; its hypotheses hold. -/
theorem on_example : ∃ m', Reaches Sample.env (boot (onCode [n 1] [[65], [66]] (k cmdGoto) ++ [label [66]]) (Labels.add none' [66] 12).1) m' ∧
    m'.core.error = 0 ∧ m'.exec.index = 12 := by
  obtain ⟨m', r1, _, _, _, h⟩ := C33_on (env := Sample.env) (Inv := fun _ => True) (p := .slot 0) (e := [n 1]) (v := 4096)
    (labels := [[65], [66]]) (push := false) (j := k cmdGoto) (evals_small _ (fun _ _ h => h) _ 1 (by decide)) (Or.inl rfl)
    (by decide) (by decide) (m := boot (onCode [n 1] [[65], [66]] (k cmdGoto) ++ [label [66]]) (Labels.add none' [66] 12).1) (a := []) (b := [label [66]])
    ⟨⟨rfl, rfl, rfl⟩, rfl, rfl, rfl, trivial⟩
  have hj := h 1 (by decide) [66] rfl
  unfold Jumped at hj
  rw [if_neg (by simp)] at hj
  have hl : Labels.labelIndex (boot (onCode [n 1] [[65], [66]] (k cmdGoto) ++ [label [66]]) (Labels.add none' [66] 12).1).labels [66] = some 12 := by
    decide +kernel
  rw [hl] at hj
  exact ⟨m', r1, hj.1, hj.2.1⟩

end Sample

end Sbc.Machine
