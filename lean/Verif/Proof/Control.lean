import Verif.Spec.Control
import Verif.Proof.Machine
import Mathlib.Tactic.Tauto
set_option autoImplicit false
/-!
# The interpreter stays on instruction boundaries
-/
namespace Sbc.Machine
open Sbc Sbc.Tok Sbc.Tok.Spec

variable {σ : Type} {env : Env σ}

/-! ## Results of scans -/

theorem splitAt_some (find : Nat) (b c d : List Instr) (j : Instr) (h : splitAt find b = some (c, j, d)) :
    b = c ++ j :: d ∧ j.op = find ∧ ∀ i ∈ c, i.op ≠ find := by
  induction b generalizing c with
  | nil => cases h
  | cons x b ih =>
    unfold splitAt at h
    by_cases hx : x.op = find
    · rw [if_pos hx] at h; cases h; exact ⟨rfl, hx, by simp⟩
    · rw [if_neg hx] at h
      cases hs : splitAt find b with
      | none => rw [hs] at h; cases h
      | some r =>
        obtain ⟨c', j', d'⟩ := r
        rw [hs] at h
        cases h
        obtain ⟨h1, h2, h3⟩ := ih c' hs
        exact ⟨by rw [h1]; rfl, h2, by
          intro i hi
          rcases List.mem_cons.mp hi with rfl | hi
          · exact hx
          · exact h3 i hi⟩

theorem bcScan_eq (a b : List Instr) (find : Nat) (hw : ∀ i ∈ b, i.WF) :
    bcScan (encode (a ++ b)) (posAfter a) find = match splitAt find b with
      | none => .ok none
      | some (c, _, _) => .ok (some (posAfter (a ++ c))) := by
  unfold bcScan bcScanPair
  rw [scanPair_spec find b a _ none hw (by rw [encode_append a, List.length_append]; omega)]
  cases splitAt find b with
  | none => rfl
  | some r => rfl

theorem bcScan_some (a b : List Instr) (find i : Nat) (hw : ∀ i ∈ b, i.WF)
    (h : bcScan (encode (a ++ b)) (posAfter a) find = .ok (some i)) :
    ∃ c j d, b = c ++ j :: d ∧ j.op = find ∧ (∀ x ∈ c, x.op ≠ find) ∧ i = posAfter (a ++ c) := by
  rw [bcScan_eq a b find hw] at h
  cases hs : splitAt find b with
  | none => rw [hs] at h; cases h
  | some r =>
    obtain ⟨c, j, d⟩ := r
    rw [hs] at h
    cases h
    obtain ⟨h1, h2, h3⟩ := splitAt_some find b c d j hs
    exact ⟨c, j, d, h1, h2, h3, rfl⟩

theorem scanFor_some (find : Nat) (p : Nat → Bool) (hf : ∀ (i : Instr), i.WF → i.op = find → ∃ d, i = .simple find d) :
    (fuel : Nat) → (a b : List Instr) → (k : Nat) → (∀ i ∈ b, i.WF) →
    scanFor (encode (a ++ b)) find p fuel (posAfter a) = .ok (some k) →
    ∃ c x d, b = c ++ .simple find x :: d ∧ p x = true ∧ (∀ y, .simple find y ∈ c → p y = false) ∧ k = posAfter (a ++ c)
  | 0, _, _, _, _, h => by cases h
  | fuel + 1, a, b, k, hw, h => by
    simp only [scanFor] at h
    obtain ⟨r, h1, h⟩ := bind_inv h
    cases r with
    | none => cases h
    | some i =>
      obtain ⟨c, j, d, rfl, h2, h3, rfl⟩ := bcScan_some a b find i hw h1
      obtain ⟨x, rfl⟩ := hf j (hw j (by simp)) h2
      simp only at h
      rw [← List.append_assoc, byte_arg (a ++ c) d (.simple find x)] at h
      change (if p x = true then Out.ok (some (posAfter (a ++ c))) else scanFor (encode (a ++ c ++ .simple find x :: d)) find p fuel (posAfter (a ++ c) + 2)) = _ at h
      have hno : ∀ y, Instr.simple find y ∉ c := fun y hy => h3 _ hy rfl
      by_cases hp : p x = true
      · rw [if_pos hp] at h
        cases h
        exact ⟨c, x, d, rfl, hp, fun y hy => absurd hy (hno y), rfl⟩
      · rw [if_neg hp] at h
        have e2 : a ++ c ++ .simple find x :: d = (a ++ c ++ [.simple find x]) ++ d := by simp
        have e3 : posAfter (a ++ c) + 2 = posAfter (a ++ c ++ [.simple find x]) := by rw [posAfter_snoc]; rfl
        rw [e2, e3] at h
        obtain ⟨c2, y, d2, rfl, g2, g3, g4⟩ := scanFor_some find p hf fuel _ d k (fun i hi => hw i (by simp [hi])) h
        refine ⟨c ++ .simple find x :: c2, y, d2, by simp, g2, ?_, by rw [g4]; simp⟩
        intro z hz
        rcases List.mem_append.mp hz with hz | hz
        · exact absurd hz (hno z)
        · rcases List.mem_cons.mp hz with hz | hz
          · cases hz; exact eq_false_of_ne_true hp
          · exact g3 z hz

theorem cmdOp : hasText bcCommand = false ∧ hasName bcCommand = false ∧ bcCommand ≠ bcNumber ∧ bcCommand ≠ bcVariableId := by decide
theorem cmdFirstOp : hasText bcCommandFirst = false ∧ hasName bcCommandFirst = false ∧ bcCommandFirst ≠ bcNumber ∧ bcCommandFirst ≠ bcVariableId := by decide
theorem opOp : hasText bcOperator = false ∧ hasName bcOperator = false ∧ bcOperator ≠ bcNumber ∧ bcOperator ≠ bcVariableId := by decide
theorem beginOp : hasText bcBeginLoop = false ∧ hasName bcBeginLoop = false ∧ bcBeginLoop ≠ bcNumber ∧ bcBeginLoop ≠ bcVariableId := by decide

/-! ## The invariant -/

/-- An entry of the call stack. -/
def CallOk (p : List Instr) (c : Call) : Prop :=
  if c.gosub then Boundary p c.addr
  else ∃ a ctl b, p = a ++ (ctl ++ b) ∧ c.addr = posAfter ctl * 16777216 + posAfter a ∧ Plain ctl ∧ posAfter ctl ≤ 255 ∧ posAfter a < 16777216

/-- Invariant of a running program. -/
structure Good (p : List Instr) (m : Mach σ) : Prop where
  calls : ∀ c ∈ m.calls, CallOk p c
  depth : m.calls.length ≤ 255
  labels : LabelsOk p m.labels
  run : match m.frames with
    | [] => m.exec.code = encode p ∧ Boundary p m.exec.index ∧ m.exec.main = true
    | [f] => f.saved.code = encode p ∧ Boundary p f.saved.index ∧ f.saved.main = true ∧
        (∃ a s b, p = a ++ (s ++ b) ∧ Plain s ∧ m.exec.code = encode s ∧ Boundary s m.exec.index) ∧ m.exec.main = false ∧
        f.pos < m.calls.length ∧ ∃ c, m.calls[m.calls.length - 1 - f.pos]? = some c ∧ c.gosub = false
    | _ => False

/-- What a step does to the call stack. -/
inductive Effect (m m' : Mach σ) : Prop
  | same : m'.calls = m.calls → ¬ AtCmd m cmdReturn ∨ (m.calls = [] ∧ m'.core.error = eReturnWithoutGosub) → Effect m m'
  | open (c : Call) : m'.calls = c :: m.calls → c.gosub = false → ¬ AtCmd m cmdReturn → ¬ AtCmd m cmdGosub → Effect m m'
  | close (k : Nat) (c : Call) : m.calls[k]? = some c → c.gosub = false → m'.calls = m.calls.eraseIdx k → ¬ AtCmd m cmdReturn →
      Effect m m'
  | call (c : Call) : AtCmd m cmdGosub → c.gosub = true → c.addr = m.exec.index + 2 → m'.calls = c :: m.calls → Effect m m'
  | ret (fors rest : List Call) (c : Call) : AtCmd m cmdReturn → m.calls = fors ++ c :: rest → (∀ x ∈ fors, x.gosub = false) →
      c.gosub = true → m'.calls = rest → m'.exec.index = c.addr → Effect m m'

theorem boundary_app (a b : List Instr) : Boundary (a ++ b) (posAfter a) := ⟨a, b, rfl, rfl⟩

theorem boundary_end (p : List Instr) : Boundary p (encode p).length := ⟨p, [], by simp, rfl⟩

/-! ## Instructions other than commands -/

/-- Nothing but the core, the argument count and the position changes. -/
structure Quiet (m m' : Mach σ) (i : Nat) : Prop where
  code : m'.exec.code = m.exec.code
  index : m'.exec.index = i
  main : m'.exec.main = m.exec.main
  calls : m'.calls = m.calls
  frames : m'.frames = m.frames
  labels : m'.labels = m.labels

theorem onCore_quiet {m m' : Mach σ} {r : Out (Core σ)} (h : onCore m r = .ok m') : Quiet m m' m.exec.index := by
  obtain ⟨c, _, h⟩ := bind_inv h
  cases h
  exact ⟨rfl, rfl, rfl, rfl, rfl, rfl⟩

theorem skip_quiet {m m' : Mach σ} {n : Nat} {r : Out (Core σ)} (h : onCore (m.skip n) r = .ok m') : Quiet m m' (m.exec.index + n) := by
  obtain ⟨c, _, h⟩ := bind_inv h
  cases h
  exact ⟨rfl, rfl, rfl, rfl, rfl, rfl⟩

theorem fail_quiet (m : Mach σ) (e : Nat) : Quiet m (m.fail e) m.exec.index := ⟨rfl, rfl, rfl, rfl, rfl, rfl⟩

theorem execInstr_eq (op d : Nat) (m : Mach σ) : execInstr env op d m =
    (if op = bcSmallNumber then
      if d ≤ 99 then onCore m (m.core.push (.num (d * 4096))) else .ok (m.fail eNumInvalid)
    else if op = bcString ∨ op = bcLabelString then
      if ((m.exec.code.drop m.exec.index).take d).length < d then .ub
      else onCore (m.skip (d + d % 2)) (m.core.push (.str (op == bcLabelString) ((m.exec.code.drop m.exec.index).take d)))
    else if op = bcCommand ∨ op = bcCommandFirst then
      if d ≥ 110 then .ok (m.fail eCommandInvalid)
      else (execCmd env d m).bind fun m' =>
        .ok (if keepsStack d then m' else { m' with core := { m'.core with stack := [] } })
    else if op = bcOperator then onCore m (execOp env d m.exec.argc m.core)
    else if op = bcFunction ∨ op = bcSysvar ∨ op = bcSysvarValidate then onCore m (env.other op d m.exec.argc m.core)
    else if op = bcNumber then
      match m.exec.code[m.exec.index]?, m.exec.code[m.exec.index + 1]?, m.exec.code[m.exec.index + 2]?, m.exec.code[m.exec.index + 3]? with
      | some b3, some b2, some b1, some b0 => onCore (m.skip 4) (m.core.push (.num (numBytes b3 b2 b1 b0)))
      | _, _, _, _ => .ub
    else if op = bcVariableIdSmall then onCore m (execId d m.exec.argc m.core)
    else if op = bcVariableId then
      match m.exec.code[m.exec.index]?, m.exec.code[m.exec.index + 1]? with
      | some b1, some b2 => onCore (m.skip 2) (execId (d + b1 * 256 + b2 * 65536) m.exec.argc m.core)
      | _, _ => .ub
    else if op = bcArrayName ∨ op = bcVariableName then
      (readName m.exec.code (m.exec.index - 2) d).bind fun n =>
        onCore (m.skip n.2.2) (execName (op == bcArrayName) n.1 n.2.1 m.exec.argc m.core)
    else if op = bcDim then
      (readName m.exec.code (m.exec.index - 2) d).bind fun n => onCore (m.skip n.2.2) (execDim n.1 n.2.1 m.exec.argc m.core)
    else if op = bcArgcount then .ok { m with exec := { m.exec with argc := d } }
    else if op = bcBeginLoop then execBegin m
    else if op = bcData ∨ op = bcLabel then .ok (m.skip (d + d % 2))
    else if op = bcError then .ok (m.fail d)
    else .ok (m.fail eInvalidBc)) := rfl

/-- Simple instructions that are no commands. -/
theorem exec_quiet_simple {m m' : Mach σ} {op d : Nat} (hw : (Instr.simple op d).WF) (h1 : op ≠ bcCommand) (h2 : op ≠ bcCommandFirst)
    (h3 : op ≠ bcBeginLoop) (h : execInstr env op d m = .ok m') : Quiet m m' m.exec.index := by
  obtain ⟨w1, w2, w3, w4, w5⟩ := hw
  have t1 : op ≠ bcString ∧ op ≠ bcLabel ∧ op ≠ bcLabelString ∧ op ≠ bcData := by
    simp only [hasText, Bool.or_eq_false_iff, beq_eq_false_iff_ne] at w1
    exact ⟨w1.1.1.1, w1.1.1.2, w1.1.2, w1.2⟩
  rw [execInstr_eq] at h
  have name : hasName op = true → ∀ n, readName m.exec.code (m.exec.index - 2) d = .ok n → n.2.2 = 0 := by
    intro hn n h
    have hd := w5 hn
    unfold readName at h
    rw [if_neg (by omega)] at h
    cases h; rfl
  by_cases e1 : op = bcSmallNumber
  · rw [if_pos e1] at h
    split at h
    · exact onCore_quiet h
    · cases h; exact fail_quiet _ _
  rw [if_neg e1, if_neg (not_or.mpr ⟨t1.1, t1.2.2.1⟩), if_neg (not_or.mpr ⟨h1, h2⟩)] at h
  by_cases e2 : op = bcOperator
  · rw [if_pos e2] at h; exact onCore_quiet h
  rw [if_neg e2] at h
  by_cases e3 : op = bcFunction ∨ op = bcSysvar ∨ op = bcSysvarValidate
  · rw [if_pos e3] at h; exact onCore_quiet h
  rw [if_neg e3, if_neg w3] at h
  by_cases e4 : op = bcVariableIdSmall
  · rw [if_pos e4] at h; exact onCore_quiet h
  rw [if_neg e4, if_neg w4] at h
  by_cases e5 : op = bcArrayName ∨ op = bcVariableName
  · rw [if_pos e5] at h
    obtain ⟨n, g1, g2⟩ := bind_inv h
    have := skip_quiet g2
    rw [name (by rcases e5 with hc | hc <;> rw [hc] <;> rfl) n g1] at this
    exact this
  rw [if_neg e5] at h
  by_cases e6 : op = bcDim
  · rw [if_pos e6] at h
    obtain ⟨n, g1, g2⟩ := bind_inv h
    have := skip_quiet g2
    rw [name (by rw [e6]; rfl) n g1] at this
    exact this
  rw [if_neg e6] at h
  by_cases e7 : op = bcArgcount
  · rw [if_pos e7] at h; cases h; exact ⟨rfl, rfl, rfl, rfl, rfl, rfl⟩
  rw [if_neg e7, if_neg h3, if_neg (not_or.mpr ⟨t1.2.2.2, t1.2.1⟩)] at h
  by_cases e8 : op = bcError
  · rw [if_pos e8] at h; cases h; exact fail_quiet _ _
  · rw [if_neg e8] at h; cases h; exact fail_quiet _ _

theorem exec_text (d : Nat) (m : Mach σ) (op : Nat) (h : hasText op = true) :
    execInstr env op d m = (if op = bcString ∨ op = bcLabelString then
      if ((m.exec.code.drop m.exec.index).take d).length < d then .ub
      else onCore (m.skip (d + d % 2)) (m.core.push (.str (op == bcLabelString) ((m.exec.code.drop m.exec.index).take d)))
    else .ok (m.skip (d + d % 2))) := by
  have : op = bcString ∨ op = bcLabel ∨ op = bcLabelString ∨ op = bcData := by
    simp only [hasText, Bool.or_eq_true, beq_iff_eq] at h
    tauto
  rcases this with rfl | rfl | rfl | rfl <;> rfl

theorem exec_named (d : Nat) (m : Mach σ) (op : Nat) (h : hasName op = true) :
    execInstr env op d m = (readName m.exec.code (m.exec.index - 2) d).bind fun n =>
      onCore (m.skip n.2.2) (if op = bcDim then execDim n.1 n.2.1 m.exec.argc m.core
        else execName (op == bcArrayName) n.1 n.2.1 m.exec.argc m.core) := by
  have : op = bcDim ∨ op = bcVariableName ∨ op = bcArrayName := by
    simp only [hasName, Bool.or_eq_true, beq_iff_eq] at h
    tauto
  rcases this with rfl | rfl | rfl <;> rfl

/-- Any instruction that is no command and no BEGIN_LOOP. -/
theorem exec_quiet {m m' : Mach σ} {i : Instr} (hw : i.WF) (h1 : i.op ≠ bcCommand) (h2 : i.op ≠ bcCommandFirst)
    (h3 : i.op ≠ bcBeginLoop) (h : execInstr env i.op (arg i) m = .ok m') : Quiet m m' (m.exec.index + (tail i).length) := by
  cases i with
  | simple op d => exact exec_quiet_simple hw h1 h2 h3 h
  | num b3 b2 b1 b0 =>
    change (match m.exec.code[m.exec.index]?, m.exec.code[m.exec.index + 1]?,
          m.exec.code[m.exec.index + 2]?, m.exec.code[m.exec.index + 3]? with
      | some b3, some b2, some b1, some b0 => onCore (m.skip 4) (m.core.push (.num (numBytes b3 b2 b1 b0)))
      | _, _, _, _ => .ub) = _ at h
    split at h
    · exact skip_quiet h
    · cases h
  | varId b0 b1 b2 =>
    change (match m.exec.code[m.exec.index]?, m.exec.code[m.exec.index + 1]? with
      | some c1, some c2 => onCore (m.skip 2) (execId (b0 + c1 * 256 + c2 * 65536) m.exec.argc m.core)
      | _, _ => .ub) = _ at h
    split at h
    · exact skip_quiet h
    · cases h
  | text op l =>
    change execInstr env op l.length m = _ at h
    rw [exec_text _ _ _ hw.1] at h
    show Quiet m m' (m.exec.index + (padText l).length)
    rw [padText_length]
    split at h
    · split at h
      · cases h
      · exact skip_quiet h
    · cases h; exact ⟨rfl, rfl, rfl, rfl, rfl, rfl⟩
  | named op l =>
    change execInstr env op l.length m = _ at h
    rw [exec_named _ _ _ hw.1] at h
    obtain ⟨n, g1, g2⟩ := bind_inv h
    show Quiet m m' (m.exec.index + (padText l).length)
    rw [padText_length]
    have hl : l.length ≤ 64 := hw.2
    have : n.2.2 = l.length + l.length % 2 := by
      unfold readName at g1
      rw [if_pos (by omega)] at g1
      dsimp only at g1
      split at g1
      · cases g1
      · split at g1 <;> (cases g1; rfl)
    rw [← this]
    exact skip_quiet g2

/-! ## Commands -/

/-- The program runs in the main loop. -/
structure Main (p : List Instr) (m : Mach σ) : Prop where
  calls : ∀ c ∈ m.calls, CallOk p c
  depth : m.calls.length ≤ 255
  labels : LabelsOk p m.labels
  frames : m.frames = []
  code : m.exec.code = encode p
  main : m.exec.main = true

theorem Main.good {p : List Instr} {m : Mach σ} (h : Main p m) (hb : Boundary p m.exec.index) : Good p m :=
  ⟨h.calls, h.depth, h.labels, by rw [h.frames]; exact ⟨h.code, hb, h.main⟩⟩

theorem Main.quiet {p : List Instr} {m m' : Mach σ} {i : Nat} (h : Main p m) (q : Quiet m m' i) : Main p m' :=
  ⟨q.calls ▸ h.calls, q.calls ▸ h.depth, q.labels ▸ h.labels, q.frames ▸ h.frames, q.code ▸ h.code, q.main ▸ h.main⟩

theorem Good.quiet {p : List Instr} {m m' : Mach σ} (h : Good p m) (q : Quiet m m' m.exec.index) : Good p m' := by
  refine ⟨q.calls ▸ h.calls, q.calls ▸ h.depth, q.labels ▸ h.labels, ?_⟩
  have := h.run
  rw [q.frames, q.code, q.index, q.main, q.calls]
  exact this

/-- Only the core changed, perhaps. -/
theorem Quiet.core (m : Mach σ) (c : Core σ) : Quiet m { m with core := c } m.exec.index := ⟨rfl, rfl, rfl, rfl, rfl, rfl⟩

/-- `search_label`. -/
theorem searchLabel_ok {p : List Instr} {m : Mach σ} (h : Main p m) {l : Bool} {s : List Nat} {r : Mach σ × Nat}
    (e : searchLabel m l s = .ok r) : Quiet m r.1 m.exec.index ∧ Boundary p r.2 := by
  unfold searchLabel at e
  split at e
  · cases e
  split at e
  · cases e
  split at e
  · cases e
  generalize (if l = true then s else s.drop 1) = t at e
  cases hl : Labels.labelIndex m.labels t with
  | none => rw [hl] at e; cases e; exact ⟨fail_quiet _ _, by rw [h.code]; exact boundary_end p⟩
  | some i => rw [hl] at e; cases e; exact ⟨⟨rfl, rfl, rfl, rfl, rfl, rfl⟩, h.labels _ _ hl⟩

/-- Result of a command: still a running program, on an instruction. -/
structure Lands (p : List Instr) (m' : Mach σ) : Prop where
  main : Main p m'
  index : Boundary p m'.exec.index

theorem Lands.move {p : List Instr} {m : Mach σ} (h : Main p m) {k : Nat} (hk : Boundary p k) :
    Lands p { m with exec := { m.exec with index := k } } :=
  ⟨⟨h.calls, h.depth, h.labels, h.frames, h.code, h.main⟩, hk⟩

theorem Lands.quiet {p : List Instr} {m m' : Mach σ} (h : Main p m) (hb : Boundary p m.exec.index) (q : Quiet m m' m.exec.index) :
    Lands p m' := ⟨h.quiet q, q.index ▸ hb⟩

theorem jump_ok {p : List Instr} {m m' : Mach σ} (h : Main p m) (hb : Boundary p m.exec.index) {push l : Bool} {s : List Nat}
    (e : jump push m l s = .ok m') :
    Lands p m' ∧ (m'.calls = m.calls ∨ (push = true ∧ m'.calls = ⟨true, m.exec.index, .slot 0⟩ :: m.calls)) := by
  obtain ⟨r, h1, e⟩ := bind_inv e
  obtain ⟨q, hk⟩ := searchLabel_ok h h1
  have hr := h.quiet q
  dsimp only at e
  cases push with
  | false =>
    cases e
    exact ⟨Lands.move hr hk, Or.inl q.calls⟩
  | true =>
    rw [if_pos rfl] at e
    by_cases hd : r.1.calls.length = 255
    · rw [if_pos hd] at e; cases e
      exact ⟨Lands.quiet hr (q.index ▸ hb) (fail_quiet _ _), Or.inl q.calls⟩
    · rw [if_neg hd] at e; cases e
      refine ⟨⟨⟨?_, ?_, hr.labels, hr.frames, hr.code, hr.main⟩, hk⟩, Or.inr ⟨rfl, ?_⟩⟩
      · intro c hc
        rcases List.mem_cons.mp hc with rfl | hc
        · show CallOk p ⟨true, r.1.exec.index, .slot 0⟩
          unfold CallOk; rw [if_pos rfl]; exact q.index.symm ▸ hb
        · exact hr.calls c hc
      · have := hr.depth
        show (_ :: r.1.calls).length ≤ 255
        simp only [List.length_cons]; omega
      · show _ :: r.1.calls = _
        rw [q.calls, q.index]

theorem cmdJump_ok {p : List Instr} {m m' : Mach σ} (h : Main p m) (hb : Boundary p m.exec.index) {push : Bool}
    (e : cmdJumpM push m = .ok m') :
    Lands p m' ∧ (m'.calls = m.calls ∨ (push = true ∧ m'.calls = ⟨true, m.exec.index, .slot 0⟩ :: m.calls)) := by
  unfold cmdJumpM at e
  split at e
  · cases e
  · rename_i en _
    split at e
    · obtain ⟨v, _, e⟩ := bind_inv e
      dsimp only at e
      split at e
      · cases e; exact ⟨⟨h, hb⟩, Or.inl rfl⟩
      · split at e
        · cases e; exact ⟨Lands.quiet h hb (fail_quiet _ _), Or.inl rfl⟩
        · exact jump_ok h hb e
        · cases e
    · obtain ⟨v, _, e⟩ := bind_inv e
      exact jump_ok h hb e

theorem ifTarget_ok {p : List Instr} {m : Mach σ} (h : Main p m) {k : Nat} (hk : Boundary p k) {r : Mach σ × Nat}
    (e : ifTarget m k = .ok r) : Quiet m r.1 m.exec.index ∧ Boundary p r.2 := by
  have same : Quiet m m m.exec.index := ⟨rfl, rfl, rfl, rfl, rfl, rfl⟩
  unfold ifTarget at e
  split at e
  · cases e; exact ⟨same, hk⟩
  · split at e
    · obtain ⟨len, _, e⟩ := bind_inv e
      split at e
      · cases e; exact ⟨same, hk⟩
      · exact searchLabel_ok h e
    · cases e; exact ⟨same, hk⟩

/-- A scan from an instruction ends at an instruction; the position after it is one, too. -/
theorem scan_ok {p : List Instr} {m : Mach σ} (h : Main p m) (hw : ∀ i ∈ p, i.WF) {find k j : Nat} {q : Nat → Bool}
    (hf : hasText find = false ∧ hasName find = false ∧ find ≠ bcNumber ∧ find ≠ bcVariableId) (hk : Boundary p k)
    (e : m.exec.scanFor find q k = .ok (some j)) : Boundary p (j + 2) := by
  obtain ⟨a, b, rfl, rfl⟩ := hk
  unfold Exec.scanFor at e
  rw [h.code] at e
  obtain ⟨c, x, d, rfl, _, _, rfl⟩ := scanFor_some find q (fun i hi => simpleOp find hf i hi) _ a b j (fun i hi => hw i (by simp [hi])) e
  refine ⟨a ++ c ++ [.simple find x], d, by simp, ?_⟩
  rw [posAfter_snoc]; rfl

theorem cmdIf_ok {p : List Instr} {m m' : Mach σ} (h : Main p m) (hw : ∀ i ∈ p, i.WF) (hb : Boundary p m.exec.index)
    (e : cmdIfM m = .ok m') : Lands p m' ∧ m'.calls = m.calls := by
  have target : ∀ k, Boundary p k → (ifTarget m k).bind (fun r => Out.ok { r.1 with exec := { r.1.exec with index := r.2 } }) = .ok m' →
      Lands p m' ∧ m'.calls = m.calls := by
    intro k hk e
    obtain ⟨r, h1, e⟩ := bind_inv e
    obtain ⟨q, hr⟩ := ifTarget_ok h hk h1
    cases e
    exact ⟨Lands.move (h.quiet q) hr, q.calls⟩
  unfold cmdIfM at e
  obtain ⟨v, _, e⟩ := bind_inv e
  dsimp only at e
  split at e
  · exact target _ hb e
  · obtain ⟨r, h1, e⟩ := bind_inv e
    cases r with
    | none => cases e; exact ⟨Lands.quiet h hb (fail_quiet _ _), rfl⟩
    | some i =>
      have hi := scan_ok h hw cmdOp hb h1
      obtain ⟨d, _, e⟩ := bind_inv e
      split at e
      · exact target _ hi e
      · cases e; exact ⟨Lands.move h hi, rfl⟩

theorem cmdElse_ok {p : List Instr} {m m' : Mach σ} (h : Main p m) (hw : ∀ i ∈ p, i.WF) (hb : Boundary p m.exec.index)
    (e : cmdElseM m = .ok m') : Lands p m' ∧ m'.calls = m.calls := by
  unfold cmdElseM at e
  obtain ⟨r, h1, e⟩ := bind_inv e
  cases r with
  | none => cases e; exact ⟨Lands.quiet h hb (fail_quiet _ _), rfl⟩
  | some i => cases e; exact ⟨Lands.move h (scan_ok h hw cmdOp hb h1), rfl⟩

theorem cmdReturn_ok {p : List Instr} {m m' : Mach σ} (h : Main p m) (hb : Boundary p m.exec.index) (e : cmdReturnM m = .ok m') :
    Lands p m' ∧ ((m.calls = [] ∧ m'.calls = m.calls ∧ m'.core.error = eReturnWithoutGosub) ∨ ∃ fors rest c, m.calls = fors ++ c :: rest ∧
      (∀ x ∈ fors, x.gosub = false) ∧ c.gosub = true ∧ m'.calls = rest ∧ m'.exec.index = c.addr) := by
  unfold cmdReturnM at e
  by_cases h0 : m.calls = []
  · rw [if_pos h0] at e; cases e
    exact ⟨Lands.quiet h hb (fail_quiet _ _), Or.inl ⟨h0, rfl, rfl⟩⟩
  · rw [if_neg h0] at e
    have hsplit : m.calls = m.calls.takeWhile (fun c => !c.gosub) ++ m.calls.dropWhile (fun c => !c.gosub) :=
      List.takeWhile_append_dropWhile.symm
    cases hd : m.calls.dropWhile (fun c => !c.gosub) with
    | nil => rw [hd] at e; cases e
    | cons c r =>
      rw [hd] at e hsplit
      cases e
      have hc : c.gosub = true := by
        have := List.head?_dropWhile_not (fun c : Call => !c.gosub) m.calls
        rw [hd] at this
        simpa using this
      have hmem : c ∈ m.calls := by rw [hsplit]; simp
      refine ⟨⟨⟨?_, ?_, h.labels, h.frames, h.code, h.main⟩, ?_⟩, Or.inr ⟨_, r, c, hsplit, ?_, hc, rfl, rfl⟩⟩
      · intro x hx; exact h.calls x (by rw [hsplit]; simp [show x ∈ r from hx])
      · have := h.depth
        rw [hsplit] at this
        simp only [List.length_append, List.length_cons] at this
        show r.length ≤ 255
        omega
      · have := h.calls c hmem
        unfold CallOk at this
        rw [if_pos hc] at this
        exact this
      · intro x hx
        have := List.all_takeWhile (p := fun c : Call => !c.gosub) (l := m.calls)
        have := List.all_eq_true.mp this x hx
        simpa using this

theorem addr_eq (start size : Nat) (h1 : start < 16777216) (h2 : size ≤ 255) :
    start ||| (size <<< 24) % 4294967296 = size * 16777216 + start := by
  rw [Nat.shiftLeft_eq, Nat.mod_eq_of_lt (by omega), Nat.or_comm, ← Nat.shiftLeft_eq]
  have := Nat.shiftLeft_add_eq_or_of_lt (i := 24) (b := start) (by omega) size
  rw [← this, Nat.shiftLeft_eq]

theorem cmdFor_ok {p : List Instr} {m m' : Mach σ} (h : Main p m) (hp : Compiled p) {a b : List Instr} {i : Instr} (hi : isCmd cmdFor i)
    (hsplit : p = a ++ i :: b) (hidx : m.exec.index = posAfter (a ++ [i])) (e : cmdForM m = .ok m') :
    Lands p m' ∧ (m'.calls = m.calls ∨ ∃ c, m'.calls = c :: m.calls ∧ c.gosub = false) := by
  have hb : Boundary p m.exec.index := ⟨a ++ [i], b, by rw [hsplit]; simp, hidx⟩
  unfold cmdForM at e
  obtain ⟨r, h1, e⟩ := bind_inv e
  cases r with
  | none => cases e; exact ⟨Lands.quiet h hb (fail_quiet _ _), Or.inl rfl⟩
  | some k =>
    dsimp only at e
    by_cases hd : m.calls.length = 255
    · rw [if_pos hd] at e; cases e; exact ⟨Lands.quiet h hb (fail_quiet _ _), Or.inl rfl⟩
    rw [if_neg hd] at e
    unfold Exec.scanFor at h1
    rw [h.code, hidx, show p = (a ++ [i]) ++ b by rw [hsplit]; simp] at h1
    obtain ⟨c, x, r, rfl, hx, hno, rfl⟩ := scanFor_some bcOperator (· == opAssign) (fun i hi => simpleOp bcOperator opOp i hi) _ _ b _
      (fun j hj => hp.wf j (by rw [hsplit]; simp [hj])) h1
    obtain rfl : x = opAssign := by simpa using hx
    obtain ⟨ctl, y, r2, rfl, hplain, hsize⟩ := hp.loops a i c r hsplit hi (fun hm => by
      have := hno opAssign hm
      simp at this)
    have hstart : posAfter (a ++ [i] ++ c) + 2 = posAfter (a ++ [i] ++ c ++ [assign]) := by rw [posAfter_snoc]; rfl
    rw [hstart, h.code] at e
    have hcode : p = (a ++ [i] ++ c ++ [assign]) ++ (ctl ++ .simple bcBeginLoop y :: r2) := by rw [hsplit]; simp [assign]
    rw [hcode, bcScan_mid _ ctl r2 (.simple bcBeginLoop y) bcBeginLoop (fun j hj => hp.wf j (by rw [hcode]; exact List.mem_append_right _ hj))
      (fun j hj => (hplain j hj).1) rfl] at e
    simp only [Out.bind] at e
    split at e
    · rename_i q hq
      cases e
      refine ⟨⟨⟨?_, ?_, h.labels, h.frames, h.code, h.main⟩, hb⟩, Or.inr ⟨_, rfl, rfl⟩⟩
      · intro cl hc
        rcases List.mem_cons.mp hc with rfl | hc
        · unfold CallOk
          rw [if_neg (by simp)]
          refine ⟨a ++ [i] ++ c ++ [assign], ctl, .simple bcBeginLoop y :: r2, hcode, ?_, hplain, hsize, ?_⟩
          rotate_left
          · have := hp.size
            rw [hcode, posAfter_append] at this
            omega
          have hlt : posAfter (a ++ [i] ++ c ++ [assign]) < 16777216 := by
            have := hp.size
            rw [hcode, posAfter_append] at this
            omega
          have e1 : posAfter (a ++ [i] ++ c ++ [assign] ++ ctl) - posAfter (a ++ [i] ++ c ++ [assign]) = posAfter ctl := by
            rw [posAfter_append _ ctl]; omega
          show _ ||| _ = _
          rw [e1]
          exact addr_eq _ _ hlt hsize
        · exact h.calls cl hc
      · have := h.depth
        show (_ :: m.calls).length ≤ 255
        simp only [List.length_cons]; omega
    · cases e

/-! ## NEXT -/

theorem findIdx_some {q : Call → Bool} {l : List Call} {k : Nat} (h : l.findIdx? q = some k) : ∃ c, l[k]? = some c ∧ q c = true := by
  obtain ⟨hk, hq, _⟩ := List.findIdx?_eq_some_iff_getElem.mp h
  exact ⟨l[k], by simp [hk], hq⟩

theorem cmdNext_ok {p : List Instr} {m m' : Mach σ} (h : Main p m) (hb : Boundary p m.exec.index) (e : cmdNextM m = .ok m') :
    Good p m' ∧ m'.calls = m.calls := by
  have go : ∀ v : Option Ptr, (match findFor v m.calls with
      | none => Out.ok (m.fail eNextWithoutFor)
      | some k =>
        match m.calls[k]? with
        | none => .ub
        | some c =>
          if c.addr % 16777216 + c.addr / 16777216 > m.exec.code.length then .ub
          else .ok { m with
            frames := ⟨{ m.exec with argc := 0 }, m.core.error, m.calls.length - 1 - k⟩ :: m.frames
            exec := ⟨(m.exec.code.drop (c.addr % 16777216)).take (c.addr / 16777216), 0, some 0, 0, m.exec.argc, false⟩
            core := { m.core with stack := [] } }) = .ok m' → Good p m' ∧ m'.calls = m.calls := by
    intro v e
    cases hf : findFor v m.calls with
    | none => rw [hf] at e; cases e; exact ⟨(h.good hb).quiet (fail_quiet _ _), rfl⟩
    | some k =>
      obtain ⟨c, hc, hq⟩ := findIdx_some hf
      simp only [Bool.and_eq_true, Bool.not_eq_true'] at hq
      rw [hf] at e
      dsimp only at e
      rw [hc] at e
      dsimp only at e
      split at e
      · cases e
      · cases e
        refine ⟨⟨h.calls, h.depth, h.labels, ?_⟩, rfl⟩
        rw [h.frames]
        have hk : k < m.calls.length := by
          by_contra hn
          rw [List.getElem?_eq_none (by omega)] at hc; cases hc
        have hok := h.calls c (List.mem_of_getElem? hc)
        unfold CallOk at hok
        rw [if_neg (by rw [hq.1]; simp)] at hok
        obtain ⟨a, ctl, b, hp, ha, hplain, hs, hlt⟩ := hok
        refine ⟨h.code, hb, h.main, ⟨a, ctl, b, hp, hplain, ?_, ?_⟩, rfl, ?_, c, ?_, hq.1⟩
        · show List.take _ (List.drop _ _) = _
          have e1 : c.addr % 16777216 = posAfter a := by omega
          have e2 : c.addr / 16777216 = posAfter ctl := by omega
          rw [e1, e2, h.code, hp, encode_append]
          rw [show posAfter a = (encode a).length from rfl, List.drop_left, encode_append, show posAfter ctl = (encode ctl).length from rfl,
            List.take_left]
        · exact ⟨[], ctl, rfl, rfl⟩
        · show m.calls.length - 1 - k < m.calls.length; omega
        · show m.calls[m.calls.length - 1 - (m.calls.length - 1 - k)]? = some c
          rw [show m.calls.length - 1 - (m.calls.length - 1 - k) = k by omega]; exact hc
  unfold cmdNextM at e
  dsimp only at e
  split at e
  · exact go none e
  · exact go (some _) e
  · cases e

theorem finishNext_ok {p : List Instr} {m m' : Mach σ} {f : Frame} (h : Good p m) (hf : m.frames = [f])
    (e : finishNext f [] m = .ok m') :
    Good p m' ∧ (m'.calls = m.calls ∨ ∃ k c, m.calls[k]? = some c ∧ c.gosub = false ∧ m'.calls = m.calls.eraseIdx k) := by
  have hr := h.run
  rw [hf] at hr
  obtain ⟨r1, r2, r3, _, _, r4, c, r5, r6⟩ := hr
  unfold finishNext at e
  split at e
  · cases e
  dsimp only at e
  rw [r5] at e
  dsimp only at e
  obtain ⟨end', _, e⟩ := bind_inv e
  obtain ⟨step, _, e⟩ := bind_inv e
  have base : ∀ (k : Core σ), Good p { m with exec := f.saved, frames := [], core := k } :=
    fun k => ⟨h.calls, h.depth, h.labels, ⟨r1, r2, r3⟩⟩
  split at e
  · cases e
    exact ⟨base _, Or.inl rfl⟩
  · split at e
    · cases e
      refine ⟨⟨?_, ?_, h.labels, ⟨r1, r2, r3⟩⟩, Or.inr ⟨_, c, r5, r6, rfl⟩⟩
      · intro x hx; exact h.calls x (List.mem_of_mem_eraseIdx hx)
      · have := h.depth
        have h2 := List.length_eraseIdx_le m.calls (m.calls.length - 1 - f.pos)
        exact Nat.le_trans h2 this
    · cases e
      have hok := h.calls c (List.mem_of_getElem? r5)
      unfold CallOk at hok
      rw [if_neg (by rw [r6]; simp)] at hok
      obtain ⟨a, ctl, b, hp, ha, hplain, hs, hlt⟩ := hok
      refine ⟨⟨h.calls, h.depth, h.labels, ⟨r1, ?_, r3⟩⟩, Or.inl rfl⟩
      show Boundary p (c.addr % 16777216)
      rw [show c.addr % 16777216 = posAfter a by omega, hp]
      exact boundary_app _ _

/-! ## BEGIN_LOOP -/

theorem skipLoop_ok {p : List Instr} (hw : ∀ i ∈ p, i.WF) (cur : Ptr) : (fuel nest k : Nat) → (c : Core σ) → (r : Core σ × Option Nat) →
    Boundary p k → skipLoop (encode p) cur fuel nest k c = .ok r → ∀ j, r.2 = some j → Boundary p j
  | 0, _, _, _, _, _, h => by cases h
  | fuel + 1, 0, k, c, r, hk, h => by
    intro j hj
    simp only [skipLoop] at h
    cases h; cases hj; exact hk
  | fuel + 1, nest + 1, k, c, r, hk, h => by
    intro j hj
    simp only [skipLoop] at h
    obtain ⟨a, b, rfl, rfl⟩ := hk
    obtain ⟨pr, h1, h⟩ := bind_inv h
    have h2 : bcScan (encode (a ++ b)) (posAfter a) bcCommandFirst = .ok pr.2 := by unfold bcScan; rw [h1]; rfl
    cases hpr : pr.2 with
    | none => rw [hpr] at h; cases h; cases hj
    | some i =>
      rw [hpr] at h h2
      obtain ⟨x, y, z, rfl, hy, _, rfl⟩ := bcScan_some a b bcCommandFirst i (fun i hi => hw i (by simp [hi])) h2
      obtain ⟨d0, rfl⟩ := simpleOp bcCommandFirst cmdFirstOp y (hw y (by simp)) hy
      have hb : Boundary (a ++ (x ++ .simple bcCommandFirst d0 :: z)) (posAfter (a ++ x) + 2) := by
        refine ⟨a ++ x ++ [.simple bcCommandFirst d0], z, by simp, ?_⟩
        rw [posAfter_snoc]; rfl
      obtain ⟨d, _, h⟩ := bind_inv h
      by_cases hn : d = cmdNext
      · rw [if_pos hn] at h
        obtain ⟨kk, _, h⟩ := bind_inv h
        cases hk2 : kk.2 with
        | generic => rw [hk2] at h; exact skipLoop_ok hw cur fuel _ _ _ r hb h j hj
        | mine => rw [hk2] at h; cases h; cases hj; exact hb
        | otherVar => rw [hk2] at h; exact skipLoop_ok hw cur fuel _ _ _ r hb h j hj
      · rw [if_neg hn] at h
        split at h
        · exact skipLoop_ok hw cur fuel _ _ _ r hb h j hj
        · exact skipLoop_ok hw cur fuel _ _ _ r hb h j hj

theorem execBegin_ok {p : List Instr} {m m' : Mach σ} (h : Main p m) (hw : ∀ i ∈ p, i.WF) (hb : Boundary p m.exec.index)
    (e : execBegin m = .ok m') : Lands p m' ∧ m'.calls = m.calls := by
  unfold execBegin at e
  split at e
  · cases e; exact ⟨Lands.quiet h hb (fail_quiet _ _), rfl⟩
  · split at e
    · cases e; exact ⟨Lands.quiet h hb (fail_quiet _ _), rfl⟩
    · dsimp only at e
      obtain ⟨step, _, e⟩ := bind_inv e
      obtain ⟨end', _, e⟩ := bind_inv e
      split at e
      · obtain ⟨r, h1, e⟩ := bind_inv e
        rw [h.code] at h1
        cases hr : r.2 with
        | none => rw [hr] at e; cases e; exact ⟨Lands.quiet h hb (Quiet.core _ _), rfl⟩
        | some j =>
          rw [hr] at e; cases e
          exact ⟨Lands.move (h.quiet (Quiet.core m r.1)) (skipLoop_ok hw _ _ _ _ _ r hb h1 j hr), rfl⟩
      · cases e; exact ⟨Lands.quiet h hb (Quiet.core _ _), rfl⟩

/-! ## READ, RESTORE -/

theorem findData_ok {x y : Exec} (h : findData x = .ok y) : y.code = x.code ∧ y.index = x.index ∧ y.main = x.main := by
  unfold findData at h
  split at h
  · cases h
  · obtain ⟨r, _, h⟩ := bind_inv h
    cases h; exact ⟨rfl, rfl, rfl⟩

theorem Quiet.exec (m : Mach σ) (c : Core σ) (x : Exec) (h : x.code = m.exec.code ∧ x.index = m.exec.index ∧ x.main = m.exec.main) :
    Quiet m { m with core := c, exec := x } m.exec.index := ⟨h.1, h.2.1, h.2.2, rfl, rfl, rfl⟩

theorem Quiet.trans {a b c : Mach σ} {i j : Nat} (h1 : Quiet a b i) (h2 : Quiet b c j) : Quiet a c j :=
  ⟨h2.code.trans h1.code, h2.index, h2.main.trans h1.main, h2.calls.trans h1.calls, h2.frames.trans h1.frames, h2.labels.trans h1.labels⟩

theorem readVar_ok {m m' : Mach σ} {e : Entry} (h : readVar m e = .ok m') : Quiet m m' m.exec.index := by
  unfold readVar at h
  split at h
  · cases h
  · obtain ⟨size, _, h⟩ := bind_inv h
    split at h
    · cases h
    · dsimp only at h
      split at h
      · obtain ⟨r, _, h⟩ := bind_inv h
        cases r with
        | none => cases h; exact fail_quiet _ _
        | some nv =>
          dsimp only at h
          split at h
          · obtain ⟨x, h1, h⟩ := bind_inv h
            cases h
            have g := findData_ok h1
            exact Quiet.exec m _ x ⟨g.1, g.2.1, g.2.2⟩
          · cases h; exact Quiet.exec m _ _ ⟨rfl, rfl, rfl⟩
      · cases h; exact fail_quiet _ _

theorem readVars_ok : (es : List Entry) → (m m' : Mach σ) → readVars es m = .ok m' → Quiet m m' m.exec.index
  | [], m, m', h => by cases h; exact ⟨rfl, rfl, rfl, rfl, rfl, rfl⟩
  | e :: es, m, m', h => by
    simp only [readVars] at h
    obtain ⟨m1, h1, h⟩ := bind_inv h
    have q := readVar_ok h1
    split at h
    · cases h; exact q
    · have := readVars_ok es m1 m' h
      rw [q.index] at this
      exact q.trans this

theorem cmdRead_ok {m m' : Mach σ} (h : cmdReadM m = .ok m') : Quiet m m' m.exec.index := by
  unfold cmdReadM at h
  split at h
  · cases h; exact fail_quiet _ _
  · obtain ⟨b, _, h⟩ := bind_inv h
    split at h
    · exact readVars_ok _ _ _ h
    · obtain ⟨r, _, h⟩ := bind_inv h
      dsimp only at h
      cases r with
      | none => cases h; exact Quiet.exec m _ _ ⟨rfl, rfl, rfl⟩
      | some i =>
        dsimp only at h
        have q := Quiet.exec m m.core { m.exec with dataIndex := some i, dataOffset := 0 } ⟨rfl, rfl, rfl⟩
        exact q.trans (readVars_ok _ _ _ h)

theorem cmdRestore_ok {p : List Instr} {m m' : Mach σ} (hm : Main p m) (h : cmdRestoreM m = .ok m') : Quiet m m' m.exec.index := by
  unfold cmdRestoreM at h
  split at h
  · cases h
  · obtain ⟨t, _, h⟩ := bind_inv h
    obtain ⟨r, h1, h⟩ := bind_inv h
    obtain ⟨d, _, h⟩ := bind_inv h
    cases h
    have q := (searchLabel_ok hm h1).1
    exact ⟨q.code, q.index, q.main, q.calls, q.frames, q.labels⟩

/-! ## A step -/

/-- What a command does to the call stack. -/
inductive CmdEffect (m m' : Mach σ) (d : Nat) : Prop
  | same : m'.calls = m.calls → d ≠ cmdReturn ∨ (m.calls = [] ∧ m'.core.error = eReturnWithoutGosub) → CmdEffect m m' d
  | open (c : Call) : m'.calls = c :: m.calls → c.gosub = false → d = cmdFor → CmdEffect m m' d
  | call (c : Call) : d = cmdGosub → c.gosub = true → c.addr = m.exec.index → m'.calls = c :: m.calls → CmdEffect m m' d
  | ret (fors rest : List Call) (c : Call) : d = cmdReturn → m.calls = fors ++ c :: rest → (∀ x ∈ fors, x.gosub = false) →
      c.gosub = true → m'.calls = rest → m'.exec.index = c.addr → CmdEffect m m' d

theorem execCmd_ok {p : List Instr} {m m' : Mach σ} (h : Main p m) (hp : Compiled p) {a b : List Instr} {i : Instr} {d : Nat}
    (hi : isCmd d i) (hsplit : p = a ++ i :: b) (hidx : m.exec.index = posAfter (a ++ [i])) (e : execCmd env d m = .ok m') :
    Good p m' ∧ CmdEffect m m' d := by
  have hb : Boundary p m.exec.index := ⟨a ++ [i], b, by rw [hsplit]; simp, hidx⟩
  have lift : ∀ {x : Mach σ}, Lands p x → Good p x := fun l => l.main.good l.index
  have quiet : ∀ {x : Mach σ}, d ≠ cmdReturn → Quiet m x m.exec.index → Good p x ∧ CmdEffect m x d :=
    fun hd q => ⟨(h.good hb).quiet q, .same q.calls (Or.inl hd)⟩
  unfold execCmd at e
  by_cases h1 : d = cmdFor
  · rw [if_pos h1] at e
    have hr : d ≠ cmdReturn := by rw [h1]; decide
    obtain ⟨l, hc⟩ := cmdFor_ok h hp (h1 ▸ hi) hsplit hidx e
    rcases hc with hc | ⟨c, hc, hg⟩
    · exact ⟨lift l, .same hc (Or.inl hr)⟩
    · exact ⟨lift l, .open c hc hg h1⟩
  rw [if_neg h1] at e
  by_cases h2 : d = cmdTo ∨ d = cmdStep ∨ d = cmdOn ∨ d = cmdEndif
  · rw [if_pos h2] at e
    cases e
    exact quiet (by rcases h2 with h | h | h | h <;> rw [h] <;> decide) ⟨rfl, rfl, rfl, rfl, rfl, rfl⟩
  rw [if_neg h2] at e
  by_cases h3 : d = cmdNext
  · rw [if_pos h3] at e
    obtain ⟨g, hc⟩ := cmdNext_ok h hb e
    exact ⟨g, .same hc (Or.inl (by rw [h3]; decide))⟩
  rw [if_neg h3] at e
  by_cases h4 : d = cmdIf
  · rw [if_pos h4] at e
    obtain ⟨l, hc⟩ := cmdIf_ok h hp.wf hb e
    exact ⟨lift l, .same hc (Or.inl (by rw [h4]; decide))⟩
  rw [if_neg h4] at e
  by_cases h5 : d = cmdThen
  · rw [if_pos h5] at e
    cases e
    exact quiet (by rw [h5]; decide) (fail_quiet _ _)
  rw [if_neg h5] at e
  by_cases h6 : d = cmdElse
  · rw [if_pos h6] at e
    obtain ⟨l, hc⟩ := cmdElse_ok h hp.wf hb e
    exact ⟨lift l, .same hc (Or.inl (by rw [h6]; decide))⟩
  rw [if_neg h6] at e
  by_cases h7 : d = cmdGoto
  · rw [if_pos h7] at e
    obtain ⟨l, hc⟩ := cmdJump_ok h hb e
    rcases hc with hc | ⟨hc, _⟩
    · exact ⟨lift l, .same hc (Or.inl (by rw [h7]; decide))⟩
    · cases hc
  rw [if_neg h7] at e
  by_cases h8 : d = cmdGosub
  · rw [if_pos h8] at e
    obtain ⟨l, hc⟩ := cmdJump_ok h hb e
    rcases hc with hc | ⟨_, hc⟩
    · exact ⟨lift l, .same hc (Or.inl (by rw [h8]; decide))⟩
    · exact ⟨lift l, .call _ h8 rfl rfl hc⟩
  rw [if_neg h8] at e
  by_cases h9 : d = cmdReturn
  · rw [if_pos h9] at e
    obtain ⟨l, hc⟩ := cmdReturn_ok h hb e
    rcases hc with ⟨h0, hc, he⟩ | ⟨fors, rest, c, hc, hf, hg, h10, h11⟩
    · exact ⟨lift l, .same hc (Or.inr ⟨h0, he⟩)⟩
    · exact ⟨lift l, .ret fors rest c h9 hc hf hg h10 h11⟩
  rw [if_neg h9] at e
  by_cases h10 : d = cmdEnd
  · rw [if_pos h10] at e
    cases e
    exact ⟨lift (Lands.move h (by rw [h.code]; exact boundary_end p)), .same rfl (Or.inl h9)⟩
  rw [if_neg h10] at e
  by_cases h11 : d = cmdStop
  · rw [if_pos h11] at e
    cases e
    exact quiet h9 (fail_quiet _ _)
  rw [if_neg h11] at e
  by_cases h12 : d = cmdRead
  · rw [if_pos h12] at e
    exact quiet h9 (cmdRead_ok e)
  rw [if_neg h12] at e
  by_cases h13 : d = cmdRestore
  · rw [if_pos h13] at e
    exact quiet h9 (cmdRestore_ok h e)
  rw [if_neg h13] at e
  split at e
  · cases e
  · obtain ⟨c, _, e⟩ := bind_inv e
    cases e
    exact quiet h9 (Quiet.core _ _)

theorem clearArgc_quiet (op : Nat) (m : Mach σ) : Quiet m (clearArgc op m) m.exec.index := by
  unfold clearArgc
  split <;> exact ⟨rfl, rfl, rfl, rfl, rfl, rfl⟩

theorem atCmd_simple {m : Mach σ} {d op x : Nat} (h : AtCmd m d) (h0 : m.exec.code[m.exec.index]? = some op)
    (h1 : m.exec.code[m.exec.index + 1]? = some x) : (op = bcCommand ∨ op = bcCommandFirst) ∧ x = d := by
  obtain ⟨_, g0, g1⟩ := h
  rw [h0] at g0
  rw [h1] at g1
  cases g1
  exact ⟨by rcases g0 with g | g <;> cases g <;> simp, rfl⟩

/-- The state with the error code set aside. -/
theorem step_at {m : Mach σ} {a b : List Instr} {i : Instr} (hc : m.exec.code = encode (a ++ i :: b)) (hi : m.exec.index = posAfter a)
    (hn : m.ended = false) : At m a (i :: b) := by
  refine ⟨hc, hi, ?_⟩
  unfold Mach.ended at hn
  simp only [Bool.or_eq_false_iff, decide_eq_false_iff_not, not_not] at hn
  exact hn.2

theorem step_good {p : List Instr} {m m' : Mach σ} (hp : Compiled p) (h : Good p m) (e : step env m = .ok m') :
    Good p m' ∧ Effect m m' := by
  by_cases hend : m.ended = true
  · have nocmd : ∀ d, ¬ AtCmd m d := fun d hd => by have := hd.1; rw [hend] at this; cases this
    unfold step at e
    rw [if_pos hend] at e
    cases hf : m.frames with
    | nil => rw [hf] at e; cases e; exact ⟨h, .same rfl (Or.inl (nocmd _))⟩
    | cons f fs =>
      rw [hf] at e
      have hr := h.run
      rw [hf] at hr
      cases fs with
      | cons g gs => exact hr.elim
      | nil =>
        obtain ⟨g, hc⟩ := finishNext_ok h hf e
        rcases hc with hc | ⟨k, c, h1, h2, h3⟩
        · exact ⟨g, .same hc (Or.inl (nocmd _))⟩
        · exact ⟨g, .close k c h1 h2 h3 (nocmd _)⟩
  · have hend : m.ended = false := eq_false_of_ne_true hend
    have hidx : m.exec.index < m.exec.code.length := by
      unfold Mach.ended at hend
      simp only [Bool.or_eq_false_iff, decide_eq_false_iff_not] at hend
      omega
    -- an instruction of the current code
    have main : ∀ (s : List Instr), (∀ i ∈ s, i.WF) → m.exec.code = encode s → Boundary s m.exec.index →
        ∃ a i b, s = a ++ i :: b ∧ At m a (i :: b) := by
      intro s _ hcode hb
      obtain ⟨a, b, rfl, hi⟩ := hb
      cases b with
      | nil => rw [hcode, hi, List.append_nil] at hidx; exact absurd hidx (Nat.lt_irrefl _)
      | cons i b => exact ⟨a, i, b, rfl, step_at hcode hi hend⟩
    have quietStep : ∀ (s a b : List Instr) (i : Instr), i.WF → At m a (i :: b) → s = a ++ i :: b →
        i.op ≠ bcCommand → i.op ≠ bcCommandFirst → i.op ≠ bcBeginLoop →
        Quiet m m' (posAfter (a ++ [i])) ∧ ∀ d, ¬ AtCmd m d := by
      intro s a b i hw hat hs n1 n2 n3
      rw [hat.step] at e
      obtain ⟨x, e1, e⟩ := bind_inv e
      cases e
      have q := exec_quiet hw n1 n2 n3 e1
      constructor
      · have q0 : Quiet m (m.skip 2) (m.exec.index + 2) := ⟨rfl, rfl, rfl, rfl, rfl, rfl⟩
        have q2 := clearArgc_quiet i.op x
        rw [q.index] at q2
        have := (q0.trans q).trans q2
        rw [posAfter_snoc, ← hat.index]
        exact this
      · intro d hd
        have := (atCmd_simple hd hat.get0 hat.get1).1
        tauto
    cases hf : m.frames with
    | nil =>
      have hr := h.run
      rw [hf] at hr
      obtain ⟨r1, r2, r3⟩ := hr
      have hm : Main p m := ⟨h.calls, h.depth, h.labels, hf, r1, r3⟩
      obtain ⟨a, i, b, hs, hat⟩ := main p hp.wf r1 r2
      have hw : i.WF := hp.wf i (by rw [hs]; simp)
      by_cases hc : i.op = bcCommand ∨ i.op = bcCommandFirst
      · -- a command
        have hcmd : ∃ d, isCmd d i := by
          rcases hc with hc | hc
          · obtain ⟨d, rfl⟩ := simpleOp bcCommand cmdOp i hw hc; exact ⟨d, Or.inl rfl⟩
          · obtain ⟨d, rfl⟩ := simpleOp bcCommandFirst cmdFirstOp i hw hc; exact ⟨d, Or.inr rfl⟩
        obtain ⟨d, hd⟩ := hcmd
        have hm2 : Main p (m.skip 2) := ⟨h.calls, h.depth, h.labels, hf, r1, r3⟩
        have hidx2 : (m.skip 2).exec.index = posAfter (a ++ [i]) := by
          rw [posAfter_snoc]
          show m.exec.index + 2 = _
          rw [hat.index]
          rcases hd with rfl | rfl <;> rfl
        have harg : arg i = d := by rcases hd with rfl | rfl <;> rfl
        have hat' : ∀ d', AtCmd m d' → d' = d := by
          intro d' h'
          rw [← harg]
          exact ((atCmd_simple h' hat.get0 hat.get1).2).symm
        have hatd : AtCmd m d := ⟨hend, by rw [hat.get0]; rcases hc with hc | hc <;> rw [hc] <;> simp, by rw [hat.get1, harg]⟩
        rw [hat.step, harg] at e
        obtain ⟨x, e1, e⟩ := bind_inv e
        cases e
        have e2 : execInstr env i.op d (m.skip 2) = if d ≥ 110 then .ok ((m.skip 2).fail eCommandInvalid)
            else (execCmd env d (m.skip 2)).bind fun m' =>
              .ok (if keepsStack d then m' else { m' with core := { m'.core with stack := [] } }) := by
          rcases hc with hc | hc <;> rw [hc] <;> rfl
        rw [e2] at e1
        by_cases hd110 : d ≥ 110
        · rw [if_pos hd110] at e1
          cases e1
          have q := (fail_quiet (m.skip 2) eCommandInvalid).trans (clearArgc_quiet i.op _)
          refine ⟨(hm2.good ⟨a ++ [i], b, by rw [hs]; simp, hidx2⟩).quiet q, .same q.calls (Or.inl ?_)⟩
          intro hret
          have := hat' _ hret
          rw [← this] at hd110
          exact absurd hd110 (by decide)
        · rw [if_neg hd110] at e1
          obtain ⟨y, e3, e1⟩ := bind_inv e1
          obtain ⟨g, ce⟩ := execCmd_ok hm2 hp hd hs hidx2 e3
          cases e1
          have q1 : Quiet y (if keepsStack d then y else { y with core := { y.core with stack := [] } }) y.exec.index := by
            split
            · exact ⟨rfl, rfl, rfl, rfl, rfl, rfl⟩
            · exact Quiet.core _ _
          have qe : (clearArgc i.op (if keepsStack d then y else { y with core := { y.core with stack := [] } })).core.error = y.core.error := by
            unfold clearArgc
            split <;> split <;> rfl
          have q2 := clearArgc_quiet i.op (if keepsStack d then y else { y with core := { y.core with stack := [] } })
          rw [q1.index] at q2
          have q := q1.trans q2
          refine ⟨g.quiet q, ?_⟩
          cases ce with
          | same hc1 hc2 =>
            refine .same (q.calls.trans hc1) ?_
            rcases hc2 with hc2 | ⟨hc2, hc3⟩
            · exact Or.inl fun hr => hc2 (hat' _ hr).symm
            · exact Or.inr ⟨hc2, qe.trans hc3⟩
          | «open» c h1 h2 h3 =>
            refine .open c (q.calls.trans h1) h2 (fun hr => ?_) (fun hr => ?_)
            · have := hat' _ hr; rw [h3] at this; exact absurd this (by decide)
            · have := hat' _ hr; rw [h3] at this; exact absurd this (by decide)
          | call c h1 h2 h3 h4 => exact .call c (h1 ▸ hatd) h2 h3 (q.calls.trans h4)
          | ret fors rest c h1 h2 h3 h4 h5 h6 => exact .ret fors rest c (h1 ▸ hatd) h2 h3 h4 (q.calls.trans h5) (q.index.trans h6)
      · rw [not_or] at hc
        by_cases hbl : i.op = bcBeginLoop
        · -- BEGIN_LOOP
          obtain ⟨x, rfl⟩ := simpleOp bcBeginLoop beginOp i hw hbl
          have hm2 : Main p (m.skip 2) := ⟨h.calls, h.depth, h.labels, hf, r1, r3⟩
          have hidx2 : (m.skip 2).exec.index = posAfter (a ++ [.simple bcBeginLoop x]) := by
            rw [posAfter_snoc]
            show m.exec.index + 2 = _
            rw [hat.index]; rfl
          have nocmd : ¬ AtCmd m cmdReturn := by
            intro hr
            have := (atCmd_simple hr hat.get0 hat.get1).1
            exact absurd (show bcBeginLoop = bcCommand ∨ bcBeginLoop = bcCommandFirst from this) (by decide)
          rw [hat.step] at e
          obtain ⟨y, e1, e⟩ := bind_inv e
          cases e
          obtain ⟨l, hcl⟩ := execBegin_ok hm2 hp.wf ⟨_, b, by rw [hs]; simp, hidx2⟩ e1
          have q := clearArgc_quiet bcBeginLoop y
          exact ⟨(l.main.good l.index).quiet q, .same (q.calls.trans hcl) (Or.inl nocmd)⟩
        · obtain ⟨q, nc⟩ := quietStep p a b i hw hat hs hc.1 hc.2 hbl
          refine ⟨(hm.quiet q).good ?_, .same q.calls (Or.inl (nc _))⟩
          rw [q.index]
          exact ⟨a ++ [i], b, by rw [hs]; simp, rfl⟩
    | cons f fs =>
      have hr := h.run
      rw [hf] at hr
      cases fs with
      | cons g gs => exact hr.elim
      | nil =>
        obtain ⟨r1, r2, r3, ⟨a0, s, b0, hps, hplain, hcode, hbs⟩, r4, r5, r6⟩ := hr
        have hws : ∀ i ∈ s, i.WF := fun i hi => hp.wf i (by rw [hps]; simp [hi])
        obtain ⟨a, i, b, hs, hat⟩ := main s hws hcode hbs
        have hw : i.WF := hws i (by rw [hs]; simp)
        have hpl := hplain i (by rw [hs]; simp)
        have fin : Quiet m m' (posAfter (a ++ [i])) → ¬ AtCmd m cmdReturn → Good p m' ∧ Effect m m' := by
          intro q nc
          refine ⟨⟨q.calls ▸ h.calls, q.calls ▸ h.depth, q.labels ▸ h.labels, ?_⟩, .same q.calls (Or.inl nc)⟩
          rw [q.frames, hf]
          refine ⟨r1, r2, r3, ⟨a0, s, b0, hps, hplain, q.code.trans hcode, ?_⟩, q.main.trans r4, ?_, ?_⟩
          · rw [q.index]; exact ⟨a ++ [i], b, by rw [hs]; simp, rfl⟩
          · rw [q.calls]; exact r5
          · rw [q.calls]; exact r6
        by_cases hc : i.op = bcCommand
        · have hts : ∃ d, (d = cmdTo ∨ d = cmdStep) ∧ i = .simple bcCommand d := by
            rcases hpl.2.2 hc with rfl | rfl
            · exact ⟨_, Or.inl rfl, rfl⟩
            · exact ⟨_, Or.inr rfl, rfl⟩
          obtain ⟨d, hd, rfl⟩ := hts
          rw [hat.step] at e
          have e2 : execInstr env bcCommand d (m.skip 2) = .ok (m.skip 2) := by
            rcases hd with rfl | rfl <;> rfl
          change (execInstr env bcCommand d (m.skip 2)).bind _ = _ at e
          rw [e2] at e
          cases e
          refine fin ?_ ?_
          · have q0 : Quiet m (m.skip 2) (m.exec.index + 2) := ⟨rfl, rfl, rfl, rfl, rfl, rfl⟩
            have := q0.trans (clearArgc_quiet bcCommand (m.skip 2))
            rw [posAfter_snoc, ← hat.index]
            exact this
          · intro hr
            have := (atCmd_simple hr hat.get0 hat.get1).2
            change d = cmdReturn at this
            rcases hd with rfl | rfl <;> exact absurd this (by decide)
        · obtain ⟨q, nc⟩ := quietStep s a b i hw hat hs hc hpl.2.1 hpl.1
          exact fin q (nc _)

end Sbc.Machine
