import Verif.Proof.Control
set_option autoImplicit false
/-!
# Which instructions move the READ position
-/
namespace Sbc.Machine
open Sbc Sbc.Tok Sbc.Tok.Spec

variable {σ : Type} {env : Env σ}

/-- The READ position of the program: that of the interrupted run while the limit of a loop is evaluated. -/
def Mach.reading (m : Mach σ) : Option Nat × Nat :=
  match m.frames.getLast? with
  | some f => (f.saved.dataIndex, f.saved.dataOffset)
  | none => (m.exec.dataIndex, m.exec.dataOffset)

/-- The position is not moved. -/
structure Kept (m m' : Mach σ) : Prop where
  frames : m'.frames = m.frames
  index : m'.exec.dataIndex = m.exec.dataIndex
  ofs : m'.exec.dataOffset = m.exec.dataOffset

theorem Kept.reading {m m' : Mach σ} (h : Kept m m') : m'.reading = m.reading := by
  unfold Mach.reading
  rw [h.frames, h.index, h.ofs]

theorem Kept.rfl' (m : Mach σ) : Kept m m := ⟨rfl, rfl, rfl⟩

theorem onCore_kept {m m' : Mach σ} {n : Nat} {r : Out (Core σ)} (h : onCore (m.skip n) r = .ok m') : Kept m m' := by
  unfold onCore at h
  obtain ⟨c, _, h⟩ := bind_inv h
  cases h
  exact ⟨rfl, rfl, rfl⟩

theorem onCore_kept0 {m m' : Mach σ} {r : Out (Core σ)} (h : onCore m r = .ok m') : Kept m m' := by
  unfold onCore at h
  obtain ⟨c, _, h⟩ := bind_inv h
  cases h
  exact ⟨rfl, rfl, rfl⟩

theorem searchLabel_kept {m : Mach σ} {l : Bool} {s : List Nat} {r : Mach σ × Nat} (h : searchLabel m l s = .ok r) : Kept m r.1 := by
  unfold searchLabel at h
  split at h
  · cases h
  split at h
  · cases h
  split at h
  · cases h
  split at h <;> cases h <;> exact ⟨rfl, rfl, rfl⟩

theorem jump_kept {m m' : Mach σ} {push l : Bool} {s : List Nat} (h : jump push m l s = .ok m') : Kept m m' := by
  unfold jump at h
  obtain ⟨r, h1, h⟩ := bind_inv h
  have k := searchLabel_kept h1
  split at h
  · split at h <;> cases h <;> exact ⟨k.frames, k.index, k.ofs⟩
  · cases h; exact ⟨k.frames, k.index, k.ofs⟩

theorem cmdJump_kept {m m' : Mach σ} {push : Bool} (h : cmdJumpM push m = .ok m') : Kept m m' := by
  unfold cmdJumpM at h
  split at h
  · cases h
  · split at h
    · obtain ⟨v, _, h⟩ := bind_inv h
      dsimp only at h
      split at h
      · cases h; exact ⟨rfl, rfl, rfl⟩
      · split at h
        · cases h; exact ⟨rfl, rfl, rfl⟩
        · exact jump_kept h
        · cases h
    · obtain ⟨t, _, h⟩ := bind_inv h
      exact jump_kept h

theorem ifTarget_kept {m : Mach σ} {i : Nat} {r : Mach σ × Nat} (h : ifTarget m i = .ok r) : Kept m r.1 := by
  unfold ifTarget at h
  split at h
  · cases h; exact ⟨rfl, rfl, rfl⟩
  · split at h
    · obtain ⟨len, _, h⟩ := bind_inv h
      split at h
      · cases h; exact ⟨rfl, rfl, rfl⟩
      · exact searchLabel_kept h
    · cases h; exact ⟨rfl, rfl, rfl⟩

theorem cmdIf_kept {m m' : Mach σ} (h : cmdIfM m = .ok m') : Kept m m' := by
  unfold cmdIfM at h
  obtain ⟨v, _, h⟩ := bind_inv h
  split at h
  · obtain ⟨r, h1, h⟩ := bind_inv h
    have k := ifTarget_kept h1
    cases h; exact ⟨k.frames, k.index, k.ofs⟩
  · obtain ⟨r, _, h⟩ := bind_inv h
    cases r with
    | none => cases h; exact ⟨rfl, rfl, rfl⟩
    | some i =>
      obtain ⟨d, _, h⟩ := bind_inv h
      split at h
      · obtain ⟨r, h1, h⟩ := bind_inv h
        have k := ifTarget_kept h1
        cases h; exact ⟨k.frames, k.index, k.ofs⟩
      · cases h; exact ⟨rfl, rfl, rfl⟩

theorem cmdElse_kept {m m' : Mach σ} (h : cmdElseM m = .ok m') : Kept m m' := by
  unfold cmdElseM at h
  obtain ⟨r, _, h⟩ := bind_inv h
  cases r <;> cases h <;> exact ⟨rfl, rfl, rfl⟩

theorem cmdFor_kept {m m' : Mach σ} (h : cmdForM m = .ok m') : Kept m m' := by
  unfold cmdForM at h
  obtain ⟨r, _, h⟩ := bind_inv h
  cases r with
  | none => cases h; exact ⟨rfl, rfl, rfl⟩
  | some i =>
    dsimp only at h
    split at h
    · cases h; exact ⟨rfl, rfl, rfl⟩
    · obtain ⟨e, _, h⟩ := bind_inv h
      cases e with
      | none => cases h; exact ⟨rfl, rfl, rfl⟩
      | some e =>
        dsimp only at h
        split at h
        · cases h; exact ⟨rfl, rfl, rfl⟩
        · cases h

theorem cmdReturn_kept {m m' : Mach σ} (h : cmdReturnM m = .ok m') : Kept m m' := by
  unfold cmdReturnM at h
  split at h
  · cases h; exact ⟨rfl, rfl, rfl⟩
  · split at h
    · cases h
    · cases h; exact ⟨rfl, rfl, rfl⟩

theorem execBegin_kept {m m' : Mach σ} (h : execBegin m = .ok m') : Kept m m' := by
  unfold execBegin at h
  split at h
  · cases h; exact ⟨rfl, rfl, rfl⟩
  · split at h
    · cases h; exact ⟨rfl, rfl, rfl⟩
    · dsimp only at h
      obtain ⟨st, _, h⟩ := bind_inv h
      obtain ⟨en, _, h⟩ := bind_inv h
      split at h
      · obtain ⟨r, _, h⟩ := bind_inv h
        cases hr : r.2 with
        | none => rw [hr] at h; cases h; exact ⟨rfl, rfl, rfl⟩
        | some i => rw [hr] at h; cases h; exact ⟨rfl, rfl, rfl⟩
      · cases h; exact ⟨rfl, rfl, rfl⟩

theorem cmdNext_reading {m m' : Mach σ} (h : cmdNextM m = .ok m') : m'.reading = m.reading := by
  have go : ∀ v : Option Ptr, (match findFor v m.calls with
    | none => Out.ok (m.fail eNextWithoutFor)
    | some k =>
      match m.calls[k]? with
      | none => .ub
      | some c =>
        if c.addr % 16777216 + c.addr / 16777216 > m.exec.code.length then .ub
        else .ok { m with
          frames := ⟨{ m.exec with argc := 0 }, m.core.error, m.calls.length - 1 - k⟩ :: m.frames
          exec := ⟨(m.exec.code.drop (c.addr % 16777216)).take (c.addr / 16777216), 0, some 0, 0, m.exec.argc, false⟩
          core := { m.core with stack := [] } }) = .ok m' → m'.reading = m.reading := by
    intro v h
    split at h
    · cases h; exact Kept.reading ⟨rfl, rfl, rfl⟩
    · split at h
      · cases h
      · split at h
        · cases h
        · cases h
          unfold Mach.reading
          dsimp only
          cases hf : m.frames with
          | nil => rfl
          | cons f fs =>
            rw [List.getLast?_cons_cons]
            cases hg : (f :: fs).getLast? with
            | none => simp at hg
            | some g => rfl
  unfold cmdNextM at h
  dsimp only at h
  split at h
  · exact go _ h
  · exact go _ h
  · cases h

theorem finishNext_reading {m m' : Mach σ} {f : Frame} {fs : List Frame} (hf : m.frames = f :: fs) (h : finishNext f fs m = .ok m') :
    m'.reading = m.reading := by
  have key : ∀ x : Mach σ, x.frames = fs → x.exec.dataIndex = f.saved.dataIndex → x.exec.dataOffset = f.saved.dataOffset → x.reading = m.reading := by
    intro x h1 h2 h3
    unfold Mach.reading
    rw [h1, hf, h2, h3]
    cases fs with
    | nil => rfl
    | cons g gs =>
      rw [List.getLast?_cons_cons]
      cases hg : (g :: gs).getLast? with
      | none => simp at hg
      | some g => rfl
  unfold finishNext at h
  split at h
  · cases h
  · dsimp only at h
    split at h
    · cases h
    · obtain ⟨en, _, h⟩ := bind_inv h
      obtain ⟨st, _, h⟩ := bind_inv h
      split at h
      · cases h; exact key _ rfl rfl rfl
      · split at h
        · cases h; exact key _ rfl rfl rfl
        · cases h; exact key _ rfl rfl rfl

theorem execCmd_reading {m m' : Mach σ} {d : Nat} (n1 : d ≠ cmdRead) (n2 : d ≠ cmdRestore) (h : execCmd env d m = .ok m') :
    m'.reading = m.reading := by
  unfold execCmd at h
  by_cases e0 : d = cmdFor
  · rw [if_pos e0] at h; exact (cmdFor_kept h).reading
  rw [if_neg e0] at h
  by_cases e1 : d = cmdTo ∨ d = cmdStep ∨ d = cmdOn ∨ d = cmdEndif
  · rw [if_pos e1] at h; cases h; rfl
  rw [if_neg e1] at h
  by_cases e2 : d = cmdNext
  · rw [if_pos e2] at h; exact cmdNext_reading h
  rw [if_neg e2] at h
  by_cases e3 : d = cmdIf
  · rw [if_pos e3] at h; exact (cmdIf_kept h).reading
  rw [if_neg e3] at h
  by_cases e4 : d = cmdThen
  · rw [if_pos e4] at h; cases h; rfl
  rw [if_neg e4] at h
  by_cases e5 : d = cmdElse
  · rw [if_pos e5] at h; exact (cmdElse_kept h).reading
  rw [if_neg e5] at h
  by_cases e6 : d = cmdGoto
  · rw [if_pos e6] at h; exact (cmdJump_kept h).reading
  rw [if_neg e6] at h
  by_cases e7 : d = cmdGosub
  · rw [if_pos e7] at h; exact (cmdJump_kept h).reading
  rw [if_neg e7] at h
  by_cases e8 : d = cmdReturn
  · rw [if_pos e8] at h; exact (cmdReturn_kept h).reading
  rw [if_neg e8] at h
  by_cases e9 : d = cmdEnd
  · rw [if_pos e9] at h; cases h; exact Kept.reading ⟨rfl, rfl, rfl⟩
  rw [if_neg e9] at h
  by_cases e10 : d = cmdStop
  · rw [if_pos e10] at h; cases h; rfl
  rw [if_neg e10] at h
  rw [if_neg n1, if_neg n2] at h
  by_cases eo : outside d = true
  · rw [if_pos eo] at h; cases h
  rw [if_neg eo] at h
  obtain ⟨c, _, h⟩ := bind_inv h
  cases h; exact Kept.reading ⟨rfl, rfl, rfl⟩

theorem execInstr_reading {m m' : Mach σ} {op d : Nat} (hn : (op = bcCommand ∨ op = bcCommandFirst) → d ≠ cmdRead ∧ d ≠ cmdRestore)
    (h : execInstr env op d m = .ok m') : m'.reading = m.reading := by
  rw [execInstr_eq] at h
  by_cases e1 : op = bcSmallNumber
  · rw [if_pos e1] at h
    split at h
    · exact (onCore_kept0 h).reading
    · cases h; rfl
  rw [if_neg e1] at h
  by_cases e2 : op = bcString ∨ op = bcLabelString
  · rw [if_pos e2] at h
    split at h
    · cases h
    · exact (onCore_kept h).reading
  rw [if_neg e2] at h
  by_cases e3 : op = bcCommand ∨ op = bcCommandFirst
  · rw [if_pos e3] at h
    split at h
    · cases h; rfl
    · obtain ⟨x, h1, h⟩ := bind_inv h
      have := execCmd_reading (hn e3).1 (hn e3).2 h1
      rw [← this]
      cases h
      split <;> rfl
  rw [if_neg e3] at h
  by_cases e4 : op = bcOperator
  · rw [if_pos e4] at h; exact (onCore_kept0 h).reading
  rw [if_neg e4] at h
  by_cases e5 : op = bcFunction ∨ op = bcSysvar ∨ op = bcSysvarValidate
  · rw [if_pos e5] at h; exact (onCore_kept0 h).reading
  rw [if_neg e5] at h
  by_cases e6 : op = bcNumber
  · rw [if_pos e6] at h
    split at h
    · exact (onCore_kept h).reading
    · cases h
  rw [if_neg e6] at h
  by_cases e7 : op = bcVariableIdSmall
  · rw [if_pos e7] at h; exact (onCore_kept0 h).reading
  rw [if_neg e7] at h
  by_cases e8 : op = bcVariableId
  · rw [if_pos e8] at h
    split at h
    · exact (onCore_kept h).reading
    · cases h
  rw [if_neg e8] at h
  by_cases e9 : op = bcArrayName ∨ op = bcVariableName
  · rw [if_pos e9] at h
    obtain ⟨n, _, h⟩ := bind_inv h
    exact (onCore_kept h).reading
  rw [if_neg e9] at h
  by_cases e10 : op = bcDim
  · rw [if_pos e10] at h
    obtain ⟨n, _, h⟩ := bind_inv h
    exact (onCore_kept h).reading
  rw [if_neg e10] at h
  by_cases e11 : op = bcArgcount
  · rw [if_pos e11] at h; cases h; exact Kept.reading ⟨rfl, rfl, rfl⟩
  rw [if_neg e11] at h
  by_cases e12 : op = bcBeginLoop
  · rw [if_pos e12] at h; exact (execBegin_kept h).reading
  rw [if_neg e12] at h
  by_cases e13 : op = bcData ∨ op = bcLabel
  · rw [if_pos e13] at h; cases h; exact Kept.reading ⟨rfl, rfl, rfl⟩
  rw [if_neg e13] at h
  split at h <;> cases h <;> rfl

theorem step_reading {m m' : Mach σ} (n1 : ¬ AtCmd m cmdRead) (n2 : ¬ AtCmd m cmdRestore) (h : step env m = .ok m') :
    m'.reading = m.reading := by
  unfold step at h
  by_cases he : m.ended = true
  · rw [if_pos he] at h
    split at h
    · cases h; rfl
    · rename_i f fs hf
      exact finishNext_reading hf h
  · rw [if_neg he] at h
    split at h
    · rename_i op d h0 h1
      obtain ⟨x, h2, h⟩ := bind_inv h
      have := execInstr_reading (env := env) (m := m.skip 2) (op := op) (d := d) (by
        intro hop
        refine ⟨fun hd => n1 ⟨eq_false_of_ne_true he, ?_, by rw [h1, hd]⟩, fun hd => n2 ⟨eq_false_of_ne_true he, ?_, by rw [h1, hd]⟩⟩
        · rw [h0]; rcases hop with rfl | rfl <;> simp
        · rw [h0]; rcases hop with rfl | rfl <;> simp) h2
      have h3 : (m.skip 2).reading = m.reading := Kept.reading ⟨rfl, rfl, rfl⟩
      rw [← h3, ← this]
      cases h
      unfold clearArgc
      split
      · rfl
      · exact Kept.reading ⟨rfl, rfl, rfl⟩
    · cases h

end Sbc.Machine
