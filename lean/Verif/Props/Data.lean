import Verif.Proof.Data
import Verif.Proof.DataPos
import Verif.Spec.Sample
set_option autoImplicit false
/-!
# C37 READ returns the DATA items in order
-/
namespace Sbc.Machine
open Sbc Sbc.Tok Sbc.Tok.Spec

variable {σ : Type} {env : Env σ}

/-! ## Compiling a DATA line -/

theorem dataLoop_blanks (k : Nat) (r : List Nat) : dataLoop .none (List.replicate k 32 ++ r) = dataLoop .none r := by
  induction k with
  | zero => rfl
  | succ k ih => rw [List.replicate_succ, List.cons_append]; exact ih

theorem dataLoop_wait (k : Nat) (d : Nat) (r : List Nat) (hd : d = 44 ∨ d = 13) :
    dataLoop .waitNext (List.replicate k 32 ++ d :: r) = 0 :: dataLoop .none r := by
  induction k with
  | zero => rcases hd with rfl | rfl <;> rfl
  | succ k ih => rw [List.replicate_succ, List.cons_append]; exact ih

theorem dataLoop_word (w r : List Nat) (hw : ∀ x ∈ w, x ≠ 32 ∧ x ≠ 44 ∧ x ≠ 13) : dataLoop .string (w ++ r) = w ++ dataLoop .string r := by
  induction w with
  | nil => rfl
  | cons c w ih =>
    obtain ⟨h1, h2, h3⟩ := hw c (by simp)
    have : dataStep .string c = (.string, some c) := by
      simp [dataStep, h1, h2, h3]
    rw [List.cons_append, dataLoop, this]
    dsimp only
    rw [ih (fun x hx => hw x (by simp [hx])), List.cons_append]

theorem dataLoop_quoted (w r : List Nat) (hw : ∀ x ∈ w, x ≠ 34 ∧ x ≠ 13) : dataLoop .quoted (w ++ 34 :: r) = w ++ dataLoop .none r := by
  induction w with
  | nil => rfl
  | cons c w ih =>
    obtain ⟨h1, h2⟩ := hw c (by simp)
    have : dataStep .quoted c = (.quoted, some c) := by
      simp [dataStep, h1, h2]
    rw [List.cons_append, dataLoop, this]
    dsimp only
    rw [ih (fun x hx => hw x (by simp [hx])), List.cons_append]

theorem dataLoop_item {w it : List Nat} (j k d : Nat) (r : List Nat) (hw : Written w it) (hd : d = 44 ∨ d = 13) :
    dataLoop .none (List.replicate j 32 ++ w ++ List.replicate k 32 ++ d :: r) = it ++ 0 :: dataLoop .none r := by
  rw [List.append_assoc, List.append_assoc, dataLoop_blanks]
  cases hw with
  | @word c w hc hw =>
    obtain ⟨h1, h2, h3⟩ := hw c (by simp)
    have : dataStep .none c = (.string, some c) := by
      simp [dataStep, hc, h1, h2, h3]
    rw [List.cons_append, dataLoop, this]
    dsimp only
    rw [dataLoop_word w _ (fun x hx => hw x (by simp [hx])), List.cons_append]
    refine congrArg _ (congrArg _ ?_)
    cases k with
    | zero => rcases hd with rfl | rfl <;> rfl
    | succ k => rw [List.replicate_succ, List.cons_append]; exact dataLoop_wait k d r hd
  | @quoted w hw =>
    rw [show 34 :: it ++ [34] ++ (List.replicate k 32 ++ d :: r) = 34 :: (it ++ 34 :: (List.replicate k 32 ++ d :: r)) by simp]
    have : dataLoop .none (34 :: (it ++ 34 :: (List.replicate k 32 ++ d :: r))) = dataLoop .quoted (it ++ 34 :: (List.replicate k 32 ++ d :: r)) := rfl
    rw [this, dataLoop_quoted it _ hw, dataLoop_blanks]
    rcases hd with rfl | rfl <;> rfl
  | empty =>
    rw [List.nil_append, List.nil_append, dataLoop_blanks]
    rcases hd with rfl | rfl <;> rfl

/-- A DATA line is compiled to one instruction holding its items. -/
theorem C37_line {l : List Nat} {its : List (List Nat)} (h : Line l its) : dataLoop .none (l ++ [13]) = block its := by
  induction h with
  | last hw =>
    rw [dataLoop_item _ _ 13 [] hw (Or.inr rfl)]
    simp [block, dataLoop]
  | more hw _ ih =>
    rw [List.append_assoc, List.cons_append, dataLoop_item _ _ 44 _ hw (Or.inl rfl), ih, block_cons]

/-- The instruction emitted, if its text fits the length byte. -/
theorem C37_compile {l : List Nat} {its : List (List Nat)} (p : List Instr) (h : Line l its) (hlen : (block its).length ≤ 255) :
    tokData (encode p) (l ++ [13]) = encode (p ++ [.text bcData (block its)]) := by
  unfold tokData
  dsimp only
  rw [C37_line h, padEven_text _ _ _ (encode_even p), Nat.mod_eq_of_lt (by omega), encode_append]
  simp [encode, Instr.bytes]

/-! ## READ -/

/-- READ stores the next items in its variables, in order, and goes on; the items after them are left. -/
theorem C37_read {m : Mach σ} {a b : List Instr} {j : Instr} (hj : isCmd cmdRead j) (h : At m a (j :: b)) (hw : ∀ i ∈ a ++ j :: b, i.WF)
    {es : List Entry} {now rest : List (List Nat)} (hs : m.core.stack = es) (hne : now ++ rest ≠ []) (hl : Left (a ++ j :: b) m.exec (now ++ rest))
    {c' : Core σ} (ha : Assigned es now m.core c') :
    ∃ m', step env m = .ok m' ∧ m'.core = { c' with stack := [] } ∧ m'.core.error = 0 ∧ m'.exec.index = posAfter (a ++ [j]) ∧
      m'.exec.code = m.exec.code ∧ m'.calls = m.calls ∧ m'.frames = m.frames ∧ Left (a ++ j :: b) m'.exec rest := by
  have hl' : Left (a ++ j :: b) (m.skip 2).exec (now ++ rest) := hl.congr rfl rfl
  have h1 := read_start (m := m.skip 2) hw h.code hl'
  rw [if_neg hne] at h1
  obtain ⟨x, h1, hc, hx1, hx2, hx3, hx4⟩ := h1
  obtain ⟨y, g1, g2, g3, g4, g5, g6, g7⟩ := readVars_items rest { m.skip 2 with exec := x } ha rfl h.error hc
  rw [step_read hj h, h1]
  have hstack : (m.skip 2).core.stack = es := hs
  rw [hstack, g1]
  refine ⟨_, rfl, rfl, g7, ?_, ?_, rfl, rfl, ?_⟩
  · show y.index = _
    rw [g3, hx2, posAfter_snoc]
    show m.exec.index + 2 = _
    rw [h.index]
    rcases hj with rfl | rfl <;> rfl
  · show y.code = _
    rw [g2]; exact hx1
  · exact g6.left.congr rfl rfl

/-- With no items left, READ reports Out of data. -/
theorem C37_out_of_data {m : Mach σ} {a b : List Instr} {j : Instr} (hj : isCmd cmdRead j) (h : At m a (j :: b)) (hw : ∀ i ∈ a ++ j :: b, i.WF)
    (hl : Left (a ++ j :: b) m.exec []) : ∃ m', step env m = .ok m' ∧ m'.core.error = eOutOfData ∧ m'.core.mem = m.core.mem ∧
      m'.core.smem = m.core.smem ∧ m'.exec.dataIndex = none := by
  have hl' : Left (a ++ j :: b) (m.skip 2).exec [] := hl.congr rfl rfl
  have h1 := read_start (m := m.skip 2) hw h.code hl'
  rw [if_pos rfl] at h1
  obtain ⟨x, h1, hx1, hx2, hx3⟩ := h1
  rw [step_read hj h, h1]
  exact ⟨_, rfl, rfl, rfl, rfl, hx2⟩

/-- An item that does not fit the variable reports Read failure; the variables before it have been stored. -/
theorem C37_failure {m : Mach σ} {a b : List Instr} {j : Instr} (hj : isCmd cmdRead j) (h : At m a (j :: b)) (hw : ∀ i ∈ a ++ j :: b, i.WF)
    {es fs : List Entry} {now rest : List (List Nat)} {it : List Nat} {s : Bool} {q : Ptr} (hs : m.core.stack = es ++ .var s false q :: fs)
    (hl : Left (a ++ j :: b) m.exec (now ++ it :: rest)) {c' : Core σ} (ha : Assigned es now m.core c') (hbad : Illegal s it) :
    ∃ m', step env m = .ok m' ∧ m'.core.error = eReadFailure ∧ m'.core.mem = c'.mem ∧ m'.core.smem = c'.smem := by
  have hne : now ++ it :: rest ≠ [] := by simp
  have hl' : Left (a ++ j :: b) (m.skip 2).exec (now ++ it :: rest) := hl.congr rfl rfl
  have h1 := read_start (m := m.skip 2) hw h.code hl'
  rw [if_neg hne] at h1
  obtain ⟨x, h1, hc, hx1, hx2, hx3, hx4⟩ := h1
  obtain ⟨y, g1, g2, g3, g4, g5, g6, g7⟩ := readVars_items (it :: rest) { m.skip 2 with exec := x } ha rfl h.error hc
  obtain ⟨a', r, done, cur, rest', hin, hne', hz, hi, he⟩ := g6.inside (by simp)
  cases cur with
  | nil => exact absurd rfl hne'
  | cons z cur =>
    rw [List.cons_append, List.cons.injEq] at he
    obtain ⟨rfl, _⟩ := he
    have hv := readVar_illegal (q := q) (m := { m.skip 2 with core := c', exec := y }) hin (hz it (by simp)) hbad
    rw [step_read hj h, h1]
    have hstack : (m.skip 2).core.stack = es ++ .var s false q :: fs := hs
    rw [hstack, readVars_append es _ _ _ g1 g7, readVars, hv]
    exact ⟨_, rfl, rfl, rfl, rfl⟩

/-- READ with more variables than items are left is not reported: the code at position -1 is read. -/
theorem C37_overrun_violated {m : Mach σ} {a b : List Instr} {j : Instr} (hj : isCmd cmdRead j) (h : At m a (j :: b)) (hw : ∀ i ∈ a ++ j :: b, i.WF)
    {es fs : List Entry} {now : List (List Nat)} {e : Entry} (hs : m.core.stack = es ++ e :: fs) (hne : now ≠ [])
    (hl : Left (a ++ j :: b) m.exec now) {c' : Core σ} (ha : Assigned es now m.core c') : step env m = .ub := by
  have hl' : Left (a ++ j :: b) (m.skip 2).exec now := hl.congr rfl rfl
  have h1 := read_start (m := m.skip 2) hw h.code hl'
  rw [if_neg hne] at h1
  obtain ⟨x, h1, hc, hx1, hx2, hx3, hx4⟩ := h1
  rw [← List.append_nil now] at hc
  obtain ⟨y, g1, g2, g3, g4, g5, g6, g7⟩ := readVars_items [] { m.skip 2 with exec := x } ha rfl h.error hc
  have hstack : (m.skip 2).core.stack = es ++ e :: fs := hs
  have hv : readVar { m.skip 2 with core := c', exec := y } e = .ub := by
    unfold readVar
    rw [g6.done rfl]
  rw [step_read hj h, h1, hstack, readVars_append es _ _ _ g1 g7, readVars, hv]
  rfl

/-! ## RESTORE -/

/-- RESTORE: the items left are those after the label. -/
theorem C37_restore {m : Mach σ} {a b : List Instr} {j : Instr} (hj : isCmd cmdRestore j) (h : At m a (j :: b)) (hw : ∀ i ∈ a ++ j :: b, i.WF)
    {x y : List Instr} {its : List (List Nat)} (hp : a ++ j :: b = x ++ y) {s : List Nat} (hs : m.core.stack = [.str true s]) (hlen : s.length ≤ 16)
    (hm : m.exec.main = true) (hl : Labels.labelIndex m.labels s = some (posAfter x)) (hi : Items y its) :
    ∃ m', step env m = .ok m' ∧ m'.core = { m.core with stack := [] } ∧ m'.exec.index = posAfter (a ++ [j]) ∧ m'.calls = m.calls ∧
      m'.frames = m.frames ∧ Left (a ++ j :: b) m'.exec its := by
  obtain ⟨d, h1, h2, _⟩ := scan_left (p := a ++ j :: b) (a := x) (r := y) (m.skip 2).exec hw hp h.code hi
  have hsl : searchLabel (m.skip 2) true s = .ok (m.skip 2, posAfter x) := by
    unfold searchLabel
    rw [show (m.skip 2).exec.main = true from hm, show (m.skip 2).labels = m.labels from rfl]
    simp only [Bool.not_true, Bool.false_eq_true, if_false, Bool.true_and, decide_eq_true_eq, if_true, Bool.false_and]
    rw [if_neg (by omega), hl]
  have hx : cmdRestoreM (m.skip 2) = .ok { m.skip 2 with exec := { (m.skip 2).exec with dataIndex := d, dataOffset := 0 } } := by
    unfold cmdRestoreM
    rw [show (m.skip 2).core = m.core from rfl, hs]
    simp only [List.getElem?_cons_zero, Core.text, Out.bind]
    rw [hsl]
    show (bcScan m.exec.code (posAfter x) bcData).bind _ = _
    rw [show m.exec.code = (m.skip 2).exec.code from rfl, h1]
    rfl
  rw [step_restore hj h, hx]
  refine ⟨_, rfl, rfl, ?_, rfl, rfl, ?_⟩
  · show m.exec.index + 2 = _
    rw [posAfter_snoc, h.index]
    rcases hj with rfl | rfl <;> rfl
  · exact h2.congr rfl rfl

/-- RESTORE to a label that does not exist is reported. -/
theorem C37_restore_missing {m : Mach σ} {a b : List Instr} {j : Instr} (hj : isCmd cmdRestore j) (h : At m a (j :: b))
    {s : List Nat} (hs : m.core.stack = [.str true s]) (hlen : s.length ≤ 16) (hm : m.exec.main = true) (hl : Labels.labelIndex m.labels s = none) :
    ∃ m', step env m = .ok m' ∧ m'.core.error = eLabelNotFound := by
  have hsc : bcScan m.exec.code m.exec.code.length bcData = .ok none := by
    have := bcScan_eq (a ++ j :: b) [] bcData (by simp)
    rw [List.append_nil] at this
    rw [h.code]
    exact this
  have hsl : searchLabel (m.skip 2) true s = .ok ((m.skip 2).fail eLabelNotFound, (m.skip 2).exec.code.length) := by
    unfold searchLabel
    rw [show (m.skip 2).exec.main = true from hm, show (m.skip 2).labels = m.labels from rfl]
    simp only [Bool.not_true, Bool.false_eq_true, if_false, Bool.true_and, decide_eq_true_eq, if_true, Bool.false_and]
    rw [if_neg (by omega), hl]
  have hx : cmdRestoreM (m.skip 2) = .ok { (m.skip 2).fail eLabelNotFound with exec := { (m.skip 2).exec with dataIndex := none, dataOffset := 0 } } := by
    unfold cmdRestoreM
    rw [show (m.skip 2).core = m.core from rfl, hs]
    simp only [List.getElem?_cons_zero, Core.text, Out.bind]
    rw [hsl]
    show (bcScan m.exec.code m.exec.code.length bcData).bind _ = _
    rw [hsc]
    rfl
  rw [step_restore hj h, hx]
  exact ⟨_, rfl, rfl⟩

/-! ## From one READ to the next -/

/-- A program starts with all its items left. -/
theorem C37_start {p : List Instr} {its : List (List Nat)} (hne : p ≠ []) (h : Items p its) (t : Labels.Table) (c : Core σ) :
    Left p (start (encode p) t c).exec its := by
  cases h with
  | nil => exact absurd rfl hne
  | data h1 h2 h3 => exact .within (a := []) (done := []) rfl h1 h2 rfl rfl h3
  | other h1 h2 => exact .from (a := []) rfl h1 rfl h2

/-- Whatever is executed between one READ or RESTORE and the next, including loops, subroutines and jumps, the items
left stay the same. -/
theorem C37_between {p : List Instr} {its : List (List Nat)} : (n : Nat) → (m m' : Mach σ) → steps env n m = .ok m' →
    (∀ k < n, ∀ x, steps env k m = .ok x → ¬ AtCmd x cmdRead ∧ ¬ AtCmd x cmdRestore) → m.frames = [] → m'.frames = [] →
    Left p m.exec its → Left p m'.exec its := by
  have hr : (n : Nat) → (m m' : Mach σ) → steps env n m = .ok m' →
      (∀ k < n, ∀ x, steps env k m = .ok x → ¬ AtCmd x cmdRead ∧ ¬ AtCmd x cmdRestore) → m'.reading = m.reading := by
    intro n
    induction n with
    | zero => intro m m' h _; cases h; rfl
    | succ n ih =>
      intro m m' h hk
      rw [steps] at h
      obtain ⟨x, h1, h⟩ := bind_inv h
      have h0 := hk 0 (by omega) m rfl
      rw [ih x m' h (fun k hk' y hy => hk (k + 1) (by omega) y (by rw [steps, h1]; exact hy)), step_reading h0.1 h0.2 h1]
  intro n m m' h hk hf hf' hl
  have := hr n m m' h hk
  unfold Mach.reading at this
  rw [hf, hf'] at this
  simp only [List.getLast?_nil, Prod.mk.injEq] at this
  exact hl.congr this.1 this.2

/-! ## Violations and an example -/

/-- A number of 17 digits is split: the 17th digit is read as the next item. -/
theorem C37_long_number_violated :
    (readOne (List.replicate 16 48 ++ [49, 0]) false) = .ok (some (16, .num 0)) ∧ readOne [49, 0] false = .ok (some (1, .num 4096)) := by
  decide +kernel

/-- A number in quotation marks with a leading blank is read as 0. -/
theorem C37_quoted_blank_violated : dataLoop .none [34, 32, 55, 34, 13] = block [[32, 55]] ∧ readOne [32, 55, 0] false = .ok (some (2, .num 0)) := by
  decide +kernel

namespace Sample

/-- `READ A,B$` / `DATA 12,"X Y"`, with `A` and `B$` as variables 1 and 2. -/
def readTwo : List Instr :=
  [.simple bcVariableIdSmall 1, .simple bcVariableIdSmall 2, c cmdRead, .text bcData (block [[49, 50], [88, 32, 89]])]

theorem readTwo_items : Items readTwo [[49, 50], [88, 32, 89]] :=
  .other (by decide) (.other (by decide) (.other (by decide) (.data (rest := []) (by decide) (by decide) .nil)))

theorem readTwo_line : Line [32, 49, 50, 44, 34, 88, 32, 89, 34] [[49, 50], [88, 32, 89]] :=
  .more (j := 1) (k := 0) (w := [49, 50]) (.word (by decide) (by decide)) (.last (j := 0) (k := 0) (.quoted (w := [88, 32, 89]) (by decide)))

/-- All hypotheses of `C37_read` are met; afterwards `A` is 12, `B$` is `X Y`, and nothing is left. -/
theorem readTwo_runs (core : Core Unit) (hs : core.stack = [.var false false (.slot 1), .var true false (.slot 2)]) (he : core.error = 0) :
    ∃ m', step Sample.env { boot readTwo none' with core := core, exec := { (boot readTwo none').exec with index := 4 } } = .ok m' ∧
      m'.core.error = 0 ∧ m'.core.mem (.slot 1) = 12 * 4096 ∧ m'.core.smem (.slot 2) = [88, 32, 89] ∧ Left readTwo m'.exec [] := by
  obtain ⟨m', h1, h2, h3, _, _, _, _, h4⟩ := C37_read (env := Sample.env)
    (m := { boot readTwo none' with core := core, exec := { (boot readTwo none').exec with index := 4 } })
    (a := [.simple bcVariableIdSmall 1, .simple bcVariableIdSmall 2]) (b := [.text bcData (block [[49, 50], [88, 32, 89]])]) (j := c cmdRead) (Or.inr rfl)
    ⟨rfl, rfl, he⟩ (by
      intro i hi
      simp only [List.cons_append, List.nil_append, List.mem_cons, List.not_mem_nil, or_false] at hi
      rcases hi with rfl | rfl | rfl | rfl
      · unfold Instr.WF; decide +kernel
      · unfold Instr.WF; decide +kernel
      · exact simple_WF _ _ (by decide)
      · exact ⟨rfl, by decide⟩) (now := [[49, 50], [88, 32, 89]]) (rest := []) hs (by decide)
    (C37_start (by decide) readTwo_items none' Sample.core |>.congr rfl rfl)
    (.cons (.num (by decide) (by unfold NumChar; decide) (by decide +kernel) (by decide +kernel)) (.cons (.str (by decide)) .nil))
  refine ⟨m', h1, h3, ?_, ?_, h4⟩
  · rw [h2]
    show Num.Spec.value [49, 50] = 12 * 4096
    decide +kernel
  · rw [h2]; rfl

end Sample
end Sbc.Machine
