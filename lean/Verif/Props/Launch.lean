import Verif.Spec.Launch
set_option autoImplicit false
/-!
# C102, C103, C104: the prompt, SELECT, closing the window
-/
namespace Sbc.Launch
open Sbc Sbc.Tok

/-! ### C102: lines are executed once -/

theorem typed_append (a b : List Act) : typed (a ++ b) = typed a ++ typed b := by
  induction a with
  | nil => rfl
  | cons x a ih => cases x <;> simp [typed, ih]

theorem steps_append (a b : List Act) (s : St) : steps s (a ++ b) = (steps s a).bind fun s' => steps s' b := by
  induction a generalizing s with
  | nil => rfl
  | cons x a ih =>
    show (step s x).bind (fun s' => steps s' (a ++ b)) = ((step s x).bind fun s' => steps s' a).bind _
    cases step s x with
    | none => rfl
    | some s1 => exact ih s1

/-- What is left to execute. -/
def Left (s : St) (r : List (List Nat)) : Prop :=
  match s.pc with
  | .waiting => r = [] ∧ s.mode = .prompt ∧ (s.error = 0 ∨ s.error = errShutdown)
  | .got => s.mode = .prompt ∧ ((r = ordinary [s.code] ∧ s.code.length ≤ lineRoom) ∨ (r = [] ∧ s.error = errShutdown))
  | .signal | .shut => s.mode = .prompt ∧ special s.code = false ∧ ((r = [s.code] ∧ s.code.length ≤ lineRoom) ∨ (r = [] ∧ s.error = errShutdown))
  | .begin => (s.mode = .prompt → r = [s.code] ∧ s.code.length ≤ lineRoom) ∧ (s.mode ≠ .prompt → r = [])
  | .display | .after => r = [] ∨ (s.error = errShutdown ∧ r.length ≤ 1)
  | .stopped => r.length ≤ 1
  | .overflow => False
  | _ => r = []

/-- Part of the invariant: EDIT is never entered. -/
def NoEdit (s : St) : Prop := s.mode ≠ .edit ∧ s.error ≠ errButton ∧ (s.mode = .debug → s.pc ∈ [Pc.display, .after, .wipe, .stopped, .top, .clear])

theorem noEdit_step (s s' : St) (a : Act) (h : NoEdit s) (hs : step s a = some s') : NoEdit s' := by
  obtain ⟨pc, error, running, mode, code, sig, executed, shown⟩ := s
  obtain ⟨h1, h2, h3⟩ := h
  dsimp only at h1 h2 h3
  cases a with
  | instr w c =>
    simp only [step] at hs
    split at hs
    · rename_i h4
      obtain ⟨h4, h5, _⟩ := h4
      cases hs
      subst h4
      refine ⟨h1, ?_, fun h => absurd (h3 h) (by decide)⟩
      cases w with
      | none => exact h2
      | some e => exact fun h => h5 (congrArg some h)
    · cases hs
  | _ =>
    cases pc <;> cases mode <;> simp only [step] at hs <;>
      (try split at hs) <;> (try split at hs) <;> (try split at hs) <;>
      first
        | (exfalso; simp_all; done)
        | (cases hs; simp_all [NoEdit, errBreak, errShutdown, errButton, errLoad, Mode.back, Mode.entry])

theorem left_step (s s' : St) (a : Act) (r : List (List Nat)) (hn : NoEdit s) (h : Left s r) (ha : a ≠ .select) (hs : step s a = some s') :
    ∃ r' : List (List Nat), s.executed ++ (r ++ ordinary (typed [a])) = s'.executed ++ r' ∧ Left s' r' := by
  obtain ⟨pc, error, running, mode, code, sig, executed, shown⟩ := s
  obtain ⟨h1, h2, h3⟩ := hn
  dsimp only at h1 h2 h3
  cases a with
  | select => exact absurd rfl ha
  | close =>
    cases hs
    refine ⟨r, by simp [typed, ordinary], ?_⟩
    cases pc with
    | waiting => exact ⟨h.1, h.2.1, .inr rfl⟩
    | got =>
      rcases h with ⟨h, h' | h'⟩
      · exact ⟨h, .inl h'⟩
      · exact ⟨h, .inr ⟨h'.1, rfl⟩⟩
    | signal =>
      rcases h with ⟨h, hs, h' | h'⟩
      · exact ⟨h, hs, .inl h'⟩
      · exact ⟨h, hs, .inr ⟨h'.1, rfl⟩⟩
    | shut =>
      rcases h with ⟨h, hs, h' | h'⟩
      · exact ⟨h, hs, .inl h'⟩
      · exact ⟨h, hs, .inr ⟨h'.1, rfl⟩⟩
    | display =>
      rcases h with h | h
      · exact .inl h
      · exact .inr ⟨rfl, h.2⟩
    | after =>
      rcases h with h | h
      · exact .inl h
      · exact .inr ⟨rfl, h.2⟩
    | _ => exact h
  | line l =>
    simp only [step] at hs
    split at hs
    · rename_i h4
      obtain ⟨h4, h5, h6⟩ := h4
      cases hs
      subst h4
      obtain ⟨h7, h8, _⟩ := h
      subst h7
      exact ⟨ordinary [l], by simp [typed], h8, .inl ⟨rfl, h6⟩⟩
    · cases hs
  | compiled e =>
    simp only [step] at hs
    split at hs
    · rename_i h4
      obtain ⟨h4, _⟩ := h4
      cases hs
      subst h4
      exact ⟨r, by simp [typed, ordinary], h⟩
    · cases hs
  | instr w c =>
    simp only [step] at hs
    split at hs
    · rename_i h4
      obtain ⟨h4, _⟩ := h4
      cases hs
      subst h4
      exact ⟨r, by simp [typed, ordinary], h⟩
    · cases hs
  | finish =>
    simp only [step] at hs
    split at hs
    · rename_i h4
      obtain ⟨h4, _⟩ := h4
      cases hs
      subst h4
      refine ⟨r, by simp [typed, ordinary], ?_⟩
      exact .inl h
    · cases hs
  | loaded ok =>
    simp only [step] at hs
    split at hs
    · rename_i h4
      cases hs
      subst h4
      refine ⟨r, by cases ok <;> simp [typed, ordinary], ?_⟩
      cases ok <;> exact .inl h
    · cases hs
  | go =>
    have e0 : ordinary (typed [Act.go]) = [] := rfl
    rw [e0, List.append_nil]
    cases pc with
    | top => cases hs; exact ⟨r, rfl, h⟩
    | clear =>
      cases hs
      have h : r = [] := h
      subst h
      refine ⟨[], rfl, ?_⟩
      cases mode with
      | prompt => exact ⟨rfl, rfl, .inl rfl⟩
      | edit => exact absurd rfl h1
      | run => exact ⟨fun h => Mode.noConfusion h, fun _ => rfl⟩
      | autoload => exact rfl
      | debug => exact .inl rfl
    | waiting =>
      simp only [step] at hs
      split at hs
      · rename_i he
        cases hs
        obtain ⟨h, hm, h'⟩ := h
        refine ⟨r, rfl, hm, .inr ⟨h, ?_⟩⟩
        rcases h' with h' | h'
        · exact absurd h' he
        · exact h'
      · cases hs
    | got =>
      simp only [step] at hs
      obtain ⟨hm, h⟩ := h
      split at hs
      · rename_i he
        cases hs
        refine ⟨r, rfl, .inl ?_⟩
        rcases h with h | h
        · rw [h.1]; simp [ordinary, he]
        · exact h.1
      · rename_i he
        cases hs
        have he : special code = false := by cases h0 : special code <;> simp_all
        refine ⟨r, rfl, hm, he, ?_⟩
        rcases h with h | h
        · exact .inl ⟨by rw [h.1]; simp [ordinary, he], h.2⟩
        · exact .inr h
    | signal =>
      simp only [step] at hs
      rw [if_neg h2] at hs
      cases hs
      exact ⟨r, rfl, h⟩
    | shut =>
      simp only [step] at hs
      obtain ⟨hm, hsp, h⟩ := h
      split at hs
      · rename_i he
        cases hs
        refine ⟨r, rfl, .inr ⟨he, ?_⟩⟩
        rcases h with h | h
        · rw [h.1]; exact Nat.le_refl 1
        · rw [h.1]; exact Nat.zero_le 1
      · rename_i he
        cases hs
        refine ⟨r, rfl, fun _ => ?_, fun h => absurd hm h⟩
        rcases h with h | h
        · exact h
        · exact absurd h.2 he
    | begin =>
      simp only [step] at hs
      obtain ⟨ha, hb⟩ := h
      split at hs
      · rename_i hm
        obtain ⟨h, hl⟩ := ha hm
        rw [if_pos hl] at hs
        cases hs
        exact ⟨[], by simp [h], rfl⟩
      · rename_i hm
        cases hs
        exact ⟨r, rfl, hb hm⟩
    | compile => cases hs
    | compiled =>
      simp only [step] at hs
      split at hs
      · cases hs; exact ⟨r, rfl, h⟩
      · cases hs; exact ⟨r, rfl, .inl h⟩
    | loop =>
      simp only [step] at hs
      split at hs
      · cases hs; exact ⟨r, rfl, h⟩
      · cases hs; exact ⟨r, rfl, .inl h⟩
    | instr => cases hs
    | edited =>
      simp only [step] at hs
      split at hs
      · split at hs
        · cases hs; exact ⟨r, rfl, .inl h⟩
        · cases hs; exact ⟨r, rfl, .inl h⟩
      · cases hs; exact ⟨r, rfl, .inl h⟩
    | load => cases hs
    | display => cases hs; exact ⟨r, rfl, h⟩
    | after =>
      cases hs
      refine ⟨r, rfl, ?_⟩
      by_cases he : error = errShutdown
      · have e : (if error = errShutdown then Pc.stopped else .wipe) = .stopped := if_pos he
        simp only [e]
        rcases h with h | h
        · rw [h]; exact Nat.zero_le 1
        · exact h.2
      · have e : (if error = errShutdown then Pc.stopped else .wipe) = .wipe := if_neg he
        simp only [e]
        rcases h with h | h
        · exact h
        · exact absurd h.1 he
    | wipe =>
      cases hs
      have h : r = [] := h
      subst h
      refine ⟨[], rfl, ?_⟩
      cases running
      · exact Nat.zero_le 1
      · exact rfl
    | stopped => cases hs
    | overflow => cases hs

theorem noEdit_steps : (acts : List Act) → (s s' : St) → NoEdit s → steps s acts = some s' → NoEdit s'
  | [], s, s', h, hs => by cases hs; exact h
  | a :: r, s, s', h, hs => by
    have hs : (step s a).bind (fun x => steps x r) = some s' := hs
    cases h1 : step s a with
    | none => rw [h1] at hs; cases hs
    | some s1 => rw [h1] at hs; exact noEdit_steps r s1 s' (noEdit_step s s1 a h h1) hs

theorem noEdit_init (file : Bool) : NoEdit (init file) := by cases file <;> exact ⟨by decide, by decide, by decide⟩

theorem left_steps : (acts : List Act) → (s s' : St) → (r : List (List Nat)) → NoEdit s → Left s r → .select ∉ acts → steps s acts = some s' →
    ∃ r' : List (List Nat), s.executed ++ (r ++ ordinary (typed acts)) = s'.executed ++ r' ∧ Left s' r'
  | [], s, s', r, _, h, _, hs => by cases hs; exact ⟨r, by simp [typed, ordinary], h⟩
  | a :: acts, s, s', r, hn, h, ha, hs => by
    have hs : (step s a).bind (fun x => steps x acts) = some s' := hs
    cases h1 : step s a with
    | none => rw [h1] at hs; cases hs
    | some s1 =>
      rw [h1] at hs
      obtain ⟨r1, e1, l1⟩ := left_step s s1 a r hn h (fun h => ha (by rw [h]; exact List.mem_cons_self)) h1
      obtain ⟨r2, e2, l2⟩ := left_steps acts s1 s' r1 (noEdit_step s s1 a hn h1) l1 (fun h => ha (List.mem_cons_of_mem _ h)) hs
      refine ⟨r2, ?_, l2⟩
      rw [← e2, show a :: acts = [a] ++ acts from rfl, typed_append]
      have : ordinary (typed [a] ++ typed acts) = ordinary (typed [a]) ++ ordinary (typed acts) := List.filter_append ..
      rw [this, ← List.append_assoc r, ← List.append_assoc, e1, List.append_assoc]

/-- **C102.** In every history in which SELECT is not pressed the lines that are executed are the lines that were typed, in this order and
each of them once (the two special lines are not executed); at most the last one is not executed yet, and all have been executed when the
prompt waits for the next line.  No line is too long for the room of the prompt. -/
theorem C102_lines (file : Bool) (acts : List Act) (s : St) (hno : .select ∉ acts) (h : steps (init file) acts = some s) :
    s.pc ≠ .overflow ∧ ∃ r, ordinary (typed acts) = s.executed ++ r ∧ r.length ≤ 1 ∧ (s.pc = .waiting → r = []) := by
  have hl : Left (init file) [] := by cases file <;> rfl
  obtain ⟨r, e, l⟩ := left_steps acts (init file) s [] (noEdit_init file) hl hno h
  have e0 : (init file).executed = [] := by cases file <;> rfl
  rw [e0] at e
  refine ⟨fun hp => ?_, r, e, ?_, fun hp => ?_⟩
  · unfold Left at l; rw [hp] at l; exact l
  · unfold Left at l
    cases hp : s.pc <;> rw [hp] at l <;> dsimp only at l
    case got =>
      rcases l with ⟨_, l | l⟩
      · rw [l.1]; exact List.length_filter_le _ _
      · rw [l.1]; exact Nat.zero_le 1
    case signal | shut =>
      rcases l with ⟨_, _, l | l⟩
      · rw [l.1]; exact Nat.le_refl 1
      · rw [l.1]; exact Nat.zero_le 1
    case begin =>
      by_cases hm : s.mode = .prompt
      · rw [(l.1 hm).1]; exact Nat.le_refl 1
      · rw [l.2 hm]; exact Nat.zero_le 1
    case display | after =>
      rcases l with l | l
      · rw [l]; exact Nat.zero_le 1
      · exact l.2
    case stopped => exact l
    case waiting => rw [l.1]; exact Nat.zero_le 1
    all_goals (rw [l]; exact Nat.zero_le 1)
  · unfold Left at l; rw [hp] at l; exact l.1

/-- A session: two lines are typed and executed, the second one fails. -/
def session : List Act :=
  [.go, .go, .line (chars "A=1"), .go, .go, .go, .go, .compiled 0, .go, .go, .instr none none, .finish, .go, .go, .go,
   .go, .go, .line (chars "?A/0"), .go, .go, .go, .go, .compiled 0, .go, .go, .instr (some 38) none, .go, .go, .go, .go, .go, .go]

example : ((steps (init false) session).map fun s => (s.pc, s.executed, s.shown)) = some (.waiting, [chars "A=1", chars "?A/0"], [0, 38]) := by decide +kernel
example : Act.select ∉ session := by decide

/-- **C102** (violation). SELECT at the prompt executes the line that was typed before once more (or whatever the variable `CODE$` contains). -/
theorem C102_select_violated (s : St) (hp : s.pc = .waiting) (hm : s.mode = .prompt) (hs : special s.code = false) (hl : s.code.length ≤ 32) :
    steps s [.select, .go, .go, .go, .go, .go] = some { s with pc := .compile, error := 0, executed := s.executed ++ [s.code] } := by
  obtain ⟨pc, error, running, mode, code, sig, executed, shown⟩ := s
  dsimp only at hp hm hs hl
  subst hp hm
  simp [steps, step, hs, show code.length ≤ lineRoom from hl, errBreak, errButton, errShutdown]

/-- The state after the session is such a state, with the line `?A/0`. -/
example : ((steps (init false) session).map fun s => (s.pc, s.mode, s.code)) = some (.waiting, .prompt, chars "?A/0") := by decide +kernel

/-- A line assigns a string of 33 characters to `CODE$`; then SELECT. -/
def longLine : List Act :=
  [.go, .go, .line (chars "CODE$=\"A\"*33"), .go, .go, .go, .go, .compiled 0, .go, .go, .instr none (some (List.replicate 33 65)), .finish,
    .go, .go, .go, .go, .go, .select, .go, .go, .go, .go, .go]

/-- **C102** (violation). A program that assigns a string of 33 characters to `CODE$`, followed by SELECT at the prompt, overruns the buffer of the prompt. -/
theorem C102_overflow_violated : ∃ acts s, steps (init false) acts = some s ∧ s.pc = .overflow ∧ s.code.length = 33 := by
  have h : ((steps (init false) longLine).map fun s => (s.pc, s.code.length)) = some (.overflow, 33) := by decide +kernel
  cases hs : steps (init false) longLine with
  | none => rw [hs] at h; cases h
  | some s => rw [hs] at h; have h := Option.some.inj h; exact ⟨longLine, s, hs, congrArg Prod.fst h, congrArg Prod.snd h⟩

/-- **C102** (violation). No history leads to the editor: EDIT mode cannot be entered. -/
theorem C102_edit_violated (file : Bool) (acts : List Act) (s : St) (h : steps (init file) acts = some s) : s.mode ≠ .edit :=
  (noEdit_steps acts _ s (noEdit_init file) h).1

/-! ### C103: closing the window and SELECT -/

/-- How many steps the thread still has when the window is closed at that place, and at most so many are left. -/
def rank : Pc → Option Nat
  | .waiting => some 6
  | .got => some 5
  | .signal => some 4
  | .shut => some 3
  | .compiled => some 3
  | .loop => some 4
  | .edited => some 3
  | .display => some 2
  | .after => some 1
  | .stopped => some 0
  | _ => none

theorem rank_step (s s' : St) (a : Act) (k : Nat) (hk : rank s.pc = some k) (he : s.error = errShutdown) (ha : a.outside = false)
    (hs : step s a = some s') : a = .go ∧ s'.error = errShutdown ∧ s'.executed = s.executed ∧ ∃ k', rank s'.pc = some k' ∧ k' < k := by
  obtain ⟨pc, error, running, mode, code, sig, executed, shown⟩ := s
  dsimp only at hk he
  subst he
  cases a with
  | select => cases ha
  | close => cases ha
  | go =>
    refine ⟨rfl, ?_⟩
    cases pc <;> simp only [step, rank] at hs hk <;> first
      | (cases hk; done)
      | (cases hs; done)
      | skip
    all_goals (try split at hs) <;> (try split at hs) <;> first
      | (cases hs; done)
      | (exfalso; simp_all [errShutdown, errButton, errUser]; done)
      | (cases hs; cases hk; exact ⟨rfl, rfl, _, rfl, by decide⟩)
  | line l =>
    simp only [step] at hs
    split at hs
    · rename_i h; exact absurd h.2.1 (by decide)
    · cases hs
  | compiled e =>
    simp only [step] at hs
    split at hs
    · rename_i h; rw [h.1] at hk; cases hk
    · cases hs
  | instr w c =>
    simp only [step] at hs
    split at hs
    · rename_i h; rw [h.1] at hk; cases hk
    · cases hs
  | finish =>
    simp only [step] at hs
    split at hs
    · rename_i h; exact absurd h.2 (by decide)
    · cases hs
  | loaded ok =>
    simp only [step] at hs
    split at hs
    · rename_i h; rw [h] at hk; cases hk
    · cases hs

theorem rank_on (s : St) (k : Nat) (hk : rank s.pc = some (k + 1)) (he : s.error = errShutdown) : (step s .go).isSome := by
  obtain ⟨pc, error, running, mode, code, sig, executed, shown⟩ := s
  dsimp only at hk he
  subst he
  cases pc <;> simp only [step, rank] at hk ⊢ <;> first
    | (cases hk; done)
    | skip
  all_goals (try split) <;> (try split) <;> first
    | rfl
    | (simp_all [errShutdown]; done)

theorem rank_steps : (acts : List Act) → (s s' : St) → (k : Nat) → rank s.pc = some k → s.error = errShutdown → Alone acts → steps s acts = some s' →
    (∀ a ∈ acts, a = .go) ∧ s'.error = errShutdown ∧ s'.executed = s.executed ∧ ∃ k', rank s'.pc = some k' ∧ acts.length + k' ≤ k
  | [], s, s', k, hk, he, _, hs => by cases hs; exact ⟨by simp, he, rfl, k, hk, by simp⟩
  | a :: r, s, s', k, hk, he, ha, hs => by
    have hs : (step s a).bind (fun x => steps x r) = some s' := hs
    cases h1 : step s a with
    | none => rw [h1] at hs; cases hs
    | some s1 =>
      rw [h1] at hs
      obtain ⟨e1, e2, e3, k1, hk1, hlt⟩ := rank_step s s1 a k hk he (ha a (by simp)) h1
      obtain ⟨f1, f2, f3, k2, hk2, hle⟩ := rank_steps r s1 s' k1 hk1 e2 (fun b hb => ha b (by simp [hb])) hs
      refine ⟨fun b hb => ?_, f2, f3.trans e3, k2, hk2, by simp only [List.length_cons]; omega⟩
      rcases List.mem_cons.mp hb with h | h
      · rw [h]; exact e1
      · exact f1 b h

/-- The places where a request to end is seen. -/
def seen : List Pc := [.waiting, .got, .signal, .shut, .compiled, .loop, .edited, .display, .after]

/-- **C103.** The window is closed while the prompt waits, between two instructions, or at another of the places in `seen`.  Then, in every
history of the program thread from there, nothing is typed, compiled or executed any more, and the thread comes to its end after at most six
steps: it can go on until it has ended. -/
theorem C103_close_partial (s : St) (hp : s.pc ∈ seen) (acts : List Act) (s' : St) (ha : Alone acts) (h : steps (closed s) acts = some s') :
    (∀ a ∈ acts, a = .go) ∧ s'.executed = s.executed ∧ acts.length ≤ 6 ∧ (s'.pc = .stopped ∨ (step s' .go).isSome) := by
  have hk : ∃ k, rank (closed s).pc = some k ∧ k ≤ 6 := by
    show ∃ k, rank s.pc = some k ∧ k ≤ 6
    simp only [seen, List.mem_cons, List.not_mem_nil, or_false] at hp
    rcases hp with h | h | h | h | h | h | h | h | h <;> rw [h] <;> exact ⟨_, rfl, by decide⟩
  obtain ⟨k, hk, h6⟩ := hk
  obtain ⟨h1, h2, h3, k', hk', hle⟩ := rank_steps acts (closed s) s' k hk rfl ha h
  refine ⟨h1, h3, by omega, ?_⟩
  cases k' with
  | zero =>
    left
    cases hpc : s'.pc <;> rw [hpc] at hk' <;> first | rfl | cases hk'
  | succ k' => exact .inr (rank_on s' k' hk' h2)

/-- **C103.** The same in the middle of an instruction, if it does not report an error itself: the instruction is finished, then nothing
more is executed. -/
theorem C103_close_instr_partial (s : St) (hp : s.pc = .instr) (c : Option (List Nat)) (acts : List Act) (s' : St) (ha : Alone acts)
    (h : steps (closed s) (.instr none c :: acts) = some s') :
    (∀ a ∈ acts, a = .go) ∧ s'.executed = s.executed ∧ acts.length ≤ 6 ∧ (s'.pc = .stopped ∨ (step s' .go).isSome) := by
  have h : (step (closed s) (.instr none c)).bind (fun x => steps x acts) = some s' := h
  have e : step (closed s) (.instr none c) = some (closed { s with code := c.getD s.code, pc := .loop }) := by
    obtain ⟨pc, error, running, mode, code, sig, executed, shown⟩ := s
    dsimp only at hp
    subst hp
    rfl
  rw [e] at h
  exact C103_close_partial { s with code := c.getD s.code, pc := .loop } (by show Pc.loop ∈ seen; decide) acts s' ha h

/-- The places of a round before the line is executed. -/
def early : List Pc := [.clear, .waiting, .got, .signal, .shut, .begin]

/-- The last round: at most `n + 1` lines are executed. -/
def Last (n : Nat) (s : St) : Prop := s.running = false ∧ s.pc ≠ .top ∧ s.executed.length ≤ n + 1 ∧ (s.pc ∈ early → s.executed.length ≤ n)

theorem last_of {n : Nat} {s : St} (h1 : s.running = false) (h2 : s.pc ≠ .top) (h3 : s.executed.length ≤ n + 1)
    (h4 : s.pc ∈ early → s.executed.length ≤ n) : Last n s := ⟨h1, h2, h3, h4⟩

theorem last_step (n : Nat) (s s' : St) (a : Act) (h : Last n s) (hs : step s a = some s') : Last n s' := by
  obtain ⟨pc, error, running, mode, code, sig, executed, shown⟩ := s
  obtain ⟨h1, h2, h3, h4⟩ := h
  dsimp only at h1 h2 h3 h4
  subst h1
  cases a with
  | go =>
    cases pc with
    | top => exact absurd rfl h2
    | clear =>
      cases hs
      refine last_of rfl ?_ (Nat.le_trans (h4 (by decide)) (Nat.le_succ _)) (fun _ => h4 (by decide))
      cases mode <;> exact fun h => Pc.noConfusion h
    | waiting =>
      simp only [step] at hs
      split at hs
      · cases hs; exact last_of rfl (by simp) h3 fun _ => h4 (by decide)
      · cases hs
    | got =>
      simp only [step] at hs
      split at hs <;> cases hs <;> exact last_of rfl (by simp) h3 fun _ => h4 (by decide)
    | signal =>
      simp only [step] at hs
      split at hs <;> cases hs <;> exact last_of rfl (by simp) h3 fun _ => h4 (by decide)
    | shut =>
      simp only [step] at hs
      split at hs <;> cases hs <;> exact last_of rfl (by simp) h3 fun _ => h4 (by decide)
    | begin =>
      simp only [step] at hs
      have hn := h4 (by decide)
      split at hs
      · split at hs
        · cases hs
          refine last_of rfl (by simp) ?_ fun h => by simp [early] at h
          simp only [List.length_append, List.length_singleton]
          omega
        · cases hs; exact last_of rfl (by simp) h3 fun h => by simp [early] at h
      · cases hs; exact last_of rfl (by simp) h3 fun h => by simp [early] at h
    | compile => cases hs
    | compiled =>
      simp only [step] at hs
      split at hs <;> cases hs <;> exact last_of rfl (by simp) h3 fun h => by simp [early] at h
    | loop =>
      simp only [step] at hs
      split at hs
      · cases hs; exact last_of rfl (by simp) h3 fun h => by simp [early] at h
      · split at hs <;> cases hs <;> exact last_of rfl (by simp) h3 fun h => by simp [early] at h
    | instr => cases hs
    | edited =>
      simp only [step] at hs
      split at hs
      · split at hs <;> cases hs <;> exact last_of rfl (by simp) h3 fun h => by simp [early] at h
      · cases hs; exact last_of rfl (by simp) h3 fun h => by simp [early] at h
    | load => cases hs
    | display => cases hs; exact last_of rfl (by simp) h3 fun h => by simp [early] at h
    | after =>
      cases hs
      by_cases he : error = errShutdown
      · exact last_of rfl (by simp [he]) h3 fun h => by simp [early, he] at h
      · exact last_of rfl (by simp [he]) h3 fun h => by simp [early, he] at h
    | wipe => cases hs; exact last_of rfl (by simp) h3 fun h => by simp [early] at h
    | stopped => cases hs
    | overflow => cases hs
  | select => cases hs; exact ⟨rfl, h2, h3, h4⟩
  | close => cases hs; exact ⟨rfl, h2, h3, h4⟩
  | line l =>
    simp only [step] at hs
    split at hs
    · rename_i h; cases hs; exact ⟨rfl, by simp, h3, fun _ => h4 (by rw [h.1]; decide)⟩
    · cases hs
  | compiled e =>
    simp only [step] at hs
    split at hs
    · cases hs; exact ⟨rfl, by simp, h3, fun h => by (simp [early] at h)⟩
    · cases hs
  | instr w c =>
    simp only [step] at hs
    split at hs
    · cases hs; exact ⟨rfl, by simp, h3, fun h => by (simp [early] at h)⟩
    · cases hs
  | finish =>
    simp only [step] at hs
    split at hs
    · cases hs
      refine ⟨rfl, ?_, h3, ?_⟩
      · dsimp only; split <;> simp
      · dsimp only; split <;> simp [early]
    · cases hs
  | loaded ok =>
    simp only [step] at hs
    split at hs
    · cases ok <;> cases hs <;> exact ⟨rfl, by simp, h3, fun h => by (simp [early] at h)⟩
    · cases hs

theorem last_steps (n : Nat) : (acts : List Act) → (s s' : St) → Last n s → steps s acts = some s' → Last n s'
  | [], s, s', h, hs => by cases hs; exact h
  | a :: r, s, s', h, hs => by
    have hs : (step s a).bind (fun x => steps x r) = some s' := hs
    cases h1 : step s a with
    | none => rw [h1] at hs; cases hs
    | some s1 => rw [h1] at hs; exact last_steps n r s1 s' (last_step n s s1 a h h1) hs

/-- **C103.** The window is closed at the beginning of a round of the main loop.  Then this is the last round: at most one more line is
executed, and when the round is over the thread has ended. -/
theorem C103_close_top_partial (s : St) (hp : s.pc = .top) (acts : List Act) (s' : St) (h : steps (closed s) (.go :: acts) = some s') :
    s'.pc ≠ .top ∧ s'.executed.length ≤ s.executed.length + 1 ∧ (s'.pc = .wipe → ∃ t, step s' .go = some t ∧ t.pc = .stopped) := by
  have h : (step (closed s) .go).bind (fun x => steps x acts) = some s' := h
  obtain ⟨pc, error, running, mode, code, sig, executed, shown⟩ := s
  dsimp only at hp
  subst hp
  have hl : Last executed.length ⟨.clear, errShutdown, false, mode, code, sig, executed, shown⟩ :=
    ⟨rfl, by simp, Nat.le_succ _, fun _ => Nat.le_refl _⟩
  obtain ⟨h1, h2, h3, h4⟩ := last_steps _ acts _ s' hl h
  refine ⟨h2, h3, fun hw => ?_⟩
  obtain ⟨pc, error', running, mode', code', sig', executed', shown'⟩ := s'
  dsimp only at h1 hw
  subst h1 hw
  exact ⟨_, rfl, rfl⟩

example : ((steps (init false) ([.close, .go, .go, .line (chars "A=1"), .go, .go, .go, .go, .compiled 0, .go, .finish, .go, .go, .go])).map
    fun s => (s.pc, s.executed)) = some (.stopped, [chars "A=1"]) := by decide +kernel

/-- **C103.** An error of the compiler: no instruction is executed, the error is reported, and the system returns to the prompt. -/
theorem C103_compile_error (s : St) (e : Nat) (hp : s.pc = .compile) (hm : s.mode = .prompt ∨ s.mode = .run) (hr : s.running = true)
    (h0 : e ≠ 0) (h1 : e ≠ errButton) (h2 : e ≠ errShutdown) :
    steps s (.compiled e :: List.replicate 6 .go) = some { s with pc := .waiting, error := 0, mode := .prompt, sig := 0, shown := s.shown ++ [e] } := by
  obtain ⟨pc, error, running, mode, code, sig, executed, shown⟩ := s
  dsimp only at hp hm hr
  subst hp hr
  have h3 : ¬ 0 = errShutdown := by decide
  rcases hm with h | h <;> subst h <;> simp [steps, step, List.replicate, h0, h1, h2, h3, Mode.back, Mode.entry]

/-- The session ends at such a place, and the thread comes to its end. -/
example : ((steps (init false) (session ++ [.close, .go, .go, .go, .go, .go, .go])).map fun s => (s.pc, s.executed, s.shown)) =
    some (.stopped, [chars "A=1", chars "?A/0"], [0, 38, 71]) := by decide +kernel

/-- **C103** (violation). At these places the request has no effect at all: what happens next is what would have happened without it. -/
theorem C103_close_violated (s : St) :
    (s.pc ∈ [Pc.clear, .begin, .wipe] → s.code.length ≤ lineRoom → step (closed s) .go = step s .go) ∧
    (s.pc = .compile → ∀ e, step (closed s) (.compiled e) = step s (.compiled e)) ∧
    (s.pc = .instr → ∀ e c, step (closed s) (.instr (some e) c) = step s (.instr (some e) c)) := by
  obtain ⟨pc, error, running, mode, code, sig, executed, shown⟩ := s
  refine ⟨fun hp hl => ?_, fun hp e => ?_, fun hp e c => ?_⟩ <;> dsimp only at hp
  · dsimp only at hl
    simp only [List.mem_cons, List.not_mem_nil, or_false] at hp
    rcases hp with h | h | h <;> subst h
    · rfl
    · simp [step, closed, hl]
    · rfl
  · subst hp; rfl
  · subst hp; rfl

/-- A session in which the window is closed while a line is being compiled. -/
def lost : List Act := [.go, .go, .line (chars "A=1"), .go, .go, .go, .go, .close, .compiled 0, .go, .finish, .go, .go, .go, .go, .go]

/-- The same when the window is closed just after an execution. -/
def lost' : List Act := [.close, .go, .go]

/-- **C103** (violation). There are sessions in which the window has been closed and the prompt waits for a line that can never come: the
program never ends.  (In the second one the request is noticed, but is acted upon only after another line.) -/
theorem C103_hangs_violated : ∀ l ∈ [lost, lost'], .close ∈ l ∧ ∃ s, steps (init false) l = some s ∧
    ∀ acts s', Deserted acts → steps s acts = some s' → s' = s ∧ s'.pc ≠ .stopped := by
  have key : ∀ s : St, s.pc = .waiting → s.error = 0 → ∀ acts s', Deserted acts → steps s acts = some s' → s' = s ∧ s'.pc ≠ .stopped := by
    intro s hp he acts s' ha h
    cases acts with
    | nil => cases h; exact ⟨rfl, by rw [hp]; decide⟩
    | cons a r =>
      have h : (step s a).bind (fun x => steps x r) = some s' := h
      have hn : step s a = none := by
        have h1 := ha a (by simp)
        cases a with
        | select => cases h1.1
        | close => cases h1.1
        | line l => exact absurd rfl (h1.2 l)
        | go => simp only [step, hp, he]; rfl
        | compiled e => simp [step, hp]
        | instr w c => simp [step, hp]
        | finish => simp [step, hp]
        | loaded ok => simp [step, hp]
      rw [hn] at h
      cases h
  have h1 : ((steps (init false) lost).map fun s => (s.pc, s.error)) = some (.waiting, 0) := by decide +kernel
  have h2 : ((steps (init false) lost').map fun s => (s.pc, s.error)) = some (.waiting, 0) := by decide +kernel
  intro l hl
  simp only [List.mem_cons, List.not_mem_nil, or_false] at hl
  rcases hl with hl | hl <;> subst hl
  · refine ⟨by decide, ?_⟩
    cases hs : steps (init false) lost with
    | none => rw [hs] at h1; cases h1
    | some s => rw [hs] at h1; have h1 := Option.some.inj h1; exact ⟨s, rfl, key s (congrArg Prod.fst h1) (congrArg Prod.snd h1)⟩
  · refine ⟨by decide, ?_⟩
    cases hs : steps (init false) lost' with
    | none => rw [hs] at h2; cases h2
    | some s => rw [hs] at h2; have h2 := Option.some.inj h2; exact ⟨s, rfl, key s (congrArg Prod.fst h2) (congrArg Prod.snd h2)⟩

/-- **C103.** SELECT between two instructions of a running program: no further instruction is executed, "Program manually stopped" (error
53) is reported, and the system returns to the prompt. -/
theorem C103_select_partial (s : St) (hp : s.pc = .loop) (hm : s.mode = .prompt ∨ s.mode = .run) (hr : s.running = true) :
    (∀ n, n ≤ 5 → ∀ acts s', Alone acts → acts.length = n → steps (selected s) acts = some s' → acts = List.replicate n .go) ∧
    steps (selected s) (List.replicate 6 .go) =
      some { s with pc := .waiting, error := 0, mode := .prompt, sig := 0, shown := s.shown ++ [errBreak] } := by
  obtain ⟨pc, error, running, mode, code, sig, executed, shown⟩ := s
  dsimp only at hp hm hr
  subst hp hr
  have hb : mode.back = .prompt := by rcases hm with h | h <;> subst h <;> rfl
  have he : mode ≠ .edit := by rcases hm with h | h <;> subst h <;> decide
  refine ⟨fun n hn acts s' ha hl h => ?_, ?_⟩
  · have one : ∀ (x : St) (a : Act) (y : St), x.pc ∈ [Pc.display, .after, .wipe, .top, .clear] ∨ (x.pc = .loop ∧ x.error ≠ 0) →
        a.outside = false → step x a = some y → a = .go := by
      intro x a y hx ha h
      cases a with
      | go => rfl
      | select => cases ha
      | close => cases ha
      | line l => simp only [step] at h; split at h
                  · rename_i hh; rw [hh.1] at hx; simp at hx
                  · cases h
      | compiled e => simp only [step] at h; split at h
                      · rename_i hh; rw [hh.1] at hx; simp at hx
                      · cases h
      | instr w c => simp only [step] at h; split at h
                     · rename_i hh; rw [hh.1] at hx; simp at hx
                     · cases h
      | finish => simp only [step] at h; split at h
                  · rename_i hh
                    rcases hx with hx | hx
                    · rw [hh.1] at hx; simp at hx
                    · exact absurd hh.2 hx.2
                  · cases h
      | loaded ok => simp only [step] at h; split at h
                     · rename_i hh; rw [hh] at hx; simp at hx
                     · cases h
    have chain : ∀ (m : Nat) (x : St) (acts : List Act) (y : St), Alone acts → acts.length = m → steps x acts = some y →
        (∀ i, i < m → ∃ z, steps x (List.replicate i .go) = some z ∧ (z.pc ∈ [Pc.display, .after, .wipe, .top, .clear] ∨ (z.pc = .loop ∧ z.error ≠ 0))) →
        acts = List.replicate m .go := by
      intro m
      induction m with
      | zero => intro x acts y _ hl _ _; exact List.length_eq_zero_iff.mp hl
      | succ m ih =>
        intro x acts y ha hl h hz
        cases acts with
        | nil => cases hl
        | cons a r =>
          have h' : (step x a).bind (fun x => steps x r) = some y := h
          cases h1 : step x a with
          | none => rw [h1] at h'; cases h'
          | some x1 =>
            rw [h1] at h'
            obtain ⟨z, hz0, hz1⟩ := hz 0 (by omega)
            cases hz0
            have hgo := one x a x1 hz1 (ha a (by simp)) h1
            subst hgo
            rw [ih x1 r y (fun b hb => ha b (by simp [hb])) (by simpa using hl) h' fun i hi => ?_, List.replicate_succ]
            obtain ⟨z, hz0, hz1⟩ := hz (i + 1) (by omega)
            refine ⟨z, ?_, hz1⟩
            have hz0 : (step x .go).bind (fun x => steps x (List.replicate i .go)) = some z := hz0
            rw [h1] at hz0
            exact hz0
    refine chain n _ acts s' ha hl h fun i hi => ?_
    have : i = 0 ∨ i = 1 ∨ i = 2 ∨ i = 3 ∨ i = 4 := by omega
    rcases this with h | h | h | h | h <;> subst h <;>
      simp [steps, step, selected, List.replicate, errBreak, errShutdown, he, hb]
  · simp [steps, step, selected, List.replicate, errBreak, errShutdown, he, hb, Mode.entry]

/-- **C103** (violation). In the middle of an instruction that writes the error number (ACLS and RUN write 0), or while a program is being
compiled, SELECT has no effect at all. -/
theorem C103_select_violated (s : St) :
    (s.pc = .compile → ∀ e, step (selected s) (.compiled e) = step s (.compiled e)) ∧
    (s.pc = .instr → ∀ e c, step (selected s) (.instr (some e) c) = step s (.instr (some e) c)) := by
  obtain ⟨pc, error, running, mode, code, sig, executed, shown⟩ := s
  refine ⟨fun hp e => ?_, fun hp e c => ?_⟩ <;> dsimp only at hp <;> subst hp <;> rfl

/-! ### C104: messages -/

/-- **C104.** Every error has a message, and message and additional information (the name of a label has at most 17 characters) fit the
buffer. -/
theorem C104_message (e : Nat) (he : e < 75) (info : List Nat) (hi : info.length ≤ 18) :
    ∃ m, errorMessages[e]? = some m ∧ message e info = .ok (chars m ++ info) := by
  have hl : ∀ i, (h : i < errorMessages.length) → (chars errorMessages[i]).length ≤ 45 := by decide +kernel
  have h75 : errorMessages.length = 75 := by decide +kernel
  have hx : errorMessages[e]? = some (errorMessages[e]'(by omega)) := List.getElem?_eq_getElem _
  refine ⟨_, hx, ?_⟩
  unfold message
  rw [hx]
  have := hl e (by omega)
  exact if_pos (by omega)

/-- **C104.** A text that is shown fits the 64 bytes of the buffer together with its end. -/
theorem C104_fits (e : Nat) (info t : List Nat) (h : message e info = .ok t) : t.length + 1 ≤ 64 := by
  unfold message at h
  split at h
  · cases h
  · split at h
    · rename_i hlt
      cases h
      rw [List.length_append]
      omega
    · cases h

example : ∃ t, message 25 (chars "@A") = .ok t := ⟨_, (C104_message 25 (by decide) (chars "@A") (by decide)).choose_spec.2⟩

/-- **C104.** Different errors have different messages. -/
theorem C104_distinct : errorMessages.Nodup := by decide +kernel

example : message 38 [] = .ok (chars "Division by zero!") := by decide +kernel

end Sbc.Launch
