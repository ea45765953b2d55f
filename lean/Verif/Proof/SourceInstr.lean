import Verif.Proof.SourceArgs
import Verif.Proof.SourceProgram
set_option autoImplicit false
/-!
# The instructions of source programs
-/
namespace Sbc.Source
open Sbc Sbc.Tok Sbc.Tok.Spec Sbc.Machine

/-- Instructions of expressions. -/
def Inert (i : Instr) : Prop := i.WF ∧ i.op ≠ bcLabelString ∧ i.op ≠ bcCommand ∧ i.op ≠ bcCommandFirst ∧ i.op ≠ bcBeginLoop

theorem Inert.intro {i : Instr} {o : Nat} (hw : i.WF) (ho : i.op = o) (h : o ≠ bcLabelString ∧ o ≠ bcCommand ∧ o ≠ bcCommandFirst ∧ o ≠ bcBeginLoop) : Inert i := by
  subst ho; exact ⟨hw, h⟩

theorem inert_num (v : Int) : Inert (numInstr v) := by
  unfold numInstr
  split
  · exact Inert.intro (o := bcSmallNumber) ⟨by decide, by decide, by decide, by decide, fun h => absurd h (by decide)⟩ rfl (by decide)
  · exact Inert.intro (o := bcNumber) trivial rfl (by decide)

theorem inert_name {w : List Nat} (h : VarName w ∨ StrName w) : Inert (nameInstr w) := by
  match w, h with
  | [], h => exact absurd (anyName_len h).1 (by simp)
  | [c], .inl h => exact Inert.intro (o := bcVariableName) ⟨by decide, by decide, by decide, by decide, fun _ => h.2.2 c rfl⟩ rfl (by decide)
  | [c], .inr h => exact absurd (strName_len h).1 (by simp)
  | x :: y :: r, h =>
    refine Inert.intro (o := bcVariableName) ⟨by decide, ?_⟩ rfl (by decide)
    have := (anyName_len h).2
    omega

theorem inert_dim {w : List Nat} (h : VarName w ∨ StrName w) : Inert (dimInstr w) := by
  match w, h with
  | [], h => exact absurd (anyName_len h).1 (by simp)
  | [c], .inl h => exact Inert.intro (o := bcDim) ⟨by decide, by decide, by decide, by decide, fun _ => h.2.2 c rfl⟩ rfl (by decide)
  | [c], .inr h => exact absurd (strName_len h).1 (by simp)
  | x :: y :: r, h =>
    refine Inert.intro (o := bcDim) ⟨by decide, ?_⟩ rfl (by decide)
    have := (anyName_len h).2
    omega

theorem inert_op (op : Nat) : Inert (.simple bcOperator op) :=
  Inert.intro (o := bcOperator) ⟨by decide, by decide, by decide, by decide, fun h => absurd h (by decide)⟩ rfl (by decide)

theorem inert_fn (op d : Nat) (h : op = bcSysvar ∨ op = bcArgcount ∨ op = bcFunction) : Inert (.simple op d) := by
  refine Inert.intro (o := op) ?_ rfl ?_
  · rcases h with rfl | rfl | rfl <;> exact ⟨by decide, by decide, by decide, by decide, fun h => absurd h (by decide)⟩
  · rcases h with rfl | rfl | rfl <;> decide

theorem inert_str {w : List Nat} (h : w.length ≤ 255) : Inert (.text bcString w) := Inert.intro (o := bcString) ⟨by decide, h⟩ rfl (by decide)

theorem inert_e (e : E) (h : e.Leaves) : ∀ i ∈ e.code, Inert i := by
  induction e with
  | num w => intro i hi; simp only [E.code, List.mem_singleton] at hi; subst hi; exact inert_num _
  | str w => intro i hi; simp only [E.code, List.mem_singleton] at hi; subst hi; exact inert_str h
  | var w => intro i hi; simp only [E.code, List.mem_singleton] at hi; subst hi; exact inert_name h
  | paren e ih => exact ih h
  | un op e ih =>
    intro i hi
    simp only [E.code, List.mem_append, List.mem_singleton] at hi
    rcases hi with hi | rfl
    · exact ih h i hi
    · exact inert_op op
  | bin op l r ihl ihr =>
    intro i hi
    simp only [E.code, List.mem_append, List.mem_singleton] at hi
    rcases hi with hi | hi | rfl
    · exact ihl h.1 i hi
    · exact ihr h.2 i hi
    · exact inert_op op
  | sys v => intro i hi; simp only [E.code, List.mem_singleton] at hi; subst hi; exact inert_fn bcSysvar v (by decide)
  | fn0 f =>
    intro i hi
    simp only [E.code, List.mem_cons, List.not_mem_nil, or_false] at hi
    rcases hi with rfl | rfl
    · exact inert_fn bcArgcount _ (by decide)
    · exact inert_fn bcFunction _ (by decide)
  | fn1 f a ih =>
    intro i hi
    simp only [E.code, List.mem_append, List.mem_cons, List.not_mem_nil, or_false] at hi
    rcases hi with hi | rfl | rfl
    · exact ih h.2 i hi
    · exact inert_fn bcArgcount _ (by decide)
    · exact inert_fn bcFunction _ (by decide)
  | fn2 f a b iha ihb =>
    intro i hi
    simp only [E.code, List.mem_append, List.mem_cons, List.not_mem_nil, or_false] at hi
    rcases hi with (hi | hi) | rfl | rfl
    · exact iha h.2.1 i hi
    · exact ihb h.2.2 i hi
    · exact inert_fn bcArgcount _ (by decide)
    · exact inert_fn bcFunction _ (by decide)
  | fn3 f a b c iha ihb ihc =>
    intro i hi
    simp only [E.code, List.mem_append, List.mem_cons, List.not_mem_nil, or_false] at hi
    rcases hi with (hi | hi | hi) | rfl | rfl
    · exact iha h.2.1 i hi
    · exact ihb h.2.2.1 i hi
    · exact ihc h.2.2.2 i hi
    · exact inert_fn bcArgcount _ (by decide)
    · exact inert_fn bcFunction _ (by decide)
  | arr1 sq w a ih =>
    intro i hi
    simp only [E.code, List.mem_append, List.mem_cons, List.not_mem_nil, or_false] at hi
    rcases hi with hi | rfl | rfl
    · exact ih h.2 i hi
    · exact inert_fn bcArgcount _ (by decide)
    · exact inert_name h.1.1
  | arr2 sq w a b iha ihb =>
    intro i hi
    simp only [E.code, List.mem_append, List.mem_cons, List.not_mem_nil, or_false] at hi
    rcases hi with (hi | hi) | rfl | rfl
    · exact iha h.2.1 i hi
    · exact ihb h.2.2 i hi
    · exact inert_fn bcArgcount _ (by decide)
    · exact inert_name h.1.1

theorem inert_arg {a : E} (h : a.Good) : ∀ i ∈ a.code, Inert i := inert_e a h.leaves

theorem inert_opt {o : Option E} (h : ∀ a, o = some a → a.Good) : ∀ i ∈ optCode o, Inert i := by
  cases o with
  | none => intro i hi; cases hi
  | some a => exact inert_arg (h a rfl)

theorem inert_items (l : List (Option E × Nat)) (h : ∀ x ∈ l, ∀ a, x.1 = some a → a.Good) : ∀ i ∈ itemCode l, Inert i := by
  induction l with
  | nil => intro i hi; cases hi
  | cons x r ih =>
    intro i hi
    simp only [itemCode, List.mem_append, List.mem_cons] at hi
    rcases hi with hi | rfl | hi
    · exact inert_opt (h x (by simp)) i hi
    · exact inert_op _
    · exact ih (fun y hy => h y (by simp [hy])) i hi

/-- The code of the command of a statement. -/
def CmdOp (k : Nat) : Prop := k = bcCommand ∨ k = bcCommandFirst

theorem cmd_wf {k : Nat} (h : CmdOp k) (c : Nat) : (Instr.simple k c).WF := by
  rcases h with rfl | rfl <;> exact ⟨by decide, by decide, by decide, by decide, fun h => absurd h (by decide)⟩

/-- Correct instructions other than ELSE and ENDIF. -/
def Fine (i : Instr) : Prop := i.WF ∧ i ≠ .simple bcCommand cmdElse ∧ i ≠ .simple bcCommand cmdEndif

theorem Inert.fine {i : Instr} (h : Inert i) : Fine i :=
  ⟨h.1, by rintro rfl; exact h.2.2.1 rfl, by rintro rfl; exact h.2.2.1 rfl⟩

theorem fine_cmd {k : Nat} (hk : CmdOp k) {c : Nat} (h1 : c ≠ cmdElse) (h2 : c ≠ cmdEndif) : Fine (.simple k c) :=
  ⟨cmd_wf hk c, fun e => h1 (Instr.simple.inj e).2, fun e => h2 (Instr.simple.inj e).2⟩

theorem fine_text {op : Nat} {l : List Nat} (ho : hasText op = true) (h : l.length ≤ 255) : Fine (.text op l) :=
  ⟨⟨ho, h⟩, by simp, by simp⟩

theorem begin_wf (x : Nat) : (Instr.simple bcBeginLoop x).WF :=
  ⟨by decide, by decide, by decide, by decide, fun h => absurd h (by decide)⟩

theorem fine_step {s : Option E} (h : ∀ e, s = some e → e.WF) : ∀ i ∈ stepCode s, Fine i := by
  cases s with
  | none => intro i hi; cases hi
  | some e =>
    intro i hi
    simp only [stepCode, List.mem_append, List.mem_singleton] at hi
    rcases hi with hi | rfl
    · exact (inert_e e (h e rfl).leaves i hi).fine
    · exact fine_cmd (Or.inl rfl) (by decide) (by decide)

theorem E.code_ne (e : E) : e.code ≠ [] := by
  cases e with
  | paren e => exact E.code_ne e
  | _ => simp [E.code]

/-- The code of a statement other than a jump, FOR or ON ends with the command or has none; a jump is a label and a command. -/
theorem S.code_shape {s : S} (h : s.WF) (k : Nat) :
    (∃ u, (∀ i ∈ u, Inert i) ∧ (s.code k = u ∧ u ≠ [] ∨ ∃ c, s.code k = u ++ [.simple k c] ∧ c ≠ cmdElse ∧ c ≠ cmdEndif)) ∨
    (∃ l d, s.code k = [.text bcLabelString l, .simple k d] ∧ (d = cmdGoto ∨ d = cmdGosub ∨ d = cmdRestore ∧ s.isRestore = true) ∧ l.length ≤ 255) ∨
    ∃ u c v, s.code k = u ++ .simple k c :: v ∧ (c ≠ cmdElse ∧ c ≠ cmdEndif) ∧ u ≠ [] ∧ (∀ i ∈ u, Inert i) ∧ ∀ i ∈ v, Fine i := by
  cases s with
  | assign w e =>
    refine Or.inl ⟨_, ?_, Or.inl ⟨rfl, by simp [S.code]⟩⟩
    intro i hi
    simp only [S.code, List.mem_cons, List.mem_append, List.mem_singleton, List.not_mem_nil, or_false] at hi
    rcases hi with rfl | hi | rfl
    · exact inert_name (assign_name h)
    · exact inert_e e (assign_good h).leaves i hi
    · exact inert_op _
  | cmd c args =>
    refine Or.inl ⟨args.flatMap E.code, ?_, Or.inr ⟨c, rfl, ?_, ?_⟩⟩
    · intro i hi
      obtain ⟨a, ha, hi⟩ := List.mem_flatMap.mp hi
      exact inert_arg (h.2.1 a ha) i hi
    · rintro rfl; exact h.1.2.1 (by decide)
    · rintro rfl; exact h.1.2.2 (by decide)
  | print items last =>
    refine Or.inl ⟨itemCode items ++ optCode last, ?_, Or.inr ⟨cmdPrint, by simp [S.code], by decide, by decide⟩⟩
    intro i hi
    rcases List.mem_append.mp hi with hi | hi
    · exact inert_items items (fun x hx => (h.1 x hx).1) i hi
    · exact inert_opt h.2.1 i hi
  | goto l => exact Or.inr (Or.inl ⟨l, cmdGoto, rfl, Or.inl rfl, by have := h.2.1; omega⟩)
  | gosub l => exact Or.inr (Or.inl ⟨l, cmdGosub, rfl, Or.inr (Or.inl rfl), by have := h.2.1; omega⟩)
  | restore l => exact Or.inr (Or.inl ⟨l, cmdRestore, rfl, Or.inr (Or.inr ⟨rfl, rfl⟩), by have := h.2.1; omega⟩)
  | read ls =>
    refine Or.inl ⟨ls.flatMap E.code, ?_, Or.inr ⟨cmdRead, rfl, by decide, by decide⟩⟩
    intro i hi
    obtain ⟨a, ha, hi⟩ := List.mem_flatMap.mp hi
    exact inert_arg (h.2.1 a ha).2 i hi
  | ret => exact Or.inl ⟨[], by simp, Or.inr ⟨cmdReturn, rfl, by decide, by decide⟩⟩
  | fin => exact Or.inl ⟨[], by simp, Or.inr ⟨cmdEnd, rfl, by decide, by decide⟩⟩
  | stop => exact Or.inl ⟨[], by simp, Or.inr ⟨cmdStop, rfl, by decide, by decide⟩⟩
  | next w =>
    refine Or.inl ⟨optName w, ?_, Or.inr ⟨cmdNext, rfl, by decide, by decide⟩⟩
    cases w with
    | none => intro i hi; cases hi
    | some x => intro i hi; simp only [optName, List.mem_singleton] at hi; subst hi; exact inert_name (Or.inl (h x rfl))
  | for' w a b st =>
    obtain ⟨hv, ⟨ha, _⟩, ⟨hb, _⟩, hs, _⟩ := h
    refine Or.inr (Or.inr ⟨[nameInstr w], cmdFor, _, rfl, by decide, by simp, ?_, ?_⟩)
    · intro i hi; simp only [List.mem_singleton] at hi; subst hi; exact inert_name (Or.inl hv)
    · intro i hi
      simp only [ctlCode, List.mem_append, List.mem_cons, List.not_mem_nil, or_false] at hi
      rcases hi with hi | rfl | (hi | rfl | hi) | rfl
      · exact (inert_e a ha.leaves i hi).fine
      · exact (inert_op _).fine
      · exact (inert_e b hb.leaves i hi).fine
      · exact fine_cmd (Or.inl rfl) (by decide) (by decide)
      · exact fine_step (fun e he => (hs e he).1) i hi
      · exact ⟨begin_wf 0, by simp [bcBeginLoop, bcCommand], by simp [bcBeginLoop, bcCommand]⟩

  | on e sub ls =>
    obtain ⟨⟨he, _⟩, _, hl⟩ := h
    refine Or.inr (Or.inr ⟨e.code, cmdOn, _, rfl, by decide, e.code_ne, inert_e e he.leaves, ?_⟩)
    intro i hi
    simp only [List.mem_append, List.mem_map, List.mem_singleton] at hi
    rcases hi with ⟨l, hl', rfl⟩ | rfl
    · exact fine_text (by decide) (by have := (hl l hl').2.1; omega)
    · cases sub <;> exact fine_cmd (Or.inl rfl) (by decide) (by decide)
  | dim l r =>
    refine Or.inl ⟨_, ?_, Or.inl ⟨rfl, by simp [S.code, E.dimCode]⟩⟩
    intro i hi
    obtain ⟨l, hl0, hi⟩ := List.mem_flatMap.mp hi
    have h := h l hl0
    simp only [E.dimCode, List.mem_append, List.mem_singleton] at hi
    have hl := h.2.1.leaves
    cases l with
    | arr1 sq w a =>
      simp only [E.subs, E.arrName, List.mem_append, List.mem_singleton] at hi
      rcases hi with (hi | rfl) | rfl
      · exact inert_e a hl.2 i hi
      · exact inert_fn bcArgcount _ (by decide)
      · exact inert_dim hl.1.1
    | arr2 sq w a b =>
      simp only [E.subs, E.arrName, List.mem_append, List.mem_singleton] at hi
      rcases hi with ((hi | hi) | rfl) | rfl
      · exact inert_e a hl.2.1 i hi
      · exact inert_e b hl.2.2 i hi
      · exact inert_fn bcArgcount _ (by decide)
      · exact inert_dim hl.1.1
    | _ => cases h.1
  | put l e =>
    refine Or.inl ⟨_, ?_, Or.inl ⟨rfl, by simp [S.code]⟩⟩
    intro i hi
    simp only [S.code, List.mem_append, List.mem_singleton] at hi
    rcases hi with hi | hi | rfl
    · exact inert_e l (put_good h).1.leaves i hi
    · exact inert_e e (put_good h).2.leaves i hi
    · exact inert_op _

theorem fine_s {s : S} (h : s.WF) {k : Nat} (hk : CmdOp k) : ∀ i ∈ s.code k, Fine i := by
  rcases S.code_shape h k with ⟨u, hu, ⟨e, _⟩ | ⟨c, e, h1, h2⟩⟩ | ⟨l, d, e, hd, hl⟩ | ⟨u, c, v, e, hc, _, hu, hv⟩
  · rw [e]; exact fun i hi => (hu i hi).fine
  · rw [e]
    intro i hi
    rcases List.mem_append.mp hi with hi | hi
    · exact (hu i hi).fine
    · rw [List.mem_singleton.mp hi]; exact fine_cmd hk h1 h2
  · rw [e]
    intro i hi
    simp only [List.mem_cons, List.not_mem_nil, or_false] at hi
    rcases hi with rfl | rfl
    · exact fine_text (by decide) hl
    · exact fine_cmd hk (by rcases hd with rfl | rfl | ⟨rfl, _⟩ <;> decide) (by rcases hd with rfl | rfl | ⟨rfl, _⟩ <;> decide)
  · rw [e]
    intro i hi
    simp only [List.mem_append, List.mem_cons] at hi
    rcases hi with hi | rfl | hi
    · exact (hu i hi).fine
    · exact fine_cmd hk hc.1 hc.2
    · exact hv i hi

theorem fine_join (ss : List S) (h : ∀ s ∈ ss, s.WF) {k : Nat} (hk : CmdOp k) : ∀ i ∈ codeJoin k ss, Fine i := by
  induction ss generalizing k with
  | nil => intro i hi; cases hi
  | cons s r ih =>
    intro i hi
    rcases List.mem_append.mp hi with hi | hi
    · exact fine_s (h s (by simp)) hk i hi
    · exact ih (fun s hs => h s (by simp [hs])) (Or.inr rfl) i hi

theorem fine_branch {b : Branch} (h : b.WF) : ∀ i ∈ b.code, Fine i := by
  cases b with
  | jump l => intro i hi; simp only [Branch.code, List.mem_singleton] at hi; subst hi; exact fine_text (by decide) (by have := h.2.1; omega)
  | run ss => exact fine_join ss h.2.1 (Or.inl rfl)

theorem noElse_branch {b : Branch} (h : b.WF) : NoElse b.code :=
  ⟨fun hm => (fine_branch h _ hm).2.1 rfl, fun hm => (fine_branch h _ hm).2.2 rfl⟩

theorem wf_else (o : Option Branch) (h : ∀ b, o = some b → b.WF) : ∀ i ∈ elseCode o, i.WF := by
  cases o with
  | none => intro i hi; cases hi
  | some b =>
    intro i hi
    rcases List.mem_cons.mp hi with rfl | hi
    · exact cmd_wf (Or.inl rfl) _
    · exact (fine_branch (h b rfl) i hi).1

theorem wf_if (o : Option If) (h : ∀ i, o = some i → i.WF) : ∀ i ∈ ifCode o, i.WF := by
  cases o with
  | none => intro i hi; cases hi
  | some x =>
    have hx := h x rfl
    intro i hi
    simp only [ifCode, List.mem_append, List.mem_cons, List.mem_singleton, List.not_mem_nil, or_false] at hi
    rcases hi with hi | rfl | hi | hi | rfl
    · exact (inert_e _ hx.cond.leaves i hi).1
    · exact cmd_wf (Or.inr rfl) _
    · exact (fine_branch hx.yes i hi).1
    · exact wf_else _ hx.no i hi
    · exact cmd_wf (Or.inl rfl) _

theorem wf_line {l : Line} (h : l.WF) : ∀ i ∈ l.code, i.WF := by
  intro i hi
  rcases List.mem_append.mp hi with hi | hi
  · cases hl : l.label with
    | none => rw [hl] at hi; cases hi
    | some w =>
      rw [hl] at hi
      simp only [labelCode, List.mem_singleton] at hi
      subst hi
      exact ⟨by decide, by have := (h.label w hl).2.1; omega⟩
  · rcases List.mem_append.mp hi with hi | hi
    · rcases List.mem_append.mp hi with hi | hi
      · exact (fine_join _ h.stmts (Or.inr rfl) i hi).1
      · exact wf_if _ h.last i hi
    · cases hd : l.data with
      | none => rw [hd] at hi; cases hi
      | some d =>
        rw [hd] at hi
        simp only [dataCode, List.mem_singleton] at hi
        subst hi
        exact ⟨by decide, (h.data d hd).1.short⟩

theorem wf_prog {prog : List Line} (h : ∀ l ∈ prog, l.WF) : ∀ i ∈ progCode prog, i.WF := by
  intro i hi
  obtain ⟨l, hl, hi⟩ := List.mem_flatMap.mp hi
  exact wf_line (h l hl) i hi

/-- A branch with statements begins with a jump or not with a label. -/
theorem proper_join {ss : List S} (h : ∀ s ∈ ss, s.WF) (hr : ∀ s, ss.head? = some s → s.isRestore = false) : Proper (codeJoin bcCommand ss) := by
  cases ss with
  | nil => exact Or.inl (fun i r e => by cases e)
  | cons s r =>
    show Proper (s.code bcCommand ++ _)
    rcases S.code_shape (h s (by simp)) bcCommand with ⟨u, hu, hc⟩ | ⟨l, d, e, hd, _⟩ | ⟨u, c, v, e0, _, hne, hu, _⟩
    · left
      intro i t e
      cases u with
      | nil =>
        rcases hc with ⟨_, hne⟩ | ⟨c, hc, _⟩
        · exact absurd rfl hne
        · rw [hc] at e
          cases e
          show bcCommand ≠ bcLabelString
          decide
      | cons x u =>
        have : i = x := by
          rcases hc with ⟨hc, hne⟩ | ⟨c, hc, _⟩ <;> (rw [hc] at e; cases e; rfl)
        subst this
        exact (hu i (by simp)).2.1
    · right
      rw [e]
      refine ⟨l, d, _, rfl, ?_⟩
      rcases hd with hd | hd | ⟨_, hd⟩
      · exact Or.inl hd
      · exact Or.inr hd
      · rw [hr s rfl] at hd; cases hd
    · left
      intro i t e
      rw [e0] at e
      cases u with
      | nil => exact absurd rfl hne
      | cons x u =>
        have : i = x := by cases e; rfl
        subst this
        exact (hu i (by simp)).2.1

/-! ## Lengths -/

theorem len_e (e : E) : e.code.length = e.tree.post.length := by
  induction e with
  | num w => rfl
  | str w => rfl
  | var w => rfl
  | paren e ih => exact ih
  | un op e ih => simp [E.code, E.tree, Expr.post, ih]
  | bin op l r ihl ihr => simp [E.code, E.tree, Expr.post, ihl, ihr, Nat.add_assoc]
  | sys v => rfl
  | fn0 f => rfl
  | fn1 f a ih => simp [E.code, E.tree, Expr.post, Args.post, ih]
  | fn2 f a b iha ihb => simp [E.code, E.tree, Expr.post, Args.post, iha, ihb]
  | fn3 f a b c iha ihb ihc => simp [E.code, E.tree, Expr.post, Args.post, iha, ihb, ihc]
  | arr1 sq w a ih => simp [E.code, E.tree, Expr.post, Args.post, ih]
  | arr2 sq w a b iha ihb => simp [E.code, E.tree, Expr.post, Args.post, iha, ihb]

theorem len_arg (a : E) : a.code.length = a.tree.post.length := len_e a

theorem len_args (a : E) (r : List E) : ((a :: r).flatMap E.code).length = (argTrees a r).post.length := by
  induction r generalizing a with
  | nil => simp [argTrees, Args.post, len_arg]
  | cons b r ih =>
    rw [List.flatMap_cons, List.length_append, ih b]
    simp [argTrees, Args.post, len_arg]

theorem len_opt (o : Option E) : (optCode o).length = (optPost (o.map E.tree)).length := by
  cases o with
  | none => rfl
  | some a => exact len_arg a

theorem len_items (l : List (Option E × Nat)) : (itemCode l).length = (itemPost (l.map fun x => (x.1.map E.tree, x.2))).length := by
  induction l with
  | nil => rfl
  | cons x r ih => simp [itemCode, itemPost, len_opt, ih]

end Sbc.Source
