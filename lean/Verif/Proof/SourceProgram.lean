import Verif.Proof.SourceCode
import Verif.Props.Compile
set_option autoImplicit false
/-!
# Programs of source lines through the whole compiler
-/
namespace Sbc.Source
open Sbc Sbc.Tok Sbc.Tok.Spec

theorem lexes_scan {s : Lx} {toks : List Tk} {rest : List Nat} (h : Lexes s toks rest) :
    ∀ m, s.rest.length ≤ m → scanLine m s = .ok (.ok toks) := by
  induction h with
  | @done s toks rest e =>
    intro m hm
    obtain ⟨h1, h2, -⟩ := tokNone_stepped e
    have hlt : rest.length < s.rest.length := by
      rcases h2 with ⟨e, h2⟩ | h2
      · cases h2
      · exact h2
    obtain ⟨m, rfl⟩ : ∃ m', m = m' + 1 := ⟨m - 1, by omega⟩
    unfold scanLine
    rw [e]; rfl
  | @step s s' toks rest e hl ih =>
    intro m hm
    obtain ⟨h1, h2, -⟩ := tokNone_stepped e
    have hlt : s'.rest.length < s.rest.length := by
      rcases h2 with ⟨e, h2⟩ | h2
      · cases h2
      · exact h2
    obtain ⟨m, rfl⟩ : ∃ m', m = m' + 1 := ⟨m - 1, by omega⟩
    unfold scanLine
    rw [e]
    exact ih m (by omega)

theorem lineScan_src {a : List Nat} {l : Line} (h : Written a l) (hlen : l.toks.length ≤ 100) : lineScan a = .ok (.ok l.toks) := by
  obtain ⟨lead, ws, t, hwf, ht, hk⟩ := h
  have := C77_line_partial ws t lead [] hwf (by rw [hk]; exact hlen)
  rw [List.append_nil, ← ht, hk] at this
  exact lexes_scan this (a.length + 1) (by simp)

/-! ## One line -/

theorem E.toks_head : (e : E) → ∃ t r, e.tree.toks = t :: r ∧ t.ty ≠ .label
  | .num w => ⟨_, _, rfl, by simp⟩
  | .str w => ⟨_, _, rfl, by simp⟩
  | .var w => ⟨_, _, rfl, by simp⟩
  | .un op e => ⟨_, _, rfl, by simp [opTk]⟩
  | .bin op l r => by
    obtain ⟨t, q, h1, h2⟩ := E.toks_head l
    refine ⟨t, q ++ (opTk op :: r.tree.toks), ?_, h2⟩
    show l.tree.toks ++ _ = _
    rw [h1]; rfl
  | .paren e => ⟨_, _, rfl, by simp [opTk]⟩
  | .sys v => ⟨_, _, rfl, by simp⟩
  | .fn0 f => ⟨_, _, rfl, by simp⟩
  | .fn1 f a => ⟨_, _, rfl, by simp⟩
  | .fn2 f a b => ⟨_, _, rfl, by simp⟩
  | .fn3 f a b c => ⟨_, _, rfl, by simp⟩
  | .arr1 sq w a => ⟨_, _, rfl, by simp⟩
  | .arr2 sq w a b => ⟨_, _, rfl, by simp⟩

theorem S.toks_head (s : S) : ∃ t r, s.toks = t :: r ∧ t.ty ≠ .label := by
  cases s with
  | assign w e => exact ⟨_, _, rfl, by simp⟩
  | cmd c args => cases args <;> exact ⟨_, _, rfl, by simp [cmdTk]⟩
  | print i l => exact ⟨_, _, rfl, by decide⟩
  | goto l => exact ⟨_, _, rfl, by decide⟩
  | gosub l => exact ⟨_, _, rfl, by decide⟩
  | ret => exact ⟨_, _, rfl, by decide⟩
  | fin => exact ⟨_, _, rfl, by decide⟩
  | stop => exact ⟨_, _, rfl, by decide⟩
  | for' w a b st => exact ⟨_, _, rfl, by decide⟩
  | on e sub ls => exact ⟨_, _, rfl, by decide⟩
  | restore l => exact ⟨_, _, rfl, by decide⟩
  | read ws => cases ws <;> exact ⟨_, _, rfl, by decide⟩
  | next w => cases w <;> exact ⟨_, _, rfl, by decide⟩
  | dim l r => exact ⟨_, _, rfl, by decide⟩
  | put l e =>
    obtain ⟨t, r, h1, h2⟩ := E.toks_head l
    exact ⟨t, _, by show l.tree.toks ++ _ = _; rw [h1]; rfl, h2⟩

theorem joinToks_head (p : List Tk) (r : List (List Tk)) (t : Tk) (q : List Tk) (h : p = t :: q) :
    ∃ q', joinToks (p :: r) = t :: q' := by
  subst h
  cases r with
  | nil => exact ⟨_, rfl⟩
  | cons a b => exact ⟨_, rfl⟩

/-- The first word of a line is its label, or no label. -/
theorem Line.toks_head (l : Line) : ∃ t r, l.toks = t :: r ∧
    (∀ w, l.label = some w → t = labelTk w) ∧ (l.label = none → t.ty ≠ .label) := by
  have fin : ∀ (p : List Tk) (r : List (List Tk)) (t : Tk) (q : List Tk), p = t :: q → l.pieces = p :: r →
      ∃ q', l.toks = t :: q' := by
    intro p r t q hp hl
    obtain ⟨q', h⟩ := joinToks_head p r t q hp
    refine ⟨q' ++ [endTk], ?_⟩
    unfold Line.toks
    rw [hl, h]; rfl
  cases hlab : l.label with
  | some w =>
    obtain ⟨q', h⟩ := fin [labelTk w] (l.stmts.map S.toks ++ (match l.last with | none => [] | some i => [i.toks]) ++ (match l.data with | none => [] | some d => [[d.tk]])) (labelTk w) [] rfl
      (by unfold Line.pieces; rw [hlab]; rfl)
    exact ⟨_, _, h, by rintro w' h; cases h; rfl, by simp⟩
  | none =>
    cases hs : l.stmts with
    | cons s ss =>
      obtain ⟨t, r, h1, h2⟩ := S.toks_head s
      obtain ⟨q', h⟩ := fin s.toks (ss.map S.toks ++ (match l.last with | none => [] | some i => [i.toks]) ++ (match l.data with | none => [] | some d => [[d.tk]])) t r h1
        (by unfold Line.pieces; rw [hlab, hs]; rfl)
      exact ⟨_, _, h, by simp, fun _ => h2⟩
    | nil =>
      cases hi : l.last with
      | some i =>
        obtain ⟨q', h⟩ := fin i.toks (match l.data with | none => [] | some d => [[d.tk]]) (cmdTk cmdIf) _ rfl (by unfold Line.pieces; rw [hlab, hs, hi]; rfl)
        exact ⟨_, _, h, by simp, fun _ => by simp [cmdTk]⟩
      | none =>
        cases hd : l.data with
        | none =>
          refine ⟨endTk, [], ?_, by simp, fun _ => by simp [endTk]⟩
          unfold Line.toks Line.pieces
          rw [hlab, hs, hi, hd]; rfl
        | some d =>
          obtain ⟨q', h⟩ := fin [d.tk] [] d.tk [] rfl (by unfold Line.pieces; rw [hlab, hs, hi, hd]; rfl)
          exact ⟨_, _, h, by simp, fun _ => by simp [Data.tk]⟩

theorem convert_src {l : Line} (h : l.WF) (pre : Tk) (o : Obj) (hb : o.buf.length % 2 = 0) (hc : o.lines < o.cap) :
    convertCode false pre l.toks o = .ok ({ o with buf := o.buf ++ encode l.code, lines := o.lines + 1 }, none) := by
  unfold convertCode
  rw [tokPrio_line pre l h, tokEval_src l h, ok_bind, tokTest_src l h, ok_bind, if_neg (by simp), tokCode_src h _ _ hb, ok_bind]
  dsimp only
  rw [if_pos hc]

/-- The line alone. -/
theorem alone_src {a : List Nat} {l : Line} (hw : Written a l) (h : l.WF) (hc : Contained a) (pre : Tk) (n : Nat) (o : Obj)
    (ht : TableFrom n o.labels) (hcap : 0 < o.cap) : Alone plainOpts pre o a l.label (encode l.code) := by
  obtain ⟨s0, hs0, hrel0⟩ := ht.rel
  have hf : Labels.Rel (Obj.fresh o).labels ⟨2 ^ n, []⟩ := by
    have := reset_rel hrel0
    rw [hs0] at this
    exact this
  refine ⟨?_, h.label⟩
  rw [alone_eq plainOpts pre a o hc, lineScan_src hw (by have := h.len; omega), ok_bind]
  unfold lineEffect
  dsimp only
  obtain ⟨t, r, e, h1, h2⟩ := l.toks_head
  cases hl : l.label with
  | none =>
    have hconv : tokConvert plainOpts pre l.toks (Obj.fresh o) = .ok ({ Obj.fresh o with buf := encode l.code, lines := 1 }, none) := by
      have k := convert_src h pre (Obj.fresh o) rfl hcap
      unfold tokConvert
      rw [e]
      dsimp only
      rw [if_neg (h2 hl), ← e]
      exact k
    rw [hconv]
    refine ⟨_, rfl, rfl, fun name hn => ?_⟩
    rw [labelIndex_rel (show Labels.Rel (Obj.fresh o).labels ⟨2 ^ n, []⟩ from hf) hn]
    simp
  | some w =>
    have hw' := h.label w hl
    have hadd0 := add_rel hf hw' (Obj.fresh o).buf.length
    rw [if_neg (by have : 0 < 2 ^ n := Nat.two_pow_pos n
                   simp; omega)] at hadd0
    obtain ⟨a1, a2⟩ := hadd0
    have hconv : tokConvert plainOpts pre l.toks (Obj.fresh o) = .ok ({ Obj.fresh o with
        buf := encode l.code, lines := 1, labels := (Labels.add (Obj.fresh o).labels w (Obj.fresh o).buf.length).1 }, none) := by
      have k := convert_src h pre { Obj.fresh o with labels := (Labels.add (Obj.fresh o).labels w (Obj.fresh o).buf.length).1 } rfl hcap
      unfold tokConvert
      rw [e, h1 w hl]
      dsimp only
      rw [if_pos (show (labelTk w).ty = .label from rfl)]
      rw [show (labelTk w).text = w from rfl, if_neg (by rw [a1]; simp), if_neg (by simp [plainOpts]), ← h1 w hl, ← e]
      exact k
    rw [hconv]
    refine ⟨_, rfl, rfl, fun name hn => ?_⟩
    rw [labelIndex_rel a2 hn]
    show List.lookup name [(w, 0)] = _
    by_cases he : w = name
    · subst he; simp [List.lookup]
    · have : (name == w) = false := by simp; exact fun e => he e.symm
      simp [List.lookup, this, he]

/-! ## The program -/

/-- Code of a program. -/
def progCode (prog : List Line) : List Instr := prog.flatMap Line.code

/-- The labels with the positions of their lines, `pos` being the position of the first line. -/
def progLabels : Nat → List Line → List (List Nat × Nat)
  | _, [] => []
  | pos, l :: r => (match l.label with | none => [] | some w => [(w, pos)]) ++ progLabels (pos + posAfter l.code) r

theorem lookup_none_of_not_mem {α : Type} (l : List (List Nat × α)) (w : List Nat) (h : w ∉ l.map (·.1)) : l.lookup w = none := by
  induction l with
  | nil => rfl
  | cons x r ih =>
    obtain ⟨k, v⟩ := x
    simp only [List.map_cons, List.mem_cons, not_or] at h
    rw [List.lookup_cons]
    have : (w == k) = false := by simpa using h.1
    rw [this]
    exact ih h.2

theorem joined_src (cap : Nat) : (prog : List Line) → (defs : List (List Nat × Nat)) → (code : List Nat) →
    (defs.map (·.1) ++ prog.filterMap Line.label).Nodup → defs.length + (prog.filterMap Line.label).length ≤ cap →
    joined cap defs code (prog.map fun l => (l.label, encode l.code)) = (defs ++ progLabels code.length prog, code ++ encode (progCode prog))
  | [], defs, code, _, _ => by simp [joined, progLabels, progCode, encode]
  | l :: r, defs, code, hn, hc => by
    have e : encode (progCode (l :: r)) = encode l.code ++ encode (progCode r) := by
      unfold progCode; rw [List.flatMap_cons, encode_append]
    cases hl : l.label with
    | none =>
      rw [List.filterMap_cons, hl] at hn hc
      rw [List.map_cons, hl]
      show joined cap defs (code ++ encode l.code) _ = _
      rw [joined_src cap r defs _ hn hc, e]
      rw [show progLabels code.length (l :: r) = progLabels (code.length + posAfter l.code) r by
        show (match l.label with | none => [] | some w => [(w, code.length)]) ++ _ = _
        rw [hl]; rfl]
      rw [List.length_append, List.append_assoc]
      rfl
    | some w =>
      rw [List.filterMap_cons, hl] at hn hc
      rw [List.map_cons, hl]
      have h1 : w ∉ defs.map (·.1) := by
        intro hm
        have := (List.nodup_append.mp hn).2.2
        exact this w hm w (by simp) rfl
      simp only [joined]
      rw [lookup_none_of_not_mem defs w h1]
      dsimp only at hc
      rw [List.length_cons] at hc
      rw [if_neg (by simp; omega)]
      rw [joined_src cap r (defs ++ [(w, code.length)]) _ (by
        rw [List.map_append, List.append_assoc]; exact hn) (by rw [List.length_append]; simp only [List.length_cons, List.length_nil]; omega)]
      rw [e]
      show _ = (defs ++ progLabels code.length (l :: r), _)
      rw [show progLabels code.length (l :: r) = [(w, code.length)] ++ progLabels (code.length + posAfter l.code) r by
        show (match l.label with | none => [] | some w => [(w, code.length)]) ++ _ = _
        rw [hl]]
      rw [List.length_append, List.append_assoc, List.append_assoc]
      rfl

theorem lookup_labels (name : List Nat) : (prog : List Line) → (pos : Nat) →
    (progLabels pos prog).lookup name = (target prog name).map fun k => pos + posAfter (progCode (prog.take k))
  | [], pos => by simp [progLabels, target]
  | l :: r, pos => by
    have ih := lookup_labels name r (pos + posAfter l.code)
    have hpos : ∀ k, posAfter (progCode ((l :: r).take (k + 1))) = posAfter l.code + posAfter (progCode (r.take k)) := by
      intro k
      show posAfter (progCode (l :: r.take k)) = _
      unfold progCode posAfter
      rw [List.flatMap_cons, encode_append, List.length_append]
    have ht : target (l :: r) name = if l.label == some name then some 0 else (target r name).map (· + 1) := by
      unfold target
      rw [List.findIdx?_cons]
    have hrest : (progLabels (pos + posAfter l.code) r).lookup name =
        ((target r name).map (· + 1)).map fun k => pos + posAfter (progCode ((l :: r).take k)) := by
      rw [ih]
      cases target r name with
      | none => rfl
      | some k => simp only [Option.map_some, hpos]; congr 1; omega
    cases hl : l.label with
    | none =>
      show List.lookup name ((match l.label with | none => [] | some w => [(w, pos)]) ++ _) = _
      rw [hl]
      rw [ht, hl, if_neg (by simp)]
      exact hrest
    | some w =>
      show List.lookup name ((match l.label with | none => [] | some w => [(w, pos)]) ++ _) = _
      rw [hl, ht, hl]
      show List.lookup name ((w, pos) :: _) = _
      rw [List.lookup_cons]
      by_cases he : w = name
      · subst he
        simp [progCode, posAfter, encode]
      · have h1 : (name == w) = false := by simp; exact fun e => he e.symm
        have h2 : ((some w : Option (List Nat)) == some name) = false := by simpa using he
        rw [h1, if_neg (by rw [h2]; simp)]
        exact hrest

/-- A program compiles to the code of its lines; a label is the position of its line. -/
theorem compile_src (pre : Tk) (n : Nat) (o : Obj) (ht : TableFrom n o.labels) (src : List (List Nat)) (prog : List Line)
    (hl : ∀ a ∈ src, Contained a ∧ 0 ∉ a) (hw : List.Forall₂ Written src prog) (hwf : ∀ l ∈ prog, l.WF)
    (hcap : src.length ≤ o.cap) (hnd : (prog.filterMap Line.label).Nodup) (hroom : (prog.filterMap Line.label).length ≤ 2 ^ n) :
    ∃ o', tokenize plainOpts pre (programText src) o = .ok (o', none) ∧ o'.buf = encode (progCode prog) ∧
      ∀ name, Names.GoodName name →
        Labels.labelIndex o'.labels name = (target prog name).map fun k => posAfter (progCode (prog.take k)) := by
  have hall : ∀ (src' : List (List Nat)) (prog' : List Line), List.Forall₂ Written src' prog' → (∀ a ∈ src', a ∈ src) → (∀ l ∈ prog', l ∈ prog) →
      List.Forall₂ (fun a x => Alone plainOpts pre o a x.1 x.2) src' (prog'.map fun l => (l.label, encode l.code)) := by
    intro src' prog' h
    induction h with
    | nil => intro _ _; exact .nil
    | @cons a l as ls hal hrest ih =>
      intro h1 h2
      have ha := h1 a (by simp)
      refine .cons (alone_src hal (hwf l (h2 l (by simp))) (hl a ha).1 pre n o ht ?_)
        (ih (fun x hx => h1 x (by simp [hx])) (fun x hx => h2 x (by simp [hx])))
      have := List.length_pos_of_mem ha
      omega
  obtain ⟨o', h1, h2, h3⟩ := C79_lines_joined plainOpts pre n o rfl rfl ht src _ hcap hl (hall src prog hw (fun _ h => h) (fun _ h => h))
  have hj := joined_src (2 ^ n) prog [] [] (by simpa using hnd) (by simpa using hroom)
  rw [hj] at h2 h3
  refine ⟨o', h1, by simpa using h2, fun name hn => ?_⟩
  rw [h3 name hn]
  have := lookup_labels name prog 0
  simp only [Nat.zero_add] at this
  simpa using this

end Sbc.Source
