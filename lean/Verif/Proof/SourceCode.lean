import Verif.Proof.SourceTest
import Verif.Props.Code
import Verif.Model.Lexer
import Verif.Props.Data
set_option autoImplicit false
/-!
# Lines of source through `tok_code`
-/
namespace Sbc.Source
open Sbc Sbc.Tok Sbc.Tok.Spec

/-- Code of a constant. -/
def numInstr (v : Int) : Instr :=
  if 0 ≤ v ∧ v < 409600 ∧ v % 4096 = 0 then .simple bcSmallNumber ((v / 4096) % 256).toNat
  else .num (toU32 v / 16777216 % 256) (toU32 v / 65536 % 256) (toU32 v / 256 % 256) (toU32 v % 256)

/-- Code of a variable. -/
def nameInstr : List Nat → Instr
  | [c] => .simple bcVariableName c
  | w => .named bcVariableName w

/-- Code of the name of an array in DIM. -/
def dimInstr : List Nat → Instr
  | [c] => .simple bcDim c
  | w => .named bcDim w

/-- Code of the subscripts of an array and their number. -/
def E.subs (code : E → List Instr) : E → List Instr
  | .arr1 _ _ a => code a ++ [.simple bcArgcount 1]
  | .arr2 _ _ a b => (code a ++ code b) ++ [.simple bcArgcount 2]
  | _ => []

/-- Name of an array. -/
def E.arrName : E → List Nat
  | .arr1 _ w _ => w
  | .arr2 _ w _ _ => w
  | _ => []

/-- Code of an expression. -/
def E.code : E → List Instr
  | .num w => [numInstr (Num.Spec.value w)]
  | .str w => [.text bcString w]
  | .var w => [nameInstr w]
  | .un op e => e.code ++ [.simple bcOperator op]
  | .bin op l r => l.code ++ (r.code ++ [.simple bcOperator op])
  | .paren e => e.code
  | .sys v => [.simple bcSysvar v]
  | .fn0 f => [.simple bcArgcount 0, .simple bcFunction f]
  | .fn1 f a => a.code ++ [.simple bcArgcount 1, .simple bcFunction f]
  | .fn2 f a b => (a.code ++ b.code) ++ [.simple bcArgcount 2, .simple bcFunction f]
  | .fn3 f a b c => (a.code ++ (b.code ++ c.code)) ++ [.simple bcArgcount 3, .simple bcFunction f]
  | .arr1 _ w a => a.code ++ [.simple bcArgcount 1, nameInstr w]
  | .arr2 _ w a b => (a.code ++ b.code) ++ [.simple bcArgcount 2, nameInstr w]

/-- Code of an optional argument. -/
def optCode : Option E → List Instr
  | none => []
  | some a => a.code

/-- Code of the items of PRINT. -/
def itemCode : List (Option E × Nat) → List Instr
  | [] => []
  | x :: r => optCode x.1 ++ (.simple bcOperator x.2 :: itemCode r)

/-- Code of the step of a loop. -/
def stepCode : Option E → List Instr
  | none => []
  | some e => e.code ++ [.simple bcCommand cmdStep]

/-- Code of limit and step of a loop. -/
def ctlCode (b : E) (s : Option E) : List Instr := b.code ++ .simple bcCommand cmdTo :: stepCode s

/-- Code of the name of a variable, if there is one. -/
def optName : Option (List Nat) → List Instr
  | none => []
  | some w => [nameInstr w]

/-- Code of an array in DIM. -/
def E.dimCode (l : E) : List Instr := l.subs E.code ++ [dimInstr l.arrName]

/-- Code of a statement; `k` is the code of the command. -/
def S.code (k : Nat) : S → List Instr
  | .assign w e => nameInstr w :: (e.code ++ [.simple bcOperator opAssign])
  | .cmd c args => args.flatMap E.code ++ [.simple k c]
  | .print items last => itemCode items ++ (optCode last ++ [.simple k cmdPrint])
  | .goto l => [.text bcLabelString l, .simple k cmdGoto]
  | .gosub l => [.text bcLabelString l, .simple k cmdGosub]
  | .ret => [.simple k cmdReturn]
  | .fin => [.simple k cmdEnd]
  | .stop => [.simple k cmdStop]
  | .for' w a b s => nameInstr w :: .simple k cmdFor :: (a.code ++ .simple bcOperator opAssign :: (ctlCode b s ++ [.simple bcBeginLoop 0]))
  | .next w => optName w ++ [.simple k cmdNext]
  | .on e sub ls => e.code ++ .simple k cmdOn :: (ls.map (Instr.text bcLabelString) ++ [.simple bcCommand (jumpWord sub)])
  | .read ls => ls.flatMap E.code ++ [.simple k cmdRead]
  | .restore l => [.text bcLabelString l, .simple k cmdRestore]
  | .dim l r => (l :: r).flatMap E.dimCode
  | .put l e => l.code ++ (e.code ++ [.simple bcOperator opAssign])

/-- Code of statements, the first with the code `k`. -/
def codeJoin (k : Nat) : List S → List Instr
  | [] => []
  | s :: r => s.code k ++ codeJoin bcCommandFirst r

/-- Code of a branch. -/
def Branch.code : Branch → List Instr
  | .jump l => [.text bcLabelString l]
  | .run ss => codeJoin bcCommand ss

/-- Code of ELSE. -/
def elseCode : Option Branch → List Instr
  | none => []
  | some b => .simple bcCommand cmdElse :: b.code

/-- Code of an IF at the end of a line. -/
def ifCode : Option If → List Instr
  | none => []
  | some i => i.cond.code ++ (.simple bcCommandFirst cmdIf :: (i.yes.code ++ (elseCode i.no ++ [.simple bcCommand cmdEndif])))

/-- Code of a label. -/
def labelCode : Option (List Nat) → List Instr
  | none => []
  | some w => [.text bcLabel w]

/-- Code of DATA. -/
def dataCode : Option Data → List Instr
  | none => []
  | some d => [.text bcData (Machine.block d.items)]

/-- Code of a line. -/
def Line.code (l : Line) : List Instr := labelCode l.label ++ (codeJoin bcCommandFirst l.stmts ++ ifCode l.last ++ dataCode l.data)

/-- The words `ts` are compiled to the instructions `is`; system variables that need a check are not among them. -/
def Emits (ts : List Tk) (is : List Instr) : Prop :=
  ∀ (s : CodeSt) (rest : List Tk), s.buf.length % 2 = 0 → ∃ sys, (∀ v ∈ sys, needsValidate v = false) ∧
    codeLoop false (ts ++ rest) s = codeLoop false rest { s with buf := s.buf ++ encode is, sys := sys ++ s.sys }

theorem Emits.nil : Emits [] [] := by
  intro s rest _
  exact ⟨[], by simp, by simp [encode]⟩

theorem Emits.append {t1 t2 : List Tk} {i1 i2 : List Instr} (h1 : Emits t1 i1) (h2 : Emits t2 i2) : Emits (t1 ++ t2) (i1 ++ i2) := by
  intro s rest hs
  obtain ⟨v1, k1, e1⟩ := h1 s (t2 ++ rest) hs
  obtain ⟨v2, k2, e2⟩ := h2 { s with buf := s.buf ++ encode i1, sys := v1 ++ s.sys } rest (by
    have := encode_even i1; simp only [List.length_append]; omega)
  refine ⟨v2 ++ v1, ?_, ?_⟩
  · intro v hv
    rcases List.mem_append.mp hv with h | h
    · exact k2 v h
    · exact k1 v h
  · rw [List.append_assoc, e1, e2]
    simp only [encode_append, List.append_assoc]

theorem Emits.one (k : Tk) (i : Instr) (h : ∀ s : CodeSt, s.buf.length % 2 = 0 → emitTok false s k = .ok ({ s with buf := s.buf ++ i.bytes }, .next)) :
    Emits [k] [i] := by
  intro s rest hs
  refine ⟨[], by simp, ?_⟩
  show codeLoop false (k :: rest) s = _
  rw [codeLoop, h s hs]
  show codeLoop false rest _ = _
  simp [encode]

theorem Emits.cons {k : Tk} {i : Instr} {t : List Tk} {is : List Instr} (h1 : Emits [k] [i]) (h2 : Emits t is) :
    Emits (k :: t) (i :: is) := h1.append h2

theorem emits_num (w : List Nat) (p : Nat) (hc : ∀ c ∈ w, c < 256) (hi : Num.Spec.decVal (Num.Spec.ints w) < 524288)
    (hf : (Num.Spec.fracs w).length ≤ 6) : Emits [⟨.number, w, 0, p⟩] [numInstr (Num.Spec.value w)] := by
  apply Emits.one
  intro s _
  have hlt := Num.decVal_lt _ (Num.fracs_digits w)
  have hle : 10 ^ (Num.Spec.fracs w).length ≤ 10 ^ 6 := Nat.pow_le_pow_right (by decide) hf
  have hn : tokNumber ⟨.number, w, 0, p⟩ = .ok (Num.Spec.value w) := by
    unfold tokNumber
    have h6 : (10 : Nat) ^ 6 = 1000000 := by decide
    exact Num.strToNumber_eq w hc hi (by omega) (by omega)
  have h32 := Num.value_i32 w hi
  have hcode : numberCode (Num.Spec.value w) (TT.number == .number) = some (numInstr (Num.Spec.value w)).bytes := by
    generalize Num.Spec.value w = v at h32
    unfold numberCode numInstr
    unfold I32 at h32
    rw [if_neg (by omega)]
    by_cases h : 0 ≤ v ∧ v < 409600 ∧ v % 4096 = 0
    · rw [if_pos h, if_pos (by omega)]; rfl
    · rw [if_neg h, if_neg (by omega)]; rfl
  exact emit_number false s _ _ _ (Or.inl rfl) hn hcode

theorem emits_op (op p : Nat) (h : op = opSubtract → p % 8 ≠ 6) : Emits [opP op p] [.simple bcOperator op] := by
  apply Emits.one
  intro s _
  show Out.ok (s.put [bcOperator, opCode (opP op p)], Ctl.next) = _
  have : opCode (opP op p) = op := by
    unfold opCode
    rw [if_neg (by rintro ⟨h1, h2⟩; exact h h2 h1)]
    rfl
  rw [this]; rfl

theorem emits_sys (v p : Nat) (hv : needsValidate v = false) : Emits [⟨.sysvar, [], v, p⟩] [.simple bcSysvar v] := by
  intro s rest _
  refine ⟨[v], by simpa using hv, ?_⟩
  show codeLoop false (_ :: rest) s = _
  rw [codeLoop]
  show codeLoop false rest _ = _
  simp [encode, CodeSt.put, Instr.bytes]

theorem emits_call (f n p q : Nat) : Emits [⟨.argCount, [], n, p⟩, ⟨.function, [], f, q⟩] [.simple bcArgcount n, .simple bcFunction f] :=
  Emits.append (t1 := [_]) (i1 := [_]) (Emits.one _ _ fun _ _ => rfl) (Emits.one _ _ fun _ _ => rfl)

theorem emits_cmd (k : TT) (b c p : Nat) (hk : (k = .command ∧ b = bcCommand) ∨ (k = .firstCommand ∧ b = bcCommandFirst)) (hc : c ≠ cmdData) :
    Emits [⟨k, [], c, p⟩] [.simple b c] := by
  apply Emits.one
  intro s _
  rcases hk with ⟨rfl, rfl⟩ | ⟨rfl, rfl⟩ <;> (unfold emitTok; simp only [if_neg hc]; rfl)

theorem emits_name (w : List Nat) (p : Nat) (hl : w.length ≤ 255) : Emits [⟨.name, w, 0, p⟩] [nameInstr w] := by
  apply Emits.one
  intro s hs
  show Out.ok (emitName s ⟨.name, w, 0, p⟩, Ctl.next) = _
  match w, hl with
  | [c], _ => rfl
  | [], hl => exact congrArg (fun x => Out.ok ((⟨x, s.vars, s.sys⟩ : CodeSt), Ctl.next)) (putText_bytes s bcVariableName [] hs hl)
  | a :: b :: r, hl => exact congrArg (fun x => Out.ok ((⟨x, s.vars, s.sys⟩ : CodeSt), Ctl.next)) (putText_bytes s bcVariableName _ hs hl)

theorem emits_elem (w : List Nat) (n p q : Nat) (hl : w.length ≤ 255) :
    Emits [⟨.argCount, [], n, p⟩, ⟨.arrayName, w, 0, q⟩] [.simple bcArgcount n, nameInstr w] := by
  refine Emits.append (t1 := [_]) (i1 := [_]) (Emits.one _ _ fun _ _ => rfl) (Emits.one _ _ fun s hs => ?_)
  show Out.ok (emitName s ⟨.arrayName, w, 0, q⟩, Ctl.next) = _
  match w, hl with
  | [c], _ => rfl
  | [], hl => exact congrArg (fun x => Out.ok ((⟨x, s.vars, s.sys⟩ : CodeSt), Ctl.next)) (putText_bytes s bcVariableName [] hs hl)
  | a :: b :: r, hl => exact congrArg (fun x => Out.ok ((⟨x, s.vars, s.sys⟩ : CodeSt), Ctl.next)) (putText_bytes s bcVariableName _ hs hl)

theorem emits_dimArr (w : List Nat) (n p q : Nat) (hl : w.length ≤ 255) :
    Emits [⟨.argCount, [], n, p⟩, ⟨.dimArr, w, 0, q⟩] [.simple bcArgcount n, dimInstr w] := by
  refine Emits.append (t1 := [_]) (i1 := [_]) (Emits.one _ _ fun _ _ => rfl) (Emits.one _ _ fun s hs => ?_)
  show Out.ok (emitName s ⟨.dimArr, w, 0, q⟩, Ctl.next) = _
  match w, hl with
  | [c], _ => rfl
  | [], hl => exact congrArg (fun x => Out.ok ((⟨x, s.vars, s.sys⟩ : CodeSt), Ctl.next)) (putText_bytes s bcDim [] hs hl)
  | a :: b :: r, hl => exact congrArg (fun x => Out.ok ((⟨x, s.vars, s.sys⟩ : CodeSt), Ctl.next)) (putText_bytes s bcDim _ hs hl)

theorem emits_text (t : TT) (b : Nat) (w : List Nat) (p : Nat) (hl : w.length ≤ 255)
    (ht : (t = .string ∧ b = bcString) ∨ (t = .label ∧ b = bcLabel) ∨ (t = .labelString ∧ b = bcLabelString)) :
    Emits [⟨t, w, 0, p⟩] [.text b w] := by
  apply Emits.one
  intro s hs
  have h := putText_bytes s b w hs hl
  rcases ht with ⟨rfl, rfl⟩ | ⟨rfl, rfl⟩ | ⟨rfl, rfl⟩ <;>
    exact congrArg (fun x => Out.ok ((⟨x, s.vars, s.sys⟩ : CodeSt), Ctl.next)) h

theorem prec_le {op k : Nat} (h : prec op = some k) : k ≤ 5 := by
  unfold prec at h
  split at h
  · cases h; decide
  · split at h
    · cases h; decide
    · split at h
      · cases h; decide
      · split at h
        · cases h; decide
        · cases h

theorem emits_e : (e : E) → (n : Nat) → n % 8 = 0 → e.tree.WF → e.Leaves → Emits (e.tree.postP n) e.code
  | .num w, n, _, _, h => emits_num w n h.1 h.2.1 h.2.2
  | .str w, n, _, _, h => emits_text .string bcString w n h (Or.inl ⟨rfl, rfl⟩)
  | .var w, n, _, _, h => emits_name w n (by have := anyName_len h; omega)
  | .un op e, n, hn, hw, h => by
    refine (emits_e e n hn hw.2.2 h).append (emits_op op _ ?_)
    intro e1
    have := hw.1
    rw [e1] at this
    exact absurd this (by decide)
  | .bin op l r, n, hn, hw, h => by
    obtain ⟨k, hk, _, _, hl, hr⟩ := hw
    show Emits (l.tree.postP n ++ r.tree.postP n ++ [opP op (n + (prec op).getD 0)]) _
    rw [List.append_assoc]
    refine (emits_e l n hn hl h.1).append ((emits_e r n hn hr h.2).append (emits_op op _ ?_))
    intro _
    have := prec_le hk
    rw [hk]
    show (n + k) % 8 ≠ 6
    omega
  | .paren e, n, hn, hw, h => emits_e e (n + 8) (by omega) hw h
  | .sys v, n, _, _, h => emits_sys v n h.2
  | .fn0 f, n, _, _, _ => emits_call f 0 _ _
  | .fn1 f a, n, hn, hw, h => (emits_e a (n + 8) (by omega) hw.2 h.2).append (emits_call f 1 _ _)
  | .fn2 f a b, n, hn, hw, h => ((emits_e a (n + 8) (by omega) hw.2.1 h.2.1).append (emits_e b (n + 8) (by omega) hw.2.2 h.2.2)).append (emits_call f 2 _ _)
  | .fn3 f a b c, n, hn, hw, h => ((emits_e a (n + 8) (by omega) hw.2.1 h.2.1).append ((emits_e b (n + 8) (by omega) hw.2.2.1 h.2.2.1).append
      (emits_e c (n + 8) (by omega) hw.2.2.2 h.2.2.2))).append (emits_call f 3 _ _)
  | .arr1 sq w a, n, hn, hw, h => (emits_e a (n + 8) (by omega) hw.2 h.2).append (emits_elem w 1 _ _ (by have := anyName_len h.1.1; omega))
  | .arr2 sq w a b, n, hn, hw, h => ((emits_e a (n + 8) (by omega) hw.2.1 h.2.1).append (emits_e b (n + 8) (by omega) hw.2.2 h.2.2)).append
      (emits_elem w 2 _ _ (by have := anyName_len h.1.1; omega))

theorem emits_arg {a : E} (h : a.Good) : Emits (a.tree.postP 0) a.code := emits_e a 0 rfl h.tree h.leaves

theorem emits_expr {e : E} (h : e.WF) : Emits (e.tree.postP 0) e.code := emits_arg h.toGood

theorem emits_args : (a : E) → (r : List E) → (∀ x ∈ a :: r, x.Good) → Emits ((argTrees a r).postP 0) ((a :: r).flatMap E.code)
  | a, [], h => by
    have := emits_arg (h a (by simp))
    simpa [argTrees, Args.postP] using this
  | a, b :: r, h => by
    rw [List.flatMap_cons]
    exact (emits_arg (h a (by simp))).append (emits_args b r (fun x hx => h x (by simp at hx ⊢; right; exact hx)))

theorem emits_opt (o : Option E) (h : ∀ a, o = some a → a.Good) : Emits (optPostP (o.map E.tree)) (optCode o) := by
  cases o with
  | none => exact Emits.nil
  | some a => exact emits_arg (h a rfl)

theorem emits_items : (l : List (Option E × Nat)) → (∀ x ∈ l, (∀ a, x.1 = some a → a.Good) ∧ (x.2 = opComma ∨ x.2 = opSemicolon)) →
    Emits (itemPostP (l.map fun x => (x.1.map E.tree, x.2))) (itemCode l)
  | [], _ => Emits.nil
  | x :: r, h => by
    obtain ⟨h1, h2⟩ := h x (by simp)
    refine (emits_opt x.1 h1).append (Emits.cons (emits_op x.2 1 (fun _ => by decide)) (emits_items r fun y hy => h y (by simp [hy])))

/-- Kind of a command word and the code written for it. -/
def KindB (k : TT) (b : Nat) : Prop := (k = .command ∧ b = bcCommand) ∨ (k = .firstCommand ∧ b = bcCommandFirst)

theorem emits_step (s : Option E) (h : ∀ e, s = some e → e.WF) : Emits (stepPost s) (stepCode s) := by
  cases s with
  | none => exact Emits.nil
  | some e => exact (emits_expr (h e rfl)).append (emits_cmd .command bcCommand cmdStep 0 (Or.inl ⟨rfl, rfl⟩) (by decide))

theorem emits_loop : Emits [loopTok] [.simple bcBeginLoop 0] := Emits.one _ _ fun _ _ => rfl

theorem emits_labels : (ls : List (List Nat)) → (∀ l ∈ ls, Names.GoodName l) → Emits (ls.map labelStr) (ls.map (Instr.text bcLabelString))
  | [], _ => Emits.nil
  | l :: r, h => Emits.cons (emits_text .labelString _ l 0 (by have := (h l (by simp)).2; omega) (Or.inr (Or.inr ⟨rfl, rfl⟩)))
      (emits_labels r fun x hx => h x (by simp [hx]))

theorem emits_dim {l : E} (h : l.isCell = true ∧ l.Good ∧ l.tree.post.length ≤ 40) : Emits (dimPost l.tree) l.dimCode := by
  unfold E.dimCode
  obtain ⟨hcell, hg, _⟩ := h
  have ht := hg.tree
  have hv := hg.leaves
  cases l with
  | arr1 sq w a =>
    have h2 := (emits_e a 8 rfl ht.2 hv.2).append (emits_dimArr w 1 8 7 (by have := anyName_len hv.1.1; omega))
    simpa [dimPost, E.tree, E.subs, E.arrName, Args.postP, Args.count] using h2
  | arr2 sq w a b =>
    have h2 := ((emits_e a 8 rfl ht.2.1 hv.2.1).append (emits_e b 8 rfl ht.2.2 hv.2.2)).append (emits_dimArr w 2 8 7 (by have := anyName_len hv.1.1; omega))
    simpa [dimPost, E.tree, E.subs, E.arrName, Args.postP, Args.count] using h2
  | _ => cases hcell

theorem emits_dims : (ls : List E) → (∀ l ∈ ls, l.isCell = true ∧ l.Good ∧ l.tree.post.length ≤ 40) →
    Emits (ls.flatMap fun l => dimPost l.tree) (ls.flatMap E.dimCode)
  | [], _ => Emits.nil
  | l :: r, h => (emits_dim (h l (by simp))).append (emits_dims r fun x hx => h x (by simp [hx]))

theorem emits_s {s : S} (h : s.WF) (k : TT) (b : Nat) (hk : KindB k b) : Emits (s.postQ k) (s.code b) := by
  cases s with
  | assign w e =>
    show Emits ([⟨.name, w, 0, 0⟩] ++ e.tree.postP 0 ++ [opP opAssign 0]) _
    rw [List.append_assoc]
    exact (emits_name w 0 (by have := anyName_len (assign_name h); omega)).append ((emits_arg (assign_good h)).append (emits_op opAssign 0 (by decide)))
  | cmd c args =>
    have hc : c ≠ cmdData := by
      have := h.1.2.1
      intro e
      rw [e] at this
      exact this (by decide)
    cases args with
    | nil => exact emits_cmd k b c 0 hk hc
    | cons a r => exact (emits_args a r h.2.1).append (emits_cmd k b c 0 hk hc)
  | print items last =>
    show Emits (itemPostP _ ++ optPostP _ ++ _) _
    rw [List.append_assoc]
    exact (emits_items items h.1).append ((emits_opt last h.2.1).append (emits_cmd k b cmdPrint 0 hk (by decide)))
  | goto l => exact Emits.cons (emits_text .labelString _ l 0 (by have := h.2; omega) (Or.inr (Or.inr ⟨rfl, rfl⟩))) (emits_cmd k b cmdGoto 0 hk (by decide))
  | gosub l => exact Emits.cons (emits_text .labelString _ l 0 (by have := h.2; omega) (Or.inr (Or.inr ⟨rfl, rfl⟩))) (emits_cmd k b cmdGosub 0 hk (by decide))
  | restore l => exact Emits.cons (emits_text .labelString _ l 0 (by have := h.2; omega) (Or.inr (Or.inr ⟨rfl, rfl⟩))) (emits_cmd k b cmdRestore 0 hk (by decide))
  | read ws =>
    cases ws with
    | nil => exact absurd rfl h.1
    | cons w r => exact (emits_args w r fun x hx => (h.2.1 x hx).2).append (emits_cmd k b cmdRead 0 hk (by decide))
  | dim l r => exact emits_dims (l :: r) h
  | put l e =>
    obtain ⟨h1, h2⟩ := put_good h
    show Emits (l.tree.postP 0 ++ e.tree.postP 0 ++ [opP opAssign 0]) _
    rw [List.append_assoc]
    exact (emits_arg h1).append ((emits_arg h2).append (emits_op opAssign 0 (by decide)))
  | ret => exact emits_cmd k b cmdReturn 0 hk (by decide)
  | fin => exact emits_cmd k b cmdEnd 0 hk (by decide)
  | stop => exact emits_cmd k b cmdStop 0 hk (by decide)
  | next w =>
    cases w with
    | none => exact emits_cmd k b cmdNext 0 hk (by decide)
    | some w => exact Emits.cons (emits_name w 0 (by have := (h w rfl).1.2.1; omega)) (emits_cmd k b cmdNext 0 hk (by decide))
  | on e sub ls =>
    obtain ⟨⟨he, _⟩, _, hl⟩ := h
    exact (emits_expr he).append (Emits.cons (emits_cmd k b cmdOn 0 hk (by decide)) ((emits_labels ls hl).append
      (emits_cmd .command bcCommand (jumpWord sub) 0 (Or.inl ⟨rfl, rfl⟩) (by cases sub <;> decide))))
  | for' w a b' s =>
    obtain ⟨hv, ⟨ha, _⟩, ⟨hb, _⟩, hs, _⟩ := h
    refine Emits.cons (emits_name w 0 (by have := hv.1.2.1; omega)) (Emits.cons (emits_cmd k b cmdFor 0 hk (by decide)) ((emits_expr ha).append
      (Emits.cons (emits_op opAssign 0 (by decide)) ?_)))
    show Emits _ ((b'.code ++ _ :: stepCode s) ++ _)
    rw [List.append_assoc]
    exact (emits_expr hb).append (Emits.cons (emits_cmd .command bcCommand cmdTo 0 (Or.inl ⟨rfl, rfl⟩) (by decide))
      ((emits_step s (fun e he => (hs e he).1)).append emits_loop))

theorem emits_join : (ss : List S) → (∀ s ∈ ss, s.WF) → (k : TT) → (b : Nat) → KindB k b → Emits (postJoin k ss) (codeJoin b ss)
  | [], _, _, _, _ => Emits.nil
  | s :: r, h, k, b, hk => (emits_s (h s (by simp)) k b hk).append
      (emits_join r (fun x hx => h x (by simp [hx])) .firstCommand bcCommandFirst (Or.inr ⟨rfl, rfl⟩))

theorem emits_branch {b : Branch} (h : b.WF) : Emits b.postQ b.code := by
  cases b with
  | jump l => exact emits_text .labelString _ l 0 (by have := h.2; omega) (Or.inr (Or.inr ⟨rfl, rfl⟩))
  | run ss => exact emits_join ss h.2.1 .command bcCommand (Or.inl ⟨rfl, rfl⟩)

theorem emits_else (o : Option Branch) (h : ∀ b, o = some b → b.WF) : Emits (elsePost o) (elseCode o) := by
  cases o with
  | none => exact Emits.nil
  | some b => exact Emits.cons (emits_cmd .command bcCommand cmdElse 0 (Or.inl ⟨rfl, rfl⟩) (by decide)) (emits_branch (h b rfl))

theorem emits_if (o : Option If) (h : ∀ i, o = some i → i.WF) : Emits (ifPost o) (ifCode o) := by
  cases o with
  | none => exact Emits.nil
  | some i =>
    have hi := h i rfl
    show Emits ((i.cond.tree.postP 0 ++ ⟨.firstCommand, [], cmdIf, 0⟩ :: (i.yes.postQ ++ elsePost i.no)) ++ [endifTok]) _
    rw [List.append_assoc]
    refine (emits_expr hi.cond).append ?_
    show Emits (_ :: ((i.yes.postQ ++ elsePost i.no) ++ [endifTok])) _
    rw [List.append_assoc]
    exact Emits.cons (emits_cmd .firstCommand bcCommandFirst cmdIf 0 (Or.inr ⟨rfl, rfl⟩) (by decide))
      ((emits_branch hi.yes).append ((emits_else i.no hi.no).append (emits_cmd .command bcCommand cmdEndif 0 (Or.inl ⟨rfl, rfl⟩) (by decide))))

theorem emits_label (o : Option (List Nat)) (h : ∀ w, o = some w → Names.GoodName w) : Emits (labelPost o) (labelCode o) := by
  cases o with
  | none => exact Emits.nil
  | some w => exact emits_text .label _ w 0 (by have := (h w rfl).2; omega) (Or.inr (Or.inl ⟨rfl, rfl⟩))

/-- The code of DATA. -/
theorem tokData_src {d : Data} (h : d.WF) (buf : List Nat) (hb : buf.length % 2 = 0) :
    tokData buf (d.text ++ [13]) = buf ++ encode (dataCode (some d)) := by
  have := h.short
  unfold tokData
  dsimp only
  rw [Machine.C37_line h.line, padEven_text _ _ _ hb, Nat.mod_eq_of_lt (by omega)]
  simp [encode, Instr.bytes, dataCode]

theorem validations_none (sys : List Nat) (hv : ∀ v ∈ sys, needsValidate v = false) : validations (sys ++ []) = [] := by
  unfold validations
  rw [List.filter_eq_nil_iff.mpr, List.flatMap_nil]
  intro v _ h
  simp only [List.append_nil, List.contains_eq_mem, Bool.and_eq_true, decide_eq_true_eq] at h
  rw [hv v h.1] at h
  exact absurd h.2 (by decide)

/-- The whole line. -/
theorem tokCode_src {l : Line} (h : l.WF) (buf : List Nat) (vars : Vars.Table) (hb : buf.length % 2 = 0) :
    tokCode false l.postQ buf vars = .ok (buf ++ encode l.code, vars, none) := by
  obtain ⟨sys, hv, this⟩ := (emits_label l.label h.label).append ((emits_join l.stmts h.stmts .firstCommand bcCommandFirst (Or.inr ⟨rfl, rfl⟩)).append
    (emits_if l.last h.last)) ⟨buf, vars, []⟩ (dataPost l.data) hb
  unfold tokCode
  have hq : l.postQ = labelPost l.label ++ (postJoin .firstCommand l.stmts ++ ifPost l.last) ++ dataPost l.data := by
    unfold Line.postQ; simp
  have hc : l.code = labelCode l.label ++ (codeJoin bcCommandFirst l.stmts ++ ifCode l.last) ++ dataCode l.data := by
    unfold Line.code; simp
  rw [hq, this, hc]
  generalize labelCode l.label ++ (codeJoin bcCommandFirst l.stmts ++ ifCode l.last) = c
  cases hd : l.data with
  | none =>
    show Out.ok (buf ++ encode c ++ validations (sys ++ []), vars, none) = _
    rw [validations_none sys hv, List.append_nil]
    simp [dataCode]
  | some d =>
    have he : emitTok false ⟨buf ++ encode c, vars, sys ++ []⟩ d.tk = .ok (⟨tokData (buf ++ encode c) (d.text ++ [13]), vars, sys ++ []⟩, .stop) := rfl
    have hl : codeLoop false (dataPost (some d)) ⟨buf ++ encode c, vars, sys ++ []⟩ =
        .ok (⟨tokData (buf ++ encode c) (d.text ++ [13]), vars, sys ++ []⟩, none) := by
      show codeLoop false [d.tk] _ = _
      rw [codeLoop, he]
      rfl
    show (codeLoop false (dataPost (some d)) ⟨buf ++ encode c, vars, sys ++ []⟩).bind _ = _
    rw [hl, tokData_src (h.data d hd).1 _ (by have := encode_even c; rw [List.length_append]; omega)]
    show Out.ok (buf ++ encode c ++ encode (dataCode (some d)) ++ validations (sys ++ []), vars, none) = _
    rw [validations_none sys hv, List.append_nil, encode_append]
    simp

end Sbc.Source
