import Verif.Proof.SourcePrio
set_option autoImplicit false
/-!
# Lines of source through `tok_eval`
-/
namespace Sbc.Source
open Sbc Sbc.Tok Sbc.Tok.Spec

/-- Compiled form of a statement whose command word has the type `k`, with the scratch fields left by the compiler. -/
def postS (k : TT) : Stmt → List Tk
  | .empty => []
  | .assign l e => l.postP 0 ++ e.postP 0 ++ [opP opAssign 0]
  | .cmd0 c => [⟨k, [], c, 0⟩]
  | .cmd c a => a.postP 0 ++ [⟨k, [], c, 0⟩]
  | .print items last => itemPostP items ++ optPostP last ++ [⟨k, [], cmdPrint, 0⟩]

/-- Compiled form of the step of a loop. -/
def stepPost : Option E → List Tk
  | none => []
  | some e => e.tree.postP 0 ++ [⟨.command, [], cmdStep, 0⟩]

/-- Compiled form of a label to go to. -/
def labelStr (l : List Nat) : Tk := ⟨.labelString, l, 0, 0⟩

/-- Compiled form of the declaration of an array. -/
def dimPost : Expr → List Tk
  | .call h _ a => a.postP 8 ++ [⟨.argCount, [], a.count, 8⟩, { h with ty := .dimArr, prio := 7 }]
  | _ => []

/-- Compiled form of a statement. -/
def S.postQ (k : TT) : S → List Tk
  | .goto l => [⟨.labelString, l, 0, 0⟩, ⟨k, [], cmdGoto, 0⟩]
  | .gosub l => [⟨.labelString, l, 0, 0⟩, ⟨k, [], cmdGosub, 0⟩]
  | .for' w a b s => ⟨.name, w, 0, 0⟩ :: ⟨k, [], cmdFor, 0⟩ :: (a.tree.postP 0 ++ opP opAssign 0 :: (b.tree.postP 0 ++
      ⟨.command, [], cmdTo, 0⟩ :: (stepPost s ++ [loopTok])))
  | .on e sub ls => e.tree.postP 0 ++ ⟨k, [], cmdOn, 0⟩ :: (ls.map labelStr ++ [⟨.command, [], jumpWord sub, 0⟩])
  | .restore l => [⟨.labelString, l, 0, 0⟩, ⟨k, [], cmdRestore, 0⟩]
  | .dim l r => (l :: r).flatMap fun x => dimPost x.tree
  | s => postS k s.simple

/-- Statements one after the other, the first with the type `k`. -/
def postJoin (k : TT) : List S → List Tk
  | [] => []
  | s :: r => s.postQ k ++ postJoin .firstCommand r

def Branch.postQ : Branch → List Tk
  | .jump l => [⟨.labelString, l, 0, 0⟩]
  | .run ss => postJoin .command ss

def elsePost : Option Branch → List Tk
  | none => []
  | some b => cmdTk cmdElse :: b.postQ

def If.postQ (i : If) : List Tk := i.cond.tree.postP 0 ++ ⟨.firstCommand, [], cmdIf, 0⟩ :: (i.yes.postQ ++ elsePost i.no)

def labelPost : Option (List Nat) → List Tk
  | none => []
  | some w => [labelTk w]

def ifPost : Option If → List Tk
  | none => []
  | some i => i.postQ ++ [endifTok]

def dataPost : Option Data → List Tk
  | none => []
  | some d => [d.tk]

def Line.postQ (l : Line) : List Tk := labelPost l.label ++ (postJoin .firstCommand l.stmts ++ ifPost l.last ++ dataPost l.data)

theorem postS_length (k : TT) (st : Stmt) : (postS k st).length ≤ st.ann.length := by
  cases st with
  | empty => simp [postS]
  | assign l e =>
    have := Expr.postP_length 0 l; have := Expr.postP_length 0 e
    simp [postS, Stmt.ann]; omega
  | cmd0 c => simp [postS, Stmt.ann]
  | cmd c a => have := Args.postP_length 0 a; simp [postS, Stmt.ann]; omega
  | print i l =>
    have := itemPostP_length i; have := optPostP_length l
    simp [postS, Stmt.ann]; omega

theorem dimPost_length : (l : E) → (r : List E) → ((l :: r).flatMap fun x => dimPost x.tree).length ≤ (dimAnn l r).length
  | l, r => by
    have h1 : (dimPost l.tree).length ≤ (l.tree.ann 0).length := by
      cases l.tree with
      | call h sq a => have := Args.postP_length 8 a; simp [dimPost, Expr.ann]; omega
      | _ => exact Nat.zero_le _
    cases r with
    | nil => simpa [dimAnn] using h1
    | cons m r =>
      have := dimPost_length m r
      rw [List.flatMap_cons, List.length_append]
      simp only [dimAnn, List.length_append, List.length_cons]
      omega
termination_by _ r => r.length

theorem labelAnn_ge : (ls : List (List Nat)) → ls.length ≤ (labelAnn ls).length
  | [] => Nat.le_refl _
  | [_] => Nat.le_refl _
  | l :: m :: r => by have := labelAnn_ge (m :: r); simp only [labelAnn, List.length_cons] at this ⊢; omega

theorem S.postQ_length (k : TT) (s : S) : (s.postQ k).length ≤ s.ann.length + s.extra := by
  have h := postS_length k s.simple
  cases s with
  | for' w a b s =>
    have h1 := Expr.postP_length 0 a.tree
    have h2 := Expr.postP_length 0 b.tree
    cases s with
    | none => simp [S.postQ, S.ann, S.extra, stepPost, stepAnn]; omega
    | some e => have h3 := Expr.postP_length 0 e.tree; simp [S.postQ, S.ann, S.extra, stepPost, stepAnn]; omega
  | on e sub ls =>
    have h1 := Expr.postP_length 0 e.tree
    have h2 : ls.length ≤ (labelAnn ls).length := labelAnn_ge ls
    simp [S.postQ, S.ann, S.extra]; omega
  | dim l r =>
    have := dimPost_length l r
    show ((l :: r).flatMap fun x => dimPost x.tree).length ≤ (dimAnn l r).length + 1 + 0
    omega
  | _ => first | exact h | exact Nat.le_refl _

/-- State of `tok_eval` after statements. -/
structure Calm (s : Ev) : Prop where
  argc : ∃ c, s.argc = [c]
  isSort : s.isSort = false

/-- The same outside a DIM. -/
structure Still (s : Ev) : Prop where
  argc : ∃ c, s.argc = [c]
  isDim : s.isDim = false
  isSort : s.isSort = false

theorem Still.calm {s : Ev} (h : Still s) : Calm s := ⟨h.argc, h.isSort⟩

/-- What is still to be written for a FOR. -/
def pend (s : Ev) : List Tk := if s.isFor then [loopTok] else []

/-- State of `tok_eval` between and inside statements. -/
structure Quiet (s : Ev) : Prop where
  argc : ∃ c, s.argc = [c]
  isFor : s.isFor = false
  isDim : s.isDim = false
  isSort : s.isSort = false

theorem Quiet.calm {s : Ev} (h : Quiet s) : Calm s := ⟨h.argc, h.isSort⟩
theorem Quiet.pend {s : Ev} (h : Quiet s) : Source.pend s = [] := by unfold Source.pend; rw [h.isFor]; rfl

/-- The type of a command word after `prev`. -/
def Kind (prev : Option Tk) (k : TT) : Prop :=
  ((prev = none ∨ ∃ p, prev = some p ∧ p.ty = .newline) ∧ k = .firstCommand) ∨ ((∃ p, prev = some p ∧ p.ty ≠ .newline) ∧ k = .command)

theorem Kind.ne {prev : Option Tk} {k : TT} (h : Kind prev k) : k ≠ .operation := by
  rcases h with ⟨_, rfl⟩ | ⟨_, rfl⟩ <;> decide

theorem ev_push0 (e : Ev) (k : TT) (c : Nat) (hk : k ≠ .operation) (hl : (e.res ++ e.ops).length ≤ 100) :
    evPush e ⟨k, [], c, 0⟩ = .ok { e with ops := [⟨k, [], c, 0⟩], res := e.res ++ e.ops } := by
  rw [evPush_all e _ [] e.ops (by simp) (by intro o ho; cases ho) (by simp) (by simp) hl]
  rw [if_pos (Or.inl hk), push_ok _ _ (by simp)]

/-- A command word: everything pending is written out. -/
theorem ev_cmd (e : Ev) (prev next : Option Tk) (c : Nat) (hc : ordinary c ∨ c = cmdPrint ∨ c = cmdIf) (k : TT) (hk : Kind prev k)
    (hq : Quiet e) (hl : (e.res ++ e.ops).length ≤ 100) :
    evStep e prev next (cmdTk c) = .ok ({ e with
      ops := [⟨k, [], c, 0⟩], res := e.res ++ e.ops, isIf := e.isIf || decide (c = cmdIf)
      implicitCommas := e.implicitCommas && decide (c ≠ cmdPrint) }, ⟨k, [], c, 0⟩, true) := by
  have hne : c ≠ cmdDim ∧ c ≠ cmdThen ∧ c ≠ cmdElse ∧ c ≠ cmdData ∧ c ≠ cmdFor ∧ c ≠ cmdSort ∧ c ≠ cmdRsort := by
    rcases hc with hc | rfl | rfl
    · simp only [ordinary, List.mem_cons, List.not_mem_nil, or_false, not_or] at hc
      obtain ⟨h1, h2, h3, h4, h5, h6, h7, h8, h9⟩ := hc
      exact ⟨h1, h4, h5, h6, h2, h7, h8⟩
    · decide
    · decide
  obtain ⟨h1, h4, h5, h6, h2, h7, h8⟩ := hne
  have hfl : evFlags e (cmdTk c) = .ok { e with isIf := e.isIf || decide (c = cmdIf), implicitCommas := e.implicitCommas && decide (c ≠ cmdPrint) } := by
    unfold evFlags
    by_cases hp : c = cmdPrint
    · rw [if_pos (show (cmdTk c).cmd = cmdPrint from hp)]
      subst hp
      simp [cmdPrint, cmdIf]
    · rw [if_neg (show ¬ (cmdTk c).cmd = cmdPrint from hp), if_neg (show ¬ (cmdTk c).cmd = cmdFor from h2)]
      by_cases hi : c = cmdIf
      · rw [if_pos (show (cmdTk c).cmd = cmdIf from hi)]
        subst hi
        simp [cmdPrint, cmdIf]
      · rw [if_neg (show ¬ (cmdTk c).cmd = cmdIf from hi),
          if_neg (show ¬ ((cmdTk c).cmd = cmdSort ∨ (cmdTk c).cmd = cmdRsort) from by simp [cmdTk, h7, h8])]
        simp only []
        rw [if_neg (by rw [hq.isFor]; simp)]
        have := hq.isDim
        cases e; simp_all
  unfold evStep
  rw [if_neg (by simp [cmdTk]), if_neg (by simp [cmdTk]), if_pos (show (cmdTk c).ty = .command from rfl),
    if_neg (show ¬ (cmdTk c).cmd = cmdDim from h1), if_neg (show ¬ (cmdTk c).cmd = cmdThen from h4),
    if_neg (show ¬ (cmdTk c).cmd = cmdElse from h5), if_neg (show ¬ (cmdTk c).cmd = cmdData from h6), hfl]
  rcases hk with ⟨rfl | ⟨p, rfl, hp⟩, rfl⟩ | ⟨⟨p, rfl, hp⟩, rfl⟩
  · simp only [cmdTk, Out.bind, if_true]
    rw [ev_push0 _ _ _ (by decide) (by exact hl)]
  · simp only [cmdTk, Out.bind, hp, decide_true, if_true]
    rw [ev_push0 _ _ _ (by decide) (by exact hl)]
  · simp only [cmdTk, Out.bind, hp, decide_false]
    rw [if_neg (by simp), ev_push0 _ _ _ (by decide) (by exact hl)]

/-- A label after a command word. -/
theorem ev_label (e : Ev) (p : Tk) (next : Option Tk) (l : List Nat) (hl : e.res.length < 100) :
    evStep e (some p) next (labelTk l) = .ok ({ e with res := e.res ++ [⟨.labelString, l, 0, 0⟩] }, ⟨.labelString, l, 0, 0⟩, true) := by
  have : evStep e (some p) next (labelTk l) = (e.out ⟨.labelString, l, 0, 0⟩).bind fun e => .ok (e, ⟨.labelString, l, 0, 0⟩, true) := rfl
  rw [this, out_ok _ _ hl]
  rfl

/-- The single argument of a command does not depend on the treatment of commas. -/
theorem ev_args (a : Args) (s : Ev) (c : Nat) (o : Tk) (ho : o.prio = 0) (hops : s.ops = [o]) (hc : s.argc = [c])
    (prev : Option Tk) (rest : List Tk) (hw : a.WF) (hpl : a.Plain) (hprev : Group prev) (hsort : s.isSort = false)
    (hdim : s.isDim = false) (himp : s.implicitCommas = true ∨ ∃ e, a = .one e) (hd : a.depth ≤ 62)
    (hlen : s.res.length + 1 + (a.ann 0).length ≤ 100) :
    ∃ S R q c', evLoop s prev (a.ann 0 ++ rest) = evLoop { s with ops := S ++ [o], res := R, argc := [c'] } (some q) rest ∧
      R ++ S = s.res ++ a.postP 0 := by
  rcases himp with himp | ⟨e, rfl⟩
  · exact ev_top a s c o ho hops hc prev rest hw hpl hprev hsort hdim himp hd hlen
  · have hlev := level_ge hw
    obtain ⟨S, R, q, h1, h2, h3, h4⟩ := ev_expr e 0 (by omega) s prev rest hw hpl (Or.inl hprev) hsort hdim
      (by rw [hops]; intro x hx; cases hx; have := le_lim (level e); omega)
      (by rw [hc]; simp only [Args.depth] at hd; simp only [List.length_singleton]; omega)
      (by rw [hops]; simpa [Args.ann] using hlen)
    refine ⟨S, R, q, c, ?_, h2⟩
    simp only [Args.ann]
    rw [h1, hops, ← hc]

theorem evLoop_ok {s s' : Ev} {prev : Option Tk} {t t' : Tk} {ts : List Tk} (h : evStep s prev ts.head? t = .ok (s', t', true)) :
    evLoop s prev (t :: ts) = evLoop s' (some t') ts := by
  rw [evLoop_cons, h]; rfl

/-- An expression after a command word or `=`. -/
theorem ev_after {e : E} (h : e.WF) (s : Ev) (o : Tk) (ho : o.prio = 0) (hops : s.ops = [o]) (hq : Still s) (p : Tk)
    (hp : p.ty ≠ .name ∧ p.ty ≠ .function ∧ p.ty ≠ .dimArr) (rest : List Tk) (hlen : s.res.length + 1 + (e.tree.ann 0).length ≤ 100) :
    ∃ T R q, evLoop s (some p) (e.tree.ann 0 ++ rest) = evLoop { s with ops := T ++ [o], res := R } (some q) rest ∧
      R ++ (T ++ [o]) = s.res ++ (e.tree.postP 0 ++ [o]) ∧ q.ty ≠ .newline := by
  obtain ⟨c0, hc0⟩ := hq.argc
  have hlev := level_ge h.tree
  have hd := h.depth
  obtain ⟨T, R, q, h1, h2, h3, h4⟩ := ev_expr e.tree 0 (by omega) s (some p) rest h.tree (E.plain _ h.tree h.typed h.leaves) (Or.inl ⟨_, rfl, hp⟩) hq.isSort hq.isDim
    (by rw [hops]; intro x hx; cases hx; have := le_lim (level e.tree); omega)
    (by rw [hc0]; simp only [List.length_singleton]; omega) (by rw [hops]; simpa using hlen)
  refine ⟨T, R, q, by rw [h1, hops], ?_, h4.notNl⟩
  rw [← List.append_assoc, h2]; simp

/-- Labels after GOTO or GOSUB. -/
theorem ev_labels : (l : List Nat) → (r : List (List Nat)) → (s : Ev) → (o : Tk) → (ho : o.prio = 0) → (hops : s.ops = [o]) →
    (hc : ∃ c, s.argc = [c]) → (himp : s.implicitCommas = true ∨ r = []) → (p : Tk) → (rest : List Tk) →
    (hlen : s.res.length + (labelAnn (l :: r)).length ≤ 100) →
    ∃ c' q, evLoop s (some p) (labelAnn (l :: r) ++ rest) = evLoop { s with res := s.res ++ (l :: r).map labelStr, argc := [c'] } (some q) rest
  | l, [], s, o, ho, hops, ⟨c, hc⟩, himp, p, rest, hlen => by
    refine ⟨c, labelStr l, ?_⟩
    simp only [labelAnn, List.length_singleton] at hlen
    simp only [labelAnn, List.singleton_append]
    rw [evLoop_ok (ev_label s p _ l (by omega)), ← hc]
    rfl
  | l, m :: r, s, o, ho, hops, ⟨c, hc⟩, himp, p, rest, hlen => by
    have himp : s.implicitCommas = true := by rcases himp with h | h; exact h; cases h
    simp only [labelAnn, List.length_cons] at hlen
    have hn : ∃ t, (labelAnn (m :: r) ++ rest).head? = some (labelTk t) := by
      cases r with
      | nil => exact ⟨m, rfl⟩
      | cons x y => exact ⟨m, rfl⟩
    obtain ⟨t, ht⟩ := hn
    have hstep : evStep { s with res := s.res ++ [labelStr l] } (some (labelStr l)) ((labelAnn (m :: r) ++ rest).head?) (opP opComma 1) =
        .ok ({ s with res := s.res ++ [labelStr l], argc := [(c + 1) % 256] }, opP opComma 1, true) := by
      rw [evStep_sep]
      unfold evComma Ev.incArg
      simp only [hc, Out.bind]
      rw [clean_all { s with res := s.res ++ [labelStr l], argc := [(c + 1) % 256] } (opP opComma 1).prio s.ops [] rfl
        (by rw [hops]; intro x hx; cases hx; simp [opP, ho]) (by simp) (by simp; omega)]
      simp only [himp, if_true, ht, List.append_nil]
      rw [if_neg (by simp [opP, opComma, opSemicolon]), if_neg (by simp), if_neg (by simp [labelTk]), if_neg (by simp [labelStr])]
    obtain ⟨c', q, h⟩ := ev_labels m r { s with res := s.res ++ [labelStr l], argc := [(c + 1) % 256] } o ho hops ⟨_, rfl⟩ (Or.inl himp)
      (opP opComma 1) rest (by simp only [List.length_append, List.length_singleton]; omega)
    refine ⟨c', q, ?_⟩
    simp only [labelAnn, List.cons_append]
    rw [evLoop_ok (ev_label s p _ l (by omega))]
    show evLoop { s with res := s.res ++ [labelStr l] } (some (labelStr l)) _ = _
    rw [evLoop_ok hstep, h]
    simp

/-- `tok_eval` over a statement other than FOR, up to what it leaves pending. -/
theorem ev_plain (x : S) (s : Ev) (prev : Option Tk) (rest : List Tk) (hw : x.WF) (hf : x.isFor = false) (hd : x.isDim = false) (k : TT) (hk : Kind prev k) (hq : Quiet s)
    (hops : s.ops = [] ∨ x.isJump = true) (himp : s.implicitCommas = true ∨ x.manyArgs = false)
    (hlen : s.res.length + s.ops.length + x.ann.length ≤ 100) :
    ∃ s' q, evLoop s prev (x.ann ++ rest) = evLoop s' q rest ∧ Quiet s' ∧ s'.isIf = s.isIf ∧
      s'.res ++ s'.ops = s.res ++ s.ops ++ x.postQ k ∧ (x.isPrint = false → s'.implicitCommas = s.implicitCommas) := by
  obtain ⟨c0, hc0⟩ := hq.argc
  have hgc : ∀ c, Group (some (⟨k, [], c, 0⟩ : Tk)) := fun c => by
    refine ⟨_, rfl, ?_, ?_, ?_⟩ <;> rcases hk with ⟨_, rfl⟩ | ⟨_, rfl⟩ <;> simp
  obtain ⟨w1, w2, w3, w4⟩ := S.simple_wf hw
  have hlo : (s.res ++ s.ops).length ≤ 100 := by rw [List.length_append]; omega
  cases x with
  | assign w e =>
    have ho : s.ops = [] := by rcases hops with h | h; exact h; cases h
    obtain ⟨hl, he, hlv⟩ := w1
    obtain ⟨hd1, hd2⟩ := w3
    have hlev := level_ge he
    have hlevl := level_ge hl
    have hann : (S.assign w e).ann = (Expr.atom ⟨.name, w, 0, 0⟩).ann 0 ++ opP opAssign 0 :: e.tree.ann 0 := rfl
    rw [hann] at hlen ⊢
    generalize hlq : Expr.atom ⟨.name, w, 0, 0⟩ = l at *
    have hlval : l.lval = true := by rw [← hlq]; rfl
    rw [ho] at hlen
    simp only [List.length_nil, List.length_append, List.length_cons] at hlen
    have hpl1 := Expr.postP_length 0 l
    have hpl2 := Expr.postP_length 0 e.tree
    obtain ⟨T, R, q, h1, h2, h3, h4⟩ := ev_expr l 0 (by omega) s prev (opP opAssign 0 :: (e.tree.ann 0 ++ rest))
      hl (hlq ▸ w2.1) (Or.inr hlval) hq.isSort hq.isDim (by rw [ho]; intro o ho; cases ho)
      (by rw [hc0]; simp only [List.length_singleton]; omega) (by rw [ho]; simp only [List.length_nil]; omega)
    have hRS : (R ++ T).length = s.res.length + (l.postP 0).length := by rw [h2]; simp
    have hstep : ∀ next, evStep { s with ops := T ++ s.ops, res := R } (some q) next (opP opAssign 0) =
        .ok ({ s with ops := [opP opAssign 0], res := R ++ T }, opP opAssign 0, true) := by
      intro next
      rw [evStep_assign, clean_all { s with ops := T ++ s.ops, res := R } 0 [] T (by simp [ho])
        (by intro o ho; cases ho) (by simp) (by show (R ++ T).length ≤ 100; omega)]
      simp only [Out.bind]
      rw [push_ok _ _ (by simp)]
    obtain ⟨T', R', q', h1', h2', h3', h4'⟩ := ev_expr e.tree 0 (by omega) { s with ops := [opP opAssign 0], res := R ++ T }
      (some (opP opAssign 0)) rest he w2.2
      (Or.inl ⟨_, rfl, by simp [opP], by simp [opP], by simp [opP]⟩) hq.isSort hq.isDim
      (by intro o ho; cases ho; have := le_lim (level e.tree); simp only [opP]; omega)
      (by simp only [hc0, List.length_singleton]; omega)
      (by show (R ++ T).length + 1 + _ ≤ 100; omega)
    refine ⟨{ s with ops := T' ++ [opP opAssign 0], res := R' }, some q', ?_, ⟨hq.argc, hq.isFor, hq.isDim, hq.isSort⟩, rfl, ?_, fun _ => rfl⟩
    · rw [List.append_assoc, List.cons_append, h1, evLoop_ok (hstep _), h1']
    · show R' ++ (T' ++ [opP opAssign 0]) = _
      rw [← List.append_assoc, h2', ho]
      show (R ++ T) ++ _ ++ _ = _
      rw [h2]
      simp [S.postQ, S.simple, postS, hlq]
  | dim l r => cases hd
  | put l0 e =>
    have ho : s.ops = [] := by rcases hops with h | h; exact h; cases h
    obtain ⟨hl, he, hlv⟩ := w1
    obtain ⟨hd1, hd2⟩ := w3
    have hlev := level_ge he
    have hlevl := level_ge hl
    have hann : (S.put l0 e).ann = l0.tree.ann 0 ++ opP opAssign 0 :: e.tree.ann 0 := rfl
    have hlval : l0.tree.lval = true := by obtain ⟨w, sq, a, hc⟩ := E.cell_call hw.1; rw [hc]; rfl
    rw [hann] at hlen ⊢
    generalize hlq : l0.tree = l at *
    rw [ho] at hlen
    simp only [List.length_nil, List.length_append, List.length_cons] at hlen
    have hpl1 := Expr.postP_length 0 l
    have hpl2 := Expr.postP_length 0 e.tree
    obtain ⟨T, R, q, h1, h2, h3, h4⟩ := ev_expr l 0 (by omega) s prev (opP opAssign 0 :: (e.tree.ann 0 ++ rest))
      hl (hlq ▸ w2.1) (Or.inr hlval) hq.isSort hq.isDim (by rw [ho]; intro o ho; cases ho)
      (by rw [hc0]; simp only [List.length_singleton]; omega) (by rw [ho]; simp only [List.length_nil]; omega)
    have hRS : (R ++ T).length = s.res.length + (l.postP 0).length := by rw [h2]; simp
    have hstep : ∀ next, evStep { s with ops := T ++ s.ops, res := R } (some q) next (opP opAssign 0) =
        .ok ({ s with ops := [opP opAssign 0], res := R ++ T }, opP opAssign 0, true) := by
      intro next
      rw [evStep_assign, clean_all { s with ops := T ++ s.ops, res := R } 0 [] T (by simp [ho])
        (by intro o ho; cases ho) (by simp) (by show (R ++ T).length ≤ 100; omega)]
      simp only [Out.bind]
      rw [push_ok _ _ (by simp)]
    obtain ⟨T', R', q', h1', h2', h3', h4'⟩ := ev_expr e.tree 0 (by omega) { s with ops := [opP opAssign 0], res := R ++ T }
      (some (opP opAssign 0)) rest he w2.2
      (Or.inl ⟨_, rfl, by simp [opP], by simp [opP], by simp [opP]⟩) hq.isSort hq.isDim
      (by intro o ho; cases ho; have := le_lim (level e.tree); simp only [opP]; omega)
      (by simp only [hc0, List.length_singleton]; omega)
      (by show (R ++ T).length + 1 + _ ≤ 100; omega)
    refine ⟨{ s with ops := T' ++ [opP opAssign 0], res := R' }, some q', ?_, ⟨hq.argc, hq.isFor, hq.isDim, hq.isSort⟩, rfl, ?_, fun _ => rfl⟩
    · rw [List.append_assoc, List.cons_append, h1, evLoop_ok (hstep _), h1']
    · show R' ++ (T' ++ [opP opAssign 0]) = _
      rw [← List.append_assoc, h2', ho]
      show (R ++ T) ++ _ ++ _ = _
      rw [h2]
      simp [S.postQ, S.simple, postS, hlq]
  | cmd c args =>
    have ho : s.ops = [] := by rcases hops with h | h; exact h; cases h
    obtain ⟨⟨hc, hord, hx⟩, ha, _⟩ := hw
    have hne : c ≠ cmdIf ∧ c ≠ cmdPrint := by
      simp only [ordinary, List.mem_cons, List.not_mem_nil, or_false, not_or] at hord
      exact ⟨hord.2.2.1, hord.2.2.2.2.2.2.2.2⟩
    have hst := fun next => ev_cmd s prev next c (Or.inl hord) k hk hq hlo
    simp only [hne, decide_false, Bool.or_false, ne_eq, not_false_eq_true, decide_true, Bool.and_true] at hst
    cases args with
    | nil =>
      refine ⟨{ s with ops := [⟨k, [], c, 0⟩], res := s.res ++ s.ops }, some ⟨k, [], c, 0⟩, evLoop_ok (hst _),
        ⟨hq.argc, hq.isFor, hq.isDim, hq.isSort⟩, rfl, rfl, fun _ => rfl⟩
    | cons a r =>
      have hann : (S.cmd c (a :: r)).ann = cmdTk c :: (argTrees a r).ann 0 := rfl
      rw [hann] at hlen ⊢
      simp only [List.length_cons] at hlen
      obtain ⟨T, R, q, c', h1, h2⟩ := ev_args (argTrees a r) { s with ops := [⟨k, [], c, 0⟩], res := s.res ++ s.ops } c0 ⟨k, [], c, 0⟩ rfl
        rfl hc0 (some ⟨k, [], c, 0⟩) rest w1.2 w2 (hgc c) hq.isSort hq.isDim
        (by
          rcases himp with h | h
          · exact Or.inl h
          · cases r with
            | nil => exact Or.inr ⟨_, rfl⟩
            | cons b t => cases h) w3 (by show (s.res ++ s.ops).length + 1 + _ ≤ 100; rw [List.length_append]; omega)
      refine ⟨{ s with ops := T ++ [⟨k, [], c, 0⟩], res := R, argc := [c'] }, some q, ?_, ⟨⟨_, rfl⟩, hq.isFor, hq.isDim, hq.isSort⟩, rfl, ?_,
        fun _ => rfl⟩
      · rw [List.cons_append, evLoop_ok (hst _), h1]
      · show R ++ (T ++ [_]) = _
        rw [← List.append_assoc, h2]
        simp [S.postQ, S.simple, postS]
  | print i l =>
    have ho : s.ops = [] := by rcases hops with h | h; exact h; cases h
    have hst := fun next => ev_cmd s prev next cmdPrint (Or.inr (Or.inl rfl)) k hk hq hlo
    have hann : (S.print i l).ann = cmdTk cmdPrint :: (itemAnn (i.map fun x => (x.1.map E.tree, x.2)) ++ optAnn (l.map E.tree)) := rfl
    rw [hann] at hlen ⊢
    have hpq : (S.print i l).postQ k = itemPostP (i.map fun x => (x.1.map E.tree, x.2)) ++ optPostP (l.map E.tree) ++
        [⟨k, [], cmdPrint, 0⟩] := rfl
    rw [hpq]
    simp only [S.simple] at w1 w2 w3
    generalize (i.map fun x => (x.1.map E.tree, x.2)) = i' at *
    generalize (l.map E.tree) = l' at *
    rw [ho] at hlen
    simp only [List.length_nil, List.length_append, List.length_cons] at hlen
    have hpl1 := itemPostP_length i'
    have hpl2 := optPostP_length l'
    obtain ⟨c', q, h1, hg⟩ := ev_items i' { s with ops := [⟨k, [], cmdPrint, 0⟩], res := s.res ++ s.ops, isIf := s.isIf || decide (cmdPrint = cmdIf), implicitCommas := s.implicitCommas && decide (cmdPrint ≠ cmdPrint) }
      ⟨k, [], cmdPrint, 0⟩ rfl rfl hq.argc (some ⟨k, [], cmdPrint, 0⟩)
      (optAnn l' ++ rest) w1.1 w2.1 w3.1 (hgc _) hq.isSort hq.isDim (by simp)
      (by show (s.res ++ s.ops).length + 1 + _ ≤ 100; rw [ho, List.append_nil]; omega)
    obtain ⟨T, R, q', h1', h2', h3'⟩ := ev_opt l' { s with ops := [⟨k, [], cmdPrint, 0⟩], isIf := s.isIf || decide (cmdPrint = cmdIf), implicitCommas := s.implicitCommas && decide (cmdPrint ≠ cmdPrint), res := (s.res ++ s.ops ++ itemPostP i'), argc := [c'] }
      ⟨k, [], cmdPrint, 0⟩ rfl rfl ⟨_, rfl⟩ q rest w1.2 w2.2 w3.2 hg hq.isSort hq.isDim
      (by simp only [List.length_append, ho, List.length_nil]; omega)
    refine ⟨{ s with ops := T ++ [⟨k, [], cmdPrint, 0⟩], isIf := s.isIf || decide (cmdPrint = cmdIf), implicitCommas := s.implicitCommas && decide (cmdPrint ≠ cmdPrint), res := R, argc := [c'] }, q', ?_, ⟨⟨_, rfl⟩, hq.isFor, hq.isDim, hq.isSort⟩, ?_, ?_,
        fun h => by cases h⟩
    · rw [List.cons_append, evLoop_ok (hst _), List.append_assoc, h1, h1']
    · show (s.isIf || decide (cmdPrint = cmdIf)) = s.isIf
      simp [cmdPrint, cmdIf]
    · show R ++ (T ++ [_]) = _
      rw [← List.append_assoc, h2']
      simp
  | goto l =>
    have hann : (S.goto l).ann = [cmdTk cmdGoto, labelTk l] := rfl
    rw [hann] at hlen ⊢
    simp only [List.length_cons, List.length_nil] at hlen
    have hst := fun next => ev_cmd s prev next cmdGoto (Or.inl (by unfold ordinary; decide)) k hk hq hlo
    refine ⟨_, _, (evLoop_ok (hst _)).trans (evLoop_ok (ev_label _ _ _ l (by
      show (s.res ++ s.ops).length < 100
      rw [List.length_append]; omega))), ?_, ?_, ?_, ?_⟩
    · exact ⟨hq.argc, hq.isFor, hq.isDim, hq.isSort⟩
    · show (s.isIf || decide (cmdGoto = cmdIf)) = s.isIf
      simp [cmdGoto, cmdIf]
    · show (s.res ++ s.ops ++ [_]) ++ [_] = _
      simp [S.postQ]
    · intro _
      show (s.implicitCommas && decide (cmdGoto ≠ cmdPrint)) = _
      simp [cmdGoto, cmdPrint]
  | gosub l =>
    have hann : (S.gosub l).ann = [cmdTk cmdGosub, labelTk l] := rfl
    rw [hann] at hlen ⊢
    simp only [List.length_cons, List.length_nil] at hlen
    have hst := fun next => ev_cmd s prev next cmdGosub (Or.inl (by unfold ordinary; decide)) k hk hq hlo
    refine ⟨_, _, (evLoop_ok (hst _)).trans (evLoop_ok (ev_label _ _ _ l (by
      show (s.res ++ s.ops).length < 100
      rw [List.length_append]; omega))), ?_, ?_, ?_, ?_⟩
    · exact ⟨hq.argc, hq.isFor, hq.isDim, hq.isSort⟩
    · show (s.isIf || decide (cmdGosub = cmdIf)) = s.isIf
      simp [cmdGosub, cmdIf]
    · show (s.res ++ s.ops ++ [_]) ++ [_] = _
      simp [S.postQ]
    · intro _
      show (s.implicitCommas && decide (cmdGosub ≠ cmdPrint)) = _
      simp [cmdGosub, cmdPrint]
  | restore l =>
    have hann : (S.restore l).ann = [cmdTk cmdRestore, labelTk l] := rfl
    rw [hann] at hlen ⊢
    simp only [List.length_cons, List.length_nil] at hlen
    have hst := fun next => ev_cmd s prev next cmdRestore (Or.inl (by unfold ordinary; decide)) k hk hq hlo
    refine ⟨_, _, (evLoop_ok (hst _)).trans (evLoop_ok (ev_label _ _ _ l (by
      show (s.res ++ s.ops).length < 100
      rw [List.length_append]; omega))), ?_, ?_, ?_, ?_⟩
    · exact ⟨hq.argc, hq.isFor, hq.isDim, hq.isSort⟩
    · show (s.isIf || decide (cmdRestore = cmdIf)) = s.isIf
      simp [cmdRestore, cmdIf]
    · show (s.res ++ s.ops ++ [_]) ++ [_] = _
      simp [S.postQ]
    · intro _
      show (s.implicitCommas && decide (cmdRestore ≠ cmdPrint)) = _
      simp [cmdRestore, cmdPrint]
  | read ws =>
    have hst := fun next => ev_cmd s prev next cmdRead (Or.inl (by unfold ordinary; decide)) k hk hq hlo
    simp only [show cmdRead ≠ cmdIf by decide, show cmdRead ≠ cmdPrint by decide, decide_false, Bool.or_false, ne_eq, not_false_eq_true,
      decide_true, Bool.and_true] at hst
    cases ws with
    | nil => exact absurd rfl hw.1
    | cons w r =>
      have hann : (S.read (w :: r)).ann = cmdTk cmdRead :: (argTrees w r).ann 0 := rfl
      rw [hann] at hlen ⊢
      simp only [List.length_cons] at hlen
      obtain ⟨T, R, q, c', h1, h2⟩ := ev_args (argTrees w r) { s with ops := [⟨k, [], cmdRead, 0⟩], res := s.res ++ s.ops } c0 ⟨k, [], cmdRead, 0⟩ rfl
        rfl hc0 (some ⟨k, [], cmdRead, 0⟩) rest w1.2 w2 (hgc cmdRead) hq.isSort hq.isDim
        (by
          rcases himp with h | h
          · exact Or.inl h
          · cases r with
            | nil => exact Or.inr ⟨_, rfl⟩
            | cons b t => cases h) w3 (by show (s.res ++ s.ops).length + 1 + _ ≤ 100; rw [List.length_append]; omega)
      refine ⟨{ s with ops := T ++ [⟨k, [], cmdRead, 0⟩], res := R, argc := [c'] }, some q, ?_, ⟨⟨_, rfl⟩, hq.isFor, hq.isDim, hq.isSort⟩, rfl, ?_,
        fun _ => rfl⟩
      · rw [List.cons_append, evLoop_ok (hst _), h1]
      · show R ++ (T ++ [_]) = _
        rw [← List.append_assoc, h2]
        simp [S.postQ, S.simple, postS]
  | ret =>
    have hst := fun next => ev_cmd s prev next cmdReturn (Or.inl (by unfold ordinary; decide)) k hk hq hlo
    refine ⟨_, _, evLoop_ok (hst _), ⟨hq.argc, hq.isFor, hq.isDim, hq.isSort⟩, ?_, rfl, ?_⟩
    · show (s.isIf || decide (cmdReturn = cmdIf)) = s.isIf
      simp [cmdReturn, cmdIf]
    · intro _
      show (s.implicitCommas && decide (cmdReturn ≠ cmdPrint)) = _
      simp [cmdReturn, cmdPrint]
  | fin =>
    have hst := fun next => ev_cmd s prev next cmdEnd (Or.inl (by unfold ordinary; decide)) k hk hq hlo
    refine ⟨_, _, evLoop_ok (hst _), ⟨hq.argc, hq.isFor, hq.isDim, hq.isSort⟩, ?_, rfl, ?_⟩
    · show (s.isIf || decide (cmdEnd = cmdIf)) = s.isIf
      simp [cmdEnd, cmdIf]
    · intro _
      show (s.implicitCommas && decide (cmdEnd ≠ cmdPrint)) = _
      simp [cmdEnd, cmdPrint]
  | stop =>
    have hst := fun next => ev_cmd s prev next cmdStop (Or.inl (by unfold ordinary; decide)) k hk hq hlo
    refine ⟨_, _, evLoop_ok (hst _), ⟨hq.argc, hq.isFor, hq.isDim, hq.isSort⟩, ?_, rfl, ?_⟩
    · show (s.isIf || decide (cmdStop = cmdIf)) = s.isIf
      simp [cmdStop, cmdIf]
    · intro _
      show (s.implicitCommas && decide (cmdStop ≠ cmdPrint)) = _
      simp [cmdStop, cmdPrint]
  | for' w a b s => cases hf
  | on e sub ls =>
    have ho : s.ops = [] := by rcases hops with h | h; exact h; cases h
    obtain ⟨⟨he, _⟩, ⟨hne, _⟩, _⟩ := hw
    have hann : (S.on e sub ls).ann = cmdTk cmdOn :: (e.tree.ann 0 ++ cmdTk (jumpWord sub) :: labelAnn ls) := rfl
    rw [hann] at hlen ⊢
    rw [ho] at hlen
    simp only [List.length_cons, List.length_append, List.length_nil] at hlen
    have hpl := Expr.postP_length 0 e.tree
    have hst := fun next => ev_cmd s prev next cmdOn (Or.inl (by unfold ordinary; decide)) k hk hq hlo
    simp only [show cmdOn ≠ cmdIf by decide, show cmdOn ≠ cmdPrint by decide, decide_false, Bool.or_false, ne_eq, not_false_eq_true,
      decide_true, Bool.and_true, ho, List.append_nil] at hst
    obtain ⟨T, R, q, h1, h2, h3⟩ := ev_after he { s with ops := [⟨k, [], cmdOn, 0⟩], res := s.res } ⟨k, [], cmdOn, 0⟩ rfl rfl
      ⟨hq.argc, hq.isDim, hq.isSort⟩ ⟨k, [], cmdOn, 0⟩ (by rcases hk with ⟨_, rfl⟩ | ⟨_, rfl⟩ <;> simp) (cmdTk (jumpWord sub) :: (labelAnn ls ++ rest))
      (by show s.res.length + 1 + _ ≤ 100; omega)
    have hRT : (R ++ (T ++ [(⟨k, [], cmdOn, 0⟩ : Tk)])).length = s.res.length + ((e.tree.postP 0).length + 1) := by rw [h2]; simp
    have hj : ordinary (jumpWord sub) ∧ jumpWord sub ≠ cmdIf ∧ jumpWord sub ≠ cmdPrint := by
      cases sub <;> exact ⟨by unfold ordinary; decide, by decide, by decide⟩
    have hst2 := fun next => ev_cmd { s with ops := T ++ [⟨k, [], cmdOn, 0⟩], res := R } (some q) next (jumpWord sub) (Or.inl hj.1) .command
      (Or.inr ⟨⟨q, rfl, h3⟩, rfl⟩) ⟨hq.argc, hq.isFor, hq.isDim, hq.isSort⟩ (by show (R ++ (T ++ [_])).length ≤ 100; omega)
    simp only [hj.2.1, hj.2.2, decide_false, Bool.or_false, ne_eq, not_false_eq_true, decide_true, Bool.and_true] at hst2
    obtain ⟨l, r, rfl⟩ : ∃ l r, ls = l :: r := by cases ls with | nil => exact absurd rfl hne | cons l r => exact ⟨l, r, rfl⟩
    obtain ⟨c', q', h4⟩ := ev_labels l r { s with ops := [⟨.command, [], jumpWord sub, 0⟩], res := R ++ (T ++ [⟨k, [], cmdOn, 0⟩]) }
      ⟨.command, [], jumpWord sub, 0⟩ rfl rfl hq.argc (by
        rcases himp with h | h
        · exact Or.inl h
        · cases r with
          | nil => exact Or.inr rfl
          | cons x y => cases h) ⟨.command, [], jumpWord sub, 0⟩ rest (by
        show (R ++ (T ++ [_])).length + _ ≤ 100; omega)
    refine ⟨{ s with ops := [⟨.command, [], jumpWord sub, 0⟩], res := R ++ (T ++ [⟨k, [], cmdOn, 0⟩]) ++ (l :: r).map labelStr, argc := [c'] },
      some q', ?_, ?_, ?_, ?_, ?_⟩
    · rw [List.cons_append, evLoop_ok (hst _), List.append_assoc, List.cons_append, h1, evLoop_ok (hst2 _), h4]
    · exact ⟨⟨_, rfl⟩, hq.isFor, hq.isDim, hq.isSort⟩
    · rfl
    · show R ++ (T ++ [_]) ++ _ ++ [_] = _
      rw [h2, ho]
      simp [S.postQ]
    · exact fun _ => rfl
  | next w =>
    have hst := fun next => ev_cmd s prev next cmdNext (Or.inl (by unfold ordinary; decide)) k hk hq hlo
    simp only [show cmdNext ≠ cmdIf by decide, show cmdNext ≠ cmdPrint by decide, decide_false, Bool.or_false, ne_eq, not_false_eq_true,
      decide_true, Bool.and_true] at hst
    cases w with
    | none =>
      refine ⟨{ s with ops := [⟨k, [], cmdNext, 0⟩], res := s.res ++ s.ops }, some ⟨k, [], cmdNext, 0⟩, evLoop_ok (hst _),
        ⟨hq.argc, hq.isFor, hq.isDim, hq.isSort⟩, rfl, rfl, fun _ => rfl⟩
    | some w =>
      have hann : (S.next (some w)).ann = cmdTk cmdNext :: (Args.one (.atom ⟨.name, w, 0, 0⟩)).ann 0 := rfl
      rw [hann] at hlen ⊢
      simp only [List.length_cons] at hlen
      obtain ⟨T, R, q, c', h1, h2⟩ := ev_args (.one (.atom ⟨.name, w, 0, 0⟩)) { s with ops := [⟨k, [], cmdNext, 0⟩], res := s.res ++ s.ops } c0
        ⟨k, [], cmdNext, 0⟩ rfl rfl hc0 (some ⟨k, [], cmdNext, 0⟩) rest w1.2 w2 (hgc cmdNext) hq.isSort hq.isDim
        (Or.inr ⟨_, rfl⟩) w3 (by show (s.res ++ s.ops).length + 1 + _ ≤ 100; rw [List.length_append]; omega)
      refine ⟨{ s with ops := T ++ [⟨k, [], cmdNext, 0⟩], res := R, argc := [c'] }, some q, ?_, ⟨⟨_, rfl⟩, hq.isFor, hq.isDim, hq.isSort⟩, rfl, ?_,
        fun _ => rfl⟩
      · rw [List.cons_append, evLoop_ok (hst _), h1]
      · show R ++ (T ++ [_]) = _
        rw [← List.append_assoc, h2]
        simp [S.postQ, S.simple, postS]

/-- FOR as a command word. -/
theorem ev_forWord (e : Ev) (prev next : Option Tk) (k : TT) (hk : Kind prev k) (hl : (e.res ++ e.ops).length ≤ 100) :
    evStep e prev next (cmdTk cmdFor) = .ok ({ e with ops := [⟨k, [], cmdFor, 0⟩], res := e.res ++ e.ops, isFor := true }, ⟨k, [], cmdFor, 0⟩, true) := by
  unfold evStep
  rw [if_neg (by simp [cmdTk]), if_neg (by simp [cmdTk]), if_pos (show (cmdTk cmdFor).ty = .command from rfl),
    if_neg (show ¬ (cmdTk cmdFor).cmd = cmdDim by decide), if_neg (show ¬ (cmdTk cmdFor).cmd = cmdThen by decide),
    if_neg (show ¬ (cmdTk cmdFor).cmd = cmdElse by decide), if_neg (show ¬ (cmdTk cmdFor).cmd = cmdData by decide),
    show evFlags e (cmdTk cmdFor) = .ok { e with isFor := true } from rfl]
  rcases hk with ⟨rfl | ⟨p, rfl, hp⟩, rfl⟩ | ⟨⟨p, rfl, hp⟩, rfl⟩
  · simp only [cmdTk, Out.bind, if_true]
    rw [ev_push0 _ _ _ (by decide) (by exact hl)]
  · simp only [cmdTk, Out.bind, hp, decide_true, if_true]
    rw [ev_push0 _ _ _ (by decide) (by exact hl)]
  · simp only [cmdTk, Out.bind, hp, decide_false]
    rw [if_neg (by simp), ev_push0 _ _ _ (by decide) (by exact hl)]

/-- TO and STEP. -/
theorem ev_toWord (e : Ev) (p : Tk) (next : Option Tk) (c : Nat) (hc : c = cmdTo ∨ c = cmdStep) (hp : p.ty ≠ .newline) (hd : e.isDim = false)
    (hl : (e.res ++ e.ops).length ≤ 100) :
    evStep e (some p) next (cmdTk c) = .ok ({ e with ops := [⟨.command, [], c, 0⟩], res := e.res ++ e.ops }, ⟨.command, [], c, 0⟩, true) := by
  have hfl : evFlags e (cmdTk c) = .ok e := by
    have he : ({ e with isDim := false } : Ev) = e := by cases e; simp_all
    have h4 : (if ({ e with isDim := false } : Ev).isFor ∧ c ≠ cmdTo ∧ c ≠ cmdStep then
        (({ e with isDim := false } : Ev).out loopTok).bind fun e => .ok { e with isFor := false } else Out.ok ({ e with isDim := false } : Ev)) = .ok e := by
      rw [if_neg (by rintro ⟨_, h1, h2⟩; rcases hc with h | h; exact h1 h; exact h2 h), he]
    rcases hc with rfl | rfl
    · exact h4
    · exact h4
  have hne : c ≠ cmdDim ∧ c ≠ cmdThen ∧ c ≠ cmdElse ∧ c ≠ cmdData := by rcases hc with rfl | rfl <;> decide
  unfold evStep
  rw [if_neg (by simp [cmdTk]), if_neg (by simp [cmdTk]), if_pos (show (cmdTk c).ty = .command from rfl),
    if_neg (show ¬ (cmdTk c).cmd = cmdDim from hne.1), if_neg (show ¬ (cmdTk c).cmd = cmdThen from hne.2.1),
    if_neg (show ¬ (cmdTk c).cmd = cmdElse from hne.2.2.1), if_neg (show ¬ (cmdTk c).cmd = cmdData from hne.2.2.2), hfl]
  simp only [cmdTk, Out.bind, hp, decide_false]
  rw [if_neg (by simp), ev_push0 _ _ _ (by decide) (by exact hl)]

/-- `tok_eval` over the end of a FOR. -/
theorem ev_step {st : Option E} (hw : ∀ e, st = some e → e.WF) (s : Ev) (o : Tk) (hops : s.ops = [o]) (hq : Still s) (B : List Tk)
    (T R : List Tk) (q : Tk) (hR : R ++ (T ++ [o]) = s.res ++ B) (hqn : q.ty ≠ .newline) (rest : List Tk)
    (hlen : s.res.length + B.length + (stepAnn st).length ≤ 100) :
    ∃ T' R' q', evLoop { s with ops := T ++ [o], res := R } (some q) (stepAnn st ++ rest) = evLoop { s with ops := T', res := R' } (some q') rest ∧
      R' ++ T' = s.res ++ (B ++ stepPost st) := by
  cases st with
  | none => exact ⟨T ++ [o], R, q, rfl, by rw [hR]; simp [stepPost]⟩
  | some e =>
    have hRl : (R ++ (T ++ [o])).length = s.res.length + B.length := by rw [hR, List.length_append]
    simp only [stepAnn, List.length_cons] at hlen
    have hstep := fun next => ev_toWord { s with ops := T ++ [o], res := R } q next cmdStep (Or.inr rfl) hqn hq.isDim (by
      show (R ++ (T ++ [o])).length ≤ 100
      omega)
    obtain ⟨T', R', q', h1, h2, h3⟩ := ev_after (hw e rfl) { s with ops := [⟨.command, [], cmdStep, 0⟩], res := R ++ (T ++ [o]) } ⟨.command, [], cmdStep, 0⟩ rfl rfl
      ⟨hq.argc, hq.isDim, hq.isSort⟩ ⟨.command, [], cmdStep, 0⟩ (by simp) rest (by
        show (R ++ (T ++ [o])).length + 1 + _ ≤ 100
        omega)
    refine ⟨T' ++ [⟨.command, [], cmdStep, 0⟩], R', q', ?_, ?_⟩
    · show evLoop _ _ (cmdTk cmdStep :: (e.tree.ann 0 ++ rest)) = _
      rw [evLoop_ok (hstep _)]
      exact h1
    · rw [h2]
      show (R ++ (T ++ [o])) ++ _ = _
      rw [hR]; simp [stepPost]

/-- `tok_eval` over FOR, up to what it leaves pending. -/
theorem ev_for {w : List Nat} {a b : E} {st : Option E} (s : Ev) (prev : Option Tk) (rest : List Tk) (hw : (S.for' w a b st).WF) (k : TT)
    (hk : Kind prev k) (hq : Quiet s) (ho : s.ops = []) (hlen : s.res.length + (S.for' w a b st).ann.length + 1 ≤ 100) :
    ∃ s' q, evLoop s prev ((S.for' w a b st).ann ++ rest) = evLoop s' q rest ∧ Still s' ∧ s'.isFor = true ∧ s'.isIf = s.isIf ∧
      s'.res ++ s'.ops ++ [loopTok] = s.res ++ (S.for' w a b st).postQ k ∧ s'.implicitCommas = s.implicitCommas := by
  obtain ⟨_, ⟨ha, _⟩, ⟨hb, _⟩, hs, _⟩ := hw
  have hann : (S.for' w a b st).ann = cmdTk cmdFor :: ⟨.name, w, 0, 0⟩ :: opP opAssign 0 :: (a.tree.ann 0 ++ cmdTk cmdTo :: (b.tree.ann 0 ++ stepAnn st)) := rfl
  rw [hann] at hlen ⊢
  simp only [List.length_cons, List.length_append] at hlen
  have hpa := Expr.postP_length 0 a.tree
  have hpb := Expr.postP_length 0 b.tree
  have h1 := fun next => ev_forWord s prev next k hk (by rw [ho, List.append_nil]; omega)
  rw [ho, List.append_nil] at h1
  have h2 : ∀ next, evStep { s with ops := [⟨k, [], cmdFor, 0⟩], res := s.res, isFor := true } (some ⟨k, [], cmdFor, 0⟩) next ⟨.name, w, 0, 0⟩ =
      .ok ({ s with ops := [⟨k, [], cmdFor, 0⟩], res := s.res ++ [⟨.name, w, 0, 0⟩], isFor := true }, ⟨.name, w, 0, 0⟩, true) := by
    intro next
    have := evStep_atom { s with ops := [⟨k, [], cmdFor, 0⟩], res := s.res, isFor := true } (some ⟨k, [], cmdFor, 0⟩) next ⟨.name, w, 0, 0⟩ hq.isSort (by simp)
    have e : ({ (⟨.name, w, 0, 0⟩ : Tk) with prio := 0 }) = ⟨.name, w, 0, 0⟩ := rfl
    rw [e] at this
    rw [this, out_ok _ _ (by show s.res.length < 100; omega)]
    rfl
  have h3 : ∀ next, evStep { s with ops := [⟨k, [], cmdFor, 0⟩], res := s.res ++ [⟨.name, w, 0, 0⟩], isFor := true } (some ⟨.name, w, 0, 0⟩) next (opP opAssign 0) =
      .ok ({ s with ops := [opP opAssign 0], res := s.res ++ [⟨.name, w, 0, 0⟩] ++ [⟨k, [], cmdFor, 0⟩], isFor := true }, opP opAssign 0, true) := by
    intro next
    rw [evStep_assign, clean_all _ 0 [] [⟨k, [], cmdFor, 0⟩] (by simp) (by intro o ho; cases ho) (by simp) (by
      simp only [List.length_append, List.length_singleton]; omega)]
    simp only [Out.bind]
    rw [push_ok _ _ (by simp)]
  obtain ⟨T, R, q, e1, e2, e3⟩ := ev_after ha { s with ops := [opP opAssign 0], res := s.res ++ [⟨.name, w, 0, 0⟩] ++ [⟨k, [], cmdFor, 0⟩], isFor := true }
    (opP opAssign 0) rfl rfl ⟨hq.argc, hq.isDim, hq.isSort⟩ (opP opAssign 0) (by simp [opP]) (cmdTk cmdTo :: (b.tree.ann 0 ++ (stepAnn st ++ rest))) (by
      simp only [List.length_append, List.length_singleton]; omega)
  have hRl := congrArg List.length e2
  simp only [List.length_append, List.length_singleton] at hRl
  have h4 := fun next => ev_toWord { s with ops := T ++ [opP opAssign 0], res := R, isFor := true } q next cmdTo (Or.inl rfl) e3 hq.isDim (by
    simp only [List.length_append, List.length_singleton]; omega)
  obtain ⟨T', R', q', g1, g2, g3⟩ := ev_after hb { s with ops := [⟨.command, [], cmdTo, 0⟩], res := R ++ (T ++ [opP opAssign 0]), isFor := true }
    ⟨.command, [], cmdTo, 0⟩ rfl rfl ⟨hq.argc, hq.isDim, hq.isSort⟩ ⟨.command, [], cmdTo, 0⟩ (by simp) (stepAnn st ++ rest) (by
      simp only [List.length_append, List.length_singleton]; omega)
  obtain ⟨T2, R2, q2, f1, f2⟩ := ev_step (fun e he => (hs e he).1) { s with ops := [⟨.command, [], cmdTo, 0⟩], res := R ++ (T ++ [opP opAssign 0]), isFor := true }
    ⟨.command, [], cmdTo, 0⟩ rfl ⟨hq.argc, hq.isDim, hq.isSort⟩ _ T' R' q' g2 g3 rest (by
      simp only [List.length_append, List.length_singleton]; omega)
  refine ⟨{ s with ops := T2, res := R2, isFor := true }, some q2, ?_, ⟨hq.argc, hq.isDim, hq.isSort⟩, rfl, rfl, ?_, rfl⟩
  · simp only [List.cons_append, List.append_assoc]
    rw [evLoop_ok (h1 _), evLoop_ok (h2 _), evLoop_ok (h3 _), e1, evLoop_ok (h4 _), g1]
    exact f1
  · show R2 ++ T2 ++ _ = _
    rw [f2]
    show (R ++ (T ++ [opP opAssign 0])) ++ _ ++ _ = _
    rw [e2]
    simp [S.postQ]

/-- `tok_eval` over an array in DIM. -/
theorem ev_dim1 {l : E} (s : Ev) (prev : Option Tk) (rest : List Tk) (hw : l.isCell = true ∧ l.Good ∧ l.tree.post.length ≤ 40)
    (hc : ∃ c, s.argc = [c]) (hsort : s.isSort = false) (hdim : s.isDim = true) (ho : s.ops = [])
    (hlen : s.res.length + (l.tree.ann 0).length ≤ 99) :
    ∃ R O cnt, evLoop s prev (l.tree.ann 0 ++ rest) = evLoop { s with ops := O, res := R } (some ⟨.argCount, [], cnt, 8⟩) rest ∧
      R ++ O = s.res ++ dimPost l.tree ∧ (∀ o ∈ O, 1 ≤ o.prio) ∧ O ≠ [] := by
  obtain ⟨hcell, hg, _⟩ := hw
  obtain ⟨c0, hc0⟩ := hc
  obtain ⟨w, sq, a, hc⟩ := E.cell_call hcell
  obtain ⟨ht, hpl, hdep, _⟩ := E.tree_wf hg
  rw [hc] at ht hpl hdep hlen ⊢
  obtain ⟨_, ha⟩ := ht
  obtain ⟨_, hcnt, hpa⟩ := hpl
  have hd : (Expr.call ⟨.name, w, 0, 0⟩ sq a).depth = a.depth + 1 := rfl
  have hlen' : s.res.length + ((a.ann 8).length + 4) ≤ 100 := by
    simp only [Expr.ann, List.length_cons, List.length_append, List.length_nil, Nat.zero_add] at hlen; omega
  have hob : (if sq then opOpenBracket else opOpenParen) = opOpenBracket ∨
      (if sq then opOpenBracket else opOpenParen) = opOpenParen := by cases sq <;> simp
  have hcb : (if sq then opCloseBracket else opCloseParen) = opCloseBracket ∨
      (if sq then opCloseBracket else opCloseParen) = opCloseParen := by cases sq <;> simp
  have hhead : ∀ next, evStep s prev next ⟨.name, w, 0, 7⟩ =
      .ok ({ s with ops := [⟨.dimArr, w, 0, 7⟩] }, ⟨.dimArr, w, 0, 7⟩, true) := by
    intro next
    have : evStep s prev next ⟨.name, w, 0, 7⟩ =
        (evPush s ⟨.dimArr, w, 0, 7⟩).bind fun e => .ok (e, ⟨.dimArr, w, 0, 7⟩, true) := by
      unfold evStep
      simp [hdim]
    rw [this, evPush_keep _ _ (by rw [ho]; intro o h; cases h) (by left; simp), push_ok _ _ (by rw [ho]; simp), ho]
    rfl
  have hopen : evOpen { s with ops := [⟨.dimArr, w, 0, 7⟩] } (some ⟨.dimArr, w, 0, 7⟩) =
      .ok { s with ops := [⟨.dimArr, w, 0, 7⟩], argc := 1 :: s.argc } := by
    unfold evOpen
    rw [if_neg (by simp only [hc0, List.length_singleton]; omega)]
    simp
  obtain ⟨S, R, q, h1, h2, h3, h4⟩ := ev_argsD a 8 (by omega) (by omega)
    { s with ops := [⟨.dimArr, w, 0, 7⟩], argc := 1 :: s.argc } 1 s.argc rfl
    (some (opP (if sq then opOpenBracket else opOpenParen) 8))
    (opP (if sq then opCloseBracket else opCloseParen) 8 :: rest) ha hpa
    ⟨_, rfl, by simp [opP], by simp [opP], by simp [opP]⟩ hsort (Or.inr (by omega))
    (by intro o ho; simp only [List.head?_cons, Option.some.injEq] at ho; subst ho; simp only []; omega)
    (by show (s.argc.length + 1) + _ ≤ 64; rw [hc0]; simp only [List.length_singleton]; omega)
    (by show s.res.length + 1 + _ ≤ 100; omega) (by omega)
  have hpl' := Args.postP_length 8 a
  have hRS : (R ++ S).length = s.res.length + (a.postP 8).length := by rw [h2]; simp
  have hcl : evClose { s with ops := S ++ [⟨.dimArr, w, 0, 7⟩], argc := ((1 + a.count - 1) :: s.argc), res := R } (some q) (opP (if sq then opCloseBracket else opCloseParen) 8) =
      .ok ({ s with ops := [⟨.argCount, [], a.count, 8⟩, ⟨.dimArr, w, 0, 7⟩], res := (R ++ S) }, ⟨.argCount, [], a.count, 8⟩) := by
    unfold evClose
    simp only [if_neg h4.notOpen, Nat.add_sub_cancel_left]
    rw [if_pos hcnt]
    rw [clean_all { s with ops := S ++ [⟨.dimArr, w, 0, 7⟩], res := R }
      (opP (if sq then opCloseBracket else opCloseParen) 8).prio [⟨.dimArr, w, 0, 7⟩] S rfl
      (by intro o ho; simp only [List.head?_cons, Option.some.injEq] at ho; subst ho; simp [opP])
      (by intro x hx; have := h3 x hx; simp only [opP]; omega)
      (by show (R ++ S).length ≤ 100; omega)]
    simp only [Out.bind]
    rw [push_ok _ _ (by simp)]
    rfl
  refine ⟨R ++ S, [⟨.argCount, [], a.count, 8⟩, ⟨.dimArr, w, 0, 7⟩], a.count, ?_, ?_, by simp, by simp⟩
  · simp only [Expr.ann, List.cons_append, List.append_assoc, List.nil_append, Nat.zero_add]
    rw [evLoop_ok (hhead _), evLoop_cons, evStep_open _ _ _ _ 8 hob (by omega), hopen]
    show evLoop _ _ _ = _
    rw [h1, evLoop_cons, evStep_close _ _ _ _ 8 hcb (by omega)]
    simp only [] at hcl ⊢
    rw [hcl]
    rfl
  · rw [h2]; simp [dimPost]

/-- `tok_eval` over the arrays of DIM. -/
theorem ev_dims : (l : E) → (r : List E) → (s : Ev) → (prev : Option Tk) → (rest : List Tk) →
    (∀ x ∈ l :: r, x.isCell = true ∧ x.Good ∧ x.tree.post.length ≤ 40) → (∃ c, s.argc = [c]) → s.isSort = false → s.isDim = true → s.ops = [] →
    (s.implicitCommas = true ∨ r = []) → s.res.length + (dimAnn l r).length ≤ 99 →
    ∃ R O c q, evLoop s prev (dimAnn l r ++ rest) = evLoop { s with ops := O, res := R, argc := [c] } (some q) rest ∧
      R ++ O = s.res ++ (l :: r).flatMap (fun x => dimPost x.tree)
  | l, [], s, prev, rest, hw, hc, hsort, hdim, ho, _, hlen => by
    obtain ⟨R, O, cnt, h1, h2, _⟩ := ev_dim1 s prev rest (hw l (by simp)) hc hsort hdim ho hlen
    obtain ⟨c, hc⟩ := hc
    refine ⟨R, O, c, ⟨.argCount, [], cnt, 8⟩, h1.trans ?_, by simpa using h2⟩
    rw [← hc]
  | l, m :: r, s, prev, rest, hw, hc, hsort, hdim, ho, himp, hlen => by
    have himp : s.implicitCommas = true := by rcases himp with h | h; exact h; cases h
    simp only [dimAnn, List.length_append, List.length_cons] at hlen
    obtain ⟨R, O, cnt, h1, h2, h3, h4⟩ := ev_dim1 s prev (opP opComma 1 :: dimAnn m r ++ rest) (hw l (by simp)) hc hsort hdim ho (by omega)
    obtain ⟨c, hc⟩ := hc
    have hpl := dimPost_length l []
    simp only [List.flatMap_cons, List.flatMap_nil, List.append_nil, dimAnn] at hpl
    have hRO : (R ++ O).length = s.res.length + (dimPost l.tree).length := by rw [h2]; simp
    have hn : ∃ t, (dimAnn m r ++ rest).head? = some t ∧ t.ty ≠ .newline := by
      obtain ⟨w, sq, a, hm⟩ := E.cell_call (hw m (by simp)).1
      cases r with
      | nil => exact ⟨⟨.name, w, 0, 7⟩, by simp only [dimAnn, hm, Expr.ann, List.cons_append, List.head?_cons], by simp⟩
      | cons x y => exact ⟨⟨.name, w, 0, 7⟩, by simp only [dimAnn, hm, Expr.ann, List.cons_append, List.head?_cons], by simp⟩
    obtain ⟨t, ht, htn⟩ := hn
    have hstep : evStep { s with ops := O, res := R } (some ⟨.argCount, [], cnt, 8⟩) ((dimAnn m r ++ rest).head?) (opP opComma 1) =
        .ok ({ s with ops := [], res := R ++ O, argc := [(c + 1) % 256] }, opP opComma 1, true) := by
      rw [evStep_sep]
      unfold evComma Ev.incArg
      simp only [hc, Out.bind]
      rw [clean_all { s with ops := O, res := R, argc := [(c + 1) % 256] } (opP opComma 1).prio [] O (by simp)
        (by intro x hx; cases hx) (by intro x hx; have := h3 x hx; simp only [opP]; omega) (by show (R ++ O).length ≤ 100; omega)]
      simp only [himp, if_true, ht]
      rw [if_neg (by simp [opP, opComma, opSemicolon]), if_neg (by simp [h4]), if_neg htn, if_neg (by simp)]
    obtain ⟨R', O', c', q, g1, g2⟩ := ev_dims m r { s with ops := [], res := R ++ O, argc := [(c + 1) % 256] } (some (opP opComma 1)) rest
      (fun x hx => hw x (by simp at hx ⊢; right; exact hx)) ⟨_, rfl⟩ hsort hdim rfl (Or.inl himp) (by show (R ++ O).length + _ ≤ 99; omega)
    refine ⟨R', O', c', q, ?_, ?_⟩
    · simp only [dimAnn, List.append_assoc, List.cons_append] at h1 ⊢
      rw [h1, evLoop_ok hstep, g1]
    · rw [g2]
      show (R ++ O) ++ _ = _
      rw [h2, List.flatMap_cons (x := l), List.append_assoc]

/-- `tok_eval` over DIM, up to what it leaves pending. -/
theorem ev_dim {l : E} {r : List E} (s : Ev) (prev : Option Tk) (rest : List Tk) (hw : (S.dim l r).WF) (hq : Quiet s) (ho : s.ops = [])
    (himp : s.implicitCommas = true ∨ r = []) (hlen : s.res.length + (S.dim l r).ann.length ≤ 100) :
    ∃ s' q, evLoop s prev ((S.dim l r).ann ++ rest) = evLoop s' q rest ∧ Calm s' ∧ s'.isFor = false ∧ s'.isIf = s.isIf ∧
      s'.res ++ s'.ops = s.res ++ (l :: r).flatMap (fun x => dimPost x.tree) ∧ s'.implicitCommas = s.implicitCommas := by
  have hann : (S.dim l r).ann = cmdTk cmdDim :: dimAnn l r := rfl
  rw [hann] at hlen ⊢
  have h0 : ∀ next, evStep s prev next (cmdTk cmdDim) = .ok ({ s with isDim := true }, cmdTk cmdDim, true) := fun _ => rfl
  obtain ⟨R, O, c, q, h1, h2⟩ := ev_dims l r { s with isDim := true } (some (cmdTk cmdDim)) rest hw hq.argc hq.isSort rfl ho himp
    (by simp only [List.length_cons] at hlen; show s.res.length + _ ≤ 99; omega)
  refine ⟨{ s with isDim := true, ops := O, res := R, argc := [c] }, some q, ?_, ⟨⟨_, rfl⟩, hq.isSort⟩, hq.isFor, rfl, h2, rfl⟩
  rw [List.cons_append, evLoop_ok (h0 _), h1]

/-- `tok_eval` over a statement, up to what it leaves pending. -/
theorem ev_s (x : S) (s : Ev) (prev : Option Tk) (rest : List Tk) (hw : x.WF) (k : TT) (hk : Kind prev k) (hq : Quiet s)
    (hops : s.ops = [] ∨ x.isJump = true) (himp : s.implicitCommas = true ∨ x.manyArgs = false)
    (hlen : s.res.length + s.ops.length + x.ann.length + x.extra ≤ 100) :
    ∃ s' q, evLoop s prev (x.ann ++ rest) = evLoop s' q rest ∧ Calm s' ∧ (s'.isFor = x.isFor ∧ (x.isDim = false → s'.isDim = false)) ∧ s'.isIf = s.isIf ∧
      s'.res ++ s'.ops ++ pend s' = s.res ++ s.ops ++ x.postQ k ∧ (x.isPrint = false → s'.implicitCommas = s.implicitCommas) := by
  cases hf : x.isFor with
  | false =>
   cases hd : x.isDim with
   | true =>
    cases x with
    | dim l r =>
      have ho : s.ops = [] := by rcases hops with h | h; exact h; cases h
      obtain ⟨s', q, h1, h2, h3, h4, h5, h6⟩ := ev_dim s prev rest hw hq ho (by
        rcases himp with h | h
        · exact Or.inl h
        · right
          cases r with
          | nil => rfl
          | cons _ _ => cases h) (by rw [ho] at hlen; simpa [S.extra] using hlen)
      exact ⟨s', q, h1, h2, ⟨h3, fun h => by cases h⟩, h4, by unfold pend; rw [h3, ho, List.append_nil]; exact (List.append_nil _).trans h5, fun _ => h6⟩
    | _ => cases hd
   | false =>
    obtain ⟨s', q, h1, h2, h3, h4, h5⟩ := ev_plain x s prev rest hw hf hd k hk hq hops himp (by omega)
    exact ⟨s', q, h1, h2.calm, ⟨h2.isFor, fun _ => h2.isDim⟩, h3, by rw [h2.pend, List.append_nil]; exact h4, h5⟩
  | true =>
    cases x with
    | for' w a b st =>
      have ho : s.ops = [] := by rcases hops with h | h; exact h; cases h
      obtain ⟨s', q, h1, h2, h3, h4, h5, h6⟩ := ev_for s prev rest hw k hk hq ho (by rw [ho] at hlen; simpa [S.extra] using hlen)
      exact ⟨s', q, h1, h2.calm, ⟨h3, fun _ => h2.isDim⟩, h4, by unfold pend; rw [h3, ho, List.append_nil]; exact h5, fun _ => h6⟩
    | _ => cases hf

/-! ## Terminators -/

/-- A colon or the end of the line. -/
theorem ev_end (s : Ev) (prev : Option Tk) (nl : Tk) (rest : List Tk) (hnl : nl.ty = .newline) (h0 : nl.prio = 0)
    (hl : (s.res ++ s.ops ++ pend s).length ≤ 100) :
    evLoop s prev (nl :: rest) =
      evLoop { s with ops := [], res := s.res ++ s.ops ++ pend s, isDim := false, isFor := false, implicitCommas := true } (some nl) rest := by
  have hl1 : (s.res ++ s.ops).length ≤ 100 := by rw [List.length_append (as := s.res ++ s.ops)] at hl; omega
  apply evLoop_ok
  have hc := clean_all s 0 [] s.ops (by simp) (by intro o ho; cases ho) (by simp) hl1
  unfold evStep
  rw [if_neg (by rw [hnl]; simp), if_neg (by rw [hnl]; simp), if_neg (by rw [hnl]; simp), if_neg (by omega), if_pos hnl, hc]
  simp only [Out.bind]
  cases hf : s.isFor with
  | false =>
    have hp : pend s = [] := by unfold pend; rw [hf]; rfl
    rw [hp, List.append_nil, if_neg (by simp)]
  | true =>
    have hp : pend s = [loopTok] := by unfold pend; rw [hf]; rfl
    rw [hp] at hl ⊢
    rw [if_pos rfl, out_ok _ _ (by
      show (s.res ++ s.ops).length < 100
      rw [List.length_append (as := s.res ++ s.ops)] at hl; simp only [List.length_singleton] at hl; omega)]

theorem ev_then (s : Ev) (prev : Option Tk) (rest : List Tk) (hl : (s.res ++ s.ops).length ≤ 100) :
    evLoop s prev (cmdTk cmdThen :: rest) = evLoop { s with ops := [], res := s.res ++ s.ops } (some (cmdTk cmdThen)) rest := by
  have : ∀ next, evStep s prev next (cmdTk cmdThen) = (s.clean 0).bind fun e => .ok (e, cmdTk cmdThen, true) := fun _ => rfl
  rw [evLoop_cons, this, clean_all s 0 [] s.ops (by simp) (by intro o ho; cases ho) (by simp) hl]
  rfl

theorem ev_else (s : Ev) (prev : Option Tk) (rest : List Tk) (hl : (s.res ++ s.ops).length < 100) :
    evLoop s prev (cmdTk cmdElse :: rest) =
      evLoop { s with ops := [], res := s.res ++ s.ops ++ [cmdTk cmdElse] } (some (cmdTk cmdElse)) rest := by
  have : ∀ next, evStep s prev next (cmdTk cmdElse) = (s.clean 0).bind fun e => (e.out (cmdTk cmdElse)).bind fun e =>
    .ok (e, cmdTk cmdElse, true) := fun _ => rfl
  rw [evLoop_cons, this, clean_all s 0 [] s.ops (by simp) (by intro o ho; cases ho) (by simp) (by omega)]
  simp only [Out.bind]
  rw [out_ok _ _ (by exact hl)]
  rfl

theorem postJoin_length (k : TT) : (ss : List S) → (postJoin k ss).length ≤ (joinToks (ss.map S.ann)).length + extras ss
  | [] => by simp [postJoin]
  | [s] => by have := S.postQ_length k s; simp [postJoin, joinToks, extras]; omega
  | s :: t :: r => by
    have h1 := S.postQ_length k s
    have h2 := postJoin_length .firstCommand (t :: r)
    have h3 : extras (s :: t :: r) = s.extra + extras (t :: r) := by simp [extras]
    rw [h3]
    simp only [List.map_cons] at h2
    simp only [List.map_cons, joinToks, List.length_append, List.length_cons] at *
    rw [show postJoin k (s :: t :: r) = s.postQ k ++ postJoin .firstCommand (t :: r) from rfl, List.length_append]
    omega

/-- What the last statement of a list is not. -/
def lastNot (p : S → Bool) (ss : List S) : Prop := ∀ x, ss.getLast? = some x → p x = false

/-- Statements with colons between them. -/
theorem ev_join : (ss : List S) → ss ≠ [] → (s : Ev) → (prev : Option Tk) → (rest : List Tk) → (∀ x ∈ ss, x.WF) → (k : TT) →
    Kind prev k → Quiet s → (s.ops = [] ∨ ∀ x, ss.head? = some x → x.isJump = true) →
    (s.implicitCommas = true ∨ ∀ x, ss.head? = some x → x.manyArgs = false) →
    s.res.length + s.ops.length + (joinToks (ss.map S.ann)).length + extras ss ≤ 100 →
    ∃ s' q, evLoop s prev (joinToks (ss.map S.ann) ++ rest) = evLoop s' q rest ∧ Calm s' ∧ ((lastNot S.isFor ss → s'.isFor = false) ∧ (lastNot S.isDim ss → s'.isDim = false)) ∧
      s'.isIf = s.isIf ∧ s'.res ++ s'.ops ++ pend s' = s.res ++ s.ops ++ postJoin k ss ∧
      (s.implicitCommas = true → lastNot S.isPrint ss → s'.implicitCommas = true)
  | [], h, _, _, _, _, _, _, _, _, _, _ => absurd rfl h
  | [x], _, s, prev, rest, hw, k, hk, hq, ho, hi, hl => by
    obtain ⟨s', q, h1, h2, hf, h3, h4, h5⟩ := ev_s x s prev rest (hw x (by simp)) k hk hq
      (ho.imp id fun h => h x rfl) (hi.imp id fun h => h x rfl) (by simpa [joinToks, extras] using hl)
    refine ⟨s', q, by simpa [joinToks] using h1, h2, ⟨fun hn => by rw [hf.1]; exact hn x rfl, fun hn => hf.2 (hn x rfl)⟩, h3, by simpa [postJoin] using h4, fun hc hn => ?_⟩
    rw [h5 (hn x rfl)]; exact hc
  | x :: y :: r, _, s, prev, rest, hw, k, hk, hq, ho, hi, hl => by
    have hl' : s.res.length + s.ops.length + (x.ann.length + ((joinToks ((y :: r).map S.ann)).length + 1)) + (x.extra + extras (y :: r)) ≤ 100 := by
      simpa [joinToks, extras] using hl
    obtain ⟨s1, q1, h1, h2, hf, h3, h4, h5⟩ := ev_s x s prev (colonTk :: (joinToks ((y :: r).map S.ann) ++ rest)) (hw x (by simp)) k hk hq
      (ho.imp id fun h => h x rfl) (hi.imp id fun h => h x rfl) (by omega)
    have hx := S.postQ_length k x
    have h4' : (s1.res ++ s1.ops ++ pend s1).length = s.res.length + s.ops.length + (x.postQ k).length := by rw [h4]; simp [Nat.add_assoc]
    have he := ev_end s1 q1 colonTk (joinToks ((y :: r).map S.ann) ++ rest) rfl rfl (by omega)
    obtain ⟨s', q, g1, g2, gf, g3, g4, g5⟩ := ev_join (y :: r) (by simp)
      { s1 with ops := [], res := s1.res ++ s1.ops ++ pend s1, isDim := false, isFor := false, implicitCommas := true } (some colonTk) rest
      (fun z hz => hw z (by simp at hz ⊢; right; exact hz)) .firstCommand (Or.inl ⟨Or.inr ⟨_, rfl, rfl⟩, rfl⟩)
      ⟨h2.argc, rfl, rfl, h2.isSort⟩ (Or.inl rfl) (Or.inl rfl) (by
        show (s1.res ++ s1.ops ++ pend s1).length + 0 + _ + _ ≤ 100
        rw [h4']; omega)
    refine ⟨s', q, ?_, g2, ⟨fun hn => gf.1 (fun z hz => hn z (by rw [← hz]; simp [List.getLast?_cons_cons])), fun hn => gf.2 (fun z hz => hn z (by rw [← hz]; simp [List.getLast?_cons_cons]))⟩, by rw [g3]; exact h3, ?_, fun _ hn => ?_⟩
    · simp only [List.map_cons, joinToks, List.append_assoc, List.cons_append] at h1 he g1 ⊢
      rw [h1, he, g1]
    · rw [g4]
      show (s1.res ++ s1.ops ++ pend s1) ++ [] ++ _ = _
      rw [List.append_nil, h4]
      simp [postJoin]
    · exact g5 rfl (fun z hz => hn z (by rw [← hz]; simp [List.getLast?_cons_cons]))

theorem Branch.postQ_length (b : Branch) : b.postQ.length ≤ b.ann.length + b.extra := by
  cases b with
  | jump l => exact Nat.le_refl _
  | run ss => exact postJoin_length .command ss

/-- What follows THEN, ELSE or the condition. -/
theorem ev_branch (b : Branch) (s : Ev) (p : Tk) (rest : List Tk) (hw : b.WF) (hp : p.ty ≠ .newline) (hq : Quiet s)
    (ho : s.ops = [] ∨ b.starts S.isJump = true) (hi : s.implicitCommas = true ∨ b.starts S.manyArgs = false)
    (hl : s.res.length + s.ops.length + b.ann.length + b.extra ≤ 100) :
    ∃ s' q, evLoop s (some p) (b.ann ++ rest) = evLoop s' q rest ∧ Calm s' ∧ ((b.ends S.isFor = false → s'.isFor = false) ∧ (b.ends S.isDim = false → s'.isDim = false)) ∧
      s'.isIf = s.isIf ∧ s'.res ++ s'.ops ++ pend s' = s.res ++ s.ops ++ b.postQ ∧
      (s.implicitCommas = true → b.ends S.isPrint = false → s'.implicitCommas = true) := by
  cases b with
  | jump l =>
    have ho' : s.ops = [] := by rcases ho with h | h; exact h; cases h
    have hann : (Branch.jump l).ann = [labelTk l] := rfl
    rw [hann] at hl ⊢
    simp only [List.length_cons, List.length_nil] at hl
    have hq' : Quiet { s with res := s.res ++ [⟨.labelString, l, 0, 0⟩] } := ⟨hq.argc, hq.isFor, hq.isDim, hq.isSort⟩
    refine ⟨_, _, evLoop_ok (ev_label s p _ l (by omega)), hq'.calm, ⟨fun _ => hq.isFor, fun _ => hq.isDim⟩, rfl, ?_, fun h _ => h⟩
    rw [hq'.pend, List.append_nil]
    show (s.res ++ [_]) ++ s.ops = _
    rw [ho']; simp [Branch.postQ]
  | run ss =>
    obtain ⟨hne, hw, _⟩ := hw
    cases ss with
    | nil => exact absurd rfl hne
    | cons x r =>
      obtain ⟨s', q, h1, h2, hf, h3, h4, h5⟩ := ev_join (x :: r) (by simp) s (some p) rest hw .command (Or.inr ⟨⟨p, rfl, hp⟩, rfl⟩) hq
        (ho.imp id fun h y hy => by cases hy; exact h) (hi.imp id fun h y hy => by cases hy; exact h) hl
      refine ⟨s', q, h1, h2, ⟨fun he => hf.1 fun y hy => ?_, fun he => hf.2 fun y hy => ?_⟩, h3, h4, fun hc he => h5 hc fun y hy => ?_⟩
      · simp only [Branch.ends, hy] at he
        exact he
      · simp only [Branch.ends, hy] at he
        exact he
      · simp only [Branch.ends, hy] at he
        exact he

theorem If.postQ_length (i : If) : i.postQ.length ≤ i.ann.length + i.extra := by
  have h1 := Expr.postP_length 0 i.cond.tree
  have h2 := Branch.postQ_length i.yes
  unfold If.postQ If.ann If.extra
  cases i.no with
  | none => simp [elsePost]; omega
  | some b => have h3 := Branch.postQ_length b; simp [elsePost]; omega

/-- `tok_eval` over an IF. -/
theorem ev_if (i : If) (s : Ev) (prev : Option Tk) (rest : List Tk) (hw : i.WF)
    (hp : prev = none ∨ ∃ p, prev = some p ∧ p.ty = .newline) (hq : Quiet s) (ho : s.ops = []) (hi : s.implicitCommas = true)
    (hl : s.res.length + i.ann.length + i.extra ≤ 100) :
    ∃ s' q, evLoop s prev (i.ann ++ rest) = evLoop s' q rest ∧ Calm s' ∧ s'.isIf = true ∧
      s'.res ++ s'.ops ++ pend s' = s.res ++ i.postQ := by
  obtain ⟨c0, hc0⟩ := hq.argc
  have hlev := level_ge hw.cond.tree
  have hdep := hw.cond.depth
  have hb1 := Branch.postQ_length i.yes
  have hpl := Expr.postP_length 0 i.cond.tree
  have hst := fun next => ev_cmd s prev next cmdIf (Or.inr (Or.inr rfl)) .firstCommand (Or.inl ⟨hp, rfl⟩) hq (by rw [ho, List.append_nil]; omega)
  generalize hN : (match i.no with | none => [] | some b => cmdTk cmdElse :: b.ann : List Tk) = N
  have hann : i.ann = cmdTk cmdIf :: (i.cond.tree.ann 0 ++ ((if i.then' then [cmdTk cmdThen] else []) ++ (i.yes.ann ++ N))) := by
    unfold If.ann
    rw [← hN]
    cases i.no <;> simp
  have hlen := hl
  rw [hann] at hlen
  simp only [List.length_cons, List.length_append] at hlen
  have hex : i.yes.extra ≤ i.extra := by unfold If.extra; omega
  -- the condition
  obtain ⟨T, R, q, h1, h2, h3, h4⟩ := ev_expr i.cond.tree 0 (by omega)
    { s with ops := [⟨.firstCommand, [], cmdIf, 0⟩], res := s.res ++ s.ops, isIf := s.isIf || decide (cmdIf = cmdIf), implicitCommas := s.implicitCommas && decide (cmdIf ≠ cmdPrint) }
    (some ⟨.firstCommand, [], cmdIf, 0⟩) ((if i.then' then [cmdTk cmdThen] else []) ++ (i.yes.ann ++ (N ++ rest)))
    hw.cond.tree (E.plain _ hw.cond.tree hw.cond.typed hw.cond.leaves) (Or.inl ⟨_, rfl, by simp, by simp, by simp⟩) hq.isSort hq.isDim
    (by intro o h; cases h; have := le_lim (level i.cond.tree); show 0 < _; omega)
    (by simp only [hc0, List.length_singleton]; omega) (by simp only [ho, List.append_nil, List.length_singleton]; omega)
  generalize hs1 : ({ s with ops := T ++ [⟨.firstCommand, [], cmdIf, 0⟩], res := R, isIf := s.isIf || decide (cmdIf = cmdIf), implicitCommas := s.implicitCommas && decide (cmdIf ≠ cmdPrint) } : Ev) = s1 at h1
  have e1 : s1.res ++ s1.ops = s.res ++ (i.cond.tree.postP 0 ++ [⟨.firstCommand, [], cmdIf, 0⟩]) := by
    rw [← hs1]
    show R ++ (T ++ [_]) = _
    rw [← List.append_assoc, h2, ho]; simp
  have e2 : Quiet s1 := by rw [← hs1]; exact ⟨hq.argc, hq.isFor, hq.isDim, hq.isSort⟩
  have e3 : s1.isIf = true := by rw [← hs1]; simp
  have e4 : s1.implicitCommas = true := by rw [← hs1]; simp [hi, cmdIf, cmdPrint]
  have e1l : (s1.res ++ s1.ops).length = s.res.length + ((i.cond.tree.postP 0).length + 1) := by rw [e1]; simp
  -- THEN
  obtain ⟨s2, p2, g1, g2, g3, g4, g5, g6, g7⟩ : ∃ s2 p2, evLoop s1 (some q) ((if i.then' then [cmdTk cmdThen] else []) ++ (i.yes.ann ++ (N ++ rest))) =
      evLoop s2 (some p2) (i.yes.ann ++ (N ++ rest)) ∧ Quiet s2 ∧ s2.isIf = true ∧ s2.implicitCommas = true ∧
      s2.res ++ s2.ops = s1.res ++ s1.ops ∧ (s2.ops = [] ∨ i.yes.starts S.isJump = true) ∧ p2.ty ≠ .newline := by
    by_cases ht : i.then' = true
    · rw [if_pos ht]
      refine ⟨{ s1 with ops := [], res := s1.res ++ s1.ops }, cmdTk cmdThen, ev_then s1 _ _ (by omega), ⟨e2.argc, e2.isFor, e2.isDim, e2.isSort⟩, e3, e4, by simp, Or.inl rfl,
        by simp [cmdTk]⟩
    · rw [if_neg ht]
      exact ⟨s1, q, rfl, e2, e3, e4, rfl, Or.inr (hw.without (by simpa using ht)), h4.notNl⟩
  have hl2 : s2.res.length + s2.ops.length = (s1.res ++ s1.ops).length := by rw [← g5, List.length_append]
  obtain ⟨s3, q3, k1, k2, kf, k3, k4, k5⟩ := ev_branch i.yes s2 p2 (N ++ rest) hw.yes g7 g2 g6 (Or.inl g4) (by omega)
  have hloop : evLoop s prev (i.ann ++ rest) = evLoop s3 q3 (N ++ rest) := by
    rw [hann, List.cons_append, evLoop_ok (hst _)]
    rw [List.append_assoc, List.append_assoc, List.append_assoc]
    rw [h1, g1, k1]
  have hl3 : (s3.res ++ s3.ops ++ pend s3).length = s.res.length + ((i.cond.tree.postP 0).length + 1) + i.yes.postQ.length := by
    rw [k4, g5, List.length_append, e1l]
  have hres3 : s3.res ++ s3.ops ++ pend s3 = s.res ++ (i.cond.tree.postP 0 ++ ⟨.firstCommand, [], cmdIf, 0⟩ :: i.yes.postQ) := by
    rw [k4, g5, e1]; simp
  cases hno : i.no with
  | none =>
    rw [hno] at hN
    subst hN
    refine ⟨s3, q3, by simpa using hloop, k2, by rw [k3]; exact g3, ?_⟩
    rw [hres3]; simp [If.postQ, hno, elsePost]
  | some b =>
    rw [hno] at hN
    subst hN
    simp only [List.length_cons] at hlen
    have hp3 : pend s3 = [] := by unfold pend; rw [kf.1 (hw.loop b hno)]; rfl
    rw [hp3, List.append_nil] at hl3 hres3
    have hexb : i.extra = i.yes.extra + b.extra := by unfold If.extra; rw [hno]
    have hel := ev_else s3 q3 (b.ann ++ rest) (by omega)
    obtain ⟨s4, q4, m1, m2, mf, m3, m4, m5⟩ := ev_branch b { s3 with ops := [], res := s3.res ++ s3.ops ++ [cmdTk cmdElse] } (cmdTk cmdElse) rest
      (hw.no b hno) (by simp [cmdTk]) ⟨k2.argc, kf.1 (hw.loop b hno), kf.2 (hw.dim b hno), k2.isSort⟩ (Or.inl rfl) (by
        by_cases hpr : i.yes.ends S.isPrint = true
        · exact Or.inr (hw.print b hno hpr)
        · left; exact k5 g4 (by simpa using hpr)) (by
        show (s3.res ++ s3.ops ++ [_]).length + 0 + _ + _ ≤ 100
        rw [List.length_append, hl3]; simp only [List.length_singleton]; omega)
    refine ⟨s4, q4, ?_, m2, by rw [m3]; show s3.isIf = true; rw [k3]; exact g3, ?_⟩
    · rw [hloop, List.cons_append, hel, m1]
    · rw [m4]
      show (s3.res ++ s3.ops ++ [_]) ++ [] ++ _ = _
      rw [hres3]; simp [If.postQ, hno, elsePost]

/-! ## Whole lines -/

/-- A piece of a line, up to what it leaves pending. -/
def Piece (a b : List Tk) (isIf : Bool) (n : Nat) : Prop :=
  ∀ (s : Ev) (prev : Option Tk) (rest : List Tk), Quiet s → s.ops = [] → s.implicitCommas = true →
    (prev = none ∨ ∃ p, prev = some p ∧ p.ty = .newline) → s.res.length + a.length + n ≤ 100 →
    ∃ s' q, evLoop s prev (a ++ rest) = evLoop s' q rest ∧ Calm s' ∧ s'.isIf = (s.isIf || isIf) ∧
      s'.res ++ s'.ops ++ pend s' = s.res ++ b ∧ b.length ≤ a.length + n

theorem Piece.stmt (x : S) (h : x.WF) : Piece x.ann (x.postQ .firstCommand) false x.extra := by
  intro s prev rest hq ho hi hp hl
  obtain ⟨s', q, h1, h2, _, h3, h4, _⟩ := ev_s x s prev rest h .firstCommand (Or.inl ⟨hp, rfl⟩) hq (Or.inl ho) (Or.inl hi)
    (by rw [ho]; simpa using hl)
  exact ⟨s', q, h1, h2, by simpa using h3, by rw [h4, ho]; simp, S.postQ_length _ x⟩

theorem Piece.if' (i : If) (h : i.WF) : Piece i.ann i.postQ true i.extra := by
  intro s prev rest hq ho hi hp hl
  obtain ⟨s', q, h1, h2, h3, h4⟩ := ev_if i s prev rest h hp hq ho hi hl
  exact ⟨s', q, h1, h2, by simpa using h3, h4, If.postQ_length i⟩

/-- The pieces of a line. -/
theorem ev_pieces : (l : List (List Tk × List Tk × Bool × Nat)) → (∀ x ∈ l, Piece x.1 x.2.1 x.2.2.1 x.2.2.2) → (s : Ev) → (prev : Option Tk) →
    Quiet s → s.ops = [] → s.implicitCommas = true → (prev = none ∨ ∃ p, prev = some p ∧ p.ty = .newline) →
    s.res.length + (joinToks (l.map (·.1))).length + (l.map (·.2.2.2)).sum ≤ 100 →
    ∃ s', evLoop s prev (joinToks (l.map (·.1)) ++ [endTk]) = .ok s' ∧ s'.ops = [] ∧ s'.isIf = (s.isIf || l.any (·.2.2.1)) ∧
      s'.res = s.res ++ (l.map (·.2.1)).flatten ∧
      ((l.map (·.2.1)).flatten).length ≤ (joinToks (l.map (·.1))).length + (l.map (·.2.2.2)).sum
  | [], _, s, prev, hq, ho, hi, hp, hl => by
    refine ⟨_, ev_end s prev endTk [] rfl rfl (by rw [hq.pend]; simp [ho]; simpa [joinToks] using hl), rfl, by simp, by simp [ho, hq.pend], by simp⟩
  | [x], h, s, prev, hq, ho, hi, hp, hl => by
    obtain ⟨s', q, h1, h2, h3, h4, h5⟩ := h x (by simp) s prev [endTk] hq ho hi hp (by simpa [joinToks] using hl)
    have hl' : (s'.res ++ s'.ops ++ pend s').length ≤ 100 := by
      rw [h4, List.length_append]
      simp [joinToks] at hl; omega
    refine ⟨_, h1.trans (ev_end s' q endTk [] rfl rfl hl'), rfl, ?_, ?_, by simpa [joinToks] using h5⟩
    · show s'.isIf = _; simp [h3]
    · show s'.res ++ s'.ops ++ pend s' = _; rw [h4]; simp
  | x :: y :: r, h, s, prev, hq, ho, hi, hp, hl => by
    have hlen : s.res.length + (x.1.length + ((joinToks ((y :: r).map (·.1))).length + 1)) + (x.2.2.2 + ((y :: r).map (·.2.2.2)).sum) ≤ 100 := by
      simpa [joinToks] using hl
    obtain ⟨s1, q, h1, h2, h3, h4, h5⟩ := h x (by simp) s prev (colonTk :: (joinToks ((y :: r).map (·.1)) ++ [endTk])) hq ho hi hp (by omega)
    have hl1 : (s1.res ++ s1.ops ++ pend s1).length = s.res.length + x.2.1.length := by rw [h4]; simp
    have he := ev_end s1 q colonTk (joinToks ((y :: r).map (·.1)) ++ [endTk]) rfl rfl (by omega)
    obtain ⟨s', g1, g2, g3, g4, g5⟩ := ev_pieces (y :: r) (fun z hz => h z (by simp at hz ⊢; right; exact hz))
      { s1 with ops := [], res := s1.res ++ s1.ops ++ pend s1, isDim := false, isFor := false, implicitCommas := true } (some colonTk)
      ⟨h2.argc, rfl, rfl, h2.isSort⟩ rfl rfl (Or.inr ⟨_, rfl, rfl⟩) (by
        show (s1.res ++ s1.ops ++ pend s1).length + _ + _ ≤ 100
        rw [hl1]; omega)
    refine ⟨s', ?_, g2, ?_, ?_, ?_⟩
    · simp only [List.map_cons, joinToks, List.append_assoc, List.cons_append] at h1 he g1 ⊢
      rw [h1, he, g1]
    · rw [g3]
      show (s1.isIf || _) = _
      rw [h3]; simp [Bool.or_assoc]
    · rw [g4]
      show (s1.res ++ s1.ops ++ pend s1) ++ _ = _
      rw [h4]; simp
    · simp only [List.map_cons, joinToks, List.flatten_cons, List.length_append, List.length_cons, List.sum_cons] at g5 ⊢
      omega

def labelPiece : Option (List Nat) → List (List Tk × List Tk × Bool × Nat)
  | none => []
  | some w => [([labelTk w], [labelTk w], false, 0)]

def ifPiece : Option If → List (List Tk × List Tk × Bool × Nat)
  | none => []
  | some i => [(i.ann, i.postQ, true, i.extra)]

theorem postJoin_flatten : (ss : List S) → postJoin .firstCommand ss = (ss.map (S.postQ .firstCommand)).flatten
  | [] => rfl
  | s :: r => by simp [postJoin, postJoin_flatten r]

theorem isIf_any (l : Line) : (l.stmts.map fun x => (x.ann, x.postQ .firstCommand, false, x.extra)).any (·.2.2.1) = false := by
  simp

theorem init_quiet : Quiet Ev.init := ⟨⟨_, rfl⟩, rfl, rfl, rfl⟩

theorem fin_if (s' : Ev) (h : s'.ops = []) (hl : s'.res.length < 100) :
    ((s'.clean 0).bind fun e => if e.isIf then (e.out endifTok).bind fun e => .ok e.res else .ok e.res) =
      .ok (s'.res ++ if s'.isIf then [endifTok] else []) := by
  rw [clean_all s' 0 [] [] (by simp [h]) (by intro o ho; cases ho) (by simp) (by simp; omega)]
  simp only [Out.bind, List.append_nil]
  by_cases hi : s'.isIf = true
  · rw [if_pos hi, out_ok _ _ (by exact hl), if_pos hi]
  · rw [if_neg hi, if_neg hi]; simp

/-- `tok_eval` on a line without DATA. -/
theorem tokEval_plain (l : Line) (h : l.WF) (hd : l.data = none) : tokEval l.ann = .ok l.postQ := by
  have hlen : l.ann.length + l.extra ≤ 100 := by rw [Line.ann_length]; exact h.len
  have hps : ∀ x ∈ (l.stmts.map fun x => (x.ann, x.postQ .firstCommand, false, x.extra)) ++ ifPiece l.last, Piece x.1 x.2.1 x.2.2.1 x.2.2.2 := by
    intro x hx
    rcases List.mem_append.mp hx with hx | hx
    · obtain ⟨y, hy, rfl⟩ := List.mem_map.mp hx
      exact Piece.stmt y (h.stmts y hy)
    · cases hl : l.last with
      | none => rw [hl] at hx; cases hx
      | some i =>
        rw [hl] at hx
        simp only [ifPiece, List.mem_singleton] at hx
        subst hx
        exact Piece.if' i (h.last i hl)
  have hP : ∀ L : List (List Tk × List Tk × Bool × Nat), (L.map (·.1)) = l.annPieces → (L.map (·.2.1)).flatten = labelPost l.label ++ (postJoin .firstCommand l.stmts ++ (match l.last with | none => [] | some i => i.postQ)) →
      L.any (·.2.2.1) = l.last.isSome → ∀ s', evLoop Ev.init none l.ann = .ok s' → s'.ops = [] → s'.isIf = (Ev.init.isIf || L.any (·.2.2.1)) →
      s'.res = Ev.init.res ++ (L.map (·.2.1)).flatten → ((L.map (·.2.1)).flatten).length ≤ (joinToks (L.map (·.1))).length + (L.map (·.2.2.2)).sum → (L.map (·.2.2.2)).sum = l.extra → tokEval l.ann = .ok l.postQ := by
    intro L h1 h2 h3 s' e1 e2 e3 e4 e5 e6
    unfold tokEval
    rw [e1]
    simp only [Out.bind]
    have hll : s'.res.length < 100 := by
      rw [e4]
      rw [h1] at e5
      have : (joinToks l.annPieces).length + 1 + l.extra ≤ 100 := by simpa [Line.ann] using hlen
      simp only [Ev.init, List.nil_append]
      omega
    have := fin_if s' e2 hll
    simp only [Out.bind] at this
    rw [this, e3, h3, e4, h2]
    unfold Line.postQ
    rw [hd]
    cases l.last with
    | none => simp [Ev.init, ifPost, dataPost]
    | some i => simp [Ev.init, ifPost, dataPost]
  have hjl : (joinToks l.annPieces).length + 1 + l.extra ≤ 100 := by simpa [Line.ann] using hlen
  have hsum : (((l.stmts.map fun x => (x.ann, x.postQ .firstCommand, false, x.extra)) ++ ifPiece l.last).map (·.2.2.2)).sum = l.extra := by
    unfold Line.extra extras
    cases l.last <;> simp [ifPiece, Function.comp_def]
  have hany : ((l.stmts.map fun x => (x.ann, x.postQ .firstCommand, false, x.extra)) ++ ifPiece l.last).any (·.2.2.1) = l.last.isSome := by
    cases l.last <;> simp [ifPiece]
  cases hlab : l.label with
  | none =>
    have hL1 : ((l.stmts.map fun x => (x.ann, x.postQ .firstCommand, false, x.extra)) ++ ifPiece l.last).map (·.1) = l.annPieces := by
      unfold Line.annPieces
      rw [hlab, hd]
      cases l.last <;> simp [ifPiece]
    obtain ⟨s', e1, e2, e3, e4, e5⟩ := ev_pieces _ hps Ev.init none init_quiet rfl rfl (Or.inl rfl) (by rw [hL1, hsum]; simp only [Ev.init, List.length_nil]; omega)
    refine hP _ hL1 ?_ hany s' (by rw [hL1] at e1; exact e1) e2 e3 e4 e5 hsum
    rw [hlab, postJoin_flatten]
    cases l.last <;> simp [ifPiece, labelPost, Function.comp_def]
  | some w =>
    generalize hL : (l.stmts.map fun x => (x.ann, x.postQ .firstCommand, false, x.extra)) ++ ifPiece l.last = L at hps hany hsum
    have hLa : l.annPieces = [labelTk w] :: L.map (·.1) := by
      unfold Line.annPieces
      rw [hlab, hd, ← hL]
      cases l.last <;> simp [ifPiece]
    have hLb : (L.map (·.2.1)).flatten = postJoin .firstCommand l.stmts ++ (match l.last with | none => [] | some i => i.postQ) := by
      rw [← hL, postJoin_flatten]
      cases l.last <;> simp [ifPiece, Function.comp_def]
    have hst : ∀ next, evStep Ev.init none next (labelTk w) = .ok ({ Ev.init with res := [labelTk w] }, labelTk w, true) := by
      intro next
      have : evStep Ev.init none next (labelTk w) = (Ev.init.out (labelTk w)).bind fun e => .ok (e, labelTk w, true) := rfl
      rw [this, out_ok _ _ (by simp [Ev.init])]
      rfl
    have hq : Quiet { Ev.init with res := [labelTk w] } := ⟨⟨_, rfl⟩, rfl, rfl, rfl⟩
    have fin : ∃ s', evLoop Ev.init none l.ann = .ok s' ∧ s'.ops = [] ∧ s'.isIf = (Ev.init.isIf || L.any (·.2.2.1)) ∧
        s'.res = [labelTk w] ++ (L.map (·.2.1)).flatten ∧ ((L.map (·.2.1)).flatten).length ≤ (joinToks (L.map (·.1))).length + (L.map (·.2.2.2)).sum := by
      unfold Line.ann
      rw [hLa]
      cases L with
      | nil =>
        exact ⟨_, (evLoop_ok (hst _)).trans (ev_end _ _ endTk [] rfl rfl (by rw [hq.pend]; simp [Ev.init])), rfl, rfl, by rw [hq.pend]; rfl, by simp⟩
      | cons x r =>
        have hj : joinToks ([labelTk w] :: (x :: r).map (·.1)) ++ [endTk] = labelTk w :: colonTk :: (joinToks ((x :: r).map (·.1)) ++ [endTk]) := by
          simp [joinToks]
        rw [hj, evLoop_ok (hst _), ev_end _ _ colonTk _ rfl rfl (by rw [hq.pend]; simp [Ev.init]), hq.pend]
        have hll : 1 + (joinToks ((x :: r).map (·.1))).length + ((x :: r).map (·.2.2.2)).sum ≤ 100 := by
          rw [hLa, ← hsum] at hjl
          simp [joinToks] at hjl
          simp; omega
        obtain ⟨s', e1, e2, e3, e4, e5⟩ := ev_pieces (x :: r) hps
          { Ev.init with res := [labelTk w] ++ [] ++ [], isDim := false, isFor := false, implicitCommas := true, ops := [] } (some colonTk) ⟨⟨_, rfl⟩, rfl, rfl, rfl⟩ rfl rfl
          (Or.inr ⟨_, rfl, rfl⟩) (by simpa using hll)
        exact ⟨s', e1, e2, e3, e4, e5⟩
    obtain ⟨s', e1, e2, e3, e4, e5⟩ := fin
    refine hP (([labelTk w], [labelTk w], false, 0) :: L) (by rw [hLa]; rfl) ?_ (by simpa using hany) s' e1 e2 (by simpa using e3) (by simpa [Ev.init] using e4) ?_ (by simpa using hsum)
    · rw [hlab]
      simp only [List.map_cons, List.flatten_cons, hLb, labelPost]
    · cases L with
      | nil => simp [joinToks]
      | cons x r =>
        simp only [List.map_cons, List.flatten_cons, joinToks, List.length_append, List.length_cons, List.sum_cons] at e5 ⊢
        omega

theorem ev_data (s : Ev) (prev : Option Tk) (d : Data) (rest : List Tk) (ho : s.ops = []) (hl : s.res.length < 100) :
    evLoop s prev (d.tk :: rest) = .ok { s with ops := [], res := s.res ++ [d.tk] } := by
  have : ∀ next, evStep s prev next d.tk = (s.clean 0).bind fun e => (e.out d.tk).bind fun e => .ok (e, d.tk, false) := fun _ => rfl
  rw [evLoop_cons, this, clean_all s 0 [] s.ops (by simp) (by intro o ho; cases ho) (by simp) (by rw [ho, List.append_nil]; omega)]
  simp only [Out.bind, ho, List.append_nil]
  rw [out_ok _ _ (by exact hl)]
  rfl

/-- `tok_eval` on a line with DATA. -/
theorem tokEval_data (l : Line) (h : l.WF) (d : Data) (hd : l.data = some d) : tokEval l.ann = .ok l.postQ := by
  obtain ⟨_, hs, hi⟩ := h.data d hd
  cases hlab : l.label with
  | none =>
    have h1 : l.ann = [d.tk, endTk] := by simp [Line.ann, Line.annPieces, hlab, hs, hi, hd, joinToks]
    have h2 : l.postQ = [d.tk] := by simp [Line.postQ, hlab, hs, hi, hd, labelPost, postJoin, ifPost, dataPost]
    rw [h1, h2]
    unfold tokEval
    rw [ev_data Ev.init none d [endTk] rfl (by simp [Ev.init])]
    rfl
  | some w =>
    have h1 : l.ann = [labelTk w, colonTk, d.tk, endTk] := by simp [Line.ann, Line.annPieces, hlab, hs, hi, hd, joinToks]
    have h2 : l.postQ = [labelTk w, d.tk] := by simp [Line.postQ, hlab, hs, hi, hd, labelPost, postJoin, ifPost, dataPost]
    rw [h1, h2]
    have hst : ∀ next, evStep Ev.init none next (labelTk w) = .ok ({ Ev.init with res := [labelTk w] }, labelTk w, true) := by
      intro next
      have : evStep Ev.init none next (labelTk w) = (Ev.init.out (labelTk w)).bind fun e => .ok (e, labelTk w, true) := rfl
      rw [this, out_ok _ _ (by simp [Ev.init])]
      rfl
    have hq : Quiet { Ev.init with res := [labelTk w] } := ⟨⟨_, rfl⟩, rfl, rfl, rfl⟩
    unfold tokEval
    rw [evLoop_ok (hst _), ev_end _ _ colonTk _ rfl rfl (by rw [hq.pend]; simp [Ev.init]), hq.pend,
      ev_data _ _ d [endTk] rfl (by simp [Ev.init])]
    rfl

/-- `tok_eval` on a line. -/
theorem tokEval_src (l : Line) (h : l.WF) : tokEval l.ann = .ok l.postQ := by
  cases hd : l.data with
  | none => exact tokEval_plain l h hd
  | some d => exact tokEval_data l h d hd

end Sbc.Source
