import Verif.Proof.Expr
import Verif.Spec.Stmt
set_option autoImplicit false
namespace Sbc.Tok.Spec
open Sbc Sbc.Tok

/-! ## Priorities of statements -/

def optAnn : Option Expr → List Tk
  | some e => e.ann 0
  | none => []

def itemAnn : List (Option Expr × Nat) → List Tk
  | [] => []
  | x :: r => optAnn x.1 ++ opP x.2 1 :: itemAnn r

def Stmt.ann : Stmt → List Tk
  | .empty => []
  | .assign l e => l.ann 0 ++ opP opAssign 0 :: e.ann 0
  | .cmd0 c => [cmdTk c]
  | .cmd c a => cmdTk c :: a.ann 0
  | .print items last => cmdTk cmdPrint :: (itemAnn items ++ optAnn last)

def lineAnn : List (Stmt × Tk) → List Tk
  | [] => []
  | (s, nl) :: r => s.ann ++ { nl with prio := 0 } :: lineAnn r

def optPostP : Option Expr → List Tk
  | some e => e.postP 0
  | none => []

def itemPostP : List (Option Expr × Nat) → List Tk
  | [] => []
  | x :: r => optPostP x.1 ++ opP x.2 1 :: itemPostP r

def Stmt.postP : Stmt → List Tk
  | .empty => []
  | .assign l e => l.postP 0 ++ e.postP 0 ++ [opP opAssign 0]
  | .cmd0 c => [⟨.firstCommand, [], c, 0⟩]
  | .cmd c a => a.postP 0 ++ [⟨.firstCommand, [], c, 0⟩]
  | .print items last => itemPostP items ++ optPostP last ++ [⟨.firstCommand, [], cmdPrint, 0⟩]

def linePostP : List (Stmt × Tk) → List Tk
  | [] => []
  | (s, _) :: r => s.postP ++ linePostP r

theorem optPostP_bare (o : Option Expr) : (optPostP o).map bare = (optPost o).map bare := by
  cases o with
  | none => rfl
  | some e => exact Expr.postP_bare 0 e

theorem itemPostP_bare : (l : List (Option Expr × Nat)) → (itemPostP l).map bare = (itemPost l).map bare
  | [] => rfl
  | x :: r => by
    simp only [itemPostP, itemPost, List.map_append, List.map_cons, optPostP_bare, itemPostP_bare r]
    rfl

theorem Stmt.postP_bare (s : Stmt) : s.postP.map bare = s.post.map bare := by
  cases s with
  | empty => rfl
  | assign l e =>
    simp only [Stmt.postP, Stmt.post, List.map_append, Expr.postP_bare]
    rfl
  | cmd0 c => rfl
  | cmd c a =>
    simp only [Stmt.postP, Stmt.post, List.map_append, Args.postP_bare]
  | print i l =>
    simp only [Stmt.postP, Stmt.post, List.map_append, itemPostP_bare, optPostP_bare]

theorem linePostP_bare : (l : List (Stmt × Tk)) → (linePostP l).map bare = (linePost l).map bare
  | [] => rfl
  | (s, _) :: r => by
    simp only [linePostP, linePost, List.map_append, Stmt.postP_bare, linePostP_bare r]

theorem optAnn_length (o : Option Expr) : (optAnn o).length = (optToks o).length := by
  cases o with
  | none => rfl
  | some e => exact Expr.ann_length 0 e

theorem itemAnn_length : (l : List (Option Expr × Nat)) → (itemAnn l).length = (itemToks l).length
  | [] => rfl
  | x :: r => by simp [itemAnn, itemToks, optAnn_length, itemAnn_length r]

theorem Stmt.ann_length (s : Stmt) : s.ann.length = s.toks.length := by
  cases s <;> simp [Stmt.ann, Stmt.toks, Expr.ann_length, Args.ann_length, itemAnn_length, optAnn_length]

theorem lineAnn_length : (l : List (Stmt × Tk)) → (lineAnn l).length = (lineToks l).length
  | [] => rfl
  | (s, _) :: r => by simp [lineAnn, lineToks, Stmt.ann_length, lineAnn_length r]

theorem optPostP_length (o : Option Expr) : (optPostP o).length ≤ (optAnn o).length := by
  cases o with
  | none => simp [optPostP]
  | some e => exact Expr.postP_length 0 e

theorem itemPostP_length : (l : List (Option Expr × Nat)) → (itemPostP l).length ≤ (itemAnn l).length
  | [] => by simp [itemPostP]
  | x :: r => by
    have := itemPostP_length r
    have := optPostP_length x.1
    simp [itemPostP, itemAnn]; omega

/-- The token before a statement does not make a following minus sign binary, and is not a name. -/
def Front (d : List Tk) : Prop := d = [] ∨ ∃ p r, d = p :: r ∧ p.ty = .newline

theorem Front.ne {d : List Tk} (h : Front d) : ∀ p r, d = p :: r → p.ty ≠ .name := by
  rintro p r rfl
  rcases h with h | ⟨p', r', h, h'⟩
  · cases h
  · cases h; rw [h']; decide

/-- An assignment target at the start of a statement. -/
theorem prio_lval (pre : Tk) (l : Expr) (d rest : List Tk) (hw : l.WF) (hpl : l.Plain)
    (hn : 8 * (l.depth + 1) < 65536)
    (hl : (∃ t, l = .atom t ∧ t.ty ∈ [TT.name, .sysvar]) ∨ ∃ h sq a, l = .call h sq a ∧ h.ty = .name) :
    prioLoop pre d (0 : Nat) (l.toks ++ rest) = prioLoop pre ((l.ann 0).reverse ++ d) (0 : Nat) rest := by
  rcases hl with ⟨t, rfl, ht⟩ | ⟨h, sq, a, rfl, hnm⟩
  · simp only [Expr.toks, Expr.ann, List.cons_append, List.nil_append, List.reverse_cons, List.reverse_nil]
    rw [prioLoop_cons, prio_atom pre _ _ t hw]
  · have hd : (Expr.call h sq a).depth = a.depth + 1 := rfl
    obtain ⟨hh, ha⟩ := hw
    obtain ⟨hs, _, hpa⟩ := hpl
    have hob : (if sq then opOpenBracket else opOpenParen) = opOpenBracket ∨
        (if sq then opOpenBracket else opOpenParen) = opOpenParen := by cases sq <;> simp
    have hcb : (if sq then opCloseBracket else opCloseParen) = opCloseBracket ∨
        (if sq then opCloseBracket else opCloseParen) = opCloseParen := by cases sq <;> simp
    simp only [Expr.toks, Expr.ann, List.cons_append, List.append_assoc, List.nil_append]
    rw [prioLoop_cons, prio_atom pre _ _ h (by simp [hnm]), prioLoop_cons]
    simp only []
    rw [prio_open_name pre { h with prio := 0 } _ 0 _ hob hnm (by omega)]
    have := prio_args pre a (0 + 8) (opP (if sq then opOpenBracket else opOpenParen) (0 + 8))
      ({ h with prio := 0 + 7 } :: d) (opTk (if sq then opCloseBracket else opCloseParen) :: rest) ha hpa (by omega)
      (by simp [opP]) (fun hl => by
        cases sq with
        | true => rw [hs rfl] at hl; cases hl
        | false => rfl)
    rw [this, prioLoop_cons, prio_close pre _ 0 _ hcb (by omega)]
    simp

theorem prio_cmd (pre : Tk) (d : List Tk) (n : Int) (c : Nat) :
    prioStep pre d n (cmdTk c) = (cmdTk c :: d, n) := rfl

theorem prio_nl (pre : Tk) (d : List Tk) (n : Int) (nl : Tk) (h : nl.ty = .newline) :
    prioStep pre d n nl = ({ nl with prio := 0 } :: d, n) := by
  unfold prioStep
  rw [if_neg (by rw [h]; decide), if_neg (by rw [h]; decide)]

theorem prio_assign (pre : Tk) (d : List Tk) : prioStep pre d (0 : Nat) (opTk opAssign) = (opP opAssign 0 :: d, ((0 : Nat) : Int)) := rfl

theorem prio_sep (pre : Tk) (d : List Tk) (op : Nat) (h : op = opComma ∨ op = opSemicolon) :
    prioStep pre d (0 : Nat) (opTk op) = (opP op 1 :: d, ((0 : Nat) : Int)) := by
  rcases h with rfl | rfl <;> rfl

theorem prio_opt (pre : Tk) (o : Option Expr) (p : Tk) (d rest : List Tk) (hw : ∀ e, o = some e → e.WF)
    (hpl : ∀ e, o = some e → e.Plain) (hd : ∀ e, o = some e → e.depth ≤ 62) (hp : p.ty ≠ .name)
    (hm : minusIsBinary p = false) :
    prioLoop pre (p :: d) (0 : Nat) (optToks o ++ rest) = prioLoop pre ((optAnn o).reverse ++ p :: d) (0 : Nat) rest := by
  cases o with
  | none => rfl
  | some e =>
    have := hd e rfl
    exact prio_expr pre e 0 p d rest (hw e rfl) (hpl e rfl) (by omega) hp (fun _ => hm)

theorem prio_items (pre : Tk) : (l : List (Option Expr × Nat)) → (p : Tk) → (d rest : List Tk) →
    (hw : ∀ x ∈ l, (∀ e, x.1 = some e → e.WF) ∧ (x.2 = opComma ∨ x.2 = opSemicolon)) →
    (hpl : ∀ x ∈ l, ∀ e, x.1 = some e → e.Plain) → (hd : ∀ x ∈ l, ∀ e, x.1 = some e → e.depth ≤ 62) →
    (hp : p.ty ≠ .name) → (hm : minusIsBinary p = false) →
    ∃ p' d', prioLoop pre (p :: d) (0 : Nat) (itemToks l ++ rest) = prioLoop pre (p' :: d') (0 : Nat) rest ∧
      p' :: d' = (itemAnn l).reverse ++ p :: d ∧ p'.ty ≠ .name ∧ minusIsBinary p' = false
  | [], p, d, rest, _, _, _, hp, hm => ⟨p, d, rfl, rfl, hp, hm⟩
  | x :: r, p, d, rest, hw, hpl, hd, hp, hm => by
    have hx := hw x (by simp)
    have hsep : ∀ q, q = opP x.2 1 → q.ty ≠ .name ∧ minusIsBinary q = false := by
      rintro q rfl
      rcases hx.2 with h | h <;> rw [h] <;> exact ⟨by decide, by rfl⟩
    obtain ⟨p', d', h1, h2, h3, h4⟩ := prio_items pre r (opP x.2 1) ((optAnn x.1).reverse ++ p :: d) rest
      (fun y hy => hw y (by simp [hy])) (fun y hy => hpl y (by simp [hy])) (fun y hy => hd y (by simp [hy]))
      (hsep _ rfl).1 (hsep _ rfl).2
    refine ⟨p', d', ?_, ?_, h3, h4⟩
    · simp only [itemToks, List.append_assoc, List.cons_append]
      rw [prio_opt pre x.1 p d _ hx.1 (hpl x (by simp)) (hd x (by simp)) hp hm, prioLoop_cons, prio_sep pre _ x.2 hx.2]
      exact h1
    · rw [h2]; simp [itemAnn]

/-- `tok_prio` over a statement. -/
theorem prio_stmt (pre : Tk) (s : Stmt) (d rest : List Tk) (hw : s.WF) (hpl : s.Plain) (hs : s.shallow 62) :
    prioLoop pre d (0 : Nat) (s.toks ++ rest) = prioLoop pre (s.ann.reverse ++ d) (0 : Nat) rest := by
  have hcmd : ∀ c, (cmdTk c).ty ≠ .name ∧ minusIsBinary (cmdTk c) = false := fun c => ⟨by simp [cmdTk], rfl⟩
  cases s with
  | empty => rfl
  | assign l e =>
    obtain ⟨hl, he, hlv⟩ := hw
    simp only [Stmt.shallow] at hs
    simp only [Stmt.toks, Stmt.ann, List.append_assoc, List.cons_append]
    rw [prio_lval pre l d _ hl hpl.1 (by omega) hlv, prioLoop_cons, prio_assign]
    have := prio_expr pre e 0 (opP opAssign 0) ((l.ann 0).reverse ++ d) rest he hpl.2 (by omega) (by simp [opP])
      (fun _ => by rfl)
    simpa using this
  | cmd0 c => rfl
  | cmd c a =>
    simp only [Stmt.shallow] at hs
    simp only [Stmt.toks, Stmt.ann, List.cons_append]
    rw [prioLoop_cons, prio_cmd]
    have := prio_args pre a 0 (cmdTk c) d rest hw.2 hpl (by omega) (hcmd c).1 (fun _ => (hcmd c).2)
    simpa using this
  | print i l =>
    simp only [Stmt.toks, Stmt.ann, List.cons_append, List.append_assoc]
    rw [prioLoop_cons, prio_cmd]
    obtain ⟨p', d', h1, h2, h3, h4⟩ := prio_items pre i (cmdTk cmdPrint) d (optToks l ++ rest) hw.1 hpl.1 hs.1
      (hcmd _).1 (hcmd _).2
    simp only []
    rw [h1, prio_opt pre l p' d' rest hw.2 hpl.2 hs.2 h3 h4, h2]
    simp

theorem prio_line (pre : Tk) : (l : List (Stmt × Tk)) → (d : List Tk) →
    (∀ x ∈ l, x.1.WF ∧ x.1.Plain ∧ x.1.shallow 62 ∧ x.2.ty = .newline) →
    prioLoop pre d (0 : Nat) (lineToks l) = d.reverse ++ lineAnn l
  | [], d, _ => by simp [lineToks, lineAnn, prioLoop]
  | (s, nl) :: r, d, h => by
    have hx := h (s, nl) (by simp)
    simp only [lineToks, lineAnn]
    rw [prio_stmt pre s d _ hx.1 hx.2.1 hx.2.2.1, prioLoop_cons, prio_nl pre _ _ nl hx.2.2.2]
    simp only []
    rw [prio_line pre r _ (fun y hy => h y (by simp [hy]))]
    simp

/-! ## Reordering of statements -/

/-- State of `tok_eval` between statements. -/
structure Idle (s : Ev) : Prop where
  ops : s.ops = []
  argc : ∃ c, s.argc = [c]
  isFor : s.isFor = false
  isDim : s.isDim = false
  isIf : s.isIf = false
  isSort : s.isSort = false
  imp : s.implicitCommas = true

theorem evStep_assign (e : Ev) (prev next : Option Tk) :
    evStep e prev next (opP opAssign 0) = (e.clean 0).bind fun e => (e.push (opP opAssign 0)).bind fun e =>
      .ok (e, opP opAssign 0, true) := rfl

theorem evStep_nl (e : Ev) (prev next : Option Tk) (nl : Tk) (h : nl.ty = .newline) (hf : e.isFor = false) :
    evStep e prev next { nl with prio := 0 } = (e.clean 0).bind fun e' =>
      .ok ({ e' with isDim := false, implicitCommas := true }, { nl with prio := 0 }, true) := by
  unfold evStep
  have h0 : ({ nl with prio := 0 } : Tk).ty = .newline := h
  rw [if_neg (by rw [h0]; simp), if_neg (by rw [h0]; simp), if_neg (by rw [h0]; simp), if_neg (by simp), if_pos h0]
  unfold Ev.clean
  split
  split
  · simp only [Out.bind, hf]
    rfl
  · rfl

/-- A command at the start of a statement, with nothing pending. -/
theorem evStep_cmd (e : Ev) (prev next : Option Tk) (c : Nat) (hc : ordinary c)
    (hp : prev = none ∨ ∃ p, prev = some p ∧ p.ty = .newline) (hi : Idle e) :
    evStep e prev next (cmdTk c) = .ok ({ e with ops := [⟨.firstCommand, [], c, 0⟩] }, ⟨.firstCommand, [], c, 0⟩, true) := by
  simp only [ordinary, List.mem_cons, List.not_mem_nil, or_false, not_or] at hc
  obtain ⟨h1, h2, h3, h4, h5, h6, h7, h8, h9⟩ := hc
  have hfl : evFlags e (cmdTk c) = .ok e := by
    unfold evFlags
    rw [if_neg (show ¬ (cmdTk c).cmd = cmdPrint from h9), if_neg (show ¬ (cmdTk c).cmd = cmdFor from h2),
      if_neg (show ¬ (cmdTk c).cmd = cmdIf from h3),
      if_neg (show ¬ ((cmdTk c).cmd = cmdSort ∨ (cmdTk c).cmd = cmdRsort) from by simp [cmdTk, h7, h8])]
    simp only []
    rw [if_neg (by rw [hi.isFor]; simp)]
    have := hi.isDim
    cases e; simp_all
  have hpu : evPush e ⟨.firstCommand, [], c, 0⟩ = .ok { e with ops := [⟨.firstCommand, [], c, 0⟩] } := by
    rw [evPush_keep e _ (by rw [hi.ops]; intro o ho; cases ho) (by left; simp), push_ok e _ (by rw [hi.ops]; simp)]
    rw [hi.ops]
  unfold evStep
  rw [if_neg (by simp [cmdTk]), if_neg (by simp [cmdTk]), if_pos (show (cmdTk c).ty = .command from rfl),
    if_neg (show ¬ (cmdTk c).cmd = cmdDim from h1), if_neg (show ¬ (cmdTk c).cmd = cmdThen from h4),
    if_neg (show ¬ (cmdTk c).cmd = cmdElse from h5), if_neg (show ¬ (cmdTk c).cmd = cmdData from h6), hfl]
  rcases hp with rfl | ⟨p, rfl, hp⟩
  · simp only [cmdTk, Out.bind, if_true]
    rw [hpu]
  · simp only [cmdTk, Out.bind, hp, decide_true, if_true]
    rw [hpu]

theorem evStep_print (e : Ev) (prev next : Option Tk)
    (hp : prev = none ∨ ∃ p, prev = some p ∧ p.ty = .newline) (hi : Idle e) :
    evStep e prev next (cmdTk cmdPrint) = .ok ({ e with ops := [⟨.firstCommand, [], cmdPrint, 0⟩], implicitCommas := false },
      ⟨.firstCommand, [], cmdPrint, 0⟩, true) := by
  have hfl : evFlags e (cmdTk cmdPrint) = .ok { e with implicitCommas := false } := rfl
  have hpu : evPush { e with implicitCommas := false } ⟨.firstCommand, [], cmdPrint, 0⟩ =
      .ok { e with ops := [⟨.firstCommand, [], cmdPrint, 0⟩], implicitCommas := false } := by
    rw [evPush_keep _ _ (by simp only [hi.ops]; intro o ho; cases ho) (by left; simp), push_ok _ _ (by simp [hi.ops])]
    simp only [hi.ops]
  unfold evStep
  rw [if_neg (by simp [cmdTk]), if_neg (by simp [cmdTk]), if_pos (show (cmdTk cmdPrint).ty = .command from rfl), if_neg (by decide), if_neg (by decide),
    if_neg (by decide), if_neg (by decide), hfl]
  rcases hp with rfl | ⟨p, rfl, hp⟩
  · simp only [cmdTk, Out.bind, if_true]
    rw [hpu]
  · simp only [cmdTk, Out.bind, hp, decide_true, if_true]
    rw [hpu]

/-- First token of an annotated expression. -/
theorem Expr.ann_head (e : Expr) (hw : e.WF) (n : Nat) : ∃ t r, e.ann n = t :: r ∧ t.ty ≠ .newline := by
  match e with
  | .atom t =>
    refine ⟨_, _, rfl, ?_⟩
    simp only [Expr.WF, List.mem_cons, List.not_mem_nil, or_false] at hw
    rcases hw with h | h | h | h | h <;> simp [h]
  | .un op e => exact ⟨_, _, rfl, by simp [opP]⟩
  | .bin op l r =>
    obtain ⟨k, _, _, _, hl, _⟩ := hw
    obtain ⟨t, q, h1, h2⟩ := Expr.ann_head l hl n
    exact ⟨t, q ++ opP op (n + (prec op).getD 0) :: r.ann n, by simp [Expr.ann, h1], h2⟩
  | .paren e => exact ⟨_, _, rfl, by simp [opP]⟩
  | .call h sq a =>
    refine ⟨_, _, rfl, ?_⟩
    have := hw.1
    simp only [List.mem_cons, List.not_mem_nil, or_false] at this
    rcases this with h | h <;> simp [h]
  | .call0 h =>
    refine ⟨_, _, rfl, ?_⟩
    have h' : h.ty = .function := hw
    simp [h']

theorem Expr.postP_ne (e : Expr) (n : Nat) : e.postP n ≠ [] := by
  match e with
  | .atom t => simp [Expr.postP]
  | .un op e => simp [Expr.postP]
  | .bin op l r => simp [Expr.postP]
  | .paren e => simp only [Expr.postP]; exact Expr.postP_ne e _
  | .call h sq a => simp [Expr.postP]
  | .call0 h => simp [Expr.postP]

theorem Args.ann_head (a : Args) (hw : a.WF) (n : Nat) : ∃ t r, a.ann n = t :: r ∧ t.ty ≠ .newline := by
  cases a with
  | one e => exact Expr.ann_head e hw n
  | more e a =>
    obtain ⟨t, q, h1, h2⟩ := Expr.ann_head e hw.1 n
    exact ⟨t, q ++ opP opComma (n + 1) :: a.ann n, by simp [Args.ann, h1], h2⟩

theorem evStep_sep (e : Ev) (prev next : Option Tk) (op : Nat) :
    evStep e prev next (opP op 1) = (evComma e prev next (opP op 1)).bind fun e => .ok (e, opP op 1, true) := rfl

/-- Arguments of a command: the commas disappear. -/
theorem ev_top (a : Args) (s : Ev) (c : Nat) (o : Tk) (ho : o.prio = 0) (hops : s.ops = [o]) (hc : s.argc = [c])
    (prev : Option Tk) (rest : List Tk) (hw : a.WF) (hpl : a.Plain) (hprev : Group prev) (hsort : s.isSort = false)
    (hdim : s.isDim = false) (himp : s.implicitCommas = true) (hd : a.depth ≤ 62)
    (hlen : s.res.length + 1 + (a.ann 0).length ≤ 100) :
    ∃ S R q c', evLoop s prev (a.ann 0 ++ rest) = evLoop { s with ops := S ++ [o], res := R, argc := [c'] } (some q) rest ∧
      R ++ S = s.res ++ a.postP 0 := by
  match a with
  | .one e =>
    have hlev := level_ge hw
    obtain ⟨S, R, q, h1, h2, h3, h4⟩ := ev_expr e 0 (by omega) s prev rest hw hpl (Or.inl hprev) hsort hdim
      (by rw [hops]; intro x hx; cases hx; have := le_lim (level e); omega)
      (by rw [hc]; simp only [Args.depth] at hd; simp only [List.length_singleton]; omega)
      (by rw [hops]; simpa [Args.ann] using hlen)
    refine ⟨S, R, q, c, ?_, h2⟩
    simp only [Args.ann]
    rw [h1, hops, ← hc]
  | .more e a =>
    have hlev := level_ge hw.1
    have hd1 : e.depth ≤ 62 := Nat.le_trans (Nat.le_max_left _ _) hd
    have hd2 : a.depth ≤ 62 := Nat.le_trans (Nat.le_max_right _ _) hd
    have hlen' : s.res.length + 1 + ((e.ann 0).length + ((a.ann 0).length + 1)) ≤ 100 := by
      simpa [Args.ann] using hlen
    obtain ⟨S, R, q, h1, h2, h3, h4⟩ := ev_expr e 0 (by omega) s prev (opP opComma 1 :: (a.ann 0 ++ rest)) hw.1 hpl.1
      (Or.inl hprev) hsort hdim
      (by rw [hops]; intro x hx; cases hx; have := le_lim (level e); omega)
      (by rw [hc]; simp only [List.length_singleton]; omega) (by rw [hops]; simp only [List.length_singleton]; omega)
    have hpl' := Expr.postP_length 0 e
    have hRS : (R ++ S).length = s.res.length + (e.postP 0).length := by rw [h2]; simp
    obtain ⟨t, r, ht, htn⟩ := Args.ann_head a hw.2 0
    have hne : R ++ S ≠ [] := by rw [h2]; simp [Expr.postP_ne]
    have hstep : evStep { s with ops := S ++ s.ops, res := R } (some q) ((a.ann 0 ++ rest).head?) (opP opComma 1) =
        .ok ({ s with res := R ++ S, argc := [(c + 1) % 256] }, opP opComma 1, true) := by
      rw [evStep_sep]
      unfold evComma Ev.incArg
      simp only [hc, Out.bind]
      rw [clean_all { s with ops := S ++ s.ops, res := R, argc := [(c + 1) % 256] } (opP opComma 1).prio s.ops S rfl
        (by rw [hops]; intro x hx; cases hx; simp [opP, ho])
        (by intro x hx; have := h3 x hx; simp only [opP]; omega)
        (by show (R ++ S).length ≤ 100; omega)]
      simp only [himp, if_true, ht, List.cons_append, List.head?_cons]
      rw [if_neg (by simp [opP, opComma, opSemicolon]), if_neg hne, if_neg htn, if_neg (by rw [h4.prio]; decide)]
    obtain ⟨S', R', q', c', h1', h2'⟩ := ev_top a { s with res := R ++ S, argc := [(c + 1) % 256] } ((c + 1) % 256) o ho hops rfl
      (some (opP opComma 1)) rest hw.2 hpl.2 ⟨_, rfl, by simp [opP], by simp [opP], by simp [opP]⟩ hsort hdim himp hd2
      (by show (R ++ S).length + 1 + _ ≤ 100; omega)
    refine ⟨S', R', q', c', ?_, ?_⟩
    · simp only [Args.ann, List.append_assoc, List.cons_append]
      rw [h1, evLoop_cons, hstep]
      show evLoop _ _ _ = _
      rw [h1']
    · rw [h2']
      show (R ++ S) ++ _ = _
      rw [h2]; simp [Args.postP]

/-- An optional PRINT item. -/
theorem ev_opt (x : Option Expr) (s : Ev) (o : Tk) (ho : o.prio = 0) (hops : s.ops = [o]) (hc : ∃ c, s.argc = [c])
    (prev : Option Tk) (rest : List Tk) (hw : ∀ e, x = some e → e.WF) (hpl : ∀ e, x = some e → e.Plain)
    (hd : ∀ e, x = some e → e.depth ≤ 62) (hprev : Group prev) (hsort : s.isSort = false) (hdim : s.isDim = false)
    (hlen : s.res.length + 1 + (optAnn x).length ≤ 100) :
    ∃ S R q, evLoop s prev (optAnn x ++ rest) = evLoop { s with ops := S ++ [o], res := R } q rest ∧
      R ++ S = s.res ++ optPostP x ∧ (∀ y ∈ S, 2 ≤ y.prio) := by
  cases x with
  | none =>
    refine ⟨[], s.res, prev, ?_, by simp [optPostP], by simp⟩
    simp only [optAnn, List.nil_append]
    rw [← hops]
  | some e =>
    obtain ⟨c, hc⟩ := hc
    have hw' := hw e rfl
    have hlev := level_ge hw'
    have hd' := hd e rfl
    obtain ⟨S, R, q, h1, h2, h3, h4⟩ := ev_expr e 0 (by omega) s prev rest hw' (hpl e rfl) (Or.inl hprev) hsort hdim
      (by rw [hops]; intro x hx; cases hx; have := le_lim (level e); omega)
      (by rw [hc]; simp only [List.length_singleton]; omega)
      (by rw [hops]; simpa [optAnn] using hlen)
    refine ⟨S, R, some q, ?_, h2, fun y hy => by have := h3 y hy; omega⟩
    simp only [optAnn]
    rw [h1, hops]

theorem ev_items : (l : List (Option Expr × Nat)) → (s : Ev) → (o : Tk) → (ho : o.prio = 0) → (hops : s.ops = [o]) →
    (hc : ∃ c, s.argc = [c]) → (prev : Option Tk) → (rest : List Tk) →
    (hw : ∀ x ∈ l, (∀ e, x.1 = some e → e.WF) ∧ (x.2 = opComma ∨ x.2 = opSemicolon)) →
    (hpl : ∀ x ∈ l, ∀ e, x.1 = some e → e.Plain) →
    (hd : ∀ x ∈ l, ∀ e, x.1 = some e → e.depth ≤ 62) → (hprev : Group prev) → (hsort : s.isSort = false) →
    (hdim : s.isDim = false) → (himp : s.implicitCommas = false) →
    (hlen : s.res.length + 1 + (itemAnn l).length ≤ 100) →
    ∃ c' q, evLoop s prev (itemAnn l ++ rest) = evLoop { s with res := s.res ++ itemPostP l, argc := [c'] } q rest ∧ Group q
  | [], s, o, _, _, ⟨c, hc⟩, prev, rest, _, _, _, hprev, _, _, _, _ =>
    ⟨c, prev, by simp only [itemAnn, itemPostP, List.nil_append, List.append_nil]; rw [← hc], hprev⟩
  | x :: l, s, o, ho, hops, hc, prev, rest, hw, hpl, hd, hprev, hsort, hdim, himp, hlen => by
    have hlen' : s.res.length + 1 + ((optAnn x.1).length + ((itemAnn l).length + 1)) ≤ 100 := by
      simpa [itemAnn] using hlen
    have hx := hw x (by simp)
    obtain ⟨S, R, q, h1, h2, h3⟩ := ev_opt x.1 s o ho hops hc prev (opP x.2 1 :: (itemAnn l ++ rest)) hx.1
      (hpl x (by simp)) (hd x (by simp)) hprev hsort hdim (by omega)
    obtain ⟨c, hc⟩ := hc
    have hpl' := optPostP_length x.1
    have hRS : (R ++ S).length = s.res.length + (optPostP x.1).length := by rw [h2]; simp
    have hstep : ∀ next, evStep { s with ops := S ++ [o], res := R } q next (opP x.2 1) =
        .ok ({ s with res := (R ++ S) ++ [opP x.2 1], argc := [(c + 1) % 256] }, opP x.2 1, true) := by
      intro next
      rw [evStep_sep]
      unfold evComma Ev.incArg
      simp only [hc, Out.bind]
      rw [clean_all { s with ops := S ++ [o], res := R, argc := [(c + 1) % 256] } (opP x.2 1).prio [o] S rfl
        (by intro x hx; cases hx; simp [opP, ho])
        (by intro y hy; have := h3 y hy; simp only [opP]; omega)
        (by show (R ++ S).length ≤ 100; omega)]
      simp only [himp]
      rw [if_neg (by simp)]
      rw [out_ok _ _ (by show (R ++ S).length < 100; omega), hops]
    have hg : Group (some (opP x.2 1)) := ⟨_, rfl, by simp [opP], by simp [opP], by simp [opP]⟩
    obtain ⟨c', q', h1', h2'⟩ := ev_items l { s with res := (R ++ S) ++ [opP x.2 1], argc := [(c + 1) % 256] } o ho hops
      ⟨_, rfl⟩ (some (opP x.2 1)) rest (fun y hy => hw y (by simp [hy])) (fun y hy => hpl y (by simp [hy]))
      (fun y hy => hd y (by simp [hy])) hg hsort hdim himp
      (by
        show ((R ++ S) ++ [opP x.2 1]).length + 1 + _ ≤ 100
        rw [List.length_append, hRS]; simp only [List.length_singleton]; omega)
    refine ⟨c', q', ?_, h2'⟩
    simp only [itemAnn, List.append_assoc, List.cons_append]
    rw [h1, evLoop_cons, hstep]
    show evLoop _ _ _ = _
    rw [h1']
    rw [h2]
    simp [itemPostP]

/-- End of a statement: everything pending is written out. -/
theorem ev_nl (s0 s : Ev) (prev : Option Tk) (nl : Tk) (rest : List Tk) (hnl : nl.ty = .newline) (hi : Idle s0)
    (hc : ∃ c, s.argc = [c]) (h1 : s.isFor = false) (h2 : s.isIf = false) (h3 : s.isSort = false)
    (hl : (s.res ++ s.ops).length ≤ 100) :
    ∃ s', evLoop s prev ({ nl with prio := 0 } :: rest) = evLoop s' (some { nl with prio := 0 }) rest ∧ Idle s' ∧
      s'.res = s.res ++ s.ops := by
  refine ⟨{ s with ops := [], res := s.res ++ s.ops, isDim := false, implicitCommas := true }, ?_,
    ⟨rfl, hc, h1, rfl, h2, h3, rfl⟩, rfl⟩
  rw [evLoop_cons, evStep_nl s prev _ nl hnl h1,
    clean_all s 0 [] s.ops (by simp) (by intro o ho; cases ho) (by simp) hl]
  rfl

/-- `tok_eval` over one statement. -/
theorem ev_stmt (st : Stmt) (s : Ev) (prev : Option Tk) (nl : Tk) (rest : List Tk) (hw : st.WF) (hpl : st.Plain)
    (hs : st.shallow 62) (hnl : nl.ty = .newline) (hp : prev = none ∨ ∃ p, prev = some p ∧ p.ty = .newline)
    (hi : Idle s) (hlen : s.res.length + st.ann.length ≤ 100) :
    ∃ s', evLoop s prev (st.ann ++ { nl with prio := 0 } :: rest) = evLoop s' (some { nl with prio := 0 }) rest ∧
      Idle s' ∧ s'.res = s.res ++ st.postP ∧ st.postP.length ≤ st.ann.length := by
  obtain ⟨c0, hc0⟩ := hi.argc
  have hlops : s.ops.length = 0 := by rw [hi.ops]; rfl
  have hgc : ∀ c, Group (some (⟨.firstCommand, [], c, 0⟩ : Tk)) := fun c => ⟨_, rfl, by simp, by simp, by simp⟩
  cases st with
  | empty =>
    obtain ⟨s', h1, h2, h3⟩ := ev_nl s s prev nl rest hnl hi hi.argc hi.isFor hi.isIf hi.isSort
      (by rw [hi.ops]; simp; omega)
    exact ⟨s', h1, h2, by rw [h3, hi.ops]; rfl, by simp [Stmt.postP]⟩
  | assign l e =>
    obtain ⟨hl, he, hlv⟩ := hw
    obtain ⟨hd1, hd2⟩ := hs
    have hlev := level_ge he
    have hlevl := level_ge hl
    have hlen' : s.res.length + ((l.ann 0).length + ((e.ann 0).length + 1)) ≤ 100 := by
      simpa [Stmt.ann] using hlen
    have hlval : l.lval = true := by
      rcases hlv with ⟨t, rfl, _⟩ | ⟨h, sq, a, rfl, _⟩ <;> rfl
    have hpl1 := Expr.postP_length 0 l
    have hpl2 := Expr.postP_length 0 e
    obtain ⟨S, R, q, h1, h2, h3, h4⟩ := ev_expr l 0 (by omega) s prev (opP opAssign 0 :: (e.ann 0 ++ { nl with prio := 0 } :: rest))
      hl hpl.1 (Or.inr hlval) hi.isSort hi.isDim (by rw [hi.ops]; intro o ho; cases ho)
      (by rw [hc0]; simp only [List.length_singleton]; omega) (by omega)
    have hRS : (R ++ S).length = s.res.length + (l.postP 0).length := by rw [h2]; simp
    have hstep : ∀ next, evStep { s with ops := S ++ s.ops, res := R } (some q) next (opP opAssign 0) =
        .ok ({ s with ops := [opP opAssign 0], res := R ++ S }, opP opAssign 0, true) := by
      intro next
      rw [evStep_assign, clean_all { s with ops := S ++ s.ops, res := R } 0 [] S (by simp [hi.ops])
        (by intro o ho; cases ho) (by simp) (by show (R ++ S).length ≤ 100; omega)]
      simp only [Out.bind]
      rw [push_ok _ _ (by simp)]
    obtain ⟨S', R', q', h1', h2', h3', h4'⟩ := ev_expr e 0 (by omega) { s with ops := [opP opAssign 0], res := R ++ S }
      (some (opP opAssign 0)) ({ nl with prio := 0 } :: rest) he hpl.2
      (Or.inl ⟨_, rfl, by simp [opP], by simp [opP], by simp [opP]⟩) hi.isSort hi.isDim
      (by intro o ho; cases ho; have := le_lim (level e); simp only [opP]; omega)
      (by simp only [hc0, List.length_singleton]; omega)
      (by show (R ++ S).length + 1 + _ ≤ 100; omega)
    have hRS' : (R' ++ S').length = (R ++ S).length + (e.postP 0).length := by rw [h2']; exact List.length_append
    obtain ⟨s', k1, k2, k3⟩ := ev_nl s { s with ops := S' ++ [opP opAssign 0], res := R' } (some q') nl rest hnl hi hi.argc
      hi.isFor hi.isIf hi.isSort (by
        show (R' ++ (S' ++ [opP opAssign 0])).length ≤ 100
        rw [← List.append_assoc, List.length_append, hRS', hRS]
        simp only [List.length_singleton]; omega)
    refine ⟨s', ?_, k2, ?_, ?_⟩
    · simp only [Stmt.ann, List.append_assoc, List.cons_append]
      rw [h1, evLoop_cons, hstep]
      show evLoop _ _ _ = _
      rw [h1']
      exact k1
    · rw [k3]
      show R' ++ (S' ++ [opP opAssign 0]) = _
      rw [← List.append_assoc, h2']
      show (R ++ S) ++ _ ++ _ = _
      rw [h2]
      simp [Stmt.postP]
    · simp [Stmt.postP, Stmt.ann]; omega
  | cmd0 c =>
    simp only [Stmt.ann, List.length_singleton] at hlen
    obtain ⟨s', h1, h2, h3⟩ := ev_nl s { s with ops := [⟨.firstCommand, [], c, 0⟩] } (some ⟨.firstCommand, [], c, 0⟩) nl rest hnl hi
      hi.argc hi.isFor hi.isIf hi.isSort (by simp; omega)
    refine ⟨s', ?_, h2, h3, by simp [Stmt.postP, Stmt.ann]⟩
    simp only [Stmt.ann, List.cons_append, List.nil_append]
    rw [evLoop_cons, evStep_cmd s prev _ c hw hp hi]
    exact h1
  | cmd c a =>
    have hlen' : s.res.length + 1 + (a.ann 0).length ≤ 100 := by
      simp only [Stmt.ann, List.length_cons] at hlen; omega
    have hpl1 := Args.postP_length 0 a
    obtain ⟨S, R, q, c', h1, h2⟩ := ev_top a { s with ops := [⟨.firstCommand, [], c, 0⟩] } c0 ⟨.firstCommand, [], c, 0⟩ rfl rfl hc0
      (some ⟨.firstCommand, [], c, 0⟩) ({ nl with prio := 0 } :: rest) hw.2 hpl (hgc c) hi.isSort hi.isDim hi.imp hs hlen'
    have hRS : (R ++ S).length = s.res.length + (a.postP 0).length := by rw [h2]; simp
    obtain ⟨s', k1, k2, k3⟩ := ev_nl s { s with ops := S ++ [⟨.firstCommand, [], c, 0⟩], res := R, argc := [c'] } (some q) nl rest hnl hi
      ⟨_, rfl⟩ hi.isFor hi.isIf hi.isSort (by
        show (R ++ (S ++ [_])).length ≤ 100
        rw [← List.append_assoc, List.length_append, hRS]
        simp only [List.length_singleton]; omega)
    refine ⟨s', ?_, k2, ?_, ?_⟩
    · simp only [Stmt.ann, List.cons_append]
      rw [evLoop_cons, evStep_cmd s prev _ c hw.1 hp hi]
      show evLoop _ _ _ = _
      rw [h1]
      exact k1
    · rw [k3]
      show R ++ (S ++ [_]) = _
      rw [← List.append_assoc, h2]
      simp [Stmt.postP]
    · simp [Stmt.postP, Stmt.ann]; omega
  | print i l =>
    have hlen' : s.res.length + 1 + ((itemAnn i).length + (optAnn l).length) ≤ 100 := by
      simp only [Stmt.ann, List.length_cons, List.length_append] at hlen; omega
    have hpl1 := itemPostP_length i
    have hpl2 := optPostP_length l
    obtain ⟨c', q, h1, hg⟩ := ev_items i { s with ops := [⟨.firstCommand, [], cmdPrint, 0⟩], implicitCommas := false }
      ⟨.firstCommand, [], cmdPrint, 0⟩ rfl rfl hi.argc (some ⟨.firstCommand, [], cmdPrint, 0⟩)
      (optAnn l ++ { nl with prio := 0 } :: rest) hw.1 hpl.1 hs.1 (hgc _) hi.isSort hi.isDim rfl
      (by show s.res.length + 1 + _ ≤ 100; omega)
    obtain ⟨S, R, q', h1', h2', h3'⟩ := ev_opt l { s with ops := [⟨.firstCommand, [], cmdPrint, 0⟩], implicitCommas := false,
                                                          res := (s.res ++ itemPostP i), argc := [c'] }
      ⟨.firstCommand, [], cmdPrint, 0⟩ rfl rfl ⟨_, rfl⟩ q ({ nl with prio := 0 } :: rest) hw.2 hpl.2 hs.2 hg hi.isSort hi.isDim
      (by simp only [List.length_append]; omega)
    have hRS : (R ++ S).length = (s.res ++ itemPostP i).length + (optPostP l).length := by rw [h2']; exact List.length_append
    rw [List.length_append (as := s.res)] at hRS
    obtain ⟨s', k1, k2, k3⟩ := ev_nl s { s with ops := S ++ [⟨.firstCommand, [], cmdPrint, 0⟩], implicitCommas := false,
                                                res := R, argc := [c'] } q' nl rest hnl hi
      ⟨_, rfl⟩ hi.isFor hi.isIf hi.isSort (by
        show (R ++ (S ++ [_])).length ≤ 100
        rw [← List.append_assoc, List.length_append, hRS]
        simp only [List.length_singleton]; omega)
    refine ⟨s', ?_, k2, ?_, ?_⟩
    · simp only [Stmt.ann, List.cons_append, List.append_assoc]
      rw [evLoop_cons, evStep_print s prev _ hp hi]
      show evLoop _ _ _ = _
      rw [h1]
      show evLoop _ _ _ = _
      rw [h1']
      exact k1
    · rw [k3]
      show R ++ (S ++ [_]) = _
      rw [← List.append_assoc, h2']
      simp [Stmt.postP]
    · simp [Stmt.postP, Stmt.ann]; omega

theorem ev_line : (l : List (Stmt × Tk)) → (s : Ev) → (prev : Option Tk) →
    (∀ x ∈ l, x.1.WF ∧ x.1.Plain ∧ x.1.shallow 62 ∧ x.2.ty = .newline) →
    (prev = none ∨ ∃ p, prev = some p ∧ p.ty = .newline) → Idle s → s.res.length + (lineAnn l).length ≤ 100 →
    ∃ s', evLoop s prev (lineAnn l) = .ok s' ∧ Idle s' ∧ s'.res = s.res ++ linePostP l
  | [], s, prev, _, _, hi, _ => ⟨s, rfl, hi, by simp [linePostP]⟩
  | (st, nl) :: r, s, prev, h, hp, hi, hlen => by
    have hx := h (st, nl) (by simp)
    have hlen' : s.res.length + (st.ann.length + ((lineAnn r).length + 1)) ≤ 100 := by simpa [lineAnn] using hlen
    obtain ⟨s1, h1, h2, h3, h4⟩ := ev_stmt st s prev nl (lineAnn r) hx.1 hx.2.1 hx.2.2.1 hx.2.2.2 hp hi (by omega)
    obtain ⟨s', k1, k2, k3⟩ := ev_line r s1 (some { nl with prio := 0 }) (fun y hy => h y (by simp [hy]))
      (Or.inr ⟨_, rfl, hx.2.2.2⟩) h2 (by rw [h3, List.length_append]; omega)
    refine ⟨s', ?_, k2, ?_⟩
    · simp only [lineAnn]; rw [h1]; exact k1
    · rw [k3, h3]; simp [linePostP]

/-- `tok_prio` then `tok_eval` on a line. -/
theorem tokEval_line (pre : Tk) (l : List (Stmt × Tk))
    (h : ∀ x ∈ l, x.1.WF ∧ x.1.Plain ∧ x.1.shallow 62 ∧ x.2.ty = .newline) (hlen : (lineToks l).length ≤ 100) :
    tokEval (tokPrio pre (lineToks l)) = .ok (linePostP l) := by
  unfold tokPrio
  have := prio_line pre l [] h
  simp only [List.reverse_nil, List.nil_append] at this
  rw [show prioLoop pre [] 0 (lineToks l) = lineAnn l from this]
  obtain ⟨s', h1, h2, h3⟩ := ev_line l Ev.init none h (Or.inl rfl)
    ⟨rfl, ⟨_, rfl⟩, rfl, rfl, rfl, rfl, rfl⟩ (by rw [lineAnn_length]; simpa [Ev.init] using hlen)
  unfold tokEval
  have hl : (linePostP l).length ≤ 100 := by
    have key : ∀ (r : List (Stmt × Tk)), (linePostP r).length ≤ (lineAnn r).length := by
      intro r
      induction r with
      | nil => simp [linePostP]
      | cons x r ih =>
        obtain ⟨st, nl⟩ := x
        have : st.postP.length ≤ st.ann.length := by
          cases st with
          | empty => simp [Stmt.postP]
          | assign l e =>
            have := Expr.postP_length 0 l; have := Expr.postP_length 0 e
            simp [Stmt.postP, Stmt.ann]; omega
          | cmd0 c => simp [Stmt.postP, Stmt.ann]
          | cmd c a => have := Args.postP_length 0 a; simp [Stmt.postP, Stmt.ann]; omega
          | print i l =>
            have := itemPostP_length i; have := optPostP_length l
            simp [Stmt.postP, Stmt.ann]; omega
        simp [linePostP, lineAnn]; omega
    have := key l
    rw [lineAnn_length] at this
    omega
  simp only [h1, Out.bind]
  rw [clean_all s' 0 [] [] (by simp [h2.ops]) (by intro o ho; cases ho) (by simp)
    (by rw [h3]; simpa [Ev.init] using hl)]
  simp only [h2.isIf, h3, Ev.init, List.nil_append, List.append_nil]
  rfl

/-! ## Values -/

theorem postRun_append {σ V : Type} (m : Sem σ V) : (a b : List Tk) → (st : σ × List V × Nat) →
    postRun m (a ++ b) st = (postRun m a st).bind (postRun m b)
  | [], b, st => rfl
  | t :: a, b, st => by
    simp only [List.cons_append, postRun]
    cases postStep m t st with
    | none => rfl
    | some st' => exact postRun_append m a b st'

theorem Args.count_values {σ V : Type} (m : Sem σ V) : (a : Args) → (s : σ) → (r : List V × σ) → a.values m s = some r →
    r.1.length = a.count
  | .one e, s, r, h => by
    simp only [Args.values] at h
    cases he : e.value m s with
    | none => rw [he] at h; cases h
    | some x => rw [he] at h; cases h; rfl
  | .more e a, s, r, h => by
    simp only [Args.values] at h
    cases he : e.value m s with
    | none => rw [he] at h; cases h
    | some x =>
      rw [he] at h
      simp only [Option.bind_some] at h
      cases ha : a.values m x.2 with
      | none => rw [ha] at h; cases h
      | some y =>
        rw [ha] at h; cases h
        simp [Args.count_values m a x.2 y ha, Args.count]

theorem unary_not_bin {op k : Nat} (h : prec op = some k) : unary op = false := by
  rcases prec_cases h with ⟨_, h⟩ | ⟨_, h⟩ | ⟨_, h⟩ | ⟨_, h⟩ <;>
    simp [unary, opNegate, opNot, opLogicalNot] <;> omega

mutual
theorem value_expr {σ V : Type} (m : Sem σ V) (e : Expr) (hw : e.WF) (s : σ) (vs : List V) (n : Nat) :
    ∃ n', postRun m e.post (s, vs, n) = (e.value m s).map fun r => (r.2, r.1 :: vs, n') := by
  match e with
  | .atom t =>
    refine ⟨n, ?_⟩
    simp only [Expr.WF, List.mem_cons, List.not_mem_nil, or_false] at hw
    simp only [Expr.post, postRun, Expr.value]
    have : postStep m t (s, vs, n) = (m.atom t s).map fun x => (x.2, x.1 :: vs, n) := by
      unfold postStep
      rcases hw with h | h | h | h | h <;> simp only [h]
    rw [this]
    cases m.atom t s <;> rfl
  | .un op e =>
    obtain ⟨n', h⟩ := value_expr m e hw.2.2 s vs n
    refine ⟨n', ?_⟩
    simp only [Expr.post, Expr.value]
    rw [postRun_append, h]
    cases e.value m s with
    | none => rfl
    | some r =>
      simp only [Option.map_some, Option.bind_some, postRun, postStep, opTk, hw.1, if_true]
      cases m.op1 op r.1 r.2 <;> rfl
  | .bin op l r =>
    obtain ⟨k, hk, _, _, hl, hr⟩ := hw
    obtain ⟨n1, h1⟩ := value_expr m l hl s vs n
    simp only [Expr.post, Expr.value]
    cases hv : l.value m s with
    | none =>
      refine ⟨n, ?_⟩
      rw [postRun_append, postRun_append, h1, hv]; rfl
    | some a =>
      obtain ⟨n2, h2⟩ := value_expr m r hr a.2 (a.1 :: vs) n1
      refine ⟨n2, ?_⟩
      rw [postRun_append, postRun_append, h1, hv]
      simp only [Option.map_some, Option.bind_some]
      rw [h2]
      cases r.value m a.2 with
      | none => rfl
      | some b =>
        simp only [Option.map_some, Option.bind_some, postRun, postStep, opTk, unary_not_bin hk]
        rw [if_neg (by simp)]
        cases m.op2 op a.1 b.1 b.2 <;> rfl
  | .paren e => exact value_expr m e hw s vs n
  | .call h sq a =>
    obtain ⟨n1, h1⟩ := value_args m a hw.2 s vs n
    refine ⟨0, ?_⟩
    simp only [Expr.post, Expr.value]
    rw [postRun_append, h1]
    cases hv : a.values m s with
    | none => rfl
    | some r =>
      have hc := Args.count_values m a s r hv
      have hty : (headTk h).ty = .function ∨ (headTk h).ty = .arrayName := by
        have := hw.1
        simp only [List.mem_cons, List.not_mem_nil, or_false] at this
        unfold headTk
        rcases this with h' | h' <;> simp [h']
      have hstep : postStep m (headTk h) (r.2, r.1.reverse ++ vs, a.count) =
          (m.app (headTk h) r.1 r.2).map fun x => (x.2, x.1 :: vs, 0) := by
        have hrev : (r.1.reverse ++ vs).take a.count = r.1.reverse := by
          rw [← hc, ← List.length_reverse, List.take_left]
        have hdrop : (r.1.reverse ++ vs).drop a.count = vs := by
          rw [← hc, ← List.length_reverse, List.drop_left]
        have hle : a.count ≤ (r.1.reverse ++ vs).length := by simp [hc]
        unfold postStep
        rcases hty with h' | h' <;> simp only [h', hrev, hdrop, if_pos hle, List.reverse_reverse]
      simp only [Option.map_some, Option.bind_some, postRun]
      have harg : postStep m (argTk a.count) (r.2, r.1.reverse ++ vs, n1) = some (r.2, r.1.reverse ++ vs, a.count) := rfl
      rw [harg]
      simp only [Option.bind_some, hstep]
      cases m.app (headTk h) r.1 r.2 <;> rfl
  | .call0 h =>
    refine ⟨0, ?_⟩
    have hf : h.ty = .function := hw
    simp only [Expr.post, Expr.value, postRun, argTk, postStep, Option.bind_some, hf, Nat.zero_le, if_true, List.take_zero,
      List.reverse_nil, List.drop_zero]
    cases m.app h [] s <;> rfl
theorem value_args {σ V : Type} (m : Sem σ V) (a : Args) (hw : a.WF) (s : σ) (vs : List V) (n : Nat) :
    ∃ n', postRun m a.post (s, vs, n) = (a.values m s).map fun r => (r.2, r.1.reverse ++ vs, n') := by
  match a with
  | .one e =>
    obtain ⟨n', h⟩ := value_expr m e hw s vs n
    refine ⟨n', ?_⟩
    simp only [Args.post, Args.values]
    rw [h]
    cases e.value m s <;> rfl
  | .more e a =>
    obtain ⟨n1, h1⟩ := value_expr m e hw.1 s vs n
    simp only [Args.post, Args.values]
    cases hv : e.value m s with
    | none =>
      refine ⟨n, ?_⟩
      rw [postRun_append, h1, hv]; rfl
    | some x =>
      obtain ⟨n2, h2⟩ := value_args m a hw.2 x.2 (x.1 :: vs) n1
      refine ⟨n2, ?_⟩
      rw [postRun_append, h1, hv]
      simp only [Option.map_some, Option.bind_some]
      rw [h2]
      cases a.values m x.2 with
      | none => rfl
      | some y => simp
end

/-- The meaning of names, constants and functions does not look at the scratch field. -/
def Sem.scratchFree {σ V : Type} (m : Sem σ V) : Prop :=
  (∀ t, m.atom t = m.atom (bare t)) ∧ ∀ t, m.app t = m.app (bare t)

theorem postRun_bare {σ V : Type} (m : Sem σ V) (hm : m.scratchFree) : (ts : List Tk) → (st : σ × List V × Nat) →
    postRun m (ts.map bare) st = postRun m ts st
  | [], _ => rfl
  | t :: ts, st => by
    have h : postStep m (bare t) st = postStep m t st := by
      unfold postStep
      rw [show (bare t).ty = t.ty from rfl, show (bare t).cmd = t.cmd from rfl, ← hm.1 t, ← hm.2 t]
    simp only [List.map_cons, postRun, h]
    cases postStep m t st with
    | none => rfl
    | some st' => exact postRun_bare m hm ts st'

end Sbc.Tok.Spec
