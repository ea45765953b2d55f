import Verif.Spec.Expr
set_option autoImplicit false
/-!
# The expression compiler: proofs
-/
namespace Sbc.Tok.Spec
open Sbc Sbc.Tok

/-- Operation token with a priority. -/
def opP (op p : Nat) : Tk := ⟨.operation, [], op, p⟩

mutual
/-- Tokens as `tok_prio` leaves them, `n` being the nesting offset. -/
def Expr.ann (n : Nat) : Expr → List Tk
  | .atom t => [{ t with prio := 0 }]
  | .un op e => opP op (n + 6) :: e.ann n
  | .bin op l r => l.ann n ++ opP op (n + (prec op).getD 0) :: r.ann n
  | .paren e => opP opOpenParen (n + 8) :: (e.ann (n + 8) ++ [opP opCloseParen (n + 8)])
  | .call h sq a =>
    { h with prio := n + 7 } :: opP (if sq then opOpenBracket else opOpenParen) (n + 8) ::
      (a.ann (n + 8) ++ [opP (if sq then opCloseBracket else opCloseParen) (n + 8)])
  | .call0 h => [{ h with prio := n + 7 }, opP opOpenParen (n + 8), opP opCloseParen (n + 8)]
def Args.ann (n : Nat) : Args → List Tk
  | .one e => e.ann n
  | .more e a => e.ann n ++ opP opComma (n + 1) :: a.ann n
end

mutual
/-- Postfix form with the priorities. -/
def Expr.postP (n : Nat) : Expr → List Tk
  | .atom t => [{ t with prio := 0 }]
  | .un op e => e.postP n ++ [opP op (n + 6)]
  | .bin op l r => l.postP n ++ r.postP n ++ [opP op (n + (prec op).getD 0)]
  | .paren e => e.postP (n + 8)
  | .call h _ a => a.postP (n + 8) ++ [⟨.argCount, [], a.count, n + 8⟩, { headTk h with prio := n + 7 }]
  | .call0 h => [⟨.argCount, [], 0, n + 8⟩, { h with prio := n + 7 }]
def Args.postP (n : Nat) : Args → List Tk
  | .one e => e.postP n
  | .more e a => e.postP n ++ a.postP n
end

mutual
theorem Expr.postP_bare (n : Nat) : (e : Expr) → (e.postP n).map bare = e.post.map bare
  | .atom t => by simp [Expr.postP, Expr.post, bare]
  | .un op e => by simp [Expr.postP, Expr.post, Expr.postP_bare n e, bare, opP, opTk]
  | .bin op l r => by simp [Expr.postP, Expr.post, Expr.postP_bare n l, Expr.postP_bare n r, bare, opP, opTk]
  | .paren e => by simp [Expr.postP, Expr.post, Expr.postP_bare (n + 8) e]
  | .call h sq a => by simp [Expr.postP, Expr.post, Args.postP_bare (n + 8) a, bare, argTk]
  | .call0 h => by simp [Expr.postP, Expr.post, bare, argTk]
theorem Args.postP_bare (n : Nat) : (a : Args) → (a.postP n).map bare = a.post.map bare
  | .one e => by simp [Args.postP, Args.post, Expr.postP_bare n e]
  | .more e a => by simp [Args.postP, Args.post, Expr.postP_bare n e, Args.postP_bare n a]
end

mutual
theorem Expr.ann_length (n : Nat) : (e : Expr) → (e.ann n).length = e.toks.length
  | .atom t => by simp [Expr.ann, Expr.toks]
  | .un op e => by simp [Expr.ann, Expr.toks, Expr.ann_length n e]
  | .bin op l r => by simp [Expr.ann, Expr.toks, Expr.ann_length n l, Expr.ann_length n r]
  | .paren e => by simp [Expr.ann, Expr.toks, Expr.ann_length (n + 8) e]
  | .call h sq a => by simp [Expr.ann, Expr.toks, Args.ann_length (n + 8) a]
  | .call0 h => by simp [Expr.ann, Expr.toks]
theorem Args.ann_length (n : Nat) : (a : Args) → (a.ann n).length = a.toks.length
  | .one e => by simp [Args.ann, Args.toks, Expr.ann_length n e]
  | .more e a => by simp [Args.ann, Args.toks, Expr.ann_length n e, Args.ann_length n a]
end

mutual
theorem Expr.postP_length (n : Nat) : (e : Expr) → (e.postP n).length ≤ (e.ann n).length
  | .atom t => by simp [Expr.ann, Expr.postP]
  | .un op e => by have := Expr.postP_length n e; simp [Expr.ann, Expr.postP]; omega
  | .bin op l r => by
    have := Expr.postP_length n l; have := Expr.postP_length n r; simp [Expr.ann, Expr.postP]; omega
  | .paren e => by have := Expr.postP_length (n + 8) e; simp [Expr.ann, Expr.postP]; omega
  | .call h sq a => by have := Args.postP_length (n + 8) a; simp [Expr.ann, Expr.postP]; omega
  | .call0 h => by simp [Expr.ann, Expr.postP]
theorem Args.postP_length (n : Nat) : (a : Args) → (a.postP n).length ≤ (a.ann n).length
  | .one e => by have := Expr.postP_length n e; simp [Args.ann, Args.postP]; omega
  | .more e a => by
    have := Expr.postP_length n e; have := Args.postP_length n a; simp [Args.ann, Args.postP]; omega
end

/-! ### Priorities -/

theorem u16_small (n k : Nat) (h : n + k < 65536) : u16 ((n : Int) + (k : Int)) = n + k := by
  unfold u16; omega

theorem prec_cases {op k : Nat} (h : prec op = some k) :
    (k = 2 ∧ (op = 15 ∨ op = 16 ∨ op = 17)) ∨ (k = 3 ∧ 8 ≤ op ∧ op ≤ 13) ∨ (k = 4 ∧ (op = 0 ∨ op = 2)) ∨
      (k = 5 ∧ (op = 3 ∨ op = 4 ∨ op = 14)) := by
  simp only [prec, opAnd, opOr, opXor, opAdd, opSubtract, opMultiply, opDivide, opModulo,
    List.mem_cons, List.not_mem_nil, or_false] at h
  by_cases h1 : op = 15 ∨ op = 16 ∨ op = 17
  · rw [if_pos h1] at h; injection h with h; omega
  rw [if_neg h1] at h
  by_cases h2 : op = 8 ∨ op = 9 ∨ op = 10 ∨ op = 11 ∨ op = 12 ∨ op = 13
  · rw [if_pos h2] at h; injection h with h; omega
  rw [if_neg h2] at h
  by_cases h3 : op = 0 ∨ op = 2
  · rw [if_pos h3] at h; injection h with h; omega
  rw [if_neg h3] at h
  by_cases h4 : op = 3 ∨ op = 4 ∨ op = 14
  · rw [if_pos h4] at h; injection h with h; omega
  rw [if_neg h4] at h; cases h

theorem basePrio_of_prec {op k : Nat} (h : prec op = some k) (h2 : op ≠ opSubtract) : basePrio op = some k := by
  rcases prec_cases h with ⟨hk, ho⟩ | ⟨hk, ho⟩ | ⟨hk, ho⟩ | ⟨hk, ho⟩
  · rcases ho with ho | ho | ho <;> subst ho <;> subst hk <;> rfl
  · have : op = 8 ∨ op = 9 ∨ op = 10 ∨ op = 11 ∨ op = 12 ∨ op = 13 := by omega
    rcases this with ho | ho | ho | ho | ho | ho <;> subst ho <;> subst hk <;> rfl
  · rcases ho with ho | ho
    · subst ho; subst hk; rfl
    · exact absurd ho h2
  · rcases ho with ho | ho | ho <;> subst ho <;> subst hk <;> rfl

theorem unary_cases {op : Nat} (h : unary op = true) : op = 7 ∨ op = 18 ∨ op = 19 := by
  unfold unary opNegate opNot opLogicalNot at h
  simpa using h

/-- The annotated text ends with the expression's last token. -/
theorem ann_last (e : Expr) (n : Nat) : ∃ init q, e.ann n = init ++ [q] ∧ q.ty = (lastTk e).ty ∧ q.cmd = (lastTk e).cmd := by
  match e with
  | .atom t => exact ⟨[], { t with prio := 0 }, rfl, rfl, rfl⟩
  | .un op e =>
    obtain ⟨i, q, h, h1, h2⟩ := ann_last e n
    exact ⟨opP op (n + 6) :: i, q, by simp [Expr.ann, h], h1, h2⟩
  | .bin op l r =>
    obtain ⟨i, q, h, h1, h2⟩ := ann_last r n
    exact ⟨l.ann n ++ opP op (n + (prec op).getD 0) :: i, q, by simp [Expr.ann, h], h1, h2⟩
  | .paren e =>
    exact ⟨opP opOpenParen (n + 8) :: e.ann (n + 8), opP opCloseParen (n + 8), by simp [Expr.ann], rfl, rfl⟩
  | .call h sq a =>
    exact ⟨{ h with prio := n + 7 } :: opP (if sq then opOpenBracket else opOpenParen) (n + 8) :: a.ann (n + 8),
      opP (if sq then opCloseBracket else opCloseParen) (n + 8), by simp [Expr.ann], rfl, rfl⟩
  | .call0 h => exact ⟨[_, _], opP opCloseParen (n + 8), rfl, rfl, rfl⟩

theorem lastTk_binary (e : Expr) (hw : e.WF) (h1 : (lastTk e).ty ≠ .baseNumber) (h2 : (lastTk e).ty ≠ .string)
    (q : Tk) (hq : q.ty = (lastTk e).ty) (hc : q.cmd = (lastTk e).cmd) : minusIsBinary q = true := by
  match e with
  | .atom t =>
    simp only [Expr.WF, List.mem_cons, List.not_mem_nil, or_false] at hw
    simp only [lastTk] at h1 h2 hq
    unfold minusIsBinary
    rcases hw with h | h | h | h | h
    · simp [hq, h]
    · exact absurd h h1
    · exact absurd h h2
    · simp [hq, h]
    · simp [hq, h]
  | .un op e => exact lastTk_binary e hw.2.2 h1 h2 q hq hc
  | .bin op l r =>
    obtain ⟨k, _, _, _, _, hr⟩ := hw
    exact lastTk_binary r hr h1 h2 q hq hc
  | .paren e =>
    simp only [lastTk, opTk] at hq hc
    unfold minusIsBinary; rw [hq, hc]; rfl
  | .call h sq a =>
    simp only [lastTk, opTk] at hq hc
    unfold minusIsBinary; rw [hq, hc]; cases sq <;> rfl
  | .call0 h =>
    simp only [lastTk, opTk] at hq hc
    unfold minusIsBinary; rw [hq, hc]; rfl

theorem prio_unary (pre p : Tk) (r : List Tk) (n op : Nat) (hu : unary op = true)
    (hm : op = opNegate → minusIsBinary p = false) (hn : n + 8 < 65536) :
    prioStep pre (p :: r) n (opTk (if op = opNegate then opSubtract else op)) = (opP op (n + 6) :: p :: r, (n : Int)) := by
  have h6 := u16_small n 6 (by omega)
  rcases unary_cases hu with rfl | rfl | rfl
  · have hb : minusHere pre (p :: r) = false := hm rfl
    simp only [prioStep, opTk, opNegate, if_true, opSubtract, hb]
    simp [opP]; exact h6
  · simp [prioStep, opTk, opNegate, opSubtract, opOpenBracket, opOpenParen, opCloseBracket, opCloseParen, basePrio,
      opAssign, opComma, opSemicolon, opAnd, opOr, opXor, opEqual, opGreaterEqual, opAdd, opMultiply, opDivide,
      opModulo, opNot, opP]
    exact h6
  · simp [prioStep, opTk, opNegate, opSubtract, opOpenBracket, opOpenParen, opCloseBracket, opCloseParen, basePrio,
      opAssign, opComma, opSemicolon, opAnd, opOr, opXor, opEqual, opGreaterEqual, opAdd, opMultiply, opDivide,
      opModulo, opNot, opLogicalNot, opP]
    exact h6

theorem prio_bin (pre q : Tk) (r : List Tk) (n op k : Nat) (hp : prec op = some k)
    (hm : op = opSubtract → minusIsBinary q = true) (hn : n + 8 < 65536) :
    prioStep pre (q :: r) n (opTk op) = (opP op (n + (prec op).getD 0) :: q :: r, (n : Int)) := by
  have hk : k ≤ 5 := by rcases prec_cases hp with ⟨h, _⟩ | ⟨h, _⟩ | ⟨h, _⟩ | ⟨h, _⟩ <;> omega
  have h6 := u16_small n k (by omega)
  by_cases hs : op = opSubtract
  · subst hs
    have : k = 4 := by cases hp; rfl
    subst this
    have hb : minusHere pre (q :: r) = true := hm rfl
    simp only [prioStep, opTk, if_true, hb, opP, hp, Option.getD_some]
    rw [show (4 : Int) = ((4 : Nat) : Int) from rfl, h6]
  · have hb := basePrio_of_prec hp hs
    have hop : ¬ (op = opOpenBracket ∨ op = opOpenParen) := by
      unfold opOpenBracket opOpenParen
      rcases prec_cases hp with ⟨_, h⟩ | ⟨_, h⟩ | ⟨_, h⟩ | ⟨_, h⟩ <;> omega
    have hcl : ¬ (op = opCloseBracket ∨ op = opCloseParen) := by
      unfold opCloseBracket opCloseParen
      rcases prec_cases hp with ⟨_, h⟩ | ⟨_, h⟩ | ⟨_, h⟩ | ⟨_, h⟩ <;> omega
    simp only [prioStep, opTk, if_true, if_neg hs, if_neg hop, if_neg hcl, hb, opP, hp, Option.getD_some, h6]

theorem prio_open (pre p : Tk) (r : List Tk) (n : Nat) (op : Nat) (ho : op = opOpenBracket ∨ op = opOpenParen)
    (hp : p.ty ≠ .name) (hn : n + 8 < 65536) :
    prioStep pre (p :: r) n (opTk op) = (opP op (n + 8) :: p :: r, ((n + 8 : Nat) : Int)) := by
  have h6 := u16_small n 8 hn
  have h1 : ¬ op = opSubtract := by rcases ho with h | h <;> rw [h] <;> decide
  simp only [prioStep, opTk, if_true, if_neg h1, if_pos ho, markName, if_neg hp, opP]
  rw [show (8 : Int) = ((8 : Nat) : Int) from rfl, h6]; rfl

theorem prio_open_name (pre p : Tk) (r : List Tk) (n : Nat) (op : Nat) (ho : op = opOpenBracket ∨ op = opOpenParen)
    (hp : p.ty = .name) (hn : n + 8 < 65536) :
    prioStep pre (p :: r) n (opTk op) =
      (opP op (n + 8) :: { p with prio := n + 7 } :: r, ((n + 8 : Nat) : Int)) := by
  have h6 := u16_small n 8 hn
  have h7 := u16_small n 7 (by omega)
  have h1 : ¬ op = opSubtract := by rcases ho with h | h <;> rw [h] <;> decide
  simp only [prioStep, opTk, if_true, if_neg h1, if_pos ho, markName, if_pos hp, opP]
  rw [show (8 : Int) = ((8 : Nat) : Int) from rfl, h6, show (7 : Int) = ((7 : Nat) : Int) from rfl, h7]; rfl

theorem prio_close (pre : Tk) (d : List Tk) (n : Nat) (op : Nat) (ho : op = opCloseBracket ∨ op = opCloseParen)
    (hn : n + 8 < 65536) :
    prioStep pre d ((n + 8 : Nat) : Int) (opTk op) = (opP op (n + 8) :: d, (n : Int)) := by
  have h6 := u16_small (n + 8) 0 hn
  have h1 : ¬ op = opSubtract := by rcases ho with h | h <;> rw [h] <;> decide
  have h2 : ¬ (op = opOpenBracket ∨ op = opOpenParen) := by rcases ho with h | h <;> rw [h] <;> decide
  have h8 : u16 ((n + 8 : Nat) : Int) = n + 8 := by simpa using h6
  simp only [prioStep, opTk, if_true, if_neg h1, if_neg h2, if_pos ho, opP, h8]
  refine Prod.ext rfl ?_
  show ((n + 8 : Nat) : Int) - 8 = n
  omega

theorem prio_comma (pre : Tk) (d : List Tk) (n : Nat) (hn : n + 8 < 65536) :
    prioStep pre d n (opTk opComma) = (opP opComma (n + 1) :: d, (n : Int)) := by
  have h6 := u16_small n 1 (by omega)
  simp [prioStep, opTk, opComma, opSubtract, opOpenBracket, opOpenParen, opCloseBracket, opCloseParen, basePrio,
    opAssign, opP]
  exact h6

theorem prio_atom (pre : Tk) (d : List Tk) (n : Int) (t : Tk)
    (ht : t.ty ∈ [TT.number, .baseNumber, .string, .name, .sysvar]) :
    prioStep pre d n t = ({ t with prio := 0 } :: d, n) := by
  simp only [List.mem_cons, List.not_mem_nil, or_false] at ht
  unfold prioStep
  rw [if_neg (by rcases ht with h | h | h | h | h <;> rw [h] <;> decide),
    if_neg (by rcases ht with h | h | h | h | h <;> rw [h] <;> decide)]

theorem prio_fun (pre : Tk) (d : List Tk) (n : Nat) (t : Tk) (ht : t.ty = .function) (hn : n + 8 < 65536) :
    prioStep pre d n t = ({ t with prio := n + 7 } :: d, (n : Int)) := by
  have h7 := u16_small n 7 (by omega)
  unfold prioStep
  rw [if_neg (by rw [ht]; decide), if_pos ht]
  rw [show (7 : Int) = ((7 : Nat) : Int) from rfl, h7]

theorem prioLoop_cons (pre : Tk) (d : List Tk) (n : Int) (t : Tk) (ts : List Tk) :
    prioLoop pre d n (t :: ts) = prioLoop pre (prioStep pre d n t).1 (prioStep pre d n t).2 ts := rfl

mutual
/-- `tok_prio` over the tokens of an expression. -/
theorem prio_expr (pre : Tk) (e : Expr) (n : Nat) (p : Tk) (d rest : List Tk) (hw : e.WF) (hpl : e.Plain)
    (hn : n + 8 * (e.depth + 1) < 65536) (hp : p.ty ≠ .name)
    (hm : leadMinus e = true → minusIsBinary p = false) :
    prioLoop pre (p :: d) n (e.toks ++ rest) = prioLoop pre ((e.ann n).reverse ++ p :: d) n rest := by
  match e with
  | .atom t =>
    simp only [Expr.toks, Expr.ann, List.cons_append, List.nil_append, List.reverse_cons, List.reverse_nil]
    rw [prioLoop_cons, prio_atom pre _ _ t hw]
  | .un op e =>
    have hd : e.depth = (Expr.un op e).depth := rfl
    simp only [Expr.toks, Expr.ann, List.cons_append, List.reverse_cons, List.append_assoc]
    rw [prioLoop_cons, prio_unary pre p d n op hw.1 (fun h => hm (by simp [leadMinus, h])) (by omega)]
    have := prio_expr pre e n (opP op (n + 6)) (p :: d) rest hw.2.2 hpl (by omega) (by simp [opP])
      (fun _ => by
        simp only [minusIsBinary, opP, opOpenParen]
        rcases unary_cases hw.1 with h | h | h <;> rw [h] <;> rfl)
    simpa using this
  | .bin op l r =>
    obtain ⟨k, hk, _, _, hl, hr⟩ := hw
    obtain ⟨hs, hpl1, hpl2⟩ := hpl
    have hd : (Expr.bin op l r).depth = Nat.max l.depth r.depth := rfl
    have hd1 : l.depth ≤ (Expr.bin op l r).depth := by rw [hd]; exact Nat.le_max_left _ _
    have hd2 : r.depth ≤ (Expr.bin op l r).depth := by rw [hd]; exact Nat.le_max_right _ _
    have e1 := prio_expr pre l n p d (opTk op :: (r.toks ++ rest)) hl hpl1 (by omega) hp hm
    obtain ⟨i, q, hq, hq1, hq2⟩ := ann_last l n
    simp only [Expr.toks, Expr.ann, List.append_assoc, List.cons_append]
    rw [e1, hq]
    simp only [List.reverse_append, List.reverse_cons, List.reverse_nil, List.nil_append, List.cons_append]
    rw [prioLoop_cons, prio_bin pre q _ n op k hk
      (fun h => lastTk_binary l hl (hs h).1 (hs h).2 q hq1 hq2) (by omega)]
    have := prio_expr pre r n (opP op (n + (prec op).getD 0)) (q :: (i.reverse ++ p :: d)) rest hr hpl2 (by omega)
      (by simp [opP]) (fun _ => by
        simp only [minusIsBinary, opP, opOpenParen]
        have : ¬ op > 20 := by rcases prec_cases hk with ⟨_, h⟩ | ⟨_, h⟩ | ⟨_, h⟩ | ⟨_, h⟩ <;> omega
        simp [this])
    simpa using this
  | .paren e =>
    have hd : (Expr.paren e).depth = e.depth + 1 := rfl
    simp only [Expr.toks, Expr.ann, List.cons_append, List.append_assoc]
    rw [prioLoop_cons, prio_open pre p d n _ (Or.inr rfl) hp (by omega)]
    have := prio_expr pre e (n + 8) (opP opOpenParen (n + 8)) (p :: d) (opTk opCloseParen :: rest) hw hpl (by omega)
      (by simp [opP]) (fun _ => rfl)
    simp only [List.nil_append] at this ⊢
    rw [this, prioLoop_cons, prio_close pre _ n _ (Or.inr rfl) (by omega)]
    simp
  | .call h sq a =>
    have hd : (Expr.call h sq a).depth = a.depth + 1 := rfl
    obtain ⟨hh, ha⟩ := hw
    obtain ⟨hs, _, hpa⟩ := hpl
    simp only [Expr.toks, Expr.ann, List.cons_append, List.append_assoc]
    have hob : (if sq then opOpenBracket else opOpenParen) = opOpenBracket ∨
        (if sq then opOpenBracket else opOpenParen) = opOpenParen := by cases sq <;> simp
    have hcb : (if sq then opCloseBracket else opCloseParen) = opCloseBracket ∨
        (if sq then opCloseBracket else opCloseParen) = opCloseParen := by cases sq <;> simp
    have key : prioLoop pre (p :: d) n (h :: opTk (if sq then opOpenBracket else opOpenParen) ::
        (a.toks ++ opTk (if sq then opCloseBracket else opCloseParen) :: rest)) =
        prioLoop pre (opP (if sq then opOpenBracket else opOpenParen) (n + 8) :: { h with prio := n + 7 } :: p :: d)
          ((n + 8 : Nat) : Int) (a.toks ++ opTk (if sq then opCloseBracket else opCloseParen) :: rest) := by
      rw [prioLoop_cons]
      simp only [List.mem_cons, List.not_mem_nil, or_false] at hh
      rcases hh with hf | hnm
      · rw [prio_fun pre _ n h hf (by omega), prioLoop_cons]
        simp only []
        rw [prio_open pre _ _ n _ hob (by rw [show ({ h with prio := n + 7 } : Tk).ty = h.ty from rfl, hf]; decide) (by omega)]
      · rw [prio_atom pre _ _ h (by simp [hnm]), prioLoop_cons]
        simp only []
        rw [prio_open_name pre { h with prio := 0 } _ n _ hob hnm (by omega)]
    rw [show ([] ++ rest : List Tk) = rest from rfl, key]
    have := prio_args pre a (n + 8) (opP (if sq then opOpenBracket else opOpenParen) (n + 8))
      ({ h with prio := n + 7 } :: p :: d) (opTk (if sq then opCloseBracket else opCloseParen) :: rest) ha hpa (by omega)
      (by simp [opP]) (fun hl => by
        cases sq with
        | true => rw [hs rfl] at hl; cases hl
        | false => rfl)
    rw [this, prioLoop_cons, prio_close pre _ n _ hcb (by omega)]
    simp
  | .call0 h =>
    have hd : (Expr.call0 h).depth = 1 := rfl
    have hf : h.ty = .function := hw
    simp only [Expr.toks, Expr.ann, List.cons_append, List.nil_append]
    rw [prioLoop_cons, prio_fun pre _ n h hf (by omega), prioLoop_cons]
    simp only []
    rw [prio_open pre _ _ n _ (Or.inr rfl) (by rw [show ({ h with prio := n + 7 } : Tk).ty = h.ty from rfl, hf]; decide)
      (by omega), prioLoop_cons]
    simp only []
    rw [prio_close pre _ n _ (Or.inr rfl) (by omega)]
    simp
theorem prio_args (pre : Tk) (a : Args) (n : Nat) (p : Tk) (d rest : List Tk) (hw : a.WF) (hpl : a.Plain)
    (hn : n + 8 * (a.depth + 1) < 65536) (hp : p.ty ≠ .name)
    (hm : leadMinus a.first = true → minusIsBinary p = false) :
    prioLoop pre (p :: d) n (a.toks ++ rest) = prioLoop pre ((a.ann n).reverse ++ p :: d) n rest := by
  match a with
  | .one e => exact prio_expr pre e n p d rest hw hpl hn hp hm
  | .more e a =>
    have hd : (Args.more e a).depth = Nat.max e.depth a.depth := rfl
    have hd1 : e.depth ≤ (Args.more e a).depth := by rw [hd]; exact Nat.le_max_left _ _
    have hd2 : a.depth ≤ (Args.more e a).depth := by rw [hd]; exact Nat.le_max_right _ _
    have e1 := prio_expr pre e n p d (opTk opComma :: (a.toks ++ rest)) hw.1 hpl.1 (by omega) hp hm
    simp only [Args.toks, Args.ann, List.append_assoc, List.cons_append]
    rw [e1, prioLoop_cons, prio_comma pre _ n (by omega)]
    have := prio_args pre a n (opP opComma (n + 1)) ((e.ann n).reverse ++ p :: d) rest hw.2 hpl.2 (by omega)
      (by simp [opP]) (fun _ => by simp [minusIsBinary, opP, opComma, opOpenParen])
    simpa using this
end

/-! ### Reordering -/

/-- The top of the operator stack has a smaller priority. -/
def TopLt (O : List Tk) (p : Nat) : Prop := ∀ o, O.head? = some o → o.prio < p

theorem TopLt.mono {O : List Tk} {p p' : Nat} (h : TopLt O p) (hp : p ≤ p') : TopLt O p' :=
  fun o ho => Nat.lt_of_lt_of_le (h o ho) hp

theorem cleanLoop_all (p : Nat) (O : List Tk) (hO : TopLt O p) : (S R : List Tk) → (∀ s ∈ S, p ≤ s.prio) →
    cleanLoop p (S ++ O) R = (O, R ++ S)
  | [], R, _ => by
    cases O with
    | nil => simp [cleanLoop]
    | cons o O' =>
      have := hO o rfl
      simp only [List.nil_append, cleanLoop, List.append_nil]
      rw [if_neg (by omega)]
  | s :: S, R, h => by
    have hs : s.prio ≥ p := h s (by simp)
    simp only [List.cons_append, cleanLoop, if_pos hs]
    rw [cleanLoop_all p O hO S (R ++ [s]) (fun x hx => h x (by simp [hx]))]
    simp

theorem clean_all (e : Ev) (p : Nat) (O S : List Tk) (hops : e.ops = S ++ O) (hO : TopLt O p)
    (hS : ∀ s ∈ S, p ≤ s.prio) (hl : (e.res ++ S).length ≤ 100) :
    e.clean p = .ok { e with ops := O, res := e.res ++ S } := by
  unfold Ev.clean
  rw [hops, cleanLoop_all p O hO S e.res hS]
  simp only [if_pos hl]

/-- Pushing an operator pops everything of the same or higher priority first. -/
theorem evPush_all (e : Ev) (t : Tk) (O S : List Tk) (hops : e.ops = S ++ O) (hO : TopLt O t.prio)
    (h6 : t.prio % 8 ≠ 6)
    (hS : ∀ s ∈ S, t.prio ≤ s.prio) (hl : (e.res ++ S).length ≤ 100) :
    evPush e t = (if t.ty ≠ .operation ∨ t.cmd ≠ opComma then
      ({ e with ops := O, res := e.res ++ S } : Ev).push t else ({ e with ops := O, res := e.res ++ S } : Ev).incArg) := by
  have key : ∀ b : Bool, (b = true → S = []) → (if b then Out.ok e else e.clean t.prio) =
      Out.ok { e with ops := O, res := e.res ++ S } := by
    intro b hb
    cases b with
    | true =>
      have := hb rfl
      subst this
      simp only [if_true, List.append_nil]
      have : e.ops = O := by simpa using hops
      rw [← this]
    | false => rw [if_neg (by simp)]; exact clean_all e t.prio O S hops hO hS hl
  unfold evPush
  rw [key]
  · rfl
  · intro hk
    cases S with
    | nil => rfl
    | cons s S' =>
      exfalso
      simp only [hops, List.cons_append, keepTop, if_neg h6, Nat.add_zero, decide_eq_true_eq] at hk
      have := hS s (by simp)
      omega

/-- Pushing a unary operator or a function on a stack with smaller top pops nothing. -/
theorem evPush_keep (e : Ev) (t : Tk) (h : TopLt e.ops (t.prio + (if t.prio % 8 = 6 then 1 else 0)))
    (hc : t.ty ≠ .operation ∨ t.cmd ≠ opComma) : evPush e t = e.push t := by
  have key : ∀ b : Bool, b = true → (if b then Out.ok e else e.clean t.prio) = Out.ok e := by
    intro b hb; rw [hb]; rfl
  unfold evPush
  rw [key]
  · show (if _ then _ else _) = _
    rw [if_pos hc]
  · cases ho : e.ops with
    | nil => rfl
    | cons o O =>
      simp only [keepTop, decide_eq_true_eq]
      exact h o (by rw [ho]; rfl)

theorem push_ok (e : Ev) (t : Tk) (h : e.ops.length < 100) : e.push t = .ok { e with ops := t :: e.ops } := by
  unfold Ev.push; rw [if_pos h]

theorem out_ok (e : Ev) (t : Tk) (h : e.res.length < 100) : e.out t = .ok { e with res := e.res ++ [t] } := by
  unfold Ev.out; rw [if_pos h]

/-- `lim k`: a stack top below this lets a construct of level `k` through. -/
def lim (k : Nat) : Nat := if k = 6 then 7 else k

theorem lim_mono {a b : Nat} (h : a ≤ b) : lim a ≤ lim b := by unfold lim; split <;> split <;> omega
theorem le_lim (a : Nat) : a ≤ lim a := by unfold lim; split <;> omega
theorem lim_lt {a b : Nat} (h : a < b) (ha : a ≤ 5) : a < lim b := by unfold lim; split <;> omega

/-- What is known of the last token of an expression after the pass. -/
structure Tail (q : Tk) : Prop where
  prio : q.prio % 8 = 0
  notOpen : ¬ (q.ty = .operation ∧ q.cmd = opOpenParen)
  notNl : q.ty ≠ .newline

/-- Step on a binary or unary operator (priority 2..6 within its nesting level). -/
theorem evStep_op (e : Ev) (prev next : Option Tk) (op p : Nat) (h0 : p % 8 ≠ 0) (h1 : p ≠ 1) :
    evStep e prev next (opP op p) = (evPush e (opP op p)).bind fun e => .ok (e, opP op p, true) := by
  have hp : p > 0 := by omega
  unfold evStep
  simp only [opP, true_and, if_neg h0, if_neg h1]
  simp [hp]

theorem evStep_atom (e : Ev) (prev next : Option Tk) (t : Tk) (hs : e.isSort = false)
    (ht : t.ty ∈ [TT.number, .baseNumber, .string, .name, .sysvar]) :
    evStep e prev next { t with prio := 0 } = (e.out { t with prio := 0 }).bind fun e => .ok (e, { t with prio := 0 }, true) := by
  simp only [List.mem_cons, List.not_mem_nil, or_false] at ht
  unfold evStep
  rcases ht with h | h | h | h | h <;> simp [h, hs]

theorem evStep_head (e : Ev) (prev next : Option Tk) (t : Tk) (p : Nat) (hp : 0 < p) (hd : e.isDim = false ∨ p ≠ 7)
    (ht : t.ty ∈ [TT.function, .name]) :
    evStep e prev next { t with prio := p } = (evPush e { t with prio := p }).bind fun e => .ok (e, { t with prio := p }, true) := by
  simp only [List.mem_cons, List.not_mem_nil, or_false] at ht
  unfold evStep
  rcases ht with h | h <;> rcases hd with hd | hd <;> simp [h, hd, hp]

theorem evStep_open (e : Ev) (prev next : Option Tk) (op p : Nat) (ho : op = opOpenBracket ∨ op = opOpenParen)
    (hp : p % 8 = 0) : evStep e prev next (opP op p) = (evOpen e prev).bind fun e => .ok (e, opP op p, true) := by
  have h1 : ¬ op = opAssign := by rcases ho with h | h <;> rw [h] <;> decide
  unfold evStep
  rw [if_pos (show (opP op p).ty = .operation ∧ (opP op p).prio % 8 = 0 from ⟨rfl, hp⟩),
    if_neg (show ¬ (opP op p).cmd = opAssign from h1),
    if_pos (show (opP op p).cmd = opOpenBracket ∨ (opP op p).cmd = opOpenParen from ho)]

theorem evStep_close (e : Ev) (prev next : Option Tk) (op p : Nat) (ho : op = opCloseBracket ∨ op = opCloseParen)
    (hp : p % 8 = 0) : evStep e prev next (opP op p) = (evClose e prev (opP op p)).bind fun r => .ok (r.1, r.2, true) := by
  have h1 : ¬ op = opAssign := by rcases ho with h | h <;> rw [h] <;> decide
  have h2 : ¬ (op = opOpenBracket ∨ op = opOpenParen) := by rcases ho with h | h <;> rw [h] <;> decide
  unfold evStep
  rw [if_pos (show (opP op p).ty = .operation ∧ (opP op p).prio % 8 = 0 from ⟨rfl, hp⟩),
    if_neg (show ¬ (opP op p).cmd = opAssign from h1),
    if_neg (show ¬ ((opP op p).cmd = opOpenBracket ∨ (opP op p).cmd = opOpenParen) from h2)]

theorem evLoop_cons (e : Ev) (prev : Option Tk) (t : Tk) (ts : List Tk) :
    evLoop e prev (t :: ts) = (evStep e prev ts.head? t).bind fun r =>
      if r.2.2 then evLoop r.1 (some r.2.1) ts else .ok r.1 := rfl

/-- Bracket that only groups: what precedes it is not a name, function or array declaration. -/
def Group (prev : Option Tk) : Prop := ∃ p, prev = some p ∧ p.ty ≠ .name ∧ p.ty ≠ .function ∧ p.ty ≠ .dimArr

theorem level_ge {e : Expr} (h : e.WF) : 2 ≤ level e ∧ level e ≤ 7 := by
  match e with
  | .atom _ => simp [level]
  | .un _ _ => simp [level]
  | .bin op l r =>
    obtain ⟨k, hk, _⟩ := h
    simp only [level, hk, Option.getD_some]
    rcases prec_cases hk with ⟨h, _⟩ | ⟨h, _⟩ | ⟨h, _⟩ | ⟨h, _⟩ <;> omega
  | .paren _ => simp [level]
  | .call _ _ _ => simp [level]
  | .call0 _ => simp [level]

/-- A variable, constant or array element: its first token is not a bracket. -/
def Expr.lval : Expr → Bool
  | .atom _ => true
  | .call _ _ _ => true
  | _ => false

mutual
/-- `tok_eval` over the annotated tokens of an expression. -/
theorem ev_exprD (e : Expr) (n : Nat) (hn : n % 8 = 0) (s : Ev) (prev : Option Tk) (rest : List Tk) (hw : e.WF)
    (hpl : e.Plain) (hprev : Group prev ∨ e.lval = true) (hsort : s.isSort = false) (hdim : s.isDim = false ∨ 0 < n)
    (htop : TopLt s.ops (n + lim (level e))) (hargc : s.argc.length + e.depth ≤ 64)
    (hlen : s.res.length + s.ops.length + (e.ann n).length ≤ 100) :
    ∃ S R q, evLoop s prev (e.ann n ++ rest) = evLoop { s with ops := S ++ s.ops, res := R } (some q) rest ∧
      R ++ S = s.res ++ e.postP n ∧ (∀ x ∈ S, n + level e ≤ x.prio) ∧ Tail q := by
  match e with
  | .atom t =>
    have hl : s.res.length < 100 := by simp [Expr.ann] at hlen; omega
    refine ⟨[], s.res ++ [{ t with prio := 0 }], { t with prio := 0 }, ?_, by simp [Expr.postP], by simp, ?_⟩
    · simp only [Expr.ann, List.cons_append, List.nil_append]
      rw [evLoop_cons, evStep_atom s prev _ t hsort hw, out_ok s _ hl]
      rfl
    · simp only [Expr.WF, List.mem_cons, List.not_mem_nil, or_false] at hw
      refine ⟨rfl, ?_, ?_⟩
      · rcases hw with h | h | h | h | h <;> simp [h]
      · rcases hw with h | h | h | h | h <;> simp [h]
  | .un op e =>
    obtain ⟨hu, hlev, hwe⟩ := hw
    have hlop : s.ops.length < 100 := by simp [Expr.ann] at hlen; omega
    have hstep : ∀ next, evStep s prev next (opP op (n + 6)) =
        .ok ({ s with ops := opP op (n + 6) :: s.ops }, opP op (n + 6), true) := by
      intro next
      rw [evStep_op s prev next op (n + 6) (by omega) (by omega), evPush_keep s _ ?_ ?_, push_ok s _ hlop]
      · rfl
      · have h6 : (opP op (n + 6)).prio % 8 = 6 := by simp [opP]; omega
        rw [if_pos h6]
        exact htop.mono (by simp [lim, level, opP])
      · right; rcases unary_cases hu with h | h | h <;> simp [h, opP, opComma]
    obtain ⟨S, R, q, h1, h2, h3, h4⟩ := ev_exprD e n hn { s with ops := opP op (n + 6) :: s.ops }
      (some (opP op (n + 6))) rest hwe hpl (Or.inl ⟨_, rfl, by simp [opP], by simp [opP], by simp [opP]⟩) hsort hdim
      (by
        intro o ho
        simp only [List.head?_cons, Option.some.injEq] at ho
        subst ho
        have := lim_mono hlev
        simp only [opP]
        have : lim 6 = 7 := rfl
        omega)
      hargc (by simp [Expr.ann] at hlen ⊢; omega)
    refine ⟨S ++ [opP op (n + 6)], R, q, ?_, ?_, ?_, h4⟩
    · simp only [Expr.ann, List.cons_append]
      rw [evLoop_cons, hstep]
      show evLoop _ _ _ = _
      rw [h1]
      simp
    · simp only [Expr.postP]
      rw [← List.append_assoc, h2]
      simp
    · intro x hx
      simp only [List.mem_append, List.mem_singleton] at hx
      rcases hx with hx | hx
      · have := h3 x hx; simp only [level]; omega
      · subst hx; simp [level, opP]
  | .bin op l r =>
    obtain ⟨k, hk, hkl, hkr, hwl, hwr⟩ := hw
    obtain ⟨_, hpl1, hpl2⟩ := hpl
    have hk5 : 2 ≤ k ∧ k ≤ 5 := by rcases prec_cases hk with ⟨h, _⟩ | ⟨h, _⟩ | ⟨h, _⟩ | ⟨h, _⟩ <;> omega
    have hlevel : level (.bin op l r) = k := by simp [level, hk]
    have hlimk : lim k = k := by unfold lim; rw [if_neg (by omega)]
    rw [hlevel, hlimk] at htop
    have hd1 : l.depth ≤ (Expr.bin op l r).depth := Nat.le_max_left _ _
    have hd2 : r.depth ≤ (Expr.bin op l r).depth := Nat.le_max_right _ _
    have hlen' : s.res.length + s.ops.length + ((l.ann n).length + ((r.ann n).length + 1)) ≤ 100 := by
      simpa [Expr.ann] using hlen
    obtain ⟨S, R, q, h1, h2, h3, h4⟩ := ev_exprD l n hn s prev (opP op (n + k) :: (r.ann n ++ rest)) hwl hpl1 (Or.inl (hprev.resolve_right (by simp [Expr.lval])))
      hsort hdim (htop.mono (by have := le_lim (level l); omega)) (by omega) (by omega)
    have hpl := Expr.postP_length n l
    have hRS : (R ++ S).length = s.res.length + (l.postP n).length := by rw [h2]; simp
    have hstep : ∀ next, evStep { s with ops := S ++ s.ops, res := R } (some q) next (opP op (n + k)) =
        .ok ({ s with ops := opP op (n + k) :: s.ops, res := R ++ S }, opP op (n + k), true) := by
      intro next
      rw [evStep_op _ _ next op (n + k) (by omega) (by omega),
        evPush_all { s with ops := S ++ s.ops, res := R } (opP op (n + k)) s.ops S rfl htop
          (by simp only [opP]; omega) (fun x hx => by have := h3 x hx; simp only [opP]; omega)
          (by show (R ++ S).length ≤ 100; omega)]
      rw [if_pos (Or.inr (by
        simp only [opP, opComma]
        rcases prec_cases hk with ⟨_, h⟩ | ⟨_, h⟩ | ⟨_, h⟩ | ⟨_, h⟩ <;> omega)), push_ok _ _ (by simp only []; omega)]
      rfl
    obtain ⟨S', R', q', h1', h2', h3', h4'⟩ := ev_exprD r n hn { s with ops := opP op (n + k) :: s.ops, res := R ++ S }
      (some (opP op (n + k))) rest hwr hpl2 (Or.inl ⟨_, rfl, by simp [opP], by simp [opP], by simp [opP]⟩) hsort hdim
      (by
        intro o ho
        simp only [List.head?_cons, Option.some.injEq] at ho
        subst ho
        have := lim_lt hkr hk5.2
        simp only [opP]; omega)
      (by show s.argc.length + _ ≤ 64; omega)
      (by show (R ++ S).length + (s.ops.length + 1) + _ ≤ 100; omega)
    refine ⟨S' ++ [opP op (n + k)], R', q', ?_, ?_, ?_, h4'⟩
    · simp only [Expr.ann, hk, Option.getD_some, List.append_assoc, List.cons_append]
      rw [h1, evLoop_cons, hstep]
      show evLoop _ _ _ = _
      rw [h1']
      simp
    · simp only [Expr.postP, hk, Option.getD_some]
      rw [← List.append_assoc, h2']
      show (R ++ S) ++ _ ++ _ = _
      rw [h2]; simp
    · intro x hx
      rw [hlevel]
      simp only [List.mem_append, List.mem_singleton] at hx
      rcases hx with hx | hx
      · have := h3' x hx; omega
      · subst hx; simp [opP]
  | .paren e =>
    obtain ⟨p, hp0, hp1, hp2, hp3⟩ : Group prev := hprev.resolve_right (by simp [Expr.lval])
    have hd : (Expr.paren e).depth = e.depth + 1 := rfl
    have hlen' : s.res.length + s.ops.length + ((e.ann (n + 8)).length + 2) ≤ 100 := by
      simpa [Expr.ann] using hlen
    have hlev := level_ge hw
    obtain ⟨S, R, q, h1, h2, h3, h4⟩ := ev_exprD e (n + 8) (by omega) { s with argc := 129 :: s.argc }
      (some (opP opOpenParen (n + 8))) (opP opCloseParen (n + 8) :: rest) hw hpl
      (Or.inl ⟨_, rfl, by simp [opP], by simp [opP], by simp [opP]⟩) hsort (Or.inr (by omega))
      (htop.mono (by have := le_lim (level e); have h7 : lim (level (Expr.paren e)) = 7 := rfl; omega))
      (by show (s.argc.length + 1) + _ ≤ 64; omega) (by show s.res.length + s.ops.length + _ ≤ 100; omega)
    refine ⟨S, R, opP opCloseParen (n + 8), ?_, h2, ?_, ⟨by simp [opP]; omega, by simp [opP, opCloseParen, opOpenParen],
      by simp [opP]⟩⟩
    · simp only [Expr.ann, List.cons_append, List.append_assoc, List.nil_append]
      rw [evLoop_cons, evStep_open s prev _ _ (n + 8) (Or.inr rfl) (by omega)]
      have ho : evOpen s prev = .ok { s with argc := 129 :: s.argc } := by
        unfold evOpen
        rw [if_neg (by omega), hp0]
        simp only [if_neg hp1]
        rw [if_pos ⟨hp2, hp3⟩]
      rw [ho]
      show evLoop _ _ _ = _
      rw [h1, evLoop_cons, evStep_close _ _ _ _ (n + 8) (Or.inr rfl) (by omega)]
      have hc : evClose { s with argc := 129 :: s.argc, ops := S ++ s.ops, res := R } (some q) (opP opCloseParen (n + 8)) =
          .ok ({ s with ops := S ++ s.ops, res := R }, opP opCloseParen (n + 8)) := by
        unfold evClose
        simp only [if_neg h4.notOpen]
        rfl
      simp only [] at hc ⊢
      rw [hc]
      rfl
    · intro x hx
      have := h3 x hx
      simp only [level]; omega
  | .call h sq a =>
    obtain ⟨hh, ha⟩ := hw
    obtain ⟨_, hcnt, hpa⟩ := hpl
    have hd : (Expr.call h sq a).depth = a.depth + 1 := rfl
    have hlen' : s.res.length + s.ops.length + ((a.ann (n + 8)).length + 3) ≤ 100 := by
      simpa [Expr.ann] using hlen
    have hob : (if sq then opOpenBracket else opOpenParen) = opOpenBracket ∨
        (if sq then opOpenBracket else opOpenParen) = opOpenParen := by cases sq <;> simp
    have hcb : (if sq then opCloseBracket else opCloseParen) = opCloseBracket ∨
        (if sq then opCloseBracket else opCloseParen) = opCloseParen := by cases sq <;> simp
    have hhead : ∀ next, evStep s prev next { h with prio := n + 7 } =
        .ok ({ s with ops := { h with prio := n + 7 } :: s.ops }, { h with prio := n + 7 }, true) := by
      intro next
      rw [evStep_head s prev next h (n + 7) (by omega) (hdim.imp_right fun h => by omega) hh, evPush_keep s _ ?_ ?_, push_ok s _ (by omega)]
      · rfl
      · refine htop.mono ?_
        have : ¬ (n + 7) % 8 = 6 := by omega
        have h7 : ∀ t : Nat, lim 7 = 7 := fun _ => rfl
        simp only [if_neg this, level, h7 0]; omega
      · left
        simp only [List.mem_cons, List.not_mem_nil, or_false] at hh
        rcases hh with h' | h' <;> rw [h'] <;> decide
    have hopen : evOpen { s with ops := { h with prio := n + 7 } :: s.ops } (some { h with prio := n + 7 }) =
        .ok { s with ops := { headTk h with prio := n + 7 } :: s.ops, argc := 1 :: s.argc } := by
      unfold evOpen
      rw [if_neg (by simp only []; omega)]
      simp only [List.mem_cons, List.not_mem_nil, or_false] at hh
      rcases hh with h' | h'
      · simp [h', headTk]
      · simp [h', headTk]
    obtain ⟨S, R, q, h1, h2, h3, h4⟩ := ev_argsD a (n + 8) (by omega) (by omega)
      { s with ops := { headTk h with prio := n + 7 } :: s.ops, argc := 1 :: s.argc } 1 s.argc rfl
      (some (opP (if sq then opOpenBracket else opOpenParen) (n + 8)))
      (opP (if sq then opCloseBracket else opCloseParen) (n + 8) :: rest) ha hpa
      ⟨_, rfl, by simp [opP], by simp [opP], by simp [opP]⟩ hsort (Or.inr (by omega))
      (by intro o ho; simp only [List.head?_cons, Option.some.injEq] at ho; subst ho; simp only []; omega)
      (by show (s.argc.length + 1) + _ ≤ 64; omega)
      (by show s.res.length + (s.ops.length + 1) + _ ≤ 100; omega) (by omega)
    have hpl' := Args.postP_length (n + 8) a
    have hRS : (R ++ S).length = s.res.length + (a.postP (n + 8)).length := by rw [h2]; simp
    have hcl : evClose { s with ops := (S ++ ({ headTk h with prio := n + 7 } :: s.ops)), argc := ((1 + a.count - 1) :: s.argc), res := R } (some q) (opP (if sq then opCloseBracket else opCloseParen) (n + 8)) =
        .ok ({ s with ops := (⟨.argCount, [], a.count, n + 8⟩ :: { headTk h with prio := n + 7 } :: s.ops), res := (R ++ S) }, ⟨.argCount, [], a.count, n + 8⟩) := by
      unfold evClose
      simp only [if_neg h4.notOpen, Nat.add_sub_cancel_left]
      rw [if_pos hcnt]
      rw [clean_all { s with ops := S ++ { headTk h with prio := n + 7 } :: s.ops, res := R }
        (opP (if sq then opCloseBracket else opCloseParen) (n + 8)).prio ({ headTk h with prio := n + 7 } :: s.ops) S rfl
        (by intro o ho; simp only [List.head?_cons, Option.some.injEq] at ho; subst ho; simp [opP])
        (by intro x hx; have := h3 x hx; simp only [opP]; omega)
        (by show (R ++ S).length ≤ 100; omega)]
      show (Ev.push _ _).bind _ = _
      rw [push_ok _ _ (by show s.ops.length + 1 < 100; omega)]
      rfl
    refine ⟨[⟨.argCount, [], a.count, n + 8⟩, { headTk h with prio := n + 7 }], R ++ S,
      ⟨.argCount, [], a.count, n + 8⟩, ?_, ?_, ?_, ⟨by simp only []; omega, by simp, by simp⟩⟩
    · simp only [Expr.ann, List.cons_append, List.append_assoc, List.nil_append]
      rw [evLoop_cons, hhead]
      show evLoop _ _ _ = _
      rw [evLoop_cons, evStep_open _ _ _ _ (n + 8) hob (by omega), hopen]
      show evLoop _ _ _ = _
      rw [h1, evLoop_cons, evStep_close _ _ _ _ (n + 8) hcb (by omega)]
      simp only [] at hcl ⊢
      rw [hcl]
      rfl
    · simp only [Expr.postP]; rw [h2]; simp
    · intro x hx
      simp only [List.mem_cons, List.not_mem_nil, or_false] at hx
      rcases hx with hx | hx <;> subst hx <;> simp [level]
  | .call0 h =>
    have hd : (Expr.call0 h).depth = 1 := rfl
    have hf : h.ty = .function := hw
    have hlen' : s.res.length + s.ops.length + 3 ≤ 100 := by simpa [Expr.ann] using hlen
    have hhead : ∀ next, evStep s prev next { h with prio := n + 7 } =
        .ok ({ s with ops := { h with prio := n + 7 } :: s.ops }, { h with prio := n + 7 }, true) := by
      intro next
      rw [evStep_head s prev next h (n + 7) (by omega) (hdim.imp_right fun h => by omega) (by simp [hf]), evPush_keep s _ ?_ ?_, push_ok s _ (by omega)]
      · rfl
      · refine htop.mono ?_
        have : ¬ (n + 7) % 8 = 6 := by omega
        have h7 : ∀ t : Nat, lim 7 = 7 := fun _ => rfl
        simp only [if_neg this, level, h7 0]; omega
      · left; rw [hf]; decide
    have hopen : evOpen { s with ops := { h with prio := n + 7 } :: s.ops } (some { h with prio := n + 7 }) =
        .ok { s with ops := { h with prio := n + 7 } :: s.ops, argc := 1 :: s.argc } := by
      unfold evOpen
      rw [if_neg (by simp only []; omega)]
      simp [hf]
    have hcl : evClose { s with ops := { h with prio := n + 7 } :: s.ops, argc := 1 :: s.argc }
          (some (opP opOpenParen (n + 8))) (opP opCloseParen (n + 8)) =
        .ok ({ s with ops := ⟨.argCount, [], 0, n + 8⟩ :: { h with prio := n + 7 } :: s.ops },
          ⟨.argCount, [], 0, n + 8⟩) := by
      unfold evClose
      simp only [opP, and_self, if_true]
      rw [if_pos (by omega)]
      rw [clean_all { s with ops := { h with prio := n + 7 } :: s.ops } (n + 8) ({ h with prio := n + 7 } :: s.ops) [] rfl
        (by intro o ho; simp only [List.head?_cons, Option.some.injEq] at ho; subst ho; simp)
        (by simp) (by simp only [List.append_nil]; omega)]
      show (Ev.push _ _).bind _ = _
      rw [push_ok _ _ (by show s.ops.length + 1 < 100; omega)]
      simp [Out.bind]
    refine ⟨[⟨.argCount, [], 0, n + 8⟩, { h with prio := n + 7 }], s.res, ⟨.argCount, [], 0, n + 8⟩, ?_, rfl, ?_,
      ⟨by simp only []; omega, by simp, by simp⟩⟩
    · simp only [Expr.ann, List.cons_append, List.nil_append]
      rw [evLoop_cons, hhead]
      show evLoop _ _ _ = _
      rw [evLoop_cons, evStep_open _ _ _ _ (n + 8) (Or.inr rfl) (by omega), hopen]
      show evLoop _ _ _ = _
      rw [evLoop_cons, evStep_close _ _ _ _ (n + 8) (Or.inr rfl) (by omega), hcl]
      rfl
    · intro x hx
      simp only [List.mem_cons, List.not_mem_nil, or_false] at hx
      rcases hx with hx | hx <;> subst hx <;> simp [level]
/-- `tok_eval` over the annotated tokens of an argument list, inside the brackets. -/
theorem ev_argsD (a : Args) (n : Nat) (hn : n % 8 = 0) (hn8 : 8 ≤ n) (s : Ev) (c : Nat) (cs : List Nat) (hc : s.argc = c :: cs)
    (prev : Option Tk) (rest : List Tk) (hw : a.WF) (hpl : a.Plain) (hprev : Group prev) (hsort : s.isSort = false)
    (hdim : s.isDim = false ∨ 0 < n) (htop : TopLt s.ops (n + 1)) (hargc : s.argc.length + a.depth ≤ 64)
    (hlen : s.res.length + s.ops.length + (a.ann n).length ≤ 100) (hcc : c + a.count < 256) :
    ∃ S R q, evLoop s prev (a.ann n ++ rest) =
        evLoop { s with ops := S ++ s.ops, res := R, argc := (c + a.count - 1) :: cs } (some q) rest ∧
      R ++ S = s.res ++ a.postP n ∧ (∀ x ∈ S, n + 2 ≤ x.prio) ∧ Tail q := by
  match a with
  | .one e =>
    have hlev := level_ge hw
    obtain ⟨S, R, q, h1, h2, h3, h4⟩ := ev_exprD e n hn s prev rest hw hpl (Or.inl hprev) hsort hdim
      (htop.mono (by have := le_lim (level e); omega)) hargc hlen
    refine ⟨S, R, q, ?_, h2, ?_, h4⟩
    · simp only [Args.ann, Args.count, Nat.add_sub_cancel]
      rw [h1, ← hc]
    · intro x hx; have := h3 x hx; omega
  | .more e a =>
    have hlev := level_ge hw.1
    have hd1 : e.depth ≤ (Args.more e a).depth := Nat.le_max_left _ _
    have hd2 : a.depth ≤ (Args.more e a).depth := Nat.le_max_right _ _
    have hlen' : s.res.length + s.ops.length + ((e.ann n).length + ((a.ann n).length + 1)) ≤ 100 := by
      simpa [Args.ann] using hlen
    obtain ⟨S, R, q, h1, h2, h3, h4⟩ := ev_exprD e n hn s prev (opP opComma (n + 1) :: (a.ann n ++ rest)) hw.1 hpl.1
      (Or.inl hprev) hsort hdim (htop.mono (by have := le_lim (level e); omega)) (by omega) (by omega)
    have hpl' := Expr.postP_length n e
    have hRS : (R ++ S).length = s.res.length + (e.postP n).length := by rw [h2]; simp
    have hstep : ∀ next, evStep { s with ops := S ++ s.ops, res := R } (some q) next (opP opComma (n + 1)) =
        .ok ({ s with res := R ++ S, argc := (c + 1) :: cs }, opP opComma (n + 1), true) := by
      intro next
      rw [evStep_op _ _ next opComma (n + 1) (by omega) (by omega),
        evPush_all { s with ops := S ++ s.ops, res := R } (opP opComma (n + 1)) s.ops S rfl htop
          (by simp only [opP]; omega) (fun x hx => by have := h3 x hx; simp only [opP]; omega)
          (by show (R ++ S).length ≤ 100; omega)]
      rw [if_neg (by simp [opP])]
      unfold Ev.incArg
      simp only [hc]
      have hcnt : (Args.more e a).count = a.count + 1 := rfl
      rw [Nat.mod_eq_of_lt (by omega)]
      rfl
    have hcnt : (Args.more e a).count = a.count + 1 := rfl
    obtain ⟨S', R', q', h1', h2', h3', h4'⟩ := ev_argsD a n hn hn8 { s with res := R ++ S, argc := (c + 1) :: cs } (c + 1) cs rfl
      (some (opP opComma (n + 1))) rest hw.2 hpl.2 ⟨_, rfl, by simp [opP], by simp [opP], by simp [opP]⟩ hsort hdim htop
      (by rw [hc] at hargc; show (cs.length + 1) + _ ≤ 64; simp only [List.length_cons] at hargc; omega)
      (by show (R ++ S).length + s.ops.length + _ ≤ 100; omega) (by omega)
    refine ⟨S', R', q', ?_, ?_, h3', h4'⟩
    · simp only [Args.ann, List.append_assoc, List.cons_append]
      rw [h1, evLoop_cons, hstep]
      show evLoop _ _ _ = _
      rw [h1', hcnt]
      have : c + 1 + a.count - 1 = c + (a.count + 1) - 1 := by omega
      simp only [this]
    · simp only [Args.postP]
      rw [h2']
      show (R ++ S) ++ _ = _
      rw [h2]; simp
end

/-- `tok_eval` over the annotated tokens of an expression. -/
theorem ev_expr (e : Expr) (n : Nat) (hn : n % 8 = 0) (s : Ev) (prev : Option Tk) (rest : List Tk) (hw : e.WF)
    (hpl : e.Plain) (hprev : Group prev ∨ e.lval = true) (hsort : s.isSort = false) (hdim : s.isDim = false)
    (htop : TopLt s.ops (n + lim (level e))) (hargc : s.argc.length + e.depth ≤ 64)
    (hlen : s.res.length + s.ops.length + (e.ann n).length ≤ 100) :
    ∃ S R q, evLoop s prev (e.ann n ++ rest) = evLoop { s with ops := S ++ s.ops, res := R } (some q) rest ∧
      R ++ S = s.res ++ e.postP n ∧ (∀ x ∈ S, n + level e ≤ x.prio) ∧ Tail q :=
  ev_exprD e n hn s prev rest hw hpl hprev hsort (Or.inl hdim) htop hargc hlen

end Sbc.Tok.Spec
