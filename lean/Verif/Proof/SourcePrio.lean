import Verif.Proof.Stmt
import Verif.Spec.Source
set_option autoImplicit false
/-!
# Lines of source through `tok_prio`
-/
namespace Sbc.Source
open Sbc Sbc.Tok Sbc.Tok.Spec

/-! ## The trees are correct -/

theorem any_some {o : Option Nat} {p : Nat → Bool} (h : o.any p = true) : ∃ c, o = some c ∧ p c = true := by
  cases o with
  | none => cases h
  | some c => exact ⟨c, rfl, h⟩

theorem opType_num {op a b c : Nat} (hop : 4 ≤ (prec op).getD 0) (h : opType op a b = some c) (hc : isNum c = true) : isNum a = true ∧ isNum b = true := by
  have h8 : op ∉ [8, 9, 10, 11, 12, 13] := by
    intro hm
    simp only [List.mem_cons, List.not_mem_nil, or_false] at hm
    rcases hm with rfl | rfl | rfl | rfl | rfl | rfl <;> exact absurd hop (by decide)
  unfold opType at h
  rw [if_neg h8] at h
  cases ha : isNum a <;> cases hb : isNum b <;> simp only [ha, hb, Bool.and_true, Bool.and_false, Bool.true_and, Bool.false_and, if_true, Bool.false_eq_true, if_false] at h <;>
    first
    | exact ⟨rfl, rfl⟩
    | (exfalso
       split at h
       · split at h
         · cases h; exact absurd hc (by decide)
         · cases h
       · split at h
         · split at h
           · cases h; exact absurd hc (by decide)
           · cases h
         · cases h)
    | (exfalso
       split at h
       · split at h
         · cases h; exact absurd hc (by decide)
         · cases h
       · split at h <;> cases h)

theorem E.lastTk_num : (e : E) → e.tree.WF → 4 ≤ level e.tree → e.tree.type.any isNum = true →
    (lastTk e.tree).ty ≠ .baseNumber ∧ (lastTk e.tree).ty ≠ .string
  | .num w, _, _, _ => by simp [E.tree, lastTk]
  | .str w, _, _, h => by cases h
  | .var w, _, _, _ => by simp [E.tree, lastTk]
  | .un op e, h, _, ht => by
    refine E.lastTk_num e h.2.2 (by have := h.2.1; omega) ?_
    obtain ⟨c, hc, _⟩ := any_some ht
    have hc : (e.tree.type.bind fun c => if isNum c then some 78 else none) = some c := hc
    cases he : e.tree.type with
    | none => rw [he] at hc; cases hc
    | some d =>
      rw [he] at hc
      show isNum d = true
      cases hd : isNum d with
      | true => rfl
      | false => simp [hd] at hc
  | .bin op l r, h, hl, ht => by
    obtain ⟨k, hk, _, hlr, _, h⟩ := h
    have hl : 4 ≤ (prec op).getD 0 := hl
    obtain ⟨c, hc, hcn⟩ := any_some ht
    have hc : (l.tree.type.bind fun a => r.tree.type.bind fun b => opType op a b) = some c := hc
    rw [hk] at hl
    refine E.lastTk_num r h (by have : 4 ≤ k := hl; omega) ?_
    cases h1 : l.tree.type with
    | none => rw [h1] at hc; cases hc
    | some a => cases h2 : r.tree.type with
      | none => rw [h1, h2] at hc; cases hc
      | some b =>
        rw [h1, h2] at hc
        exact (opType_num (by rw [hk]; exact hl) hc hcn).2
  | .paren e, _, _, _ => by simp [E.tree, lastTk, opTk]
  | .sys v, _, _, _ => by simp [E.tree, lastTk]
  | .fn0 f, _, _, _ => by simp [E.tree, lastTk, opTk]
  | .fn1 f a, _, _, _ => by simp [E.tree, lastTk, opTk]
  | .fn2 f a b, _, _, _ => by simp [E.tree, lastTk, opTk]
  | .fn3 f a b c, _, _, _ => by simp [E.tree, lastTk, opTk]
  | .arr1 sq w a, _, _, _ => by cases sq <;> simp [E.tree, lastTk, opTk]
  | .arr2 sq w a b, _, _, _ => by cases sq <;> simp [E.tree, lastTk, opTk]

theorem some_of_bind {α β : Type} {o : Option α} {f : α → Option β} (h : (o.bind f).isSome = true) : ∃ a, o = some a ∧ (f a).isSome = true := by
  cases o with
  | none => cases h
  | some a => exact ⟨a, rfl, h⟩

theorem E.plain : (e : E) → e.tree.WF → e.tree.type.isSome = true → e.Leaves → e.tree.Plain
  | .num w, _, _, _ => trivial
  | .str w, _, _, _ => trivial
  | .var w, _, _, _ => trivial
  | .un op e, h, ht, hl => E.plain e h.2.2 (by obtain ⟨a, ha, _⟩ := some_of_bind (show (e.tree.type.bind _).isSome = true from ht); rw [ha]; rfl) hl
  | .bin op l r, h, ht, hlv => by
    obtain ⟨k, hk, hkl, _, hl, hr⟩ := h
    obtain ⟨a, ha, ht⟩ := some_of_bind (show (l.tree.type.bind _).isSome = true from ht)
    obtain ⟨b, hb, ht⟩ := some_of_bind (show (r.tree.type.bind _).isSome = true from ht)
    refine ⟨?_, E.plain l hl (by rw [ha]; rfl) hlv.1, E.plain r hr (by rw [hb]; rfl) hlv.2⟩
    rintro rfl
    have hk4 : k = 4 := by
      have h4 : prec opSubtract = some 4 := by decide
      rw [h4] at hk; cases hk; rfl
    refine E.lastTk_num l hl (by omega) ?_
    rw [ha]
    show isNum a = true
    have ht : (opType opSubtract a b).isSome = true := ht
    unfold opType at ht
    rw [if_neg (by decide), if_neg (by decide), if_neg (by decide)] at ht
    cases hn : isNum a with
    | true => rfl
    | false => rw [hn] at ht; simp at ht
  | .paren e, h, ht, hl => E.plain e h ht hl
  | .sys v, _, _, _ => trivial
  | .fn0 f, _, _, _ => trivial
  | .fn1 f a, h, ht, hl => by
    obtain ⟨cs, hc, _⟩ := some_of_bind (show ((a.tree.type.map fun c => [c]).bind _).isSome = true from ht)
    exact ⟨fun h => absurd h (by decide), show 1 < 128 by decide, E.plain a h.2 (by cases ha : a.tree.type with | none => rw [ha] at hc; cases hc | some c => rfl) hl.2⟩
  | .fn2 f a b, h, ht, hl => by
    obtain ⟨cs, hc, _⟩ := some_of_bind (show ((a.tree.type.bind fun c => (b.tree.type.map fun c => [c]).map fun cs => c :: cs).bind _).isSome = true from ht)
    have h1 : a.tree.type.isSome = true := by cases ha : a.tree.type with | none => rw [ha] at hc; cases hc | some c => rfl
    have h2 : b.tree.type.isSome = true := by
      cases ha : a.tree.type with
      | none => rw [ha] at hc; cases hc
      | some c => cases hb : b.tree.type with | none => rw [ha, hb] at hc; cases hc | some c => rfl
    exact ⟨fun h => absurd h (by decide), show 2 < 128 by decide, E.plain a h.2.1 h1 hl.2.1, E.plain b h.2.2 h2 hl.2.2⟩
  | .fn3 f a b c, h, ht, hl => by
    obtain ⟨cs, hc, _⟩ := some_of_bind (show ((a.tree.type.bind fun x => (b.tree.type.bind fun x => (c.tree.type.map fun c => [c]).map fun cs => x :: cs).map fun cs => x :: cs).bind _).isSome = true from ht)
    have h1 : a.tree.type.isSome = true := by cases ha : a.tree.type with | none => rw [ha] at hc; cases hc | some c => rfl
    have h2 : b.tree.type.isSome = true := by
      cases ha : a.tree.type with
      | none => rw [ha] at hc; cases hc
      | some c => cases hb : b.tree.type with | none => rw [ha, hb] at hc; cases hc | some c => rfl
    have h3 : c.tree.type.isSome = true := by
      cases ha : a.tree.type with
      | none => rw [ha] at hc; cases hc
      | some x => cases hb : b.tree.type with
        | none => rw [ha, hb] at hc; cases hc
        | some y => cases hd : c.tree.type with | none => rw [ha, hb, hd] at hc; cases hc | some c => rfl
    exact ⟨fun h => absurd h (by decide), show 3 < 128 by decide, E.plain a h.2.1 h1 hl.2.1, E.plain b h.2.2.1 h2 hl.2.2.1, E.plain c h.2.2.2 h3 hl.2.2.2⟩
  | .arr1 sq w a, h, ht, hl => by
    obtain ⟨cs, hc, _⟩ := some_of_bind (show ((a.tree.type.map fun c => [c]).bind _).isSome = true from ht)
    exact ⟨hl.1.2, show 1 < 128 by decide, E.plain a h.2 (by cases ha : a.tree.type with | none => rw [ha] at hc; cases hc | some c => rfl) hl.2⟩
  | .arr2 sq w a b, h, ht, hl => by
    obtain ⟨cs, hc, _⟩ := some_of_bind (show ((a.tree.type.bind fun c => (b.tree.type.map fun c => [c]).map fun cs => c :: cs).bind _).isSome = true from ht)
    have h1 : a.tree.type.isSome = true := by cases ha : a.tree.type with | none => rw [ha] at hc; cases hc | some c => rfl
    have h2 : b.tree.type.isSome = true := by
      cases ha : a.tree.type with
      | none => rw [ha] at hc; cases hc
      | some c => cases hb : b.tree.type with | none => rw [ha, hb] at hc; cases hc | some c => rfl
    exact ⟨hl.1.2, show 2 < 128 by decide, E.plain a h.2.1 h1 hl.2.1, E.plain b h.2.2 h2 hl.2.2⟩

theorem E.known : (e : E) → e.Leaves → e.tree.known
  | .num w, _ => trivial
  | .var w, _ => trivial
  | .un op e, h => E.known e h
  | .bin op l r, h => ⟨E.known l h.1, E.known r h.2⟩
  | .paren e, h => E.known e h
  | .sys v, _ => trivial
  | .str w, _ => trivial
  | .fn0 f, h => h
  | .fn1 f a, h => ⟨fun _ => h.1, E.known a h.2⟩
  | .fn2 f a b, h => ⟨fun _ => h.1, E.known a h.2.1, E.known b h.2.2⟩
  | .fn3 f a b c, h => ⟨fun _ => h.1, E.known a h.2.1, E.known b h.2.2.1, E.known c h.2.2.2⟩
  | .arr1 sq w a, h => ⟨(fun h => by cases h), E.known a h.2⟩
  | .arr2 sq w a b, h => ⟨(fun h => by cases h), E.known a h.2.1, E.known b h.2.2⟩

theorem E.tree_wf {a : E} (h : a.Good) : a.tree.WF ∧ a.tree.Plain ∧ a.tree.depth ≤ 62 ∧ a.tree.known :=
  ⟨h.tree, E.plain a h.tree h.typed h.leaves, h.depth, E.known a h.leaves⟩

theorem assign_good {w : List Nat} {e : E} (h : (S.assign w e).WF) : e.Good := by
  rcases h.1 with h | h
  · exact h.2.toGood
  · exact h.2.toGood

theorem put_good {l e : E} (h : (S.put l e).WF) : l.Good ∧ e.Good := by
  rcases h.2.1 with h | h
  · exact ⟨h.1.toGood, h.2.toGood⟩
  · exact ⟨h.1.toGood, h.2.toGood⟩

theorem E.cell_call {l : E} (h : l.isCell = true) : ∃ w sq a, l.tree = .call ⟨.name, w, 0, 0⟩ sq a := by
  cases l with
  | arr1 sq w a => exact ⟨w, sq, _, rfl⟩
  | arr2 sq w a b => exact ⟨w, sq, _, rfl⟩
  | _ => cases h

theorem strName_len {w : List Nat} (h : StrName w) : 2 ≤ w.length ∧ w.length ≤ 17 := by
  have h1 := h.2.1
  have h2 := h.2.2.1
  rw [List.length_dropLast] at h1 h2
  omega

theorem anyName_len {w : List Nat} (h : VarName w ∨ StrName w) : 1 ≤ w.length ∧ w.length ≤ 17 := by
  rcases h with h | h
  · have h1 := h.1.1
    have h2 := h.1.2.1
    omega
  · have := strName_len h; omega

theorem assign_name {w : List Nat} {e : E} (h : (S.assign w e).WF) : VarName w ∨ StrName w := by
  rcases h.1 with h | h
  · exact Or.inl h.1
  · exact Or.inr h.1

theorem argTrees_wf : (a : E) → (r : List E) → (∀ x ∈ a :: r, x.Good) →
    (argTrees a r).WF ∧ (argTrees a r).Plain ∧ (argTrees a r).depth ≤ 62 ∧ (argTrees a r).known
  | a, [], h => E.tree_wf (h a (by simp))
  | a, b :: r, h => by
    obtain ⟨h1, h2, h3, h4⟩ := E.tree_wf (h a (by simp))
    obtain ⟨k1, k2, k3, k4⟩ := argTrees_wf b r (fun x hx => h x (by simp at hx ⊢; right; exact hx))
    exact ⟨⟨h1, k1⟩, ⟨h2, k2⟩, Nat.max_le.mpr ⟨h3, k3⟩, ⟨h4, k4⟩⟩

theorem varName_ne {w : List Nat} (h : VarName w) : w ≠ [] := by
  intro e; have := h.1.1; rw [e] at this; simp at this

theorem var_good {w : List Nat} (h : VarName w ∨ StrName w) : (E.var w).Good :=
  ⟨by simp [E.tree, Expr.WF], by simp [E.tree, Expr.depth], h, rfl⟩

/-- The statement of `Spec/Stmt` is a correct one. -/
theorem S.simple_wf {s : S} (h : s.WF) : s.simple.WF ∧ s.simple.Plain ∧ s.simple.shallow 62 ∧ s.simple.known := by
  cases s with
  | assign w e =>
    have he := assign_good h
    exact ⟨⟨by simp [Expr.WF], he.tree, Or.inl ⟨_, rfl, by simp⟩⟩, ⟨trivial, E.plain e he.tree he.typed he.leaves⟩, ⟨by simp [Expr.depth], he.depth⟩,
      trivial, E.known e he.leaves⟩
  | cmd c args =>
    obtain ⟨⟨hc, ho, hx⟩, ha, _⟩ := h
    have hto : c ≠ cmdTo := fun e => hx (by simp [e])
    cases args with
    | nil => exact ⟨ho, trivial, trivial, hc, hto⟩
    | cons a r =>
      obtain ⟨h1, h2, h3, h4⟩ := argTrees_wf a r ha
      exact ⟨⟨ho, h1⟩, h2, h3, hc, hto, h4⟩
  | print items last =>
    obtain ⟨hi, hl, _⟩ := h
    have hm : ∀ o : Option E, (∀ a, o = some a → a.Good) → ∀ e, o.map E.tree = some e → e.WF ∧ e.Plain ∧ e.depth ≤ 62 ∧ e.known := by
      intro o ho e he
      cases o with
      | none => cases he
      | some a => cases he; exact E.tree_wf (ho a rfl)
    refine ⟨⟨?_, fun e he => (hm last hl e he).1⟩, ⟨?_, fun e he => (hm last hl e he).2.1⟩, ⟨?_, fun e he => (hm last hl e he).2.2.1⟩,
      ?_, fun e he => (hm last hl e he).2.2.2⟩
    · intro x hx
      obtain ⟨y, hy, rfl⟩ := List.mem_map.mp hx
      exact ⟨fun e he => (hm y.1 (hi y hy).1 e he).1, (hi y hy).2⟩
    · intro x hx e he
      obtain ⟨y, hy, rfl⟩ := List.mem_map.mp hx
      exact (hm y.1 (hi y hy).1 e he).2.1
    · intro x hx e he
      obtain ⟨y, hy, rfl⟩ := List.mem_map.mp hx
      exact (hm y.1 (hi y hy).1 e he).2.2.1
    · intro x hx e he
      obtain ⟨y, hy, rfl⟩ := List.mem_map.mp hx
      exact (hm y.1 (hi y hy).1 e he).2.2.2
  | goto l => exact ⟨trivial, trivial, trivial, trivial⟩
  | gosub l => exact ⟨trivial, trivial, trivial, trivial⟩
  | ret => exact ⟨show ordinary cmdReturn by unfold ordinary; decide, trivial, trivial, show cmdReturn < 110 ∧ cmdReturn ≠ cmdTo by decide⟩
  | fin => exact ⟨show ordinary cmdEnd by unfold ordinary; decide, trivial, trivial, show cmdEnd < 110 ∧ cmdEnd ≠ cmdTo by decide⟩
  | stop => exact ⟨show ordinary cmdStop by unfold ordinary; decide, trivial, trivial, show cmdStop < 110 ∧ cmdStop ≠ cmdTo by decide⟩
  | for' w a b s => exact ⟨trivial, trivial, trivial, trivial⟩
  | on e sub ls => exact ⟨trivial, trivial, trivial, trivial⟩
  | restore l => exact ⟨trivial, trivial, trivial, trivial⟩
  | dim l r => exact ⟨trivial, trivial, trivial, trivial⟩
  | put l e =>
    obtain ⟨hl, he⟩ := put_good h
    obtain ⟨w, sq, a, hc⟩ := E.cell_call h.1
    obtain ⟨h1, h2, h3, h4⟩ := E.tree_wf hl
    obtain ⟨k1, k2, k3, k4⟩ := E.tree_wf he
    exact ⟨⟨h1, k1, by show _ ∨ _; rw [hc]; exact Or.inr ⟨_, _, _, rfl, rfl⟩⟩, ⟨h2, k2⟩, ⟨h3, k3⟩, h4, k4⟩
  | read ls =>
    obtain ⟨hne, hw, _⟩ := h
    have ho : ordinary cmdRead := by unfold ordinary; decide
    cases ls with
    | nil => exact absurd rfl hne
    | cons l r =>
      obtain ⟨h1, h2, h3, h4⟩ := argTrees_wf l r fun x hx => (hw x hx).2
      exact ⟨⟨ho, h1⟩, h2, h3, show cmdRead < 110 by decide, show cmdRead ≠ cmdTo by decide, h4⟩
  | next w =>
    have ho : ordinary cmdNext := by unfold ordinary; decide
    cases w with
    | none => exact ⟨ho, trivial, trivial, show cmdNext < 110 ∧ cmdNext ≠ cmdTo by decide⟩
    | some w => exact ⟨⟨ho, by simp [Args.WF, Expr.WF]⟩, trivial, show (0 : Nat) ≤ 62 by decide,
        show cmdNext < 110 by decide, show cmdNext ≠ cmdTo by decide, trivial⟩

/-! ## Annotated lines -/

def stepAnn : Option E → List Tk
  | none => []
  | some e => cmdTk cmdStep :: e.tree.ann 0

def labelAnn : List (List Nat) → List Tk
  | [] => []
  | [l] => [labelTk l]
  | l :: m :: r => labelTk l :: opP opComma 1 :: labelAnn (m :: r)

theorem labelAnn_length : (ls : List (List Nat)) → (labelAnn ls).length = (labelToks ls).length
  | [] => rfl
  | [_] => rfl
  | l :: m :: r => by simp [labelAnn, labelToks, labelAnn_length (m :: r)]

def dimAnn : E → List E → List Tk
  | l, [] => l.tree.ann 0
  | l, m :: r => l.tree.ann 0 ++ opP opComma 1 :: dimAnn m r

theorem dimAnn_length : (l : E) → (r : List E) → (dimAnn l r).length = (dimToks l r).length
  | l, [] => Expr.ann_length ..
  | l, m :: r => by simp [dimAnn, dimToks, Expr.ann_length, dimAnn_length m r]

def S.ann : S → List Tk
  | .goto l => [cmdTk cmdGoto, labelTk l]
  | .gosub l => [cmdTk cmdGosub, labelTk l]
  | .for' w a b s => cmdTk cmdFor :: ⟨.name, w, 0, 0⟩ :: opP opAssign 0 :: (a.tree.ann 0 ++ cmdTk cmdTo :: (b.tree.ann 0 ++ stepAnn s))
  | .on e sub ls => cmdTk cmdOn :: (e.tree.ann 0 ++ cmdTk (jumpWord sub) :: labelAnn ls)
  | .restore l => [cmdTk cmdRestore, labelTk l]
  | .dim l r => cmdTk cmdDim :: dimAnn l r
  | s => s.simple.ann

def Branch.ann : Branch → List Tk
  | .jump l => [labelTk l]
  | .run ss => joinToks (ss.map S.ann)

def If.ann (i : If) : List Tk :=
  cmdTk cmdIf :: i.cond.tree.ann 0 ++ (if i.then' then [cmdTk cmdThen] else []) ++ i.yes.ann ++
    (match i.no with | none => [] | some b => cmdTk cmdElse :: b.ann)

def Line.annPieces (l : Line) : List (List Tk) :=
  (match l.label with | none => [] | some w => [[labelTk w]]) ++ l.stmts.map S.ann ++
    (match l.last with | none => [] | some i => [i.ann]) ++ (match l.data with | none => [] | some d => [[d.tk]])

def Line.ann (l : Line) : List Tk := joinToks l.annPieces ++ [endTk]

theorem S.ann_length (s : S) : s.ann.length = s.toks.length := by
  have h := Stmt.ann_length s.simple
  cases s with
  | for' w a b s => cases s <;> simp [S.ann, S.toks, stepAnn, stepToks, Expr.ann_length]
  | on e sub ls => simp [S.ann, S.toks, Expr.ann_length, labelAnn_length]
  | dim l r => simp [S.ann, S.toks, dimAnn_length]
  | _ => first | rfl | exact h

theorem join_length : (a b : List (List Tk)) → a.map List.length = b.map List.length → (joinToks a).length = (joinToks b).length
  | [], [], _ => rfl
  | [], _ :: _, h => by simp at h
  | _ :: _, [], h => by simp at h
  | [p], [q], h => by simpa [joinToks] using h
  | [_], _ :: _ :: _, h => by simp at h
  | _ :: _ :: _, [_], h => by simp at h
  | p :: p' :: r, q :: q' :: t, h => by
    have h' := h
    simp only [List.map_cons, List.cons.injEq] at h'
    have := join_length (p' :: r) (q' :: t) (by simpa using h'.2)
    simp [joinToks, this, h'.1]

theorem Branch.ann_length (b : Branch) : b.ann.length = b.toks.length := by
  cases b with
  | jump l => rfl
  | run ss => exact join_length _ _ (by simp [S.ann_length])

theorem If.ann_length (i : If) : i.ann.length = i.toks.length := by
  unfold If.ann If.toks
  cases i.no <;> simp [Expr.ann_length, Branch.ann_length]

theorem Line.ann_length (l : Line) : l.ann.length = l.toks.length := by
  have : (joinToks l.annPieces).length = (joinToks l.pieces).length := by
    apply join_length
    unfold Line.annPieces Line.pieces
    cases l.label <;> cases l.last <;> cases l.data <;> simp [S.ann_length, If.ann_length]
  simp [Line.ann, Line.toks, this]

/-! ## `tok_prio` -/

theorem prio_tk (pre : Tk) (d : List Tk) (n : Int) (t : Tk) (h1 : t.ty ≠ .operation) (h2 : t.ty ≠ .function) (h3 : t.prio = 0) :
    prioStep pre d n t = (t :: d, n) := by
  unfold prioStep
  rw [if_neg h1, if_neg h2]
  cases t; simp at h3; subst h3; rfl

/-- An expression after a command word or `=`. -/
theorem prio_after (pre : Tk) {e : E} (h : e.Good) (p : Tk) (d rest : List Tk) (hp : p.ty ≠ .name) (hm : minusIsBinary p = false) :
    prioLoop pre (p :: d) (0 : Nat) (e.tree.toks ++ rest) = prioLoop pre ((e.tree.ann 0).reverse ++ p :: d) (0 : Nat) rest :=
  prio_expr pre e.tree 0 p d rest h.tree (E.plain e h.tree h.typed h.leaves) (by have := h.depth; omega) hp (fun _ => hm)

theorem prio_for (pre : Tk) {w : List Nat} {a b : E} {s : Option E} (ha : a.WF) (hb : b.WF) (hs : ∀ e, s = some e → e.WF) (d rest : List Tk) :
    prioLoop pre d (0 : Nat) ((S.for' w a b s).toks ++ rest) = prioLoop pre ((S.for' w a b s).ann.reverse ++ d) (0 : Nat) rest := by
  have hcmd : ∀ c, (cmdTk c).ty ≠ .name ∧ minusIsBinary (cmdTk c) = false := fun c => ⟨by simp [cmdTk], rfl⟩
  have h1 := prio_tk pre (cmdTk cmdFor :: d) ((0 : Nat) : Int) ⟨.name, w, 0, 0⟩ (by simp) (by simp) rfl
  simp only [S.toks, S.ann, List.cons_append, List.append_assoc]
  rw [prioLoop_cons, prio_cmd]
  dsimp only
  rw [prioLoop_cons, h1]
  dsimp only
  rw [prioLoop_cons, prio_assign]
  dsimp only
  rw [prio_after pre ha.toGood _ _ _ (by simp [opP]) rfl, prioLoop_cons, prio_cmd]
  dsimp only
  rw [prio_after pre hb.toGood _ _ _ (hcmd _).1 (hcmd _).2]
  cases s with
  | none => simp [stepToks, stepAnn]
  | some e =>
    simp only [stepToks, stepAnn, List.cons_append]
    rw [prioLoop_cons, prio_cmd]
    dsimp only
    rw [prio_after pre (hs e rfl).toGood _ _ _ (hcmd _).1 (hcmd _).2]
    simp

theorem prio_labels (pre : Tk) : (ls : List (List Nat)) → (d rest : List Tk) →
    prioLoop pre d (0 : Nat) (labelToks ls ++ rest) = prioLoop pre ((labelAnn ls).reverse ++ d) (0 : Nat) rest
  | [], _, _ => rfl
  | [_], _, _ => rfl
  | l :: m :: r, d, rest => by
    simp only [labelToks, labelAnn, List.cons_append]
    rw [prioLoop_cons, prio_tk pre d ((0 : Nat) : Int) (labelTk l) (by simp [labelTk]) (by simp [labelTk]) rfl]
    dsimp only
    rw [prioLoop_cons, prio_sep pre _ opComma (Or.inl rfl)]
    dsimp only
    rw [prio_labels pre (m :: r)]
    simp

theorem prio_on (pre : Tk) {e : E} {sub : Bool} {ls : List (List Nat)} (he : e.WF) (d rest : List Tk) :
    prioLoop pre d (0 : Nat) ((S.on e sub ls).toks ++ rest) = prioLoop pre ((S.on e sub ls).ann.reverse ++ d) (0 : Nat) rest := by
  simp only [S.toks, S.ann, List.cons_append, List.append_assoc]
  rw [prioLoop_cons, prio_cmd]
  dsimp only
  rw [prio_after pre he.toGood _ _ _ (by simp [cmdTk]) rfl, prioLoop_cons, prio_cmd]
  dsimp only
  rw [prio_labels]
  simp

theorem prio_dims (pre : Tk) : (l : E) → (r : List E) → (∀ x ∈ l :: r, x.Good) → (p : Tk) → (d rest : List Tk) → p.ty ≠ .name → minusIsBinary p = false →
    prioLoop pre (p :: d) (0 : Nat) (dimToks l r ++ rest) = prioLoop pre ((dimAnn l r).reverse ++ p :: d) (0 : Nat) rest
  | l, [], h, p, d, rest, hp, hm => prio_after pre (h l (by simp)) p d rest hp hm
  | l, m :: r, h, p, d, rest, hp, hm => by
    simp only [dimToks, dimAnn, List.append_assoc, List.cons_append]
    rw [prio_after pre (h l (by simp)) p d _ hp hm, prioLoop_cons, prio_sep pre _ opComma (Or.inl rfl)]
    dsimp only
    rw [prio_dims pre m r (fun x hx => h x (by simp at hx ⊢; right; exact hx)) _ _ _ (by simp [opP]) rfl]
    simp

theorem prio_s (pre : Tk) (s : S) (d rest : List Tk) (hw : s.WF) :
    prioLoop pre d (0 : Nat) (s.toks ++ rest) = prioLoop pre (s.ann.reverse ++ d) (0 : Nat) rest := by
  have key := prio_stmt pre s.simple d rest (S.simple_wf hw).1 (S.simple_wf hw).2.1 (S.simple_wf hw).2.2.1
  cases s with
  | goto l => rfl
  | gosub l => rfl
  | assign w e => exact key
  | cmd c a => exact key
  | print i l => exact key
  | ret => exact key
  | fin => exact key
  | stop => exact key
  | next w => cases w <;> exact key
  | for' w a b s => exact prio_for pre hw.2.1.1 hw.2.2.1.1 (fun e he => (hw.2.2.2.1 e he).1) d rest
  | on e sub ls => exact prio_on pre hw.1.1 d rest
  | restore l => rfl
  | read ws => exact key
  | put l e => exact key
  | dim l r =>
    simp only [S.toks, S.ann, List.cons_append]
    rw [prioLoop_cons, prio_cmd]
    dsimp only
    rw [prio_dims pre l r (fun x hx => (hw x hx).2.1) _ _ _ (by simp [cmdTk]) rfl]
    simp

/-- `a` becomes `b`. -/
def Prio (pre : Tk) (a b : List Tk) : Prop :=
  ∀ d rest, prioLoop pre d (0 : Nat) (a ++ rest) = prioLoop pre (b.reverse ++ d) (0 : Nat) rest

theorem Prio.append {pre : Tk} {a b c d : List Tk} (h1 : Prio pre a b) (h2 : Prio pre c d) : Prio pre (a ++ c) (b ++ d) := by
  intro x rest
  rw [List.append_assoc, h1, h2]
  simp

theorem Prio.one (pre : Tk) (t : Tk) (h1 : t.ty ≠ .operation) (h2 : t.ty ≠ .function) (h3 : t.prio = 0) : Prio pre [t] [t] := by
  intro d rest
  rw [List.singleton_append, prioLoop_cons, prio_tk pre _ _ t h1 h2 h3]
  rfl

theorem Prio.nil (pre : Tk) : Prio pre [] [] := fun _ _ => rfl

/-- Pieces that go through `tok_prio` one by one go through it joined. -/
theorem Prio.join {pre : Tk} : (a b : List (List Tk)) → List.Forall₂ (Prio pre) a b → Prio pre (joinToks a) (joinToks b)
  | [], [], _ => Prio.nil pre
  | [p], [q], .cons h .nil => h
  | p :: p' :: r, q :: q' :: t, .cons h hr => by
    have := h.append ((Prio.one pre colonTk (by decide) (by decide) rfl).append (Prio.join (p' :: r) (q' :: t) hr))
    simpa [joinToks] using this

theorem Prio.stmts (pre : Tk) : (ss : List S) → (∀ s ∈ ss, s.WF) → List.Forall₂ (Prio pre) (ss.map S.toks) (ss.map S.ann)
  | [], _ => .nil
  | s :: r, h => .cons (fun d rest => prio_s pre s d rest (h s (by simp))) (Prio.stmts pre r fun x hx => h x (by simp [hx]))

theorem prio_branch (pre : Tk) (b : Branch) (h : b.WF) : Prio pre b.toks b.ann := by
  cases b with
  | jump l => exact Prio.one pre _ (by simp [labelTk]) (by simp [labelTk]) rfl
  | run ss => exact Prio.join _ _ (Prio.stmts pre ss h.2.1)

theorem prio_if (pre : Tk) (i : If) (h : i.WF) : Prio pre i.toks i.ann := by
  have hc : Prio pre (cmdTk cmdIf :: i.cond.tree.toks) (cmdTk cmdIf :: i.cond.tree.ann 0) := by
    intro d rest
    have hd := h.cond.depth
    rw [List.cons_append, prioLoop_cons, prio_cmd]
    have := prio_expr pre i.cond.tree 0 (cmdTk cmdIf) d rest h.cond.tree (E.plain _ h.cond.tree h.cond.typed h.cond.leaves) (by omega) (by simp [cmdTk])
      (fun _ => rfl)
    simpa using this
  have ht : Prio pre (if i.then' then [cmdTk cmdThen] else []) (if i.then' then [cmdTk cmdThen] else []) := by
    split
    · exact Prio.one pre _ (by simp [cmdTk]) (by simp [cmdTk]) rfl
    · exact Prio.nil pre
  have he : Prio pre (match i.no with | none => [] | some b => cmdTk cmdElse :: b.toks)
      (match i.no with | none => [] | some b => cmdTk cmdElse :: b.ann) := by
    cases hn : i.no with
    | none => exact Prio.nil pre
    | some b =>
      exact (Prio.one pre (cmdTk cmdElse) (by simp [cmdTk]) (by simp [cmdTk]) rfl).append (prio_branch pre b (h.no b hn))
  exact ((hc.append ht).append (prio_branch pre i.yes h.yes)).append he

theorem Forall₂.append {α β : Type} {R : α → β → Prop} {a c : List α} {b d : List β} (h1 : List.Forall₂ R a b) (h2 : List.Forall₂ R c d) :
    List.Forall₂ R (a ++ c) (b ++ d) := by
  induction h1 with
  | nil => exact h2
  | cons h _ ih => exact .cons h ih

/-- `tok_prio` on a line. -/
theorem tokPrio_line (pre : Tk) (l : Line) (h : l.WF) : tokPrio pre l.toks = l.ann := by
  have hp : Prio pre (joinToks l.pieces) (joinToks l.annPieces) := by
    apply Prio.join
    unfold Line.pieces Line.annPieces
    refine Forall₂.append (Forall₂.append (Forall₂.append ?_ (Prio.stmts pre _ h.stmts)) ?_) ?_
    · cases l.label with
      | none => exact .nil
      | some w => exact .cons (Prio.one pre _ (by simp [labelTk]) (by simp [labelTk]) rfl) .nil
    · cases hl : l.last with
      | none => exact .nil
      | some i => exact .cons (prio_if pre i (h.last i hl)) .nil
    · cases l.data with
      | none => exact .nil
      | some d => exact .cons (Prio.one pre _ (by simp [Data.tk]) (by simp [Data.tk]) rfl) .nil
  have := (hp.append (Prio.one pre endTk (by decide) (by decide) rfl)) [] []
  unfold tokPrio Line.toks
  rw [List.append_nil] at this
  have h0 : ((0 : Nat) : Int) = 0 := rfl
  rw [h0] at this
  rw [this]
  simp [prioLoop, Line.ann]

end Sbc.Source
