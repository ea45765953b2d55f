import Verif.Spec.SourceMachine
set_option autoImplicit false
/-!
# The restrictions on source programs can be decided

Used for the concrete programs beside the theorems.
-/
namespace Sbc.Tok.Spec
open Sbc Sbc.Tok

/-- An existential over an optional value. -/
def decExistsSome {α : Type} (x : Option α) (p : α → Prop) [∀ a, Decidable (p a)] : Decidable (∃ a, x = some a ∧ p a) :=
  match x with
  | none => isFalse (by rintro ⟨a, h, _⟩; cases h)
  | some a => if h : p a then isTrue ⟨a, rfl, h⟩ else isFalse (by rintro ⟨b, e, hb⟩; cases e; exact h hb)

/-- A universal over an optional value. -/
def decForallSome {α : Type} (x : Option α) (p : α → Prop) [∀ a, Decidable (p a)] : Decidable (∀ a, x = some a → p a) :=
  match x with
  | none => isTrue (by intro a h; cases h)
  | some a => if h : p a then isTrue (by intro b e; cases e; exact h) else isFalse (fun k => h (k a rfl))

instance (w : List Nat) : Decidable (Wordlike w) :=
  match w with
  | [] => isFalse (by rintro ⟨⟨c, r, h, _⟩, _⟩; cases h)
  | c :: r => decidable_of_iff (isNameStart c = true ∧ (∀ x ∈ c :: r, isVarname x = true) ∧ (c :: r).length ≤ 255)
      ⟨fun ⟨a, b⟩ => ⟨⟨c, r, rfl, a⟩, b⟩, fun ⟨⟨_, _, e, a⟩, b⟩ => by cases e; exact ⟨a, b⟩⟩

instance (w : List Nat) : Decidable (LabelName w) := inferInstanceAs (Decidable (_ ∧ _ ∧ _))

/-- Membership in a list of pairs. -/
def decPair (l : List (String × Nat)) (i : Nat) (p : String → Prop) [∀ s, Decidable (p s)] : Decidable (∃ s, (s, i) ∈ l ∧ p s) :=
  decidable_of_iff (∃ x ∈ l, x.2 = i ∧ p x.1)
    ⟨fun ⟨x, hx, e, hp⟩ => ⟨x.1, by subst e; exact hx, hp⟩, fun ⟨s, hs, hp⟩ => ⟨(s, i), hs, rfl, hp⟩⟩

instance (w : Word) : Decidable w.WF := by
  have := @decExistsSome
  have := @decPair
  cases w <;> unfold Word.WF <;>
    first
      | infer_instance
      | exact @instDecidableAnd _ _ inferInstance (@instDecidableAnd _ _ (decExistsSome _ _) inferInstance)
      | exact @instDecidableAnd _ _ inferInstance (decExistsSome _ _)
      | exact decPair _ _ _

instance (t : Ending) : Decidable t.WF := by
  cases t <;> unfold Ending.WF <;>
    first
      | infer_instance
      | exact @instDecidableAnd _ _ inferInstance (@instDecidableAnd _ _ inferInstance (decForallSome _ _))

instance decLineWF : (l : List (Word × Nat)) → (t : Ending) → Decidable (LineWF l t)
  | [], t => inferInstanceAs (Decidable t.WF)
  | (w, n) :: r, t =>
    have := decLineWF r t
    have := decForallSome (lineText r t).head? (fun c => w.glues c = false)
    inferInstanceAs (Decidable (w.WF ∧ (n = 0 → ∀ c, (lineText r t).head? = some c → w.glues c = false) ∧ LineWF r t))

mutual
/-- Whether an expression is well-formed. -/
def decExprWF : (e : Expr) → Decidable e.WF
  | .atom t => by unfold Expr.WF; infer_instance
  | .un op e => by
    unfold Expr.WF
    exact @instDecidableAnd _ _ inferInstance (@instDecidableAnd _ _ inferInstance (decExprWF e))
  | .bin op l r => by
    unfold Expr.WF
    have := decExprWF l
    have := decExprWF r
    exact decExistsSome _ _
  | .paren e => by unfold Expr.WF; exact decExprWF e
  | .call h _ a => by
    unfold Expr.WF
    exact @instDecidableAnd _ _ inferInstance (decArgsWF a)
  | .call0 h => by unfold Expr.WF; infer_instance
/-- Whether arguments are well-formed. -/
def decArgsWF : (a : Args) → Decidable a.WF
  | .one e => by unfold Args.WF; exact decExprWF e
  | .more e a => by unfold Args.WF; exact @instDecidableAnd _ _ (decExprWF e) (decArgsWF a)
end

instance (e : Expr) : Decidable e.WF := decExprWF e

end Sbc.Tok.Spec

namespace Sbc.Source
open Sbc Sbc.Tok Sbc.Tok.Spec

instance (w : List Nat) : Decidable (Names.GoodName w) := by unfold Names.GoodName; infer_instance

instance (w : List Nat) : Decidable (VarName w) := by
  unfold VarName
  have := decForallSome w.head? (fun c => 65 ≤ c)
  infer_instance

instance (w : List Nat) : Decidable (StrName w) := by unfold StrName; infer_instance

/-- Whether the leaves are correct. -/
def decLeaves : (e : E) → Decidable e.Leaves
  | .num w => by unfold E.Leaves; infer_instance
  | .str w => by unfold E.Leaves; infer_instance
  | .var w => by unfold E.Leaves; infer_instance
  | .un _ e => by unfold E.Leaves; exact decLeaves e
  | .bin _ l r => by unfold E.Leaves; exact @instDecidableAnd _ _ (decLeaves l) (decLeaves r)
  | .paren e => by unfold E.Leaves; exact decLeaves e
  | .sys v => by unfold E.Leaves; infer_instance
  | .fn0 f => by unfold E.Leaves; infer_instance
  | .fn1 f a => by unfold E.Leaves; exact @instDecidableAnd _ _ inferInstance (decLeaves a)
  | .fn2 f a b => by
    unfold E.Leaves
    exact @instDecidableAnd _ _ inferInstance (@instDecidableAnd _ _ (decLeaves a) (decLeaves b))
  | .fn3 f a b c => by
    unfold E.Leaves
    exact @instDecidableAnd _ _ inferInstance (@instDecidableAnd _ _ (decLeaves a) (@instDecidableAnd _ _ (decLeaves b) (decLeaves c)))
  | .arr1 _ _ a => by unfold E.Leaves; exact @instDecidableAnd _ _ inferInstance (decLeaves a)
  | .arr2 _ _ a b => by
    unfold E.Leaves
    exact @instDecidableAnd _ _ inferInstance (@instDecidableAnd _ _ (decLeaves a) (decLeaves b))

instance (e : E) : Decidable e.Leaves := decLeaves e

instance (e : E) : Decidable e.Good :=
  decidable_of_iff (e.tree.WF ∧ e.tree.depth ≤ 62 ∧ e.Leaves ∧ e.tree.type.isSome = true)
    ⟨fun ⟨a, b, c, d⟩ => ⟨a, b, c, d⟩, fun ⟨a, b, c, d⟩ => ⟨a, b, c, d⟩⟩

instance (e : E) : Decidable e.WF :=
  decidable_of_iff (e.Good ∧ e.isNumber = true) ⟨fun ⟨a, b⟩ => ⟨a, b⟩, fun ⟨a, b⟩ => ⟨a, b⟩⟩

instance (e : E) : Decidable e.Text :=
  decidable_of_iff (e.Good ∧ e.isText = true) ⟨fun ⟨a, b⟩ => ⟨a, b⟩, fun ⟨a, b⟩ => ⟨a, b⟩⟩

instance (s : Stmt) : Decidable s.acceptable := by
  cases s with
  | empty => exact isTrue trivial
  | assign l e =>
    exact match hl : l.type, he : e.type with
      | none, _ => isFalse (by rintro ⟨_, _, h, _⟩; rw [hl] at h; cases h)
      | some a, none => isFalse (by rintro ⟨_, _, _, h, _⟩; rw [he] at h; cases h)
      | some a, some b => decidable_of_iff ((a = 110 ∧ isNum b = true) ∨ (a = 115 ∧ isStr b = true))
          ⟨fun h => ⟨a, b, hl, he, h⟩, fun ⟨_, _, h1, h2, h⟩ => by
            rw [hl] at h1; rw [he] at h2; cases h1; cases h2; exact h⟩
  | cmd0 c => unfold Stmt.acceptable; infer_instance
  | cmd c a => unfold Stmt.acceptable; exact decExistsSome _ _
  | print items last =>
    unfold Stmt.acceptable
    have : ∀ x : Option Expr × Nat, Decidable (∀ e, x.1 = some e → e.type ≠ none) := fun x => decForallSome _ _
    have := decForallSome last (fun e => e.type ≠ none)
    infer_instance

instance (s : S) : Decidable s.WF := by
  cases s with
  | print items last =>
    unfold S.WF
    have : ∀ x : Option E × Nat, Decidable (∀ a, x.1 = some a → a.Good) := fun x => decForallSome _ _
    have := decForallSome last (fun a => a.Good)
    infer_instance
  | cmd c args => unfold S.WF external ordinary; infer_instance
  | for' w a b st =>
    unfold S.WF
    have := decForallSome st (fun e => e.WF ∧ b.tree.post.length + e.tree.post.length ≤ 36)
    infer_instance
  | next w => unfold S.WF; exact decForallSome w VarName
  | _ => unfold S.WF; infer_instance

instance (b : Branch) : Decidable b.WF := by cases b <;> unfold Branch.WF <;> infer_instance

instance (i : If) : Decidable i.WF :=
  have := decForallSome i.no (fun b => b.WF)
  have := decForallSome i.no (fun _ => i.yes.ends S.isFor = false)
  have := decForallSome i.no (fun _ => i.yes.ends S.isDim = false)
  have := decForallSome i.no (fun b => i.yes.ends S.isPrint = true → b.starts S.manyArgs = false)
  decidable_of_iff (i.cond.WF ∧ i.cond.tree.post.length ≤ 40 ∧ i.yes.WF ∧ (∀ b, i.no = some b → b.WF) ∧
      (i.then' = false → i.yes.starts S.isJump = true) ∧ (∀ b, i.no = some b → i.yes.ends S.isPrint = true → b.starts S.manyArgs = false) ∧
      (∀ b, i.no = some b → i.yes.ends S.isFor = false) ∧ ∀ b, i.no = some b → i.yes.ends S.isDim = false)
    ⟨fun ⟨a, b, c, d, e, f, g, h⟩ => ⟨a, b, c, d, e, f, g, h⟩, fun ⟨a, b, c, d, e, f, g, h⟩ => ⟨a, b, c, d, e, f, g, h⟩⟩

/-- Correct lines without DATA. -/
structure Line.Plain (l : Line) : Prop where
  label : ∀ w, l.label = some w → Names.GoodName w
  stmts : ∀ s ∈ l.stmts, s.WF
  last : ∀ i, l.last = some i → i.WF
  len : l.toks.length + l.extra ≤ 100
  data : l.data.isNone = true

theorem Line.Plain.wf {l : Line} (h : l.Plain) : l.WF :=
  ⟨h.label, h.stmts, h.last, h.len, fun d hd => by have := h.data; rw [hd] at this; cases this⟩

theorem plain_all {prog : List Line} (h : ∀ l ∈ prog, l.Plain) : ∀ l ∈ prog, l.WF := fun l hl => (h l hl).wf

instance (l : Line) : Decidable l.Plain :=
  have := decForallSome l.label Names.GoodName
  have := decForallSome l.last If.WF
  decidable_of_iff ((∀ w, l.label = some w → Names.GoodName w) ∧ (∀ s ∈ l.stmts, s.WF) ∧ (∀ i, l.last = some i → i.WF) ∧ l.toks.length + l.extra ≤ 100 ∧ l.data.isNone = true)
    ⟨fun ⟨a, b, c, d, e⟩ => ⟨a, b, c, d, e⟩, fun ⟨a, b, c, d, e⟩ => ⟨a, b, c, d, e⟩⟩

end Sbc.Source
