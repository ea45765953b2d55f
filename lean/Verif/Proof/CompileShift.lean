import Verif.Proof.CompileLoop
set_option autoImplicit false
/-!
# The code of a line does not depend on the lines before it
-/
namespace Sbc.Tok.Spec
open Sbc Sbc.Tok

/-- The same state behind the code `b`, with another variable table. -/
def shift (b : List Nat) (v : Vars.Table) (s : CodeSt) : CodeSt := ⟨b ++ s.buf, v, s.sys⟩

theorem padEven_shift (b x : List Nat) (h : b.length % 2 = 0) : padEven (b ++ x) = b ++ padEven x := by
  unfold padEven
  have : (b ++ x).length % 2 = x.length % 2 := by rw [List.length_append]; omega
  rw [this]
  split
  · simp
  · rfl

theorem padEven_even (x : List Nat) : (padEven x).length % 2 = 0 := by
  unfold padEven
  split
  · simp; omega
  · omega

theorem put_shift (b : List Nat) (v : Vars.Table) (s : CodeSt) (l : List Nat) : (shift b v s).put l = shift b v (s.put l) := by
  simp [shift, CodeSt.put]

theorem putText_shift (b : List Nat) (v : Vars.Table) (s : CodeSt) (op : Nat) (t : List Nat) (h : b.length % 2 = 0) :
    (shift b v s).putText op t = shift b v (s.putText op t) := by
  simp only [shift, CodeSt.putText, List.append_assoc]
  rw [padEven_shift _ _ h]

theorem tokData_shift (b x t : List Nat) (h : b.length % 2 = 0) : tokData (b ++ x) t = b ++ tokData x t := by
  unfold tokData
  dsimp only
  rw [List.append_assoc, padEven_shift _ _ h]

theorem emitName_shift (b : List Nat) (v : Vars.Table) (s : CodeSt) (k : Tk) (h : b.length % 2 = 0) :
    emitName (shift b v s) k = shift b v (emitName s k) := by
  unfold emitName
  dsimp only
  split
  · exact put_shift ..
  · exact putText_shift _ _ _ _ _ h

/-- The result behind the code `b`. -/
def shifted {α : Type} (b : List Nat) (v : Vars.Table) (x : Out (CodeSt × α)) : Out (CodeSt × α) :=
  x.bind fun r => .ok (shift b v r.1, r.2)

theorem emit_shift (b : List Nat) (v : Vars.Table) (s : CodeSt) (k : Tk) (h : b.length % 2 = 0) :
    emitTok false (shift b v s) k = shifted b v (emitTok false s k) := by
  have hname : k.ty = .name ∨ k.ty = .arrayName ∨ k.ty = .dimArr ∨ k.ty = .arrayActual →
      emitTok false (shift b v s) k = shifted b v (emitTok false s k) := by
    intro ht
    have e : ∀ s : CodeSt, emitTok false s k = .ok (emitName s k, .next) := by
      intro s
      unfold emitTok
      rcases ht with ht | ht | ht | ht <;> rw [ht] <;> simp
    rw [e, e, emitName_shift _ _ _ _ h]
    rfl
  have hcmd : k.ty = .command ∨ k.ty = .firstCommand → emitTok false (shift b v s) k = shifted b v (emitTok false s k) := by
    intro ht
    by_cases hc : k.cmd = cmdData
    · have e : ∀ s : CodeSt, emitTok false s k = .ok ({ s with buf := tokData s.buf k.text }, .stop) := by
        intro s
        unfold emitTok
        rcases ht with ht | ht <;> rw [ht] <;> simp [hc]
      rw [e, e]
      show Out.ok (_, Ctl.stop) = Out.ok (_, Ctl.stop)
      simp only [shift, tokData_shift _ _ _ h]
    · have e : ∀ s : CodeSt, emitTok false s k = .ok (s.put [if k.ty = .firstCommand then bcCommandFirst else bcCommand, k.cmd], .next) := by
        intro s
        unfold emitTok
        rcases ht with ht | ht <;> rw [ht] <;> simp [hc]
      rw [e, e, put_shift]
      rfl
  have hnum : k.ty = .baseNumber ∨ k.ty = .number → emitTok false (shift b v s) k = shifted b v (emitTok false s k) := by
    intro ht
    have e : ∀ s : CodeSt, emitTok false s k = (tokNumber k).bind fun n =>
      match numberCode n (k.ty == .number) with
      | none => .ok (s, .fail errOverflow)
      | some l => .ok (s.put l, .next) := by
        intro s
        unfold emitTok
        rcases ht with ht | ht <;> simp only [ht] <;> rfl
    rw [e, e]
    cases tokNumber k with
    | ub => rfl
    | err x => rfl
    | ok n =>
      rw [ok_bind, ok_bind]
      cases numberCode n (k.ty == .number) with
      | none => rfl
      | some l => dsimp only; rw [put_shift]; rfl
  cases ht : k.ty with
  | command => exact hcmd (by simp [ht])
  | firstCommand => exact hcmd (by simp [ht])
  | baseNumber => exact hnum (by simp [ht])
  | number => exact hnum (by simp [ht])
  | name => exact hname (by simp [ht])
  | arrayName => exact hname (by simp [ht])
  | dimArr => exact hname (by simp [ht])
  | arrayActual => exact hname (by simp [ht])
  | string => simp only [emitTok, ht, putText_shift _ _ _ _ _ h]; rfl
  | label => simp only [emitTok, ht, putText_shift _ _ _ _ _ h]; rfl
  | labelString => simp only [emitTok, ht, putText_shift _ _ _ _ _ h]; rfl
  | operation => simp only [emitTok, ht, put_shift]; rfl
  | function => simp only [emitTok, ht, put_shift]; rfl
  | argCount => simp only [emitTok, ht, put_shift]; rfl
  | loopBegin => simp only [emitTok, ht, put_shift]; rfl
  | sysvar => simp only [emitTok, ht, put_shift]; rfl
  | comment => simp only [emitTok, ht]; rfl
  | newline => simp only [emitTok, ht]; rfl

theorem put_even (s : CodeSt) (l : List Nat) (h : s.buf.length % 2 = 0) (hl : l.length % 2 = 0) : (s.put l).buf.length % 2 = 0 := by
  simp only [CodeSt.put, List.length_append]; omega

theorem putText_even (s : CodeSt) (op : Nat) (t : List Nat) : (s.putText op t).buf.length % 2 = 0 := padEven_even _

theorem emit_even {s : CodeSt} {k : Tk} {r : CodeSt × Ctl} (h : s.buf.length % 2 = 0) (he : emitTok false s k = .ok r) :
    r.1.buf.length % 2 = 0 ∧ r.1.vars = s.vars := by
  have hname : k.ty = .name ∨ k.ty = .arrayName ∨ k.ty = .dimArr ∨ k.ty = .arrayActual → r.1.buf.length % 2 = 0 ∧ r.1.vars = s.vars := by
    intro ht
    have e : emitTok false s k = .ok (emitName s k, .next) := by
      unfold emitTok
      rcases ht with ht | ht | ht | ht <;> rw [ht] <;> simp
    rw [e] at he
    cases he
    unfold emitName
    dsimp only
    split
    · exact ⟨put_even _ _ h (by simp), rfl⟩
    · exact ⟨putText_even .., rfl⟩
  have hcmd : k.ty = .command ∨ k.ty = .firstCommand → r.1.buf.length % 2 = 0 ∧ r.1.vars = s.vars := by
    intro ht
    by_cases hc : k.cmd = cmdData
    · have e : emitTok false s k = .ok ({ s with buf := tokData s.buf k.text }, .stop) := by
        unfold emitTok
        rcases ht with ht | ht <;> rw [ht] <;> simp [hc]
      rw [e] at he
      cases he
      exact ⟨padEven_even _, rfl⟩
    · have e : emitTok false s k = .ok (s.put [if k.ty = .firstCommand then bcCommandFirst else bcCommand, k.cmd], .next) := by
        unfold emitTok
        rcases ht with ht | ht <;> rw [ht] <;> simp [hc]
      rw [e] at he
      cases he
      exact ⟨put_even _ _ h (by simp), rfl⟩
  have hnum : k.ty = .baseNumber ∨ k.ty = .number → r.1.buf.length % 2 = 0 ∧ r.1.vars = s.vars := by
    intro ht
    have e : emitTok false s k = (tokNumber k).bind fun n =>
      match numberCode n (k.ty == .number) with
      | none => .ok (s, .fail errOverflow)
      | some l => .ok (s.put l, .next) := by
        unfold emitTok
        rcases ht with ht | ht <;> simp only [ht] <;> rfl
    rw [e] at he
    obtain ⟨n, hn, he⟩ := bind_inv he
    cases hc : numberCode n (k.ty == .number) with
    | none => rw [hc] at he; cases he; exact ⟨h, rfl⟩
    | some l =>
      rw [hc] at he; cases he
      refine ⟨put_even _ _ h ?_, rfl⟩
      unfold numberCode at hc
      split at hc
      · cases hc
      · split at hc
        · cases hc; simp
        · cases hc; simp
  cases ht : k.ty with
  | command => exact hcmd (by simp [ht])
  | firstCommand => exact hcmd (by simp [ht])
  | baseNumber => exact hnum (by simp [ht])
  | number => exact hnum (by simp [ht])
  | name => exact hname (by simp [ht])
  | arrayName => exact hname (by simp [ht])
  | dimArr => exact hname (by simp [ht])
  | arrayActual => exact hname (by simp [ht])
  | string => simp only [emitTok, ht] at he; cases he; exact ⟨putText_even .., rfl⟩
  | label => simp only [emitTok, ht] at he; cases he; exact ⟨putText_even .., rfl⟩
  | labelString => simp only [emitTok, ht] at he; cases he; exact ⟨putText_even .., rfl⟩
  | operation => simp only [emitTok, ht] at he; cases he; exact ⟨put_even _ _ h (by simp), rfl⟩
  | function => simp only [emitTok, ht] at he; cases he; exact ⟨put_even _ _ h (by simp), rfl⟩
  | argCount => simp only [emitTok, ht] at he; cases he; exact ⟨put_even _ _ h (by simp), rfl⟩
  | loopBegin => simp only [emitTok, ht] at he; cases he; exact ⟨put_even _ _ h (by simp), rfl⟩
  | sysvar => simp only [emitTok, ht] at he; cases he; exact ⟨put_even _ _ h (by simp), rfl⟩
  | comment => simp only [emitTok, ht] at he; cases he; exact ⟨h, rfl⟩
  | newline => simp only [emitTok, ht] at he; cases he; exact ⟨h, rfl⟩

theorem codeLoop_shift (b : List Nat) (v : Vars.Table) (h : b.length % 2 = 0) : ∀ (ks : List Tk) (s : CodeSt),
    codeLoop false ks (shift b v s) = shifted b v (codeLoop false ks s)
  | [], s => rfl
  | k :: ks, s => by
    unfold codeLoop
    rw [emit_shift b v s k h]
    cases emitTok false s k with
    | ub => rfl
    | err e => rfl
    | ok r =>
      obtain ⟨s1, c⟩ := r
      cases c with
      | next => exact codeLoop_shift b v h ks s1
      | stop => rfl
      | fail e => rfl

theorem codeLoop_even : ∀ (ks : List Tk) {s : CodeSt} {r : CodeSt × Option Nat}, s.buf.length % 2 = 0 →
    codeLoop false ks s = .ok r → r.1.buf.length % 2 = 0 ∧ r.1.vars = s.vars
  | [], s, r, h, he => by cases he; exact ⟨h, rfl⟩
  | k :: ks, s, r, h, he => by
    unfold codeLoop at he
    obtain ⟨⟨s1, c⟩, h1, he⟩ := bind_inv he
    obtain ⟨e1, e2⟩ := emit_even h h1
    cases c with
    | next =>
      obtain ⟨g1, g2⟩ := codeLoop_even ks e1 he
      exact ⟨g1, g2.trans e2⟩
    | stop => cases he; exact ⟨e1, e2⟩
    | fail e => cases he; exact ⟨e1, e2⟩

theorem tokCode_shift (b : List Nat) (v v0 : Vars.Table) (h : b.length % 2 = 0) (ks : List Tk) :
    tokCode false ks b v = (tokCode false ks [] v0).bind fun r => .ok (b ++ r.1, v, r.2.2) := by
  unfold tokCode
  have e : (⟨b, v, []⟩ : CodeSt) = shift b v ⟨[], v0, []⟩ := by simp [shift]
  rw [e, codeLoop_shift b v h]
  cases codeLoop false ks ⟨[], v0, []⟩ with
  | ub => rfl
  | err e => rfl
  | ok r =>
    obtain ⟨s1, c⟩ := r
    cases c with
    | none =>
      show Out.ok (b ++ s1.buf ++ _, v, none) = Out.ok (b ++ (s1.buf ++ _), v, none)
      rw [List.append_assoc]
      rfl
    | some e => rfl

theorem validations_even (sys : List Nat) : (validations sys).length % 2 = 0 := by
  unfold validations
  induction (List.range 64).filter (fun i => sys.contains i && needsValidate i) with
  | nil => rfl
  | cons a l ih => rw [List.flatMap_cons, List.length_append]; simp only [List.length_cons, List.length_nil]; omega

theorem tokCode_even {ks : List Tk} {b b' : List Nat} {v v' : Vars.Table} {e : Option Nat} (h : b.length % 2 = 0)
    (he : tokCode false ks b v = .ok (b', v', e)) : b'.length % 2 = 0 ∧ v' = v := by
  unfold tokCode at he
  obtain ⟨⟨s1, c⟩, h1, he⟩ := bind_inv he
  obtain ⟨g1, g2⟩ := codeLoop_even ks (s := ⟨b, v, []⟩) h h1
  cases c with
  | none =>
    cases he
    refine ⟨?_, g2⟩
    have := validations_even s1.sys
    show (s1.buf ++ validations s1.sys).length % 2 = 0
    simp only at g1
    rw [List.length_append]
    omega
  | some x => cases he; exact ⟨g1, g2⟩

/-- The statements of a line behind other lines. -/
theorem convertCode_shift (pre : Tk) (toks : List Tk) (o o0 : Obj) (hb : o.buf.length % 2 = 0) (h0 : o0.buf = [])
    (hl : o.lines < o.cap) (hl0 : o0.lines < o0.cap) {r : Obj × Option Nat} (h : convertCode false pre toks o0 = .ok r) :
    ∃ d, d ≤ 1 ∧ convertCode false pre toks o = .ok ({ o with buf := o.buf ++ r.1.buf, lines := o.lines + d }, r.2) ∧
      r.1.buf.length % 2 = 0 ∧ r.1.labels = o0.labels := by
  unfold convertCode at h ⊢
  obtain ⟨ks, hks, h⟩ := bind_inv h
  obtain ⟨e, he, h⟩ := bind_inv h
  rw [hks, ok_bind, he, ok_bind]
  by_cases h1 : e ≠ 0
  · rw [if_pos h1] at h ⊢
    cases h
    refine ⟨0, by omega, ?_, by rw [h0]; rfl, rfl⟩
    simp only [h0, List.append_nil, Nat.add_zero]
  · rw [if_neg h1] at h ⊢
    obtain ⟨x, hx, h⟩ := bind_inv h
    rw [tokCode_shift o.buf o.vars o0.vars hb, ← h0, hx, ok_bind, ok_bind]
    obtain ⟨b', v', c⟩ := x
    obtain ⟨g1, g2⟩ := tokCode_even (by rw [h0]; rfl) hx
    cases c with
    | some c =>
      cases h
      exact ⟨0, by omega, rfl, g1, rfl⟩
    | none =>
      simp only at h ⊢
      rw [if_pos hl0] at h
      rw [if_pos hl]
      cases h
      exact ⟨1, by omega, rfl, g1, rfl⟩

end Sbc.Tok.Spec
