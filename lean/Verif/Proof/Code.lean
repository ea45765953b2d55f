import Verif.Spec.Bytecode
import Mathlib.Data.List.Forall2
set_option autoImplicit false
namespace Sbc.Tok.Spec
open Sbc Sbc.Tok

theorem bind_inv {α β : Type} {x : Out α} {f : α → Out β} {r : β} (h : x.bind f = .ok r) : ∃ a, x = .ok a ∧ f a = .ok r := by
  cases x with
  | ok a => exact ⟨a, rfl, h⟩
  | err e => cases h
  | ub => cases h

theorem padText_even (l : List Nat) : (padText l).length % 2 = 0 := by
  unfold padText
  split
  · simp only [List.length_append, List.length_singleton]; omega
  · omega

theorem padText_length (l : List Nat) : (padText l).length = l.length + l.length % 2 := by
  unfold padText
  split
  · simp only [List.length_append, List.length_singleton]; omega
  · omega

theorem bytes_even (i : Instr) : i.bytes.length % 2 = 0 := by
  cases i with
  | simple => simp [Instr.bytes]
  | num => simp [Instr.bytes]
  | varId => simp [Instr.bytes]
  | text op l => have := padText_even l; simp only [Instr.bytes, List.length_cons]; omega
  | named op l => have := padText_even l; simp only [Instr.bytes, List.length_cons]; omega

theorem encode_append (a b : List Instr) : encode (a ++ b) = encode a ++ encode b := List.flatMap_append

theorem encode_cons (i : Instr) (b : List Instr) : encode (i :: b) = i.bytes ++ encode b := List.flatMap_cons

theorem encode_even (p : List Instr) : (encode p).length % 2 = 0 := by
  induction p with
  | nil => rfl
  | cons i p ih =>
    have := bytes_even i
    rw [encode_cons, List.length_append]; omega

theorem bytes_two (i : Instr) : ∃ len r, i.bytes = i.op :: len :: r := by
  cases i <;> exact ⟨_, _, rfl⟩

/-- The scanner advances by the length of the instruction. -/
theorem advance_bytes (i : Instr) (h : i.WF) : ∃ len r, i.bytes = i.op :: len :: r ∧ scanAdvance i.op len = i.bytes.length := by
  cases i with
  | simple op arg =>
    obtain ⟨h1, h2, h3, h4, h5⟩ := h
    refine ⟨_, _, rfl, ?_⟩
    show scanAdvance op arg = 2
    unfold scanAdvance
    rw [h1, if_neg (by simp), if_neg h2]
    by_cases hn : hasName op = true
    · rw [if_pos hn, if_neg (by have := h5 hn; omega)]
    · rw [if_neg hn, if_neg h3, if_neg h4]
  | num => exact ⟨_, _, rfl, rfl⟩
  | varId => exact ⟨_, _, rfl, rfl⟩
  | text op l =>
    refine ⟨_, _, rfl, ?_⟩
    simp only [Instr.op, Instr.bytes, scanAdvance, h.1, if_true, List.length_cons, padText_length]
    omega
  | named op l =>
    obtain ⟨h1, h2⟩ := h
    refine ⟨_, _, rfl, ?_⟩
    have hn : hasText op = false ∧ op ≠ bcWideString := by
      simp only [hasName, Bool.or_eq_true, beq_iff_eq] at h1
      rcases h1 with (rfl | rfl) | rfl <;> decide
    show scanAdvance op l.length = (op :: l.length :: padText l).length
    unfold scanAdvance
    rw [hn.1, if_neg (by simp), if_neg hn.2, if_pos h1, if_pos (by omega)]
    simp only [List.length_cons, padText_length]
    omega

theorem get_mid (a b : List Nat) (x : Nat) (r : List Nat) (h : b = x :: r) : (a ++ b)[a.length]? = some x := by
  subst h; simp

theorem get_mid1 (a b : List Nat) (x y : Nat) (r : List Nat) (h : b = x :: y :: r) : (a ++ b)[a.length + 1]? = some y := by
  subst h
  rw [List.getElem?_append_right (by omega)]
  simp

/-- Position of the last instruction of `c`, which follows `a`. -/
def lastPos (a c : List Instr) (prev : Option Nat) : Option Nat := if c = [] then prev else some (posAfter (a ++ c.dropLast))

/-- Scanning from the boundary between `a` and `b`. -/
theorem scanPair_spec (find : Nat) : (b : List Instr) → (a : List Instr) → (fuel : Nat) → (prev : Option Nat) →
    (∀ i ∈ b, i.WF) → (encode b).length < fuel →
    scanPair (encode (a ++ b)) find fuel prev (posAfter a) = match splitAt find b with
      | none => .ok (lastPos a b prev, none)
      | some (c, _, _) => .ok (lastPos a c prev, some (posAfter (a ++ c)))
  | [], a, 0, _, _, hf => absurd hf (Nat.not_lt_zero _)
  | _ :: _, a, 0, _, _, hf => absurd hf (Nat.not_lt_zero _)
  | [], a, fuel + 1, prev, _, _ => by
    have : (encode (a ++ []))[posAfter a]? = none := by
      rw [List.append_nil]; exact List.getElem?_eq_none (Nat.le_refl _)
    simp only [scanPair, this, splitAt, lastPos, if_true]
  | i :: b, a, fuel + 1, prev, hw, hf => by
    obtain ⟨len, r, hb, hadv⟩ := advance_bytes i (hw i (by simp))
    have e0 : encode (a ++ i :: b) = encode a ++ (i.op :: len :: (r ++ encode b)) := by
      rw [encode_append, encode_cons, hb]; rfl
    have g0 : (encode (a ++ i :: b))[posAfter a]? = some i.op := by rw [e0]; exact get_mid _ _ _ _ rfl
    have g1 : (encode (a ++ i :: b))[posAfter a + 1]? = some len := by rw [e0]; exact get_mid1 _ _ _ _ _ rfl
    simp only [scanPair, g0, splitAt]
    by_cases h : i.op = find
    · simp only [h, if_true, lastPos, List.append_nil]
    · rw [if_neg h, if_neg h]
      simp only [g1]
      have hl : i.bytes.length + (encode b).length < fuel + 1 := by
        rw [encode_cons, List.length_append] at hf; exact hf
      have h2 : 2 ≤ i.bytes.length := by rw [hb]; simp
      have hpos : posAfter a + scanAdvance i.op len = posAfter (a ++ [i]) := by
        unfold posAfter
        rw [hadv, encode_append, List.length_append]
        simp [encode]
      rw [hpos, show a ++ i :: b = (a ++ [i]) ++ b by simp,
        scanPair_spec find b (a ++ [i]) fuel (some (posAfter a)) (fun j hj => hw j (by simp [hj])) (by omega)]
      cases hs : splitAt find b with
      | none =>
        simp only [Option.map_none]
        cases b with
        | nil => simp [lastPos]
        | cons j b => simp [lastPos]
      | some x =>
        obtain ⟨c, x1, d⟩ := x
        simp only [Option.map_some]
        cases c with
        | nil => simp [lastPos]
        | cons j c => simp [lastPos]

/-! ## Emission -/

/-- What the lexer delivers: texts of at most 255 characters, names of 1 to 64 characters starting with a letter or
an underscore; and a DATA line of at most 255 characters once compiled. -/
def tokFits (k : Tk) : Prop :=
  match k.ty with
  | .string | .label | .labelString => k.text.length ≤ 255
  | .name | .arrayName | .arrayActual | .dimArr => k.text.length ≤ 64 ∧ ∃ c r, k.text = c :: r ∧ 65 ≤ c
  | .command | .firstCommand => k.cmd = cmdData → (dataLoop .none k.text).length ≤ 255
  | _ => True

theorem padEven_text (buf text : List Nat) (op : Nat) (h : buf.length % 2 = 0) :
    padEven (buf ++ op :: text.length % 256 :: text) = buf ++ op :: text.length % 256 :: padText text := by
  unfold padEven padText
  have e : (buf ++ op :: text.length % 256 :: text).length % 2 = text.length % 2 := by
    simp only [List.length_append, List.length_cons]; omega
  rw [e]
  split
  · simp
  · rfl

theorem putText_bytes (s : CodeSt) (op : Nat) (text : List Nat) (h : s.buf.length % 2 = 0) (hl : text.length ≤ 255) :
    (s.putText op text).buf = s.buf ++ (Instr.text op text).bytes := by
  unfold CodeSt.putText
  simp only [Instr.bytes]
  rw [padEven_text _ _ _ h, Nat.mod_eq_of_lt (show text.length < 256 by omega)]

theorem numberCode_bytes (n : Int) (b : Bool) (l : List Nat) (h : numberCode n b = some l) :
    ∃ i : Instr, l = i.bytes ∧ i.WF ∧ ((∃ v < 100, i = .simple bcSmallNumber v) ∨ ∃ a b c d, i = .num a b c d) := by
  unfold numberCode at h
  split at h
  · rename_i h1
    simp at h
  · split at h
    · rename_i h1 h2
      injection h with h
      subst h
      refine ⟨.simple bcSmallNumber _, rfl, ?_, Or.inl ⟨_, ?_, rfl⟩⟩
      · simp [Instr.WF, hasText, hasName, bcSmallNumber, bcString, bcLabel, bcLabelString, bcData, bcWideString, bcNumber,
          bcVariableId, bcDim, bcVariableName, bcArrayName]
      · omega
    · injection h with h
      subst h
      exact ⟨.num _ _ _ _, rfl, trivial, Or.inr ⟨_, _, _, _, rfl⟩⟩

theorem simple_WF (op arg : Nat) (h : op ∈ [bcCommand, bcCommandFirst, bcOperator, bcFunction, bcArgcount, bcBeginLoop,
    bcSysvar, bcSysvarValidate, bcVariableIdSmall, bcError]) : (Instr.simple op arg).WF := by
  simp only [List.mem_cons, List.not_mem_nil, or_false] at h
  rcases h with rfl | rfl | rfl | rfl | rfl | rfl | rfl | rfl | rfl | rfl <;>
    (refine ⟨by decide, by decide, by decide, by decide, fun h => absurd h (by decide)⟩)

/-- One token: one instruction, nothing, or an error with nothing written. -/
theorem emit_spec (ids : Bool) (s s' : CodeSt) (k : Tk) (c : Ctl) (he : s.buf.length % 2 = 0) (hk : tokFits k)
    (h : emitTok ids s k = .ok (s', c)) :
    (c ≠ .stop ∧ (∀ e, c ≠ .fail e) ∧ ∃ i : Instr, i.WF ∧ represents k i ∧ s'.buf = s.buf ++ i.bytes) ∨
    (c = .stop ∧ k.cmd = cmdData ∧ ∃ i : Instr, i.WF ∧ represents k i ∧ s'.buf = s.buf ++ i.bytes) ∨
    (c = .stop ∧ k.ty = .comment ∧ s'.buf = s.buf) ∨ ((∃ e, c = .fail e) ∧ s'.buf = s.buf) := by
  have go : ∀ (i : Instr) (s1 : CodeSt), i.WF → represents k i → s1.buf = s.buf ++ i.bytes → s1 = s' → c = .next →
      (c ≠ .stop ∧ (∀ e, c ≠ .fail e) ∧ ∃ i : Instr, i.WF ∧ represents k i ∧ s'.buf = s.buf ++ i.bytes) := by
    intro i s1 h1 h2 h3 h4 h5
    subst h4; subst h5
    exact ⟨by simp, by simp, i, h1, h2, h3⟩
  unfold emitTok at h
  unfold tokFits at hk
  have cmdcase : ∀ (first : Bool), k.ty = (if first then .firstCommand else .command) →
      (if k.cmd = cmdData then Out.ok ({ s with buf := tokData s.buf k.text }, Ctl.stop)
        else Out.ok (s.put [if k.ty = .firstCommand then bcCommandFirst else bcCommand, k.cmd], Ctl.next)) = .ok (s', c) →
      (k.cmd = cmdData → (dataLoop .none k.text).length ≤ 255) →
      (c ≠ .stop ∧ (∀ e, c ≠ .fail e) ∧ ∃ i : Instr, i.WF ∧ represents k i ∧ s'.buf = s.buf ++ i.bytes) ∨
      (c = .stop ∧ k.cmd = cmdData ∧ ∃ i : Instr, i.WF ∧ represents k i ∧ s'.buf = s.buf ++ i.bytes) ∨
      (c = .stop ∧ k.ty = .comment ∧ s'.buf = s.buf) ∨ ((∃ e, c = .fail e) ∧ s'.buf = s.buf) := by
    intro first hty h hk
    by_cases hd : k.cmd = cmdData
    · rw [if_pos hd] at h
      cases h
      right; left
      refine ⟨rfl, hd, .text bcData (dataLoop .none k.text), ⟨by decide, hk hd⟩, ?_, ?_⟩
      · unfold represents
        cases first <;> (simp only [hty]; simp [hd])
      · have := putText_bytes s bcData (dataLoop .none k.text) he (hk hd)
        exact this
    · rw [if_neg hd] at h
      cases h
      left
      cases first
      · refine go (.simple bcCommand k.cmd) _ (simple_WF _ _ (by decide)) ?_ ?_ rfl rfl
        · unfold represents; simp only [hty]; simp [hd]
        · simp [CodeSt.put, hty, Instr.bytes]
      · refine go (.simple bcCommandFirst k.cmd) _ (simple_WF _ _ (by decide)) ?_ ?_ rfl rfl
        · unfold represents; simp only [hty]; simp [hd]
        · simp [CodeSt.put, hty, Instr.bytes]
  have numcase : ((tokNumber k).bind fun n =>
      match numberCode n (k.ty == .number) with
      | none => Out.ok (s, Ctl.fail errOverflow)
      | some l => Out.ok (s.put l, Ctl.next)) = .ok (s', c) → (k.ty = .number ∨ k.ty = .baseNumber) →
      (c ≠ .stop ∧ (∀ e, c ≠ .fail e) ∧ ∃ i : Instr, i.WF ∧ represents k i ∧ s'.buf = s.buf ++ i.bytes) ∨
      (c = .stop ∧ k.cmd = cmdData ∧ ∃ i : Instr, i.WF ∧ represents k i ∧ s'.buf = s.buf ++ i.bytes) ∨
      (c = .stop ∧ k.ty = .comment ∧ s'.buf = s.buf) ∨ ((∃ e, c = .fail e) ∧ s'.buf = s.buf) := by
    intro h hty
    obtain ⟨n, hn, h⟩ := bind_inv h
    cases hc : numberCode n (k.ty == .number) with
    | none =>
      rw [hc] at h
      cases h
      exact Or.inr (Or.inr (Or.inr ⟨⟨_, rfl⟩, rfl⟩))
    | some l =>
      rw [hc] at h
      cases h
      obtain ⟨i, h1, h2, h3⟩ := numberCode_bytes _ _ _ hc
      left
      refine go i _ h2 ?_ (by rw [← h1]; rfl) rfl rfl
      unfold represents
      rcases hty with hty | hty <;> (simp only [hty]; exact h3)
  have namecase : (k.ty = .name ∨ k.ty = .arrayName ∨ k.ty = .arrayActual ∨ k.ty = .dimArr) →
      (if ids = true ∧ k.ty ≠ .dimArr then emitId s k else Out.ok (emitName s k, Ctl.next)) = .ok (s', c) →
      k.text.length ≤ 64 → (∃ c r, k.text = c :: r ∧ 65 ≤ c) →
      (c ≠ .stop ∧ (∀ e, c ≠ .fail e) ∧ ∃ i : Instr, i.WF ∧ represents k i ∧ s'.buf = s.buf ++ i.bytes) ∨
      (c = .stop ∧ k.cmd = cmdData ∧ ∃ i : Instr, i.WF ∧ represents k i ∧ s'.buf = s.buf ++ i.bytes) ∨
      (c = .stop ∧ k.ty = .comment ∧ s'.buf = s.buf) ∨ ((∃ e, c = .fail e) ∧ s'.buf = s.buf) := by
    intro hty h hl ⟨x, r, hx, hx65⟩
    have hrep : ∀ i : Instr, ((∃ c, k.text = [c] ∧ i = .simple (if k.ty = .dimArr then bcDim else if k.ty = .arrayActual then bcArrayName else bcVariableName) c) ∨
        i = .named (if k.ty = .dimArr then bcDim else if k.ty = .arrayActual then bcArrayName else bcVariableName) k.text ∨
        (∃ id, i = .simple bcVariableIdSmall id) ∨ ∃ a b c, i = .varId a b c) → represents k i := by
      intro i hi
      unfold represents
      rcases hty with e | e | e | e <;> (rw [e] at hi ⊢; exact hi)
    split at h
    · unfold emitId at h
      simp only [] at h
      split at h
      · cases h
      · cases h
        exact Or.inr (Or.inr (Or.inr ⟨⟨_, rfl⟩, rfl⟩))
      · split at h
        · cases h
          left
          exact go (.simple bcVariableIdSmall _) _ (simple_WF _ _ (by decide)) (hrep _ (Or.inr (Or.inr (Or.inl ⟨_, rfl⟩)))) rfl rfl rfl
        · split at h
          · cases h
            exact Or.inr (Or.inr (Or.inr ⟨⟨_, rfl⟩, rfl⟩))
          · cases h
            left
            exact go (.varId _ _ _) _ trivial (hrep _ (Or.inr (Or.inr (Or.inr ⟨_, _, _, rfl⟩)))) rfl rfl rfl
    · cases h
      left
      have hop : hasName (if k.ty = .dimArr then bcDim else if k.ty = .arrayActual then bcArrayName else bcVariableName) = true := by
        split
        · decide
        · split <;> decide
      cases hr : r with
      | nil =>
        rw [hr] at hx
        refine go (.simple (if k.ty = .dimArr then bcDim else if k.ty = .arrayActual then bcArrayName else bcVariableName) x)
          _ ?_ (hrep _ (Or.inl ⟨_, hx, rfl⟩)) ?_ rfl rfl
        · refine ⟨?_, ?_, ?_, ?_, fun _ => hx65⟩
          all_goals
            split
            · decide
            · split <;> decide
        · unfold emitName; rw [hx]; rfl
      | cons y r' =>
        refine go (.named (if k.ty = .dimArr then bcDim else if k.ty = .arrayActual then bcArrayName else bcVariableName) k.text)
          _ ⟨hop, hl⟩ (hrep _ (Or.inr (Or.inl rfl))) ?_ rfl rfl
        have e : emitName s k = s.putText (if k.ty = .dimArr then bcDim else if k.ty = .arrayActual then bcArrayName else bcVariableName) k.text := by
          unfold emitName; rw [hx, hr]
        rw [e, putText_bytes s _ _ he (by omega)]
        rfl
  cases hty : k.ty with
  | number => rw [hty] at h; exact hty ▸ numcase (by rw [hty]; exact h) (Or.inl hty)
  | baseNumber => rw [hty] at h; exact hty ▸ numcase (by rw [hty]; exact h) (Or.inr hty)
  | command => rw [hty] at h hk; exact hty ▸ cmdcase false hty (by rw [hty]; exact h) hk
  | firstCommand => rw [hty] at h hk; exact hty ▸ cmdcase true hty (by rw [hty]; exact h) hk
  | string =>
    rw [hty] at h hk; cases h
    exact Or.inl (go (.text bcString k.text) _ ⟨by decide, hk⟩ (by unfold represents; rw [hty]) (putText_bytes s _ _ he hk) rfl rfl)
  | label =>
    rw [hty] at h hk; cases h
    exact Or.inl (go (.text bcLabel k.text) _ ⟨by decide, hk⟩ (by unfold represents; rw [hty]) (putText_bytes s _ _ he hk) rfl rfl)
  | labelString =>
    rw [hty] at h hk; cases h
    exact Or.inl (go (.text bcLabelString k.text) _ ⟨by decide, hk⟩ (by unfold represents; rw [hty]) (putText_bytes s _ _ he hk) rfl rfl)
  | operation =>
    rw [hty] at h; cases h
    exact Or.inl (go (.simple bcOperator _) _ (simple_WF _ _ (by decide)) (by unfold represents; rw [hty]) rfl rfl rfl)
  | function =>
    rw [hty] at h; cases h
    exact Or.inl (go (.simple bcFunction _) _ (simple_WF _ _ (by decide)) (by unfold represents; rw [hty]) rfl rfl rfl)
  | argCount =>
    rw [hty] at h; cases h
    exact Or.inl (go (.simple bcArgcount _) _ (simple_WF _ _ (by decide)) (by unfold represents; rw [hty]) rfl rfl rfl)
  | loopBegin =>
    rw [hty] at h; cases h
    exact Or.inl (go (.simple bcBeginLoop _) _ (simple_WF _ _ (by decide)) (by unfold represents; rw [hty]) rfl rfl rfl)
  | sysvar =>
    rw [hty] at h; cases h
    exact Or.inl (go (.simple bcSysvar _) _ (simple_WF _ _ (by decide)) (by unfold represents; rw [hty]) rfl rfl rfl)
  | comment => rw [hty] at h; cases h; exact Or.inr (Or.inr (Or.inl ⟨rfl, rfl, rfl⟩))
  | newline => rw [hty] at h; cases h; exact Or.inr (Or.inr (Or.inr ⟨⟨_, rfl⟩, rfl⟩))
  | name => rw [hty] at h hk; exact hty ▸ namecase (by simp [hty]) (by rw [hty]; exact h) hk.1 hk.2
  | arrayName => rw [hty] at h hk; exact hty ▸ namecase (by simp [hty]) (by rw [hty]; exact h) hk.1 hk.2
  | arrayActual => rw [hty] at h hk; exact hty ▸ namecase (by simp [hty]) (by rw [hty]; exact h) hk.1 hk.2
  | dimArr => rw [hty] at h hk; exact hty ▸ namecase (by simp [hty]) (by rw [hty]; exact h) hk.1 hk.2

/-- The loop over a line. -/
theorem codeLoop_spec (ids : Bool) : (ks : List Tk) → (s s' : CodeSt) → (e : Option Nat) → s.buf.length % 2 = 0 →
    (∀ k ∈ ks, tokFits k) → codeLoop ids ks s = .ok (s', e) →
    ∃ js : List Instr, js.length ≤ ks.length ∧ List.Forall₂ represents (ks.take js.length) js ∧ (∀ i ∈ js, i.WF) ∧ s'.buf = s.buf ++ encode js ∧
      (e = none → js.length = ks.length ∨ (∃ k, ks[js.length]? = some k ∧ k.ty = .comment) ∨
        ∃ n k, js.length = n + 1 ∧ ks[n]? = some k ∧ k.cmd = cmdData)
  | [], s, s', e, _, _, h => by
    cases h
    exact ⟨[], by simp, by simp, by simp, by simp [encode], fun _ => Or.inl rfl⟩
  | k :: ks, s, s', e, he, hk, h => by
    simp only [codeLoop] at h
    obtain ⟨⟨s1, c⟩, h1, h⟩ := bind_inv h
    rcases emit_spec ids s s1 k c he (hk k (by simp)) h1 with ⟨c1, c2, i, hw, hr, hb⟩ | ⟨rfl, hd, i, hw, hr, hb⟩ | ⟨rfl, hc, hb⟩ | ⟨⟨x, rfl⟩, hb⟩
    · cases c with
      | stop => exact absurd rfl c1
      | fail x => exact absurd rfl (c2 x)
      | next =>
        have hbe := bytes_even i
        obtain ⟨js, j0, j1, j2, j3, j4⟩ := codeLoop_spec ids ks s1 s' e (by rw [hb, List.length_append]; omega)
          (fun x hx => hk x (by simp [hx])) h
        refine ⟨i :: js, by simp only [List.length_cons]; omega, by simpa using ⟨hr, j1⟩, by simpa using ⟨hw, j2⟩, ?_, ?_⟩
        · rw [j3, hb, encode_cons, List.append_assoc]
        · intro h0
          rcases j4 h0 with h' | ⟨y, h', hy⟩ | ⟨n, y, hn, h', hy⟩
          · left; simp [h']
          · right; left; exact ⟨y, by simpa using h', hy⟩
          · right; right; exact ⟨n + 1, y, by simp [hn], by simpa using h', hy⟩
    · cases h
      exact ⟨[i], by simp, by simpa using hr, by simpa using hw, by simp [encode, hb], fun _ => Or.inr (Or.inr ⟨0, k, by simp, by simp, hd⟩)⟩
    · cases h
      exact ⟨[], by simp, by simp, by simp, by simp [encode, hb], fun _ => Or.inr (Or.inl ⟨k, by simp, hc⟩)⟩
    · cases h
      exact ⟨[], by simp, by simp, by simp, by simp [encode, hb], fun h => by cases h⟩

end Sbc.Tok.Spec
