import Verif.Proof.CompileFit
import Mathlib.Data.List.Perm.Subperm
set_option autoImplicit false
/-!
# How long the code gets

Every token of a line is given a weight, a bound of the number of bytes written for it.  The lexer spends three units for
every character it reads, and the passes of the compiler do not increase the weight.
-/
namespace Sbc.Tok.Spec
open Sbc Sbc.Tok

/-- Names: one character, or length and characters; a long index. -/
def wName (w : List Nat) : Nat := if w.length = 1 ∧ w ≠ [36] then 2 else w.length + 4

/-- Constants of one character are below ten. -/
def wNum : List Nat → Nat
  | [c] => if isDigit c || c == 46 then 2 else 6
  | _ => 6

theorem wNum_cases (w : List Nat) : wNum w = 6 ∨ ∃ c, w = [c] ∧ (isDigit c || c == 46) = true := by
  unfold wNum
  split
  · rename_i c
    split
    · rename_i h; exact Or.inr ⟨c, rfl, h⟩
    · exact Or.inl rfl
  · exact Or.inl rfl

/-- The bytes written for a token (the validation of a system variable included). -/
def wOut (t : Tk) : Nat :=
  match t.ty with
  | .command | .firstCommand => if t.cmd = cmdData then t.text.length + 3 else 2
  | .number => wNum t.text
  | .baseNumber => 6
  | .string | .label | .labelString => t.text.length + 3
  | .operation | .function | .argCount | .loopBegin => 2
  | .sysvar => 4
  | .name | .arrayName | .dimArr | .arrayActual => wName t.text
  | .comment | .newline => 0

/-- FOR and IF add an instruction at the end of the statement or line. -/
def wIn (t : Tk) : Nat := wOut t + if t.ty = .command ∧ (t.cmd = cmdFor ∨ t.cmd = cmdIf) then 2 else 0

def sumOut (l : List Tk) : Nat := (l.map wOut).sum
def sumIn (l : List Tk) : Nat := (l.map wIn).sum

theorem sumOut_cons (t : Tk) (l : List Tk) : sumOut (t :: l) = wOut t + sumOut l := by simp [sumOut]
theorem sumIn_cons (t : Tk) (l : List Tk) : sumIn (t :: l) = wIn t + sumIn l := by simp [sumIn]
theorem sumOut_append (a b : List Tk) : sumOut (a ++ b) = sumOut a + sumOut b := by simp [sumOut]
theorem sumIn_append (a b : List Tk) : sumIn (a ++ b) = sumIn a + sumIn b := by simp [sumIn]
theorem sumIn_reverse (l : List Tk) : sumIn l.reverse = sumIn l := by
  induction l with
  | nil => rfl
  | cons t l ih => rw [List.reverse_cons, sumIn_append, ih, sumIn_cons, sumIn_cons]; simp [sumIn]; omega
theorem sumOut_single (t : Tk) : sumOut [t] = wOut t := by simp [sumOut]
theorem sumIn_single (t : Tk) : sumIn [t] = wIn t := by simp [sumIn]

theorem wIn_prio (t : Tk) (p : Nat) : wIn { t with prio := p } = wIn t := rfl

theorem wIn_op {t : Tk} (h : t.ty = .operation) : wIn t = 2 := by
  unfold wIn wOut; rw [h]; rfl

/-! ## The emitter -/

theorem padEven_le (l : List Nat) : (padEven l).length ≤ l.length + 1 := by
  unfold padEven
  split
  · simp
  · omega

theorem dataLoop_short : ∀ (l : List Nat) (s : DataSt), (dataLoop s l).length ≤ l.length
  | [], s => by simp [dataLoop]
  | c :: l, s => by
    unfold dataLoop
    have := dataLoop_short l (dataStep s c).1
    split
    · simp only [List.length_cons]; omega
    · simp only [List.length_cons]; omega

theorem tokData_le (buf text : List Nat) : (tokData buf text).length ≤ buf.length + text.length + 3 := by
  unfold tokData
  have h1 := dataLoop_short text .none
  have h2 := padEven_le (buf ++ bcData :: (dataLoop .none text).length % 256 :: dataLoop .none text)
  simp only [List.length_append, List.length_cons] at h2
  dsimp only
  omega

theorem putText_le (s : CodeSt) (op : Nat) (text : List Nat) :
    (s.putText op text).buf.length ≤ s.buf.length + text.length + 3 ∧ (s.putText op text).sys = s.sys := by
  unfold CodeSt.putText
  have h2 := padEven_le (s.buf ++ op :: text.length % 256 :: text)
  simp only [List.length_append, List.length_cons] at h2
  exact ⟨by dsimp only; omega, rfl⟩

theorem put_length (s : CodeSt) (l : List Nat) : (s.put l).buf.length = s.buf.length + l.length := by simp [CodeSt.put]

/-- What has been written, with the validations to come. -/
def room (s : CodeSt) : Nat := s.buf.length + 2 * s.sys.length

theorem room_put (s : CodeSt) (l : List Nat) : room (s.put l) = room s + l.length := by
  unfold room; rw [put_length]; show _ + 2 * s.sys.length = _; omega

theorem room_putText (s : CodeSt) (op : Nat) (text : List Nat) : room (s.putText op text) ≤ room s + text.length + 3 := by
  unfold room
  obtain ⟨h1, h2⟩ := putText_le s op text
  rw [h2]; omega

theorem numberCode_le {n : Int} {b : Bool} {l : List Nat} (h : numberCode n b = some l) : l.length ≤ 6 := by
  unfold numberCode at h
  split at h
  · cases h
  · split at h
    · cases h; simp
    · cases h; simp

/-- Constants of one character. -/
theorem digit_code {c : Nat} (h : (isDigit c || c == 46) = true) (b : Bool) :
    ∃ n l, Num.strToNumber ([c].map Strs.toWide) 10 true = .ok n ∧ numberCode n b = some l ∧ l.length = 2 := by
  have hc : c = 46 ∨ (48 ≤ c ∧ c ≤ 57) := by
    simp only [isDigit, Bool.or_eq_true, Bool.and_eq_true, decide_eq_true_eq, beq_iff_eq] at h
    omega
  have hc : c = 46 ∨ c = 48 ∨ c = 49 ∨ c = 50 ∨ c = 51 ∨ c = 52 ∨ c = 53 ∨ c = 54 ∨ c = 55 ∨ c = 56 ∨ c = 57 := by omega
  have key : ∀ n, (bitsDiffer n = false) → (n ≥ 0 ∧ n < 409600 ∧ n % 4096 = 0) → Num.strToNumber ([c].map Strs.toWide) 10 true = .ok n →
      ∃ n l, Num.strToNumber ([c].map Strs.toWide) 10 true = .ok n ∧ numberCode n b = some l ∧ l.length = 2 := by
    intro n h1 h2 h3
    refine ⟨n, [bcSmallNumber, ((n / 4096) % 256).toNat], h3, ?_, rfl⟩
    unfold numberCode
    rw [if_neg (by rw [h1]; simp), if_pos h2]
  rcases hc with rfl | rfl | rfl | rfl | rfl | rfl | rfl | rfl | rfl | rfl | rfl
  · exact key 0 (by decide) (by decide) (by decide +kernel)
  · exact key 0 (by decide) (by decide) (by decide +kernel)
  · exact key 4096 (by decide) (by decide) (by decide +kernel)
  · exact key 8192 (by decide) (by decide) (by decide +kernel)
  · exact key 12288 (by decide) (by decide) (by decide +kernel)
  · exact key 16384 (by decide) (by decide) (by decide +kernel)
  · exact key 20480 (by decide) (by decide) (by decide +kernel)
  · exact key 24576 (by decide) (by decide) (by decide +kernel)
  · exact key 28672 (by decide) (by decide) (by decide +kernel)
  · exact key 32768 (by decide) (by decide) (by decide +kernel)
  · exact key 36864 (by decide) (by decide) (by decide +kernel)

theorem emitId_le {s : CodeSt} {k : Tk} {r : CodeSt × Ctl} (h : emitId s k = .ok r) : room r.1 ≤ room s + wName k.text := by
  unfold emitId at h
  dsimp only at h
  have w2 : 2 ≤ wName k.text := by unfold wName; split <;> omega
  split at h
  · cases h
  · cases h; show room s ≤ _; omega
  · split at h
    · cases h
      rw [room_put]
      show room s + 2 ≤ _
      omega
    · split at h
      · cases h; show room s ≤ _; omega
      · rename_i hn
        cases h
        rw [room_put]
        show room s + 4 ≤ _
        unfold wName
        split
        · rename_i hw
          exfalso
          obtain ⟨c, hc⟩ := List.length_eq_one_iff.mp hw.1
          apply hn
          unfold idName
          rw [hc] at hw ⊢
          rw [if_neg]
          · rfl
          · intro he
            simp only [List.getLast?_singleton, Option.some.injEq] at he
            rw [he] at hw
            exact hw.2 rfl
        · omega

theorem emitName_le (s : CodeSt) (k : Tk) : room (emitName s k) ≤ room s + wName k.text := by
  have w2 : 2 ≤ wName k.text := by unfold wName; split <;> omega
  unfold emitName
  dsimp only
  generalize (if k.ty = .dimArr then bcDim else if k.ty = .arrayActual then bcArrayName else bcVariableName) = op
  split
  · rw [room_put]
    show room s + 2 ≤ _
    omega
  · rename_i hk
    have := room_putText s op k.text
    unfold wName
    rw [if_neg]
    · omega
    · rintro ⟨h1, -⟩
      obtain ⟨c, hc⟩ := List.length_eq_one_iff.mp h1
      exact hk c hc

theorem emitTok_le {ids : Bool} {s : CodeSt} {k : Tk} {r : CodeSt × Ctl} (h : emitTok ids s k = .ok r) : room r.1 ≤ room s + wOut k := by
  unfold emitTok at h
  have two : ∀ a b, (s.put [a, b], Ctl.next) = r → 2 ≤ wOut k → room r.1 ≤ room s + wOut k := by
    intro a b e hw
    rw [← e, room_put]
    show room s + 2 ≤ _
    omega
  have num : ∀ b : Bool, k.ty = .number ∨ k.ty = .baseNumber → ((tokNumber k).bind fun n =>
      match numberCode n b with
      | none => Out.ok (s, Ctl.fail errOverflow)
      | some l => .ok (s.put l, .next)) = .ok r → room r.1 ≤ room s + wOut k := by
    intro b hk h
    obtain ⟨n, hn, h⟩ := bind_inv h
    split at h
    · cases h; show room s ≤ _; omega
    · rename_i l hl
      cases h
      rw [room_put]
      have h6 := numberCode_le hl
      suffices l.length ≤ wOut k by omega
      unfold wOut
      rcases hk with hk | hk
      · rw [hk]
        show _ ≤ wNum k.text
        rcases wNum_cases k.text with h' | ⟨c, hc, hd⟩
        · rw [h']; exact h6
        · obtain ⟨n', l', e1, e2, e3⟩ := digit_code hd b
          unfold tokNumber at hn
          rw [hk] at hn
          dsimp only at hn
          rw [hc, e1] at hn
          cases hn
          rw [e2] at hl
          cases hl
          rw [e3, hc]
          have : wNum [c] = 2 := if_pos hd
          omega
      · rw [hk]; exact h6
  have hw : ∀ t, k.ty = t → wOut k = wOut { k with ty := t } := by rintro t rfl; rfl
  have cmd : ∀ q : Nat, k.ty = .command ∨ k.ty = .firstCommand →
      (if k.cmd = cmdData then Out.ok ({ s with buf := tokData s.buf k.text }, Ctl.stop)
        else .ok (s.put [q, k.cmd], .next)) = .ok r → room r.1 ≤ room s + wOut k := by
    intro q hk h
    have e : wOut k = if k.cmd = cmdData then k.text.length + 3 else 2 := by
      unfold wOut; rcases hk with hk | hk <;> rw [hk]
    split at h
    · rename_i hd
      cases h
      rw [e, if_pos hd]
      have := tokData_le s.buf k.text
      show (tokData s.buf k.text).length + 2 * s.sys.length ≤ s.buf.length + 2 * s.sys.length + _
      omega
    · rename_i hd
      cases h
      rw [e, if_neg hd, room_put]; exact Nat.le_refl _
  have name : k.ty = .name ∨ k.ty = .arrayName ∨ k.ty = .dimArr ∨ k.ty = .arrayActual →
      (if ids = true ∧ k.ty ≠ .dimArr then emitId s k else .ok (emitName s k, .next)) = .ok r → room r.1 ≤ room s + wOut k := by
    intro hk h
    have e : wOut k = wName k.text := by unfold wOut; rcases hk with hk | hk | hk | hk <;> rw [hk]
    rw [e]
    split at h
    · exact emitId_le h
    · cases h; exact emitName_le s k
  have text : ∀ op, k.ty = .string ∨ k.ty = .label ∨ k.ty = .labelString → Out.ok (s.putText op k.text, Ctl.next) = .ok r → room r.1 ≤ room s + wOut k := by
    intro op hk h
    have e : wOut k = k.text.length + 3 := by unfold wOut; rcases hk with hk | hk | hk <;> rw [hk]
    cases h
    rw [e]
    have := room_putText s op k.text
    show room (s.putText op k.text) ≤ _
    omega
  cases hk : k.ty with
  | command => rw [hk] at h; exact cmd _ (Or.inl hk) h
  | firstCommand => rw [hk] at h; exact cmd _ (Or.inr hk) h
  | baseNumber => rw [hk] at h; exact num _ (Or.inr hk) h
  | number => rw [hk] at h; exact num _ (Or.inl hk) h
  | string => rw [hk] at h; exact text _ (Or.inl hk) h
  | label => rw [hk] at h; exact text _ (Or.inr (Or.inl hk)) h
  | labelString => rw [hk] at h; exact text _ (Or.inr (Or.inr hk)) h
  | operation => rw [hk] at h; exact two _ _ (by cases h; rfl) (by rw [hw _ hk]; exact Nat.le_refl _)
  | function => rw [hk] at h; exact two _ _ (by cases h; rfl) (by rw [hw _ hk]; exact Nat.le_refl _)
  | argCount => rw [hk] at h; exact two _ _ (by cases h; rfl) (by rw [hw _ hk]; exact Nat.le_refl _)
  | loopBegin => rw [hk] at h; exact two _ _ (by cases h; rfl) (by rw [hw _ hk]; exact Nat.le_refl _)
  | name => rw [hk] at h; exact name (Or.inl hk) (by rw [hk]; exact h)
  | arrayName => rw [hk] at h; exact name (Or.inr (Or.inl hk)) (by rw [hk]; exact h)
  | dimArr => rw [hk] at h; exact name (Or.inr (Or.inr (Or.inl hk))) (by rw [hk]; exact h)
  | arrayActual => rw [hk] at h; exact name (Or.inr (Or.inr (Or.inr hk))) (by rw [hk]; exact h)
  | sysvar =>
    rw [hk] at h
    cases h
    rw [hw _ hk]
    show (s.buf ++ [bcSysvar, k.cmd]).length + 2 * (k.cmd :: s.sys).length ≤ s.buf.length + 2 * s.sys.length + 4
    simp only [List.length_append, List.length_cons, List.length_nil]
    omega
  | comment => rw [hk] at h; cases h; show room s ≤ _; omega
  | newline => rw [hk] at h; cases h; show room s ≤ _; omega

theorem codeLoop_le {ids : Bool} : ∀ (ks : List Tk) {s : CodeSt} {r : CodeSt × Option Nat}, codeLoop ids ks s = .ok r →
    room r.1 ≤ room s + sumOut ks
  | [], s, r, h => by cases h; show room s ≤ _; omega
  | k :: ks, s, r, h => by
    unfold codeLoop at h
    obtain ⟨x, hx, h⟩ := bind_inv h
    have h1 := emitTok_le hx
    rw [sumOut_cons]
    split at h
    · have := codeLoop_le ks h; omega
    · cases h; show room x.1 ≤ _; omega
    · cases h; show room x.1 ≤ _; omega

theorem validations_le (sys : List Nat) : (validations sys).length ≤ 2 * sys.length := by
  unfold validations
  rw [List.length_flatMap]
  simp only [List.length_cons, List.length_nil, List.map_const', List.sum_replicate_nat]
  have h : ((List.range 64).filter fun i => sys.contains i && needsValidate i).length ≤ sys.length := by
    apply List.Subperm.length_le
    apply List.Nodup.subperm
    · exact List.Nodup.filter _ List.nodup_range
    · intro x hx
      rw [List.mem_filter] at hx
      have := hx.2
      rw [Bool.and_eq_true] at this
      exact List.contains_iff_mem.mp this.1
  omega

theorem tokCode_le {ids : Bool} {ks : List Tk} {buf : List Nat} {vars : Vars.Table} {r : List Nat × Vars.Table × Option Nat}
    (h : tokCode ids ks buf vars = .ok r) : r.1.length ≤ buf.length + sumOut ks := by
  unfold tokCode at h
  obtain ⟨x, hx, h⟩ := bind_inv h
  have h1 := codeLoop_le ks hx
  unfold room at h1
  simp only [List.length_nil, Nat.mul_zero, Nat.add_zero] at h1
  split at h
  · cases h
    have := validations_le x.1.sys
    simp only [List.length_append]
    omega
  · cases h
    dsimp only
    omega

/-! ## Priorities -/

theorem wIn_neg {t : Tk} (h : t.ty = .operation) (c p : Nat) : wIn { t with cmd := c, prio := p } = wIn t := by
  rw [wIn_op h, wIn_op (show ({ t with cmd := c, prio := p } : Tk).ty = .operation from h)]

theorem markName_sum (prio : Nat) (hp : 0 < prio) {l : List Tk} (h : RAdj l) :
    RAdj (markName prio l) ∧ sumIn (markName prio l) = sumIn l ∧ ∀ x a, markName prio l = x :: a → x.ty = .name → 0 < x.prio := by
  cases l with
  | nil => exact ⟨h, rfl, by simp [markName]⟩
  | cons p r =>
    unfold markName
    dsimp only
    split
    · rename_i hn
      refine ⟨?_, ?_, ?_⟩
      · have hr : RAdj r := fun b y x a e => h (p :: b) y x a (by rw [e]; rfl)
        refine radj_cons hr fun x a e h1 h2 => ?_
        have : (TT.operation : TT) = .name := by rw [← h2.1]; exact hn
        cases this
      · rw [sumIn_cons, sumIn_cons, wIn_prio]
      · intro x a e _
        simp only [List.cons.injEq] at e
        rw [← e.1]; exact hp
    · rename_i hn
      refine ⟨h, rfl, ?_⟩
      intro x a e h1
      simp only [List.cons.injEq] at e
      rw [← e.1] at h1
      exact absurd h1 hn

/-- The invariant of the priority pass. -/
def PrioSum (n : Nat) (x : List Tk × Int) : Prop := RAdj x.1 ∧ sumIn x.1 = n ∧ x.2 % 8 = 0

theorem prioStep_sum (pre : Tk) (done : List Tk) (nest : Int) (t : Tk) (h : RAdj done) (hn : nest % 8 = 0) :
    PrioSum (wIn t + sumIn done) (prioStep pre done nest t) := by
  have simple : ∀ t' : Tk, wIn t' = wIn t → ¬ opens t' → ∀ k : Int, k % 8 = 0 → PrioSum (wIn t + sumIn done) (t' :: done, k) := by
    intro t' h1 h2 k hk
    exact ⟨radj_cons h fun _ _ _ _ h3 => absurd h3 h2, by rw [sumIn_cons, h1], hk⟩
  unfold prioStep
  by_cases hop : t.ty = .operation
  · rw [if_pos hop]
    by_cases hsub : t.cmd = opSubtract
    · rw [if_pos hsub]
      have hno : t.cmd ≠ opOpenBracket ∧ t.cmd ≠ opOpenParen := by rw [hsub]; decide
      split
      · exact simple { t with prio := u16 (nest + 4) } rfl (fun ho => ho.2.elim hno.1 hno.2) _ hn
      · refine simple { t with cmd := opNegate, prio := u16 (nest + 6) } (wIn_neg hop _ _) (fun ho => ?_) _ hn
        have h2 := ho.2
        simp [opNegate, opOpenBracket, opOpenParen] at h2
    · rw [if_neg hsub]
      by_cases hb : t.cmd = opOpenBracket ∨ t.cmd = opOpenParen
      · rw [if_pos hb]
        obtain ⟨m1, m2, m3⟩ := markName_sum (u16 (nest + 7)) (u16_pos nest hn) h
        refine ⟨radj_cons m1 fun x a e h1 _ => m3 x a e h1, ?_, by show (nest + 8) % 8 = 0; omega⟩
        rw [sumIn_cons, m2]; rfl
      · rw [if_neg hb]
        split
        · exact simple { t with prio := u16 nest } rfl (fun ho => hb ho.2) _ (by omega)
        · split
          · rename_i k _
            exact simple { t with prio := u16 (nest + k) } rfl (fun ho => hb ho.2) _ hn
          · exact simple _ rfl (fun ho => hb ho.2) _ hn
  · rw [if_neg hop]
    split
    · exact simple { t with prio := u16 (nest + 7) } rfl (fun ho => hop ho.1) _ hn
    · exact simple { t with prio := 0 } rfl (fun ho => hop ho.1) _ hn

theorem prioLoop_sum (pre : Tk) : ∀ (ts done : List Tk) (nest : Int), RAdj done → nest % 8 = 0 →
    Adj (prioLoop pre done nest ts) ∧ sumIn (prioLoop pre done nest ts) = sumIn done + sumIn ts
  | [], done, nest, h, _ => by
    unfold prioLoop
    exact ⟨adj_reverse h, by rw [sumIn_reverse]; rfl⟩
  | t :: ts, done, nest, h, hn => by
    unfold prioLoop
    obtain ⟨k1, k2, k3⟩ := prioStep_sum pre done nest t h hn
    obtain ⟨m1, m2⟩ := prioLoop_sum pre ts _ _ k1 k3
    exact ⟨m1, by rw [m2, k2, sumIn_cons]; omega⟩

theorem tokPrio_sum (pre : Tk) (ts : List Tk) : Adj (tokPrio pre ts) ∧ sumIn (tokPrio pre ts) = sumIn ts := by
  obtain ⟨h1, h2⟩ := prioLoop_sum pre ts [] 0 (fun b y x a e => by simp at e) rfl
  exact ⟨h1, by unfold tokPrio; rw [h2]; simp [sumIn]⟩

/-! ## The reordering pass -/

/-- The weight of the stack and the result, and of the instructions to come. -/
def evW (e : Ev) : Nat := sumOut e.ops + sumOut e.res + (if e.isFor then 2 else 0) + if e.isIf then 2 else 0

theorem out_w {e e' : Ev} {t : Tk} (he : e.out t = .ok e') : evW e' = evW e + wOut t ∧ e'.ops = e.ops ∧ e'.isFor = e.isFor ∧ e'.isIf = e.isIf := by
  unfold Ev.out at he
  split at he
  · cases he
    refine ⟨?_, rfl, rfl, rfl⟩
    unfold evW
    dsimp only
    rw [sumOut_append, sumOut_single]
    omega
  · cases he

theorem push_w {e e' : Ev} {t : Tk} (he : e.push t = .ok e') : evW e' = evW e + wOut t ∧ e'.ops = t :: e.ops := by
  unfold Ev.push at he
  split at he
  · cases he
    refine ⟨?_, rfl⟩
    unfold evW
    dsimp only
    rw [sumOut_cons]
    omega
  · cases he

theorem cleanLoop_w (p : Nat) : ∀ (ops res : List Tk), sumOut (cleanLoop p ops res).1 + sumOut (cleanLoop p ops res).2 = sumOut ops + sumOut res
  | [], res => rfl
  | t :: ops, res => by
    unfold cleanLoop
    split
    · rw [cleanLoop_w p ops, sumOut_append, sumOut_single, sumOut_cons]; omega
    · rfl

theorem clean_w {e e' : Ev} {p : Nat} (he : e.clean p = .ok e') : evW e' = evW e ∧ e'.isFor = e.isFor := by
  unfold Ev.clean at he
  dsimp only at he
  split at he
  · cases he
    refine ⟨?_, rfl⟩
    have := cleanLoop_w p e.ops e.res
    unfold evW
    dsimp only
    omega
  · cases he

theorem incArg_w {e e' : Ev} (he : e.incArg = .ok e') : evW e' = evW e := by
  unfold Ev.incArg at he
  split at he
  · cases he; rfl
  · cases he

theorem evPush_w {e e' : Ev} {t : Tk} (he : evPush e t = .ok e') :
    evW e' ≤ evW e + wOut t ∧ (t.ty ≠ .operation → ∃ r, e'.ops = t :: r) := by
  unfold evPush at he
  obtain ⟨e1, h1, he⟩ := bind_inv he
  have hf1 : evW e1 = evW e := by
    split at h1
    · cases h1; rfl
    · exact (clean_w h1).1
  split at he
  · obtain ⟨k1, k2⟩ := push_w he
    exact ⟨by omega, fun _ => ⟨_, k2⟩⟩
  · rename_i hc
    refine ⟨by rw [incArg_w he]; omega, fun ho => absurd (Or.inl ho) hc⟩

theorem evFlags_w {e e' : Ev} {t : Tk} (ht : t.ty = .command) (he : evFlags e t = .ok e') : evW e' + wOut t ≤ evW e + wIn t := by
  have hc : wIn t = wOut t + if (t.cmd = cmdFor ∨ t.cmd = cmdIf) then 2 else 0 := by
    unfold wIn
    rw [ht]; simp
  unfold evFlags at he
  split at he
  · cases he; show evW e + _ ≤ _; omega
  split at he
  · rename_i hf
    cases he
    rw [hc, if_pos (Or.inl hf)]
    unfold evW
    dsimp only
    split <;> simp <;> omega
  split at he
  · rename_i hf
    cases he
    rw [hc, if_pos (Or.inr hf)]
    unfold evW
    dsimp only
    split <;> simp <;> split <;> omega
  split at he
  · cases he; show evW e + _ ≤ _; omega
  dsimp only at he
  split at he
  · rename_i hf
    obtain ⟨e1, h1, he⟩ := bind_inv he
    cases he
    obtain ⟨k1, -, k2, k3⟩ := out_w h1
    have l2 : wOut loopTok = 2 := rfl
    have a1 : evW { e with isDim := false } = evW e := rfl
    have a2 : evW { e1 with isFor := false } + 2 = evW e1 := by
      unfold evW
      dsimp only
      rw [k2]
      dsimp only
      rw [if_pos hf.1]
      simp
      omega
    show evW { e1 with isFor := false } + _ ≤ _
    omega
  · cases he; show evW e + _ ≤ _; omega

theorem evComma_w {e e' : Ev} {prev next : Option Tk} {t : Tk} (he : evComma e prev next t = .ok e') : evW e' ≤ evW e + wOut t := by
  unfold evComma at he
  obtain ⟨e1, h1, he⟩ := bind_inv he
  obtain ⟨e2, h2, he⟩ := bind_inv he
  have hf : evW e2 = evW e := by rw [(clean_w h2).1, incArg_w h1]
  have ho : ∀ {e' : Ev}, e2.out t = .ok e' → evW e' ≤ evW e + wOut t := fun h => by rw [(out_w h).1]; omega
  split at he
  · split at he
    · exact ho he
    · split at he
      · exact ho he
      · split at he
        · cases he
        · split at he
          · exact ho he
          · split at he
            · split at he
              · exact ho he
              · cases he; omega
            · cases he; omega
  · exact ho he

theorem wOut_name {t : Tk} (hn : t.ty = .name) {k : TT} (hk : k = .arrayName ∨ k = .dimArr ∨ k = .arrayActual) :
    wOut { t with ty := k } = wOut t := by
  unfold wOut
  rw [hn]
  rcases hk with rfl | rfl | rfl <;> rfl

theorem evOpen_w {e e' : Ev} {prev : Option Tk} {y : Tk} (hp : PrevOk e prev (some y)) (hy : opens y)
    (he : evOpen e prev = .ok e') : evW e' = evW e := by
  unfold evOpen at he
  split at he
  · cases he
  · split at he
    · cases he; rfl
    · rename_i p
      split at he
      · rename_i hn
        obtain ⟨r, hr⟩ := hp p y rfl hn rfl hy
        rw [hr] at he
        cases he
        unfold evW
        dsimp only
        rw [hr, sumOut_cons, sumOut_cons, wOut_name hn (Or.inl rfl)]
      · split at he
        · cases he; rfl
        · cases he; rfl

theorem evClose_w {e : Ev} {prev : Option Tk} {t : Tk} {r : Ev × Tk} (ht : t.ty = .operation)
    (he : evClose e prev t = .ok r) : evW r.1 ≤ evW e + 2 ∧ r.2.ty ≠ .name := by
  unfold evClose at he
  split at he
  · rename_i p a rr hargc
    dsimp only at he
    generalize (if p.ty = .operation ∧ p.cmd = opOpenParen then 0 else a) = a' at he
    split at he
    · obtain ⟨e1, h1, he⟩ := bind_inv he
      obtain ⟨e2, h2, he⟩ := bind_inv he
      cases he
      have k1 := (clean_w h1).1
      have k2 := (push_w h2).1
      have k3 : evW { e with argc := rr } = evW e := rfl
      have k4 : wOut { t with ty := .argCount, cmd := a' } = 2 := rfl
      exact ⟨by dsimp only; omega, by simp⟩
    · cases he
      exact ⟨by show evW e ≤ _; omega, by rw [ht]; simp⟩
  · cases he

theorem wOut_le (t : Tk) : wOut t ≤ wIn t := by unfold wIn; omega

/-- A step of the reordering pass. -/
theorem evStep_w {e : Ev} {prev next : Option Tk} {t : Tk} {r : Ev × Tk × Bool}
    (hp : PrevOk e prev (some t)) (hadj : t.ty = .name → ∀ y, next = some y → opens y → 0 < t.prio)
    (he : evStep e prev next t = .ok r) : evW r.1 ≤ evW e + wIn t ∧ PrevOk r.1 (some r.2.1) next := by
  have hwt := wOut_le t
  have notname : ∀ (e' : Ev) (t' : Tk), evW e' ≤ evW e + wIn t → t'.ty ≠ .name →
      evW (e', t', true).1 ≤ evW e + wIn t ∧ PrevOk (e', t', true).1 (some (e', t', true).2.1) next := by
    intro e' t' h1 h2
    refine ⟨h1, fun p y hp hn => ?_⟩
    cases hp
    exact absurd hn h2
  unfold evStep at he
  by_cases c1 : t.ty = .operation ∧ t.prio % 8 = 0
  · rw [if_pos c1] at he
    have hne : t.ty ≠ .name := by rw [c1.1]; simp
    have w2 := wIn_op c1.1
    split at he
    · obtain ⟨e1, h1, he⟩ := bind_inv he
      obtain ⟨e2, h2, he⟩ := bind_inv he
      cases he
      exact notname _ _ (by rw [(push_w h2).1, (clean_w h1).1]; omega) hne
    · split at he
      · rename_i ho
        obtain ⟨e1, h1, he⟩ := bind_inv he
        cases he
        exact notname _ _ (by rw [evOpen_w hp ⟨c1.1, ho⟩ h1]; omega) hne
      · obtain ⟨e1, h1, he⟩ := bind_inv he
        cases he
        obtain ⟨k1, k2⟩ := evClose_w c1.1 h1
        exact notname _ _ (by omega) k2
  rw [if_neg c1] at he
  by_cases c2 : t.ty = .operation ∧ t.prio = 1
  · rw [if_pos c2] at he
    obtain ⟨e1, h1, he⟩ := bind_inv he
    cases he
    have := evComma_w h1
    exact notname _ _ (by omega) (by rw [c2.1]; simp)
  rw [if_neg c2] at he
  by_cases c3 : t.ty = .command
  · rw [if_pos c3] at he
    have hne : t.ty ≠ .name := by rw [c3]; simp
    split at he
    · cases he; exact notname _ _ (by show evW e ≤ _; omega) hne
    split at he
    · obtain ⟨e1, h1, he⟩ := bind_inv he
      cases he
      exact notname _ _ (by rw [(clean_w h1).1]; omega) hne
    split at he
    · obtain ⟨e1, h1, he⟩ := bind_inv he
      obtain ⟨e2, h2, he⟩ := bind_inv he
      cases he
      exact notname _ _ (by rw [(out_w h2).1, (clean_w h1).1]; omega) hne
    split at he
    · obtain ⟨e1, h1, he⟩ := bind_inv he
      obtain ⟨e2, h2, he⟩ := bind_inv he
      cases he
      refine ⟨by dsimp only; rw [(out_w h2).1, (clean_w h1).1]; omega, fun p y hp hn => ?_⟩
      cases hp
      exact absurd hn hne
    · obtain ⟨e1, h1, he⟩ := bind_inv he
      obtain ⟨e2, h2, he⟩ := bind_inv he
      cases he
      have ht' : ∀ b : Bool, wOut (if b then { t with ty := .firstCommand } else t) = wOut t ∧ (if b then { t with ty := .firstCommand } else t).ty ≠ .name := by
        intro b
        cases b with
        | false => exact ⟨rfl, hne⟩
        | true =>
          refine ⟨?_, by simp⟩
          unfold wOut
          rw [c3]; rfl
      obtain ⟨k1, -⟩ := evPush_w h2
      rw [(ht' _).1] at k1
      have k2 := evFlags_w c3 h1
      exact notname _ _ (by omega) (ht' _).2
  rw [if_neg c3] at he
  by_cases c4 : t.prio > 0
  · rw [if_pos c4] at he
    dsimp only at he
    obtain ⟨e1, h1, he⟩ := bind_inv he
    cases he
    by_cases cd : t.ty = .name ∧ t.prio = 7 ∧ e.isDim
    · rw [if_pos cd] at h1 ⊢
      have k1 := (evPush_w h1).1
      rw [wOut_name cd.1 (Or.inr (Or.inl rfl))] at k1
      exact notname _ _ (by omega) (by simp)
    · rw [if_neg cd] at h1 ⊢
      obtain ⟨k1, k2⟩ := evPush_w h1
      refine ⟨by dsimp only; omega, fun p y hp hn _ _ => ?_⟩
      cases hp
      exact k2 (by simp only at hn; rw [hn]; simp)
  rw [if_neg c4] at he
  have hnp : ∀ e', PrevOk e' (some t) next := by
    intro e' p y hp hn hy ho
    cases hp
    exact absurd (hadj hn y hy ho) c4
  by_cases c5 : t.ty = .newline
  · rw [if_pos c5] at he
    obtain ⟨e1, h1, he⟩ := bind_inv he
    dsimp only at he
    have hf := (clean_w h1).1
    have h' : evW { e1 with isDim := false, implicitCommas := true } = evW e1 := rfl
    split at he
    · rename_i hfor
      obtain ⟨e2, h2, he⟩ := bind_inv he
      cases he
      obtain ⟨k1, -, k2, k3⟩ := out_w h2
      have l2 : wOut loopTok = 2 := rfl
      have a2 : evW { e2 with isFor := false } + 2 = evW e2 := by
        unfold evW
        dsimp only
        rw [k2]
        dsimp only
        rw [if_pos hfor]
        simp
        omega
      refine ⟨?_, hnp _⟩
      show evW { e2 with isFor := false } ≤ _
      omega
    · cases he
      exact ⟨by show evW e1 ≤ _; omega, hnp _⟩
  rw [if_neg c5] at he
  by_cases c6 : t.ty = .label
  · rw [if_pos c6] at he
    dsimp only at he
    obtain ⟨e1, h1, he⟩ := bind_inv he
    cases he
    cases prev with
    | none => exact notname _ _ (by have := (out_w h1).1; dsimp only at this; omega) (by rw [c6]; simp)
    | some p =>
      have ht' : wOut { t with ty := .labelString } = wOut t := by
        unfold wOut
        rw [c6]
      exact notname _ _ (by have := (out_w h1).1; dsimp only at this; omega) (by simp)
  rw [if_neg c6] at he
  split at he
  · rename_i c7
    dsimp only at he
    obtain ⟨e1, h1, he⟩ := bind_inv he
    cases he
    have h3 := wOut_name c7.1 (Or.inr (Or.inr rfl))
    exact notname _ _ (by have := (out_w h1).1; omega) (by simp)
  · obtain ⟨e1, h1, he⟩ := bind_inv he
    cases he
    exact ⟨by dsimp only; rw [(out_w h1).1]; omega, hnp _⟩

theorem evLoop_w : ∀ (ts : List Tk) {e : Ev} {prev : Option Tk} {e' : Ev}, Adj ts →
    PrevOk e prev ts.head? → evLoop e prev ts = .ok e' → evW e' ≤ evW e + sumIn ts
  | [], e, prev, e', _, _, he => by cases he; omega
  | t :: ts, e, prev, e', ha, hp, he => by
    unfold evLoop at he
    obtain ⟨r, h1, he⟩ := bind_inv he
    have hadj : t.ty = .name → ∀ y, ts.head? = some y → opens y → 0 < t.prio := by
      intro hn y hy ho
      match ts, hy with
      | z :: ts', hy => cases hy; exact ha [] t _ ts' rfl hn ho
    obtain ⟨k1, k2⟩ := evStep_w hp hadj h1
    rw [sumIn_cons]
    split at he
    · have := evLoop_w ts (fun a x y b e => ha (t :: a) x y b (by rw [e]; rfl)) k2 he
      omega
    · cases he; omega

theorem tokEval_w {ts ks : List Tk} (ha : Adj ts) (he : tokEval ts = .ok ks) : sumOut ks ≤ sumIn ts := by
  unfold tokEval at he
  obtain ⟨e1, h1, he⟩ := bind_inv he
  obtain ⟨e2, h2, he⟩ := bind_inv he
  have hl := evLoop_w ts ha (fun p y hp => by cases hp) h1
  have h0 : evW Ev.init = 0 := rfl
  have hc := (clean_w h2).1
  split at he
  · rename_i hif
    obtain ⟨e3, h3, he⟩ := bind_inv he
    cases he
    obtain ⟨k1, -, -, k2⟩ := out_w h3
    have : wOut endifTok = 2 := rfl
    have : evW e3 ≥ sumOut e3.res + 2 := by
      unfold evW
      rw [k2, if_pos hif]
      omega
    omega
  · cases he
    have : evW e2 ≥ sumOut e2.res := by unfold evW; omega
    omega

theorem convertCode_le {ids : Bool} {pre : Tk} {toks : List Tk} {o : Obj} {r : Obj × Option Nat}
    (h : convertCode ids pre toks o = .ok r) : r.1.buf.length ≤ o.buf.length + sumIn toks := by
  unfold convertCode at h
  obtain ⟨ks, hks, h⟩ := bind_inv h
  obtain ⟨e, he, h⟩ := bind_inv h
  obtain ⟨a1, a2⟩ := tokPrio_sum pre toks
  have hw := tokEval_w a1 hks
  split at h
  · cases h; show o.buf.length ≤ _; omega
  · obtain ⟨x, hx, h⟩ := bind_inv h
    have hc := tokCode_le hx
    split at h
    · cases h; show x.1.length ≤ _; omega
    · split at h
      · cases h; show x.1.length ≤ _; omega
      · cases h

theorem tokConvert_le {p : Opts} {pre : Tk} {toks : List Tk} {o : Obj} {r : Obj × Option Nat}
    (h : tokConvert p pre toks o = .ok r) : r.1.buf.length ≤ o.buf.length + sumIn toks := by
  unfold tokConvert at h
  split at h
  · cases h
  · dsimp only at h
    split at h
    · split at h
      · cases h; show o.buf.length ≤ _; omega
      · split at h
        · cases h; show o.buf.length ≤ _; omega
        · have := convertCode_le h
          exact this
    · exact convertCode_le h

/-! ## The lexer -/

/-- Three units for every character that is left (in comments the rest of the line may belong to DATA), and the weight of the
tokens of the line. -/
def pot (s : Lx) : Nat := sumIn s.toks + (3 * s.rest.length - if s.comment then (toLineEnd s.rest).length else 0)

theorem toLineEnd_cons {c : Nat} (h : c ≠ 13) (r : List Nat) : (toLineEnd (c :: r)).length = (toLineEnd r).length + 1 := by
  unfold toLineEnd
  have : (c != 13) = true := by simp [h]
  rw [List.takeWhile_cons, if_pos this, List.dropWhile_cons, if_pos this]
  simp only [List.cons_append, List.length_cons]

theorem toLineEnd_end (r : List Nat) : (toLineEnd (13 :: r)).length = 1 := by
  unfold toLineEnd
  simp

theorem spanOf_len {p : Nat → Bool} {l : List Nat} {x : List Nat × List Nat} (h : spanOf p l = .ok x) : x.1.length + x.2.length = l.length := by
  unfold spanOf at h
  split at h
  · cases h
  · cases h
    dsimp only
    rw [← List.length_append, List.takeWhile_append_dropWhile]

theorem spanOne_len {p : Nat → Bool} {l : List Nat} {x : List Nat × List Nat} (h : spanOne p l = .ok x) :
    x.1.length + x.2.length = l.length ∧ ∃ w, x.1 = l.headD 0 :: w := by
  unfold spanOne at h
  split at h
  · cases h
  · rename_i c r
    obtain ⟨y, hy, h⟩ := bind_inv h
    cases h
    have := spanOf_len hy
    exact ⟨by dsimp only [List.length_cons]; omega, _, rfl⟩

theorem cut_le (w : List Nat) : (cut w).length ≤ w.length := by
  unfold cut; rw [List.length_take]; omega

theorem cut_one {c : Nat} : cut [c] = [c] := rfl

/-- A cut word of one character begins with the first character of the word. -/
theorem cut_head {c : Nat} {w : List Nat} {d : Nat} (h : cut (c :: w) = [d]) : d = c := by
  unfold cut at h
  cases hn : (c :: w).length % 256 with
  | zero => rw [hn] at h; cases h
  | succ n => rw [hn, List.take_succ_cons] at h; injection h with h; exact h.symm

theorem add_pot {s s' : Lx} {t : Tk} (h : s.add t = .ok s') :
    s'.toks = s.toks ++ [t] ∧ s'.rest = s.rest ∧ s'.comment = s.comment := by
  unfold Lx.add at h
  split at h
  · cases h; exact ⟨rfl, rfl, rfl⟩
  · cases h

/-- No word of one character in the table. -/
def NoSingles (table : List Nat) : Prop := ∀ i < table.length / 8, ∃ c, (table.drop (8 * i))[1]? = some c ∧ c ≠ 32

theorem single_absent {table : List Nat} (h : NoSingles table) (c : Nat) : inTable table [c] = none := by
  unfold inTable
  rw [List.find?_eq_none]
  intro i hi
  rw [List.mem_range] at hi
  obtain ⟨d, h1, h2⟩ := h i hi
  unfold entryMatches
  simp only [List.length_singleton, h1]
  simp [h2]

theorem commands_long : NoSingles commandTable := by
  have : ∀ i < commandTable.length / 8, (match (commandTable.drop (8 * i))[1]? with | some c => decide (c ≠ 32) | none => false) = true := by
    decide +kernel
  intro i hi
  have := this i hi
  split at this
  · rename_i c hc; exact ⟨c, hc, by simpa using this⟩
  · cases this

theorem sysvars_long : NoSingles sysvarTable := by
  have : ∀ i < sysvarTable.length / 8, (match (sysvarTable.drop (8 * i))[1]? with | some c => decide (c ≠ 32) | none => false) = true := by
    decide +kernel
  intro i hi
  have := this i hi
  split at this
  · rename_i c hc; exact ⟨c, hc, by simpa using this⟩
  · cases this

/-- A word of the table has at least two characters. -/
theorem long_of_table {table : List Nat} (h : NoSingles table) {c : Nat} {w : List Nat} {i : Nat} (hi : inTable table (cut (c :: w)) = some i) :
    2 ≤ (c :: w).length := by
  cases w with
  | nil => rw [cut_one, single_absent h] at hi; cases hi
  | cons d w => simp

/-- What a step of the lexer does to the potential. -/
def StepPot (s : Lx) (x : Lx × LxCtl) : Prop :=
  match x.2 with
  | .next => pot x.1 ≤ pot s
  | .convert => pot x.1 + 2 ≤ pot s ∧ s.rest = 13 :: x.1.rest
  | .fail _ => x.1.comment = false ∧ 3 * x.1.rest.length ≤ pot s

/-- A token is added after `k` characters. -/
theorem step_add {s s1 s2 : Lx} {t : Tk} (h : s1.add t = .ok s2) (hc : s.comment = false) (hc1 : s1.comment = false) (ht : s1.toks = s.toks)
    (hw : wIn t + 3 * s1.rest.length ≤ 3 * s.rest.length) : StepPot s (s2, .next) := by
  obtain ⟨a1, a2, a3⟩ := add_pot h
  show pot s2 ≤ pot s
  unfold pot
  rw [a1, a2, a3, hc, hc1, ht, sumIn_append, sumIn_single]
  simp only [Bool.false_eq_true, if_false]
  omega

theorem step_bind {s : Lx} {y : Out Lx} {x : Lx × LxCtl} (h : (y.bind fun s => Out.ok (s, LxCtl.next)) = .ok x)
    (hy : ∀ s2, y = .ok s2 → StepPot s (s2, .next)) : StepPot s x := by
  obtain ⟨s2, h1, h⟩ := bind_inv h
  cases h
  exact hy s2 h1

theorem wName_le (c : Nat) (w : List Nat) (hc : c ≠ 36) : wName (cut (c :: w)) ≤ 3 * (c :: w).length := by
  have := cut_le (c :: w)
  unfold wName
  split
  · simp only [List.length_cons]; omega
  · rename_i h
    cases w with
    | nil => exact absurd ⟨rfl, by rw [cut_one]; simp [hc]⟩ h
    | cons d w => simp only [List.length_cons] at this ⊢; omega

theorem tokLabel_pot {s s0 : Lx} {x : Lx × LxCtl} (hc : s0.comment = false) (hs : s.comment = false) (ht : s.toks = s0.toks)
    (hl : s.rest.length + 1 ≤ s0.rest.length) (h : tokLabel s = .ok x) : StepPot s0 x := by
  have hp : pot s0 = sumIn s0.toks + 3 * s0.rest.length := by unfold pot; rw [hc]; simp
  unfold tokLabel at h
  split at h
  · cases h
  · rename_i c r hr
    rw [hr] at hl
    simp only [List.length_cons] at hl
    split at h
    · cases h
      exact ⟨hs, by rw [hp]; dsimp only; omega⟩
    · dsimp only at h
      have hd : (r.dropWhile (· == 32)).length ≤ r.length := (List.dropWhile_suffix _).length_le
      split at h
      · cases h
      · rename_i d r' hd'
        rw [hd'] at hd
        split at h
        · cases h
          exact ⟨hs, by rw [hp]; dsimp only; rw [hd']; omega⟩
        · obtain ⟨y, hy, h⟩ := bind_inv h
          obtain ⟨l1, w, l2⟩ := spanOne_len hy
          rw [hd'] at l1
          have l3 : 1 ≤ y.1.length := by rw [l2]; simp
          split at h
          · cases h
            exact ⟨hs, by rw [hp]; dsimp only; omega⟩
          · refine step_bind h fun s2 h2 => step_add h2 hc hs ht ?_
            have := cut_le y.1
            show (cut y.1).length + 3 + 0 + 3 * y.2.length ≤ _
            omega

theorem tokName_pot {s : Lx} {x : Lx × LxCtl} (hc : s.comment = false) (hs : isNameStart (s.rest.headD 0) = true) (h : tokName s = .ok x) : StepPot s x := by
  have hp : pot s = sumIn s.toks + 3 * s.rest.length := by unfold pot; rw [hc]; simp
  unfold tokName at h
  split at h
  · cases h
  obtain ⟨y, hy, h⟩ := bind_inv h
  obtain ⟨l1, w, l2⟩ := spanOne_len hy
  have l3 : 1 ≤ y.1.length := by rw [l2]; simp
  have l4 := cut_le y.1
  dsimp only at h
  have c36 : s.rest.headD 0 ≠ 36 := by
    intro e
    rw [e] at hs
    exact absurd hs (by decide)
  have w5 : wName (cut y.1) ≤ 3 * y.1.length := by
    rw [l2]
    exact wName_le _ _ c36
  split at h
  · rename_i i hi
    have l5 : 2 ≤ y.1.length := by
      rw [l2] at hi ⊢
      exact long_of_table commands_long hi
    split at h
    · rename_i hd
      obtain ⟨s2, h2, h⟩ := bind_inv h
      cases h
      obtain ⟨a1, a2, a3⟩ := add_pot h2
      show pot s2 ≤ pot s
      rw [hp]
      unfold pot
      rw [a1, a2, a3, sumIn_append, sumIn_single]
      simp only [if_true]
      have hw : wIn ⟨.command, toLineEnd y.2, i, 0⟩ = (toLineEnd y.2).length + 3 := by
        rw [hd]
        rfl
      have := toLineEnd_le y.2
      rw [hw]
      omega
    · rename_i hd
      refine step_bind h fun s2 h2 => step_add h2 hc hc rfl ?_
      have hw : wIn ⟨.command, [], i, 0⟩ ≤ 4 := by
        unfold wIn
        have : wOut ⟨.command, [], i, 0⟩ = 2 := if_neg hd
        rw [this]
        split <;> omega
      show _ + 3 * y.2.length ≤ _
      omega
  · split at h
    · refine step_bind h fun s2 h2 => step_add h2 hc hc rfl ?_
      show 2 + 3 * y.2.length ≤ _
      omega
    · split at h
      · refine step_bind h fun s2 h2 => step_add h2 hc hc rfl ?_
        show 2 + 3 * y.2.length ≤ _
        omega
      · split at h
        · exact tokLabel_pot (s := { s with rest := y.2 }) hc hc rfl (by dsimp only; omega) h
        · split at h
          · obtain ⟨s2, h2, h⟩ := bind_inv h
            cases h
            obtain ⟨a1, a2, a3⟩ := add_pot h2
            show pot s2 ≤ pot s
            rw [hp]
            unfold pot
            rw [a1, a2, a3, sumIn_append, sumIn_single]
            have hw : ∀ t, wIn ⟨.comment, t, 0, 0⟩ = 0 := fun _ => rfl
            rw [hw]
            dsimp only
            omega
          · split at h
            · rename_i i hi
              have l5 : 2 ≤ y.1.length := by
                rw [l2] at hi ⊢
                exact long_of_table sysvars_long hi
              refine step_bind h fun s2 h2 => step_add h2 hc hc rfl ?_
              show 4 + 3 * y.2.length ≤ _
              omega
            · refine step_bind h fun s2 h2 => step_add h2 hc hc rfl ?_
              show wName (cut y.1) + 0 + 3 * y.2.length ≤ _
              omega

theorem tokNone_pot {s : Lx} {x : Lx × LxCtl} (h : tokNone s = .ok x) : StepPot s x := by
  unfold tokNone at h
  split at h
  · cases h
  rename_i c r hr
  by_cases c13 : c = 13
  · rw [if_pos c13] at h
    obtain ⟨s2, h2, h⟩ := bind_inv h
    cases h
    obtain ⟨a1, a2, a3⟩ := add_pot h2
    refine ⟨?_, by show _ = 13 :: s2.rest; rw [a2, hr, c13]⟩
    show pot { s2 with comment := false } + 2 ≤ pot s
    unfold pot
    dsimp only
    rw [a1, a2, sumIn_append, sumIn_single, hr, c13, toLineEnd_end]
    have hw : wIn ⟨.newline, [13], 0, 0⟩ = 0 := rfl
    rw [hw]
    simp only [List.length_cons, Bool.false_eq_true, if_false]
    split <;> omega
  rw [if_neg c13] at h
  by_cases hcom : s.comment = true
  · rw [if_pos hcom] at h
    cases h
    show pot { s with rest := r } ≤ pot s
    unfold pot
    dsimp only
    rw [hr, hcom, toLineEnd_cons c13]
    simp only [if_true, List.length_cons]
    have := toLineEnd_le r
    omega
  rw [if_neg hcom] at h
  have hc : s.comment = false := by simpa using hcom
  have hp : pot s = sumIn s.toks + 3 * s.rest.length := by unfold pot; rw [hc]; simp
  have hlen : s.rest.length = r.length + 1 := by rw [hr]; rfl
  by_cases k1 : isNameStart c = true
  · rw [if_pos k1] at h
    exact tokName_pot hc (by rw [hr]; exact k1) h
  rw [if_neg k1] at h
  have op : ∀ (r' : List Nat) (t : Tk), wIn t ≤ 2 → r'.length ≤ r.length →
      (({ s with rest := r' }.add t).bind fun s => Out.ok (s, LxCtl.next)) = .ok x → StepPot s x := by
    intro r' t hw hr' h
    refine step_bind h fun s2 h2 => step_add (s1 := { s with rest := r' }) h2 hc hc rfl ?_
    dsimp only
    omega
  by_cases d0 : c = 63
  · rw [if_pos d0] at h
    exact op r _ (Nat.le_refl _) (Nat.le_refl _) h
  rw [if_neg d0] at h
  by_cases d1 : c = 58
  · rw [if_pos d1] at h
    exact op r _ (Nat.zero_le _) (Nat.le_refl _) h
  rw [if_neg d1] at h
  by_cases d2 : c = 32
  · rw [if_pos d2] at h
    cases h
    show pot { s with rest := r } ≤ pot s
    rw [hp]
    unfold pot
    dsimp only
    omega
  rw [if_neg d2] at h
  by_cases d3 : c = 34
  · rw [if_pos d3] at h
    unfold tokString at h
    obtain ⟨y, hy, h⟩ := bind_inv h
    have l1 := spanOf_len hy
    have l2 := cut_le y.1
    dsimp only at h
    refine step_bind h fun s2 h2 => step_add h2 hc hc rfl ?_
    have l3 : (match y.2 with | 34 :: t => t | t => t).length ≤ y.2.length := by
      split
      · rename_i he; rw [he]; simp
      · exact Nat.le_refl _
    show (cut y.1).length + 3 + 0 + 3 * (match y.2 with | 34 :: t => t | t => t).length ≤ _
    omega
  rw [if_neg d3] at h
  by_cases d4 : c = 38
  · rw [if_pos d4] at h
    unfold tokBaseNumber at h
    split at h
    · rename_i a b c' r' hr'
      obtain ⟨y, hy, h⟩ := bind_inv h
      have l1 := spanOf_len hy
      have : s.rest.length = r'.length + 3 := by rw [hr']; rfl
      refine step_bind h fun s2 h2 => step_add h2 hc hc rfl ?_
      show 6 + 3 * y.2.length ≤ _
      omega
    · cases h
  rw [if_neg d4] at h
  by_cases d5 : (isDigit c || c == 46) = true
  · rw [if_pos d5] at h
    have hdig := d5
    unfold tokNumberLex at h
    obtain ⟨y, hy, h⟩ := bind_inv h
    obtain ⟨l1, w, l2⟩ := spanOne_len hy
    refine step_bind h fun s2 h2 => step_add h2 hc hc rfl ?_
    rw [hr] at l2
    have l2 : y.1 = c :: w := l2
    have hw : wNum (cut y.1) ≤ 3 * y.1.length := by
      rw [l2]
      cases w with
      | nil =>
        rw [cut_one]
        have : wNum [c] = 2 := if_pos hdig
        simp [this]
      | cons d w =>
        have : ∀ l, wNum l ≤ 6 := by
          intro l
          unfold wNum
          split
          · split <;> omega
          · omega
        have := this (cut (c :: d :: w))
        simp only [List.length_cons]
        omega
    show wNum (cut y.1) + 0 + 3 * y.2.length ≤ _
    omega
  rw [if_neg d5] at h
  by_cases d6 : isSingleOp c = true
  · rw [if_pos d6] at h
    exact op r _ (Nat.le_refl _) (Nat.le_refl _) h
  rw [if_neg d6] at h
  by_cases d7 : c = 60 ∨ c = 61 ∨ c = 62 ∨ c = 33
  · rw [if_pos d7] at h
    split at h
    · cases h
    · rename_i r' _
      exact op _ _ (Nat.le_refl _) (by simp) h
    · exact op r _ (Nat.le_refl _) (Nat.le_refl _) h
  rw [if_neg d7] at h
  by_cases d8 : c = 64
  · rw [if_pos d8] at h
    split at h
    · cases h
    · obtain ⟨y, hy, h⟩ := bind_inv h
      obtain ⟨l1, w, l2⟩ := spanOne_len hy
      have l3 := cut_le y.1
      have l4 : 1 ≤ y.1.length := by rw [l2]; simp
      split at h
      · cases h
        exact ⟨hc, by rw [hp]; dsimp only; omega⟩
      · refine step_bind h fun s2 h2 => step_add h2 hc hc rfl ?_
        show (cut y.1).length + 3 + 0 + 3 * y.2.length ≤ _
        omega
  rw [if_neg d8] at h
  by_cases d9 : c = 39
  · rw [if_pos d9] at h
    cases h
    show pot { s with rest := r, comment := true } ≤ pot s
    rw [hp]
    unfold pot
    dsimp only
    omega
  · rw [if_neg d9] at h
    cases h
    exact ⟨hc, by rw [hp]; dsimp only; omega⟩

theorem tokenizeLoop_le {p : Opts} {pre : Tk} : ∀ (fuel : Nat) {s : Lx} {o : Obj} {r : Obj × Option Nat},
    tokenizeLoop p pre fuel s o = .ok r → r.1.buf.length ≤ o.buf.length + pot s
  | 0, s, o, r, h => by cases h
  | fuel + 1, s, o, r, h => by
    unfold tokenizeLoop at h
    split at h
    · cases h; show o.buf.length ≤ _; omega
    obtain ⟨x, hx, h⟩ := bind_inv h
    have hpot := tokNone_pot hx
    unfold StepPot at hpot
    split at h
    · rename_i hx2
      rw [hx2] at hpot
      have := tokenizeLoop_le fuel h
      dsimp only at hpot
      omega
    · rename_i e hx2
      rw [hx2] at hpot
      dsimp only at hpot
      split at h
      · cases h; show o.buf.length ≤ _; omega
      · obtain ⟨r', hr', h⟩ := bind_inv h
        have h1 := tokenizeLoop_le fuel h
        have h2 : r'.length + 1 ≤ x.1.rest.length := by
          unfold skipLine at hr'
          have := (List.dropWhile_suffix (l := x.1.rest) (· != 13)).length_le
          split at hr'
          · cases hr'
          · rename_i q r2 he
            cases hr'
            rw [he] at this
            exact this
        have h3 : (o.error e).buf.length = o.buf.length + 2 := by simp [Obj.error]
        have h4 : pot { x.1 with rest := r', toks := [] } = 3 * r'.length := by
          unfold pot
          dsimp only
          rw [hpot.1]
          simp [sumIn]
        omega
    · rename_i hx2
      rw [hx2] at hpot
      dsimp only at hpot
      obtain ⟨y, hy, h⟩ := bind_inv h
      have h1 := tokConvert_le hy
      have h4 : pot x.1 = sumIn x.1.toks + pot { x.1 with toks := [] } := by
        unfold pot
        simp [sumIn]
      split at h
      · have := tokenizeLoop_le fuel h
        omega
      · rename_i e _
        split at h
        · cases h; show y.1.buf.length ≤ _; omega
        · have h5 := tokenizeLoop_le fuel h
          have h3 : (y.1.error e).buf.length = y.1.buf.length + 2 := by simp [Obj.error]
          omega

end Sbc.Tok.Spec
