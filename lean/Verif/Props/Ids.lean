import Verif.Proof.Data
import Verif.Proof.Code
import Verif.Proof.Control
import Verif.Proof.Vars
import Verif.Proof.Found
set_option autoImplicit false
/-!
# C88: variables compiled by number do the same as variables compiled by name
-/
namespace Sbc.Machine
open Sbc Sbc.Tok Sbc.Tok.Spec

variable {σ : Type} {env : Env σ}

/-- Where the variable is in the table under this number, access by number and by name do the same. -/
theorem id_eq_name {c : Core σ} (h : Vars.Inv c.vars) {n : List Nat} (hn : Names.GoodName n) {id argc : Nat} {isStr isArr : Bool}
    (hi : id < c.vars.max) (hk : Vars.HasKey c.vars id (n, tyOf isStr (isArr || decide (argc ≠ 0)))) (hx : argc ≠ 0 → isArr = false) :
    execId id argc c = execName isArr n isStr argc c := by
  unfold execId
  rw [if_neg (by omega), hk.1]
  dsimp only
  unfold pushSlot execName
  by_cases ha : argc = 0
  · subst ha
    have hk : Vars.HasKey c.vars id (n, tyOf isStr isArr) := by simpa using hk
    rw [if_pos rfl, if_pos rfl, lookup_found h hn hi hk]
    have e : (isArr || decide ((0 : Nat) ≠ 0)) = isArr := by simp
    rw [e]
    cases isStr <;> cases isArr <;> rfl
  · rw [if_neg ha, if_neg ha]
    have := hx ha
    subst this
    simp only [ne_eq, ha, not_false_eq_true, decide_true, Bool.or_true] at hk ⊢
    cases hs : c.subscripts argc with
    | err e => rfl
    | ub => rfl
    | ok s =>
      have hv : s.1.vars = c.vars := by
        unfold Core.subscripts at hs
        split at hs
        · cases hs
        · dsimp only at hs
          split at hs
          · obtain ⟨a, _, hs⟩ := bind_inv hs
            obtain ⟨b, _, hs⟩ := bind_inv hs
            cases hs; rfl
          · obtain ⟨a, _, hs⟩ := bind_inv hs
            cases hs; rfl
      show (s.1.elem id s.2.1 s.2.2).bind _ = (s.1.lookup n (tyOf isStr true)).bind _
      rw [lookup_found (by rw [hv]; exact h) hn (by rw [hv]; exact hi) (by rw [hv]; exact hk)]
      cases isStr <;> rfl

/-- The table of variables `t'` comes later than `t`: every variable of `t` still has its place. -/
structure Later (t t' : Vars.Table) : Prop where
  max : t'.max = t.max
  keys : ∀ i < t.max, ∀ k, Vars.HasKey t i k → Vars.HasKey t' i k

/-- Two outcomes that show the same. -/
def SameCore (n1 n2 : Nat) (x y : Out (Mach σ)) : Prop :=
  match x, y with
  | .ok m1, .ok m2 => m1.core = m2.core ∧ m1.exec.index = n1 ∧ m2.exec.index = n2 ∧ m1.exec.argc = 0 ∧ m2.exec.argc = 0
  | .err e, .err e' => e = e'
  | .ub, .ub => True
  | _, _ => False

theorem emit_id {s s1 : CodeSt} {k : Tk} (hinv : Vars.Inv s.vars) (hn : Names.GoodName (idName k.text)) (hmax : s.vars.max ≤ 2 ^ 24)
    (h : emitId s k = .ok (s1, .next)) :
    ∃ id i, id < s1.vars.max ∧ Vars.HasKey s1.vars id (idName k.text, idType k.text (k.ty == .arrayName || k.ty == .arrayActual)) ∧
      s1.buf = s.buf ++ Instr.bytes i ∧ (i = .simple bcVariableIdSmall id ∨
        ∃ b0 b1 b2, i = .varId b0 b1 b2 ∧ b0 + b1 * 256 + b2 * 65536 = id) := by
  have hlen : ¬ (idName k.text).length > 16 := by have := hn.2.1; omega
  have key : ∀ v id, Vars.getVar s.vars (idName k.text) (idType k.text (k.ty == .arrayName || k.ty == .arrayActual)) = (v, .ok id) →
      id < v.max ∧ v.max = s.vars.max ∧ Vars.HasKey v id (idName k.text, idType k.text (k.ty == .arrayName || k.ty == .arrayActual)) := by
    intro v id hv
    unfold Vars.getVar at hv
    rw [if_neg hlen] at hv
    cases hs : Vars.search s.vars (idName k.text) (idType k.text (k.ty == .arrayName || k.ty == .arrayActual)) with
    | none => rw [hs] at hv; cases hv
    | some i =>
      rw [hs] at hv
      obtain ⟨j, hj, hij, hor, _⟩ := Vars.search_some hinv hn hs
      have hi : i < s.vars.max := hij ▸ Vars.kpos_lt hinv _ _
      dsimp only at hv
      by_cases he : (s.vars.slots i).ty = none
      · rw [if_pos he] at hv
        cases hv
        refine ⟨hi, rfl, ?_⟩
        have hl := hinv.len id hi
        simp [Vars.HasKey, Vars.setSlot, Names.fieldName_storeName _ _ hl hn]
      · rw [if_neg he] at hv
        cases hv
        rcases hor with h' | h'
        · exact absurd h' he
        · exact ⟨hi, rfl, h'⟩
  unfold emitId at h
  dsimp only at h
  cases hg : Vars.getVar s.vars (idName k.text) (idType k.text (k.ty == .arrayName || k.ty == .arrayActual)) with
  | mk v r =>
    rw [hg] at h
    cases r with
    | ub => cases h
    | err e => cases h
    | ok id =>
      obtain ⟨h1, h2, h3⟩ := key v id hg
      dsimp only at h
      split at h
      · cases h
        exact ⟨id, .simple bcVariableIdSmall id, h1, h3, rfl, Or.inl rfl⟩
      · split at h
        · cases h
        · cases h
          refine ⟨id, .varId (id % 256) (id / 256 % 256) (id / 65536 % 256), h1, h3, rfl, Or.inr ⟨_, _, _, rfl, ?_⟩⟩
          omega

/-- The step of an instruction that only works on the core. -/
def moved (m : Mach σ) (n : Nat) (r : Out (Core σ)) : Out (Mach σ) :=
  r.bind fun c => .ok { m with core := c, exec := { m.exec with index := n, argc := 0 } }

theorem step_id {m : Mach σ} {a b : List Instr} {i : Instr} {id : Nat} (h : At m a (i :: b))
    (hi : i = .simple bcVariableIdSmall id ∨ ∃ b0 b1 b2, i = .varId b0 b1 b2 ∧ b0 + b1 * 256 + b2 * 65536 = id) :
    Machine.step env m = moved m (posAfter (a ++ [i])) (execId id m.exec.argc m.core) := by
  rw [h.step, posAfter_snoc]
  rcases hi with rfl | ⟨b0, b1, b2, rfl, he⟩
  · show (onCore (m.skip 2) (execId id m.exec.argc m.core)).bind _ = _
    cases execId id m.exec.argc m.core with
    | err e => rfl
    | ub => rfl
    | ok c =>
      show Out.ok (clearArgc bcVariableIdSmall _) = _
      rw [clearArgc_ne (by decide), ← h.index]
      rfl
  · have g1 := h.getTail 0
    have g2 := h.getTail 1
    have e : execInstr env bcVariableId b0 (m.skip 2) = onCore ((m.skip 2).skip 2) (execId id m.exec.argc m.core) := by
      show (match m.exec.code[m.exec.index + 2]?, m.exec.code[m.exec.index + 2 + 1]? with
        | some c1, some c2 => onCore ((m.skip 2).skip 2) (execId (b0 + c1 * 256 + c2 * 65536) m.exec.argc m.core)
        | _, _ => .ub) = _
      rw [show m.exec.code[m.exec.index + 2]? = some b1 from g1, show m.exec.code[m.exec.index + 2 + 1]? = some b2 from g2]
      dsimp only
      rw [he]
    show (execInstr env bcVariableId b0 (m.skip 2)).bind _ = _
    rw [e]
    cases execId id m.exec.argc m.core with
    | err e => rfl
    | ub => rfl
    | ok c =>
      show Out.ok (clearArgc bcVariableId _) = _
      rw [clearArgc_ne (by decide), ← h.index]
      rfl

/-- Whether a name is one of a string. -/
def nameStr (w : List Nat) : Bool := decide (w.getLast? = some 36)

theorem idType_eq (w : List Nat) (arr : Bool) : idType w arr = tyOf (nameStr w) arr := by
  unfold idType tyOf nameStr
  by_cases h : w.getLast? = some 36
  · rw [if_pos h]; simp [h]
  · rw [if_neg h]; simp [h]

/-- The instruction for a variable by its name. -/
def byName (op : Nat) : List Nat → Instr
  | [c] => .simple op c
  | w => .named op w

theorem step_name {m : Mach σ} {a b : List Instr} {i : Instr} {w : List Nat} {op : Nat} (hop : op = bcVariableName ∨ op = bcArrayName)
    (hlen : w.length ≤ 64) (hhead : ∃ c r, w = c :: r ∧ 65 ≤ c)
    (hi : i = byName op w) (h : At m a (i :: b)) :
    Machine.step env m = moved m (posAfter (a ++ [i])) (execName (op == bcArrayName) (idName w) (nameStr w) m.exec.argc m.core) := by
  obtain ⟨c, r, rfl, hc⟩ := hhead
  have hn : hasName op = true := by rcases hop with rfl | rfl <;> decide
  have hd : op ≠ bcDim := by rcases hop with rfl | rfl <;> decide
  have ha : op ≠ bcArgcount := by rcases hop with rfl | rfl <;> decide
  rw [h.step, posAfter_snoc]
  cases r with
  | nil =>
    have hi : i = .simple op c := hi
    subst hi
    show (execInstr env op c (m.skip 2)).bind _ = _
    rw [exec_named _ _ _ hn]
    have hrn : readName (m.skip 2).exec.code ((m.skip 2).exec.index - 2) c = .ok ([c], false, 0) := by
      unfold readName
      rw [if_neg (by omega)]
    rw [hrn]
    have hs : nameStr [c] = false := by unfold nameStr; simp; omega
    have hw : idName [c] = [c] := by unfold idName; rw [if_neg (by simp; omega)]
    rw [hs, hw]
    show (onCore ((m.skip 2).skip 0) (if op = bcDim then _ else execName (op == bcArrayName) [c] false m.exec.argc m.core)).bind _ = _
    rw [if_neg hd]
    show (onCore ((m.skip 2).skip 0) (execName (op == bcArrayName) [c] false m.exec.argc m.core)).bind _ = _
    cases execName (op == bcArrayName) [c] false m.exec.argc m.core with
    | err e => rfl
    | ub => rfl
    | ok c =>
      show Out.ok (clearArgc op _) = _
      rw [clearArgc_ne ha, ← h.index]
      rfl
  | cons d r =>
    have hi : i = .named op (c :: d :: r) := hi
    subst hi
    clear hi
    obtain ⟨w, hw⟩ : ∃ w, w = c :: d :: r := ⟨_, rfl⟩
    rw [← hw] at h hlen ⊢
    show (execInstr env op w.length (m.skip 2)).bind _ = _
    rw [exec_named _ _ _ hn]
    have hdr : m.exec.code.drop (m.exec.index + 2) = padText w ++ encode b := h.drop
    have hrn : readName (m.skip 2).exec.code ((m.skip 2).exec.index - 2) w.length = .ok (idName w, nameStr w, w.length + w.length % 2) := by
      unfold readName
      rw [if_pos (by omega)]
      rw [show (m.skip 2).exec.index - 2 + 2 = m.exec.index + 2 from by show m.exec.index + 2 - 2 + 2 = _; omega]
      rw [show (m.skip 2).exec.code = m.exec.code from rfl, hdr]
      dsimp only
      rw [take_padText, if_neg (by rw [hw]; simp)]
      unfold idName nameStr
      by_cases h36 : w.getLast? = some 36
      · rw [if_pos h36, if_pos h36]; simp [h36]
      · rw [if_neg h36, if_neg h36]; simp [h36]
    rw [hrn]
    show (onCore ((m.skip 2).skip (w.length + w.length % 2)) (if op = bcDim then _ else execName (op == bcArrayName) (idName w) (nameStr w) m.exec.argc m.core)).bind _ = _
    rw [if_neg hd]
    show (onCore ((m.skip 2).skip (w.length + w.length % 2)) (execName (op == bcArrayName) (idName w) (nameStr w) m.exec.argc m.core)).bind _ = _
    cases execName (op == bcArrayName) (idName w) (nameStr w) m.exec.argc m.core with
    | err e => rfl
    | ub => rfl
    | ok c =>
      show Out.ok (clearArgc op _) = _
      rw [clearArgc_ne ha, ← h.index]
      show Out.ok _ = Out.ok _
      have : (tail (.named op w)).length = w.length + w.length % 2 := padText_length w
      rw [this]
      rfl

/-- **C88.** Compiling a variable by its number or by its name makes no difference.  Whatever variable, array element or
whole array a token names: let it be compiled with numbers (the table of variables gets an entry for it) and with names;
then at any later time, executing the one instruction or the other has the same effect (value or element on the stack,
error, undefined behaviour), and both go on behind their own instruction. -/
theorem C88_ids (s s1 s2 : CodeSt) (k : Tk) (hinv : Vars.Inv s.vars) (hmax : s.vars.max ≤ 2 ^ 24)
    (hty : k.ty = .name ∨ k.ty = .arrayName ∨ k.ty = .arrayActual) (hn : Names.GoodName (idName k.text)) (hlen : k.text.length ≤ 64)
    (hhead : ∃ c r, k.text = c :: r ∧ 65 ≤ c) (heven : s.buf.length % 2 = 0)
    (h1 : emitTok true s k = .ok (s1, .next)) (h2 : emitTok false s k = .ok (s2, .next)) :
    ∃ i1 i2 : Instr, s1.buf = s.buf ++ i1.bytes ∧ s2.buf = s.buf ++ i2.bytes ∧
      ∀ (env : Env σ) (m1 m2 : Mach σ) (a1 b1 a2 b2 : List Instr), At m1 a1 (i1 :: b1) → At m2 a2 (i2 :: b2) → m1.core = m2.core →
        m1.exec.argc = m2.exec.argc → (m1.exec.argc ≠ 0 ↔ k.ty = .arrayName) → Vars.Inv m1.core.vars → Later s1.vars m1.core.vars →
        SameCore (posAfter (a1 ++ [i1])) (posAfter (a2 ++ [i2])) (Machine.step env m1) (Machine.step env m2) := by
  have e1 : emitId s k = .ok (s1, .next) := by
    have : emitTok true s k = (if true = true ∧ k.ty ≠ .dimArr then emitId s k else .ok (emitName s k, .next)) := by
      unfold emitTok; rcases hty with h | h | h <;> rw [h]
    rw [this, if_pos ⟨rfl, by rcases hty with h | h | h <;> rw [h] <;> decide⟩] at h1
    exact h1
  have e2 : s2 = emitName s k := by
    have : emitTok false s k = (if false = true ∧ k.ty ≠ .dimArr then emitId s k else .ok (emitName s k, .next)) := by
      unfold emitTok; rcases hty with h | h | h <;> rw [h]
    rw [this, if_neg (by simp)] at h2
    cases h2; rfl
  obtain ⟨id, i1, hid, hkey, hb1, hi1⟩ := emit_id hinv hn hmax e1
  have hop : ∃ op, (op = bcVariableName ∨ op = bcArrayName) ∧ (op == bcArrayName) = (k.ty == .arrayActual) ∧
      op = if k.ty = .dimArr then bcDim else if k.ty = .arrayActual then bcArrayName else bcVariableName := by
    rcases hty with h | h | h <;> rw [h]
    · exact ⟨bcVariableName, Or.inl rfl, rfl, rfl⟩
    · exact ⟨bcVariableName, Or.inl rfl, rfl, rfl⟩
    · exact ⟨bcArrayName, Or.inr rfl, rfl, rfl⟩
  obtain ⟨op, ho1, ho2, ho3⟩ := hop
  have hb2 : s2.buf = s.buf ++ Instr.bytes (byName op k.text) := by
    obtain ⟨c, r, hk, hc⟩ := hhead
    rw [e2]
    unfold emitName
    rw [← ho3, hk]
    cases r with
    | nil => rfl
    | cons d r => 
      rw [hk] at hlen
      exact putText_bytes s op (c :: d :: r) heven (by omega)
  refine ⟨i1, _, hb1, hb2, ?_⟩
  intro env m1 m2 a1 b1 a2 b2 hm1 hm2 hcore hargc hidx hinv' hlater
  rw [step_id hm1 hi1, step_name ho1 hlen hhead rfl hm2, ho2, ← hcore, ← hargc]
  have hk2 := hlater.keys id hid _ hkey
  have heq : execId id m1.exec.argc m1.core = execName (k.ty == .arrayActual) (idName k.text) (nameStr k.text) m1.exec.argc m1.core := by
    refine id_eq_name hinv' hn (by rw [hlater.max]; exact hid) ?_ ?_
    · rw [idType_eq] at hk2
      have : (k.ty == .arrayActual || decide (m1.exec.argc ≠ 0)) = (k.ty == .arrayName || k.ty == .arrayActual) := by
        rcases hty with h | h | h
        · have : ¬ m1.exec.argc ≠ 0 := fun e => by rw [hidx.mp e] at h; cases h
          rw [h]; simp [this]
        · have : m1.exec.argc ≠ 0 := hidx.mpr h
          rw [h]; simp [this]
        · rw [h]; simp
      rw [this]
      exact hk2
    · intro e
      rw [hidx.mp e]; rfl
  rw [heq]
  unfold moved SameCore
  cases execName (k.ty == .arrayActual) (idName k.text) (nameStr k.text) m1.exec.argc m1.core with
  | err e => exact rfl
  | ub => trivial
  | ok c => exact ⟨rfl, rfl, rfl, rfl, rfl⟩

/-- A concrete case: in a table of 512 variables `ADC$` gets the number 383, which is written in three bytes. -/
example : (emitTok true ⟨[], Vars.init 512 true, []⟩ ⟨.name, [65, 68, 67, 36], 0, 0⟩).bind (fun r => .ok (r.1.buf, r.2)) =
    .ok ([bcVariableId, 127, 1, 0], .next) ∧
  (emitTok false ⟨[], Vars.init 512 true, []⟩ ⟨.name, [65, 68, 67, 36], 0, 0⟩).bind (fun r => .ok (r.1.buf, r.2)) =
    .ok ([bcVariableName, 4, 65, 68, 67, 36], .next) := by decide +kernel

end Sbc.Machine
