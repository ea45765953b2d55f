import Verif.Spec.Flow
import Verif.Proof.Code
set_option autoImplicit false
/-!
# Execution of encoded programs
-/
namespace Sbc.Machine
open Sbc Sbc.Tok Sbc.Tok.Spec

variable {σ : Type} {env : Env σ}

/-! ## Reaching -/

theorem Reaches.refl (m : Mach σ) : Reaches env m m := ⟨0, rfl⟩

theorem steps_add (k n : Nat) (m : Mach σ) : steps env (k + n) m = (steps env k m).bind (steps env n) := by
  induction k generalizing m with
  | zero => rw [Nat.zero_add]; rfl
  | succ k ih =>
    rw [show k + 1 + n = (k + n) + 1 by omega]
    simp only [steps]
    cases step env m with
    | ok a => simp only [Out.bind]; exact ih a
    | err e => rfl
    | ub => rfl

theorem Reaches.trans {a b c : Mach σ} (h1 : Reaches env a b) (h2 : Reaches env b c) : Reaches env a c := by
  obtain ⟨k, h1⟩ := h1
  obtain ⟨n, h2⟩ := h2
  exact ⟨k + n, by rw [steps_add, h1]; exact h2⟩

theorem Reaches.one {a b : Mach σ} (h : step env a = .ok b) : Reaches env a b :=
  ⟨1, by simp only [steps, h, Out.bind]⟩

theorem Reaches.head {a b c : Mach σ} (h : step env a = .ok b) (h2 : Reaches env b c) : Reaches env a c :=
  (Reaches.one h).trans h2

/-! ## Fetching -/

/-- Second byte of an instruction. -/
def arg : Instr → Nat
  | .simple _ a => a
  | .num .. => 0
  | .varId b0 _ _ => b0
  | .text _ l => l.length
  | .named _ l => l.length

/-- Bytes after the first two. -/
def tail : Instr → List Nat
  | .simple _ _ => []
  | .num b3 b2 b1 b0 => [b3, b2, b1, b0]
  | .varId _ b1 b2 => [b1, b2]
  | .text _ l => padText l
  | .named _ l => padText l

theorem bytes_eq (i : Instr) : i.bytes = i.op :: arg i :: tail i := by cases i <;> rfl

theorem code_split (a b : List Instr) (i : Instr) :
    encode (a ++ i :: b) = encode a ++ (i.op :: arg i :: (tail i ++ encode b)) := by
  rw [encode_append, encode_cons, bytes_eq]; rfl

theorem posAfter_snoc (a : List Instr) (i : Instr) : posAfter (a ++ [i]) = posAfter a + 2 + (tail i).length := by
  unfold posAfter
  rw [encode_append, List.length_append]
  have : encode [i] = i.bytes := by simp [encode]
  rw [this, bytes_eq]
  simp only [List.length_cons]
  omega

theorem posAfter_append (a b : List Instr) : posAfter (a ++ b) = posAfter a + posAfter b := by
  unfold posAfter; rw [encode_append, List.length_append]

theorem get_at (l r : List Nat) (k : Nat) : (l ++ r)[l.length + k]? = r[k]? := by
  rw [List.getElem?_append_right (by omega)]; congr 1; omega

theorem At.get0 {m : Mach σ} {a b : List Instr} {i : Instr} (h : At m a (i :: b)) : m.exec.code[m.exec.index]? = some i.op := by
  rw [h.code, h.index, code_split]; exact get_at _ _ 0

theorem At.get1 {m : Mach σ} {a b : List Instr} {i : Instr} (h : At m a (i :: b)) :
    m.exec.code[m.exec.index + 1]? = some (arg i) := by
  rw [h.code, h.index, code_split]; exact get_at _ _ 1

theorem At.getTail {m : Mach σ} {a b : List Instr} {i : Instr} (h : At m a (i :: b)) (k : Nat) :
    m.exec.code[m.exec.index + 2 + k]? = (tail i ++ encode b)[k]? := by
  rw [h.code, h.index, code_split]
  have := get_at (encode a) (i.op :: arg i :: (tail i ++ encode b)) (2 + k)
  rw [show (encode a).length + (2 + k) = posAfter a + 2 + k by unfold posAfter; omega] at this
  rw [this, show 2 + k = k + 1 + 1 by omega]
  rfl

theorem drop_code (l r : List Nat) (k : Nat) : (l ++ r).drop (l.length + k) = r.drop k := by
  rw [List.drop_append, List.drop_eq_nil_of_le (by omega)]
  simp

theorem At.drop {m : Mach σ} {a b : List Instr} {i : Instr} (h : At m a (i :: b)) :
    m.exec.code.drop (m.exec.index + 2) = tail i ++ encode b := by
  rw [h.code, h.index, code_split]
  exact drop_code (encode a) _ 2

theorem At.notEnded {m : Mach σ} {a b : List Instr} {i : Instr} (h : At m a (i :: b)) : m.ended = false := by
  have h0 := h.get0
  unfold Mach.ended
  have : m.exec.index < m.exec.code.length := by
    by_contra hc
    rw [List.getElem?_eq_none (by omega)] at h0
    cases h0
  rw [h.error]
  simp; omega

/-- A step at an instruction. -/
theorem At.step {m : Mach σ} {a b : List Instr} {i : Instr} (h : At m a (i :: b)) :
    step env m = (execInstr env i.op (arg i) (m.skip 2)).bind fun m' => .ok (clearArgc i.op m') := by
  unfold Machine.step
  rw [h.notEnded, if_neg (by simp), h.get0, h.get1]

/-! ## Scanning -/

/-- The first instruction satisfying `p`. -/
def splitBy (p : Instr → Bool) : List Instr → Option (List Instr × Instr × List Instr)
  | [] => none
  | i :: r => if p i then some ([], i, r) else (splitBy p r).map fun x => (i :: x.1, x.2)

theorem splitBy_mid (p : Instr → Bool) (c d : List Instr) (i : Instr) (hc : ∀ j ∈ c, p j = false) (hi : p i = true) :
    splitBy p (c ++ i :: d) = some (c, i, d) := by
  induction c with
  | nil => simp [splitBy, hi]
  | cons x c ih =>
    have hx := hc x (by simp)
    simp only [List.cons_append, splitBy, hx]
    rw [if_neg (by simp), ih (fun j hj => hc j (by simp [hj]))]
    rfl

theorem splitBy_none (p : Instr → Bool) (c : List Instr) (hc : ∀ j ∈ c, p j = false) : splitBy p c = none := by
  induction c with
  | nil => rfl
  | cons x c ih =>
    have hx := hc x (by simp)
    simp only [splitBy, hx]
    rw [if_neg (by simp), ih (fun j hj => hc j (by simp [hj]))]
    rfl

theorem splitAt_mid (find : Nat) (c d : List Instr) (i : Instr) (hc : ∀ j ∈ c, j.op ≠ find) (hi : i.op = find) :
    splitAt find (c ++ i :: d) = some (c, i, d) := by
  induction c with
  | nil => simp [splitAt, hi]
  | cons x c ih =>
    have hx := hc x (by simp)
    simp only [List.cons_append, splitAt]
    rw [if_neg hx, ih (fun j hj => hc j (by simp [hj]))]
    rfl

theorem bcScan_mid (a c d : List Instr) (i : Instr) (find : Nat) (hw : ∀ j ∈ c ++ i :: d, j.WF)
    (hc : ∀ j ∈ c, j.op ≠ find) (hi : i.op = find) :
    bcScan (encode (a ++ (c ++ i :: d))) (posAfter a) find = .ok (some (posAfter (a ++ c))) := by
  unfold bcScan bcScanPair
  rw [scanPair_spec find (c ++ i :: d) a _ none hw (by rw [encode_append a, List.length_append]; omega),
    splitAt_mid find c d i hc hi]
  rfl

theorem splitAt_none' (find : Nat) (c : List Instr) (hc : ∀ j ∈ c, j.op ≠ find) : splitAt find c = none := by
  induction c with
  | nil => rfl
  | cons x c ih =>
    unfold splitAt
    rw [if_neg (hc x (by simp)), ih (fun j hj => hc j (by simp [hj]))]
    rfl

theorem bcScan_none (a c : List Instr) (find : Nat) (hw : ∀ j ∈ c, j.WF) (hc : ∀ j ∈ c, j.op ≠ find) :
    bcScan (encode (a ++ c)) (posAfter a) find = .ok none := by
  unfold bcScan bcScanPair
  rw [scanPair_spec find c a _ none hw (by rw [encode_append, List.length_append]; omega), splitAt_none' find c hc]
  rfl

theorem byte_arg (a d : List Instr) (i : Instr) : byte (encode (a ++ i :: d)) (posAfter a + 1) = .ok (arg i) := by
  unfold byte
  rw [code_split]
  rw [show (encode a ++ (i.op :: arg i :: (tail i ++ encode d)))[posAfter a + 1]? = some (arg i) from get_at _ _ 1]

/-- `scanFor` finds the first instruction `find` with an accepted operand. -/
theorem scanFor_mid (find : Nat) (p : Nat → Bool) (hf : ∀ (i : Instr), i.WF → i.op = find → ∃ d, i = .simple find d) (d : List Instr) (x : Nat)
    (hp : p x = true) : (n : Nat) → (c a : List Instr) → (fuel : Nat) → c.length ≤ n → c.length < fuel →
    (∀ j ∈ c ++ .simple find x :: d, j.WF) → (∀ y, .simple find y ∈ c → p y = false) →
    scanFor (encode (a ++ (c ++ .simple find x :: d))) find p fuel (posAfter a) = .ok (some (posAfter (a ++ c)))
  | n, c, a, 0, _, hfu, _, _ => absurd hfu (Nat.not_lt_zero _)
  | n, c, a, fuel + 1, hn, hfu, hw, hc => by
    by_cases h : ∀ j ∈ c, j.op ≠ find
    · simp only [scanFor]
      rw [bcScan_mid a c d (.simple find x) find hw h rfl]
      simp only [Out.bind]
      rw [← List.append_assoc, byte_arg (a ++ c) d (.simple find x)]
      simp only [arg, hp, if_true]
    · -- there is an earlier one
      have : ∃ c1 y c2, c = c1 ++ .simple find y :: c2 ∧ ∀ j ∈ c1, j.op ≠ find := by
        have hcw : ∀ j ∈ c, j.WF := fun j hj => hw j (by simp [hj])
        clear hn hfu hw hc
        induction c with
        | nil => simp at h
        | cons z c ih =>
          by_cases hz : z.op = find
          · obtain ⟨y, rfl⟩ := hf z (hcw z (by simp)) hz
            exact ⟨[], y, c, rfl, by simp⟩
          · obtain ⟨c1, y, c2, h1, h2⟩ := ih (by simpa [hz] using h) (fun j hj => hcw j (by simp [hj]))
            exact ⟨z :: c1, y, c2, by rw [h1]; rfl, by simpa [hz] using h2⟩
      obtain ⟨c1, y, c2, rfl, h1⟩ := this
      cases n with
      | zero => simp at hn
      | succ n =>
        simp only [scanFor]
        have e1 : c1 ++ .simple find y :: c2 ++ .simple find x :: d = c1 ++ .simple find y :: (c2 ++ .simple find x :: d) := by simp
        rw [e1, bcScan_mid a c1 (c2 ++ .simple find x :: d) (.simple find y) find (by rw [← e1]; exact hw) h1 rfl]
        simp only [Out.bind]
        rw [← List.append_assoc, byte_arg (a ++ c1) _ (.simple find y)]
        simp only [arg, hc y (by simp)]
        rw [if_neg (by simp)]
        have e2 : a ++ c1 ++ .simple find y :: (c2 ++ .simple find x :: d) = (a ++ c1 ++ [.simple find y]) ++ (c2 ++ .simple find x :: d) := by simp
        have e3 : posAfter (a ++ c1) + 2 = posAfter (a ++ c1 ++ [.simple find y]) := by rw [posAfter_snoc]; rfl
        rw [e2, e3]
        simp only [List.length_append, List.length_cons] at hn hfu
        rw [scanFor_mid find p hf d x hp n c2 _ fuel (by omega) (by omega)
          (fun j hj => hw j (by
            rw [e1]; exact List.mem_append_right _ (List.mem_cons_of_mem _ hj)))
          (fun z hz => hc z (by simp [hz]))]
        simp

theorem simpleOp (find : Nat) (h : hasText find = false ∧ hasName find = false ∧ find ≠ bcNumber ∧ find ≠ bcVariableId)
    (i : Instr) (hw : i.WF) (hi : i.op = find) : ∃ d, i = .simple find d := by
  cases i with
  | simple op a => exact ⟨a, by rw [← hi]; rfl⟩
  | num => exact absurd hi.symm h.2.2.1
  | varId => exact absurd hi.symm h.2.2.2
  | text op l => have h1 : hasText op = true := hw.1; rw [show op = find from hi, h.1] at h1; cases h1
  | named op l => have h1 : hasName op = true := hw.1; rw [show op = find from hi, h.2.1] at h1; cases h1

theorem length_le_encode (c : List Instr) : c.length ≤ (encode c).length := by
  induction c with
  | nil => simp
  | cons i c ih => rw [encode_cons, List.length_append, List.length_cons, bytes_eq, List.length_cons]; omega

/-- The same for the scan of the machine. -/
theorem execScan_mid {m : Mach σ} {a : List Instr} (find : Nat) (p : Nat → Bool)
    (h : hasText find = false ∧ hasName find = false ∧ find ≠ bcNumber ∧ find ≠ bcVariableId) (c d : List Instr) (x : Nat)
    (hm : m.exec.code = encode (a ++ (c ++ .simple find x :: d))) (hp : p x = true)
    (hw : ∀ j ∈ c ++ .simple find x :: d, j.WF) (hc : ∀ y, .simple find y ∈ c → p y = false) :
    m.exec.scanFor find p (posAfter a) = .ok (some (posAfter (a ++ c))) := by
  unfold Exec.scanFor
  rw [hm]
  refine scanFor_mid find p (fun i hi => simpleOp find h i hi) d x hp c.length c a _ (Nat.le_refl _) ?_ hw hc
  have := length_le_encode c
  rw [encode_append a, encode_append c, List.length_append, List.length_append]
  omega

/-! ## Single instructions -/

theorem exec_small (d : Nat) (m : Mach σ) : execInstr env bcSmallNumber d m =
    if d ≤ 99 then onCore m (m.core.push (.num (d * 4096))) else .ok (m.fail eNumInvalid) := rfl

theorem exec_op (d : Nat) (m : Mach σ) : execInstr env bcOperator d m = onCore m (execOp env d m.exec.argc m.core) := rfl

theorem exec_cmd (d : Nat) (m : Mach σ) (h : d < 110) : execInstr env bcCommand d m =
    (execCmd env d m).bind fun m' => .ok (if keepsStack d then m' else { m' with core := { m'.core with stack := [] } }) := by
  show (if d ≥ 110 then _ else _) = _
  rw [if_neg (by omega)]

theorem exec_cmdFirst (d : Nat) (m : Mach σ) (h : d < 110) : execInstr env bcCommandFirst d m =
    (execCmd env d m).bind fun m' => .ok (if keepsStack d then m' else { m' with core := { m'.core with stack := [] } }) := by
  show (if d ≥ 110 then _ else _) = _
  rw [if_neg (by omega)]

theorem exec_idSmall (d : Nat) (m : Mach σ) : execInstr env bcVariableIdSmall d m = onCore m (execId d m.exec.argc m.core) := rfl

theorem exec_begin (d : Nat) (m : Mach σ) : execInstr env bcBeginLoop d m = execBegin m := rfl

theorem push_ok (c : Core σ) (e : Entry) (h : c.stack.length < 100) : c.push e = .ok { c with stack := c.stack ++ [e] } := by
  unfold Core.push; rw [if_neg (by omega)]

theorem clearArgc_ne {op : Nat} (h : op ≠ bcArgcount) (m : Mach σ) :
    clearArgc op m = { m with exec := { m.exec with argc := 0 } } := by
  unfold clearArgc; rw [if_neg h]

/-- The state after a simple instruction that changes only the core. -/
theorem At.simple {m : Mach σ} {a b : List Instr} {op d : Nat} (h : At m a (.simple op d :: b)) (ha : op ≠ bcArgcount)
    (c : Core σ) (hargc : m.exec.argc = 0)
    (he : execInstr env op d (m.skip 2) = onCore (m.skip 2) (.ok c)) : Reaches env m (after m a [.simple op d] c) := by
  refine Reaches.one ?_
  rw [h.step]
  show (execInstr env op d (m.skip 2)).bind _ = _
  rw [he]
  show Out.ok (clearArgc op _) = _
  rw [clearArgc_ne ha]
  simp only [after, Mach.skip]
  rw [posAfter_snoc, h.index]
  simp only [tail, List.length_nil, Nat.add_zero]
  rw [hargc]

theorem At.after {m : Mach σ} {a e b : List Instr} {c : Core σ} (h : At m a (e ++ b)) (hc : c.error = 0) :
    At (after m a e c) (a ++ e) b := ⟨by rw [List.append_assoc]; exact h.code, rfl, hc⟩

theorem after_after (m : Mach σ) (a e f : List Instr) (c c' : Core σ) :
    after (after m a e c) (a ++ e) f c' = after m a (e ++ f) c' := by
  unfold Machine.after; rw [List.append_assoc]

/-! ## Operators -/

theorem execOp_assign {c : Core σ} {rest : List Entry} {r : Bool} {p : Ptr} {en : Entry} {argc : Nat} {v : Int}
    (hs : c.stack = rest ++ [.var false r p, en]) (hn : isNum en = true) (hv : c.num en = .ok v) :
    execOp env opAssign argc c = .ok { c.store p v with stack := rest } := by
  have hr : c.stack.reverse = en :: .var false r p :: rest.reverse := by rw [hs]; simp
  unfold execOp
  rw [if_neg (by decide), if_neg (by decide), if_neg (by decide), hr]
  dsimp only
  rw [if_pos (by rw [hn]; rfl), if_pos (by decide)]
  unfold opAssignNum
  rw [hv, List.reverse_reverse]
  rfl

theorem execOp_two {c : Core σ} {rest : List Entry} {a b : Entry} {op argc : Nat} {x y v : Int}
    (hop : op < 20 ∧ op ≠ 1 ∧ op ≠ 5 ∧ op ≠ 6 ∧ op ≠ 7 ∧ op ≠ 18 ∧ op ≠ 19)
    (hs : c.stack = rest ++ [a, b]) (ha : isNum a = true) (hb : isNum b = true) (hx : c.num a = .ok x) (hy : c.num b = .ok y)
    (hv : numOp2 op x y = some (.ok v)) (hl : rest.length < 100) :
    execOp env op argc c = .ok { c with stack := rest ++ [.num v] } := by
  have hr : c.stack.reverse = b :: a :: rest.reverse := by rw [hs]; simp
  unfold execOp
  rw [if_neg (by omega), if_neg (by omega), if_neg (by omega), hr]
  dsimp only
  rw [if_pos (by rw [ha, hb]; rfl), if_neg (by omega), hx]
  simp only [Out.bind]
  rw [hy]
  simp only [hv, Core.result, List.reverse_reverse]
  exact push_ok _ _ hl

theorem execOp_one {c : Core σ} {rest : List Entry} {a : Entry} {op argc : Nat} {x v : Int}
    (hop : op = 7 ∨ op = 18 ∨ op = 19)
    (hs : c.stack = rest ++ [a]) (ha : isNum a = true) (hx : c.num a = .ok x)
    (hv : numOp1 op x = some (.ok v)) (hl : rest.length < 100) :
    execOp env op argc c = .ok { c with stack := rest ++ [.num v] } := by
  have hr : c.stack.reverse = a :: rest.reverse := by rw [hs]; simp
  unfold execOp
  rw [if_neg (by omega), if_neg (by omega), if_pos hop, hr]
  dsimp only
  rw [if_pos ha, hx]
  simp only [Out.bind, hv, Core.result, List.reverse_reverse]
  exact push_ok _ _ hl

/-! ## Expressions -/

theorem core_num_stack (c : Core σ) (st : List Entry) (x : Entry) : Core.num { c with stack := st } x = c.num x := by
  cases x with
  | var s r p => cases s <;> rfl
  | _ => rfl

/-- Constants. -/
theorem evals_small (Inv : Core σ → Prop) (hs : ∀ c st, Inv c → Inv { c with stack := st }) (p : Ptr) (d : Nat) (hd : d ≤ 99) :
    Evals env Inv p [.simple bcSmallNumber d] (d * 4096) := by
  intro m a b h ha hl hi
  refine ⟨{ m.core with stack := m.core.stack ++ [.num (d * 4096)] }, .num (d * 4096), ?_, rfl, rfl, rfl, h.error, rfl, ?_, hs _ _ hi⟩
  · refine At.simple h (by decide) _ ha ?_
    simp only [List.length_singleton] at hl
    rw [exec_small, if_pos hd]
    refine congrArg _ ?_
    exact push_ok _ _ (show m.core.stack.length < 100 by omega)
  · intro x _; exact core_num_stack _ _ _

/-- Large constants. -/
theorem evals_num (Inv : Core σ → Prop) (hs : ∀ c st, Inv c → Inv { c with stack := st }) (p : Ptr) (b3 b2 b1 b0 : Nat) :
    Evals env Inv p [.num b3 b2 b1 b0] (numBytes b3 b2 b1 b0) := by
  intro m a b h ha hl hi
  simp only [List.length_singleton] at hl
  refine ⟨{ m.core with stack := m.core.stack ++ [.num (numBytes b3 b2 b1 b0)] }, .num (numBytes b3 b2 b1 b0), ?_, rfl, rfl, rfl,
    h.error, rfl, fun x _ => core_num_stack _ _ _, hs _ _ hi⟩
  have h' : At m a (.num b3 b2 b1 b0 :: b) := h
  refine Reaches.one ?_
  rw [h'.step]
  have g0 := h'.getTail 0
  have g1 := h'.getTail 1
  have g2 := h'.getTail 2
  have g3 := h'.getTail 3
  simp only [tail, List.cons_append, List.getElem?_cons_zero, List.getElem?_cons_succ, Nat.add_zero] at g0 g1 g2 g3
  have e : execInstr env bcNumber 0 (m.skip 2) =
      (match (m.skip 2).exec.code[(m.skip 2).exec.index]?, (m.skip 2).exec.code[(m.skip 2).exec.index + 1]?,
          (m.skip 2).exec.code[(m.skip 2).exec.index + 2]?, (m.skip 2).exec.code[(m.skip 2).exec.index + 3]? with
    | some b3, some b2, some b1, some b0 => onCore ((m.skip 2).skip 4) ((m.skip 2).core.push (.num (numBytes b3 b2 b1 b0)))
    | _, _, _, _ => .ub) := rfl
  show (execInstr env bcNumber 0 (m.skip 2)).bind _ = _
  rw [e]
  simp only [Mach.skip, g0, g1, g2, g3]
  rw [push_ok _ _ (by omega)]
  show Out.ok (clearArgc bcNumber _) = _
  rw [clearArgc_ne (by decide)]
  simp only [Machine.after]
  rw [posAfter_snoc, h.index]
  simp only [tail, List.length_cons, List.length_nil]
  rw [ha]

/-- A number variable by its index. -/
theorem evals_id (Inv : Core σ → Prop) (hs : ∀ c st, Inv c → Inv { c with stack := st }) (p : Ptr) (d : Nat) (v : Int)
    (hv : ∀ c, Inv c → d < c.vars.max ∧ (c.vars.slots d).ty = some .num ∧ c.mem (.slot d) = v) :
    Evals env Inv p [.simple bcVariableIdSmall d] v := by
  intro m a b h ha hl hi
  simp only [List.length_singleton] at hl
  obtain ⟨h1, h2, h3⟩ := hv _ hi
  refine ⟨{ m.core with stack := m.core.stack ++ [.var false false (.slot d)] }, .var false false (.slot d), ?_, rfl, rfl,
    congrArg Out.ok h3, h.error, rfl, fun x _ => core_num_stack _ _ _, hs _ _ hi⟩
  refine At.simple h (by decide) _ ha ?_
  rw [exec_idSmall]
  refine congrArg _ ?_
  show execId d m.exec.argc m.core = _
  unfold execId
  rw [if_neg (by omega), h2]
  simp only [pushSlot, ha, if_true]
  exact push_ok _ _ (by omega)

theorem pushesVar_id (Inv : Core σ → Prop) (hs : ∀ c st, Inv c → Inv { c with stack := st }) (d : Nat)
    (hv : ∀ c, Inv c → d < c.vars.max ∧ (c.vars.slots d).ty = some .num) :
    PushesVar env Inv Inv (.slot d) [.simple bcVariableIdSmall d] := by
  intro m a b h ha hl hi
  obtain ⟨h1, h2⟩ := hv _ hi
  refine ⟨{ m.core with stack := m.core.stack ++ [.var false false (.slot d)] }, ?_, rfl, h.error, hs _ _ hi⟩
  refine At.simple h (by decide) _ ha ?_
  rw [exec_idSmall]
  refine congrArg _ ?_
  show execId d m.exec.argc m.core = _
  unfold execId
  rw [if_neg (by omega), h2]
  simp only [pushSlot, ha, if_true]
  exact push_ok _ _ (by omega)

/-- A binary operator applied to two expressions. -/
theorem evals_op2 (Inv : Core σ → Prop) (hs : ∀ c st, Inv c → Inv { c with stack := st }) (p : Ptr) (e1 e2 : List Instr) (op : Nat)
    (x y v : Int) (hop : op < 20 ∧ op ≠ 1 ∧ op ≠ 5 ∧ op ≠ 6 ∧ op ≠ 7 ∧ op ≠ 18 ∧ op ≠ 19) (h1 : Evals env Inv p e1 x)
    (h2 : Evals env Inv p e2 y) (hv : numOp2 op x y = some (.ok v)) (hne : 0 < e1.length) :
    Evals env Inv p (e1 ++ e2 ++ [.simple bcOperator op]) v := by
  intro m a b h ha hl hi
  simp only [List.length_append, List.length_singleton] at hl
  have h' : At m a (e1 ++ (e2 ++ .simple bcOperator op :: b)) := by
    refine ⟨?_, h.index, h.error⟩
    rw [h.code]; simp
  obtain ⟨c1, n1, r1, s1, t1, v1, er1, p1, k1, i1⟩ := h1 m a _ h' ha (by omega) hi
  have h'' := h'.after er1
  obtain ⟨c2, n2, r2, s2, t2, v2, er2, p2, k2, i2⟩ := h2 _ _ _ h'' ha (by show c1.stack.length + _ ≤ 100; rw [s1]; simp only [List.length_append, List.length_singleton]; omega) i1
  rw [after_after] at r2
  change c2.stack = c1.stack ++ [n2] at s2
  rw [s1, List.append_assoc] at s2
  have h3 : At (after m a (e1 ++ e2) c2) (a ++ (e1 ++ e2)) (.simple bcOperator op :: b) := by
    refine At.after ?_ er2
    refine ⟨?_, h.index, h.error⟩
    rw [h.code]; simp
  have hx : c2.num n1 = .ok x := (k2 n1 (by show n1 ∈ c1.stack; rw [s1]; simp)).trans v1
  have r3 := At.simple (env := env) h3 (by decide) { c2 with stack := m.core.stack ++ [.num v] } ha (by
    rw [exec_op]
    refine congrArg _ ?_
    exact execOp_two hop s2 t1 t2 hx v2 hv (by omega))
  rw [after_after] at r3
  refine ⟨_, .num v, (r1.trans r2).trans r3, rfl, rfl, rfl, er2, p2.trans p1, ?_, hs _ _ i2⟩
  intro z hz
  rw [core_num_stack]
  exact (k2 z (by show z ∈ c1.stack; rw [s1]; simp [hz])).trans (k1 z hz)

/-- A unary operator. -/
theorem evals_op1 (Inv : Core σ → Prop) (hs : ∀ c st, Inv c → Inv { c with stack := st }) (p : Ptr) (e1 : List Instr) (op : Nat)
    (x v : Int) (hop : op = 7 ∨ op = 18 ∨ op = 19) (h1 : Evals env Inv p e1 x) (hv : numOp1 op x = some (.ok v)) (hne : 0 < e1.length) :
    Evals env Inv p (e1 ++ [.simple bcOperator op]) v := by
  intro m a b h ha hl hi
  simp only [List.length_append, List.length_singleton] at hl
  have h' : At m a (e1 ++ (.simple bcOperator op :: b)) := by
    refine ⟨?_, h.index, h.error⟩
    rw [h.code]; simp
  obtain ⟨c1, n1, r1, s1, t1, v1, er1, p1, k1, i1⟩ := h1 m a _ h' ha (by omega) hi
  have h3 := h'.after er1
  have r3 := At.simple (env := env) h3 (by decide) { c1 with stack := m.core.stack ++ [.num v] } ha (by
    rw [exec_op]
    refine congrArg _ ?_
    exact execOp_one hop s1 t1 v1 hv (by omega))
  rw [after_after] at r3
  refine ⟨_, .num v, r1.trans r3, rfl, rfl, rfl, er1, p1, ?_, hs _ _ i1⟩
  intro z hz
  rw [core_num_stack]
  exact k1 z hz

theorem exec_var1 (d : Nat) (m : Mach σ) (h : 65 ≤ d) : execInstr env bcVariableName d m =
    onCore (m.skip 0) (execName false [d] false m.exec.argc m.core) := by
  show (readName m.exec.code (m.exec.index - 2) d).bind _ = _
  unfold readName
  rw [if_neg (by omega)]
  rfl

/-- A number variable with a one-letter name. -/
theorem evals_name (Inv : Core σ → Prop) (hs : ∀ c st, Inv c → Inv { c with stack := st }) (p : Ptr) (d i : Nat) (v : Int) (hd : 65 ≤ d)
    (hv : ∀ c, Inv c → Vars.getVar c.vars [d] .num = (c.vars, .ok i) ∧ (c.vars.slots i).ty = some .num ∧ c.mem (.slot i) = v) :
    Evals env Inv p [.simple bcVariableName d] v := by
  intro m a b h ha hl hi
  simp only [List.length_singleton] at hl
  obtain ⟨h1, h2, h3⟩ := hv _ hi
  refine ⟨{ m.core with stack := m.core.stack ++ [.var false false (.slot i)] }, .var false false (.slot i), ?_, rfl, rfl,
    congrArg Out.ok h3, h.error, rfl, fun x _ => core_num_stack _ _ _, hs _ _ hi⟩
  refine At.simple h (by decide) _ ha ?_
  rw [exec_var1 _ _ hd]
  refine congrArg (onCore (m.skip 2)) ?_
  show execName false [d] false m.exec.argc m.core = _
  unfold execName
  rw [if_pos ha]
  unfold Core.lookup
  rw [show tyOf false false = .num from rfl, h1]
  dsimp only
  rw [if_neg (by rw [h2]; simp)]
  exact push_ok _ _ (by show m.core.stack.length < 100; omega)

theorem pushesVar_name (Inv : Core σ → Prop) (hs : ∀ c st, Inv c → Inv { c with stack := st }) (d i : Nat) (hd : 65 ≤ d)
    (hv : ∀ c, Inv c → Vars.getVar c.vars [d] .num = (c.vars, .ok i) ∧ (c.vars.slots i).ty = some .num) :
    PushesVar env Inv Inv (.slot i) [.simple bcVariableName d] := by
  intro m a b h ha hl hi
  obtain ⟨h1, h2⟩ := hv _ hi
  refine ⟨{ m.core with stack := m.core.stack ++ [.var false false (.slot i)] }, ?_, rfl, h.error, hs _ _ hi⟩
  refine At.simple h (by decide) _ ha ?_
  rw [exec_var1 _ _ hd]
  refine congrArg (onCore (m.skip 2)) ?_
  show execName false [d] false m.exec.argc m.core = _
  unfold execName
  rw [if_pos ha]
  unfold Core.lookup
  rw [show tyOf false false = .num from rfl, h1]
  dsimp only
  rw [if_neg (by rw [h2]; simp)]
  exact push_ok _ _ hl

/-- The first mention of a variable creates it. -/
theorem pushesVar_new (Pre Post : Core σ → Prop) (d i : Nat) (t : Core σ → Vars.Table) (hd : 65 ≤ d)
    (hv : ∀ c, Pre c → Vars.getVar c.vars [d] .num = (t c, .ok i) ∧ (c.vars.slots i).ty = none)
    (hpost : ∀ c st, Pre c → Post { ({ c with vars := t c }.store (.slot i) 0).storeStr (.slot i) [] with stack := st }) :
    PushesVar env Pre Post (.slot i) [.simple bcVariableName d] := by
  intro m a b h ha hl hi
  obtain ⟨h1, h2⟩ := hv _ hi
  refine ⟨{ ({ m.core with vars := t m.core }.store (.slot i) 0).storeStr (.slot i) [] with
    stack := m.core.stack ++ [.var false false (.slot i)] }, ?_, rfl, h.error, hpost m.core _ hi⟩
  refine At.simple h (by decide) _ ha ?_
  rw [exec_var1 _ _ hd]
  refine congrArg (onCore (m.skip 2)) ?_
  show execName false [d] false m.exec.argc m.core = _
  unfold execName
  rw [if_pos ha]
  unfold Core.lookup
  rw [show tyOf false false = .num from rfl, h1]
  dsimp only
  rw [if_pos h2]
  exact push_ok _ _ hl

end Sbc.Machine
