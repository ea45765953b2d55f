import Verif.Proof.SourceVars
set_option autoImplicit false
/-!
# Expressions of source programs in the machine
-/
namespace Sbc.Source
open Sbc Sbc.Tok Sbc.Tok.Spec Sbc.Machine

variable {σ : Type} {env : Env σ}

/-- The machine gets from one state to another in at least one step. -/
def Goes (env : Env σ) (m m' : Mach σ) : Prop := ∃ n, 1 ≤ n ∧ Machine.steps env n m = .ok m'

theorem Goes.reaches {m m' : Mach σ} (h : Goes env m m') : Reaches env m m' := by
  obtain ⟨n, _, h⟩ := h; exact ⟨n, h⟩

theorem Goes.last {a b c : Mach σ} (h1 : Reaches env a b) (h2 : Machine.step env b = .ok c) : Goes env a c := by
  obtain ⟨k, h1⟩ := h1
  obtain ⟨n, h2⟩ := Reaches.one h2
  rcases Nat.eq_zero_or_pos n with h0 | h0
  · subst h0
    refine ⟨k + 1, by omega, ?_⟩
    rw [steps_add, h1]
    show Machine.steps env 1 b = _
    rename_i hs
    simp only [Machine.steps, hs, Out.bind]
  · exact ⟨k + n, by omega, by rw [steps_add, h1]; exact h2⟩

theorem Goes.then {a b c : Mach σ} (h1 : Goes env a b) (h2 : Reaches env b c) : Goes env a c := by
  obtain ⟨k, h0, h1⟩ := h1
  obtain ⟨n, h2⟩ := h2
  exact ⟨k + n, by omega, by rw [steps_add, h1]; exact h2⟩

theorem Goes.after {a b c : Mach σ} (h1 : Reaches env a b) (h2 : Goes env b c) : Goes env a c := by
  obtain ⟨k, h1⟩ := h1
  obtain ⟨n, h0, h2⟩ := h2
  exact ⟨k + n, by omega, by rw [steps_add, h1]; exact h2⟩

/-! ## Variables and constants -/

/-- A variable. -/
theorem push_name {U : List (List Nat)} {st : Store} {m : Mach σ} {a b : List Instr} {w : List Nat} (h : At m a (nameInstr w :: b))
    (hargc : m.exec.argc = 0) (hs : m.core.stack.length < 100) (hw : VarName w) (hU : w ∈ U) (hh : Holds U st m.core) :
    ∃ c' i, Reaches env m (after m a [nameInstr w] c') ∧ c'.stack = m.core.stack ++ [.var false false (.slot i)] ∧ Holds U st c' ∧
      Grow m.core c' ∧ i < c'.vars.max ∧ Vars.HasKey c'.vars i (w, .num) := by
  obtain ⟨c1, i, hl, hst, hh1, hg, hi, hk⟩ := lookup_var hh (keyOf_num hw.2.1 hw.1.2.2) hw.1 hU (Or.inl rfl)
  refine ⟨{ c1 with stack := c1.stack ++ [.var false false (.slot i)] }, i, ?_, by rw [hst], hh1.stack _, hg.stack _, hi, hk⟩
  have hexec : execName false w false 0 m.core = .ok { c1 with stack := c1.stack ++ [.var false false (.slot i)] } := by
    unfold execName
    rw [if_pos rfl]
    show (m.core.lookup w .num).bind _ = _
    rw [hl]
    show c1.push _ = _
    exact push_ok _ _ (by rw [hst]; exact hs)
  refine Reaches.one ?_
  rw [h.step]
  have hne : w ≠ [] := by
    intro e; have := hw.1.1; rw [e] at this; simp at this
  have hone : ∀ c, w = [c] → (execInstr env (nameInstr w).op (arg (nameInstr w)) (m.skip 2)) =
      .ok { m.skip 2 with core := { c1 with stack := c1.stack ++ [.var false false (.slot i)] } } := by
    rintro c rfl
    have h65 : 65 ≤ c := hw.2.2 c rfl
    show execInstr env bcVariableName c (m.skip 2) = _
    rw [exec_named _ _ _ (by decide)]
    have hrn : readName (m.skip 2).exec.code ((m.skip 2).exec.index - 2) c = .ok ([c], false, 0) := by
      unfold readName
      rw [if_neg (by omega)]
    rw [hrn]
    show onCore ((m.skip 2).skip 0) (execName false [c] false m.exec.argc m.core) = _
    rw [hargc, hexec]
    rfl
  have hmany : nameInstr w = .named bcVariableName w → (execInstr env (nameInstr w).op (arg (nameInstr w)) (m.skip 2)) =
      .ok { (m.skip 2).skip (w.length + w.length % 2) with core := { c1 with stack := c1.stack ++ [.var false false (.slot i)] } } := by
    intro e
    rw [e] at h ⊢
    show execInstr env bcVariableName w.length (m.skip 2) = _
    rw [exec_named _ _ _ (by decide)]
    have hd : m.exec.code.drop (m.exec.index + 2) = padText w ++ encode b := h.drop
    have hrn : readName (m.skip 2).exec.code ((m.skip 2).exec.index - 2) w.length = .ok (w, false, w.length + w.length % 2) := by
      unfold readName
      have hl16 := hw.1.2.1
      rw [if_pos (by omega)]
      rw [show (m.skip 2).exec.index - 2 + 2 = m.exec.index + 2 from by show m.exec.index + 2 - 2 + 2 = _; omega]
      rw [show (m.skip 2).exec.code = m.exec.code from rfl, hd]
      dsimp only
      rw [take_pad, if_neg (by
        have : w.length ≠ 0 := fun e => hne (List.length_eq_zero_iff.mp e)
        omega), if_neg hw.2.1]
    rw [hrn]
    show onCore ((m.skip 2).skip _) (execName false w false m.exec.argc m.core) = _
    rw [hargc, hexec]
    rfl
  by_cases h1 : ∃ c, w = [c]
  · obtain ⟨c, rfl⟩ := h1
    rw [hone c rfl]
    show Out.ok (clearArgc bcVariableName _) = _
    rw [clearArgc_ne (by decide)]
    simp only [Machine.after, Mach.skip]
    rw [posAfter_snoc, h.index, hargc]
    rfl
  · have e : nameInstr w = .named bcVariableName w := by
      match w, hne, h1 with
      | [c], _, h1 => exact absurd ⟨c, rfl⟩ h1
      | x :: y :: r, _, _ => rfl
    rw [hmany e]
    rw [e]
    show Out.ok (clearArgc bcVariableName _) = _
    rw [clearArgc_ne (by decide)]
    simp only [Machine.after, Mach.skip]
    rw [posAfter_snoc, h.index, hargc, show tail (.named bcVariableName w) = padText w from rfl, Machine.padText_length, Nat.add_assoc]

/-- A variable for strings. -/
theorem push_strName {U : List (List Nat)} {st : Store} {m : Mach σ} {a b : List Instr} {w : List Nat} (h : At m a (nameInstr w :: b))
    (hargc : m.exec.argc = 0) (hs : m.core.stack.length < 100) (hw : StrName w) (hU : w ∈ U) (hh : Holds U st m.core) :
    ∃ c' i, Reaches env m (after m a [nameInstr w] c') ∧ c'.stack = m.core.stack ++ [.var true false (.slot i)] ∧ Holds U st c' ∧
      Grow m.core c' ∧ i < c'.vars.max ∧ Vars.HasKey c'.vars i (w.dropLast, .str) := by
  obtain ⟨c1, i, hl, hst, hh1, hg, hi, hk⟩ := lookup_var hh (keyOf_str hw.1) hw.2 hU (Or.inr rfl)
  refine ⟨{ c1 with stack := c1.stack ++ [.var true false (.slot i)] }, i, ?_, by rw [hst], hh1.stack _, hg.stack _, hi, hk⟩
  have hexec : execName false w.dropLast true 0 m.core = .ok { c1 with stack := c1.stack ++ [.var true false (.slot i)] } := by
    unfold execName
    rw [if_pos rfl]
    show (m.core.lookup w.dropLast .str).bind _ = _
    rw [hl]
    show c1.push _ = _
    exact push_ok _ _ (by rw [hst]; exact hs)
  have hlen := strName_len hw
  have e : nameInstr w = .named bcVariableName w := by
    match w, hlen with
    | [], hl => exact absurd hl.1 (by simp)
    | [c], hl => exact absurd hl.1 (by simp)
    | x :: y :: r, _ => rfl
  refine Reaches.one ?_
  rw [h.step]
  rw [e] at h ⊢
  have hx : execInstr env bcVariableName w.length (m.skip 2) =
      .ok { (m.skip 2).skip (w.length + w.length % 2) with core := { c1 with stack := c1.stack ++ [.var true false (.slot i)] } } := by
    rw [exec_named _ _ _ (by decide)]
    have hd : m.exec.code.drop (m.exec.index + 2) = padText w ++ encode b := h.drop
    have hrn : readName (m.skip 2).exec.code ((m.skip 2).exec.index - 2) w.length = .ok (w.dropLast, true, w.length + w.length % 2) := by
      unfold readName
      rw [if_pos (by omega)]
      rw [show (m.skip 2).exec.index - 2 + 2 = m.exec.index + 2 from by show m.exec.index + 2 - 2 + 2 = _; omega]
      rw [show (m.skip 2).exec.code = m.exec.code from rfl, hd]
      dsimp only
      rw [take_pad, if_neg (by omega), if_pos hw.1]
    rw [hrn]
    show onCore ((m.skip 2).skip _) (execName false w.dropLast true m.exec.argc m.core) = _
    rw [hargc, hexec]
    rfl
  show (execInstr env bcVariableName w.length (m.skip 2)).bind _ = _
  rw [hx]
  show Out.ok (clearArgc bcVariableName _) = _
  rw [clearArgc_ne (by decide)]
  simp only [Machine.after, Mach.skip]
  rw [posAfter_snoc, h.index, hargc, show tail (.named bcVariableName w) = padText w from rfl, Machine.padText_length, Nat.add_assoc]

theorem numBytes_toU32 (v : Int) (h : I32 v) :
    numBytes (toU32 v / 16777216 % 256) (toU32 v / 65536 % 256) (toU32 v / 256 % 256) (toU32 v % 256) = v := by
  have hu : toU32 v < 4294967296 := by unfold toU32; omega
  have hv : ((toU32 v : Nat) : Int) = v % 4294967296 := by unfold toU32; omega
  unfold numBytes
  generalize toU32 v = u at hu hv
  have : u / 16777216 % 256 * 16777216 + u / 65536 % 256 * 65536 + u / 256 % 256 * 256 + u % 256 = u := by omega
  rw [this, hv]
  unfold wrap32
  unfold I32 at h
  omega

/-- A constant. -/
theorem push_num {m : Mach σ} {a b : List Instr} {v : Int} (h : At m a (numInstr v :: b)) (hargc : m.exec.argc = 0)
    (hs : m.core.stack.length < 100) (hv : I32 v) :
    Reaches env m (after m a [numInstr v] { m.core with stack := m.core.stack ++ [.num v] }) := by
  unfold numInstr at h ⊢
  by_cases hc : 0 ≤ v ∧ v < 409600 ∧ v % 4096 = 0
  · rw [if_pos hc] at h ⊢
    refine At.simple h (by decide) _ hargc ?_
    rw [exec_small, if_pos (by omega)]
    refine congrArg _ ?_
    rw [show (((v / 4096 % 256).toNat : Nat) : Int) * 4096 = v by omega]
    exact push_ok _ _ hs
  · rw [if_neg hc] at h ⊢
    have hnb := numBytes_toU32 v hv
    generalize toU32 v / 16777216 % 256 = b3, toU32 v / 65536 % 256 = b2, toU32 v / 256 % 256 = b1, toU32 v % 256 = b0 at h hnb ⊢
    refine Reaches.one ?_
    rw [h.step]
    have g0 := h.getTail 0
    have g1 := h.getTail 1
    have g2 := h.getTail 2
    have g3 := h.getTail 3
    simp only [tail, List.cons_append, List.getElem?_cons_zero, List.getElem?_cons_succ, Nat.add_zero] at g0 g1 g2 g3
    have e : execInstr env bcNumber 0 (m.skip 2) =
        (match (m.skip 2).exec.code[(m.skip 2).exec.index]?, (m.skip 2).exec.code[(m.skip 2).exec.index + 1]?,
            (m.skip 2).exec.code[(m.skip 2).exec.index + 2]?, (m.skip 2).exec.code[(m.skip 2).exec.index + 3]? with
      | some b3, some b2, some b1, some b0 => onCore ((m.skip 2).skip 4) ((m.skip 2).core.push (.num (numBytes b3 b2 b1 b0)))
      | _, _, _, _ => .ub) := rfl
    show (execInstr env bcNumber 0 (m.skip 2)).bind _ = _
    rw [e]
    simp only [Mach.skip, g0, g1, g2, g3]
    rw [hnb, push_ok _ _ (by omega)]
    show Out.ok (clearArgc bcNumber _) = _
    rw [clearArgc_ne (by decide)]
    simp only [Machine.after]
    rw [posAfter_snoc, h.index]
    simp only [tail, List.length_cons, List.length_nil]
    rw [hargc]

/-- A string constant. -/
theorem push_str {m : Mach σ} {a b : List Instr} {s : List Nat} (h : At m a (.text bcString s :: b)) (hargc : m.exec.argc = 0)
    (hs : m.core.stack.length < 100) :
    Reaches env m (Machine.after m a [.text bcString s] { m.core with stack := m.core.stack ++ [.str false s] }) := by
  refine Reaches.one ?_
  rw [h.step]
  have hd : m.exec.code.drop (m.exec.index + 2) = padText s ++ encode b := h.drop
  have hx : execInstr env bcString s.length (m.skip 2) =
      .ok { (m.skip 2).skip (s.length + s.length % 2) with core := { m.core with stack := m.core.stack ++ [.str false s] } } := by
    rw [exec_text _ _ _ (by decide)]
    rw [if_pos (Or.inl rfl)]
    rw [show (m.skip 2).exec.code.drop (m.skip 2).exec.index = padText s ++ encode b from hd, take_pad, if_neg (Nat.lt_irrefl _)]
    show onCore _ (m.core.push _) = _
    rw [push_ok _ _ hs]
    rfl
  show (execInstr env bcString s.length (m.skip 2)).bind _ = _
  rw [hx]
  show Out.ok (clearArgc bcString _) = _
  rw [clearArgc_ne (by decide)]
  simp only [Machine.after, Mach.skip]
  rw [posAfter_snoc, h.index, tail_text, Machine.padText_length, hargc, Nat.add_assoc]

/-! ## Operators -/

theorem truth_eq (p : Prop) [Decidable p] : Arith.truth (decide p) = if p then 4096 else 0 := by
  unfold Arith.truth
  by_cases h : p <;> simp [h] <;> decide

theorem numOp2_eq {op k : Nat} (h : prec op = some k) (x y : Int) : numOp2 op x y = some (binary op x y) := by
  have hop : op ∈ [0, 2, 3, 4, 8, 9, 10, 11, 12, 13, 14, 15, 16, 17] := by
    unfold prec at h
    simp only [List.mem_cons, List.not_mem_nil, or_false, opAnd, opOr, opXor, opAdd, opSubtract, opMultiply, opDivide, opModulo] at h ⊢
    split at h
    · omega
    · split at h
      · omega
      · split at h
        · omega
        · split at h
          · omega
          · cases h
  have hfit : ∀ z, Arith.checked z = fit z := by
    intro z
    unfold Arith.checked fit
    by_cases hz : z < -2147483648 ∨ z > 2147483647
    · rw [if_pos hz, if_neg (show ¬ I32 z by unfold I32; omega)]
    · rw [if_neg hz, if_pos (show I32 z by unfold I32; omega)]
  simp only [List.mem_cons, List.not_mem_nil, or_false] at hop
  rcases hop with rfl | rfl | rfl | rfl | rfl | rfl | rfl | rfl | rfl | rfl | rfl | rfl | rfl | rfl
  · exact congrArg some (hfit (x + y))
  · exact congrArg some (hfit (x - y))
  · exact congrArg some (hfit (x * y / 4096))
  · show some (Arith.opDiv x y) = some (if y = 0 then _ else _)
    unfold Arith.opDiv
    rw [hfit]
  · exact congrArg (fun z => some (Out.ok z)) (truth_eq (x = y))
  · have : Arith.truth (x != y) = if x ≠ y then 4096 else 0 := by
      rw [show (x != y) = decide (x ≠ y) by
        by_cases h : x = y <;> simp [h]]
      exact truth_eq _
    exact congrArg (fun z => some (Out.ok z)) this
  · exact congrArg (fun z => some (Out.ok z)) (truth_eq (x < y))
  · exact congrArg (fun z => some (Out.ok z)) (truth_eq (x > y))
  · exact congrArg (fun z => some (Out.ok z)) (truth_eq (x ≤ y))
  · exact congrArg (fun z => some (Out.ok z)) (truth_eq (x ≥ y))
  · rfl
  · rfl
  · rfl
  · rfl

theorem numOp1_eq {op : Nat} (h : unary op = true) (x : Int) : numOp1 op x = some (unary' op x) := by
  have hop : op = 7 ∨ op = 18 ∨ op = 19 := by
    unfold unary at h
    simpa [opNegate, opNot, opLogicalNot] using h
  rcases hop with rfl | rfl | rfl
  · rfl
  · rfl
  · by_cases h : x = 0
    · subst h; rfl
    · have h1 : unary' 19 x = .ok 0 := by
        show Out.ok (if x = 0 then (4096 : Int) else 0) = _
        rw [if_neg h]
      rw [h1]
      simp [numOp1, Arith.opLogicalNot, h, Arith.truth]
      try decide

theorem prec_other {op k : Nat} (hop : prec op = some k) : op < 20 ∧ op ≠ 1 ∧ op ≠ 5 ∧ op ≠ 6 ∧ op ≠ 7 ∧ op ≠ 18 ∧ op ≠ 19 := by
  refine ⟨?_, ?_, ?_, ?_, ?_, ?_, ?_⟩
  · by_contra hc
    unfold prec at hop
    simp only [List.mem_cons, List.not_mem_nil, or_false, opAnd, opOr, opXor, opAdd, opSubtract, opMultiply, opDivide, opModulo] at hop
    rw [if_neg (by omega), if_neg (by omega), if_neg (by omega), if_neg (by omega)] at hop
    cases hop
  all_goals
    rintro rfl
    have hn := hop
    first
      | (rw [show prec 1 = none by decide] at hn; cases hn)
      | (rw [show prec 5 = none by decide] at hn; cases hn)
      | (rw [show prec 6 = none by decide] at hn; cases hn)
      | (rw [show prec 7 = none by decide] at hn; cases hn)
      | (rw [show prec 18 = none by decide] at hn; cases hn)
      | (rw [show prec 19 = none by decide] at hn; cases hn)

/-- An operator that is not only given numbers. -/
theorem op_text {c : Core σ} {rest : List Entry} {a b : Entry} {op k argc : Nat} (hop : prec op = some k)
    (hs : c.stack = rest ++ [a, b]) (ha : (Machine.isNum a && Machine.isNum b) = false) :
    execOp env op argc c = env.other bcOperator op argc c := by
  have hne := prec_other hop
  have hr : c.stack.reverse = b :: a :: rest.reverse := by rw [hs]; simp
  unfold execOp
  rw [if_neg (by omega), if_neg (by omega), if_neg (by omega), hr]
  dsimp only
  rw [ha]
  rfl

/-- An assignment of a string. -/
theorem op_assignStr {c : Core σ} {rest : List Entry} {p : Ptr} {b : Entry} {argc : Nat} (hs : c.stack = rest ++ [.var true false p, b]) :
    execOp env opAssign argc c = env.other bcOperator opAssign argc c := by
  have hr : c.stack.reverse = b :: .var true false p :: rest.reverse := by rw [hs]; simp
  unfold execOp
  rw [if_neg (by decide), if_neg (by decide), if_neg (by decide), hr]
  rfl

theorem op_two {c : Core σ} {rest : List Entry} {a b : Entry} {op k argc : Nat} {x y : Int} (hop : prec op = some k)
    (hs : c.stack = rest ++ [a, b]) (ha : isNum a = true) (hb : isNum b = true) (hx : c.num a = .ok x) (hy : c.num b = .ok y) :
    execOp env op argc c = c.result rest (binary op x y) := by
  have h2 := numOp2_eq hop x y
  have hne := prec_other hop
  have hr : c.stack.reverse = b :: a :: rest.reverse := by rw [hs]; simp
  unfold execOp
  rw [if_neg (by omega), if_neg (by omega), if_neg (by omega), hr]
  dsimp only
  rw [if_pos (by rw [ha, hb]; rfl), if_neg (by omega), hx]
  simp only [Out.bind]
  rw [hy]
  simp only [h2, List.reverse_reverse]

theorem op_one {c : Core σ} {rest : List Entry} {a : Entry} {op argc : Nat} {x : Int} (hop : unary op = true)
    (hs : c.stack = rest ++ [a]) (ha : isNum a = true) (hx : c.num a = .ok x) :
    execOp env op argc c = c.result rest (unary' op x) := by
  have h1 := numOp1_eq hop x
  have hne : op = 7 ∨ op = 18 ∨ op = 19 := by
    unfold unary at hop
    simpa [opNegate, opNot, opLogicalNot] using hop
  have hr : c.stack.reverse = a :: rest.reverse := by rw [hs]; simp
  unfold execOp
  rw [if_neg (by omega), if_neg (by omega), if_pos hne, hr]
  dsimp only
  rw [if_pos ha, hx]
  simp only [Out.bind, h1, List.reverse_reverse]

/-- An operator instruction whose result is an error. -/
theorem At.op_err {m : Mach σ} {a b : List Instr} {op : Nat} {c : Core σ} (h : At m a (.simple bcOperator op :: b))
    (he : execOp env op m.exec.argc m.core = .ok c) : Machine.step env m = .ok { m.skip 2 with core := c, exec := { (m.skip 2).exec with argc := 0 } } := by
  rw [h.step]
  show (execInstr env bcOperator op (m.skip 2)).bind _ = _
  rw [exec_op]
  show (onCore (m.skip 2) (execOp env op m.exec.argc m.core)).bind _ = _
  rw [he]
  rfl

end Sbc.Source
