import Verif.Proof.Code
import Verif.Proof.Num
import Verif.Spec.Num
set_option autoImplicit false
/-!
# C34, C35, C60: constants and instruction boundaries
-/
namespace Sbc.Tok
open Sbc Sbc.Tok.Spec Sbc.Num Sbc.Num.Spec

/-! ## C34 -/

theorem byte_parts (u : Nat) (h : u < 4294967296) :
    u / 16777216 % 256 * 16777216 + u / 65536 % 256 * 65536 + u / 256 % 256 * 256 + u % 256 = u := by omega

/-- The instruction written for a number pushes that number reduced to 32 bits. -/
theorem numberCode_push (n : Int) (b : Bool) (l : List Nat) (h : numberCode n b = some l) :
    pushConst l = some (.ok (wrap32 n)) := by
  unfold numberCode at h
  split at h
  · cases h
  · split at h
    · rename_i h1 h2
      injection h with h
      subst h
      obtain ⟨h2, h3, h4⟩ := h2
      have hv : ((n / 4096) % 256).toNat ≤ 99 := by omega
      simp only [pushConst, if_true, if_pos hv]
      refine congrArg _ (congrArg _ ?_)
      have : wrap32 n = n := wrap32_of_i32 (by unfold I32; omega)
      rw [this]; omega
    · injection h with h
      subst h
      simp only [pushConst, if_true, numBytes]
      refine congrArg _ (congrArg _ ?_)
      rw [byte_parts _ (by unfold toU32; omega)]
      unfold toU32 wrap32
      omega

theorem numberCode_i32 (n : Int) (b : Bool) (h : I32 n) : ∃ l, numberCode n b = some l := by
  unfold numberCode I32 at *
  rw [if_neg (by omega)]
  split <;> exact ⟨_, rfl⟩

/-- C34: every 32-bit constant, decimal or in another base, is compiled, in an even number of bytes, and the value
pushed at run time is exactly that constant. -/
theorem C34_constant (n : Int) (h : I32 n) (isNumber : Bool) :
    ∃ l, numberCode n isNumber = some l ∧ (l.length = 2 ∨ l.length = 6) ∧ pushConst l = some (.ok n) := by
  obtain ⟨l, hl⟩ := numberCode_i32 n isNumber h
  refine ⟨l, hl, ?_, ?_⟩
  · unfold numberCode at hl
    split at hl
    · cases hl
    · split at hl <;> (injection hl with hl; subst hl; simp)
  · rw [numberCode_push n isNumber l hl, wrap32_of_i32 h]

example : numberCode (99 * 4096) true = some [110, 99] ∧ numberCode (100 * 4096) true = some [78, 0, 0, 6, 64, 0] ∧
    numberCode (-1) false = some [78, 0, 255, 255, 255, 255] := by decide

/-- A constant token whose value is computed: its instruction. -/
theorem emit_number (ids : Bool) (s : CodeSt) (k : Tk) (n : Int) (l : List Nat) (ht : k.ty = .number ∨ k.ty = .baseNumber)
    (hn : tokNumber k = .ok n) (hl : numberCode n (k.ty == .number) = some l) :
    emitTok ids s k = .ok ({ s with buf := s.buf ++ l }, .next) := by
  unfold emitTok
  rcases ht with ht | ht <;> (rw [ht] at hl ⊢; simp only [hn, Out.bind, hl]; rfl)

/-- C34: a decimal numeral in the source (integer part below 524288, at most six decimals) pushes the value it denotes. -/
theorem C34_decimal (ids : Bool) (s : CodeSt) (k : Tk) (ht : k.ty = .number) (hc : ∀ c ∈ k.text, c < 256)
    (hi : decVal (ints k.text) < 524288) (hf : (fracs k.text).length ≤ 6) :
    ∃ l, emitTok ids s k = .ok ({ s with buf := s.buf ++ l }, .next) ∧
      pushConst l = some (.ok (Num.Spec.value k.text)) := by
  have hlt := decVal_lt _ (fracs_digits k.text)
  have hle : 10 ^ (fracs k.text).length ≤ 10 ^ 6 := Nat.pow_le_pow_right (by decide) hf
  have hn : tokNumber k = .ok (Num.Spec.value k.text) := by
    unfold tokNumber
    rw [ht]
    exact strToNumber_eq _ hc hi (by omega) (by omega)
  obtain ⟨l, h1, _, h3⟩ := C34_constant _ (value_i32 k.text hi) (k.ty == .number)
  exact ⟨l, emit_number ids s k _ l (Or.inl ht) hn h1, h3⟩

/-- `12.5` -/
example : ∃ l, emitTok false ⟨[], Vars.init 4 true, []⟩ ⟨.number, [49, 50, 46, 53], 0, 0⟩ = .ok (⟨l, Vars.init 4 true, []⟩, .next) ∧
    pushConst l = some (.ok 51200) := by
  obtain ⟨l, h1, h2⟩ := C34_decimal false ⟨[], Vars.init 4 true, []⟩ ⟨.number, [49, 50, 46, 53], 0, 0⟩ rfl (by decide) (by decide) (by decide)
  exact ⟨l, h1, by rw [h2]; decide⟩


/-- C34: `&H` followed by hexadecimal digits of a value below 2^20 pushes that value, as a two's complement number of
20 bits. -/
theorem C34_hexadecimal (ids : Bool) (s : CodeSt) (k : Tk) (ds : List Nat) (ht : k.ty = .baseNumber)
    (hk : k.text = 38 :: 72 :: ds) (hd : ∀ c ∈ ds, isHexDigit c = true) (hv : hexVal ds < 1048576) :
    ∃ l, emitTok ids s k = .ok ({ s with buf := s.buf ++ l }, .next) ∧
      pushConst l = some (.ok (if hexVal ds < 524288 then (hexVal ds : Int) * 4096 else ((hexVal ds : Int) - 1048576) * 4096)) := by
  have hn : tokNumber k = .ok ((hexVal ds : Int) * 4096) := by
    unfold tokNumber
    rw [ht, hk]
    simp only [List.drop_succ_cons, List.drop_zero]
    rw [if_pos (by rfl)]
    unfold strToNumber
    rw [intLoop_hex ds hd true 0 (by omega)]
    simp
  have hl : ∃ l, numberCode ((hexVal ds : Int) * 4096) (k.ty == .number) = some l := by
    unfold numberCode
    rw [ht, if_neg (by simp)]
    split <;> exact ⟨_, rfl⟩
  obtain ⟨l, hl⟩ := hl
  refine ⟨l, emit_number ids s k _ l (Or.inr ht) hn hl, ?_⟩
  rw [numberCode_push _ _ l hl]
  refine congrArg _ (congrArg _ ?_)
  unfold wrap32
  split <;> omega

/-- `&HFFFFF` is -1. -/
example : ∃ l, emitTok false ⟨[], Vars.init 4 true, []⟩ ⟨.baseNumber, [38, 72, 70, 70, 70, 70, 70], 0, 0⟩ =
      .ok (⟨l, Vars.init 4 true, []⟩, .next) ∧ pushConst l = some (.ok (-4096)) := by
  obtain ⟨l, h1, h2⟩ := C34_hexadecimal false ⟨[], Vars.init 4 true, []⟩ ⟨.baseNumber, [38, 72, 70, 70, 70, 70, 70], 0, 0⟩
    [70, 70, 70, 70, 70] rfl rfl (by decide) (by decide)
  exact ⟨l, h1, by rw [h2]; decide⟩

/-- Value of a string of binary digits. -/
def binVal (ds : List Nat) : Nat := ds.foldl (fun n c => n * 2 + (c - 48)) 0

theorem binFold_acc (cs : List Nat) (a : Nat) :
    cs.foldl (fun n c => n * 2 + (c - 48)) a = a * 2 ^ cs.length + binVal cs := by
  induction cs generalizing a with
  | nil => simp [binVal]
  | cons c cs ih =>
    simp only [binVal, List.foldl_cons]
    rw [ih, ih (0 * 2 + (c - 48)), List.length_cons, Nat.pow_succ]
    simp only [Nat.add_mul, Nat.zero_mul, Nat.zero_add]
    rw [Nat.mul_assoc, Nat.mul_comm 2]
    omega

theorem digitIn2 : digitIn 2 (Strs.toWide 48) = some 0 ∧ digitIn 2 (Strs.toWide 49) = some 1 := by decide

theorem intLoop_bin (cs : List Nat) (h : ∀ c ∈ cs, c = 48 ∨ c = 49) (first : Bool) (n : Nat)
    (hb : n * 2 ^ cs.length + binVal cs < 1048576) :
    intLoop 2 false (cs.map Strs.toWide) first false n = ⟨false, n * 2 ^ cs.length + binVal cs, 0, 1⟩ := by
  induction cs generalizing first n with
  | nil => simp [intLoop, binVal]
  | cons c cs ih =>
    have hd := h c (by simp)
    have e1 : digitIn 2 (Strs.toWide c) = some (c - 48) := by rcases hd with rfl | rfl <;> decide
    have h49 : c - 48 ≤ 1 := by rcases hd with rfl | rfl <;> omega
    rw [List.map_cons, intLoop, e1]
    simp only []
    have e2 : binVal (c :: cs) = (c - 48) * 2 ^ cs.length + binVal cs := by
      have := binFold_acc cs (0 * 2 + (c - 48))
      unfold binVal at *
      simp only [List.foldl_cons]; rw [this]; simp
    rw [List.length_cons, e2] at hb ⊢
    generalize hx : c - 48 = x at *
    have e : (n * 2 + x) * 2 ^ cs.length + binVal cs = n * 2 ^ (cs.length + 1) + (x * 2 ^ cs.length + binVal cs) := by
      rw [Nat.pow_succ, Nat.add_mul, Nat.mul_assoc, Nat.mul_comm 2, Nat.add_assoc]
    have hp : 0 < 2 ^ cs.length := Nat.pow_pos (by decide)
    have hle : n * 2 + x ≤ (n * 2 + x) * 2 ^ cs.length := Nat.le_mul_of_pos_right _ hp
    have hf : (n * 2 % 4294967296 + x) % 4294967296 = n * 2 + x := by omega
    rw [hf]
    by_cases hbig : n * 2 + x ≥ 524288
    · rw [if_pos hbig]
      cases cs with
      | nil => simp [binVal]
      | cons c' cs' =>
        exfalso
        rw [List.length_cons, Nat.pow_succ] at e
        have hp' : 0 < 2 ^ cs'.length := Nat.pow_pos (by decide)
        have : (n * 2 + x) * 1 * 2 ≤ (n * 2 + x) * (2 ^ cs'.length * 2) := by
          rw [Nat.mul_assoc]; exact Nat.mul_le_mul_left _ (by omega)
        rw [List.length_cons, Nat.pow_succ (n := 2) (m := cs'.length)] at hb
        omega
    · rw [if_neg hbig, ih (fun y hy => h y (by simp [hy])) false _ (by omega), e]

/-- C34: `&B` followed by binary digits of a value below 2^20 pushes that value, as a two's complement number of
20 bits. -/
theorem C34_binary (ids : Bool) (s : CodeSt) (k : Tk) (ds : List Nat) (ht : k.ty = .baseNumber)
    (hk : k.text = 38 :: 66 :: ds) (hd : ∀ c ∈ ds, c = 48 ∨ c = 49) (hv : binVal ds < 1048576) :
    ∃ l, emitTok ids s k = .ok ({ s with buf := s.buf ++ l }, .next) ∧
      pushConst l = some (.ok (if binVal ds < 524288 then (binVal ds : Int) * 4096 else ((binVal ds : Int) - 1048576) * 4096)) := by
  have hn : tokNumber k = .ok ((binVal ds : Int) * 4096) := by
    unfold tokNumber
    rw [ht, hk]
    simp only [List.drop_succ_cons, List.drop_zero]
    rw [if_neg (by simp)]
    unfold strToNumber
    rw [intLoop_bin ds hd true 0 (by omega)]
    simp
  have hl : ∃ l, numberCode ((binVal ds : Int) * 4096) (k.ty == .number) = some l := by
    unfold numberCode
    rw [ht, if_neg (by simp)]
    split <;> exact ⟨_, rfl⟩
  obtain ⟨l, hl⟩ := hl
  refine ⟨l, emit_number ids s k _ l (Or.inr ht) hn hl, ?_⟩
  rw [numberCode_push _ _ l hl]
  refine congrArg _ (congrArg _ ?_)
  unfold wrap32
  split <;> omega

/-- `&B101` is 5. -/
example : ∃ l, emitTok false ⟨[], Vars.init 4 true, []⟩ ⟨.baseNumber, [38, 66, 49, 48, 49], 0, 0⟩ =
      .ok (⟨l, Vars.init 4 true, []⟩, .next) ∧ pushConst l = some (.ok 20480) := by
  obtain ⟨l, h1, h2⟩ := C34_binary false ⟨[], Vars.init 4 true, []⟩ ⟨.baseNumber, [38, 66, 49, 48, 49], 0, 0⟩
    [49, 48, 49] rfl rfl (by decide) (by decide)
  exact ⟨l, h1, by rw [h2]; decide⟩

/-! ## C60: literals that are too large -/

theorem intLoop_dec (cs : List Nat) (h : ∀ c ∈ cs, isDigit c = true) (first : Bool) (n : Nat)
    (hb : n * 10 ^ cs.length + decVal cs < 1048576) :
    intLoop 10 true (cs.map Strs.toWide) first false n = ⟨false, n * 10 ^ cs.length + decVal cs, 0, 1⟩ := by
  induction cs generalizing first n with
  | nil => simp [intLoop, decVal]
  | cons c cs ih =>
    have hd := h c (by simp)
    have hc := isDigit_lt hd
    have e1 : digitIn 10 (Strs.toWide c) = some (c - 48) := by rw [digitIn10 (by omega), if_pos hd]
    have h9 : c - 48 ≤ 9 := by omega
    rw [List.map_cons, intLoop, e1]
    simp only []
    have e2 : decVal (c :: cs) = (c - 48) * 10 ^ cs.length + decVal cs := decVal_cons c cs
    rw [List.length_cons, e2] at hb ⊢
    generalize hx : c - 48 = x at *
    have e : (n * 10 + x) * 10 ^ cs.length + decVal cs = n * 10 ^ (cs.length + 1) + (x * 10 ^ cs.length + decVal cs) := by
      rw [Nat.pow_succ, Nat.add_mul, Nat.mul_assoc, Nat.mul_comm 10, Nat.add_assoc]
    have hp : 0 < 10 ^ cs.length := Nat.pow_pos (by decide)
    have hle : n * 10 + x ≤ (n * 10 + x) * 10 ^ cs.length := Nat.le_mul_of_pos_right _ hp
    have hf : (n * 10 % 4294967296 + x) % 4294967296 = n * 10 + x := by omega
    rw [hf]
    by_cases hbig : n * 10 + x ≥ 524288
    · rw [if_pos hbig]
      cases cs with
      | nil => simp [decVal]
      | cons c' cs' =>
        exfalso
        rw [List.length_cons, Nat.pow_succ] at e
        have hp' : 0 < 10 ^ cs'.length := Nat.pow_pos (by decide)
        have : (n * 10 + x) * 1 * 10 ≤ (n * 10 + x) * (10 ^ cs'.length * 10) := by
          rw [Nat.mul_assoc]; exact Nat.mul_le_mul_left _ (by omega)
        rw [List.length_cons, Nat.pow_succ (n := 10) (m := cs'.length)] at hb
        omega
    · rw [if_neg hbig, ih (fun y hy => h y (by simp [hy])) false _ (by omega), e]

/-- C60 (restricted to literals below 1048576): a decimal literal of 524288 or more is rejected with Overflow when the line is compiled. -/
theorem C60_overflow_partial (ids : Bool) (s : CodeSt) (k : Tk) (ht : k.ty = .number) (hd : ∀ c ∈ k.text, isDigit c = true)
    (h1 : 524288 ≤ decVal k.text) (h2 : decVal k.text < 1048576) :
    emitTok ids s k = .ok (s, .fail errOverflow) := by
  have hn : tokNumber k = .ok ((decVal k.text : Int) * 4096) := by
    unfold tokNumber
    rw [ht]
    unfold strToNumber
    simp only []
    rw [intLoop_dec k.text hd true 0 (by omega)]
    simp
  have hl : numberCode ((decVal k.text : Int) * 4096) (k.ty == .number) = none := by
    unfold numberCode
    rw [if_pos]
    refine ⟨?_, by omega, by omega, by rw [ht]; rfl⟩
    unfold bitsDiffer
    rw [if_neg (by omega)]
    have : (decVal k.text : Int) * 4096 / 2147483648 % 2 = 1 := by omega
    rw [this]; decide
  unfold emitTok
  rw [ht] at hl ⊢
  simp only [hn, Out.bind, hl]

/-- `524288` -/
example : emitTok false ⟨[], Vars.init 4 true, []⟩ ⟨.number, [53, 50, 52, 50, 56, 56], 0, 0⟩ =
    .ok (⟨[], Vars.init 4 true, []⟩, .fail 39) := C60_overflow_partial _ _ _ rfl (by decide) (by decide) (by decide)

/-- C60 is violated: the literal `1048576` compiles without an error and pushes 0, and `1048577` pushes 1. -/
theorem C60_overflow_violated (s : CodeSt) :
    (∃ l, emitTok false s ⟨.number, [49, 48, 52, 56, 53, 55, 54], 0, 0⟩ = .ok ({ s with buf := s.buf ++ l }, .next) ∧
      pushConst l = some (.ok 0)) ∧
    ∃ l, emitTok false s ⟨.number, [49, 48, 52, 56, 53, 55, 55], 0, 0⟩ = .ok ({ s with buf := s.buf ++ l }, .next) ∧
      pushConst l = some (.ok 4096) :=
  ⟨⟨_, emit_number false s _ (1048576 * 4096) [78, 0, 0, 0, 0, 0] (Or.inl rfl) (by decide +kernel) (by decide +kernel), by decide +kernel⟩,
   ⟨_, emit_number false s _ (1048577 * 4096) [78, 0, 0, 0, 16, 0] (Or.inl rfl) (by decide +kernel) (by decide +kernel), by decide +kernel⟩⟩

/-! ## C35 -/

/-- The validations at the end of a line, as instructions. -/
def validationInstrs (sys : List Nat) : List Instr :=
  ((List.range 64).filter fun i => sys.contains i && needsValidate i).map fun i => .simple bcSysvarValidate i

theorem validations_eq (sys : List Nat) : validations sys = encode (validationInstrs sys) := by
  unfold validations validationInstrs encode
  rw [List.flatMap_map]
  rfl

/-- C35: a compiled line is the encoding of one instruction for each of its tokens, in order (up to a comment or a
DATA statement), followed by the validations of system variables; each is well-formed and even; on an error, of the
tokens before the one rejected. -/
theorem C35_line_partial (ids : Bool) (ks : List Tk) (buf buf' : List Nat) (vars vars' : Vars.Table) (e : Option Nat)
    (he : buf.length % 2 = 0) (hk : ∀ k ∈ ks, tokFits k) (h : tokCode ids ks buf vars = .ok (buf', vars', e)) :
    ∃ js vs : List Instr, js.length ≤ ks.length ∧ List.Forall₂ represents (ks.take js.length) js ∧
      (∀ i ∈ js ++ vs, i.WF ∧ i.bytes.length % 2 = 0) ∧
      (∀ v ∈ vs, ∃ n, v = .simple bcSysvarValidate n) ∧
      buf' = buf ++ encode (js ++ vs) ∧ buf'.length % 2 = 0 ∧
      (e = none → js.length = ks.length ∨ (∃ k, ks[js.length]? = some k ∧ k.ty = .comment) ∨
        ∃ n k, js.length = n + 1 ∧ ks[n]? = some k ∧ k.cmd = cmdData) := by
  unfold tokCode at h
  obtain ⟨⟨s', e'⟩, h1, h⟩ := bind_inv h
  obtain ⟨js, j0, j1, j2, j3, j4⟩ := codeLoop_spec ids ks ⟨buf, vars, []⟩ s' e' he hk h1
  have hev := encode_even js
  cases e' with
  | some x =>
    cases h
    refine ⟨js, [], j0, j1, ?_, by simp, by simpa using j3, ?_, fun h => by cases h⟩
    · intro i hi; exact ⟨j2 i (by simpa using hi), bytes_even i⟩
    · rw [j3, List.length_append]
      have : ({ buf := buf, vars := vars, sys := [] } : CodeSt).buf.length = buf.length := rfl
      omega
  | none =>
    cases h
    have hev2 := encode_even (js ++ validationInstrs s'.sys)
    refine ⟨js, validationInstrs s'.sys, j0, j1, ?_, ?_, ?_, ?_, fun _ => j4 rfl⟩
    · intro i hi
      refine ⟨?_, bytes_even i⟩
      rcases List.mem_append.1 hi with hi | hi
      · exact j2 i hi
      · unfold validationInstrs at hi
        obtain ⟨n, _, rfl⟩ := List.mem_map.1 hi
        exact simple_WF _ _ (by decide)
    · intro v hv
      unfold validationInstrs at hv
      obtain ⟨n, _, rfl⟩ := List.mem_map.1 hv
      exact ⟨n, rfl⟩
    · show s'.buf ++ validations s'.sys = _
      rw [j3, validations_eq, encode_append, List.append_assoc]
    · show (s'.buf ++ validations s'.sys).length % 2 = 0
      rw [j3, validations_eq, List.append_assoc, ← encode_append, List.length_append]
      have : ({ buf := buf, vars := vars, sys := [] } : CodeSt).buf.length = buf.length := rfl
      omega

/-- `A=B+1`, compiled as `A B 1 + =`. -/
example : tokCode false [⟨.name, [65], 0, 0⟩, ⟨.name, [66], 0, 0⟩, ⟨.number, [49], 0, 0⟩, ⟨.operation, [43], 0, 4⟩,
    ⟨.operation, [61], 6, 0⟩] [] (Vars.init 4 true) = .ok ([86, 65, 86, 66, 110, 1, 79, 0, 79, 6], Vars.init 4 true, none) := by
  rfl

/-- C35: from the boundary between two parts of a program, the scanner finds the first instruction of the kind sought
(its position, and the position of the instruction before it), whatever bytes the instructions passed over contain; if
there is none it runs to the end of the program. -/
theorem C35_scan (find : Nat) (a b : List Instr) (hb : ∀ i ∈ b, i.WF) :
    bcScanPair (encode (a ++ b)) (posAfter a) find = match splitAt find b with
      | none => .ok (lastPos a b none, none)
      | some (c, _, _) => .ok (lastPos a c none, some (posAfter (a ++ c))) := by
  unfold bcScanPair
  exact scanPair_spec find b a _ none hb (by rw [encode_append, List.length_append]; omega)

theorem splitAt_some (find : Nat) : (b c d : List Instr) → (i : Instr) → splitAt find b = some (c, i, d) →
    b = c ++ i :: d ∧ i.op = find ∧ ∀ j ∈ c, j.op ≠ find
  | [], _, _, _, h => by cases h
  | x :: b, c, d, i, h => by
    unfold splitAt at h
    by_cases hx : x.op = find
    · rw [if_pos hx] at h
      injection h with h
      cases h
      exact ⟨rfl, hx, by simp⟩
    · rw [if_neg hx] at h
      cases hs : splitAt find b with
      | none => rw [hs] at h; cases h
      | some y =>
        obtain ⟨c', i', d'⟩ := y
        rw [hs] at h
        injection h with h
        cases h
        obtain ⟨h1, h2, h3⟩ := splitAt_some find b c' d i hs
        exact ⟨by rw [h1]; rfl, h2, by simpa using ⟨hx, h3⟩⟩

theorem splitAt_none (find : Nat) : (b : List Instr) → splitAt find b = none → ∀ j ∈ b, j.op ≠ find
  | [], _ => by simp
  | x :: b, h => by
    unfold splitAt at h
    by_cases hx : x.op = find
    · rw [if_pos hx] at h; cases h
    · rw [if_neg hx] at h
      cases hs : splitAt find b with
      | none => simpa using ⟨hx, splitAt_none find b hs⟩
      | some y => rw [hs] at h; cases h

/-- C35: what the scanner reports is an emitted instruction of the kind sought, and no instruction passed over is one. -/
theorem C35_scan_first (find : Nat) (a b : List Instr) (hb : ∀ i ∈ b, i.WF) (p : Option Nat) (n : Nat)
    (h : bcScanPair (encode (a ++ b)) (posAfter a) find = .ok (p, some n)) :
    ∃ c i d, b = c ++ i :: d ∧ i.op = find ∧ n = posAfter (a ++ c) ∧ ∀ j ∈ c, j.op ≠ find := by
  rw [C35_scan find a b hb] at h
  cases hs : splitAt find b with
  | none => rw [hs] at h; cases h
  | some x =>
    obtain ⟨c, i, d⟩ := x
    rw [hs] at h
    cases h
    obtain ⟨h1, h2, h3⟩ := splitAt_some find b c d i hs
    exact ⟨c, i, d, h1, h2, rfl, h3⟩

theorem C35_scan_none (find : Nat) (a b : List Instr) (hb : ∀ i ∈ b, i.WF) (p : Option Nat)
    (h : bcScanPair (encode (a ++ b)) (posAfter a) find = .ok (p, none)) : ∀ j ∈ b, j.op ≠ find := by
  rw [C35_scan find a b hb] at h
  cases hs : splitAt find b with
  | none => exact splitAt_none find b hs
  | some x => obtain ⟨c, i, d⟩ := x; rw [hs] at h; cases h

/-- `PRINT "CC"` before `ENDIF`: the letters of the string are the code of a command instruction and are passed over. -/
example : bcScanPair (encode ([] ++ [.text bcString [67, 67, 67, 11], .simple bcCommand 0, .simple bcCommand 11])) 0 bcCommand =
    .ok (some 0, some 6) := by decide +kernel

/-- C35 is violated by a name of 65 characters: its length byte is the letter `A`, so the scanner takes the characters
of the name for instructions (here the name is `ACAC…`; the scanner reports a command inside it). -/
theorem C35_long_name_violated : ∃ k : Tk, k.ty = .name ∧ k.text.length = 65 ∧ (∀ c ∈ k.text, c = 67 ∨ c = 65) ∧
    tokCode false [k] [] (Vars.init 4 true) = .ok (emitName ⟨[], Vars.init 4 true, []⟩ k |>.buf, Vars.init 4 true, none) ∧
    bcScanPair (emitName ⟨[], Vars.init 4 true, []⟩ k |>.buf) 0 bcCommand = .ok (some 0, some 2) :=
  ⟨⟨.name, List.replicate 65 67, 0, 0⟩, rfl, by decide, by decide, rfl, by decide +kernel⟩

/-- C35 is violated by a DATA line of 256 characters: its length byte is 0. -/
theorem C35_long_data_violated : bcScanPair (tokData [] (List.replicate 256 67)) 0 bcCommand = .ok (some 0, some 2) := by
  decide +kernel

end Sbc.Tok
