import Verif.Model.ProgramSize
import Verif.Proof.CodeSize
import Verif.Props.Compile
set_option autoImplicit false
/-!
# Memory for compiled programs (C99)
-/
namespace Sbc.Tok.Spec
open Sbc Sbc.Tok

/-- **C99.** Whatever the text of a program, with all options: its code has at most three times as many bytes as the text has
characters. -/
theorem C99_size (p : Opts) (pre : Tk) (src : List Nat) (o : Obj) (r : Obj × Option Nat) (h : tokenize p pre src o = .ok r) :
    r.1.buf.length ≤ 3 * src.length := by
  unfold tokenize at h
  have := tokenizeLoop_le _ h
  unfold pot at this
  simp [sumIn] at this
  exact this

/-- **C99 (partial).** The code of every program of up to 174762 characters fits into the memory for it.  Missing: longer programs
(`C99_room_violated`). -/
theorem C99_room_partial (p : Opts) (pre : Tk) (src : List Nat) (o : Obj) (r : Obj × Option Nat) (hl : src.length ≤ 174762)
    (h : tokenize p pre src o = .ok r) : r.1.buf.length ≤ maxSource := by
  have := C99_size p pre src o r h
  unfold maxSource
  omega

/-- The bound of three bytes for a character is nearly met. -/
example : (tokenize plainOpts preTok (chars "?.5,.5,.5,.5,.5,.5,.5,.5" ++ [13]) emptyObj).bind (fun r => .ok (r.1.buf.length, r.2)) =
    .ok (64, none) := by decide +kernel

/-! ### A program whose code does not fit -/

/-- `A=.5` ten times. -/
def longLine : List Nat := chars "A=.5:A=.5:A=.5:A=.5:A=.5:A=.5:A=.5:A=.5:A=.5:A=.5"

/-- 10000 such lines. -/
def longProgram : List Nat := programText (List.replicate 10000 longLine)

/-- Memory as for a program of the user. -/
def userObj (vars : Vars.Table) : Obj := ⟨[], Labels.init (2 ^ 11), vars, 0, maxLines⟩

theorem flatMap_replicate_len (n : Nat) (a : List Nat) : ((List.replicate n a).flatMap fun a => a ++ [13]).length = n * (a.length + 1) := by
  induction n with
  | zero => simp
  | succ n ih => rw [List.replicate_succ, List.flatMap_cons, List.length_append, ih]; simp; grind

theorem longProgram_length : longProgram.length = 500000 := by
  unfold longProgram programText
  rw [flatMap_replicate_len]
  rfl

/-- A table without entries finds nothing. -/
theorem empty_index {t : Labels.Table} (h0 : 0 < t.count) (h : ∀ i < t.count, Labels.unused (t.entry i) = true) (n : List Nat) :
    Labels.labelIndex t n = none := by
  unfold Labels.labelIndex Labels.find
  unfold Labels.findLoop
  dsimp only
  rw [if_pos (h _ (Nat.mod_lt _ h0))]
  rfl

theorem longLine_alone : ∃ code, Alone plainOpts preTok (userObj (Vars.init 4 true)) longLine none code ∧ code.length = 100 := by
  cases h : tokenize plainOpts preTok (longLine ++ [13]) (userObj (Vars.init 4 true)) with
  | err e =>
    exfalso
    have : (tokenize plainOpts preTok (longLine ++ [13]) (userObj (Vars.init 4 true))).bind (fun r => .ok r.2) = .ok none := by decide +kernel
    rw [h] at this
    cases this
  | ub =>
    exfalso
    have : (tokenize plainOpts preTok (longLine ++ [13]) (userObj (Vars.init 4 true))).bind (fun r => .ok r.2) = .ok none := by decide +kernel
    rw [h] at this
    cases this
  | ok r =>
    have h1 : (tokenize plainOpts preTok (longLine ++ [13]) (userObj (Vars.init 4 true))).bind
        (fun r => .ok (r.2, r.1.buf.length, r.1.labels.count, (List.range 2048).all (fun i => Labels.unused (r.1.labels.entry i)))) =
        .ok (none, 100, 2048, true) := by decide +kernel
    rw [h] at h1
    have h1 : Out.ok (r.2, r.1.buf.length, r.1.labels.count, (List.range 2048).all (fun i => Labels.unused (r.1.labels.entry i))) =
      .ok (none, 100, 2048, true) := h1
    injection h1 with h1
    simp only [Prod.mk.injEq, List.all_eq_true, List.mem_range] at h1
    obtain ⟨e1, e2, e3, e4⟩ := h1
    refine ⟨r.1.buf, ⟨⟨r.1, ?_, rfl, fun name _ => ?_⟩, by simp⟩, e2⟩
    · rw [h]
      obtain ⟨a, b⟩ := r
      simp only at e1
      rw [e1]
    · rw [empty_index (by omega) (by rw [e3]; exact e4)]
      simp

theorem joined_replicate (cap : Nat) (c : List Nat) : ∀ (n : Nat) (defs : List (List Nat × Nat)) (code : List Nat),
    ((joined cap defs code (List.replicate n (none, c))).2).length = code.length + n * c.length
  | 0, defs, code => by simp [joined]
  | n + 1, defs, code => by
    rw [List.replicate_succ]
    simp only [joined]
    rw [joined_replicate cap c n, List.length_append]
    grind

theorem forall₂_replicate {α β : Type} {R : α → β → Prop} {a : α} {b : β} (h : R a b) : ∀ n, List.Forall₂ R (List.replicate n a) (List.replicate n b)
  | 0 => .nil
  | n + 1 => .cons h (forall₂_replicate h n)

/-- **C99 (violated).** There is a program that fits into the memory for programs (500000 characters, 10000 lines), and that is
correct, whose code (a million bytes) is longer than the memory for it (524288 bytes); the compiler does not check. -/
theorem C99_room_violated : longProgram.length ≤ maxSource ∧
    ∃ o, tokenize plainOpts preTok longProgram (userObj (Vars.init 4 true)) = .ok (o, none) ∧ o.buf.length = 1000000 ∧ maxSource < 1000000 := by
  refine ⟨by rw [longProgram_length]; decide, ?_⟩
  obtain ⟨code, ha, hc⟩ := longLine_alone
  obtain ⟨o', h1, h2, -⟩ := C79_lines_joined plainOpts preTok 11 (userObj (Vars.init 4 true)) rfl rfl ⟨[], by simp, rfl⟩
    (List.replicate 10000 longLine) (List.replicate 10000 (none, code)) (by rw [List.length_replicate]; decide)
    (fun a ha => by
      rw [(List.mem_replicate.mp ha).2]
      decide +kernel)
    (forall₂_replicate (R := fun a x => Alone plainOpts preTok (userObj (Vars.init 4 true)) a x.1 x.2) (b := (none, code)) ha _)
  refine ⟨o', h1, ?_, by decide⟩
  rw [h2, joined_replicate, hc]
  rfl

/-! ### The table of lines -/

theorem convert_cap {ids : Bool} {pre : Tk} {toks : List Tk} {o : Obj} {r : Obj × Option Nat} (c : Nat)
    (h : convertCode ids pre toks o = .ok r) (hc : o.lines < c) :
    convertCode ids pre toks { o with cap := c } = .ok ({ r.1 with cap := c }, r.2) ∧ r.1.lines ≤ o.lines + 1 := by
  unfold convertCode at h ⊢
  obtain ⟨ks, hks, h⟩ := bind_inv h
  obtain ⟨e, he, h⟩ := bind_inv h
  rw [hks, ok_bind, he, ok_bind]
  by_cases e0 : e ≠ 0
  · rw [if_pos e0] at h ⊢
    cases h
    exact ⟨rfl, by dsimp only; omega⟩
  · rw [if_neg e0] at h ⊢
    obtain ⟨x, hx, h⟩ := bind_inv h
    show ((tokCode ids ks o.buf o.vars).bind _) = _ ∧ _
    rw [hx, ok_bind]
    cases hx2 : x.2.2 with
    | some e' =>
      rw [hx2] at h
      cases h
      exact ⟨rfl, by dsimp only; omega⟩
    | none =>
      rw [hx2] at h
      dsimp only at h ⊢
      rw [if_pos hc]
      split at h
      · cases h
        exact ⟨rfl, by dsimp only; omega⟩
      · cases h

theorem tokConvert_cap {p : Opts} {pre : Tk} {toks : List Tk} {o : Obj} {r : Obj × Option Nat} (c : Nat)
    (h : tokConvert p pre toks o = .ok r) (hc : o.lines < c) :
    tokConvert p pre toks { o with cap := c } = .ok ({ r.1 with cap := c }, r.2) ∧ r.1.lines ≤ o.lines + 1 := by
  unfold tokConvert at h ⊢
  cases toks with
  | nil => cases h
  | cons t ts =>
    dsimp only at h ⊢
    by_cases hl : t.ty = .label
    · rw [if_pos hl] at h ⊢
      split at h
      · rename_i hb
        cases h
        rw [if_pos hb]
        exact ⟨rfl, by dsimp only; omega⟩
      · rename_i hb
        rw [if_neg hb]
        split at h
        · rename_i hn
          cases h
          rw [if_pos hn]
          exact ⟨rfl, by dsimp only; omega⟩
        · rename_i hn
          rw [if_neg hn]
          exact convert_cap c h hc
    · rw [if_neg hl] at h ⊢
      exact convert_cap c h hc

/-- The end of the line is read. -/
theorem convert_count {s : Lx} {x : Lx × LxCtl} (h : tokNone s = .ok x) (hx : x.2 = .convert) : s.rest.count 13 = x.1.rest.count 13 + 1 := by
  have := tokNone_pot h
  unfold StepPot at this
  rw [hx] at this
  rw [this.2, List.count_cons_self]

theorem loop_cap {p : Opts} {pre : Tk} : ∀ (fuel : Nat) {s : Lx} {o : Obj} {r : Obj × Option Nat} (c : Nat),
    tokenizeLoop p pre fuel s o = .ok r → o.lines + s.rest.count 13 ≤ c →
    tokenizeLoop p pre fuel s { o with cap := c } = .ok ({ r.1 with cap := c }, r.2)
  | 0, s, o, r, c, h, _ => by cases h
  | fuel + 1, s, o, r, c, h, hc => by
    unfold tokenizeLoop at h ⊢
    split at h
    · rename_i h0
      cases h
      rw [if_pos h0]
    rename_i h0
    rw [if_neg h0]
    obtain ⟨x, hx, h⟩ := bind_inv h
    rw [hx, ok_bind]
    have hsuf : x.1.rest <:+ s.rest := (C78_progress s x.1 x.2 hx).1
    have hcnt := hsuf.sublist.count_le 13
    cases hx2 : x.2 with
    | next =>
      rw [hx2] at h
      exact loop_cap fuel c h (by omega)
    | fail e =>
      rw [hx2] at h
      dsimp only at h ⊢
      split at h
      · rename_i hs
        cases h
        rw [if_pos hs]
      · rename_i hs
        rw [if_neg hs]
        obtain ⟨r', hr', h⟩ := bind_inv h
        rw [hr', ok_bind]
        have h2 : r'.count 13 ≤ x.1.rest.count 13 := by
          unfold skipLine at hr'
          have := (List.dropWhile_suffix (l := x.1.rest) (· != 13)).sublist.count_le 13
          split at hr'
          · cases hr'
          · rename_i q r2 he
            cases hr'
            rw [he, List.count_cons] at this
            omega
        exact loop_cap (o := o.error e) fuel c h (by show o.lines + r'.count 13 ≤ c; omega)
    | convert =>
      rw [hx2] at h
      dsimp only at h ⊢
      have hcc := convert_count hx hx2
      obtain ⟨y, hy, h⟩ := bind_inv h
      obtain ⟨k1, k2⟩ := tokConvert_cap c hy (by omega)
      rw [k1, ok_bind]
      cases hy2 : y.2 with
      | none =>
        rw [hy2] at h
        dsimp only at h ⊢
        exact loop_cap fuel c h (by dsimp only; omega)
      | some e =>
        rw [hy2] at h
        dsimp only at h ⊢
        split at h
        · rename_i hs
          cases h
          rw [if_pos hs]
        · rename_i hs
          rw [if_neg hs]
          exact loop_cap (o := y.1.error e) fuel c h (by show y.1.lines + x.1.rest.count 13 ≤ c; omega)

theorem countLoop_lines : ∀ (l : List Nat) (f : Bool) (q : Params), (countLoop l f q).lines = q.lines + l.count 13
  | [], f, q => by simp [countLoop]
  | c :: l, f, q => by
    unfold countLoop
    by_cases h : c = 13
    · rw [if_pos h, countLoop_lines, h, List.count_cons_self]
      dsimp only
      omega
    · rw [if_neg h, List.count_cons_of_ne (by exact h)]
      split
      · rw [countLoop_lines]
      · split <;> rw [countLoop_lines]

/-- **C99.** The number of lines calculated for a program is enough for its table of lines: if the program compiles in memory with
any table of lines, then it compiles to the same in memory with a table of the calculated number of lines. -/
theorem C99_lines (p : Opts) (pre : Tk) (src : List Nat) (o : Obj) (r : Obj × Option Nat) (h : tokenize p pre src o = .ok r) :
    tokenize p pre src { o with cap := (calcMin src).lines } = .ok ({ r.1 with cap := (calcMin src).lines }, r.2) := by
  unfold tokenize at h ⊢
  refine loop_cap _ _ h ?_
  show 0 + src.count 13 ≤ (countLoop src true ⟨0, 0⟩).lines
  rw [countLoop_lines]

/-- With the limits of the program (10000 lines): a program with at most as many line ends. -/
theorem C99_max_lines (p : Opts) (pre : Tk) (src : List Nat) (o : Obj) (r : Obj × Option Nat) (h : tokenize p pre src o = .ok r)
    (hl : src.count 13 ≤ maxLines) : tokenize p pre src { o with cap := maxLines } = .ok ({ r.1 with cap := maxLines }, r.2) := by
  unfold tokenize at h ⊢
  exact loop_cap _ _ h (by show 0 + src.count 13 ≤ maxLines; omega)

/-- **C99 (violated).** The memory for the launcher (the prompt of the direct mode) is calculated from the program in memory, which
is empty, instead of from the launcher: its table of lines has no entry, and compiling the launcher writes behind it. -/
theorem C99_launcher_violated :
    compileLauncher preTok (Vars.init 4 true) = .ub ∧
    (tokenize plainOpts preTok launcher (newObj (calcMin launcher) (Vars.init 4 true))).bind (fun r => .ok (r.1.buf, r.2)) =
      .ok ([86, 5, 67, 79, 68, 69, 36, 0, 99, 24], none) := by
  constructor
  · have h : (match compileLauncher preTok (Vars.init 4 true) with | .ub => true | _ => false) = true := by decide +kernel
    generalize compileLauncher preTok (Vars.init 4 true) = z at h ⊢
    cases z <;> first | rfl | cases h
  · decide +kernel

/-! ### The table of labels -/

theorem smear_bit (x k i : Nat) : (smear x k).testBit i = (x.testBit i || x.testBit (i + k)) := by
  unfold smear
  rw [Nat.testBit_or, Nat.testBit_shiftRight, Nat.add_comm k i]

/-- Rounding up gives the least power of two that is large enough. -/
theorem roundUp_spec (n : Nat) (h1 : 1 ≤ n) (h2 : n ≤ 2 ^ 32) : ∃ k, roundUp n = 2 ^ k ∧ n ≤ 2 ^ k ∧ 2 ^ k < 2 * n := by
  unfold roundUp
  rw [if_neg (by omega)]
  by_cases hx : n - 1 = 0
  · have : n = 1 := by omega
    subst this
    exact ⟨0, rfl, by decide, by decide⟩
  generalize hxe : n - 1 = x at hx
  obtain ⟨h, hlo, hhi⟩ : ∃ h, 2 ^ h ≤ x ∧ x < 2 ^ (h + 1) := ⟨x.log2, Nat.log2_self_le hx, Nat.lt_log2_self⟩
  have hh : h < 32 := by
    have : 2 ^ h < 2 ^ 32 := by omega
    exact (Nat.pow_lt_pow_iff_right (by omega)).mp this
  have top : x.testBit h = true := by
    rw [Nat.testBit_eq_decide_div_mod_eq]
    have : x / 2 ^ h = 1 := by
      have e : 2 ^ (h + 1) = 2 * 2 ^ h := by rw [Nat.pow_succ]; omega
      apply Nat.div_eq_of_lt_le <;> omega
    rw [this]; rfl
  have above : ∀ i, h < i → x.testBit i = false := fun i hi =>
    Nat.testBit_lt_two_pow (Nat.lt_of_lt_of_le hhi (Nat.pow_le_pow_right (by omega) hi))
  have s1 : ∀ i, (smear x 16).testBit i = true ↔ ∃ j, j < 32 ∧ j % 16 = 0 ∧ x.testBit (i + j) = true := by
    intro i
    rw [smear_bit, Bool.or_eq_true]
    constructor
    · rintro (a | a)
      · exact ⟨0, by omega, rfl, a⟩
      · exact ⟨16, by omega, rfl, a⟩
    · rintro ⟨j, j1, j2, a⟩
      rcases (show j = 0 ∨ j = 16 by omega) with rfl | rfl
      · exact Or.inl a
      · exact Or.inr a
  have next : ∀ (y k : Nat), k ∣ 16 → (∀ i, y.testBit i = true ↔ ∃ j, j < 32 ∧ j % (2 * k) = 0 ∧ x.testBit (i + j) = true) →
      ∀ i, (smear y k).testBit i = true ↔ ∃ j, j < 32 ∧ j % k = 0 ∧ x.testBit (i + j) = true := by
    intro y k hk hy i
    rw [smear_bit, Bool.or_eq_true, hy, hy]
    obtain ⟨q, hq⟩ := hk
    have hk0 : 0 < k := Nat.pos_of_ne_zero (by rintro rfl; omega)
    constructor
    · rintro (⟨j, j1, j2, a⟩ | ⟨j, j1, j2, a⟩)
      · exact ⟨j, j1, by rw [← Nat.mod_mul_left_mod j 2 k, j2]; exact Nat.zero_mod _, a⟩
      · have jk : j % k = 0 := by rw [← Nat.mod_mul_left_mod j 2 k, j2]; exact Nat.zero_mod _
        refine ⟨j + k, ?_, by rw [Nat.add_mod_right]; exact jk, by rw [Nat.add_assoc, Nat.add_comm k j] at a; exact a⟩
        obtain ⟨m, hm⟩ := Nat.dvd_of_mod_eq_zero j2
        -- j and 32 are multiples of 2 k
        have e32 : 32 = (2 * k) * q := by rw [Nat.mul_assoc, ← hq]
        have : m < q := by
          have : (2 * k) * m < (2 * k) * q := by omega
          exact Nat.lt_of_mul_lt_mul_left this
        have : (2 * k) * (m + 1) ≤ (2 * k) * q := Nat.mul_le_mul_left _ this
        rw [Nat.mul_add, Nat.mul_one] at this
        omega
    · rintro ⟨j, j1, j2, a⟩
      by_cases e : j % (2 * k) = 0
      · exact Or.inl ⟨j, j1, e, a⟩
      · refine Or.inr ⟨j - k, by omega, ?_, ?_⟩
        · obtain ⟨m, hm⟩ := Nat.dvd_of_mod_eq_zero j2
          have hodd : m % 2 = 1 := by
            rcases Nat.mod_two_eq_zero_or_one m with h0 | h0
            · exfalso
              apply e
              obtain ⟨m', rfl⟩ := Nat.dvd_of_mod_eq_zero h0
              rw [hm, ← Nat.mul_assoc, Nat.mul_comm k 2, Nat.mul_mod_right]
            · exact h0
          have : j - k = 2 * k * (m / 2) := by
            have hm2 : m = 2 * (m / 2) + 1 := by omega
            rw [hm]
            conv_lhs => rw [hm2]
            rw [Nat.mul_add, Nat.mul_one, Nat.add_sub_cancel, ← Nat.mul_assoc, Nat.mul_comm k 2]
          rw [this, Nat.mul_mod_right]
        · have hle : k ≤ j := by
            obtain ⟨m, hm⟩ := Nat.dvd_of_mod_eq_zero j2
            cases m with
            | zero => exfalso; apply e; rw [hm]; simp
            | succ m => rw [hm, Nat.mul_succ]; omega
          rw [show i + k + (j - k) = i + j by omega]
          exact a
  have s2 := next _ 8 ⟨2, rfl⟩ s1
  have s3 := next _ 4 ⟨4, rfl⟩ s2
  have s4 := next _ 2 ⟨8, rfl⟩ s3
  have s5 := next _ 1 ⟨16, rfl⟩ s4
  have fin : smear (smear (smear (smear (smear x 16) 8) 4) 2) 1 = 2 ^ (h + 1) - 1 := by
    apply Nat.eq_of_testBit_eq
    intro i
    rw [Bool.eq_iff_iff, s5, Nat.testBit_two_pow_sub_one, decide_eq_true_eq]
    constructor
    · rintro ⟨j, -, -, a⟩
      refine Decidable.byContradiction fun hi => ?_
      rw [above (i + j) (by omega)] at a
      cases a
    · intro hi
      exact ⟨h - i, by omega, Nat.mod_one _, by rw [show i + (h - i) = h by omega]; exact top⟩
  have hp : 0 < 2 ^ (h + 1) := Nat.two_pow_pos _
  have e : 2 ^ (h + 1) = 2 * 2 ^ h := by rw [Nat.pow_succ]; omega
  refine ⟨h + 1, ?_, by omega, by omega⟩
  rw [fin]; omega

/-- The line begins with a label: blanks, then `@`. -/
def LabelLine (a : List Nat) : Prop := ∃ u v, a = u ++ 64 :: v ∧ ∀ c ∈ u, c = 32

instance (a : List Nat) : Decidable (LabelLine a) :=
  decidable_of_iff ((a.dropWhile (· == 32)).head? = some 64) (by
    constructor
    · intro h
      cases hd : a.dropWhile (· == 32) with
      | nil => rw [hd] at h; cases h
      | cons c r =>
        rw [hd] at h
        simp only [List.head?_cons, Option.some.injEq] at h
        refine ⟨a.takeWhile (· == 32), r, ?_, fun c hc => ?_⟩
        · conv_lhs => rw [← List.takeWhile_append_dropWhile (p := (· == 32)) (l := a), hd, h]
        · have := List.all_eq_true.mp List.all_takeWhile c hc; simpa using this
    · rintro ⟨u, v, rfl, hu⟩
      induction u with
      | nil => simp
      | cons c u ih =>
        have : c = 32 := hu c (by simp)
        subst this
        simp only [List.cons_append, List.dropWhile_cons, beq_self_eq_true, if_true]
        exact ih fun d hd => hu d (List.mem_cons_of_mem _ hd))

theorem countLoop_mono : ∀ (l : List Nat) (f : Bool) (q : Params), q.labels ≤ (countLoop l f q).labels
  | [], f, q => by simp [countLoop]
  | c :: l, f, q => by
    unfold countLoop
    split
    · have := countLoop_mono l true { q with lines := q.lines + 1 }; exact this
    · split
      · have := countLoop_mono l f { q with labels := q.labels + 1 }
        dsimp only at this; omega
      · split <;> exact countLoop_mono l _ _

/-- After a line. -/
theorem countLoop_line : ∀ (a r : List Nat) (f : Bool) (q : Params), 13 ∉ a →
    ∃ q', countLoop (a ++ 13 :: r) f q = countLoop r true q' ∧ q.labels ≤ q'.labels ∧ (f = true → LabelLine a → q.labels + 1 ≤ q'.labels)
  | [], r, f, q, _ => by
    refine ⟨{ q with lines := q.lines + 1 }, ?_, Nat.le_refl _, ?_⟩
    · rw [List.nil_append, countLoop, if_pos rfl]
    · rintro - ⟨u, v, e, -⟩
      cases u <;> cases e
  | c :: a, r, f, q, h => by
    have c13 : c ≠ 13 := fun e => h (by rw [e]; simp)
    have ha : 13 ∉ a := fun e => h (List.mem_cons_of_mem _ e)
    rw [List.cons_append, countLoop, if_neg c13]
    by_cases h1 : f = true ∧ c = 64
    · rw [if_pos h1]
      obtain ⟨q', k1, k2, -⟩ := countLoop_line a r f { q with labels := q.labels + 1 } ha
      dsimp only at k2
      exact ⟨q', k1, by omega, fun _ _ => k2⟩
    · rw [if_neg h1]
      by_cases h2 : c ≠ 32
      · rw [if_pos h2]
        obtain ⟨q', k1, k2, -⟩ := countLoop_line a r false q ha
        refine ⟨q', k1, k2, fun hf hl => ?_⟩
        exfalso
        obtain ⟨u, v, e, hu⟩ := hl
        cases u with
        | nil =>
          simp only [List.nil_append, List.cons.injEq] at e
          exact h1 ⟨hf, e.1⟩
        | cons d u =>
          simp only [List.cons_append, List.cons.injEq] at e
          exact h2 (by rw [e.1]; exact hu d (by simp))
      · rw [if_neg h2]
        obtain ⟨q', k1, k2, k3⟩ := countLoop_line a r f q ha
        refine ⟨q', k1, k2, fun hf hl => k3 hf ?_⟩
        obtain ⟨u, v, e, hu⟩ := hl
        cases u with
        | nil =>
          simp only [List.nil_append, List.cons.injEq] at e
          exact absurd e.1 (by simp only [ne_eq, Decidable.not_not] at h2; omega)
        | cons d u =>
          simp only [List.cons_append, List.cons.injEq] at e
          exact ⟨u, v, e.2, fun x hx => hu x (List.mem_cons_of_mem _ hx)⟩

/-- **C99 (partial).** The table of labels calculated for a program whose lines `ls` contain any text has room for every line that
begins with a label in the form `@NAME`, and it is a power of two, as the table needs.  Missing: labels in the form `LABEL NAME`
(`C99_labels_violated`). -/
theorem C99_labels_partial (ls : List (List Nat)) (h : ∀ a ∈ ls, 13 ∉ a) (hs : (programText ls).length ≤ 2 ^ 32) :
    (ls.filter LabelLine).length ≤ (calcMin (programText ls)).labels ∧
    ((calcMin (programText ls)).labels = 0 ∨ ∃ k, (calcMin (programText ls)).labels = 2 ^ k) := by
  have low : ∀ (ls : List (List Nat)) (q : Params), (∀ a ∈ ls, 13 ∉ a) →
      q.labels + (ls.filter LabelLine).length ≤ (countLoop (programText ls) true q).labels := by
    intro ls
    induction ls with
    | nil => intro q _; simp [programText, countLoop]
    | cons a ls ih =>
      intro q hl
      obtain ⟨q', k1, k2, k3⟩ := countLoop_line a (programText ls) true q (hl a (by simp))
      have e : programText (a :: ls) = a ++ 13 :: programText ls := by simp [programText]
      rw [e, k1]
      have := ih q' fun b hb => hl b (List.mem_cons_of_mem _ hb)
      rw [List.filter_cons]
      split
      · rename_i hll
        have := k3 rfl (by simpa using hll)
        simp only [List.length_cons]
        omega
      · omega
  have up : ∀ (l : List Nat) (f : Bool) (q : Params), (countLoop l f q).labels ≤ q.labels + l.length := by
    intro l
    induction l with
    | nil => intro f q; simp [countLoop]
    | cons c l ih =>
      intro f q
      unfold countLoop
      simp only [List.length_cons]
      split
      · have := ih true { q with lines := q.lines + 1 }
        dsimp only at this; omega
      · split
        · have := ih f { q with labels := q.labels + 1 }
          dsimp only at this; omega
        · split
          · have := ih false q; omega
          · have := ih f q; omega
  have h1 := low ls ⟨0, 0⟩ h
  have h2 := up (programText ls) true ⟨0, 0⟩
  simp only [Nat.zero_add] at h1 h2
  have h3 : (calcMin (programText ls)).labels = roundUp (countLoop (programText ls) true ⟨0, 0⟩).labels := rfl
  rw [h3]
  generalize (countLoop (programText ls) true ⟨0, 0⟩).labels = n at h1 h2
  by_cases hn : n = 0
  · subst hn
    exact ⟨by omega, Or.inl rfl⟩
  · obtain ⟨k, k1, k2, -⟩ := roundUp_spec n (by omega) (by omega)
    exact ⟨by omega, Or.inr ⟨k, k1⟩⟩

example : (calcMin (programText [chars "@A", chars "?1", chars " @B", chars "@C"])) = ⟨4, 4⟩ := by decide +kernel

/-- **C99 (violated).** Labels in the form `LABEL NAME` are not counted: in the memory calculated for this correct program there is
no room for its second label. -/
theorem C99_labels_violated :
    let src := programText [chars "@A", chars "LABEL B"]
    (tokenize plainOpts preTok src (userObj (Vars.init 4 true))).bind (fun r => .ok r.1.buf) = .ok [76, 1, 65, 0, 76, 1, 66, 0] ∧
    (tokenize plainOpts preTok src (newObj (calcMin src) (Vars.init 4 true))).bind (fun r => .ok r.1.buf) = .ok [76, 1, 65, 0, 69, 52] := by
  decide +kernel

end Sbc.Tok.Spec
