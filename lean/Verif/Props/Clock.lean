import Verif.Model.SysVars
import Verif.Props.StrFuncs
import Verif.Props.Arrays
set_option autoImplicit false
/-!
# C72–C76: counters, FREEMEM, date and time, VISIBLE, WAIT
-/
namespace Sbc.Sys
open Sbc Sbc.Strs

/-! ## C72: MAINCNTL and MAINCNTH -/

/-- C72 (what holds): for 2^40 frames the two counters determine the time exactly: it is MAINCNTH · 2^20 + MAINCNTL where both
are taken modulo 2^20. -/
theorem C72_time_partial (time : Nat) (h : time < 2 ^ 40) :
    (maincnth time / 4096 % 1048576) * 1048576 + maincntl time / 4096 % 1048576 = time := by
  have h1 : time &&& 0xfffff = time % 1048576 := Nat.and_two_pow_sub_one_eq_mod time 20
  have h2 : (time &&& 0xfffff00000) >>> 20 = time / 1048576 := by
    apply Nat.eq_of_testBit_eq
    intro i
    rw [Nat.testBit_shiftRight, Nat.testBit_and, Nat.testBit_div_two_pow (n := 20)]
    have hm : (0xfffff00000 : Nat) = (2 ^ 20 - 1) <<< 20 := by decide
    rw [hm, Nat.testBit_shiftLeft, Nat.testBit_two_pow_sub_one]
    rw [show 20 + i = i + 20 by omega]
    by_cases hi : i < 20
    · simp [hi]
    · have : time.testBit (i + 20) = false := Nat.testBit_lt_two_pow (Nat.lt_of_lt_of_le h (Nat.pow_le_pow_right (by decide) (by omega)))
      rw [this]; rfl
  unfold maincnth maincntl
  rw [h1, h2]
  have hq : time / 1048576 < 1048576 := by omega
  unfold intToFp wrap32
  omega

/-- MAINCNTL is the number of frames modulo 2^20 as long as that is below 2^19. -/
theorem C72_low_partial (time : Nat) (h : time % 1048576 < 524288) : maincntl time = ((time % 1048576 : Nat) : Int) * 4096 := by
  have h1 : time &&& 0xfffff = time % 1048576 := Nat.and_two_pow_sub_one_eq_mod time 20
  unfold maincntl
  rw [h1, intToFp_small (by omega)]

/-- C72 is violated: MAINCNTL is negative during every second half of its period (from about 2.4 hours on). -/
theorem C72_negative_violated (time : Nat) (h : 524288 ≤ time % 1048576) : maincntl time < 0 := by
  have h1 : time &&& 0xfffff = time % 1048576 := Nat.and_two_pow_sub_one_eq_mod time 20
  unfold maincntl
  rw [h1]
  unfold intToFp wrap32
  omega

example : maincntl 524287 = 524287 * 4096 ∧ maincntl 524288 = -524288 * 4096 ∧ maincnth 524288 = 0 := by decide

/-! ## C73: FREEMEM -/

/-- FREEMEM for the state of the array pool, on the handheld. -/
def freememOf (p : Arrays.Pool) (s : Sys) : Int := freemem { s with arrSize := p.size, arrNext := p.next, wordBytes := 4 }

/-- C73: after any admissible history FREEMEM is the free array memory in whole kilobytes; a DIM needing less than that many
kilobytes (4 bytes for each element and 12 for the array) succeeds, and a DIM whose elements need more than one kilobyte
beyond it is refused. -/
theorem C73_freemem (size : Nat) (h : size < 134217728) (ops : List Arrays.Op)
    (hv : Arrays.Spec.Valid { size, used := 0, arrs := [] } ops) (s : Arrays.St)
    (hs : s = (Arrays.run (Arrays.init size) ops).1) (y : Sys) (k : Nat) (hk : (k : Int) * 4096 = freememOf s.pool y)
    (s1 : Int) (s2 : Option Int) (d : Int) (hd : Arrays.Spec.DimOk s1 s2) (n : Int) (hn : n = Arrays.Spec.count s1 s2) :
    ((n + 3) * 4 ≤ k * 1024 → (Arrays.step s (.dim s1 s2 d)).2 = .created s.ptrs.length) ∧
    (n * 4 ≥ (k + 1) * 1024 → Arrays.step s (.dim s1 s2 d) = (s, .noMemory)) := by
  have r : Arrays.Rel s (Arrays.Spec.run { size, used := 0, arrs := [] } ops).1 := by
    subst hs; exact (Arrays.rel_run (Arrays.rel_init (by omega)) ops hv).2
  have hsize : (Arrays.Spec.run { size, used := 0, arrs := [] } ops).1.size = size := by
    suffices ∀ (ops : List Arrays.Op) (sp : Arrays.Spec.St), (Arrays.Spec.run sp ops).1.size = sp.size from this ops _
    intro ops
    induction ops with
    | nil => intro sp; rfl
    | cons op ops ih =>
      intro sp
      show (Arrays.Spec.run (Arrays.Spec.step sp op).1 ops).1.size = sp.size
      rw [ih]
      cases op with
      | dim s1 s2 d => simp only [Arrays.Spec.step]; split <;> rfl
      | read id ix iy =>
        simp only [Arrays.Spec.step]
        split
        · rfl
        · split <;> rfl
      | write id ix iy v =>
        simp only [Arrays.Spec.step]
        split
        · rfl
        · split <;> rfl
  have r' := r
  generalize (Arrays.Spec.run { size, used := 0, arrs := [] } ops).1 = sp at *
  have hu := r.used; have hsz := r.size
  have w := Arrays.rel_step r (.dim s1 s2 d) hd
  have hlen := r.len
  have hnn := Arrays.count_nonneg hd
  have hnx := r.next
  have hfree : k = (s.pool.size - s.pool.next) * 4 / 1024 := by
    unfold freememOf freemem at hk
    dsimp only at hk
    have hb : s.pool.size < 134217728 := by rw [hsz, hsize]; exact h
    rw [intToFp_small (by omega)] at hk
    omega
  by_cases hge : (sp.used : Int) + Arrays.Spec.count s1 s2 + 2 ≥ sp.size
  · constructor
    · intro hc
      exfalso
      rw [← hn] at hge
      omega
    · intro _
      simp only [Arrays.step]
      rw [Arrays.alloc_spec hd d r.next (by rw [r.size]; exact r.small), if_pos (by omega)]
  · constructor
    · intro _
      have e : (Arrays.Spec.step sp (.dim s1 s2 d)).2 = .created sp.arrs.length := by simp only [Arrays.Spec.step]; rw [if_neg hge]
      rw [w.1, e, hlen]
    · intro hc
      exfalso
      rw [← hn] at hge
      omega

example : freememOf (Arrays.run (Arrays.init 2048) [.dim 500 none 0]).1.pool
    ⟨0, ⟨0, 0, 0, 0, 0, 0⟩, 0, 0, 0, 0, 4, [], [], 0, 0, 0, 0, 0, 0, 0, 0, 0, fun _ => 0, 0, false⟩ = 6 * 4096 := by decide +kernel

/-! ## C74: TIME$ and DATE$ -/

/-- A possible time of day and date. -/
def Tm.Valid (t : Tm) : Prop :=
  t.year ≤ 9999 ∧ 1 ≤ t.month ∧ t.month ≤ 12 ∧ 1 ≤ t.day ∧ t.day ≤ 31 ∧ t.hour ≤ 23 ∧ t.min ≤ 59 ∧ t.sec ≤ 60

theorem digit_lt (n : Nat) (h : n < 10) : digit n % 256 = n + 48 := by unfold digit; omega

/-- C74: TMREAD of TIME$ gives back the hour, minute and second of the clock, for every time of day. -/
theorem C74_time (t : Tm) (h : t.Valid) : tmread ⟨false, timeStr t⟩ = .ok ((t.hour : Int) * 4096, (t.min : Int) * 4096, (t.sec : Int) * 4096) := by
  obtain ⟨-, -, -, -, -, h1, h2, h3⟩ := h
  have d : ∀ n, n < 10 → (48 ≤ digit n % 256 ∧ digit n % 256 ≤ 57) := by intro n hn; unfold digit; omega
  unfold tmread
  have hf : formatOk ⟨false, timeStr t⟩ timeFmt = true := by
    simp [formatOk, formatOk.go, timeFmt, timeStr, strLen, strAtChar, digit]
    omega
  rw [if_pos hf]
  simp only [timeStr, strAtChar, digit]
  simp
  omega

/-- C74: DTREAD of DATE$ gives back the year, month and day of the clock, for every date to the year 9999. -/
theorem C74_date (t : Tm) (h : t.Valid) : dtread ⟨false, dateStr t⟩ = .ok ((t.year : Int) * 4096, (t.month : Int) * 4096, (t.day : Int) * 4096) := by
  obtain ⟨h0, -, h1, -, h2, -⟩ := h
  unfold dtread
  have hf : formatOk ⟨false, dateStr t⟩ dateFmt = true := by
    simp [formatOk, formatOk.go, dateFmt, dateStr, strLen, strAtChar, digit]
    omega
  rw [if_pos hf]
  simp only [dateStr, strAtChar, digit]
  simp
  omega

/-- The two strings have the documented lengths. -/
theorem C74_length (t : Tm) : (timeStr t).length = 8 ∧ (dateStr t).length = 10 := ⟨rfl, rfl⟩

example : timeStr ⟨2024, 1, 31, 23, 5, 58⟩ = "23:05:58".toList.map Char.toNat ∧
    dateStr ⟨2024, 1, 31, 23, 5, 58⟩ = "2024/01/31".toList.map Char.toNat := by decide

/-! ## C75: VISIBLE -/

theorem mask_testBit (i k : Nat) (hi : i < 6) : ((255 ^^^ (1 <<< i)) &&& 0x3f).testBit k = decide (k < 6 ∧ k ≠ i) := by
  rw [Nat.testBit_and, Nat.testBit_xor, show (255 : Nat) = 2 ^ 8 - 1 by decide, show (0x3f : Nat) = 2 ^ 6 - 1 by decide,
    Nat.testBit_two_pow_sub_one, Nat.testBit_two_pow_sub_one, Nat.one_shiftLeft, Nat.testBit_two_pow]
  by_cases h1 : k < 6
  · by_cases h2 : i = k
    · subst h2; simp [h1]; omega
    · have : ¬ k = i := fun e => h2 e.symm
      simp [h1, h2, this]; omega
  · simp [h1]

theorem visibleLoop_spec (old : Nat) (args : List VArg) (i flags r : Nat) (hi : i + args.length ≤ 6) (hf : ∀ k, i ≤ k → flags.testBit k = false)
    (h : visibleLoop old args i flags = .ok r) (k : Nat) :
    r.testBit k = if k < i then flags.testBit k else
      match args[k - i]? with
      | some (.num n) => decide (fpToInt n = 1)
      | some .comma => old.testBit k
      | _ => false := by
  induction args generalizing i flags with
  | nil =>
    cases h
    split
    · rfl
    · simp only [List.getElem?_nil]; exact hf k (by omega)
  | cons a as ih =>
    have hlen : i + 1 + as.length ≤ 6 := by simp only [List.length_cons] at hi; omega
    have hi6 : i < 6 := by omega
    have fin : ∀ (fl : Nat) (b : Bool), visibleLoop old as (i + 1) fl = .ok r →
        (∀ k, fl.testBit k = if k = i then b else flags.testBit k) →
        (b = match a with | .num n => decide (fpToInt n = 1) | .comma => old.testBit i | _ => false) →
        r.testBit k = if k < i then flags.testBit k else
          match (a :: as)[k - i]? with
          | some (.num n) => decide (fpToInt n = 1)
          | some .comma => old.testBit k
          | _ => false := by
      intro fl b h1 h2 h3
      have := ih (i + 1) fl hlen (fun k hk => by rw [h2, if_neg (by omega)]; exact hf k (by omega)) h1
      rw [this]
      by_cases hk : k < i
      · rw [if_pos (by omega), if_pos hk, h2, if_neg (by omega)]
      · rw [if_neg hk]
        by_cases hk2 : k = i
        · subst hk2
          rw [if_pos (by omega), h2, if_pos rfl, Nat.sub_self, h3]
          cases a <;> rfl
        · rw [if_neg (by omega), show k - i = (k - (i + 1)) + 1 by omega, List.getElem?_cons_succ]
    have orbit : ∀ x b, x.testBit i = b → (∀ k, k ≠ i → x.testBit k = false) → ∀ k, (flags ||| x).testBit k = if k = i then b else flags.testBit k := by
      intro x b h1 h2 k
      rw [Nat.testBit_or]
      by_cases hk : k = i
      · subst hk; rw [h1, hf k (Nat.le_refl _), if_pos rfl]; rfl
      · rw [h2 k hk, if_neg hk]; simp
    cases a with
    | num n =>
      unfold visibleLoop at h
      split at h
      · cases h
      · rename_i hr
        split at h
        · rename_i h0
          refine fin _ true h (orbit _ _ ?_ ?_) ?_
          · rw [Nat.one_shiftLeft]; exact Nat.testBit_two_pow_self
          · intro k hk; rw [Nat.one_shiftLeft, Nat.testBit_two_pow]; simp; omega
          · have : fpToInt n = 1 := by omega
            simp [this]
        · rename_i h0
          refine fin _ false h ?_ ?_
          · intro k
            rw [Nat.testBit_and, mask_testBit i k hi6]
            by_cases hk : k = i
            · simp [hk]
            · rw [if_neg hk]
              by_cases hk6 : k < 6
              · simp [hk6, hk]
              · rw [hf k (by omega)]; rfl
          · have : fpToInt n = 0 := by omega
            simp [this]
    | comma =>
      unfold visibleLoop at h
      refine fin _ (old.testBit i) h (orbit _ _ ?_ ?_) rfl
      · rw [Nat.testBit_and, Nat.one_shiftLeft, Nat.testBit_two_pow_self]; simp
      · intro k hk; rw [Nat.testBit_and, Nat.one_shiftLeft, Nat.testBit_two_pow]; simp; intro; omega
    | str => cases h
    | other => cases h

/-- C75: VISIBLE with six arguments, each 0, 1 or left out, shows exactly the layers whose argument is 1, hides those with 0,
keeps those left out, and sets no other flag. -/
theorem C75_visible (old : Nat) (args : List VArg) (hlen : args.length = 6)
    (hok : ∀ a ∈ args, a = .comma ∨ ∃ n, a = .num n ∧ 0 ≤ fpToInt n ∧ fpToInt n ≤ 1) :
    ∃ r, cmdVisible old args = .ok r ∧ ∀ k, r.testBit k =
      match args[k]? with
      | some (.num n) => decide (fpToInt n = 1)
      | some .comma => old.testBit k
      | _ => false := by
  have ex : ∀ (args : List VArg), (∀ a ∈ args, a = .comma ∨ ∃ n, a = .num n ∧ 0 ≤ fpToInt n ∧ fpToInt n ≤ 1) → ∀ i f,
      ∃ r, visibleLoop old args i f = .ok r := by
    intro args
    induction args with
    | nil => intro _ i f; exact ⟨f, rfl⟩
    | cons a as ih =>
      intro h i f
      rcases h a (List.mem_cons_self ..) with rfl | ⟨n, rfl, h1, h2⟩
      · exact ih (fun b hb => h b (List.mem_cons_of_mem _ hb)) _ _
      · unfold visibleLoop
        rw [if_neg (by omega)]
        split
        · exact ih (fun b hb => h b (List.mem_cons_of_mem _ hb)) _ _
        · exact ih (fun b hb => h b (List.mem_cons_of_mem _ hb)) _ _
  obtain ⟨r, hr⟩ := ex args hok 0 0
  refine ⟨r, by unfold cmdVisible; rw [if_neg (by omega)]; exact hr, fun k => ?_⟩
  have := visibleLoop_spec old args 0 0 r (by omega) (fun k _ => Nat.zero_testBit k) hr k
  rw [if_neg (by omega), Nat.sub_zero] at this
  exact this

/-- C75: anything else is refused (and nothing changes, since the flags are stored last). -/
theorem C75_refused (old : Nat) (args : List VArg)
    (h : args.length ≠ 6 ∨ ∃ a ∈ args, a ≠ .comma ∧ ∀ n, a = .num n → fpToInt n < 0 ∨ fpToInt n > 1) :
    ∃ e, cmdVisible old args = .err e := by
  unfold cmdVisible
  by_cases hl : args.length ≠ 6
  · exact ⟨_, if_pos hl⟩
  · rw [if_neg hl]
    rcases h with h | h
    · exact absurd h hl
    · clear hl
      suffices ∀ (args : List VArg), (∃ a ∈ args, a ≠ .comma ∧ ∀ n, a = .num n → fpToInt n < 0 ∨ fpToInt n > 1) → ∀ i f,
        ∃ e, visibleLoop old args i f = .err e from this args h 0 0
      intro args
      induction args with
      | nil => rintro ⟨a, ha, -⟩; cases ha
      | cons b bs ih =>
        rintro ⟨a, ha, h1, h2⟩ i f
        rcases List.mem_cons.mp ha with rfl | ha
        · cases a with
          | num n => exact ⟨_, if_pos (h2 n rfl)⟩
          | str => exact ⟨_, rfl⟩
          | comma => exact absurd rfl h1
          | other => exact ⟨_, rfl⟩
        · have rec' := ih ⟨a, ha, h1, h2⟩
          cases b with
          | num n =>
            unfold visibleLoop
            split
            · exact ⟨_, rfl⟩
            · split <;> exact rec' _ _
          | str => exact ⟨_, rfl⟩
          | comma => exact rec' _ _
          | other => exact ⟨_, rfl⟩

example : cmdVisible 0b111111 [.num 4096, .num 0, .comma, .num 0, .comma, .num 4096] = .ok 0b110101 := by decide

/-! ## C76: WAIT and VSYNC -/

/-- C76: the loop ends at the first look at which the given number of frames has passed or an error (the break key) is pending: it
never ends earlier and, if that moment comes, always ends. -/
theorem C76_wait (clock : Nat → Int) (err : Nat → Bool) (delay : Int) (k : Nat)
    (hk : clock k - clock 0 ≥ delay ∨ err k = true) :
    ∃ j ≤ k, (∀ fuel > k, waitLoop clock err (clock 0) delay fuel 0 = some j) ∧
      (clock j - clock 0 ≥ delay ∨ err j = true) ∧ ∀ i < j, clock i - clock 0 < delay ∧ err i = false := by
  generalize clock 0 = st at *
  suffices ∀ (n i : Nat), (∀ x < i, clock x - st < delay ∧ err x = false) → i + n = k →
      ∃ j ≤ k, (∀ fuel > n, waitLoop clock err st delay fuel i = some j) ∧ (clock j - st ≥ delay ∨ err j = true) ∧
        ∀ x < j, clock x - st < delay ∧ err x = false from by
    obtain ⟨j, h1, h2, h3⟩ := this k 0 (fun x hx => by omega) (by omega)
    exact ⟨j, h1, h2, h3⟩
  intro n
  induction n with
  | zero =>
    intro i hi he
    obtain rfl : i = k := by omega
    refine ⟨i, Nat.le_refl _, fun fuel hfu => ?_, hk, hi⟩
    obtain ⟨f, rfl⟩ : ∃ f, fuel = f + 1 := ⟨fuel - 1, by omega⟩
    unfold waitLoop
    rw [if_neg]
    rintro ⟨h1, h2⟩
    rcases hk with hk | hk
    · omega
    · rw [h2] at hk; cases hk
  | succ n ih =>
    intro i hi he
    by_cases hc : clock i - st < delay ∧ err i = false
    · obtain ⟨j, h1, h2, h3⟩ := ih (i + 1) (fun x hx => by
        rcases Nat.lt_succ_iff_lt_or_eq.mp hx with h | h
        · exact hi x h
        · rw [h]; exact hc) (by omega)
      refine ⟨j, h1, fun fuel hfu => ?_, h3⟩
      obtain ⟨f, rfl⟩ : ∃ f, fuel = f + 1 := ⟨fuel - 1, by omega⟩
      unfold waitLoop
      rw [if_pos hc]
      exact h2 f (by omega)
    · refine ⟨i, by omega, fun fuel hfu => ?_, ?_, hi⟩
      · obtain ⟨f, rfl⟩ : ∃ f, fuel = f + 1 := ⟨fuel - 1, by omega⟩
        unfold waitLoop
        rw [if_neg hc]
      · cases he' : err i with
        | true => exact Or.inr rfl
        | false => exact Or.inl (by have : ¬ (clock i - st < delay) := fun h => hc ⟨h, he'⟩; omega)

/-- A wait of three frames with a counter that is looked at twice per frame. -/
example : waitLoop (fun k => 100 + k / 2) (fun _ => false) 100 3 20 0 = some 6 := by decide

end Sbc.Sys
