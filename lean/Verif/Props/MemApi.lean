import Verif.Model.MemApi
set_option autoImplicit false
/-!
# C38: memory access stays inside the window — and C64: PTR$
-/
namespace Sbc.MemApi
open Sbc

/-- The address can be converted to a pointer (always on the NDS). -/
def Convertible (c : Cfg) (num : Int) : Prop := c = .pc → -2113929216 ≤ num

theorem toPtr_ok {c : Cfg} {num : Int} (h : Convertible c num) : toPtr c num = .ok (if num = 0 then none else some num) := by
  unfold toPtr
  by_cases h0 : num = 0
  · rw [if_pos h0, if_pos h0]
  · rw [if_neg h0, if_neg h0, if_neg]
    rintro ⟨h1, h2⟩
    have := h h1
    unfold lo at h2; omega

theorem storeLE_ok (c : Cfg) (w : Nat) : ∀ (m : Mem) (a : Int) (v : Nat), (0 < w → lo ≤ a ∧ a + w - 1 ≤ hi c) →
    ∃ m', storeLE c m a v w = .ok m' ∧ (∀ i : Nat, i < w → m' (a + i) = v / 256 ^ i % 256) ∧
      ∀ x, ¬ (a ≤ x ∧ x < a + w) → m' x = m x := by
  induction w with
  | zero => intro m a v _; exact ⟨m, rfl, fun i hi => by omega, fun _ _ => rfl⟩
  | succ w ih =>
    intro m a v h
    have h' := h (by omega)
    have hs : store c m a (v % 256) = .ok (fun x => if x = a then v % 256 else m x) := if_pos (by omega)
    obtain ⟨m', h1, h2, h3⟩ := ih (fun x => if x = a then v % 256 else m x) (a + 1) (v / 256) (by omega)
    refine ⟨m', ?_, ?_, ?_⟩
    · unfold storeLE; rw [hs]; exact h1
    · intro i hi
      cases i with
      | zero =>
        rw [h3 _ (by omega)]
        simp
      | succ i =>
        have := h2 i (by omega)
        rw [show a + ((i + 1 : Nat) : Int) = a + 1 + (i : Nat) by omega, this, Nat.pow_succ, Nat.div_div_eq_div_mul, Nat.mul_comm]
    · intro x hx
      rw [h3 x (by omega)]
      exact if_neg (by omega)

theorem loadLE_ok (c : Cfg) (m : Mem) (w : Nat) : ∀ (a : Int), (0 < w → lo ≤ a ∧ a + w - 1 ≤ hi c) → ∃ v, loadLE c m a w = .ok v := by
  induction w with
  | zero => intro a _; exact ⟨0, rfl⟩
  | succ w ih =>
    intro a h
    have h' := h (by omega)
    obtain ⟨v, hv⟩ := ih (a + 1) (by omega)
    have hl : load c m a = .ok (m a) := if_pos (by omega)
    refine ⟨m a + 256 * v, ?_⟩
    unfold loadLE; rw [hl]; simp only [Out.bind]; rw [hv]

/-- What was stored is what is loaded. -/
theorem loadLE_stored (c : Cfg) (m : Mem) (w : Nat) : ∀ (a : Int) (v : Nat), (0 < w → lo ≤ a ∧ a + w - 1 ≤ hi c) →
    (∀ i : Nat, i < w → m (a + i) = v / 256 ^ i % 256) → loadLE c m a w = .ok (v % 256 ^ w) := by
  induction w with
  | zero => intro a v _ _; rw [Nat.pow_zero, Nat.mod_one]; rfl
  | succ w ih =>
    intro a v h hm
    have h' := h (by omega)
    have hl : load c m a = .ok (m a) := if_pos (by omega)
    have h0 : m a = v % 256 := by have := hm 0 (by omega); simpa using this
    have hr := ih (a + 1) (v / 256) (by omega) (by
      intro i hi
      have := hm (i + 1) (by omega)
      rw [show a + 1 + (i : Int) = a + ((i + 1 : Nat) : Int) by omega, this, Nat.pow_succ, Nat.div_div_eq_div_mul, Nat.mul_comm])
    unfold loadLE; rw [hl]; simp only [Out.bind]; rw [hr, h0]
    show Out.ok _ = Out.ok _
    congr 1
    rw [Nat.pow_succ, Nat.mul_comm (256 ^ w) 256, Nat.mod_mul]

/-- On which addresses an access of a size is accepted with `MEMSAFE` on, and then it lies in the window. -/
theorem check_safe {c : Cfg} {s : Size} {num a : Int} (h : check c true s num = .ok a) :
    a = num ∧ lo ≤ num ∧ num ≤ hi c ∧ (c = .arm → num % s.bytes = 0) := by
  unfold check at h
  cases hp : toPtr c num with
  | ub => rw [hp] at h; cases h
  | err e => rw [hp] at h; cases h
  | ok p =>
    rw [hp] at h
    simp only [Out.bind] at h
    cases p with
    | none => cases h
    | some b =>
      have hb : b = num := by
        unfold toPtr at hp
        split at hp
        · cases hp
        · split at hp
          · cases hp
          · injection hp with hp; injection hp with hp; exact hp.symm
      simp only [Bool.true_and, Bool.or_eq_true, Bool.and_eq_true, decide_eq_true_eq] at h
      split at h
      · cases h
      · split at h
        · cases h
        · next h1 h2 =>
          injection h with h
          refine ⟨by omega, by omega, by omega, fun hc => Decidable.not_not.1 fun hh => h2 ⟨hc, hh⟩⟩

/-- An aligned access at an address of the window stays in the window. -/
theorem aligned_in {c : Cfg} {s : Size} {num : Int} (h1 : lo ≤ num) (h2 : num ≤ hi c) (h3 : num % s.bytes = 0) : num + s.bytes - 1 ≤ hi c := by
  cases s <;> cases c <;> simp only [Size.bytes, hi, lo] at * <;> omega

/-- C38 (NDS): with `MEMSAFE` on, POKE, POKEH and POKEB with any address and value report an error, or change only bytes of
the window, namely the 4, 2 or 1 bytes at the address. -/
theorem C38_poke_arm (s : Size) (m : Mem) (num val : Int) :
    (∃ e, poke .arm true s m num val = .err e) ∨
    ∃ m', poke .arm true s m num val = .ok m' ∧ lo ≤ num ∧ num + s.bytes - 1 ≤ hi .arm ∧
      ∀ x, ¬ (num ≤ x ∧ x < num + s.bytes) → m' x = m x := by
  unfold poke
  cases hc : check .arm true s num with
  | ub =>
    exfalso
    unfold check at hc
    rw [toPtr_ok (c := .arm) (num := num) (fun h => by cases h)] at hc
    simp only [Out.bind] at hc
    split at hc
    · cases hc
    · split at hc
      · cases hc
      · split at hc <;> cases hc
  | err e => exact Or.inl ⟨e, rfl⟩
  | ok a =>
    obtain ⟨h1, h2, h3, h4⟩ := check_safe hc
    have h5 := aligned_in h2 h3 (h4 rfl)
    subst h1
    obtain ⟨m', h6, _, h7⟩ := storeLE_ok .arm s.bytes m a ((val / s.one) % (256 ^ s.bytes : Nat)).toNat (fun _ => ⟨h2, h5⟩)
    exact Or.inr ⟨m', h6, h2, h5, h7⟩

/-- C38 (NDS): PEEK, PEEKH and PEEKB report an error or read only bytes of the window. -/
theorem C38_peek_arm (s : Size) (m : Mem) (num : Int) :
    (∃ e, peek .arm true s m num = .err e) ∨
    (∃ v, peek .arm true s m num = .ok v ∧ lo ≤ num ∧ num + s.bytes - 1 ≤ hi .arm ∧
      ∀ m' : Mem, (∀ x, num ≤ x ∧ x < num + s.bytes → m' x = m x) → peek .arm true s m' num = .ok v) := by
  unfold peek
  cases hc : check .arm true s num with
  | ub =>
    exfalso
    unfold check at hc
    rw [toPtr_ok (c := .arm) (num := num) (fun h => by cases h)] at hc
    simp only [Out.bind] at hc
    split at hc
    · cases hc
    · split at hc
      · cases hc
      · split at hc <;> cases hc
  | err e => exact Or.inl ⟨e, rfl⟩
  | ok a =>
    obtain ⟨h1, h2, h3, h4⟩ := check_safe hc
    have h5 := aligned_in h2 h3 (h4 rfl)
    subst h1
    obtain ⟨v, hv⟩ := loadLE_ok .arm m s.bytes a (fun _ => ⟨h2, h5⟩)
    refine Or.inr ⟨wrap32 (v * s.one), ?_, h2, h5, ?_⟩
    · simp only [Out.bind]; rw [hv]
    · intro m' hm
      have : ∀ (w : Nat) (b : Int), a ≤ b → b + w ≤ a + s.bytes → loadLE .arm m' b w = loadLE .arm m b w := by
        intro w
        induction w with
        | zero => intro b _ _; rfl
        | succ w ih =>
          intro b hb1 hb2
          unfold loadLE load
          rw [hm b (by omega), ih (b + 1) (by omega) (by omega)]
      simp only [Out.bind]
      rw [this s.bytes a (Int.le_refl _) (Int.le_refl _), hv]

/-- C38 (PC): for single bytes the same holds, unless the address is below -2113929216. -/
theorem C38_pokeb_pc_partial (m : Mem) (num val : Int) (h : -2113929216 ≤ num) :
    (∃ e, poke .pc true .byte m num val = .err e) ∨
    ∃ m', poke .pc true .byte m num val = .ok m' ∧ lo ≤ num ∧ num ≤ hi .pc ∧ ∀ x, x ≠ num → m' x = m x := by
  unfold poke
  cases hc : check .pc true .byte num with
  | ub =>
    exfalso
    unfold check at hc
    rw [toPtr_ok (c := .pc) (num := num) (fun _ => h)] at hc
    simp only [Out.bind] at hc
    split at hc
    · cases hc
    · split at hc
      · cases hc
      · split at hc <;> cases hc
  | err e => exact Or.inl ⟨e, rfl⟩
  | ok a =>
    obtain ⟨h1, h2, h3, _⟩ := check_safe hc
    subst h1
    obtain ⟨m', h6, _, h7⟩ := storeLE_ok .pc 1 m a ((val / Size.byte.one) % (256 ^ Size.byte.bytes : Nat)).toNat (fun _ => ⟨h2, by omega⟩)
    exact Or.inr ⟨m', h6, h2, h3, fun x hx => h7 x (by omega)⟩

/-- C38 is violated on PC by POKE and POKEH: the size of the access is not considered, so at the last addresses of the
window bytes after the block are written, with `MEMSAFE` on, whatever the value. -/
theorem C38_poke_pc_violated (s : Size) (m : Mem) (num val : Int) (h1 : lo ≤ num) (h2 : num ≤ hi .pc) (h3 : hi .pc < num + s.bytes - 1) :
    poke .pc true s m num val = .ub ∧ peek .pc true s m num = .ub := by
  have hck : check .pc true s num = .ok num := by
    unfold check
    rw [toPtr_ok (c := .pc) (fun _ => by unfold lo at h1; omega)]
    rw [if_neg (by unfold lo at h1; omega)]
    simp only [Out.bind, Bool.true_and]
    rw [if_neg (by simp only [Bool.or_eq_true, decide_eq_true_eq]; omega), if_neg (by simp)]
  have st : ∀ (w : Nat) (m : Mem) (a : Int) (v : Nat), a ≤ hi .pc + 1 → lo ≤ a → hi .pc < a + w - 1 → storeLE .pc m a v w = .ub := by
    intro w
    induction w with
    | zero => intro m a v h1 h2 h3; omega
    | succ w ih =>
      intro m a v h1 h2 h3
      unfold storeLE store
      by_cases ha : a ≤ hi .pc
      · rw [if_pos ⟨h2, ha⟩]
        exact ih _ _ _ (by omega) (by omega) (by omega)
      · rw [if_neg (by omega)]; rfl
  have ld : ∀ (w : Nat) (a : Int), a ≤ hi .pc + 1 → lo ≤ a → hi .pc < a + w - 1 → loadLE .pc m a w = .ub := by
    intro w
    induction w with
    | zero => intro a h1 h2 h3; omega
    | succ w ih =>
      intro a h1 h2 h3
      unfold loadLE load
      by_cases ha : a ≤ hi .pc
      · rw [if_pos ⟨h2, ha⟩]
        simp only [Out.bind]
        rw [ih (a + 1) (by omega) (by omega) (by omega)]
      · rw [if_neg (by omega)]; rfl
  unfold poke peek
  rw [hck]
  exact ⟨st _ _ _ _ (by omega) h1 h3, by simp only [Out.bind]; rw [ld s.bytes num (by omega) h1 h3]⟩

/-- For instance the last byte of the window. -/
example (m : Mem) : poke .pc true .word m 0x027fffff 4096 = .ub := (C38_poke_pc_violated .word m _ 4096 (by decide) (by decide) (by decide)).1

/-- C38 is violated on PC by the lowest numbers: converting them to a pointer overflows before any check. -/
theorem C38_convert_pc_violated (s : Size) (m : Mem) (num val : Int) (h : num < -2113929216) :
    poke .pc true s m num val = .ub := by
  unfold poke check toPtr
  rw [if_neg (by omega), if_pos ⟨rfl, by unfold lo; omega⟩]; rfl

/-- C38: what POKE, POKEH, POKEB wrote, PEEK, PEEKH, PEEKB read: the number itself for words, its integer part reduced to 16 or 8
bits for halves and bytes. -/
theorem C38_poke_peek (c : Cfg) (safe : Bool) (s : Size) (m m' : Mem) (num val : Int) (hv : I32 val) (h : poke c safe s m num val = .ok m')
    (hin : lo ≤ num ∧ num + s.bytes - 1 ≤ hi c) :
    peek c safe s m' num = .ok (match s with
      | .word => val
      | .half => (fpToInt val % 65536) * 4096
      | .byte => (fpToInt val % 256) * 4096) := by
  unfold poke at h
  unfold peek
  cases hc : check c safe s num with
  | ub => rw [hc] at h; cases h
  | err e => rw [hc] at h; cases h
  | ok a =>
    have ha : a = num := by
      unfold check at hc
      cases hp : toPtr c num with
      | ub => rw [hp] at hc; cases hc
      | err e => rw [hp] at hc; cases hc
      | ok p =>
        rw [hp] at hc
        simp only [Out.bind] at hc
        cases p with
        | none => cases hc
        | some b =>
          simp only [] at hc
          have hb : b = num := by
            unfold toPtr at hp
            split at hp
            · cases hp
            · split at hp
              · cases hp
              · injection hp with hp; injection hp with hp; exact hp.symm
          split at hc
          · cases hc
          · split at hc
            · cases hc
            · injection hc with hc; omega
    subst ha
    rw [hc] at h
    simp only [Out.bind] at h ⊢
    obtain ⟨m2, h1, h2, _⟩ := storeLE_ok c s.bytes m a ((val / s.one) % (256 ^ s.bytes : Nat)).toNat (fun _ => hin)
    rw [h1] at h
    injection h with h; subst h
    rw [loadLE_stored c m2 s.bytes a _ (fun _ => hin) h2]
    show Out.ok _ = Out.ok _
    congr 1
    unfold I32 at hv
    cases s with
    | word =>
      simp only [Size.bytes, Size.one, wrap32]
      omega
    | half =>
      simp only [Size.bytes, Size.one, wrap32, fpToInt]
      omega
    | byte =>
      simp only [Size.bytes, Size.one, wrap32, fpToInt]
      omega

example : poke .arm true .half (fun _ => 0) 0x02000010 (-4096) = poke .arm true .half (fun _ => 0) 0x02000010 (65535 * 4096) := rfl

/-! ## MEMCOPY, MEMFILL -/

theorem copy_ok (c : Cfg) (n : Nat) : ∀ (m : Mem) (dst src : Int), (0 < n → lo ≤ dst ∧ dst + n - 1 ≤ hi c ∧ lo ≤ src ∧ src + n - 1 ≤ hi c) →
    (dst + n ≤ src ∨ src + n ≤ dst) →
    ∃ m', copy c m dst src n = .ok m' ∧ (∀ i : Nat, i < n → m' (dst + i) = m (src + i)) ∧ ∀ x, ¬ (dst ≤ x ∧ x < dst + n) → m' x = m x := by
  induction n with
  | zero => intro m dst src _ _; exact ⟨m, rfl, fun i hi => by omega, fun _ _ => rfl⟩
  | succ n ih =>
    intro m dst src h hd
    have h' := h (by omega)
    have hl : load c m src = .ok (m src) := if_pos (by omega)
    have hs : store c m dst (m src) = .ok (fun x => if x = dst then m src else m x) := if_pos (by omega)
    obtain ⟨m', h1, h2, h3⟩ := ih (fun x => if x = dst then m src else m x) (dst + 1) (src + 1) (by omega) (by omega)
    refine ⟨m', ?_, ?_, ?_⟩
    · unfold copy; rw [hl]; simp only [Out.bind]; rw [hs]; exact h1
    · intro i hi
      cases i with
      | zero => rw [h3 _ (by omega)]; simp
      | succ i =>
        rw [show dst + ((i + 1 : Nat) : Int) = dst + 1 + (i : Nat) by omega, h2 i (by omega)]
        rw [if_neg (by omega)]
        congr 1; omega
    · intro x hx
      rw [h3 x (by omega)]
      exact if_neg (by omega)

theorem fill_ok (c : Cfg) (v n : Nat) : ∀ (m : Mem) (dst : Int), (0 < n → lo ≤ dst ∧ dst + n - 1 ≤ hi c) →
    ∃ m', fill c m dst v n = .ok m' ∧ ∀ x, m' x = if dst ≤ x ∧ x < dst + n then v else m x := by
  induction n with
  | zero => intro m dst _; exact ⟨m, rfl, fun x => by rw [if_neg (by omega)]⟩
  | succ n ih =>
    intro m dst h
    have h' := h (by omega)
    have hs : store c m dst v = .ok (fun x => if x = dst then v else m x) := if_pos (by omega)
    obtain ⟨m', h1, h2⟩ := ih (fun x => if x = dst then v else m x) (dst + 1) (by omega)
    refine ⟨m', ?_, ?_⟩
    · unfold fill; rw [hs]; exact h1
    · intro x
      rw [h2 x]
      by_cases hx : x = dst
      · subst hx; rw [if_neg (by omega), if_pos rfl, if_pos (by omega)]
      · by_cases hx2 : dst + 1 ≤ x ∧ x < dst + 1 + n
        · rw [if_pos hx2, if_pos (by omega)]
        · rw [if_neg hx2, if_neg hx, if_neg (by omega)]

/-- C38: with `MEMSAFE` on, MEMCOPY with any addresses and size reports an error, or copies exactly the given number of bytes
between two disjoint ranges of the window and changes nothing else.  It never touches anything outside the window. -/
theorem C38_memcopy (c : Cfg) (m : Mem) (dest src size : Int) (hd : Convertible c dest) (hs : Convertible c src) :
    (∃ e, memcopy c true m dest src size = .err e) ∨
    ∃ (m' : Mem) (n : Nat), memcopy c true m dest src size = .ok m' ∧ (n : Int) = fpToInt size ∧
      lo ≤ dest ∧ dest + n ≤ hi c ∧ lo ≤ src ∧ src + n ≤ hi c ∧
      (∀ i : Nat, i < n → m' (dest + i) = m (src + i)) ∧ ∀ x, ¬ (dest ≤ x ∧ x < dest + n) → m' x = m x := by
  unfold memcopy
  rw [toPtr_ok hd, toPtr_ok hs]
  simp only [Out.bind]
  by_cases hd0 : dest = 0
  · rw [if_pos hd0]; exact Or.inl ⟨_, rfl⟩
  by_cases hs0 : src = 0
  · rw [if_neg hd0, if_pos hs0]; exact Or.inl ⟨_, rfl⟩
  rw [if_neg hd0, if_neg hs0]
  simp only [Bool.true_and, Bool.or_eq_true, decide_eq_true_eq]
  repeat' split
  all_goals first | exact Or.inl ⟨_, rfl⟩ | skip
  next h1 h2 h3 h4 h5 h6 h7 =>
  have hn : ((fpToInt size).toNat : Int) = fpToInt size := by omega
  obtain ⟨m', a1, a2, a3⟩ := copy_ok c (fpToInt size).toNat m dest src (by omega) (by omega)
  exact Or.inr ⟨m', _, a1, hn, by omega, by omega, by omega, by omega, a2, a3⟩

/-- C38: likewise MEMFILL. -/
theorem C38_memfill (c : Cfg) (m : Mem) (dest val size : Int) (hd : Convertible c dest) :
    (∃ e, memfill c true m dest val size = .err e) ∨
    ∃ (m' : Mem) (n : Nat), memfill c true m dest val size = .ok m' ∧ (n : Int) = fpToInt size ∧ lo ≤ dest ∧ dest + n ≤ hi c ∧
      ∀ x, m' x = if dest ≤ x ∧ x < dest + n then (fpToInt val % 256).toNat else m x := by
  unfold memfill
  rw [toPtr_ok hd]
  simp only [Out.bind]
  by_cases hd0 : dest = 0
  · rw [if_pos hd0]; exact Or.inl ⟨_, rfl⟩
  rw [if_neg hd0]
  simp only [Bool.true_and, Bool.or_eq_true, decide_eq_true_eq]
  repeat' split
  all_goals first | exact Or.inl ⟨_, rfl⟩ | skip
  next h1 h2 h3 =>
  obtain ⟨m', a1, a2⟩ := fill_ok c (fpToInt val % 256).toNat (fpToInt size).toNat m dest (by omega)
  exact Or.inr ⟨m', _, a1, by omega, by omega, by omega, a2⟩

/-- C38: every request that lies in the window with two bytes to spare and whose ranges are separated is carried out. -/
theorem C38_memcopy_accepts (c : Cfg) (m : Mem) (dest src size : Int) (h0 : 0 ≤ fpToInt size) (hd : lo ≤ dest) (hs : lo ≤ src)
    (hd' : dest + fpToInt size < hi c) (hs' : src + fpToInt size < hi c)
    (hsep : dest + fpToInt size < src ∨ src + fpToInt size < dest) : ∃ m', memcopy c true m dest src size = .ok m' := by
  rcases C38_memcopy c m dest src size (fun _ => by unfold lo at hd; omega) (fun _ => by unfold lo at hs; omega) with ⟨e, he⟩ | ⟨m', n, h, _⟩
  · exfalso
    unfold memcopy at he
    rw [toPtr_ok (fun _ => by unfold lo at hd; omega), toPtr_ok (fun _ => by unfold lo at hs; omega)] at he
    rw [if_neg (by unfold lo at hd; omega), if_neg (by unfold lo at hs; omega)] at he
    simp only [Out.bind, Bool.true_and, Bool.or_eq_true, decide_eq_true_eq] at he
    rw [if_neg (by omega), if_neg (by omega), if_neg (by omega), if_neg (by omega), if_neg (by omega), if_neg (by omega), if_neg (by omega)] at he
    obtain ⟨m2, h2, _⟩ := copy_ok c (fpToInt size).toNat m dest src (by omega) (by omega)
    rw [h2] at he; cases he
  · exact ⟨m', h⟩

/-- C38: adjacent ranges, which do not overlap, are refused (in both configurations, with or without `MEMSAFE`): the copy
of `n` bytes to the address directly after them never succeeds. -/
theorem C38_memcopy_adjacent_violated (c : Cfg) (safe : Bool) (m : Mem) (src size : Int) :
    ∀ m', memcopy c safe m (src + fpToInt size) src size ≠ .ok m' := by
  intro m' h
  unfold memcopy at h
  cases hp : toPtr c (src + fpToInt size) with
  | ub => rw [hp] at h; cases h
  | err e => rw [hp] at h; cases h
  | ok p =>
    rw [hp] at h
    simp only [Out.bind] at h
    cases hq : toPtr c src with
    | ub => rw [hq] at h; cases h
    | err e => rw [hq] at h; cases h
    | ok q =>
      rw [hq] at h
      simp only [] at h
      cases p with
      | none => cases h
      | some d =>
        cases q with
        | none => cases h
        | some s =>
          simp only [] at h
          have e1 : d = src + fpToInt size := by
            unfold toPtr at hp
            split at hp
            · cases hp
            · split at hp
              · cases hp
              · injection hp with hp; injection hp with hp; exact hp.symm
          have e2 : s = src := by
            unfold toPtr at hq
            split at hq
            · cases hq
            · split at hq
              · cases hq
              · injection hq with hq; injection hq with hq; exact hq.symm
          split at h
          · cases h
          · next hneg =>
            split at h
            · cases h
            · split at h
              · cases h
              · split at h
                · cases h
                · split at h
                  · cases h
                  · rw [if_pos (by omega)] at h; cases h

/-- The hypotheses are met: 5 bytes from 0x02000000 to 0x02000010. -/
example : ∃ m', memcopy .arm true (fun x => (x % 256).toNat) 0x02000010 0x02000000 (5 * 4096) = .ok m' ∧ m' 0x02000012 = 2 ∧ m' 0x02000015 = 21 :=
  ⟨_, rfl, by decide, by decide⟩

/-! ## C64: PTR$ -/

/-- Value of a hexadecimal digit. -/
def hexVal (ch : Nat) : Int := if ch < 58 then ch - 48 else ch - 55

/-- C64: PTR$ gives `0x` and exactly eight hexadecimal digits (upper case), whose value is the number's 32 bits. -/
theorem C64_ptr (num : Int) :
    ∃ ds : List Nat, ptrStr num = 48 :: 120 :: ds ∧ ds.length = 8 ∧ (∀ d ∈ ds, (48 ≤ d ∧ d ≤ 57) ∨ (65 ≤ d ∧ d ≤ 70)) ∧
      ds.foldl (fun a d => 16 * a + hexVal d) 0 = num % 4294967296 := by
  have dig : ∀ x : Int, ((48 ≤ hexDigits.getD (x % 16).toNat 0 ∧ hexDigits.getD (x % 16).toNat 0 ≤ 57) ∨
      (65 ≤ hexDigits.getD (x % 16).toNat 0 ∧ hexDigits.getD (x % 16).toNat 0 ≤ 70)) ∧ hexVal (hexDigits.getD (x % 16).toNat 0) = x % 16 := by
    intro x
    have : ∀ k : Fin 16, ((48 ≤ hexDigits.getD k.1 0 ∧ hexDigits.getD k.1 0 ≤ 57) ∨
      (65 ≤ hexDigits.getD k.1 0 ∧ hexDigits.getD k.1 0 ≤ 70)) ∧ hexVal (hexDigits.getD k.1 0) = k.1 := by decide
    have h2 := this ⟨(x % 16).toNat, by omega⟩
    refine ⟨h2.1, h2.2.trans ?_⟩
    show (((x % 16).toNat : Nat) : Int) = _
    omega
  refine ⟨ptrLoop 8 num [], rfl, rfl, ?_, ?_⟩
  · intro d hd
    simp only [ptrLoop, List.mem_cons, List.not_mem_nil, or_false] at hd
    rcases hd with rfl | rfl | rfl | rfl | rfl | rfl | rfl | rfl <;> exact (dig _).1
  · simp only [ptrLoop, List.foldl, (dig _).2]
    omega

example : ptrStr (-1) = [48, 120, 70, 70, 70, 70, 70, 70, 70, 70] := by decide
example : ptrStr 0x02000010 = [48, 120, 48, 50, 48, 48, 48, 48, 49, 48] := by decide

end Sbc.MemApi
