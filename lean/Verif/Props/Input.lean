import Verif.Model.Input
import Verif.Spec.Input
import Verif.Proof.Num
import Mathlib.Data.Nat.Bitwise
set_option autoImplicit false
/-!
# C24, C42: keyboard buffer, buttons
-/
namespace Sbc.Input
open Sbc Sbc.Strs Sbc.Input.Spec

/-- The calls of the two threads in the order in which they took the lock, and what they returned. -/
def runKeys : Ring → List KEv → List KOut
  | _, [] => []
  | r, .type c :: es => .accepted (setInkey r c).2 :: runKeys (setInkey r c).1 es
  | r, .take :: es => .got (getInkey r).2 :: runKeys (getInkey r).1 es

/-- The ring holds the queue `q`. -/
structure Holds (r : Ring) (q : List Nat) : Prop where
  write : r.write = q.length
  cap : q.length ≤ 256
  base : r.base < 256
  get : ∀ i, i < q.length → q[i]? = some (r.buf ((r.base + i) % 256))

theorem holds_set {r : Ring} {q : List Nat} (h : Holds r q) (c : Nat) (hl : q.length < 256) :
    (setInkey r c).2 = true ∧ Holds (setInkey r c).1 (q ++ [c]) := by
  have hw := h.write
  have hb := h.base
  unfold setInkey bufSize
  rw [if_neg (by omega)]
  refine ⟨rfl, ?_, ?_, hb, ?_⟩
  · simp [hw]
  · simp; omega
  · intro i hi
    simp only [List.length_append, List.length_singleton] at hi
    simp only []
    by_cases he : i = q.length
    · subst he; rw [hw, upd_same]; simp
    · rw [upd_other _ _ (by omega), List.getElem?_append_left (by omega)]
      exact h.get i (by omega)

theorem holds_full {r : Ring} {q : List Nat} (h : Holds r q) (c : Nat) (hl : ¬ q.length < 256) :
    setInkey r c = (r, false) := by
  unfold setInkey bufSize
  rw [if_pos (by have := h.write; have := h.cap; omega)]

theorem holds_get_nil {r : Ring} (h : Holds r []) : getInkey r = (r, 0) := by
  unfold getInkey; rw [if_pos (by simpa using h.write)]

theorem holds_get_cons {r : Ring} {c : Nat} {q : List Nat} (h : Holds r (c :: q)) :
    (getInkey r).2 = c ∧ Holds (getInkey r).1 q := by
  have hw := h.write
  have hb := h.base
  have hc := h.cap
  simp only [List.length_cons] at hw hc
  unfold getInkey bufSize
  rw [if_neg (by omega)]
  refine ⟨?_, by simp only []; omega, by omega, by simp only []; omega, ?_⟩
  · have := h.get 0 (by simp)
    simp only [List.getElem?_cons_zero, Option.some.injEq, Nat.add_zero, Nat.mod_eq_of_lt hb] at this
    exact this.symm
  · intro i hi
    have := h.get (i + 1) (by simp; omega)
    rw [List.getElem?_cons_succ] at this
    rw [this]
    simp only []
    congr 2
    omega

theorem runKeys_fifo (es : List KEv) : ∀ (r : Ring) (q : List Nat), Holds r q → runKeys r es = fifo q es := by
  induction es with
  | nil => intro r q _; unfold runKeys fifo; cases q <;> rfl
  | cons e es ih =>
    intro r q h
    cases e with
    | type c =>
      unfold runKeys fifo
      by_cases hl : q.length < 256
      · obtain ⟨h1, h2⟩ := holds_set h c hl
        rw [if_pos hl, h1, ih _ _ h2]
      · rw [if_neg hl, holds_full h c hl, ih _ _ h]
    | take =>
      cases q with
      | nil => unfold runKeys fifo; rw [holds_get_nil h, ih _ _ h]
      | cons c q =>
        obtain ⟨h1, h2⟩ := holds_get_cons h
        unfold runKeys fifo
        rw [h1, ih _ _ h2]

/-- **C24.** Whatever the interleaving of the keyboard and the program, for every initial buffer content,
the buffer behaves as a first-in first-out queue of capacity 256. -/
theorem C24_fifo (junk : Nat → Nat) (es : List KEv) : runKeys (ringInit junk) es = fifo [] es :=
  runKeys_fifo es _ _ ⟨rfl, by simp, by simp [ringInit], by simp⟩

/-- Characters accepted, in order. -/
def Spec.acceptedChars : List KEv → List KOut → List Nat
  | .type c :: es, .accepted true :: os => c :: acceptedChars es os
  | _ :: es, _ :: os => acceptedChars es os
  | _, _ => []

/-- Characters obtained, in order (code 0 stands for no character). -/
def Spec.taken : List KOut → List Nat
  | .got c :: os => if c = 0 then taken os else c :: taken os
  | .accepted _ :: os => taken os
  | [] => []

/-- **C24.** For every interleaving of typing and taking (no key produces code 0), the characters taken are
an initial part of the characters accepted, in order: none is invented, duplicated, reordered or dropped. -/
theorem C24_order (junk : Nat → Nat) (es : List KEv) (h0 : KEv.type 0 ∉ es) :
    ∃ pending, Spec.acceptedChars es (runKeys (ringInit junk) es) =
      Spec.taken (runKeys (ringInit junk) es) ++ pending ∧ pending.length ≤ 256 := by
  rw [C24_fifo]
  have : ∀ (es : List KEv) (q : List Nat), KEv.type 0 ∉ es → 0 ∉ q → q.length ≤ 256 →
      ∃ pending, q ++ Spec.acceptedChars es (fifo q es) = Spec.taken (fifo q es) ++ pending ∧ pending.length ≤ 256 := by
    intro es
    induction es with
    | nil => intro q _ _ hl; exact ⟨q, by cases q <;> simp [fifo, Spec.acceptedChars, Spec.taken], hl⟩
    | cons e es ih =>
      intro q h1 h2 hl
      have h1' : KEv.type 0 ∉ es := fun h => h1 (by simp [h])
      cases e with
      | type c =>
        have hc : c ≠ 0 := fun h => h1 (by simp [h])
        by_cases hlt : q.length < 256
        · obtain ⟨p, hp, hp'⟩ := ih (q ++ [c]) h1' (by simp [h2]; omega) (by simp; omega)
          refine ⟨p, ?_, hp'⟩
          have e : fifo q (.type c :: es) = .accepted true :: fifo (q ++ [c]) es := by
            rw [fifo, if_pos hlt]
          rw [e]; simp only [Spec.acceptedChars, Spec.taken]
          rw [← hp]; simp
        · obtain ⟨p, hp, hp'⟩ := ih q h1' h2 hl
          refine ⟨p, ?_, hp'⟩
          have e : fifo q (.type c :: es) = .accepted false :: fifo q es := by
            rw [fifo, if_neg hlt]
          rw [e]; simp only [Spec.acceptedChars, Spec.taken]
          rw [← hp]
      | take =>
        cases q with
        | nil =>
          obtain ⟨p, hp, hp'⟩ := ih [] h1' h2 hl
          refine ⟨p, ?_, hp'⟩
          simp only [fifo, Spec.acceptedChars, Spec.taken, if_true]
          exact hp
        | cons c q =>
          obtain ⟨p, hp, hp'⟩ := ih q h1' (fun h => h2 (by simp [h])) (by simp at hl; omega)
          refine ⟨p, ?_, hp'⟩
          have hc : c ≠ 0 := fun h => h2 (by simp [h])
          simp only [fifo, Spec.acceptedChars, Spec.taken, if_neg hc, List.cons_append]
          rw [hp]
  have := this es [] h0 (by simp) (by simp)
  simpa using this

/-- **C24 (partial).** `INKEY$` gives the one-character string of the oldest pending character, or the empty
string if there is none, for every character with an 8-bit code.  Missing: characters without one. -/
theorem C24_inkey_partial (r : Ring) (q : List Nat) (h : Holds r q) (hc : ∀ w ∈ q, ∃ c, c < 256 ∧ c ≠ 0 ∧ w = toWide c) :
    (q = [] → (funcInkey r).2 = .ok []) ∧
    (∀ c l, c < 256 → q = toWide c :: l → (funcInkey r).2 = .ok [c] ∧ Holds (funcInkey r).1 l) := by
  constructor
  · intro hq; subst hq
    unfold funcInkey; rw [holds_get_nil h]; rfl
  · intro c l hlt hq; subst hq
    obtain ⟨c', hc1, hc2, hc3⟩ := hc _ (List.mem_cons_self ..)
    have hcc : c = c' := Num.toWide_inj hlt hc1 hc3
    subst hcc
    obtain ⟨h1, h2⟩ := holds_get_cons h
    have hr : toChar (toWide c) = c := roundtrip_all ⟨c, hlt⟩
    have hne : toWide c ≠ 0 := fun h0 => hc2 (Num.toWide_inj hlt (by decide) (h0.trans (by decide)))
    have e : funcInkey r = ((getInkey r).1, .ok [c]) := by
      unfold funcInkey
      have : getInkey r = ((getInkey r).1, toWide c) := by rw [← h1]
      rw [this]
      simp only [hne, if_false, hr]
      rw [if_pos (by omega)]
      simp
    rw [e]
    exact ⟨rfl, h2⟩

/-- **C24 (refuted case).** A typed character without an 8-bit code makes `INKEY$` read outside its table. -/
theorem C24_inkey_violated : (funcInkey (setInkey (ringInit fun _ => 0) 0x4e00).1).2 = .ub := by decide

example : runKeys (ringInit fun _ => 7) [.type 65, .type 66, .take, .take, .take] =
    [.accepted true, .accepted true, .got 65, .got 66, .got 0] := by decide

/-! ## Buttons -/

/-- One event on the model; a `BREPEAT` argument `n` is the number `n` in fixed point. -/
def stepB (s : Buttons) : BEv → Out Buttons
  | .frame m => setInput s m
  | .brepeat id args =>
    .ok (cmdBrepeat s (id * 4096) (args.map fun (a, r) => (a * 4096, r * 4096))).1

/-- A history, latest event first. -/
def runB : List BEv → Out Buttons
  | [] => .ok buttonsInit
  | e :: es => (runB es).bind fun s => stepB s e

/-- Buttons state described by a history. -/
structure Reflects (s : Buttons) (es : List BEv) : Prop where
  button : s.button = (frames es).headD 0
  old : s.old = (frames es).tail.headD 0
  frame : ∀ j, j < 12 → (s.times j).frame = heldFor j es
  set : ∀ j, j < 12 → (s.times j).start = (setting j es).1 ∧ (s.times j).repeat' = (setting j es).2

theorem heldFor_le (j : Nat) (es : List BEv) : heldFor j es ≤ (frames es).length := by
  unfold heldFor
  exact (List.takeWhile_sublist _).length_le

theorem reflects (es : List BEv) (hlen : (frames es).length < 2147483648) :
    ∃ s, runB es = .ok s ∧ Reflects s es := by
  induction es with
  | nil =>
    exact ⟨_, rfl, rfl, rfl, fun j _ => by simp [buttonsInit, heldFor, frames], fun j _ => by simp [buttonsInit, setting]⟩
  | cons e es ih =>
    cases e with
    | frame m =>
      simp only [frames, List.length_cons] at hlen
      obtain ⟨s, h1, h2⟩ := ih (by omega)
      rw [runB, h1]
      simp only [Out.bind, stepB]
      unfold setInput
      rw [if_neg (by
        rintro ⟨j, hj, -, hf⟩
        rw [h2.frame j (by simpa [buttonCount] using hj)] at hf
        have := heldFor_le j es
        omega)]
      refine ⟨_, rfl, rfl, ?_, ?_, ?_⟩
      · simp [frames, h2.button]
      · intro j hj
        simp only [buttonCount, hj, if_true]
        unfold heldFor
        rw [frames, List.takeWhile_cons]
        by_cases hb : m.testBit j = true
        · simp only [hb, if_true, h2.frame j hj, heldFor, List.length_cons]; push_cast; rfl
        · simp [hb]
      · intro j hj
        have := h2.set j hj
        simp only [buttonCount, hj, if_true, setting]
        split <;> exact this
    | brepeat id args =>
      simp only [frames] at hlen
      obtain ⟨s, h1, h2⟩ := ih hlen
      rw [runB, h1]
      simp only [Out.bind, stepB]
      refine ⟨_, rfl, ?_⟩
      have hid : fpToInt (id * 4096) = id := by unfold fpToInt; omega
      have same : ∀ j : Nat, j < 12 → id ≠ (j : Int) → setting j (.brepeat id args :: es) = setting j es := by
        intro j _ hne; simp only [setting, if_neg hne]
      have hframe : ∀ j, heldFor j (.brepeat id args :: es) = heldFor j es := fun j => rfl
      unfold cmdBrepeat
      rw [hid]
      simp only []
      split
      · exact ⟨h2.button, h2.old, h2.frame, fun j hj => by rw [same j hj (by omega)]; exact h2.set j hj⟩
      split
      · exact ⟨h2.button, h2.old, h2.frame, fun j hj => by rw [same j hj (by omega)]; exact h2.set j hj⟩
      rename_i hr1 hr2
      obtain ⟨k, hk⟩ : ∃ k : Nat, id = k := ⟨id.toNat, by omega⟩
      subst hk
      simp only [Int.toNat_natCast]
      have hset : ∀ j, j < 12 → j ≠ k → setting j (.brepeat (k : Int) args :: es) = setting j es :=
        fun j hj he => same j hj (by omega)
      clear same
      cases args with
      | none =>
        simp only [Option.map_none]
        refine ⟨h2.button, h2.old, ?_, ?_⟩
        · intro j hj
          by_cases he : j = k
          · subst he; simp only [upd_same]; exact h2.frame j hj
          · simp only [upd_other _ _ he]; exact h2.frame j hj
        · intro j hj
          by_cases he : j = k
          · subst he; simp only [upd_same, setting, if_true]; exact ⟨rfl, rfl⟩
          · simp only [upd_other _ _ he, hset j hj he]; exact h2.set j hj
      | some ar =>
        obtain ⟨a, r⟩ := ar
        have ha : fpToInt (a * 4096) = a := by unfold fpToInt; omega
        have hr : fpToInt (r * 4096) = r := by unfold fpToInt; omega
        simp only [Option.map_some, ha, hr]
        split
        · rename_i hneg
          refine ⟨h2.button, h2.old, h2.frame, fun j hj => ?_⟩
          rw [setting]
          simp only [hneg, if_true, ite_self]
          exact h2.set j hj
        · rename_i hneg
          split
          · rename_i hneg2
            refine ⟨h2.button, h2.old, ?_, ?_⟩
            · intro j hj
              by_cases he : j = k
              · subst he; simp only [upd_same]; exact h2.frame j hj
              · simp only [upd_other _ _ he]; exact h2.frame j hj
            · intro j hj
              by_cases he : j = k
              · subst he
                simp only [upd_same, setting, if_true]
                simp only [hneg, hneg2, if_true, if_false]
                exact ⟨by omega, (h2.set j hj).2⟩
              · simp only [upd_other _ _ he, hset j hj he]; exact h2.set j hj
          · rename_i hneg2
            refine ⟨h2.button, h2.old, ?_, ?_⟩
            · intro j hj
              by_cases he : j = k
              · subst he; simp only [upd_same]; exact h2.frame j hj
              · simp only [upd_other _ _ he]; exact h2.frame j hj
            · intro j hj
              by_cases he : j = k
              · subst he
                simp only [upd_same, setting, if_true]
                simp only [hneg, hneg2, if_false]
                exact ⟨by omega, by omega⟩
              · simp only [upd_other _ _ he, hset j hj he]; exact h2.set j hj

theorem checkRepeat_iff (h start rep : Nat) :
    checkRepeat h start rep = true ↔ Triggers h (start, rep) := by
  unfold checkRepeat Triggers
  by_cases hc : (rep : Int) > 0 ∧ (h : Int) > start
  · have e : (h : Int) - 1 - start = ((h - 1 - start : Nat) : Int) := by omega
    rw [if_pos hc, decide_eq_true_iff, Int.tmod_eq_emod_of_nonneg (by omega), e,
      show (rep : Int) + 1 = ((rep + 1 : Nat) : Int) by omega, ← Int.natCast_emod, Int.natCast_eq_zero,
      ← Nat.dvd_iff_mod_eq_zero]
    constructor
    · rintro ⟨k, hk⟩
      right
      refine ⟨by simp only []; omega, k, ?_⟩
      simp only []
      rw [Nat.mul_comm k]; omega
    · rintro (h1 | ⟨-, k, h2⟩)
      · exact ⟨0, by omega⟩
      · simp only [] at h2
        exact ⟨k, by rw [Nat.mul_comm k] at h2; omega⟩
  · rw [if_neg hc, decide_eq_true_iff]
    constructor
    · intro h1; left; omega
    · rintro (h1 | ⟨h1, k, h2⟩)
      · omega
      · exfalso
        simp only [] at h1 h2
        have : 0 ≤ k * (rep + 1) := Nat.zero_le _
        omega

theorem testBit_maskStep (acc : Nat) (b : Bool) (i j : Nat) :
    (acc ||| (b.toNat <<< i)).testBit j = (acc.testBit j || (b && decide (i = j))) := by
  rw [Nat.testBit_or]
  congr 1
  cases b with
  | false => simp
  | true => simp [Bool.toNat, Nat.one_shiftLeft, Nat.testBit_two_pow]

theorem testBit_maskFold (f : Nat → Bool) (l : List Nat) (acc j : Nat) :
    (l.foldl (fun acc i => acc ||| ((f i).toNat <<< i)) acc).testBit j =
      (acc.testBit j || (l.contains j && f j)) := by
  induction l generalizing acc with
  | nil => simp
  | cons i l ih =>
    rw [List.foldl_cons, ih, testBit_maskStep]
    by_cases h : i = j
    · subst h; cases acc.testBit i <;> cases f i <;> simp
    · have h' : ¬ j = i := fun e => h e.symm
      simp [h, h']

theorem testBit_pressedMask (s : Buttons) (j : Nat) :
    (pressedMask s).testBit j = (decide (j < 12) && checkPressed s j) := by
  unfold pressedMask buttonCount
  rw [testBit_maskFold (fun j => checkPressed s j)]
  simp

/-- **C42.** After every history of frames (fewer than 2^31 of them) and `BREPEAT` commands, `BUTTON(0)`
gives the buttons of the last frame, `BUTTON(2)` those held now and not in the frame before, `BUTTON(3)`
those held in the frame before and not now, `BUTTON(1)` and `BTRIG()` those that trigger now according to how
long they have been held and their repeat setting; every other mode is reported as an error. -/
theorem C42_buttons (es : List BEv) (hlen : (frames es).length < 2147483648) (hm : ∀ m ∈ frames es, m < 4096) :
    ∃ s, runB es = .ok s ∧
      funcButton s none = .ok (4096 * ((frames es).headD 0 : Nat)) ∧
      funcButton s (some 0) = .ok (4096 * ((frames es).headD 0 : Nat)) ∧
      (∃ m1 : Nat, funcButton s (some 4096) = .ok (4096 * m1) ∧ funcBtrig s = 4096 * m1 ∧
        ∀ j, m1.testBit j = true ↔ j < 12 ∧ Triggers (heldFor j es) (setting j es)) ∧
      (∃ m2 : Nat, funcButton s (some (2 * 4096)) = .ok (4096 * m2) ∧
        ∀ j, m2.testBit j = (((frames es).headD 0).testBit j && !((frames es).tail.headD 0).testBit j)) ∧
      (∃ m3 : Nat, funcButton s (some (3 * 4096)) = .ok (4096 * m3) ∧
        ∀ j, m3.testBit j = (((frames es).tail.headD 0).testBit j && !((frames es).headD 0).testBit j)) ∧
      (∀ x : Int, ¬ (0 ≤ x / 4096 ∧ x / 4096 ≤ 3) → funcButton s (some x) = .err .invalidArgumentValue) := by
  obtain ⟨s, h1, h2⟩ := reflects es hlen
  have hb : s.button < 4096 := by
    rw [h2.button]
    cases hf : frames es with
    | nil => simp
    | cons m l => exact hm m (by rw [hf]; simp)
  have ho : s.old < 4096 := by
    rw [h2.old]
    cases hf : frames es with
    | nil => simp
    | cons m l =>
      cases hl : l with
      | nil => simp
      | cons m' l' => exact hm m' (by rw [hf, hl]; simp)
  have hand : ∀ a b : Nat, a < 4096 → b < 4096 → ∀ j, (andNot a b).testBit j = (a.testBit j && !b.testBit j) := by
    intro a b ha _ j
    unfold andNot
    rw [Nat.testBit_and, Nat.testBit_xor]
    by_cases hj : j < 16
    · have : Nat.testBit 65535 j = true := by
        have : (65535 : Nat) = 2 ^ 16 - 1 := by decide
        rw [this, Nat.testBit_two_pow_sub_one]; simpa using hj
      rw [this]; simp
    · have : a.testBit j = false :=
        Nat.testBit_lt_two_pow (Nat.lt_of_lt_of_le (by omega : a < 2 ^ 12) (Nat.pow_le_pow_right (by decide) (by omega)))
      simp [this]
  have handlt : ∀ a b : Nat, a < 4096 → andNot a b < 4096 := fun a b ha =>
    Nat.lt_of_le_of_lt Nat.and_le_left ha
  have hpm : pressedMask s < 4096 := by
    have : pressedMask s < 2 ^ 12 := by
      apply Nat.lt_pow_two_of_testBit
      intro i hi
      rw [testBit_pressedMask]
      simp; omega
    omega
  have fp : ∀ m : Nat, m < 4096 → intToFp m = 4096 * (m : Int) := fun m hm => by
    rw [intToFp_small (by omega)]; omega
  refine ⟨s, h1, ?_, ?_, ⟨pressedMask s, ?_, ?_, ?_⟩, ⟨andNot s.button s.old, ?_, ?_⟩, ⟨andNot s.old s.button, ?_, ?_⟩, ?_⟩
  · rw [← h2.button, ← fp _ hb]; rfl
  · rw [← h2.button, ← fp _ hb]; rfl
  · rw [← fp _ hpm]; rfl
  · rw [← fp _ hpm]; rfl
  · intro j
    rw [testBit_pressedMask]
    by_cases hj : j < 12
    · simp only [hj, decide_true, Bool.true_and, true_and]
      unfold checkPressed
      rw [h2.frame j hj, (h2.set j hj).1, (h2.set j hj).2, checkRepeat_iff]
    · simp [hj]
  · rw [← fp _ (handlt _ _ hb)]; rfl
  · intro j; rw [hand _ _ hb ho, h2.button, h2.old]
  · rw [← fp _ (handlt _ _ ho)]; rfl
  · intro j; rw [hand _ _ ho hb, h2.button, h2.old]
  · intro x hx
    unfold funcButton fpToInt
    simp only []
    rw [if_neg (by omega), if_neg (by omega), if_neg (by omega), if_neg (by omega)]

/-- Button 4 (A) held for six frames with delay 3, interval 1: triggers in frames 1, 4, 6. -/
example : (heldFor 4 [.frame 16, .frame 16, .frame 16, .frame 16, .brepeat 4 (some (3, 1))] = 4) ∧
    setting 4 [.frame 16, .frame 16, .frame 16, .frame 16, .brepeat 4 (some (3, 1))] = (3, 1) ∧
    Triggers 4 (3, 1) := by
  refine ⟨by decide, by decide, Or.inr ⟨by decide, 0, by decide⟩⟩

/-- **C42.** `SELECT` raises Break exactly in the first frame it is held. -/
theorem C42_select_break (es : List BEv) (m : Nat) (hlen : (frames es).length + 1 < 2147483648) :
    ∃ s, runB (.frame m :: es) = .ok s ∧ (s.brk = true ↔ m.testBit 11 = true ∧ heldFor 11 es = 0) := by
  obtain ⟨s, h1, h2⟩ := reflects (.frame m :: es) (by simp [frames]; omega)
  refine ⟨s, h1, ?_⟩
  have hf := h2.frame 11 (by decide)
  have : s.brk = decide ((s.times 11).frame = 1) := by
    rw [runB] at h1
    cases hr : runB es with
    | ok s0 =>
      rw [hr] at h1
      simp only [Out.bind, stepB] at h1
      unfold setInput at h1
      split at h1
      · simp at h1
      · injection h1 with h1; subst h1; rfl
    | err e => rw [hr] at h1; simp [Out.bind] at h1
    | ub => rw [hr] at h1; simp [Out.bind] at h1
  rw [this, decide_eq_true_iff, hf]
  unfold heldFor
  rw [frames, List.takeWhile_cons]
  by_cases hb : m.testBit 11 = true
  · simp [hb]
  · simp [hb]

/-- **C42.** `BREPEAT` accepts exactly the buttons 0 to 12 with a delay and interval that are not negative; it never
changes anything but the repeat setting of a button below 12, and button 12 has no setting. -/
theorem C42_brepeat (s : Buttons) (id : Int) (args : Option (Int × Int)) :
    ((cmdBrepeat s id args).2 = .ok () ↔ 0 ≤ id / 4096 ∧ id / 4096 ≤ 12 ∧
      (id / 4096 = 12 ∨ ∀ a r, args = some (a, r) → 0 ≤ a / 4096 ∧ 0 ≤ r / 4096)) ∧
    ((cmdBrepeat s id args).2 = .ok () ∨ (cmdBrepeat s id args).2 = .err .outOfRange) ∧
    (cmdBrepeat s id args).1.button = s.button ∧ (cmdBrepeat s id args).1.old = s.old ∧
    (∀ j, ((cmdBrepeat s id args).1.times j).frame = (s.times j).frame) ∧
    (∀ j : Nat, 12 ≤ j ∨ (j : Int) ≠ id / 4096 → (cmdBrepeat s id args).1.times j = s.times j) := by
  have other : ∀ (f : Nat → BTime) (v : BTime) (i : Int) (j : Nat), 0 ≤ i → (j : Int) ≠ i → upd f i.toNat v j = f j := by
    intro f v i j hi hj
    exact upd_other _ _ (by omega)
  unfold cmdBrepeat fpToInt
  dsimp only
  by_cases h1 : id / 4096 < 0 ∨ id / 4096 > 12
  · rw [if_pos h1]
    refine ⟨⟨fun h => by (cases h), fun h => by omega⟩, Or.inr rfl, rfl, rfl, fun _ => rfl, fun _ _ => rfl⟩
  rw [if_neg h1]
  by_cases h2 : id / 4096 = 12
  · rw [if_pos h2]
    refine ⟨⟨fun _ => by omega, fun _ => rfl⟩, Or.inl rfl, rfl, rfl, fun _ => rfl, fun _ _ => rfl⟩
  rw [if_neg h2]
  cases args with
  | none =>
    refine ⟨⟨fun _ => ⟨by omega, by omega, Or.inr (by simp)⟩, fun _ => rfl⟩, Or.inl rfl, rfl, rfl, fun j => ?_, fun j hj => ?_⟩
    · dsimp only
      by_cases e : j = (id / 4096).toNat
      · subst e; rw [upd_same]
      · rw [upd_other _ _ e]
    · exact other _ _ _ _ (by omega) (by omega)
  | some ar =>
    obtain ⟨a, r⟩ := ar
    dsimp only
    by_cases h3 : a / 4096 < 0
    · rw [if_pos h3]
      refine ⟨⟨fun h => by (cases h), fun h => ?_⟩, Or.inr rfl, rfl, rfl, fun _ => rfl, fun _ _ => rfl⟩
      rcases h.2.2 with h | h
      · omega
      · have := h a r rfl; omega
    rw [if_neg h3]
    by_cases h4 : r / 4096 < 0
    · rw [if_pos h4]
      refine ⟨⟨fun h => by (cases h), fun h => ?_⟩, Or.inr rfl, rfl, rfl, fun j => ?_, fun j hj => ?_⟩
      · rcases h.2.2 with h | h
        · omega
        · have := h a r rfl; omega
      · dsimp only
        by_cases e : j = (id / 4096).toNat
        · subst e; rw [upd_same]
        · rw [upd_other _ _ e]
      · exact other _ _ _ _ (by omega) (by omega)
    · rw [if_neg h4]
      refine ⟨⟨fun _ => ⟨by omega, by omega, Or.inr ?_⟩, fun _ => rfl⟩, Or.inl rfl, rfl, rfl, fun j => ?_, fun j hj => ?_⟩
      · rintro a' r' ⟨⟩
        omega
      · dsimp only
        by_cases e : j = (id / 4096).toNat
        · subst e; rw [upd_same, upd_same]
        · rw [upd_other _ _ e, upd_other _ _ e]
      · exact (other _ _ _ _ (by omega) (by omega)).trans (other _ _ _ _ (by omega) (by omega))

example : (cmdBrepeat buttonsInit (13 * 4096) none).2 = .err .outOfRange := by decide +kernel

end Sbc.Input
