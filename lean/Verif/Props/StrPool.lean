import Verif.Proof.StrPool
import Verif.Proof.StrRoom
set_option autoImplicit false
/-!
# C20: string storage is never shared or lost — and C46: SWAP of string variables

`Spec/StrPool.lean` gives the meaning of the string operations without any pool.  The theorems say that the pool of
reference-counted buffers of `Model/StrPool.lean` behaves like it, as long as no `Out of memory` is reported; the
`_violated` theorems show what is not true of the code.
-/
namespace Sbc.StrPool
open Sbc Sbc.Strs

/-- C20: for every history of literals, functions, assignments, READ, INPUT, SWAP, CLEAR that the interpreter performs
without reporting `Out of memory`, every string variable holds exactly the string it would hold if every variable had its
own storage, the strings waiting on the stack are the right ones, and the errors reported are the right ones.  (So
no buffer is handed out while a variable or a pending operand still needs its contents.) -/
theorem C20_values (max n : Nat) (ops : List Op) (st : St) (es : List (Option Err))
    (hk : run (init max n) ops = .ok (st, es)) (he : some Err.outOfMemory ∉ es) :
    ∃ a, Spec.run n Spec.init ops = some (a, es) ∧ (∀ v, v < n → st.deref (st.vars v) = a.vals v) ∧
      st.stack.map (item st) = a.stack := by
  obtain ⟨a, h1, h2, h3, _⟩ := kept_run (init_inv max n).1 (init_inv max n).2 ops hk he
  have h3 : st.n = n := h3
  exact ⟨a, h1, fun v hv => h2.vals v (by omega), h2.stack.symm⟩

/-- C20: in such a history a buffer that `get_new_str` hands out next is inside the pool, and neither a variable nor an
operand refers to it. -/
theorem C20_handed_out_is_free (max n : Nat) (hmax : 0 < max) (ops : List Op) (st : St) (es : List (Option Err))
    (hk : run (init max n) ops = .ok (st, es)) (he : some Err.outOfMemory ∉ es) (z : Nat) (hz : getNewStr st = some z) :
    z < max ∧ (∀ v, v < n → st.vars v ≠ .slot z) ∧ Entry.temp z ∉ st.stack := by
  obtain ⟨a, h1, h2, h3, L, hI, _⟩ := kept_run (init_inv max n).1 (init_inv max n).2 ops hk he
  have h3 : st.n = n := h3
  have hm : st.max = max := run_max ops hk
  refine ⟨hm ▸ new_bound (by omega) hz, fun v hv => free_var hI (new_uses hz) v (by omega), free_temp hI (new_uses hz)⟩

/-- C20: a use count is never below the number of variables and operands that refer to the buffer. -/
theorem C20_counted (max n : Nat) (ops : List Op) (st : St) (es : List (Option Err))
    (hk : run (init max n) ops = .ok (st, es)) (he : some Err.outOfMemory ∉ es) (i : Nat) :
    (List.range n).countP (fun v => decide (st.vars v = .slot i)) + st.stack.countP (fun e => decide (e = .temp i)) ≤ (st.slot i).uses := by
  obtain ⟨a, h1, h2, h3, L, hI, _⟩ := kept_run (init_inv max n).1 (init_inv max n).2 ops hk he
  have h3 : st.n = n := h3
  have hv : ∀ n, vcnt st.vars n i = (List.range n).countP (fun v => decide (st.vars v = .slot i)) := by
    intro n
    induction n with
    | zero => rfl
    | succ n ih => rw [List.range_succ, List.countP_append]; unfold vcnt; rw [ih]; by_cases h : st.vars n = .slot i <;> simp [h]
  have := hI.counted i
  unfold refs at this
  rw [h3, hv] at this
  unfold cnt at this
  omega

/-- C20: if the history reports no error, READs no string, INPUTs over no string with characters outside the 8-bit
set and ends no statement with unused computed strings (`Spec.tidy`), the use count is exactly that number: buffers no
longer referenced are available again. -/
theorem C20_no_leak_partial (max n : Nat) (ops : List Op) (st : St) (es : List (Option Err))
    (hk : run (init max n) ops = .ok (st, es)) (he : some Err.outOfMemory ∉ es) (ht : Spec.tidy n Spec.init ops = true) (i : Nat) :
    (st.slot i).uses =
      (List.range n).countP (fun v => decide (st.vars v = .slot i)) + st.stack.countP (fun e => decide (e = .temp i)) := by
  obtain ⟨a, h1, h2, h3, L, hI, hL⟩ := kept_run (init_inv max n).1 (init_inv max n).2 ops hk he
  have h3 : st.n = n := h3
  have hv : ∀ n, vcnt st.vars n i = (List.range n).countP (fun v => decide (st.vars v = .slot i)) := by
    intro n
    induction n with
    | zero => rfl
    | succ n ih => rw [List.range_succ, List.countP_append]; unfold vcnt; rw [ih]; by_cases h : st.vars n = .slot i <;> simp [h]
  have h4 := hI.counted i
  rw [hL ht (fun _ => rfl) i] at h4
  unfold refs at h4
  rw [h3, hv] at h4
  unfold cnt at h4
  omega

/-- C20: and such a history never runs out of buffers, however long it is, as long as at every moment the string
variables and the computed operands are fewer than the buffers: it ends normally, without any error, and with
the right values. -/
theorem C20_never_out_partial (max n : Nat) (ops : List Op) (ht : Spec.tidy n Spec.init ops = true)
    (hr : Spec.roomy max n Spec.init ops = true) :
    ∃ st es a, run (init max n) ops = .ok (st, es) ∧ (∀ e ∈ es, e = none) ∧ Spec.run n Spec.init ops = some (a, es) ∧
      ∀ v, v < n → st.deref (st.vars v) = a.vals v := by
  obtain ⟨st, es, h1, h2⟩ := progress_run (st := init max n) (init_inv max n).1 (init_inv max n).2 ops ht hr
  obtain ⟨a, h3, h4, _⟩ := C20_values max n ops st es h1 (fun hh => by cases h2 _ hh)
  exact ⟨st, es, a, h1, h2, h3, h4⟩

/-! ## What goes wrong -/

theorem newLoop_first (st : St) (k : Nat) (hk : k < st.max) (h0 : (st.slot k).uses = 0) (h1 : ∀ j, j < k → 0 < (st.slot j).uses)
    (f i : Nat) (hi : i ≤ k) (hf : k < f + i) : newLoop st f i = some k := by
  induction f generalizing i with
  | zero => omega
  | succ f ih =>
    unfold newLoop
    by_cases h : i = k
    · subst h; rw [if_neg (by omega)]
    · rw [if_pos (h1 i (by omega)), if_neg (by omega)]; exact ih (i + 1) (by omega) (by omega)

/-- The first free entry is handed out. -/
theorem new_first {st : St} {k : Nat} (hk : k < st.max) (h0 : (st.slot k).uses = 0) (h1 : ∀ j, j < k → 0 < (st.slot j).uses) :
    getNewStr st = some k := newLoop_first st k hk h0 h1 _ 0 (by omega) (by omega)

/-- A full pool. -/
theorem new_full {st : St} (h : ∀ j, j < st.max → 0 < (st.slot j).uses) (hm : 0 < st.max) : getNewStr st = none := by
  cases hz : getNewStr st with
  | none => rfl
  | some z => have := h z (new_bound hm hz); have := new_uses hz; omega

/-- A history followed by another. -/
theorem run_append (st : St) (xs ys : List Op) {st1 : St} {es1 : List (Option Err)} (h1 : run st xs = .ok (st1, es1))
    {st2 : St} {es2 : List (Option Err)} (h2 : run st1 ys = .ok (st2, es2)) : run st (xs ++ ys) = .ok (st2, es1 ++ es2) := by
  induction xs generalizing st es1 with
  | nil => injection h1 with h1; injection h1 with ha hb; subst ha; subst hb; exact h2
  | cons x xs ih =>
    unfold run at h1
    show run st (x :: (xs ++ ys)) = _
    unfold run
    cases hx : step st x with
    | ub => rw [hx] at h1; cases h1
    | err e => rw [hx] at h1; cases h1
    | ok r =>
      rw [hx] at h1
      simp only [Out.bind] at h1 ⊢
      cases hq : run r.1 xs with
      | ub => rw [hq] at h1; cases h1
      | err e => rw [hq] at h1; cases h1
      | ok q =>
        rw [hq] at h1
        injection h1 with h1; injection h1 with ha hb
        rw [ih r.1 (es1 := q.2) (by rw [hq, ← ha])]
        subst hb; rfl

/-- A string of 200 characters. -/
def long : List Nat := List.replicate 200 65

/-- `PRINT A$+B$` with two strings `s`. -/
def twice (s : List Nat) : List Op := [.lit s, .lit s, .fn 2 addF]

/-- With two strings of 200 characters: reports `String too long`. -/
def tooLong : List Op := twice long

theorem addF_long : addF [⟨false, long⟩, ⟨false, long⟩] = .late .stringTooLong := by decide +kernel

/-- One too long concatenation loses one buffer. -/
theorem twice_step (s : List Nat) (hs : addF [⟨false, s⟩, ⟨false, s⟩] = .late .stringTooLong) (st : St) (h : st.stack = []) (k : Nat) (hk : k < st.max) (h0 : (st.slot k).uses = 0) (h1 : ∀ j, j < k → 0 < (st.slot j).uses) :
    run st (twice s) = .ok (st.setUses k 1, [none, none, some .stringTooLong]) := by
  have hnew : getNewStr { st with stack := [.const s, .const s] } = some k := new_first hk h0 h1
  have h2 : opFn { st with stack := [.const s, .const s] } 2 addF = .ok (st.setUses k 1, some .stringTooLong) := by
    unfold opFn
    rw [if_neg (by simp), hnew]
    simp only [List.drop, List.take, St.valueStrs, St.valueStr, Out.bind, hs, fail]
    unfold St.setUses; rw [h]
  unfold twice
  simp only [run, step, fin, Out.bind, h]
  rw [h2]

theorem tooLong_step (st : St) (h : st.stack = []) (k : Nat) (hk : k < st.max) (h0 : (st.slot k).uses = 0) (h1 : ∀ j, j < k → 0 < (st.slot j).uses) :
    run st tooLong = .ok (st.setUses k 1, [none, none, some .stringTooLong]) := twice_step long addF_long st h k hk h0 h1

/-- After `k` of them. -/
theorem tooLong_run (max n k : Nat) (hk : k ≤ max) :
    ∃ st es, run (init max n) (List.replicate k tooLong).flatten = .ok (st, es) ∧ st.max = max ∧ st.n = n ∧ st.stack = [] ∧
      st.vars = (fun _ => .empty) ∧ (∀ j, j < k → 0 < (st.slot j).uses) ∧ (∀ j, k ≤ j → (st.slot j).uses = 0) ∧
      ∀ e ∈ es, e = none ∨ e = some .stringTooLong := by
  induction k with
  | zero => exact ⟨_, _, rfl, rfl, rfl, rfl, rfl, fun _ h => by omega, fun _ _ => rfl, fun e he => by cases he⟩
  | succ k ih =>
    obtain ⟨st, es, h1, h2, h3, h4, h5, h6, h7, h8⟩ := ih (by omega)
    have hs := tooLong_step st h4 k (by omega) (h7 k (by omega)) h6
    refine ⟨st.setUses k 1, es ++ [none, none, some .stringTooLong], ?_, h2, h3, h4, h5, ?_, ?_, ?_⟩
    · rw [List.replicate_succ', List.flatten_append]
      exact run_append _ _ _ h1 (by rw [List.flatten_singleton]; exact hs)
    · intro j hj
      rw [uses_setUses]; split
      · omega
      · exact h6 j (by omega)
    · intro j hj
      rw [uses_setUses, if_neg (by omega)]; exact h7 j (by omega)
    · intro e he
      cases List.mem_append.1 he with
      | inl h => exact h8 e h
      | inr h => simp at h; rcases h with h | h <;> simp [h]

/-- C20 is violated by errors: after as many `String too long` errors as there are buffers, no variable and no operand
refers to any buffer, yet none is available: the next string operation of the program dereferences a null pointer,
whatever the operation `f` is.  For every pool size. -/
theorem C20_too_long_leak_violated (max n : Nat) (hmax : 0 < max) :
    ∃ st es, run (init max n) (List.replicate max tooLong).flatten = .ok (st, es) ∧
      (∀ e ∈ es, e = none ∨ e = some .stringTooLong) ∧ st.stack = [] ∧ (∀ v, st.vars v = .empty) ∧ getNewStr st = none ∧
      ∀ (k : Nat) (f : List Str → Outcome), step st (.fn k f) = .ub := by
  obtain ⟨st, es, h1, h2, h3, h4, h5, h6, h7, h8⟩ := tooLong_run max n max (Nat.le_refl _)
  have hn : getNewStr st = none := new_full (by rw [h2]; exact h6) (by omega)
  refine ⟨st, es, h1, h8, h4, fun v => by rw [h5], hn, ?_⟩
  intro k f
  show opFn st k f = _
  unfold opFn
  rw [hn]
  split <;> rfl

/-- After `k` READs into the same variable. -/
theorem read_run (max n v : Nat) (hv : v < n) (s : List Nat) (k : Nat) (hk : k ≤ max) :
    ∃ st es, run (init max n) (List.replicate k (.read v s)) = .ok (st, es) ∧ st.max = max ∧ st.n = n ∧ st.stack = [] ∧
      (∀ u, u ≠ v → st.vars u = .empty) ∧ (∀ j, j < k → 0 < (st.slot j).uses) ∧ (∀ j, k ≤ j → (st.slot j).uses = 0) ∧
      ∀ e ∈ es, e = none := by
  induction k with
  | zero => exact ⟨_, _, rfl, rfl, rfl, rfl, fun _ _ => rfl, fun _ h => by omega, fun _ _ => rfl, fun e he => by cases he⟩
  | succ k ih =>
    obtain ⟨st, es, h1, h2, h3, h4, h5, h6, h7, h8⟩ := ih (by omega)
    have hs : run st [.read v s] = .ok ({ ((st.setStr k ⟨false, s⟩).setUses k 1) with vars := upd st.vars v (.slot k) }, [none]) := by
      have h9 : step st (.read v s) = fin { ((st.setStr k ⟨false, s⟩).setUses k 1) with vars := upd st.vars v (.slot k) } := by
        show (if v < st.n then _ else _) = _
        rw [if_pos (by omega), new_first (by omega) (h7 k (by omega)) h6]
      unfold run
      rw [h9]; rfl
    refine ⟨{ ((st.setStr k ⟨false, s⟩).setUses k 1) with vars := upd st.vars v (.slot k) }, es ++ [none], ?_, h2, h3, h4, ?_, ?_, ?_, ?_⟩
    · rw [List.replicate_succ']
      exact run_append _ _ _ h1 hs
    · intro u hu
      show upd st.vars v _ u = _
      rw [upd_other _ _ hu]; exact h5 u hu
    · intro j hj
      show 0 < (((st.setStr k ⟨false, s⟩).setUses k 1).slot j).uses
      rw [uses_setUses, uses_setStr]; split
      · omega
      · exact h6 j (by omega)
    · intro j hj
      show (((st.setStr k ⟨false, s⟩).setUses k 1).slot j).uses = 0
      rw [uses_setUses, if_neg (by omega), uses_setStr]; exact h7 j (by omega)
    · intro e he
      cases List.mem_append.1 he with
      | inl h => exact h8 e h
      | inr h => simpa using h

/-- C20 is violated by READ: reading as many strings as there are buffers into one and the same variable uses them all
up, though every other variable is empty; one READ more dereferences a null pointer.  For every pool size. -/
theorem C20_read_leak_violated (max n v : Nat) (hmax : 0 < max) (hv : v < n) (s : List Nat) :
    (∃ st es, run (init max n) (List.replicate max (.read v s)) = .ok (st, es) ∧ (∀ e ∈ es, e = none) ∧
      (∀ u, u ≠ v → st.vars u = .empty) ∧ getNewStr st = none) ∧
    run (init max n) (List.replicate max (.read v s) ++ [.read v s]) = .ub := by
  obtain ⟨st, es, h1, h2, h3, h4, h5, h6, h7, h8⟩ := read_run max n v hv s max (Nat.le_refl _)
  have hn : getNewStr st = none := new_full (by rw [h2]; exact h6) (by omega)
  refine ⟨⟨st, es, h1, h8, h5, hn⟩, ?_⟩
  have hlast : run st [.read v s] = .ub := by
    have : step st (.read v s) = .ub := by
      show (if v < st.n then _ else _) = _
      rw [if_pos (by omega), hn]
    unfold run; rw [this]; rfl
  -- run over an append ending in undefined behaviour
  have gen : ∀ (xs : List Op) (st0 : St) (es : List (Option Err)), run st0 xs = .ok (st, es) → run st0 (xs ++ [.read v s]) = .ub := by
    intro xs
    induction xs with
    | nil => intro st0 es h; injection h with h; injection h with ha _; subst ha; exact hlast
    | cons x xs ih =>
      intro st0 es h
      unfold run at h
      show run st0 (x :: (xs ++ [.read v s])) = _
      unfold run
      cases hx : step st0 x with
      | ub => rfl
      | err e => rw [hx] at h; cases h
      | ok r =>
        rw [hx] at h
        simp only [Out.bind] at h ⊢
        cases hq : run r.1 xs with
        | ub => rw [hq] at h; cases h
        | err e => rw [hq] at h; cases h
        | ok q =>
          rw [hq] at h
          injection h with h; injection h with ha _
          rw [ih r.1 q.2 (by rw [hq, ← ha])]
  exact gen _ _ _ h1

/-- `V$="A"` -/
def setA (v : Nat) : List Op := [.load v, .lit [65], .assign]

/-- Assigning a literal to a variable that is still empty. -/
theorem set_step (st : St) (v k : Nat) (s : List Nat) (hst : st.stack = []) (hv : v < st.n) (he : st.vars v = .empty) (hk : k < st.max)
    (h0 : (st.slot k).uses = 0) (h1 : ∀ j, j < k → 0 < (st.slot j).uses) :
    run st [.load v, .lit s, .assign] = .ok ({ ((st.setStr k ⟨false, s⟩).inc k) with vars := upd st.vars v (.slot k) }, [none, none, none]) := by
  have hnew : getNewStr { st with stack := [] } = some k := new_first hk h0 h1
  have h2 : assignTo { st with stack := [] } v (.const s) = fin { ((st.setStr k ⟨false, s⟩).inc k) with vars := upd st.vars v (.slot k) } := by
    unfold assignTo
    simp only [hnew, St.valueStr, Out.bind, release, he]
    show fin _ = fin _
    congr 1
    unfold St.inc St.setUses St.setStr
    simp only []
    rw [hst]
  have h3 : step { st with stack := [.const s, .var v] } .assign = fin { ((st.setStr k ⟨false, s⟩).inc k) with vars := upd st.vars v (.slot k) } := by
    show (if v < st.n then _ else _) = _
    rw [if_pos hv]; exact h2
  have h4 : step st (.load v) = fin { st with stack := [.var v] } := by
    show (if v < st.n then _ else _) = _
    rw [if_pos hv, hst]
  unfold run
  rw [h4]
  simp only [fin, Out.bind]
  show (run { st with stack := [.var v] } _).bind _ = _
  unfold run
  show ((run { st with stack := [.const s, .var v] } [.assign]).bind _).bind _ = _
  unfold run
  rw [h3]
  rfl

/-- `k` variables assigned `"A"`. -/
theorem fill_run (max n k : Nat) (hk : k ≤ max) (hn : k ≤ n) :
    ∃ st es, run (init max n) ((List.range k).map setA).flatten = .ok (st, es) ∧ st.max = max ∧ st.n = n ∧ st.stack = [] ∧
      (∀ v, v < k → st.vars v = .slot v) ∧ (∀ v, k ≤ v → st.vars v = .empty) ∧ (∀ j, j < k → st.slot j = ⟨1, ⟨false, [65]⟩⟩) ∧
      (∀ j, k ≤ j → (st.slot j).uses = 0) ∧ ∀ e ∈ es, e = none := by
  induction k with
  | zero => exact ⟨_, _, rfl, rfl, rfl, rfl, fun _ h => by omega, fun _ _ => rfl, fun _ h => by omega, fun _ _ => rfl, fun e he => by cases he⟩
  | succ k ih =>
    obtain ⟨st, es, h1, h2, h3, h4, h5, h6, h7, h8, h9⟩ := ih (by omega) (by omega)
    have hs := set_step st k k [65] h4 (by omega) (h6 k (Nat.le_refl _)) (by omega) (h8 k (Nat.le_refl _)) (fun j hj => by rw [h7 j hj]; decide)
    refine ⟨{ ((st.setStr k ⟨false, [65]⟩).inc k) with vars := upd st.vars k (.slot k) }, es ++ [none, none, none], ?_, h2, h3, h4, ?_, ?_, ?_, ?_, ?_⟩
    · rw [List.range_succ, List.map_append, List.flatten_append]
      refine run_append _ _ _ h1 ?_
      show run st (setA k ++ []) = _
      rw [List.append_nil]; exact hs
    · intro v hv
      show upd st.vars k _ v = _
      by_cases hh : v = k
      · subst hh; rw [upd_same]
      · rw [upd_other _ _ hh]; exact h5 v (by omega)
    · intro v hv
      show upd st.vars k _ v = _
      rw [upd_other _ _ (by omega)]; exact h6 v (by omega)
    · intro j hj
      show (((st.setStr k ⟨false, [65]⟩).setUses k _).slot j) = _
      by_cases hh : j = k
      · subst hh
        unfold St.setUses St.setStr
        simp only [upd_same]
        rw [h8 j (Nat.le_refl _)]
      · unfold St.setUses St.setStr
        simp only [upd_other _ _ hh]
        exact h7 j (by omega)
    · intro j hj
      show (((st.setStr k ⟨false, [65]⟩).setUses k _).slot j).uses = 0
      rw [uses_setUses, if_neg (by omega), uses_setStr]; exact h8 j (by omega)
    · intro e he
      cases List.mem_append.1 he with
      | inl h => exact h9 e h
      | inr h => simp at h; exact h

/-- C20 is violated when the pool is full: `A$="B"` on a full pool reports `Out of memory`, but A$'s buffer has been
released while A$ still refers to it, and the next assignment to another variable, `Z$="C"`, is given that very buffer: A$
now reads `"C"`.  For every pool size. -/
theorem C20_out_of_memory_violated (max : Nat) (hmax : 0 < max) :
    ∃ st es, run (init max (max + 1))
        (((List.range max).map setA).flatten ++ [.load 0, .lit [66], .assign, .load max, .lit [67], .assign]) = .ok (st, es) ∧
      some Err.outOfMemory ∈ es ∧ st.vars 0 = .slot 0 ∧ st.vars max = .slot 0 ∧ st.deref (st.vars 0) = ⟨false, [67]⟩ ∧
      (st.slot 0).uses = 1 := by
  obtain ⟨st, es, h1, h2, h3, h4, h5, h6, h7, h8, h9⟩ := fill_run max (max + 1) max (Nat.le_refl _) (by omega)
  have hfull : ∀ stk, getNewStr { st with stack := stk } = none := fun stk =>
    new_full (st := { st with stack := stk }) (by intro j hj; show 0 < (st.slot j).uses; rw [h7 j (by rw [← h2]; exact hj)]; decide) (by show 0 < st.max; omega)
  have hv0 := h5 0 hmax
  -- the failing assignment
  have ha : run st [.load 0, .lit [66], .assign] = .ok (st.setUses 0 0, [none, none, some .outOfMemory]) := by
    have h10 : assignTo { st with stack := [] } 0 (.const [66]) = .ok (st.setUses 0 0, some .outOfMemory) := by
      unfold assignTo
      simp only [hfull, St.valueStr, Out.bind, release, hv0, St.dec]
      rw [if_neg (by rw [h7 0 hmax]; decide)]
      simp only [fail]
      rw [h7 0 hmax]
      unfold St.setUses
      rw [h4]
      rfl
    have h11 : step { st with stack := [.const [66], .var 0] } .assign = .ok (st.setUses 0 0, some .outOfMemory) := by
      show (if 0 < st.n then _ else _) = _
      rw [if_pos (by omega)]; exact h10
    have h12 : step st (.load 0) = fin { st with stack := [.var 0] } := by
      show (if 0 < st.n then _ else _) = _
      rw [if_pos (by omega), h4]
    unfold run
    rw [h12]
    show (run { st with stack := [.var 0] } _).bind _ = _
    unfold run
    show ((run { st with stack := [.const [66], .var 0] } [.assign]).bind _).bind _ = _
    unfold run
    rw [h11]
    rfl
  have hb := set_step (st.setUses 0 0) max 0 [67] h4 (by show max < st.n; omega) (h6 max (Nat.le_refl _)) (by show 0 < st.max; omega)
    (by rw [uses_setUses, if_pos rfl]) (fun j hj => by omega)
  have hab := run_append _ _ _ ha hb
  refine ⟨_, _, run_append _ _ _ h1 hab, ?_, ?_, ?_, ?_, ?_⟩
  · simp
  · show upd st.vars max (.slot 0) 0 = _
    rw [upd_other _ _ (by omega)]; exact hv0
  · show upd st.vars max (.slot 0) max = _
    rw [upd_same]
  · have : upd st.vars max (.slot 0) 0 = .slot 0 := by rw [upd_other _ _ (by omega)]; exact hv0
    show St.deref _ (upd st.vars max (.slot 0) 0) = _
    rw [this]
    show ((((st.setUses 0 0).setStr 0 ⟨false, [67]⟩).setUses 0 _).slot 0).str = _
    rw [str_setUses, str_setStr, if_pos rfl]
  · show ((((st.setUses 0 0).setStr 0 ⟨false, [67]⟩).setUses 0 _).slot 0).uses = 1
    rw [uses_setUses, if_pos rfl, uses_setStr, uses_setUses, if_pos rfl]

/-- C20 is violated by INPUT over a string with characters outside the 8-bit set: its buffer stays counted. -/
theorem C20_input_leak_violated :
    ∃ st es, run (init 2 1) [.input 0 ⟨true, [0x3042]⟩, .input 0 ⟨false, [65]⟩] = .ok (st, es) ∧ (∀ e ∈ es, e = none) ∧
      st.vars 0 = .slot 1 ∧ (st.slot 0).uses = 1 ∧ getNewStr st = none :=
  ⟨_, _, rfl, by simp, rfl, rfl, rfl⟩

/-! ## C46: SWAP of strings -/

/-- C46: in every state reached without `Out of memory`, SWAP of two string variables exchanges their strings, leaves all
other variables, all buffers and all use counts as they were, and doing it twice is as if nothing happened. -/
theorem C46_swap_strings (st : St) (u v : Nat) (hu : u < st.n) (hv : v < st.n) :
    ∃ st', step st (.swap u v) = .ok (st', none) ∧
      st'.deref (st'.vars u) = st.deref (st.vars v) ∧ st'.deref (st'.vars v) = st.deref (st.vars u) ∧
      (∀ w, w ≠ u → w ≠ v → st'.vars w = st.vars w) ∧ st'.slot = st.slot ∧ st'.stack = st.stack ∧
      step st' (.swap u v) = .ok (st, none) := by
  have h1 : step st (.swap u v) = fin { st with vars := upd (upd st.vars u (st.vars v)) v (st.vars u) } := if_pos ⟨hu, hv⟩
  have hvu : upd (upd st.vars u (st.vars v)) v (st.vars u) u = st.vars v := by
    by_cases h : u = v
    · subst h; rw [upd_same]
    · rw [upd_other _ _ h, upd_same]
  have hvv : upd (upd st.vars u (st.vars v)) v (st.vars u) v = st.vars u := upd_same _ _ _
  refine ⟨_, h1, ?_, ?_, ?_, rfl, rfl, ?_⟩
  · show St.deref _ (upd (upd st.vars u (st.vars v)) v (st.vars u) u) = _
    rw [hvu]; exact deref_congr st _ (fun _ => rfl) _
  · show St.deref _ (upd (upd st.vars u (st.vars v)) v (st.vars u) v) = _
    rw [hvv]; exact deref_congr st _ (fun _ => rfl) _
  · intro w h1 h2
    show upd (upd st.vars u (st.vars v)) v (st.vars u) w = _
    rw [upd_other _ _ h2, upd_other _ _ h1]
  · refine (if_pos (show u < st.n ∧ v < st.n from ⟨hu, hv⟩)).trans ?_
    show Out.ok _ = Out.ok _
    congr 2
    show St.mk _ _ _ _ _ = st
    have : upd (upd (upd (upd st.vars u (st.vars v)) v (st.vars u)) u (upd (upd st.vars u (st.vars v)) v (st.vars u) v)) v
        (upd (upd st.vars u (st.vars v)) v (st.vars u) u) = st.vars := by
      rw [hvu, hvv]
      funext w
      unfold upd
      split
      · next h => rw [h]
      · split
        · next h => rw [h]
        · rfl
    show St.mk st.max st.n st.slot (upd (upd (upd (upd st.vars u (st.vars v)) v (st.vars u)) u (upd (upd st.vars u (st.vars v)) v (st.vars u) v)) v
        (upd (upd st.vars u (st.vars v)) v (st.vars u) u)) st.stack = st
    rw [this]

/-! ## Examples -/

/-- `A$="AB":B$=A$+"C":A$=B$:SWAP A$,C$` in a pool of 5. -/
def demo : List Op :=
  [.load 0, .lit [65, 66], .assign, .done, .load 1, .load 0, .lit [67], .fn 2 addF, .assign, .done,
   .load 0, .load 1, .assign, .done, .swap 0 2, .done]

example : ∃ st es, run (init 5 3) demo = .ok (st, es) ∧ some Err.outOfMemory ∉ es ∧
    st.deref (st.vars 2) = ⟨false, [65, 66, 67]⟩ ∧ st.vars 1 = st.vars 2 ∧ st.vars 0 = .empty ∧ (st.slot 0).uses = 0 ∧ (st.slot 1).uses = 2 :=
  ⟨_, _, rfl, by simp, rfl, rfl, rfl, rfl, rfl⟩

example : Spec.tidy 3 Spec.init demo = true ∧ Spec.roomy 5 3 Spec.init demo = true := by decide +kernel

/-- A long running program: the same statements any number of times stay within five buffers. -/
example : Spec.tidy 3 Spec.init (demo ++ demo ++ demo) = true ∧ Spec.roomy 5 3 Spec.init (demo ++ demo ++ demo) = true := by decide +kernel

end Sbc.StrPool
