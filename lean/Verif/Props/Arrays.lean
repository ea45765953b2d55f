import Verif.Proof.Arrays
set_option autoImplicit false
/-!
# C04, C05, C06: arrays
-/
namespace Sbc.Arrays
open Sbc Sbc.Arrays.Spec

/-- **C04/C05/C06 (partial).** For every pool size and every history of DIMs, reads and writes avoiding
the defective requests singled out by `Valid` (see the `_violated` theorems), the observable results
are those of independent tables: each element has its own cell, subscripts are checked against the
dimensions, DIM yields an all-default array or fails.  Missing: the defective requests. -/
theorem C04_arrays_refine_tables_partial (size : Nat) (h : size ≤ 2147483648) (ops : List Op)
    (hv : Valid { size, used := 0, arrs := [] } ops) :
    (run (init size) ops).2 = (Spec.run { size, used := 0, arrs := [] } ops).2 :=
  (rel_run (rel_init h) ops hv).1

/-- **C04 (partial).** After any admissible history, a write followed by a read (of any array, any
subscripts) returns the value written if both designate the same element, and what the read would
have returned before the write otherwise. -/
theorem C04_write_read_partial (size : Nat) (h : size ≤ 2147483648) (ops : List Op)
    (s : St) (sp : Spec.St) (hs : s = (run (init size) ops).1)
    (hsp : sp = (Spec.run { size, used := 0, arrs := [] } ops).1)
    (hv : Valid { size, used := 0, arrs := [] } ops)
    (id id' : Nat) (ix ix' : Int) (iy iy' : Option Int) (v : Int) (a a' : Arr)
    (ha : sp.arrs[id]? = some a) (ha' : sp.arrs[id']? = some a')
    (hok : SubOk a ix iy) (hok' : SubOk a' ix' iy') :
    (step (step s (.write id ix iy v)).1 (.read id' ix' iy')).2 =
      match locate a ix iy, locate a' ix' iy' with
      | .ok c, .ok c' => if id' = id ∧ c' = c then .value v else (step s (.read id' ix' iy')).2
      | _, _ => (step s (.read id' ix' iy')).2 := by
  have r : Rel s sp := by subst hs hsp; exact (rel_run (rel_init h) ops hv).2
  have w := rel_step r (.write id ix iy v) ⟨a, ha, hok⟩
  have r0 := (rel_step r (.read id' ix' iy') ⟨a', ha', hok'⟩).1
  have hlen : id < sp.arrs.length := by rw [List.getElem?_eq_some_iff] at ha; exact ha.1
  cases hl : locate a ix iy with
  | error e =>
    have e1 : (Spec.step sp (.write id ix iy v)).1 = sp := by simp [Spec.step, ha, hl]
    have r1 := (rel_step w.2 (.read id' ix' iy') (by rw [e1]; exact ⟨a', ha', hok'⟩)).1
    rw [r1, r0, e1]
  | ok c =>
    obtain ⟨x, y⟩ := c
    by_cases hid : id' = id
    · subst hid
      rw [ha] at ha'; injection ha' with ha'; subst ha'
      have e1 : (Spec.step sp (.write id' ix iy v)).1 = 
          Spec.St.mk sp.size sp.used (sp.arrs.set id'
            { a with cell := fun x' y' => if x' = x ∧ y' = y then v else a.cell x' y' }) := by
        simp [Spec.step, ha, hl]
      have hg : (Spec.step sp (.write id' ix iy v)).1.arrs[id']? =
          some { a with cell := fun x' y' => if x' = x ∧ y' = y then v else a.cell x' y' } := by
        rw [e1]; simp only []; rw [List.getElem?_set_self hlen]
      have r1 := (rel_step w.2 (.read id' ix' iy') ⟨_, hg, hok'⟩).1
      rw [r1, r0]
      simp only [Spec.step] at hg ⊢
      rw [hg, ha]
      simp only []
      have e2 : locate { a with cell := fun x' y' => if x' = x ∧ y' = y then v else a.cell x' y' } ix' iy'
          = locate a ix' iy' := rfl
      rw [e2]
      cases locate a ix' iy' with
      | error e => rfl
      | ok c' =>
        obtain ⟨x', y'⟩ := c'
        simp only []
        by_cases hxy : x' = x ∧ y' = y
        · simp [hxy]
        · simp [hxy]
    · have e1 : (Spec.step sp (.write id ix iy v)).1 = 
          Spec.St.mk sp.size sp.used (sp.arrs.set id
            { a with cell := fun x' y' => if x' = x ∧ y' = y then v else a.cell x' y' }) := by
        simp [Spec.step, ha, hl]
      have hg : (Spec.step sp (.write id ix iy v)).1.arrs[id']? = some a' := by
        rw [e1]; simp only []; rw [List.getElem?_set_ne (fun h => hid h.symm)]; exact ha'
      have r1 := (rel_step w.2 (.read id' ix' iy') ⟨_, hg, hok'⟩).1
      rw [r1, r0]
      simp only [Spec.step] at hg ⊢
      rw [hg, ha']
      simp only [hid, false_and, if_false]
      cases locate a' ix' iy' <;> rfl

/-- **C05 (partial).** After any admissible history an access with subscripts outside the dimensions is
reported and changes nothing, one with subscripts inside them succeeds; neither touches memory
outside the pool. -/
theorem C05_range_check_partial (size : Nat) (h : size ≤ 2147483648) (ops : List Op)
    (hv : Valid { size, used := 0, arrs := [] } ops) (s : St) (sp : Spec.St)
    (hs : s = (run (init size) ops).1) (hsp : sp = (Spec.run { size, used := 0, arrs := [] } ops).1)
    (id : Nat) (ix : Int) (iy : Option Int) (v : Int) (a : Arr)
    (ha : sp.arrs[id]? = some a) (hok : SubOk a ix iy) :
    (¬ (0 ≤ ix ∧ ix < a.d1) →
      step s (.write id ix iy v) = (s, .error .subscriptX) ∧ step s (.read id ix iy) = (s, .error .subscriptX)) ∧
    (∀ y d, 0 ≤ ix ∧ ix < a.d1 → iy = some y → a.d2 = some d → ¬ (0 ≤ y ∧ y < d) →
      step s (.write id ix iy v) = (s, .error .subscriptY) ∧ step s (.read id ix iy) = (s, .error .subscriptY)) ∧
    (0 ≤ ix ∧ ix < a.d1 → (∀ y, iy = some y → ∃ d, a.d2 = some d ∧ 0 ≤ y ∧ y < d) →
      (step s (.write id ix iy v)).2 = .value v ∧ ∃ w, (step s (.read id ix iy)).2 = .value w) := by
  have r : Rel s sp := by subst hs hsp; exact (rel_run (rel_init h) ops hv).2
  obtain ⟨p, hp⟩ := getElem?_ptr r ha
  have he := entryChecked_spec r hp ha hok
  refine ⟨?_, ?_, ?_⟩
  · intro hn
    have hl : locate a ix iy = .error .subscriptX := by unfold locate; rw [if_neg hn]
    rcases he with ⟨x, y, h1, _⟩ | ⟨e, h1, h2⟩
    · rw [hl] at h1; cases h1
    · rw [hl] at h1; cases h1
      simp [step, hp, h2]
  · intro y d hi hiy hd hn
    subst hiy
    have hl : locate a ix (some y) = .error .subscriptY := by
      unfold locate; rw [if_pos hi, hd]; simp only []; rw [if_neg hn]
    rcases he with ⟨x, y, h1, _⟩ | ⟨e, h1, h2⟩
    · rw [hl] at h1; cases h1
    · rw [hl] at h1; cases h1
      simp [step, hp, h2]
  · intro hi hy
    have hl : ∃ c, locate a ix iy = .ok c := by
      unfold locate; rw [if_pos hi]
      cases iy with
      | none => exact ⟨_, rfl⟩
      | some y =>
        obtain ⟨d, h1, h2⟩ := hy y rfl
        rw [h1]; simp only []; rw [if_pos h2]; exact ⟨_, rfl⟩
    obtain ⟨c, hl⟩ := hl
    rcases he with ⟨x, y, h1, _, h3, _⟩ | ⟨e, h1, h2⟩
    · simp [step, hp, h3]
    · rw [hl] at h1; cases h1

/-- **C06 (partial).** After any admissible history, a successful DIM gives a new array, numbered after
all the others, every element of which reads as the default; a failing one changes nothing.  Reads of
the arrays that existed before are not affected. -/
theorem C06_dim_partial (size : Nat) (h : size ≤ 2147483648) (ops : List Op)
    (hv : Valid { size, used := 0, arrs := [] } ops) (s : St) (sp : Spec.St)
    (hs : s = (run (init size) ops).1) (hsp : sp = (Spec.run { size, used := 0, arrs := [] } ops).1)
    (s1 : Int) (s2 : Option Int) (d : Int) (hd : DimOk s1 s2) :
    (step s (.dim s1 s2 d) = (s, .noMemory) ∨
      ((step s (.dim s1 s2 d)).2 = .created sp.arrs.length ∧
        (∀ ix iy, 0 ≤ ix ∧ ix < s1 → (∀ y, iy = some y → ∃ d, s2 = some d ∧ 0 ≤ y ∧ y < d) →
          (step (step s (.dim s1 s2 d)).1 (.read sp.arrs.length ix iy)).2 = .value d) ∧
        (∀ id a ix iy, sp.arrs[id]? = some a → SubOk a ix iy →
          (step (step s (.dim s1 s2 d)).1 (.read id ix iy)).2 = (step s (.read id ix iy)).2))) := by
  have r : Rel s sp := by subst hs hsp; exact (rel_run (rel_init h) ops hv).2
  have w := rel_step r (.dim s1 s2 d) hd
  by_cases hge : (sp.used : Int) + count s1 s2 + 2 ≥ sp.size
  · left
    have hu := r.used; have hsz := r.size
    simp only [step]
    rw [alloc_spec hd d r.next (by rw [r.size]; exact r.small), if_pos (by omega)]
  · right
    have e1 : Spec.step sp (.dim s1 s2 d) = 
        (Spec.St.mk sp.size (sp.used + (count s1 s2).toNat + 2)
          (sp.arrs ++ [{ d1 := s1, d2 := s2, cell := fun _ _ => d }]), .created sp.arrs.length) := by
      simp only [Spec.step]; rw [if_neg hge]
    rw [e1] at w
    refine ⟨w.1, ?_, ?_⟩
    · intro ix iy hi hy
      have hl : locate { d1 := s1, d2 := s2, cell := fun _ _ => d } ix iy = .ok (ix, iy.getD 0) := by
        unfold locate; rw [if_pos hi]
        cases iy with
        | none => rfl
        | some y => obtain ⟨d, h1, h2⟩ := hy y rfl; rw [h1]; simp only []; rw [if_pos h2]; rfl
      have hg : (sp.arrs ++ [({ d1 := s1, d2 := s2, cell := fun _ _ => d } : Arr)])[sp.arrs.length]?
          = some { d1 := s1, d2 := s2, cell := fun _ _ => d } := by simp
      have hb : s1 ≤ 524287 := hd.2.1
      have := (rel_step w.2 (.read sp.arrs.length ix iy) ⟨_, hg, by
        refine ⟨by omega, by omega, ?_⟩
        cases iy with
        | none => trivial
        | some y =>
          obtain ⟨d', h1, h2, h3⟩ := hy y rfl
          have := hd.2.2; rw [h1] at this; simp only [] at this
          simp only []
          exact ⟨by omega, by omega, by omega, by rw [h1]; simp⟩⟩).1
      rw [this]
      simp only [Spec.step]
      rw [hg]; simp only []; rw [hl]
    · intro id a ix iy ha hok
      have hlen : id < sp.arrs.length := by rw [List.getElem?_eq_some_iff] at ha; exact ha.1
      have hg : (sp.arrs ++ [({ d1 := s1, d2 := s2, cell := fun _ _ => d } : Arr)])[id]? = some a := by
        rw [List.getElem?_append_left hlen]; exact ha
      rw [(rel_step w.2 (.read id ix iy) ⟨_, hg, hok⟩).1, (rel_step r (.read id ix iy) ⟨_, ha, hok⟩).1]
      simp only [Spec.step]
      rw [hg, ha]
      simp only []
      cases locate a ix iy <;> rfl

/-- **C06.** DIM fails without an error being reported when the pool is exhausted: the variable is left
with a NULL array (which the next access replaces by a 10-element one). -/
theorem C06_dim_violated :
    (dimVar { size := 14, next := 0, mem := fun _ => 0 } 100 unused 0).2 = .ok none := by decide

/-- **C06 (refuted cases).** `DIM A[65536,65536]` succeeds while reserving no element, because the
element count is computed modulo 2^32; so does `DIM A[-1]`, whose recorded size is 4294967295. -/
theorem C06_dim_size_violated :
    (run (init 100) [.dim 65536 (some 65536) 0, .dim 10 none 0]).1.ptrs = [0, 2] ∧
    (run (init 100) [.dim 10 none 7, .dim (-1) none 0, .dim 10 none 0]).1.ptrs = [0, 12, 13] := by
  decide

/-- **C04 (refuted case).** With two one-dimensional arrays `DIM A[4],B[4]`, writing `A[0,2]` (two
subscripts on a one-dimensional array) is accepted and changes `B[2]`. -/
theorem C04_two_subscripts_violated :
    (run (init 100) [.dim 4 none 0, .dim 4 none 0, .write 0 0 (some 2) 99, .read 1 2 none]).2 =
      [.created 0, .created 1, .value 99, .value 99] := by decide

/-- **C05 (refuted cases).** A second subscript on a one-dimensional array is not rejected and can
address memory outside the pool; the second subscript `-1` is accepted as if it were absent; in
`DIM A[5,0]` (an array without elements) `A[3]` is accepted. -/
theorem C05_range_check_violated :
    (run (init 100) [.dim 4 none 0, .read 0 0 (some 30)]).2 = [.created 0, .undefined] ∧
    (run (init 100) [.dim 4 (some 4) 0, .write 0 1 none 5, .read 0 1 (some (-1))]).2 =
      [.created 0, .value 5, .value 5] ∧
    (run (init 100) [.dim 5 (some 0) 0, .dim 5 none 8, .read 0 3 none]).2 =
      [.created 0, .created 1, .value 8] := by decide

/-- A concrete admissible history exercising both dimensions, an out-of-range access and exhaustion. -/
example : Valid { size := 40, used := 0, arrs := [] }
    [.dim 4 none 0, .dim 3 (some 4) 1, .write 1 2 (some 3) 9, .read 1 2 (some 3), .read 0 7 none,
      .dim 30 none 0] := by
  refine ⟨by simp [Spec.St.Allows, DimOk], by simp [Spec.St.Allows, DimOk], ?_, ?_, ?_, ?_, trivial⟩
  · exact ⟨{ d1 := 3, d2 := some 4, cell := fun _ _ => 1 }, rfl, by simp [SubOk]⟩
  · exact ⟨_, rfl, by simp [SubOk]⟩
  · exact ⟨{ d1 := 4, d2 := none, cell := fun _ _ => 0 }, rfl, by simp [SubOk]⟩
  · simp [Spec.St.Allows, DimOk]

example : (run (init 40) [.dim 4 none 0, .dim 3 (some 4) 1, .write 1 2 (some 3) 9, .read 1 2 (some 3),
    .read 0 7 none, .dim 30 none 0]).2 =
    [.created 0, .created 1, .value 9, .value 9, .error .subscriptX, .noMemory] := by decide

end Sbc.Arrays
