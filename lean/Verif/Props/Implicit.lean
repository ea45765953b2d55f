import Verif.Props.Arrays
set_option autoImplicit false
/-!
# C70: arrays used without DIM
-/
namespace Sbc.Arrays
open Sbc Sbc.Arrays.Spec

/-- C70: after any admissible history, using an array that was never dimensioned is the same as dimensioning it with ten
elements (ten by ten when two subscripts are given) and then using it: the element exists and holds the default when the
subscripts are below ten, and is refused otherwise; without room, Out of memory is reported and nothing changes. -/
theorem C70_implicit (size : Nat) (h : size ≤ 2147483648) (ops : List Op)
    (hv : Valid { size, used := 0, arrs := [] } ops) (s : St) (sp : Spec.St)
    (hs : s = (run (init size) ops).1) (hsp : sp = (Spec.run { size, used := 0, arrs := [] } ops).1)
    (ix : Int) (iy : Option Int) (d : Int) (hx : -524288 ≤ ix ∧ ix ≤ 524287)
    (hy : ∀ y, iy = some y → -524288 ≤ y ∧ y ≤ 524287 ∧ y ≠ -1) (n : Nat) (hn : n = if iy.isSome then 100 else 10) :
    (sp.used + n + 2 ≥ size → access s.pool none (toU32 ix) (dim2 iy) d = (s.pool, none, .err .outOfMemory)) ∧
    (sp.used + n + 2 < size → ∃ c p r, step s (.dim 10 (iy.map fun _ => 10) d) = (⟨c, s.ptrs ++ [p]⟩, .created s.ptrs.length) ∧
      access s.pool none (toU32 ix) (dim2 iy) d = (c, some p, r) ∧
      (0 ≤ ix ∧ ix < 10 → (∀ y, iy = some y → 0 ≤ y ∧ y < 10) → ∃ w, r = .ok w ∧ c.mem w = d ∧ w < c.size) ∧
      (¬ (0 ≤ ix ∧ ix < 10) → r = .err .subscriptX) ∧
      (∀ y, 0 ≤ ix ∧ ix < 10 → iy = some y → ¬ (0 ≤ y ∧ y < 10) → r = .err .subscriptY)) := by
  have r : Rel s sp := by subst hs hsp; exact (rel_run (rel_init h) ops hv).2
  have hsize : sp.size = size := by
    subst hsp
    clear r hs
    suffices ∀ (ops : List Op) (sp : Spec.St), (Spec.run sp ops).1.size = sp.size from this ops _
    intro ops
    induction ops with
    | nil => intro sp; rfl
    | cons op ops ih =>
      intro sp
      show (Spec.run (Spec.step sp op).1 ops).1.size = sp.size
      rw [ih]
      cases op with
      | dim s1 s2 d => simp only [Spec.step]; split <;> rfl
      | read id ix iy =>
        simp only [Spec.step]
        split
        · rfl
        · split <;> rfl
      | write id ix iy v =>
        simp only [Spec.step]
        split
        · rfl
        · split <;> rfl
  have hd : DimOk 10 (iy.map fun _ => 10) := by
    cases iy <;> simp [DimOk]
  have hcount : count 10 (iy.map fun _ => (10 : Int)) = n := by
    subst hn; cases iy <;> rfl
  have hu := r.used; have hsz := r.size
  have hdim2 : (if dim2 iy = unused then unused else 10) = dim2 (iy.map fun _ => 10) := by
    cases iy with
    | none => rfl
    | some y =>
      have := hy y rfl
      have hne : dim2 (some y) ≠ unused := by
        show toU32 y ≠ 4294967295
        unfold toU32
        omega
      rw [if_neg hne]
      rfl
  have hal := alloc_spec (c := s.pool) (s1 := 10) hd d r.next (by rw [r.size]; exact r.small)
  rw [show toU32 10 = 10 from rfl] at hal
  refine ⟨?_, ?_⟩
  · intro hge
    unfold access
    simp only
    rw [hdim2, hal, if_pos (by rw [hcount]; omega)]
  · intro hlt
    rw [if_neg (by rw [hcount]; omega)] at hal
    have w := rel_step r (.dim 10 (iy.map fun _ => 10) d) hd
    have e1 : Spec.step sp (.dim 10 (iy.map fun _ => 10) d) =
        (Spec.St.mk sp.size (sp.used + (count 10 (iy.map fun _ => 10)).toNat + 2)
          (sp.arrs ++ [{ d1 := 10, d2 := iy.map fun _ => 10, cell := fun _ _ => d }]), .created sp.arrs.length) := by
      simp only [Spec.step]; rw [if_neg (by rw [hcount]; omega)]
    rw [e1] at w
    have hstep : step s (.dim 10 (iy.map fun _ => 10) d) = (⟨(alloc s.pool 10 (dim2 (iy.map fun _ => 10)) d).1,
        s.ptrs ++ [s.pool.next]⟩, .created s.ptrs.length) := by
      simp only [step]
      rw [show toU32 10 = 10 from rfl, hal]
    rw [hstep] at w
    have hl := r.len
    have hg : (sp.arrs ++ [({ d1 := 10, d2 := iy.map fun _ => 10, cell := fun _ _ => d } : Arr)])[sp.arrs.length]?
        = some { d1 := 10, d2 := iy.map fun _ => 10, cell := fun _ _ => d } := by simp
    have hgp : (s.ptrs ++ [s.pool.next])[sp.arrs.length]? = some s.pool.next := by
      rw [← hl]; simp
    have hok : SubOk { d1 := 10, d2 := iy.map fun _ => 10, cell := fun _ _ => d } ix iy := by
      refine ⟨hx.1, hx.2, ?_⟩
      cases iy with
      | none => trivial
      | some y =>
        have := hy y rfl
        exact ⟨this.1, this.2.1, this.2.2, by simp⟩
    have he := entryChecked_spec w.2 hgp hg hok
    refine ⟨_, _, entryChecked (alloc s.pool 10 (dim2 (iy.map fun _ => 10)) d).1 s.pool.next (toU32 ix) (dim2 iy),
      hstep, ?_, ?_, ?_, ?_⟩
    · unfold access
      simp only
      rw [hdim2, hal]
    · intro hi hyy
      have hloc : locate { d1 := 10, d2 := iy.map fun _ => 10, cell := fun _ _ => d } ix iy = .ok (ix, iy.getD 0) := by
        unfold locate; rw [if_pos hi]
        cases iy with
        | none => rfl
        | some y => show (if 0 ≤ y ∧ y < 10 then _ else _) = _; rw [if_pos (hyy y rfl)]; rfl
      rcases he with ⟨x, y, h1, _, h3, h4⟩ | ⟨e, h1, _⟩
      · refine ⟨_, h3, ?_, h4⟩
        have hr := (rel_step w.2 (.read sp.arrs.length ix iy) ⟨_, hg, hok⟩).1
        simp only [Spec.step, step] at hr
        rw [hg, hgp] at hr
        simp only [hloc] at hr
        rw [h3] at hr
        simp only at hr
        injection hr
      · rw [hloc] at h1; cases h1
    · intro hi
      have hloc : locate { d1 := 10, d2 := iy.map fun _ => 10, cell := fun _ _ => d } ix iy = .error .subscriptX := by
        unfold locate; rw [if_neg hi]
      rcases he with ⟨x, y, h1, _⟩ | ⟨e, h1, h2⟩
      · rw [hloc] at h1; cases h1
      · rw [hloc] at h1; cases h1; exact h2
    · intro y hi hiy hny
      subst hiy
      have hloc : locate { d1 := 10, d2 := (some y).map fun _ => 10, cell := fun _ _ => d } ix (some y) = .error .subscriptY := by
        unfold locate; rw [if_pos hi]
        show (if 0 ≤ y ∧ y < 10 then _ else _) = _
        rw [if_neg hny]
      rcases he with ⟨x, y, h1, _⟩ | ⟨e, h1, h2⟩
      · rw [hloc] at h1; cases h1
      · rw [hloc] at h1; cases h1; exact h2

example : (access (init 40).pool none 3 unused 7).2.2 = .ok 5 ∧ (access (init 40).pool none 10 unused 7).2.2 = .err .subscriptX ∧
    (access (init 40).pool none 3 4 7).2.2 = .err .outOfMemory ∧ (access (init 400).pool none 3 4 7).2.2 = .ok 45 := by decide

end Sbc.Arrays
