import Verif.Proof.Vars
/-!
# C01, C02: the variable table behaves as a bounded finite map
-/
namespace Sbc.Vars
open Sbc Sbc.Names

/-- **C01.** Every history of reads, assignments, DIMs and CLEARs gives exactly the outputs of the
bounded association list of `Spec/Vars.lean`, for every power-of-two table size and both CLEAR modes. -/
theorem C01_refines_map (n : Nat) (keep : Bool) (ops : List Op) (h : ∀ op ∈ ops, op.WF) :
    (run (init (2 ^ n) keep) ops).2 = (Spec.run (Spec.init (2 ^ n) keep) ops).2 :=
  (rel_run (rel_init n keep) ops h).1

/-- States reachable by a history of well-formed accesses. -/
def Reachable (t : Table) : Prop :=
  ∃ n keep ops, (∀ op ∈ ops, Op.WF op) ∧ t = (run (init (2 ^ n) keep) ops).1

theorem Reachable.rel {t : Table} (h : Reachable t) : ∃ s, Rel t s := by
  obtain ⟨n, keep, ops, hw, rfl⟩ := h
  exact ⟨_, (rel_run (rel_init n keep) ops hw).2⟩

theorem getVar_spec {t : Table} (h : Inv t) {n : List Nat} (hn : GoodName n) {ty : Ty} {i : Nat}
    {t' : Table} (hg : getVar t n ty = (t', .ok i)) :
    i < t.max ∧ t'.max = t.max ∧ Inv t' ∧ HasKey t' i (n, ty) ∧
      ∀ j k, HasKey t j k → HasKey t' j k := by
  unfold getVar at hg
  rw [if_neg (by have := hn.2.1; omega)] at hg
  cases hs : search t n ty with
  | none => simp [hs] at hg
  | some i' =>
    simp only [hs] at hg
    obtain ⟨j, hj, hij, hk, _⟩ := search_some h hn hs
    have hi' : i' < t.max := hij ▸ kpos_lt h _ _
    split at hg
    · rename_i he
      injection hg with h1 h2
      injection h2 with h2
      subst h1 h2
      refine ⟨hi', rfl, inv_insert h hn hs he _ _, ?_, ?_⟩
      · unfold HasKey setSlot; simp [fieldName_storeName _ _ (h.len i' hi') hn]
      · intro j k hjk
        unfold HasKey setSlot at *
        simp only []
        have : j ≠ i' := by rintro rfl; rw [he] at hjk; cases hjk.1
        rw [if_neg this]; exact hjk
    · rename_i he
      injection hg with h1 h2
      injection h2 with h2
      subst h1 h2
      exact ⟨hi', rfl, h, hk.resolve_left he, fun _ _ h => h⟩

/-- **C01.** Two accesses designate the same storage exactly when they name the same variable, and
that storage lies inside the table. -/
theorem C01_storage_injective (t t1 t2 : Table) (hr : Reachable t) (n1 n2 : List Nat) (ty1 ty2 : Ty)
    (h1 : GoodName n1) (h2 : GoodName n2) (i1 i2 : Nat)
    (g1 : getVar t n1 ty1 = (t1, .ok i1)) (g2 : getVar t1 n2 ty2 = (t2, .ok i2)) :
    i1 < t.max ∧ i2 < t.max ∧ (i1 = i2 ↔ (n1, ty1) = (n2, ty2)) := by
  obtain ⟨s, r⟩ := hr.rel
  obtain ⟨a1, a2, a3, a4, a5⟩ := getVar_spec r.inv h1 g1
  obtain ⟨b1, b2, b3, b4, b5⟩ := getVar_spec a3 h2 g2
  refine ⟨a1, by omega, ?_⟩
  have c := b5 _ _ a4
  constructor
  · rintro rfl
    unfold HasKey at c b4
    simp only [] at c b4
    rw [c.1] at b4; rw [c.2] at b4
    simp only [Option.some.injEq] at b4
    rw [b4.1, b4.2]
  · intro he
    rw [he] at c
    exact hasKey_unique b3 (by omega) (by omega) c b4

/-- An access other than CLEAR leaves every existing variable in its slot. -/
theorem step_keeps {t1 : Table} {s1 : Spec.St} (r1 : Rel t1 s1) {n : List Nat} {ty : Ty} {i : Nat}
    (a4 : HasKey t1 i (n, ty)) (hi : i < t1.max) (op : Op) (hop : op.WF) (hc : op ≠ .clear) :
    HasKey (step t1 op).1 i (n, ty) ∧ (step t1 op).1.max = t1.max := by
  have aux : ∀ m ty' t', GoodName m → ∀ i', getVar t1 m ty' = (t', .ok i') →
      HasKey t' i (n, ty) ∧ t'.max = t1.max := by
    intro m ty' t' hm i' hg
    have := getVar_spec r1.inv hm hg
    exact ⟨this.2.2.2.2 _ _ a4, this.2.1⟩
  have aux2 : ∀ m ty' t' e, getVar t1 m ty' = (t', .err e) → t' = t1 := by
    intro m ty' t' e hg
    unfold getVar at hg
    split at hg
    · simp at hg
    · split at hg
      · simp at hg; exact hg.1.symm
      · split at hg <;> simp at hg
  have aux3 : ∀ m ty' t', getVar t1 m ty' = (t', .ub) → t' = t1 := by
    intro m ty' t' hg
    unfold getVar at hg
    split at hg
    · simp at hg; exact hg.symm
    · split at hg
      · simp at hg
      · split at hg <;> simp at hg
  cases op with
  | clear => exact absurd rfl hc
  | read m ty' =>
    simp only [step]
    rcases hg : getVar t1 m ty' with ⟨t', i' | e | _⟩
    · exact aux m ty' t' hop i' hg
    · have := aux2 _ _ _ _ hg; subst this; exact ⟨a4, rfl⟩
    · have := aux3 _ _ _ hg; subst this; exact ⟨a4, rfl⟩
  | write m ty' v =>
    simp only [step]
    rcases hg : getVar t1 m ty' with ⟨t', i' | e | _⟩
    · have := aux m ty' t' hop i' hg
      refine ⟨?_, this.2⟩
      have h1 := this.1
      unfold HasKey setSlot at *
      simp only []
      split
      · rename_i heq; subst heq; exact h1
      · exact h1
    · have := aux2 _ _ _ _ hg; subst this; exact ⟨a4, rfl⟩
    · have := aux3 _ _ _ hg; subst this; exact ⟨a4, rfl⟩
  | dim m ty' alloc =>
    have hm : GoodName m := hop.1
    simp only [step, getNewArrVar]
    rw [if_neg (by have := hm.2.1; omega)]
    cases hs : search t1 m ty' with
    | none => exact ⟨a4, rfl⟩
    | some i' =>
      simp only []
      obtain ⟨j, hj, hij, hk, _⟩ := search_some r1.inv hm hs
      have hi' : i' < t1.max := hij ▸ kpos_lt r1.inv _ _
      by_cases hcond : (t1.slots i').ty = none ∨ t1.clearValues = true ∧ (t1.slots i').val = .arr none
      · rw [if_pos hcond]
        refine ⟨?_, rfl⟩
        show ((if i = i' then _ else t1.slots i).ty = some ty ∧
          fieldName (if i = i' then _ else t1.slots i).name = n)
        by_cases heq : i = i'
        · subst heq
          rw [if_pos rfl]
          rcases hk with hk | hk
          · have := a4.1; rw [hk] at this; cases this
          · rw [fieldName_storeName _ _ (r1.inv.len i hi) hm]
            unfold HasKey at hk a4
            simp only [] at *
            rw [hk.1] at a4; rw [hk.2] at a4
            exact a4
        · rw [if_neg heq]; exact a4
      · rw [if_neg hcond]; exact ⟨a4, rfl⟩

theorem run_keeps {n : List Nat} (hn : GoodName n) {ty : Ty} {i : Nat} (ops : List Op)
    (hw : ∀ op ∈ ops, op.WF) (hc : Op.clear ∉ ops) (t1 : Table) (s1 : Spec.St) (r1 : Rel t1 s1)
    (a4 : HasKey t1 i (n, ty)) (hi : i < t1.max) :
    getVar (run t1 ops).1 n ty = ((run t1 ops).1, .ok i) := by
  induction ops generalizing t1 s1 with
  | nil =>
    show getVar t1 n ty = (t1, .ok i)
    unfold getVar
    rw [if_neg (by have := hn.2.1; omega)]
    cases hs : search t1 n ty with
    | none => exact absurd a4 (search_none r1.inv hn hs i hi).2
    | some i' =>
      obtain ⟨j, hj, hij, hk, _⟩ := search_some r1.inv hn hs
      have hi' : i' < t1.max := hij ▸ kpos_lt r1.inv _ _
      simp only []
      by_cases he : (t1.slots i').ty = none
      · exact absurd a4 (search_empty_absent r1.inv hn hs he i hi)
      · rw [if_neg he, hasKey_unique r1.inv hi' hi (hk.resolve_left he) a4]
  | cons op ops ih =>
    have hop := hw op (by simp)
    have rs := (rel_step r1 op hop).2
    have keep := step_keeps r1 a4 hi op hop (fun h => hc (by simp [h]))
    exact ih (fun o ho => hw o (by simp [ho])) (fun h => hc (by simp [h])) _ _ rs keep.1
      (Nat.lt_of_lt_of_eq hi keep.2.symm)

/-- **C01.** The storage of a variable does not move: any further accesses that do not CLEAR leave it
where it is (so variable references kept by the program stay valid). -/
theorem C01_storage_stable (t t1 : Table) (hr : Reachable t) (n : List Nat) (ty : Ty)
    (hn : GoodName n) (i : Nat) (g : getVar t n ty = (t1, .ok i))
    (ops : List Op) (hw : ∀ op ∈ ops, op.WF) (hc : Op.clear ∉ ops) :
    getVar (run t1 ops).1 n ty = ((run t1 ops).1, .ok i) := by
  obtain ⟨s, r⟩ := hr.rel
  obtain ⟨a1, a2, a3, a4, _⟩ := getVar_spec r.inv hn g
  have r1 : ∃ s1, Rel t1 s1 := by
    have := rel_step r (.read n ty) hn
    simp only [step, g] at this
    exact ⟨_, this.2⟩
  obtain ⟨s1, r1⟩ := r1
  exact run_keeps hn ops hw hc t1 s1 r1 a4 (by omega)

/-- **C02.** In a state reached by any history, using a new variable reports Out of memory exactly
when the number of existing variables equals the capacity; an existing variable is always found. -/
theorem C02_oom_iff_full (n : Nat) (keep : Bool) (ops : List Op) (h : ∀ op ∈ ops, op.WF)
    (name : List Nat) (ty : Ty) (hn : GoodName name) :
    (step (run (init (2 ^ n) keep) ops).1 (.read name ty)).2 = .err .outOfMemory ↔
      (Spec.run (Spec.init (2 ^ n) keep) ops).1.m.lookup (name, ty) = none ∧
      (Spec.run (Spec.init (2 ^ n) keep) ops).1.m.length = 2 ^ n := by
  have r := (rel_run (rel_init n keep) ops h).2
  rw [(rel_step r (.read name ty) hn).1]
  have hcap : (Spec.run (Spec.init (2 ^ n) keep) ops).1.cap = 2 ^ n := by
    have : ∀ (ops : List Op) (s : Spec.St), (Spec.run s ops).1.cap = s.cap := by
      intro ops
      induction ops with
      | nil => intro s; rfl
      | cons op ops ih =>
        intro s
        simp only [Spec.run]
        rw [ih]
        cases op <;> simp only [Spec.step] <;> repeat' split
        all_goals rfl
    exact this ops _
  simp only [Spec.step]
  cases hl : (Spec.run (Spec.init (2 ^ n) keep) ops).1.m.lookup (name, ty) with
  | some v => simp
  | none =>
    simp only [true_and]
    rw [hcap]
    split <;> simp_all

/-- **C02.** FREEVAR is the capacity minus the number of variables (default CLEAR mode). -/
theorem C02_freevar_partial (n : Nat) (ops : List Op) (h : ∀ op ∈ ops, op.WF) :
    freeVar (run (init (2 ^ n) false) ops).1 =
      (2 ^ n : Nat) - ((Spec.run (Spec.init (2 ^ n) false) ops).1.m.length : Int) := by
  have r := (rel_run (rel_init n false) ops h).2
  have hmax : ∀ (ops : List Op) (t : Table), (run t ops).1.max = t.max ∧
      (run t ops).1.clearValues = t.clearValues := by
    intro ops
    induction ops with
    | nil => intro t; exact ⟨rfl, rfl⟩
    | cons op ops ih =>
      intro t
      simp only [run]
      obtain ⟨i1, i2⟩ := ih (step t op).1
      rw [i1, i2]
      cases op <;> simp only [step, getVar, getNewArrVar, reset] <;> repeat' split
      all_goals simp_all [setSlot]
      all_goals (rename_i h; try (repeat' split at h) <;> simp_all [setSlot])
      all_goals (obtain ⟨h1, _⟩ := h; subst h1; simp [setSlot])
  unfold freeVar
  rw [(hmax ops _).1, r.cnt ((hmax ops _).2)]
  rfl

/-- Defect: with variable ids enabled (CLEAR keeps names), DIM after CLEAR counts the array a second
time, so FREEVAR under-reports: here one variable exists in a table of 4 but FREEVAR says 2. -/
theorem C02_freevar_violated :
    ∃ ops : List Op, (∀ op ∈ ops, op.WF) ∧
      freeVar (run (init 4 true) ops).1 = 2 ∧
      (Spec.run (Spec.init 4 true) ops).1.m.length = 1 := by
  refine ⟨[.dim [65] .numArr (some 0), .clear, .dim [65] .numArr (some 0)], ?_, by decide, by decide⟩
  intro op hop
  simp only [List.mem_cons, List.not_mem_nil, or_false] at hop
  rcases hop with rfl | rfl | rfl
  · exact ⟨by decide, Or.inl rfl⟩
  · trivial
  · exact ⟨by decide, Or.inl rfl⟩

-- Non-vacuity: two colliding names in a table of size 2, a third one does not fit.
example : (run (init 2 false) [.write [65] .num (.num 7), .write [67] .num (.num 9),
    .read [65] .num, .read [67] .num, .read [66] .num]).2 =
    [.ok (.num 7), .ok (.num 9), .ok (.num 7), .ok (.num 9), .err .outOfMemory] := by decide
example : nameHash [65] 2 = nameHash [67] 2 := by decide
example : GoodName [65, 66] ∧ Op.WF (.dim [65] .strArr none) := ⟨by decide, by decide, Or.inr rfl⟩

end Sbc.Vars
