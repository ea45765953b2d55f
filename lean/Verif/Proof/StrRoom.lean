import Verif.Proof.StrPool
set_option autoImplicit false
/-!
# A free pool entry exists as long as the references are fewer than the entries
-/
namespace Sbc.StrPool
open Sbc Sbc.Strs

/-- Sum over `i < m`. -/
def total (f : Nat → Nat) : Nat → Nat
  | 0 => 0
  | m + 1 => total f m + f m

theorem total_add (f g : Nat → Nat) (m : Nat) : total (fun i => f i + g i) m = total f m + total g m := by
  induction m with
  | zero => rfl
  | succ m ih => unfold total; rw [ih]; omega

theorem total_pos (f : Nat → Nat) (m : Nat) (h : ∀ i, i < m → 0 < f i) : m ≤ total f m := by
  induction m with
  | zero => exact Nat.le_refl _
  | succ m ih =>
    unfold total
    have := ih (fun i hi => h i (by omega)); have := h m (by omega); omega

theorem total_one (f : Nat → Nat) (m : Nat) (h1 : ∀ i, f i ≤ 1) (h2 : ∀ i j, f i = 1 → f j = 1 → i = j) : total f m ≤ 1 := by
  induction m with
  | zero => exact Nat.zero_le _
  | succ m ih =>
    unfold total
    by_cases hm : f m = 1
    · have : total f m = 0 := by
        have hz : ∀ i, i < m → f i = 0 := by
          intro i hi
          have := h1 i
          by_cases h0 : f i = 0
          · exact h0
          · have := h2 i m (by omega) hm; omega
        clear ih
        induction m with
        | zero => rfl
        | succ k ihk =>
          unfold total
          have hk0 := hz k (by omega)
          have : total f k = 0 := by
            have gen : ∀ q, q ≤ k → total f q = 0 := by
              intro q hq
              induction q with
              | zero => rfl
              | succ q ihq => unfold total; rw [ihq (by omega), hz q (by omega)]
            exact gen k (Nat.le_refl _)
          omega
      omega
    · have := h1 m; omega

theorem total_vcnt (vars : Nat → Ref) (n m : Nat) : total (vcnt vars n) m ≤ n := by
  induction n with
  | zero =>
    have : ∀ m, total (vcnt vars 0) m = 0 := by
      intro m
      induction m with
      | zero => rfl
      | succ m ih => unfold total; rw [ih]; rfl
    rw [this]; exact Nat.zero_le _
  | succ n ih =>
    have h : total (vcnt vars (n + 1)) m = total (vcnt vars n) m + total (fun i => if vars n = .slot i then 1 else 0) m := total_add _ _ m
    have h1 : total (fun i => if vars n = .slot i then 1 else 0) m ≤ 1 := by
      apply total_one
      · intro i; split <;> omega
      · intro i j hi hj
        split at hi
        · next a =>
          split at hj
          · next b => rw [a] at b; injection b
          · omega
        · omega
    omega

theorem total_zero (f : Nat → Nat) (h : ∀ i, f i = 0) (m : Nat) : total f m = 0 := by
  induction m with
  | zero => rfl
  | succ m ih => unfold total; rw [ih, h]

theorem newLoop_congr (st st' : St) (hm : st'.max = st.max) (hs : st'.slot = st.slot) (f i : Nat) : newLoop st' f i = newLoop st f i := by
  induction f generalizing i with
  | zero => rfl
  | succ f ih => unfold newLoop; rw [hm, hs, ih]

theorem new_congr (st st' : St) (hm : st'.max = st.max) (hs : st'.slot = st.slot) : getNewStr st' = getNewStr st := by
  unfold getNewStr; rw [newLoop_congr st st' hm hs, hm]

/-- Number of temporaries. -/
def temps (es : List Entry) : Nat := (es.filter fun e => match e with | .temp _ => true | _ => false).length

theorem total_cnt (es : List Entry) (m : Nat) : total (cnt es) m ≤ temps es := by
  induction es with
  | nil =>
    have : ∀ m, total (cnt []) m = 0 := by
      intro m
      induction m with
      | zero => rfl
      | succ m ih => unfold total; rw [ih]; rfl
    rw [this]; exact Nat.zero_le _
  | cons e es ih =>
    have h : total (cnt (e :: es)) m = total (cnt es) m + total (fun i => if e = .temp i then 1 else 0) m := by
      rw [← total_add]; congr 1; funext i; exact cnt_cons e es i
    rw [h]
    cases e with
    | temp j =>
      have h1 : total (fun i => if Entry.temp j = .temp i then 1 else 0) m ≤ 1 := by
        apply total_one
        · intro i; split <;> omega
        · intro i k hi hk
          split at hi
          · next a =>
            split at hk
            · next b => rw [a] at b; injection b
            · omega
          · omega
      have : temps (.temp j :: es) = temps es + 1 := by unfold temps; simp
      omega
    | const s =>
      rw [total_zero _ (fun i => if_neg (by simp))]
      have : temps (.const s :: es) = temps es := by unfold temps; simp
      omega
    | var v =>
      rw [total_zero _ (fun i => if_neg (by simp))]
      have : temps (.var v :: es) = temps es := by unfold temps; simp
      omega

theorem temps_vals {st : St} {a : Spec.State} (hs : Sim st a) : temps st.stack = (a.stack.filter Spec.Item.isVal).length := by
  rw [hs.stack]
  unfold temps
  generalize st.stack = es
  induction es with
  | nil => rfl
  | cons e es ih =>
    cases e <;> simp [item, Spec.Item.isVal, List.filter_cons] <;> exact ih

/-- A new string is found while the references are fewer than the entries and nothing is lost. -/
theorem new_found {st : St} {a : Spec.State} (h : Inv st (fun _ => 0)) (hs : Sim st a)
    (hr : st.n + (a.stack.filter Spec.Item.isVal).length < st.max) : ∃ z, getNewStr st = some z := by
  cases hz : getNewStr st with
  | some z => exact ⟨z, rfl⟩
  | none =>
    exfalso
    have h1 := total_pos (fun i => vcnt st.vars st.n i + cnt st.stack i) st.max (fun i hi => by
      have h2 := new_none hz i hi
      have h3 := h.counted i
      unfold refs at h3
      show 0 < vcnt st.vars st.n i + cnt st.stack i
      omega)
    rw [total_add] at h1
    have h2 := total_vcnt st.vars st.n st.max
    have h3 := total_cnt st.stack st.max
    have h4 := temps_vals hs
    change st.max ≤ total (vcnt st.vars st.n) st.max + total (cnt st.stack) st.max at h1
    omega

/-- Without leaks and with room, what the specification does without error the pool does too. -/
theorem progress {st : St} {a a' : Spec.State} (h : Inv st (fun _ => 0)) (hs : Sim st a)
    (hr : st.n + (a.stack.filter Spec.Item.isVal).length < st.max) (op : Op) (hk : Spec.step st.n a op = some (a', none)) :
    ∃ st', step st op = .ok (st', none) ∧ st'.max = st.max := by
  obtain ⟨z, hz⟩ := new_found h hs hr
  have hlen : a.stack.length = st.stack.length := by rw [hs.stack, List.length_map]
  have hc : ∀ i, cnt st.stack i ≤ (st.slot i).uses := fun i => by have := h.counted i; unfold refs at this; omega
  have hval : ∀ k, ({ st with stack := st.stack.drop k } : St).valueStrs (st.stack.take k) =
      .ok (({ st with stack := st.stack.drop k } : St).less (st.stack.take k), (st.stack.take k).map (content st)) := by
    intro k
    refine (valueStrs_ok (st.stack.take k) { st with stack := st.stack.drop k } (fun e he => h.vars e (List.mem_of_mem_take he)) ?_).trans ?_
    · intro i
      have := hc i
      have := cnt_split k st.stack i
      show cnt (st.stack.take k) i ≤ (st.slot i).uses
      omega
    · rfl
  cases op with
  | lit s => exact ⟨_, rfl, rfl⟩
  | load v =>
    change (if v < st.n then _ else none) = _ at hk
    by_cases hv : v < st.n
    · exact ⟨_, if_pos hv, rfl⟩
    · rw [if_neg hv] at hk; cases hk
  | fn k f =>
    change (if a.stack.length < k then none else _) = _ at hk
    by_cases hl : a.stack.length < k
    · rw [if_pos hl] at hk; cases hk
    rw [if_neg hl] at hk
    have hf : f ((a.stack.take k).map a.get) = f ((st.stack.take k).map (content st)) := by
      congr 1
      rw [hs.stack, ← List.map_take, List.map_map]
      apply List.map_congr_left
      intro e he
      exact item_get hs e (h.vars e (List.mem_of_mem_take he))
    rw [hf] at hk
    show ∃ st', opFn st k f = _ ∧ _
    unfold opFn
    rw [if_neg (by omega), hz]
    simp only []
    rw [hval k]
    simp only [Out.bind]
    cases ho : f ((st.stack.take k).map (content st)) with
    | fresh s => exact ⟨_, rfl, rfl⟩
    | const s => exact ⟨_, rfl, rfl⟩
    | early e => rw [ho] at hk; simp at hk
    | late e => rw [ho] at hk; simp at hk
  | use k =>
    change (if a.stack.length < k then none else _) = _ at hk
    by_cases hl : a.stack.length < k
    · rw [if_pos hl] at hk; cases hk
    show ∃ st', (if st.stack.length < k then Out.ub else _) = _ ∧ _
    rw [if_neg (by omega), hval k]
    exact ⟨_, rfl, rfl⟩
  | read v s =>
    change (if v < st.n then _ else none) = _ at hk
    by_cases hv : v < st.n
    · show ∃ st', (if v < st.n then _ else Out.ub) = _ ∧ _
      rw [if_pos hv, hz]; exact ⟨_, rfl, rfl⟩
    · rw [if_neg hv] at hk; cases hk
  | input v s =>
    change (if v < st.n then _ else none) = _ at hk
    by_cases hv : v < st.n
    · show ∃ st', (if v < st.n then _ else Out.ub) = _ ∧ _
      rw [if_pos hv, hz]
      simp only []
      unfold inputRelease
      cases hr : st.vars v with
      | empty => exact ⟨_, rfl, rfl⟩
      | slot i =>
        simp only []
        by_cases hw : (st.slot i).str.wide = false
        · rw [if_pos hw]
          have := vcnt_pos st.vars st.n v i hv hr
          have := h.counted i; unfold refs at this
          unfold St.dec
          rw [if_neg (by omega)]
          exact ⟨_, rfl, rfl⟩
        · rw [if_neg hw]; exact ⟨_, rfl, rfl⟩
    · rw [if_neg hv] at hk; cases hk
  | swap u v =>
    change (if u < st.n ∧ v < st.n then _ else none) = _ at hk
    by_cases hv : u < st.n ∧ v < st.n
    · exact ⟨_, if_pos hv, rfl⟩
    · rw [if_neg hv] at hk; cases hk
  | clear => exact ⟨_, rfl, rfl⟩
  | done => exact ⟨_, rfl, rfl⟩
  | assign =>
    have hst := hs.stack
    cases hes : st.stack with
    | nil => rw [hes] at hst; simp only [Spec.step, hst] at hk; simp at hk
    | cons b es =>
      cases es with
      | nil => rw [hes] at hst; simp only [Spec.step, hst] at hk; simp at hk
      | cons c rest =>
        cases c with
        | const s => rw [hes] at hst; simp only [Spec.step, hst] at hk; simp [item] at hk
        | temp s => rw [hes] at hst; simp only [Spec.step, hst] at hk; simp [item] at hk
        | var v =>
          have hv : v < st.n := h.vars (.var v) (by rw [hes]; simp)
          have hb : VarOk st.n b := h.vars b (by rw [hes]; simp)
          have hstep : step st .assign = assignTo { st with stack := rest } v b := by
            simp only [step, hes]; rw [if_pos hv]
          rw [hstep]
          have hz' : getNewStr { st with stack := rest } = some z := by rw [← hz]; exact new_congr _ _ rfl rfl
          unfold assignTo
          simp only [hz']
          have hcb := hc
          rw [hes] at hcb
          have hvar : ∀ i, st.vars v = .slot i → vcnt st.vars st.n i > 0 := fun i hi => vcnt_pos _ _ _ _ hv hi
          cases b with
          | const s =>
            simp only [St.valueStr, Out.bind, release]
            cases hr : st.vars v with
            | empty => exact ⟨_, rfl, rfl⟩
            | slot i =>
              have := hvar i hr; have := h.counted i; unfold refs at this
              simp only [St.dec]
              rw [if_neg (by show ¬ (st.slot i).uses = 0; omega)]
              exact ⟨_, rfl, rfl⟩
          | temp j =>
            have h1 := h.counted j; unfold refs at h1
            have h2 : cnt st.stack j ≥ 1 := by rw [hes]; exact cnt_pos (List.mem_cons_self)
            simp only [St.valueStr, St.dec]
            rw [if_neg (by show ¬ (st.slot j).uses = 0; omega)]
            simp only [Out.bind, release]
            have hvv : (({ st with stack := rest } : St).setUses j ((st.slot j).uses - 1)).vars v = st.vars v := rfl
            rw [hvv]
            cases hr : st.vars v with
            | empty => exact ⟨_, rfl, rfl⟩
            | slot i =>
              have := hvar i hr; have h3 := h.counted i; unfold refs at h3
              simp only [St.dec]
              rw [if_neg]
              · exact ⟨_, rfl, rfl⟩
              · rw [uses_setUses]
                split
                · next e => subst e; omega
                · show ¬ (st.slot i).uses = 0; omega
          | var u =>
            have hu : u < st.n := hb
            simp only [St.valueStr]
            rw [if_pos (show u < st.n from hu)]
            simp only [Out.bind, release]
            have fin' : ∀ st1 : St, st1.max = st.max → ∃ st', (match st.vars u with
                | .slot i => fin { st1.inc i with vars := upd st1.vars v (.slot i) }
                | .empty => fin { (st1.setStr z (({ st with stack := rest } : St).deref (st.vars u))).inc z with vars := upd st1.vars v (.slot z) }) = .ok (st', none) ∧ st'.max = st.max := by
              intro st1 hm
              cases st.vars u with
              | empty => exact ⟨_, rfl, hm⟩
              | slot i => exact ⟨_, rfl, hm⟩
            cases hr : st.vars v with
            | empty => exact fin' _ rfl
            | slot i =>
              have := hvar i hr; have h3 := h.counted i; unfold refs at h3
              simp only [St.dec]
              rw [if_neg (by show ¬ (st.slot i).uses = 0; omega)]
              exact fin' _ rfl

theorem dec_max {st st' : St} {i : Nat} (h : st.dec i = .ok st') : st'.max = st.max := by
  unfold St.dec at h
  split at h
  · cases h
  · injection h with h; subst h; rfl

theorem valueStr_max {st : St} {e : Entry} {r : St × Str} (h : st.valueStr e = .ok r) : r.1.max = st.max := by
  cases e with
  | const s => injection h with h; subst h; rfl
  | temp i =>
    unfold St.valueStr at h
    cases hd : st.dec i with
    | ub => simp only [hd, Out.bind] at h; cases h
    | err x => simp only [hd, Out.bind] at h; cases h
    | ok q => simp only [hd, Out.bind] at h; injection h with h; subst h; exact dec_max hd
  | var v =>
    unfold St.valueStr at h
    simp only [] at h
    split at h
    · injection h with h; subst h; rfl
    · cases h

theorem valueStrs_max (es : List Entry) {st : St} {r : St × List Str} (h : st.valueStrs es = .ok r) : r.1.max = st.max := by
  induction es generalizing st r with
  | nil => injection h with h; subst h; rfl
  | cons e es ih =>
    unfold St.valueStrs at h
    cases h1 : st.valueStr e with
    | ub => rw [h1] at h; cases h
    | err x => rw [h1] at h; cases h
    | ok q =>
      rw [h1] at h
      simp only [Out.bind] at h
      cases h2 : q.1.valueStrs es with
      | ub => rw [h2] at h; cases h
      | err x => rw [h2] at h; cases h
      | ok q2 =>
        rw [h2] at h
        injection h with h; subst h
        exact (ih h2).trans (valueStr_max h1)

theorem release_max {st st' : St} {v : Nat} (h : release st v = .ok st') : st'.max = st.max := by
  unfold release at h
  split at h
  · injection h with h; subst h; rfl
  · exact dec_max h

theorem inputRelease_max {st st' : St} {v : Nat} (h : inputRelease st v = .ok st') : st'.max = st.max := by
  unfold inputRelease at h
  split at h
  · split at h
    · exact dec_max h
    · injection h with h; subst h; rfl
  · injection h with h; subst h; rfl

/-- The pool keeps its size. -/
theorem step_max {st st' : St} {op : Op} {e : Option Err} (h : step st op = .ok (st', e)) : st'.max = st.max := by
  cases op with
  | lit s => simp only [step, fin] at h; injection h with h; injection h with h _; subst h; rfl
  | load v =>
    simp only [step] at h; split at h
    · simp only [fin] at h; injection h with h; injection h with h _; subst h; rfl
    · cases h
  | fn k f =>
    simp only [step, opFn] at h
    split at h
    · cases h
    · split at h
      · cases h
      · next z hz =>
        cases h1 : ({ st with stack := st.stack.drop k } : St).valueStrs (st.stack.take k) with
        | ub => rw [h1] at h; cases h
        | err x => rw [h1] at h; cases h
        | ok r =>
          rw [h1] at h
          have hm := valueStrs_max _ h1
          simp only [Out.bind] at h
          split at h <;> (simp only [fin, fail] at h; injection h with h; injection h with h _; subst h; exact hm)
  | use k =>
    simp only [step] at h
    split at h
    · cases h
    · cases h1 : ({ st with stack := st.stack.drop k } : St).valueStrs (st.stack.take k) with
      | ub => rw [h1] at h; cases h
      | err x => rw [h1] at h; cases h
      | ok r =>
        rw [h1] at h
        have hm := valueStrs_max _ h1
        simp only [Out.bind, fin] at h
        injection h with h; injection h with h _; subst h; exact hm
  | read v s =>
    simp only [step] at h
    split at h
    · split at h
      · cases h
      · simp only [fin] at h; injection h with h; injection h with h _; subst h; rfl
    · cases h
  | input v s =>
    simp only [step] at h
    split at h
    · split at h
      · cases h
      · cases h1 : inputRelease st v with
        | ub => rw [h1] at h; cases h
        | err x => rw [h1] at h; cases h
        | ok r =>
          rw [h1] at h
          have hm := inputRelease_max h1
          simp only [Out.bind, fin] at h
          injection h with h; injection h with h _; subst h; exact hm
    · cases h
  | swap u v =>
    simp only [step] at h; split at h
    · simp only [fin] at h; injection h with h; injection h with h _; subst h; rfl
    · cases h
  | clear => simp only [step, fin] at h; injection h with h; injection h with h _; subst h; rfl
  | done => simp only [step, fin] at h; injection h with h; injection h with h _; subst h; rfl
  | assign =>
    simp only [step] at h
    split at h
    · next b v rest hst =>
      split at h
      · unfold assignTo at h
        simp only [] at h
        cases h1 : ({ st with stack := rest } : St).valueStr b with
        | ub => rw [h1] at h; cases h
        | err x => rw [h1] at h; cases h
        | ok r =>
          rw [h1] at h
          have hm1 := valueStr_max h1
          simp only [Out.bind] at h
          cases h2 : release r.1 v with
          | ub => rw [h2] at h; cases h
          | err x => rw [h2] at h; cases h
          | ok r2 =>
            rw [h2] at h
            have hm2 := release_max h2
            simp only [] at h
            split at h
            · simp only [fin] at h; injection h with h; injection h with h _; subst h; exact hm2.trans hm1
            · split at h
              · simp only [fail] at h; injection h with h; injection h with h _; subst h; exact hm2.trans hm1
              · simp only [fin] at h; injection h with h; injection h with h _; subst h; exact hm2.trans hm1
      · cases h
    · cases h

theorem run_max (ops : List Op) {st st' : St} {es : List (Option Err)} (h : run st ops = .ok (st', es)) : st'.max = st.max := by
  induction ops generalizing st es with
  | nil => injection h with h; injection h with h _; subst h; rfl
  | cons op ops ih =>
    unfold run at h
    cases h1 : step st op with
    | ub => rw [h1] at h; cases h
    | err x => rw [h1] at h; cases h
    | ok r =>
      rw [h1] at h
      simp only [Out.bind] at h
      cases h2 : run r.1 ops with
      | ub => rw [h2] at h; cases h
      | err x => rw [h2] at h; cases h
      | ok q =>
        rw [h2] at h
        injection h with h; injection h with h _
        subst h
        exact (ih (es := q.2) h2).trans (step_max (e := r.2) h1)

/-- Histories without leaks that have room never fail. -/
theorem progress_run {st : St} {a : Spec.State} (h : Inv st (fun _ => 0)) (hs : Sim st a) (ops : List Op)
    (ht : Spec.tidy st.n a ops = true) (hr : Spec.roomy st.max st.n a ops = true) :
    ∃ st' es, run st ops = .ok (st', es) ∧ ∀ e ∈ es, e = none := by
  induction ops generalizing st a with
  | nil => exact ⟨st, [], rfl, fun e he => by cases he⟩
  | cons op ops ih =>
    unfold Spec.tidy at ht
    unfold Spec.roomy at hr
    simp only [Bool.and_eq_true, decide_eq_true_eq] at ht hr
    cases hsp : Spec.step st.n a op with
    | none => rw [hsp] at ht; simp at ht
    | some r =>
      obtain ⟨a1, e1⟩ := r
      rw [hsp] at ht hr
      have he1 : e1 = none := by
        have := ht.1; unfold Spec.tidyStep at this; rw [hsp] at this
        cases e1 with
        | none => rfl
        | some _ => simp at this
      subst he1
      obtain ⟨st1, h1, hm1⟩ := progress h hs hr.1 op hsp
      obtain ⟨a1', hs1, hsim1, hn1, L1, hI1, hL1⟩ := kept_step h hs op h1 (by simp)
      rw [hsp] at hs1
      injection hs1 with hs1; injection hs1 with hs1 _; subst hs1
      have hL : L1 = fun _ => 0 := funext (hL1 ht.1 (fun _ => rfl))
      subst hL
      obtain ⟨st2, es, h2, h3⟩ := ih hI1 hsim1 (by rw [hn1]; exact ht.2) (by rw [hn1, hm1]; exact hr.2)
      refine ⟨st2, none :: es, ?_, ?_⟩
      · unfold run; rw [h1]; simp only [Out.bind]; rw [h2]
      · intro e he
        cases List.mem_cons.1 he with
        | inl h => exact h
        | inr h => exact h3 e h

end Sbc.StrPool
