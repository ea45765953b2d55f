import Verif.Spec.Labels
import Verif.Proof.Probe
import Verif.Proof.Names
set_option autoImplicit false
/-!
# The label table refines the list of definitions
-/
namespace Sbc.Labels
open Sbc Sbc.Names Sbc.Probe Sbc.Labels.Spec

def kv (l : Line) : Option (List Nat × Nat) :=
  if fieldName l.name = [] then none else some (fieldName l.name, l.index)

def content (t : Table) : List (List Nat × Nat) :=
  (List.range t.count).filterMap fun i => kv (t.entry i)

/-- Entry `i` defines label `k`. -/
def HasKey (t : Table) (i : Nat) (k : List Nat) : Prop := fieldName (t.entry i).name = k

def Free (t : Table) (i : Nat) : Prop := fieldName (t.entry i).name = []

def kpos (t : Table) (k : List Nat) (j : Nat) : Nat := pos t.count (nameHash k t.count) j

structure Inv (t : Table) : Prop where
  pow : ∃ n, t.count = 2 ^ n
  len : ∀ i < t.count, (t.entry i).name.length = 16
  chain : ∀ i < t.count, ∀ k, k ≠ [] → HasKey t i k →
    ∃ j < t.count, i = kpos t k j ∧ ∀ j' < j, ¬ Free t (kpos t k j') ∧ ¬ HasKey t (kpos t k j') k

theorem Inv.pos {t : Table} (h : Inv t) : 0 < t.count := by
  obtain ⟨n, hn⟩ := h.pow; rw [hn]; exact Nat.pos_of_ne_zero (by simp)

theorem kpos_lt {t : Table} (h : Inv t) (k : List Nat) (j : Nat) : kpos t k j < t.count :=
  pos_lt h.pos _ _

theorem unused_iff {t : Table} (h : Inv t) (i : Nat) (hi : i < t.count) :
    unused (t.entry i) = true ↔ Free t i := by
  unfold unused Free fieldName
  have := h.len i hi
  cases hn : (t.entry i).name with
  | nil => rw [hn] at this; simp at this
  | cons x xs => by_cases hx : x = 0 <;> simp [hx]

theorem cmp_iff {t : Table} (h : Inv t) {n : List Nat} (hn : GoodName n) (i : Nat) (hi : i < t.count) :
    namecmp n (t.entry i).name = true ↔ HasKey t i n := namecmp_iff _ _ (h.len i hi) hn

theorem good_ne {n : List Nat} (hn : GoodName n) : n ≠ [] := by
  rintro rfl; have := hn.1; simp at this

/-- Outcome of probing for a key: stopped at the key, at a free entry, or everything is occupied by
other keys. -/
theorem probe_cases {t : Table} (h : Inv t) {n : List Nat} (hn : GoodName n) (fuel hash step : Nat)
    (hf : t.count < fuel + step) (hle : step ≤ t.count)
    (hs : (hash + step) % t.count = kpos t n step)
    (hbefore : ∀ j' < step, ¬ Free t (kpos t n j') ∧ ¬ HasKey t (kpos t n j') n) :
    (∃ j < t.count, HasKey t (kpos t n j) n ∧
      (∀ j' < j, ¬ Free t (kpos t n j') ∧ ¬ HasKey t (kpos t n j') n) ∧
      findLoop t n fuel hash step = some (kpos t n j) ∧ slotLoop t n fuel hash step = none) ∨
    (∃ j < t.count, Free t (kpos t n j) ∧
      (∀ j' < j, ¬ Free t (kpos t n j') ∧ ¬ HasKey t (kpos t n j') n) ∧
      findLoop t n fuel hash step = none ∧ slotLoop t n fuel hash step = some (kpos t n j)) ∨
    ((∀ j' < t.count, ¬ Free t (kpos t n j') ∧ ¬ HasKey t (kpos t n j') n) ∧
      findLoop t n fuel hash step = none ∧ slotLoop t n fuel hash step = none) := by
  induction fuel generalizing hash step with
  | zero => omega
  | succ fuel ih =>
    simp only [findLoop, slotLoop]
    rw [hs]
    have hlt := kpos_lt h n step
    by_cases hge : step ≥ t.count
    · -- wrapped around: every entry has been visited
      have hstep : step = t.count := by omega
      have hall : ∀ j' < t.count, ¬ Free t (kpos t n j') ∧ ¬ HasKey t (kpos t n j') n :=
        fun j' hj' => hbefore j' (by omega)
      have hnf : ¬ Free t (kpos t n step) := by
        obtain ⟨e, he⟩ := h.pow
        have hlt2 : kpos t n step < 2 ^ e := by rw [← he]; exact hlt
        obtain ⟨k, hk, hke⟩ := pos_surj e (nameHash n t.count) _ hlt2
        rw [← he] at hk hke
        have := (hall k hk).1
        unfold kpos at this
        rw [hke] at this; exact this
      have hu : ¬ unused (t.entry (kpos t n step)) = true := fun hh => hnf ((unused_iff h _ hlt).1 hh)
      right; right
      refine ⟨hall, ?_, ?_⟩
      · rw [if_neg hu, if_pos hge]
      · rw [if_neg hu, if_pos hge]
    · by_cases hfree : Free t (kpos t n step)
      · have hu := (unused_iff h _ hlt).2 hfree
        right; left
        exact ⟨step, by omega, hfree, hbefore, by rw [if_pos hu], by rw [if_pos hu]⟩
      · have hu : ¬ unused (t.entry (kpos t n step)) = true := fun hh => hfree ((unused_iff h _ hlt).1 hh)
        by_cases hkey : HasKey t (kpos t n step) n
        · have hc := (cmp_iff h hn _ hlt).2 hkey
          left
          exact ⟨step, by omega, hkey, hbefore, by rw [if_neg hu, if_neg hge, if_pos hc],
            by rw [if_neg hu, if_neg hge, if_pos hc]⟩
        · have hc : ¬ namecmp n (t.entry (kpos t n step)).name = true :=
            fun hh => hkey ((cmp_iff h hn _ hlt).1 hh)
          have hnext : (kpos t n step + (step + 1)) % t.count = kpos t n (step + 1) := by
            unfold kpos; rw [pos_succ]
          have := ih (kpos t n step) (step + 1) (by omega) (by omega) hnext (by
            intro j' hj'
            rcases Nat.lt_or_ge j' step with h1 | h1
            · exact hbefore j' h1
            · have : j' = step := by omega
              subst this; exact ⟨hfree, hkey⟩)
          rw [if_neg hu, if_neg hge, if_neg hc, if_neg hu, if_neg hge, if_neg hc]
          exact this

theorem probe {t : Table} (h : Inv t) {n : List Nat} (hn : GoodName n) :
    (∃ i < t.count, HasKey t i n ∧ find t n = some i ∧ findSlot t n = none) ∨
    (∃ j < t.count, Free t (kpos t n j) ∧
      (∀ j' < j, ¬ Free t (kpos t n j') ∧ ¬ HasKey t (kpos t n j') n) ∧
      (∀ i < t.count, ¬ HasKey t i n) ∧ find t n = none ∧ findSlot t n = some (kpos t n j)) ∨
    ((∀ i < t.count, ¬ Free t i ∧ ¬ HasKey t i n) ∧ find t n = none ∧ findSlot t n = none) := by
  have hpos : (nameHash n t.count + 0) % t.count = kpos t n 0 := by unfold kpos Probe.pos; rfl
  rcases probe_cases h hn (t.count + 1) (nameHash n t.count) 0 (by omega) (by omega) hpos
    (by intro j' hj'; omega) with ⟨j, hj, hk, hb, h1, h2⟩ | ⟨j, hj, hf, hb, h1, h2⟩ | ⟨hall, h1, h2⟩
  · exact Or.inl ⟨kpos t n j, kpos_lt h _ _, hk, h1, h2⟩
  · right; left
    refine ⟨j, hj, hf, hb, ?_, h1, h2⟩
    intro i hi hk
    obtain ⟨j2, hj2, rfl, b⟩ := h.chain i hi n (good_ne hn) hk
    rcases Nat.lt_trichotomy j j2 with hlt | heq | hgt
    · exact (b j hlt).1 hf
    · subst heq; unfold HasKey at hk; unfold Free at hf; rw [hf] at hk
      exact good_ne hn hk.symm
    · exact (hb j2 hgt).2 hk
  · right; right
    refine ⟨?_, h1, h2⟩
    intro i hi
    obtain ⟨e, he⟩ := h.pow
    obtain ⟨k, hk, hke⟩ := pos_surj e (nameHash n t.count) i (by omega)
    rw [← he] at hk hke
    have := hall k hk
    unfold kpos at this; rw [hke] at this; exact this

theorem hasKey_unique {t : Table} (h : Inv t) {i i' : Nat} {k : List Nat} (hk0 : k ≠ [])
    (hi : i < t.count) (hi' : i' < t.count) (hk : HasKey t i k) (hk' : HasKey t i' k) : i = i' := by
  obtain ⟨j, hj, rfl, b⟩ := h.chain i hi _ hk0 hk
  obtain ⟨j', hj', rfl, b'⟩ := h.chain i' hi' _ hk0 hk'
  rcases Nat.lt_trichotomy j j' with hlt | heq | hgt
  · exact absurd hk (b' j hlt).2
  · rw [heq]
  · exact absurd hk' (b j' hgt).2

theorem mem_content {t : Table} {e : List Nat × Nat} (he : e.1 ≠ []) :
    e ∈ content t ↔ ∃ i < t.count, HasKey t i e.1 ∧ (t.entry i).index = e.2 := by
  unfold content kv HasKey
  simp only [List.mem_filterMap, List.mem_range]
  constructor
  · rintro ⟨i, hi, h⟩
    split at h
    · cases h
    · injection h with h; subst h; exact ⟨i, hi, rfl, rfl⟩
  · rintro ⟨i, hi, h1, h2⟩
    refine ⟨i, hi, ?_⟩
    rw [if_neg (by rw [h1]; exact he), h1, h2]

theorem range_split {m i : Nat} (hi : i < m) :
    List.range m = List.range i ++ i :: List.range' (i + 1) (m - i - 1) := by
  rw [List.range_eq_range', List.range_eq_range']
  have h1 : m = i + (1 + (m - i - 1)) := by omega
  conv_lhs => rw [h1]
  rw [← List.range'_append_1, ← List.range'_append_1]
  simp [List.range'_one]

theorem filterMap_update {α : Type} (m i : Nat) (hi : i < m) (f g : Nat → Option α)
    (hfg : ∀ j, j ≠ i → g j = f j) (hf : f i = none) (a : α) (hg : g i = some a) :
    ((List.range m).filterMap g).Perm (a :: (List.range m).filterMap f) := by
  rw [range_split hi, List.filterMap_append, List.filterMap_cons, List.filterMap_append,
    List.filterMap_cons, hf, hg]
  have e1 : (List.range i).filterMap g = (List.range i).filterMap f := by
    apply List.filterMap_congr
    intro j hj; rw [List.mem_range] at hj; exact hfg j (by omega)
  have e2 : (List.range' (i + 1) (m - i - 1)).filterMap g
      = (List.range' (i + 1) (m - i - 1)).filterMap f := by
    apply List.filterMap_congr
    intro j hj; rw [List.mem_range'_1] at hj; exact hfg j (by omega)
  rw [e1, e2]
  exact List.perm_middle

theorem filterMap_length_lt {α : Type} (m i : Nat) (hi : i < m) (f : Nat → Option α)
    (hf : f i = none) : ((List.range m).filterMap f).length < m := by
  rw [range_split hi, List.filterMap_append, List.filterMap_cons, hf]
  simp only [List.length_append]
  have a := List.length_filterMap_le f (List.range i)
  have b := List.length_filterMap_le f (List.range' (i + 1) (m - i - 1))
  rw [List.length_range] at a
  rw [List.length_range'] at b
  omega

theorem lookup_some_iff {α β : Type} [BEq α] [LawfulBEq α] {m : List (α × β)}
    (hn : (m.map Prod.fst).Nodup) {k : α} {v : β} :
    m.lookup k = some v ↔ (k, v) ∈ m := by
  induction m with
  | nil => simp
  | cons e m ih =>
    obtain ⟨k', v'⟩ := e
    simp only [List.map_cons, List.nodup_cons] at hn
    rw [List.lookup_cons]
    by_cases h : k = k'
    · subst h
      simp only [beq_self_eq_true, List.mem_cons, Prod.mk.injEq, true_and]
      constructor
      · intro h; injection h with h; exact Or.inl h.symm
      · rintro (h | h)
        · rw [h]
        · exact absurd (List.mem_map_of_mem (f := Prod.fst) h) hn.1
    · have : (k == k') = false := by simpa using h
      rw [this]
      simp only [List.mem_cons, Prod.mk.injEq, h, false_and, false_or]
      exact ih hn.2

theorem lookup_none_iff {α β : Type} [BEq α] [LawfulBEq α] {m : List (α × β)} {k : α} :
    m.lookup k = none ↔ ∀ v, (k, v) ∉ m := by
  rw [List.lookup_eq_none_iff]
  constructor
  · intro h v hv; have := h _ hv; simp at this
  · rintro h ⟨k', v'⟩ hm
    simp only [bne_iff_ne, ne_eq]
    intro he; subst he; exact h _ hm

structure Rel (t : Table) (s : St) : Prop where
  inv : Inv t
  cap : s.cap = t.count
  perm : s.m.Perm (content t)
  nodup : (s.m.map Prod.fst).Nodup
  good : ∀ e ∈ s.m, GoodName e.1

theorem Rel.mem {t : Table} {s : St} (r : Rel t s) {k : List Nat} (hk : k ≠ []) {v : Nat} :
    (k, v) ∈ s.m ↔ ∃ i < t.count, HasKey t i k ∧ (t.entry i).index = v := by
  rw [r.perm.mem_iff, mem_content hk]

def Op.WF : Op → Prop
  | .define n _ => GoodName n
  | .lookup n => GoodName n
  | .reset => True

theorem inv_add {t : Table} (h : Inv t) {n : List Nat} (hn : GoodName n) {j : Nat} (hj : j < t.count)
    (hf : Free t (kpos t n j))
    (hb : ∀ j' < j, ¬ Free t (kpos t n j') ∧ ¬ HasKey t (kpos t n j') n) (idx : Nat) :
    Inv { t with entry := fun q => if q = kpos t n j then
        { name := storeName n (t.entry (kpos t n j)).name, index := idx } else t.entry q } := by
  have hlt := kpos_lt h n j
  have hnew : ∀ q, q ≠ kpos t n j → (if q = kpos t n j then
        ({ name := storeName n (t.entry (kpos t n j)).name, index := idx } : Line) else t.entry q) = t.entry q :=
    fun q hq => if_neg hq
  refine ⟨h.pow, ?_, ?_⟩
  · intro i hi
    show (if i = kpos t n j then _ else t.entry i).name.length = 16
    split
    · exact storeName_length _ _ (h.len _ hlt) hn.2.1
    · exact h.len i hi
  · intro i hi k hk0 hk
    have hstay : ∀ k' q, ¬ Free t q → ¬ HasKey t q k' →
        ¬ Free { t with entry := fun q => if q = kpos t n j then
          { name := storeName n (t.entry (kpos t n j)).name, index := idx } else t.entry q } q ∧
        ¬ HasKey { t with entry := fun q => if q = kpos t n j then
          { name := storeName n (t.entry (kpos t n j)).name, index := idx } else t.entry q } q k' := by
      intro k' q h1 h2
      have hq : q ≠ kpos t n j := by rintro rfl; exact h1 hf
      unfold Free HasKey at *
      simp only [hnew q hq]
      exact ⟨h1, h2⟩
    by_cases hij : i = kpos t n j
    · have hkn : k = n := by
        unfold HasKey at hk
        simp only [hij, if_true] at hk
        rw [fieldName_storeName _ _ (h.len _ hlt) hn] at hk
        exact hk.symm
      subst hkn
      exact ⟨j, hj, hij, fun j' hj' => hstay _ _ (hb j' hj').1 (hb j' hj').2⟩
    · have hk' : HasKey t i k := by
        unfold HasKey at *
        simp only [hnew i hij] at hk
        exact hk
      obtain ⟨j2, hj2, hij2, b⟩ := h.chain i hi k hk0 hk'
      exact ⟨j2, hj2, hij2, fun j' hj' => hstay _ _ (b j' hj').1 (b j' hj').2⟩

theorem rel_step {t : Table} {s : St} (r : Rel t s) (op : Op) (hop : op.WF) :
    (step t op).2 = (Spec.step s op).2 ∧ Rel (step t op).1 (Spec.step s op).1 := by
  cases op with
  | define n idx =>
    have hn : GoodName n := hop
    simp only [step, add, Spec.step]
    rcases probe r.inv hn with ⟨i, hi, hk, h1, h2⟩ | ⟨j, hj, hf, hb, habs, h1, h2⟩ | ⟨hall, h1, h2⟩
    · rw [h2]
      have hl : s.m.lookup n = some (t.entry i).index :=
        (lookup_some_iff r.nodup).2 ((r.mem (good_ne hn)).2 ⟨i, hi, hk, rfl⟩)
      rw [if_pos (Or.inl (by rw [hl]; rfl))]
      exact ⟨rfl, r⟩
    · rw [h2]
      have hlt := kpos_lt r.inv n j
      have hno : ∀ v, (n, v) ∉ s.m := by
        intro v hv
        obtain ⟨i, hi, hk, _⟩ := (r.mem (good_ne hn)).1 hv
        exact habs i hi hk
      have hl : s.m.lookup n = none := lookup_none_iff.2 hno
      have hkvf : kv (t.entry (kpos t n j)) = none := by
        unfold kv; unfold Free at hf; rw [if_pos hf]
      have hlen : s.m.length ≠ s.cap := by
        have := filterMap_length_lt t.count (kpos t n j) hlt (fun i => kv (t.entry i)) hkvf
        have h3 := r.perm.length_eq
        unfold content at h3
        rw [h3, r.cap]; omega
      rw [if_neg (by rw [hl]; simp [hlen])]
      refine ⟨rfl, inv_add r.inv hn hj hf hb idx, r.cap, ?_, ?_, ?_⟩
      · refine List.Perm.trans List.perm_append_comm ?_
        simp only [List.singleton_append]
        refine List.Perm.trans (r.perm.cons _) ?_
        apply List.Perm.symm
        unfold content
        apply filterMap_update t.count (kpos t n j) hlt (fun i => kv (t.entry i))
        · intro q hq; simp only [if_neg hq]
        · exact hkvf
        · simp only [if_true]
          unfold kv
          simp only [fieldName_storeName _ _ (r.inv.len _ hlt) hn]
          rw [if_neg (good_ne hn)]
      · show ((s.m ++ [(n, idx)]).map Prod.fst).Nodup
        rw [List.map_append, List.nodup_append]
        refine ⟨r.nodup, by simp, ?_⟩
        intro a ha b hb hab
        simp only [List.map_cons, List.map_nil, List.mem_singleton] at hb
        subst hab hb
        obtain ⟨⟨e1, e2⟩, he', hef⟩ := List.mem_map.1 ha
        simp only at hef; subst hef
        exact hno e2 he'
      · intro e he
        rcases List.mem_append.1 he with h' | h'
        · exact r.good e h'
        · simp only [List.mem_singleton] at h'; subst h'; exact hn
    · rw [h2]
      have hlen : s.m.length = s.cap := by
        rw [r.perm.length_eq, r.cap]
        unfold content
        rw [List.filterMap_length_eq_length.2, List.length_range]
        intro i hi
        rw [List.mem_range] at hi
        have := (hall i hi).1
        unfold Free at this
        unfold kv
        rw [if_neg this]; rfl
      rw [if_pos (Or.inr hlen)]
      exact ⟨rfl, r⟩
  | lookup n =>
    have hn : GoodName n := hop
    simp only [step, labelIndex, Spec.step]
    refine ⟨?_, r⟩
    rcases probe r.inv hn with ⟨i, hi, hk, h1, h2⟩ | ⟨j, hj, hf, hb, habs, h1, h2⟩ | ⟨hall, h1, h2⟩
    · rw [h1]
      have hl : s.m.lookup n = some (t.entry i).index :=
        (lookup_some_iff r.nodup).2 ((r.mem (good_ne hn)).2 ⟨i, hi, hk, rfl⟩)
      rw [hl]; rfl
    · rw [h1]
      have hl : s.m.lookup n = none := by
        apply lookup_none_iff.2
        intro v hv
        obtain ⟨i, hi, hk, _⟩ := (r.mem (good_ne hn)).1 hv
        exact habs i hi hk
      rw [hl]; rfl
    · rw [h1]
      have hl : s.m.lookup n = none := by
        apply lookup_none_iff.2
        intro v hv
        obtain ⟨i, hi, hk, _⟩ := (r.mem (good_ne hn)).1 hv
        exact (hall i hi).2 hk
      rw [hl]; rfl
  | reset =>
    simp only [step, Labels.reset, Spec.step]
    have hfree : ∀ i < t.count, fieldName ((t.entry i).name.set 0 0) = [] := by
      intro i hi
      have hl := r.inv.len i hi
      unfold fieldName
      cases hnm : (t.entry i).name with
      | nil => rw [hnm] at hl; simp at hl
      | cons x xs => simp
    refine ⟨by trivial, ⟨r.inv.pow, ?_, ?_⟩, r.cap, ?_, by simp, by simp⟩
    · intro i hi
      show (if i < t.count then _ else t.entry i).name.length = 16
      rw [if_pos (show i < t.count from hi)]
      simp [r.inv.len i hi]
    · intro i hi k hk0 hk
      unfold HasKey at hk
      simp only [if_pos (show i < t.count from hi)] at hk
      rw [hfree i hi] at hk
      exact absurd hk.symm hk0
    · have : content { t with entry := fun j => if j < t.count then { t.entry j with name := (t.entry j).name.set 0 0 } else t.entry j } = [] := by
        unfold content
        rw [List.filterMap_eq_nil_iff]
        intro i hi
        rw [List.mem_range] at hi
        simp only [if_pos (show i < t.count from hi)]
        unfold kv
        rw [if_pos (hfree i hi)]
      rw [this]

theorem rel_init (n : Nat) : Rel (init (2 ^ n)) { cap := 2 ^ n, m := [] } := by
  have hf : fieldName (List.replicate 16 0) = [] := by decide
  refine ⟨⟨⟨n, rfl⟩, ?_, ?_⟩, rfl, ?_, by simp, by simp⟩
  · intro i _; simp [init]
  · intro i _ k hk0 hk
    unfold HasKey init at hk
    simp only [] at hk
    rw [hf] at hk; exact absurd hk.symm hk0
  · have : content (init (2 ^ n)) = [] := by
      unfold content
      rw [List.filterMap_eq_nil_iff]
      intro i _
      unfold kv init
      rw [if_pos hf]
    rw [this]

theorem rel_run {t : Table} {s : St} (r : Rel t s) (ops : List Op) (h : ∀ op ∈ ops, op.WF) :
    (run t ops).2 = (Spec.run s ops).2 ∧ Rel (run t ops).1 (Spec.run s ops).1 := by
  induction ops generalizing t s with
  | nil => exact ⟨rfl, r⟩
  | cons op ops ih =>
    obtain ⟨h1, h2⟩ := rel_step r op (h op (by simp))
    obtain ⟨h3, h4⟩ := ih h2 (fun o ho => h o (by simp [ho]))
    simp only [run, Spec.run]
    rw [h1, h3]
    exact ⟨rfl, h4⟩

end Sbc.Labels
