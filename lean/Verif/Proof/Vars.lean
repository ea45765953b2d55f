import Verif.Spec.Vars
import Verif.Proof.Probe
import Verif.Proof.Names
/-!
# The probe table refines the association list
-/
namespace Sbc.Vars
open Sbc Sbc.Names Sbc.Probe Sbc.Vars.Spec

/-- Key and value of a slot, if occupied. -/
def kv (s : Slot) : Option (Key × Val) := s.ty.map fun ty => ((fieldName s.name, ty), s.val)

/-- Contents of the table in slot order. -/
def content (t : Table) : List (Key × Val) := (List.range t.max).filterMap fun i => kv (t.slots i)

/-- `k` is the key of slot `i`. -/
def HasKey (t : Table) (i : Nat) (k : Key) : Prop :=
  (t.slots i).ty = some k.2 ∧ fieldName (t.slots i).name = k.1

/-- Probe positions of a key. -/
def kpos (t : Table) (k : Key) (j : Nat) : Nat := pos t.max (nameHash k.1 t.max) j

structure Inv (t : Table) : Prop where
  pow : ∃ n, t.max = 2 ^ n
  len : ∀ i < t.max, (t.slots i).name.length = 16
  chain : ∀ i < t.max, ∀ k, HasKey t i k →
    ∃ j < t.max, i = kpos t k j ∧ ∀ j' < j, (t.slots (kpos t k j')).ty ≠ none ∧ ¬ HasKey t (kpos t k j') k

theorem Inv.pos {t : Table} (h : Inv t) : 0 < t.max := by
  obtain ⟨n, hn⟩ := h.pow; rw [hn]; exact Nat.pos_of_ne_zero (by simp)

theorem kpos_lt {t : Table} (h : Inv t) (k : Key) (j : Nat) : kpos t k j < t.max :=
  pos_lt h.pos _ _

theorem stop_iff {t : Table} (h : Inv t) {n : List Nat} (hn : GoodName n) (ty : Ty) (i : Nat)
    (hi : i < t.max) :
    stop n ty (t.slots i) = true ↔ (t.slots i).ty = none ∨ HasKey t i (n, ty) := by
  unfold stop HasKey
  have := namecmp_iff n (t.slots i).name (h.len i hi) hn
  simp only [Bool.or_eq_true, Bool.and_eq_true, beq_iff_eq, this]
  tauto

theorem searchLoop_spec {t : Table} (h : Inv t) {n : List Nat} (hn : GoodName n) (ty : Ty)
    (fuel hash step : Nat) (hf : t.max < fuel + step)
    (hs : (hash + step) % t.max = kpos t (n, ty) step) :
    (∀ i, searchLoop t n ty fuel hash step = some i →
      ∃ j, step ≤ j ∧ j < t.max ∧ i = kpos t (n, ty) j ∧
        ((t.slots i).ty = none ∨ HasKey t i (n, ty)) ∧
        ∀ j', step ≤ j' → j' < j → (t.slots (kpos t (n, ty) j')).ty ≠ none ∧
          ¬ HasKey t (kpos t (n, ty) j') (n, ty)) ∧
    (searchLoop t n ty fuel hash step = none →
      ∀ j', step ≤ j' → j' < t.max → (t.slots (kpos t (n, ty) j')).ty ≠ none ∧
          ¬ HasKey t (kpos t (n, ty) j') (n, ty)) := by
  induction fuel generalizing hash step with
  | zero =>
    refine ⟨by simp [searchLoop], ?_⟩
    intro _ j' h1 h2; omega
  | succ fuel ih =>
    simp only [searchLoop]
    by_cases hge : step ≥ t.max
    · rw [if_pos hge]
      refine ⟨by simp, ?_⟩
      intro _ j' h1 h2; omega
    · rw [if_neg hge]
      have hst := stop_iff h hn ty (kpos t (n, ty) step) (kpos_lt h _ _)
      by_cases hc : stop n ty (t.slots ((hash + step) % t.max)) = true
      · rw [if_pos hc]
        refine ⟨?_, by simp⟩
        intro i hi
        injection hi with hi
        rw [hs] at hc hi
        refine ⟨step, Nat.le_refl _, by omega, hi.symm, ?_, ?_⟩
        · rw [← hi]; exact hst.1 hc
        · intro j' h1 h2; omega
      · rw [if_neg hc]
        rw [hs] at hc ⊢
        have hnext : (kpos t (n, ty) step + (step + 1)) % t.max = kpos t (n, ty) (step + 1) := by
          unfold kpos; rw [pos_succ]
        obtain ⟨ih1, ih2⟩ := ih (kpos t (n, ty) step) (step + 1) (by omega) hnext
        have hhere : (t.slots (kpos t (n, ty) step)).ty ≠ none ∧
            ¬ HasKey t (kpos t (n, ty) step) (n, ty) := by
          constructor
          · intro h'; exact hc (hst.2 (Or.inl h'))
          · intro h'; exact hc (hst.2 (Or.inr h'))
        constructor
        · intro i hi
          obtain ⟨j, a1, a2, a3, a4, a5⟩ := ih1 i hi
          refine ⟨j, by omega, a2, a3, a4, ?_⟩
          intro j' h1 h2
          rcases Nat.lt_or_ge step j' with h3 | h3
          · exact a5 j' (by omega) h2
          · have : j' = step := by omega
            subst this; exact hhere
        · intro hnone j' h1 h2
          rcases Nat.lt_or_ge step j' with h3 | h3
          · exact ih2 hnone j' (by omega) h2
          · have : j' = step := by omega
            subst this; exact hhere

theorem search_some {t : Table} (h : Inv t) {n : List Nat} (hn : GoodName n) {ty : Ty} {i : Nat}
    (hs : search t n ty = some i) :
    ∃ j < t.max, i = kpos t (n, ty) j ∧ ((t.slots i).ty = none ∨ HasKey t i (n, ty)) ∧
        ∀ j' < j, (t.slots (kpos t (n, ty) j')).ty ≠ none ∧
          ¬ HasKey t (kpos t (n, ty) j') (n, ty) := by
  have hpos : (nameHash n t.max + 0) % t.max = kpos t (n, ty) 0 := by
    unfold kpos Probe.pos; rfl
  obtain ⟨h1, _⟩ := searchLoop_spec h hn ty (t.max + 1) (nameHash n t.max) 0 (by omega) hpos
  obtain ⟨j, _, a2, a3, a4, a5⟩ := h1 i hs
  exact ⟨j, a2, a3, a4, fun j' hj' => a5 j' (by omega) hj'⟩

theorem search_none {t : Table} (h : Inv t) {n : List Nat} (hn : GoodName n) {ty : Ty}
    (hs : search t n ty = none) :
    ∀ i < t.max, (t.slots i).ty ≠ none ∧ ¬ HasKey t i (n, ty) := by
  have hpos : (nameHash n t.max + 0) % t.max = kpos t (n, ty) 0 := by
    unfold kpos Probe.pos; rfl
  obtain ⟨_, h2⟩ := searchLoop_spec h hn ty (t.max + 1) (nameHash n t.max) 0 (by omega) hpos
  intro i hi
  obtain ⟨e, he⟩ := h.pow
  rw [he] at hi
  obtain ⟨k, hk, rfl⟩ := pos_surj e (nameHash n t.max) i hi
  have := h2 hs k (by omega) (by omega)
  unfold kpos at this
  rw [← he]; exact this

/-- If the search ends on an empty slot, the key is nowhere in the table. -/
theorem search_empty_absent {t : Table} (h : Inv t) {n : List Nat} (hn : GoodName n) {ty : Ty}
    {i : Nat} (hs : search t n ty = some i) (he : (t.slots i).ty = none) :
    ∀ i' < t.max, ¬ HasKey t i' (n, ty) := by
  intro i' hi' hk
  obtain ⟨j, hj, rfl, _, a5⟩ := search_some h hn hs
  obtain ⟨j', hj', rfl, b⟩ := h.chain i' hi' _ hk
  rcases Nat.lt_trichotomy j j' with hlt | heq | hgt
  · exact (b j hlt).1 he
  · subst heq; rw [hk.1] at he; cases he
  · exact (a5 j' hgt).2 hk

theorem hasKey_unique {t : Table} (h : Inv t) {i i' : Nat} {k : Key} (hi : i < t.max)
    (hi' : i' < t.max) (hk : HasKey t i k) (hk' : HasKey t i' k) : i = i' := by
  obtain ⟨j, hj, rfl, b⟩ := h.chain i hi _ hk
  obtain ⟨j', hj', rfl, b'⟩ := h.chain i' hi' _ hk'
  rcases Nat.lt_trichotomy j j' with hlt | heq | hgt
  · exact absurd hk (b' j hlt).2
  · rw [heq]
  · exact absurd hk' (b j' hgt).2

/-! ### Contents as a list -/

theorem range_split {m i : Nat} (hi : i < m) :
    List.range m = List.range i ++ i :: List.range' (i + 1) (m - i - 1) := by
  rw [List.range_eq_range', List.range_eq_range']
  have h1 : m = i + (1 + (m - i - 1)) := by omega
  conv_lhs => rw [h1]
  rw [← List.range'_append_1, ← List.range'_append_1]
  simp [List.range'_one]

/-- Contents of all slots except `i`. -/
def others (t : Table) (i : Nat) : List (Key × Val) :=
  (List.range i).filterMap (fun j => kv (t.slots j)) ++
    (List.range' (i + 1) (t.max - i - 1)).filterMap (fun j => kv (t.slots j))

theorem content_split (t : Table) {i : Nat} (hi : i < t.max) :
    (content t).Perm ((kv (t.slots i)).toList ++ others t i) := by
  unfold content others
  rw [range_split hi, List.filterMap_append, List.filterMap_cons]
  cases kv (t.slots i) with
  | none => simp
  | some e => simpa using List.perm_middle

theorem others_setSlot (t : Table) (i : Nat) (s : Slot) : others (setSlot t i s) i = others t i := by
  unfold others setSlot
  congr 1
  · apply List.filterMap_congr
    intro j hj; rw [List.mem_range] at hj
    simp only []; rw [if_neg (by omega)]
  · apply List.filterMap_congr
    intro j hj; rw [List.mem_range'_1] at hj
    simp only []; rw [if_neg (by omega)]

theorem mem_content {t : Table} {e : Key × Val} :
    e ∈ content t ↔ ∃ i < t.max, HasKey t i e.1 ∧ (t.slots i).val = e.2 := by
  unfold content kv HasKey
  simp only [List.mem_filterMap, List.mem_range, Option.map_eq_some_iff]
  constructor
  · rintro ⟨i, hi, ty, h1, rfl⟩; exact ⟨i, hi, ⟨h1, rfl⟩, rfl⟩
  · rintro ⟨i, hi, ⟨h1, h2⟩, h3⟩
    refine ⟨i, hi, e.1.2, h1, ?_⟩
    obtain ⟨⟨a, b⟩, c⟩ := e
    simp_all

theorem content_length_full (t : Table) (h : ∀ i < t.max, (t.slots i).ty ≠ none) :
    (content t).length = t.max := by
  unfold content
  rw [List.filterMap_length_eq_length.2, List.length_range]
  intro i hi
  rw [List.mem_range] at hi
  have := h i hi
  unfold kv
  cases hty : (t.slots i).ty with
  | none => exact absurd hty this
  | some ty => simp

theorem content_length_lt (t : Table) {i : Nat} (hi : i < t.max) (h : (t.slots i).ty = none) :
    (content t).length < t.max := by
  have h1 := (content_split t hi).length_eq
  have h2 : kv (t.slots i) = none := by unfold kv; rw [h]; rfl
  rw [h2] at h1
  simp only [Option.toList_none, List.nil_append] at h1
  rw [h1]
  unfold others
  rw [List.length_append]
  have a := List.length_filterMap_le (fun j => kv (t.slots j)) (List.range i)
  have b := List.length_filterMap_le (fun j => kv (t.slots j)) (List.range' (i + 1) (t.max - i - 1))
  rw [List.length_range] at a
  rw [List.length_range'] at b
  omega

/-! ### Association lists -/

theorem lookup_some_iff {m : List (Key × Val)} (hn : (m.map Prod.fst).Nodup) {k : Key} {v : Val} :
    m.lookup k = some v ↔ (k, v) ∈ m := by
  induction m with
  | nil => simp
  | cons e m ih =>
    obtain ⟨k', v'⟩ := e
    simp only [List.map_cons, List.nodup_cons] at hn
    rw [List.lookup_cons]
    by_cases h : k = k'
    · subst h
      simp only [beq_self_eq_true, List.mem_cons, Prod.mk.injEq, true_and]
      constructor
      · intro h; injection h with h; exact Or.inl h.symm
      · rintro (h | h)
        · rw [h]
        · exact absurd (List.mem_map_of_mem (f := Prod.fst) h) hn.1
    · have : (k == k') = false := by simpa using h
      rw [this]
      simp only [List.mem_cons, Prod.mk.injEq, h, false_and, false_or]
      exact ih hn.2

theorem lookup_none_iff {m : List (Key × Val)} {k : Key} :
    m.lookup k = none ↔ ∀ v, (k, v) ∉ m := by
  rw [List.lookup_eq_none_iff]
  constructor
  · intro h v hv; have := h _ hv; simp at this
  · rintro h ⟨k', v'⟩ hm
    simp only [bne_iff_ne, ne_eq, beq_eq_false_iff_ne]
    intro he; subst he; exact h _ hm

theorem update_fst (m : List (Key × Val)) (k : Key) (v : Val) :
    (update m k v).map Prod.fst = m.map Prod.fst := by
  unfold update
  rw [List.map_map]
  apply List.map_congr_left
  intro e _
  simp only [Function.comp]
  split
  · rename_i h; exact h.symm
  · rfl

theorem update_perm {m : List (Key × Val)} {k : Key} {v v0 : Val} {L : List (Key × Val)}
    (hp : m.Perm ((k, v0) :: L)) (hn : (m.map Prod.fst).Nodup) :
    (update m k v).Perm ((k, v) :: L) := by
  have h1 : (update m k v).Perm (update ((k, v0) :: L) k v) := hp.map _
  have h2 : ((k, v0) :: L).map Prod.fst |>.Nodup := (hp.map Prod.fst).nodup_iff.1 hn
  simp only [List.map_cons, List.nodup_cons] at h2
  have h3 : update L k v = L := by
    unfold update
    conv_rhs => rw [← List.map_id L]
    apply List.map_congr_left
    intro e he
    rw [if_neg]; · rfl
    intro h
    exact h2.1 (h ▸ List.mem_map_of_mem (f := Prod.fst) he)
  have h4 : update ((k, v0) :: L) k v = (k, v) :: update L k v := by
    unfold update; simp
  rw [h4, h3] at h1
  exact h1

/-! ### The refinement relation -/

structure Rel (t : Table) (s : St) : Prop where
  inv : Inv t
  cap : s.cap = t.max
  keep : s.keepNames = t.clearValues
  perm : s.m.Perm (content t)
  nodup : (s.m.map Prod.fst).Nodup
  good : ∀ e ∈ s.m, GoodName e.1.1
  cnt : t.clearValues = false → t.count = s.m.length

theorem Rel.lookup {t : Table} {s : St} (r : Rel t s) {k : Key} {v : Val} :
    s.m.lookup k = some v ↔ ∃ i < t.max, HasKey t i k ∧ (t.slots i).val = v := by
  rw [lookup_some_iff r.nodup, r.perm.mem_iff, mem_content]

theorem inv_insert {t : Table} (h : Inv t) {n : List Nat} (hn : GoodName n) {ty : Ty} {i : Nat}
    (hs : search t n ty = some i) (he : (t.slots i).ty = none) (v : Val) (c : Nat) :
    Inv { setSlot t i { ty := some ty, name := storeName n (t.slots i).name, val := v } with
          count := c } := by
  obtain ⟨j, hj, hij, _, a5⟩ := search_some h hn hs
  have hi : i < t.max := hij ▸ kpos_lt h _ _
  refine ⟨h.pow, ?_, ?_⟩
  · intro i' hi'
    show (if i' = i then _ else t.slots i').name.length = 16
    split
    · exact storeName_length _ _ (h.len i hi) hn.2.1
    · exact h.len i' hi'
  · intro i' hi' k hk
    by_cases hii : i' = i
    · subst hii
      have hkey : k = (n, ty) := by
        unfold HasKey setSlot at hk
        simp only [if_true] at hk
        rw [fieldName_storeName _ _ (h.len i' hi') hn] at hk
        obtain ⟨k1, k2⟩ := k
        simp only [Option.some.injEq] at hk
        rw [← hk.1, ← hk.2]
      subst hkey
      refine ⟨j, hj, hij, ?_⟩
      intro j' hj'
      have hne : kpos t (n, ty) j' ≠ i' := by
        intro heq
        exact (a5 j' hj').1 (heq ▸ he)
      have hsl : (setSlot t i' { ty := some ty, name := storeName n (t.slots i').name, val := v }).slots
          (kpos t (n, ty) j') = t.slots (kpos t (n, ty) j') := by
        unfold setSlot; simp only []; rw [if_neg hne]
      have := a5 j' hj'
      constructor
      · show ((setSlot t i' _).slots (kpos t (n, ty) j')).ty ≠ none
        rw [hsl]; exact this.1
      · intro hk'; apply this.2
        unfold HasKey at hk' ⊢
        have hk2 : ((setSlot t i' { ty := some ty, name := storeName n (t.slots i').name, val := v }).slots
          (kpos t (n, ty) j')).ty = some ty ∧ fieldName ((setSlot t i' { ty := some ty, name := storeName n (t.slots i').name, val := v }).slots
          (kpos t (n, ty) j')).name = n := hk'
        rw [hsl] at hk2; exact hk2
    · have hk0 : HasKey t i' k := by
        unfold HasKey setSlot at hk
        simp only [if_neg hii] at hk
        exact hk
      obtain ⟨j2, hj2, hij2, b⟩ := h.chain i' hi' k hk0
      refine ⟨j2, hj2, hij2, ?_⟩
      intro j' hj'
      have hb := b j' hj'
      have hne : kpos t k j' ≠ i := by
        intro heq; exact hb.1 (heq ▸ he)
      have hsl : (setSlot t i { ty := some ty, name := storeName n (t.slots i).name, val := v }).slots
          (kpos t k j') = t.slots (kpos t k j') := by
        unfold setSlot; simp only []; rw [if_neg hne]
      constructor
      · show ((setSlot t i _).slots (kpos t k j')).ty ≠ none
        rw [hsl]; exact hb.1
      · intro hk'; apply hb.2
        have hk2 : ((setSlot t i { ty := some ty, name := storeName n (t.slots i).name, val := v }).slots
          (kpos t k j')).ty = some k.2 ∧ fieldName ((setSlot t i { ty := some ty, name := storeName n (t.slots i).name, val := v }).slots
          (kpos t k j')).name = k.1 := hk'
        rw [hsl] at hk2; exact hk2

/-- Two tables with the same slot names and types share the invariant. -/
theorem inv_congr {t t' : Table} (h : Inv t) (hm : t'.max = t.max)
    (hty : ∀ i < t.max, (t'.slots i).ty = (t.slots i).ty ∧ fieldName (t'.slots i).name = fieldName (t.slots i).name
      ∧ (t'.slots i).name.length = 16) :
    Inv t' := by
  have hkey : ∀ i < t.max, ∀ k, HasKey t' i k ↔ HasKey t i k := by
    intro i hi k; unfold HasKey; rw [(hty i hi).1, (hty i hi).2.1]
  have hkp : ∀ k j, kpos t' k j = kpos t k j := by intro k j; unfold kpos; rw [hm]
  refine ⟨hm ▸ h.pow, ?_, ?_⟩
  · intro i hi; rw [hm] at hi; exact (hty i hi).2.2
  · intro i hi k hk
    rw [hm] at hi
    obtain ⟨j, hj, hij, b⟩ := h.chain i hi k ((hkey i hi k).1 hk)
    refine ⟨j, by omega, by rw [hkp]; exact hij, ?_⟩
    intro j' hj'
    rw [hkp]
    have hlt := kpos_lt h k j'
    rw [(hty _ hlt).1, hkey _ hlt]
    exact b j' hj'

/-- What inserting a fresh variable does to the relation. -/
theorem rel_insert {t : Table} {s : St} (r : Rel t s) {n : List Nat} (hn : GoodName n) {ty : Ty}
    {i : Nat} (hs : search t n ty = some i) (he : (t.slots i).ty = none) (v : Val) :
    s.m.lookup (n, ty) = none ∧ s.m.length ≠ s.cap ∧
    Rel { setSlot t i { ty := some ty, name := storeName n (t.slots i).name, val := v } with
          count := t.count + 1 } { s with m := s.m ++ [((n, ty), v)] } := by
  have h := r.inv
  have habs := search_empty_absent h hn hs he
  obtain ⟨j, hj, hij, _, a5⟩ := search_some h hn hs
  have hi : i < t.max := hij ▸ kpos_lt h _ _
  have hlk : ∀ w, ((n, ty), w) ∉ s.m := by
    intro w hw
    rw [r.perm.mem_iff, mem_content] at hw
    obtain ⟨i', hi', hk, _⟩ := hw
    exact habs i' hi' hk
  refine ⟨lookup_none_iff.2 hlk, ?_, ?_⟩
  · have h1 := content_length_lt t hi he
    rw [r.perm.length_eq, r.cap]; omega
  · refine ⟨inv_insert h hn hs he v _, r.cap, r.keep, ?_, ?_, ?_, ?_⟩
    · show (s.m ++ [((n, ty), v)]).Perm (content { setSlot t i _ with count := t.count + 1 })
      have hc : content { setSlot t i { ty := some ty, name := storeName n (t.slots i).name, val := v } with count := t.count + 1 }
          = content (setSlot t i { ty := some ty, name := storeName n (t.slots i).name, val := v }) := rfl
      rw [hc]
      have h1 := content_split (setSlot t i { ty := some ty, name := storeName n (t.slots i).name, val := v }) (i := i) hi
      rw [others_setSlot] at h1
      have h2 := content_split t hi
      have e1 : kv (t.slots i) = none := by unfold kv; rw [he]; rfl
      have e2 : kv ((setSlot t i { ty := some ty, name := storeName n (t.slots i).name, val := v }).slots i)
          = some ((n, ty), v) := by
        unfold kv setSlot
        simp [fieldName_storeName _ _ (h.len i hi) hn]
      rw [e1] at h2; rw [e2] at h1
      simp only [Option.toList_none, List.nil_append, Option.toList_some, List.singleton_append] at h1 h2
      refine List.Perm.trans ?_ h1.symm
      refine List.Perm.trans (List.perm_append_comm) ?_
      simp only [List.singleton_append]
      exact (r.perm.trans h2).cons _
    · rw [List.map_append, List.nodup_append]
      refine ⟨r.nodup, by simp, ?_⟩
      intro a ha b hb hab
      simp only [List.map_cons, List.map_nil, List.mem_singleton] at hb
      subst hab hb
      obtain ⟨e, he', hef⟩ := List.mem_map.1 ha
      obtain ⟨e1, e2⟩ := e
      simp only at hef; subst hef
      exact hlk e2 he'
    · intro e he'
      rcases List.mem_append.1 he' with h' | h'
      · exact r.good e h'
      · simp only [List.mem_singleton] at h'; subst h'; exact hn
    · intro hcv
      show t.count + 1 = (s.m ++ [((n, ty), v)]).length
      rw [r.cnt hcv]; simp

/-- What overwriting the value of an existing variable does to the relation. -/
theorem rel_update {t t' : Table} {s : St} (r : Rel t s) {k : Key} {i : Nat} (hi : i < t.max)
    (hk : HasKey t i k) (v : Val) (hm : t'.max = t.max) (hcv : t'.clearValues = t.clearValues)
    (hcount : t.clearValues = false → t'.count = t.count)
    (hslot : ∀ j, t'.slots j = if j = i then { ty := some k.2, name := (t'.slots i).name, val := v } else t.slots j)
    (hname : fieldName (t'.slots i).name = k.1) (hlen : (t'.slots i).name.length = 16) :
    Rel t' { s with m := update s.m k v } := by
  refine ⟨?_, by rw [hm]; exact r.cap, by rw [hcv]; exact r.keep, ?_, ?_, ?_, ?_⟩
  · apply inv_congr r.inv hm
    intro j hj
    by_cases hji : j = i
    · subst hji
      refine ⟨?_, ?_, hlen⟩
      · rw [hslot j, if_pos rfl, hk.1]
      · rw [hname, hk.2]
    · rw [hslot j, if_neg hji]
      exact ⟨rfl, rfl, r.inv.len j hj⟩
  · have h1 := content_split t hi
    have h2 := content_split t' (i := i) (by omega)
    have ho : others t' i = others t i := by
      unfold others; rw [hm]
      congr 1
      · apply List.filterMap_congr
        intro j hj; rw [List.mem_range] at hj
        rw [hslot j, if_neg (by omega)]
      · apply List.filterMap_congr
        intro j hj; rw [List.mem_range'_1] at hj
        rw [hslot j, if_neg (by omega)]
    have e1 : kv (t.slots i) = some (k, (t.slots i).val) := by
      unfold kv; rw [hk.1, hk.2]; rfl
    have e2 : kv (t'.slots i) = some (k, v) := by
      have hh := hslot i
      rw [if_pos rfl] at hh
      unfold kv
      have a1 : (t'.slots i).ty = some k.2 := by rw [hh]
      have a2 : (t'.slots i).val = v := by rw [hh]
      rw [a1, a2, hname]; rfl
    rw [e1] at h1; rw [e2, ho] at h2
    simp only [Option.toList_some, List.singleton_append] at h1 h2
    exact (update_perm (r.perm.trans h1) r.nodup).trans h2.symm
  · rw [update_fst]; exact r.nodup
  · intro e he
    unfold update at he
    obtain ⟨e', he', rfl⟩ := List.mem_map.1 he
    split
    · rename_i h; have := r.good e' he'; rw [h] at this; exact this
    · exact r.good e' he'
  · intro hc
    rw [hcv] at hc
    show t'.count = (update s.m k v).length
    rw [hcount hc, r.cnt hc]; unfold update; simp

theorem dflt_eq (ty : Ty) : dflt ty = fresh ty := by cases ty <;> rfl

/-- Accesses the interpreter performs: proper names; DIM only on array types. -/
def Op.WF : Op → Prop
  | .read n _ => GoodName n
  | .write n _ _ => GoodName n
  | .dim n ty _ => GoodName n ∧ (ty = .numArr ∨ ty = .strArr)
  | .clear => True

theorem rel_full {t : Table} {s : St} (r : Rel t s) {n : List Nat} (hn : GoodName n) {ty : Ty}
    (hs : search t n ty = none) : s.m.lookup (n, ty) = none ∧ s.m.length = s.cap := by
  have h := search_none r.inv hn hs
  constructor
  · apply lookup_none_iff.2
    intro v hv
    rw [r.perm.mem_iff, mem_content] at hv
    obtain ⟨i, hi, hk, _⟩ := hv
    exact (h i hi).2 hk
  · rw [r.perm.length_eq, r.cap]
    exact content_length_full t (fun i hi => (h i hi).1)

theorem rel_step {t : Table} {s : St} (r : Rel t s) (op : Op) (hop : op.WF) :
    (step t op).2 = (Spec.step s op).2 ∧ Rel (step t op).1 (Spec.step s op).1 := by
  cases op with
  | read n ty =>
    have hn : GoodName n := hop
    simp only [step, getVar, Spec.step]
    rw [if_neg (by have := hn.2.1; omega)]
    cases hs : search t n ty with
    | none =>
      obtain ⟨h1, h2⟩ := rel_full r hn hs
      simp only [h1]; rw [if_pos h2]; exact ⟨rfl, r⟩
    | some i =>
      simp only []
      by_cases he : (t.slots i).ty = none
      · rw [if_pos he]
        obtain ⟨h1, h2, h3⟩ := rel_insert r hn hs he (dflt ty)
        simp only [h1]; rw [if_neg h2, ← dflt_eq]
        refine ⟨?_, h3⟩
        simp [setSlot]
      · rw [if_neg he]
        obtain ⟨j, hj, hij, hk, _⟩ := search_some r.inv hn hs
        have hk := hk.resolve_left he
        have : s.m.lookup (n, ty) = some (t.slots i).val :=
          r.lookup.2 ⟨i, hij ▸ kpos_lt r.inv _ _, hk, rfl⟩
        simp only [this]
        exact ⟨by trivial, r⟩
  | write n ty v =>
    have hn : GoodName n := hop
    simp only [step, getVar, Spec.step]
    rw [if_neg (by have := hn.2.1; omega)]
    cases hs : search t n ty with
    | none =>
      obtain ⟨h1, h2⟩ := rel_full r hn hs
      simp only [h1]; rw [if_pos h2]; exact ⟨rfl, r⟩
    | some i =>
      simp only []
      by_cases he : (t.slots i).ty = none
      · rw [if_pos he]
        obtain ⟨h1, h2, h3⟩ := rel_insert r hn hs he v
        simp only [h1]; rw [if_neg h2]
        refine ⟨rfl, ?_⟩
        have hsame : setSlot { setSlot t i { ty := some ty, name := storeName n (t.slots i).name, val := dflt ty } with count := t.count + 1 } i
            { (setSlot t i { ty := some ty, name := storeName n (t.slots i).name, val := dflt ty }).slots i with val := v }
            = { setSlot t i { ty := some ty, name := storeName n (t.slots i).name, val := v } with count := t.count + 1 } := by
          unfold setSlot
          simp only [if_true]
          congr 1
          funext j
          split <;> rfl
        exact hsame ▸ h3
      · rw [if_neg he]
        obtain ⟨j, hj, hij, hk, _⟩ := search_some r.inv hn hs
        have hk := hk.resolve_left he
        have hi : i < t.max := hij ▸ kpos_lt r.inv _ _
        have : s.m.lookup (n, ty) = some (t.slots i).val := r.lookup.2 ⟨i, hi, hk, rfl⟩
        simp only [this]
        refine ⟨by trivial, ?_⟩
        refine rel_update r hi hk v (by rfl) (by rfl) (fun _ => by rfl) ?_ ?_ ?_
        · intro j; unfold setSlot; simp only [if_true]
          split
          · rw [← hk.1]
          · rfl
        · unfold setSlot; simp only [if_true]; exact hk.2
        · unfold setSlot; simp only [if_true]; exact r.inv.len i hi
  | dim n ty alloc =>
    have hn : GoodName n := hop.1
    simp only [step, getNewArrVar, Spec.step]
    rw [if_neg (by have := hn.2.1; omega)]
    cases hs : search t n ty with
    | none =>
      obtain ⟨h1, h2⟩ := rel_full r hn hs
      simp only [h1]; rw [if_pos h2]; exact ⟨rfl, r⟩
    | some i =>
      simp only []
      by_cases he : (t.slots i).ty = none
      · rw [if_pos (Or.inl he)]
        obtain ⟨h1, h2, h3⟩ := rel_insert r hn hs he (.arr alloc)
        simp only [h1]; rw [if_neg h2]
        refine ⟨?_, h3⟩
        simp [setSlot]
      · obtain ⟨j, hj, hij, hk, _⟩ := search_some r.inv hn hs
        have hk := hk.resolve_left he
        have hi : i < t.max := hij ▸ kpos_lt r.inv _ _
        have : s.m.lookup (n, ty) = some (t.slots i).val := r.lookup.2 ⟨i, hi, hk, rfl⟩
        simp only [this]
        by_cases hc : t.clearValues = true ∧ (t.slots i).val = .arr none
        · rw [if_pos (Or.inr hc), if_pos (by rw [r.keep]; exact hc)]
          refine ⟨by simp [setSlot], ?_⟩
          refine rel_update r hi hk (.arr alloc) (by rfl) (by rfl) ?_ ?_ ?_ ?_
          · intro h; rw [hc.1] at h; cases h
          · intro j; unfold setSlot; simp only [if_true]
          · unfold setSlot; simp only [if_true]
            exact fieldName_storeName _ _ (r.inv.len i hi) hn
          · unfold setSlot; simp only [if_true]
            exact storeName_length _ _ (r.inv.len i hi) hn.2.1
        · rw [if_neg (by rintro (h | h); exact he h; exact hc h), if_neg (by rw [r.keep]; exact hc)]
          exact ⟨rfl, r⟩
  | clear =>
    simp only [step, reset, Spec.step]
    by_cases hc : t.clearValues = true
    · rw [if_pos hc, if_pos (by rw [r.keep]; exact hc)]
      refine ⟨rfl, ?_⟩
      have hslots : ∀ i < t.max, ((if i < t.max then clearVal (t.slots i) else t.slots i).ty = (t.slots i).ty ∧
          (if i < t.max then clearVal (t.slots i) else t.slots i).name = (t.slots i).name) := by
        intro i hi; rw [if_pos hi]; unfold clearVal; split <;> simp_all
      refine ⟨?_, r.cap, r.keep, ?_, ?_, ?_, ?_⟩
      · refine inv_congr r.inv (by rfl) ?_
        intro i hi
        have := hslots i hi
        exact ⟨this.1, by show fieldName (if i < t.max then clearVal (t.slots i) else t.slots i).name = _; rw [this.2],
          by show (if i < t.max then clearVal (t.slots i) else t.slots i).name.length = 16; rw [this.2]; exact r.inv.len i hi⟩
      · have hcont : content { t with slots := fun j => if j < t.max then clearVal (t.slots j) else t.slots j }
            = (content t).map fun e => (e.1, fresh e.1.2) := by
          unfold content
          rw [List.map_filterMap]
          apply List.filterMap_congr
          intro i hi; rw [List.mem_range] at hi
          simp only [if_pos hi]
          unfold kv clearVal
          cases hty : (t.slots i).ty with
          | none => simp
          | some ty => cases ty <;> simp [fresh]
        rw [hcont]; exact r.perm.map _
      · show ((s.m.map fun e => (e.1, fresh e.1.2)).map Prod.fst).Nodup
        rw [List.map_map]; exact r.nodup
      · intro e he
        obtain ⟨e', he', rfl⟩ := List.mem_map.1 he
        exact r.good e' he'
      · intro h; rw [hc] at h; cases h
    · rw [if_neg hc, if_neg (by rw [r.keep]; exact hc)]
      refine ⟨rfl, ?_⟩
      refine ⟨⟨r.inv.pow, ?_, ?_⟩, r.cap, r.keep, ?_, by simp, by simp, by simp⟩
      · intro i hi
        show (if i < t.max then { t.slots i with ty := none } else t.slots i).name.length = 16
        rw [if_pos hi]; exact r.inv.len i hi
      · intro i hi k hk
        have hk1 : (if i < t.max then { t.slots i with ty := none } else t.slots i).ty = some k.2 := hk.1
        rw [if_pos (show i < t.max from hi)] at hk1; cases hk1
      · have hcont : content { t with slots := fun j => if j < t.max then { t.slots j with ty := none } else t.slots j, count := 0 } = [] := by
          unfold content
          rw [List.filterMap_eq_nil_iff]
          intro i hi; rw [List.mem_range] at hi
          simp only [if_pos hi]; rfl
        rw [hcont]

theorem rel_init (n : Nat) (cv : Bool) : Rel (init (2 ^ n) cv) (Spec.init (2 ^ n) cv) := by
  refine ⟨⟨⟨n, rfl⟩, ?_, ?_⟩, rfl, rfl, ?_, by simp [Spec.init], by simp [Spec.init], ?_⟩
  · intro i _; simp [init]
  · intro i _ k hk; have := hk.1; simp [init] at this
  · have : content (init (2 ^ n) cv) = [] := by
      unfold content
      rw [List.filterMap_eq_nil_iff]
      intro i _; rfl
    rw [this]; exact List.Perm.refl _
  · intro _; rfl

theorem rel_run {t : Table} {s : St} (r : Rel t s) (ops : List Op) (h : ∀ op ∈ ops, op.WF) :
    (run t ops).2 = (Spec.run s ops).2 ∧ Rel (run t ops).1 (Spec.run s ops).1 := by
  induction ops generalizing t s with
  | nil => exact ⟨rfl, r⟩
  | cons op ops ih =>
    obtain ⟨h1, h2⟩ := rel_step r op (h op (by simp))
    obtain ⟨h3, h4⟩ := ih h2 (fun o ho => h o (by simp [ho]))
    simp only [run, Spec.run]
    rw [h1, h3]
    exact ⟨rfl, h4⟩

end Sbc.Vars
