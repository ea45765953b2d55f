import Verif.Spec.Named
import Verif.Proof.Vars
import Verif.Proof.Arrays
set_option autoImplicit false
/-!
# The data memory refines named values and tables
-/
namespace Sbc.Named
open Sbc Sbc.Vars Sbc.Arrays Sbc.Named.Spec

/-- How the memory stands for the data. -/
structure Rel (d : Mem) (s : Spec.St) (m : List (Key × Val)) (ptrs : List Nat) (arrs : List Arrays.Spec.Arr) : Prop where
  vars : Vars.Rel d.vars ⟨s.cap, s.keep, m⟩
  pool : Arrays.Rel ⟨d.pool, ptrs⟩ ⟨s.size, s.used, arrs⟩
  keys : m.map Prod.fst = s.names
  scal : ∀ k v, isArr k.2 = false → m.lookup k = some v → s.val k = v
  bare : ∀ k v, isArr k.2 = true → m.lookup k = some v → s.arr k = none → v = .arr none
  stored : ∀ k v a, isArr k.2 = true → m.lookup k = some v → s.arr k = some a →
    ∃ (id p : Nat), v = .arr (some p) ∧ ptrs[id]? = some p ∧ arrs[id]? = some a
  inj : ∀ k k' p, isArr k.2 = true → isArr k'.2 = true → m.lookup k = some (.arr (some p)) → m.lookup k' = some (.arr (some p)) → k = k'
  fresh : ∀ k, k ∉ s.names → s.val k = Vars.Spec.fresh k.2 ∧ s.arr k = none

/-- The memory stands for the data. -/
def Stands (d : Mem) (s : Spec.St) : Prop := ∃ m ptrs arrs, Rel d s m ptrs arrs

theorem lookup_none_keys {m : List (Key × Val)} {k : Key} : m.lookup k = none ↔ k ∉ m.map Prod.fst := by
  rw [lookup_none_iff]
  simp

theorem lookup_append_new {m : List (Key × Val)} {k : Key} {v : Val} (h : m.lookup k = none) (j : Key) :
    (m ++ [(k, v)]).lookup j = if j = k then some v else m.lookup j := by
  rw [List.lookup_append]
  by_cases hj : j = k
  · subst hj; rw [h, if_pos rfl]; simp [List.lookup]
  · rw [if_neg hj]
    have : (j == k) = false := by simpa using hj
    cases m.lookup j <;> simp [List.lookup, this]

theorem lookup_update {m : List (Key × Val)} {k : Key} {v : Val} (j : Key) (h : k ∈ m.map Prod.fst) :
    (Vars.Spec.update m k v).lookup j = if j = k then some v else m.lookup j := by
  induction m with
  | nil => simp at h
  | cons e m ih =>
    obtain ⟨k', v'⟩ := e
    simp only [Vars.Spec.update, List.map_cons] at *
    by_cases hk : k' = k
    · subst hk
      rw [if_pos rfl]
      by_cases hj : j = k'
      · subst hj; simp [List.lookup]
      · have hb : (j == k') = false := by simpa using hj
        rw [if_neg hj]
        simp only [List.lookup, hb]
        by_cases hin : k' ∈ m.map Prod.fst
        · have := ih hin; rw [if_neg hj] at this; exact this
        · congr 1
          conv_rhs => rw [← List.map_id m]
          apply List.map_congr_left
          intro e he
          rw [if_neg]; rfl
          intro h'; apply hin; rw [← h']; exact List.mem_map_of_mem he
    · have hin : k ∈ m.map Prod.fst := by
        rcases List.mem_cons.1 h with h | h
        · exact absurd h.symm hk
        · exact h
      rw [if_neg hk]
      by_cases hj : j = k'
      · subst hj; rw [if_neg hk]; simp [List.lookup]
      · have hb : (j == k') = false := by simpa using hj
        simp only [List.lookup, hb]
        exact ih hin

theorem ptr_unique {c : Arrays.St} {s : Arrays.Spec.St} (r : Arrays.Rel c s) {i j p : Nat} (hi : c.ptrs[i]? = some p) (hj : c.ptrs[j]? = some p) :
    i = j := by
  have key : ∀ {i j : Nat}, i < j → c.ptrs[i]? = some p → c.ptrs[j]? = some p → False := by
    intro i j h hi hj
    have li : i < s.arrs.length := by rw [← r.len]; exact (List.getElem?_eq_some_iff.1 hi).1
    have lj : j < s.arrs.length := by rw [← r.len]; exact (List.getElem?_eq_some_iff.1 hj).1
    have := r.disj i j p p _ _ h hi hj (List.getElem?_eq_getElem li) (List.getElem?_eq_getElem lj)
    omega
  rcases Nat.lt_trichotomy i j with h | h | h
  · exact (key h hi hj).elim
  · exact h
  · exact (key h hj hi).elim

variable {e : Int} {d : Mem} {s : Spec.St} {m : List (Key × Val)} {ptrs : List Nat} {arrs : List Arrays.Spec.Arr}

/-- A new name. -/
theorem Rel.new (r : Named.Rel d s m ptrs arrs) {v : Table} {k : Key} (hk : m.lookup k = none)
    (hv : Vars.Rel v ⟨s.cap, s.keep, m ++ [(k, Vars.Spec.fresh k.2)]⟩) :
    Named.Rel { d with vars := v } { s with names := s.names ++ [k] } (m ++ [(k, Vars.Spec.fresh k.2)]) ptrs arrs := by
  have hnot : k ∉ s.names := by rw [← r.keys]; exact lookup_none_keys.1 hk
  obtain ⟨f1, f2⟩ := r.fresh k hnot
  refine ⟨hv, r.pool, by rw [List.map_append, r.keys]; rfl, ?_, ?_, ?_, ?_, ?_⟩
  · intro j x ha hl
    rw [lookup_append_new hk] at hl
    by_cases hj : j = k
    · subst hj; rw [if_pos rfl] at hl; injection hl with hl; rw [← hl]; exact f1
    · rw [if_neg hj] at hl; exact r.scal j x ha hl
  · intro j x ha hl hn
    rw [lookup_append_new hk] at hl
    by_cases hj : j = k
    · subst hj; rw [if_pos rfl] at hl; injection hl with hl; rw [← hl]
      obtain ⟨j1, j2⟩ := j
      cases j2 <;> simp [isArr] at ha <;> rfl
    · rw [if_neg hj] at hl; exact r.bare j x ha hl hn
  · intro j x a ha hl hs
    rw [lookup_append_new hk] at hl
    by_cases hj : j = k
    · subst hj; rw [show s.arr j = none from f2] at hs; cases hs
    · rw [if_neg hj] at hl; exact r.stored j x a ha hl hs
  · intro j j' p ha ha' h1 h2
    rw [lookup_append_new hk] at h1 h2
    have no : ∀ t : Key, isArr t.2 = true → some (Vars.Spec.fresh t.2) = some (Val.arr (some p)) → False := by
      intro t h; obtain ⟨t1, t2⟩ := t
      cases t2 <;> simp [isArr] at h <;> simp [Vars.Spec.fresh]
    by_cases hj : j = k
    · subst hj; rw [if_pos rfl] at h1; exact (no _ ha h1).elim
    · by_cases hj' : j' = k
      · subst hj'; rw [if_pos rfl] at h2; exact (no _ ha' h2).elim
      · rw [if_neg hj] at h1; rw [if_neg hj'] at h2; exact r.inj j j' p ha ha' h1 h2
  · intro j hj
    exact r.fresh j (fun h => hj (List.mem_append_left _ h))

/-- A name is used. -/
theorem touch_rel (r : Named.Rel d s m ptrs arrs) {n : List Nat} (hn : Names.GoodName n) (ty : Ty) :
    (touch s (n, ty) = none ∧ ∃ v, Vars.step d.vars (.read n ty) = (v, .err .outOfMemory) ∧ Named.Rel { d with vars := v } s m ptrs arrs) ∨
    (∃ s' v x m', touch s (n, ty) = some s' ∧ Vars.step d.vars (.read n ty) = (v, .ok x) ∧
      Named.Rel { d with vars := v } s' m' ptrs arrs ∧ m'.lookup (n, ty) = some x ∧ s'.arr = s.arr ∧ s'.val = s.val ∧ (n, ty) ∈ s'.names ∧
      s'.size = s.size ∧ s'.used = s.used) := by
  obtain ⟨h1, h2⟩ := Vars.rel_step r.vars (.read n ty) hn
  have hlen : s.names.length = m.length := by rw [← r.keys, List.length_map]
  generalize hs : Vars.step d.vars (.read n ty) = w at h1 h2
  obtain ⟨v, o⟩ := w
  cases hl : m.lookup (n, ty) with
  | some x =>
    simp only [Vars.Spec.step, hl] at h1 h2
    have hin : (n, ty) ∈ s.names := by
      rw [← r.keys]
      apply Classical.byContradiction
      intro hc; rw [lookup_none_keys.2 hc] at hl; cases hl
    refine .inr ⟨s, v, x, m, by rw [touch, if_pos hin], by rw [h1], ?_, hl, rfl, rfl, hin, rfl, rfl⟩
    exact ⟨h2, r.pool, r.keys, r.scal, r.bare, r.stored, r.inj, r.fresh⟩
  | none =>
    have hin : (n, ty) ∉ s.names := by rw [← r.keys]; exact lookup_none_keys.1 hl
    simp only [Vars.Spec.step, hl] at h1 h2
    by_cases hf : m.length = s.cap
    · rw [if_pos hf] at h1 h2
      refine .inl ⟨by rw [touch, if_neg hin, if_pos (by omega)], v, by rw [h1], ?_⟩
      exact ⟨h2, r.pool, r.keys, r.scal, r.bare, r.stored, r.inj, r.fresh⟩
    · rw [if_neg hf] at h1 h2
      refine .inr ⟨_, v, _, _, by rw [touch, if_neg hin, if_neg (by omega)], by rw [h1], r.new hl h2, ?_, rfl, rfl, by simp, rfl, rfl⟩
      rw [lookup_append_new hl, if_pos rfl]

/-- An assignment. -/
theorem set_rel (r : Named.Rel d s m ptrs arrs) {n : List Nat} (hn : Names.GoodName n) {ty : Ty} (hty : isArr ty = false) (x : Val) :
    (touch s (n, ty) = none ∧ ∃ v, Vars.step d.vars (.write n ty x) = (v, .err .outOfMemory) ∧ Named.Rel { d with vars := v } s m ptrs arrs) ∨
    (∃ s' v m', touch s (n, ty) = some s' ∧ Vars.step d.vars (.write n ty x) = (v, .ok x) ∧
      Named.Rel { d with vars := v } { s' with val := fun k => if k = (n, ty) then x else s'.val k } m' ptrs arrs) := by
  obtain ⟨h1, h2⟩ := Vars.rel_step r.vars (.write n ty x) hn
  have hlen : s.names.length = m.length := by rw [← r.keys, List.length_map]
  generalize hs : Vars.step d.vars (.write n ty x) = w at h1 h2
  obtain ⟨v, o⟩ := w
  have put : ∀ (m' : List (Key × Val)) (names : List Key), Vars.Rel v ⟨s.cap, s.keep, m'⟩ →
      (∀ j, m'.lookup j = if j = (n, ty) then some x else m.lookup j) → m'.map Prod.fst = names →
      (∀ j, j ∈ s.names → j ∈ names) → (n, ty) ∈ names →
      Named.Rel { d with vars := v } { s with names := names, val := fun k => if k = (n, ty) then x else s.val k } m' ptrs arrs := by
    intro m' names hv hl hk hsub hin
    have other : ∀ j : Key, isArr j.2 = true → m'.lookup j = m.lookup j := by
      intro j ha; rw [hl, if_neg]; intro hc; rw [hc] at ha; rw [hty] at ha; cases ha
    refine ⟨hv, r.pool, hk, ?_, ?_, ?_, ?_, ?_⟩
    · intro j y ha hy
      rw [hl] at hy
      show (if j = (n, ty) then x else s.val j) = y
      by_cases hj : j = (n, ty)
      · rw [if_pos hj] at hy ⊢; injection hy
      · rw [if_neg hj] at hy ⊢; exact r.scal j y ha hy
    · intro j y ha hy; rw [other j ha] at hy; exact r.bare j y ha hy
    · intro j y a ha hy; rw [other j ha] at hy; exact r.stored j y a ha hy
    · intro j j' p ha ha' h h'; rw [other j ha] at h; rw [other j' ha'] at h'; exact r.inj j j' p ha ha' h h'
    · intro j hj
      have hne : j ≠ (n, ty) := fun hc => hj (hc ▸ hin)
      show (if j = (n, ty) then x else s.val j) = _ ∧ _
      rw [if_neg hne]; exact r.fresh j (fun h => hj (hsub j h))
  cases hl : m.lookup (n, ty) with
  | some x0 =>
    simp only [Vars.Spec.step, hl] at h1 h2
    have hin : (n, ty) ∈ m.map Prod.fst := by
      apply Classical.byContradiction
      intro hc; rw [lookup_none_keys.2 hc] at hl; cases hl
    refine .inr ⟨s, v, Vars.Spec.update m (n, ty) x, by rw [touch, if_pos (r.keys ▸ hin)], by rw [h1], ?_⟩
    exact put _ s.names h2 (fun j => lookup_update j hin) (by rw [update_fst, r.keys]) (fun _ h => h) (r.keys ▸ hin)
  | none =>
    have hin : (n, ty) ∉ s.names := by rw [← r.keys]; exact lookup_none_keys.1 hl
    simp only [Vars.Spec.step, hl] at h1 h2
    by_cases hf : m.length = s.cap
    · rw [if_pos hf] at h1 h2
      refine .inl ⟨by rw [touch, if_neg hin, if_pos (by omega)], v, by rw [h1], ?_⟩
      exact ⟨h2, r.pool, r.keys, r.scal, r.bare, r.stored, r.inj, r.fresh⟩
    · rw [if_neg hf] at h1 h2
      refine .inr ⟨_, v, m ++ [((n, ty), x)], by rw [touch, if_neg hin, if_neg (by omega)], by rw [h1], ?_⟩
      exact put _ (s.names ++ [(n, ty)]) h2 (fun j => lookup_append_new hl j) (by rw [List.map_append, r.keys]; rfl)
        (fun j h => List.mem_append_left _ h) (by simp)

/-- The default elements of arrays. -/
theorem blank_eq (e : Int) {ty : Ty} (h : isArr ty = true) : dflt e ty = blank e ty := by
  cases ty <;> first | rfl | cases h

/-- An array gets its storage. -/
theorem Rel.create (r : Named.Rel d s m ptrs arrs) {k : Key} (hka : isArr k.2 = true) (hno : s.arr k = none) {s1 : Int} {s2 : Option Int}
    (hd : Arrays.Spec.DimOk s1 s2) (hf : Fits s s1 s2) :
    ∃ pool p, alloc d.pool (toU32 s1) (dim2 s2) (dflt e k.2) = (pool, .ok (some p)) ∧
      ∀ v m' names, Vars.Rel v ⟨s.cap, s.keep, m'⟩ → (∀ j, m'.lookup j = if j = k then some (.arr (some p)) else m.lookup j) →
        m'.map Prod.fst = names → (∀ j, j ∈ s.names → j ∈ names) → k ∈ names →
        Named.Rel ⟨v, pool⟩ (create e { s with names := names } k s1 s2) m' (ptrs ++ [p]) (arrs ++ [table e k.2 s1 s2]) := by
  rw [blank_eq e hka]
  obtain ⟨h1, h2⟩ := Arrays.rel_step r.pool (.dim s1 s2 (blank e k.2)) hd
  unfold Fits at hf
  simp only [Arrays.step, Arrays.Spec.step] at h1 h2
  rw [if_neg (by omega)] at h1 h2
  generalize ha : alloc d.pool (toU32 s1) (dim2 s2) (blank e k.2) = w at h1 h2 ⊢
  obtain ⟨pool, o⟩ := w
  cases o with
  | ub => cases h1
  | err er => cases h1
  | ok q =>
    cases q with
    | none => cases h1
    | some p =>
      refine ⟨pool, p, rfl, ?_⟩
      intro v m' names hv hl hk hsub hin
      dsimp only at h2
      have hlen := r.pool.len
      dsimp only at hlen
      have old : ∀ (id : Nat) (q : Nat), ptrs[id]? = some q → q ≠ p := by
        intro id q hq hc
        subst hc
        have l := (List.getElem?_eq_some_iff.1 hq).1
        have := ptr_unique h2 (i := id) (j := ptrs.length) (p := q) (by dsimp only; rw [List.getElem?_append_left l]; exact hq) (by simp)
        omega
      refine ⟨hv, h2, hk, ?_, ?_, ?_, ?_, ?_⟩
      · intro j y hj hy
        rw [hl, if_neg (by intro hc; rw [hc, hka] at hj; cases hj)] at hy
        exact r.scal j y hj hy
      · intro j y hj hy hn
        by_cases hjk : j = k
        · subst hjk; simp [Spec.create] at hn
        · rw [hl, if_neg hjk] at hy
          simp only [Spec.create, if_neg hjk] at hn
          exact r.bare j y hj hy hn
      · intro j y a hj hy hs
        by_cases hjk : j = k
        · subst hjk
          rw [hl, if_pos rfl] at hy; injection hy with hy
          simp only [Spec.create, if_pos] at hs
          injection hs with hs
          exact ⟨ptrs.length, p, hy.symm, by simp, by rw [hlen, ← hs]; simp⟩
        · rw [hl, if_neg hjk] at hy
          simp only [Spec.create, if_neg hjk] at hs
          obtain ⟨id, q, g1, g2, g3⟩ := r.stored j y a hj hy hs
          refine ⟨id, q, g1, ?_, ?_⟩
          · rw [List.getElem?_append_left (List.getElem?_eq_some_iff.1 g2).1]; exact g2
          · rw [List.getElem?_append_left (List.getElem?_eq_some_iff.1 g3).1]; exact g3
      · have isold : ∀ (j : Key) (q : Nat), isArr j.2 = true → m.lookup j = some (.arr (some q)) → q ≠ p := by
          intro j q hj hy
          cases hs : s.arr j with
          | none => have := r.bare j _ hj hy hs; cases this
          | some a =>
            obtain ⟨id, q', g1, g2, g3⟩ := r.stored j _ a hj hy hs
            cases g1
            exact old id q g2
        intro j j' q hj hj' h h'
        rw [hl] at h h'
        by_cases a1 : j = k
        · by_cases a2 : j' = k
          · rw [a1, a2]
          · rw [if_pos a1] at h; rw [if_neg a2] at h'; cases h
            exact (isold j' p hj' h' rfl).elim
        · by_cases a2 : j' = k
          · rw [if_neg a1] at h; rw [if_pos a2] at h'; cases h'
            exact (isold j p hj h rfl).elim
          · rw [if_neg a1] at h; rw [if_neg a2] at h'; exact r.inj j j' q hj hj' h h'
      · intro j hj
        have hne : j ≠ k := fun hc => hj (hc ▸ hin)
        simp only [Spec.create, if_neg hne]
        exact r.fresh j (fun h => hj (hsub j h))

/-- An element changes. -/
theorem Rel.change (r : Named.Rel d s m ptrs arrs) {k : Key} (hka : isArr k.2 = true) {id p : Nat} {a : Arrays.Spec.Arr}
    (hl : m.lookup k = some (.arr (some p))) (hs : s.arr k = some a) (hp : ptrs[id]? = some p) (ha : arrs[id]? = some a)
    {pool : Pool} {x y w : Int}
    (h : Arrays.Rel ⟨pool, ptrs⟩ ⟨s.size, s.used, arrs.set id (Spec.change a x y w)⟩) :
    Named.Rel { d with pool := pool } { s with arr := fun j => if j = k then some (Spec.change a x y w) else s.arr j } m ptrs
      (arrs.set id (Spec.change a x y w)) := by
  have lid : id < arrs.length := (List.getElem?_eq_some_iff.1 ha).1
  have hin : k ∈ s.names := by
    rw [← r.keys]
    apply Classical.byContradiction
    intro hc; rw [lookup_none_keys.2 hc] at hl; cases hl
  refine ⟨r.vars, h, r.keys, r.scal, ?_, ?_, r.inj, ?_⟩
  · intro j v hj hv hn
    by_cases hjk : j = k
    · simp [hjk] at hn
    · simp only [if_neg hjk] at hn; exact r.bare j v hj hv hn
  · intro j v b hj hv hb
    by_cases hjk : j = k
    · subst hjk
      simp only [if_pos] at hb; injection hb with hb
      rw [hl] at hv; injection hv with hv
      exact ⟨id, p, hv.symm, hp, by rw [List.getElem?_set_self lid, hb]⟩
    · simp only [if_neg hjk] at hb
      obtain ⟨id', q, g1, g2, g3⟩ := r.stored j v b hj hv hb
      have hne : id ≠ id' := by
        intro hc; subst hc
        rw [hp] at g2; injection g2 with g2
        rw [g1, ← g2] at hv
        exact hjk (r.inj j k p hj hka hv hl)
      exact ⟨id', q, g1, g2, by rw [List.getElem?_set_ne hne]; exact g3⟩
  · intro j hj
    have hne : j ≠ k := fun hc => hj (hc ▸ hin)
    simp only [if_neg hne]
    exact r.fresh j hj

theorem dim2_ten {ix : Int} {iy : Option Int} {a : Arrays.Spec.Arr} (h : Arrays.Spec.SubOk a ix iy) :
    (if dim2 iy = unused then unused else 10) = dim2 (ten iy) := by
  cases iy with
  | none => rfl
  | some y =>
    obtain ⟨_, _, h1, h2, h3, _⟩ := h
    have : dim2 (some y) ≠ unused := by
      show (y % 4294967296).toNat ≠ 4294967295
      omega
    rw [if_neg this]; rfl

theorem dimOk_ten (iy : Option Int) : Arrays.Spec.DimOk 10 (ten iy) := by
  cases iy <;> simp [Arrays.Spec.DimOk, ten]

/-- The word of an element is found. -/
theorem locate_rel (r : Named.Rel d s m ptrs arrs) {n : List Nat} (hn : Names.GoodName n) {ty : Ty} (hty : isArr ty = true) {ix : Int} {iy : Option Int}
    (hsub : Arrays.Spec.SubOk ((s.arr (n, ty)).getD (table e ty 10 (ten iy))) ix iy) :
    (∃ er d' s', array e s (n, ty) iy = (s', .error er) ∧ locate e d n ty ix iy = (d', .err er) ∧ Stands d' s') ∨
    (∃ d' s' a m' ptrs' arrs', array e s (n, ty) iy = (s', .ok a) ∧ Named.Rel d' s' m' ptrs' arrs' ∧ s'.arr (n, ty) = some a ∧
      Arrays.Spec.SubOk a ix iy ∧
      ∃ (id p : Nat), m'.lookup (n, ty) = some (.arr (some p)) ∧ ptrs'[id]? = some p ∧ arrs'[id]? = some a ∧
        locate e d n ty ix iy = (d', entryChecked d'.pool p (toU32 ix) (dim2 iy))) := by
  rcases touch_rel r hn ty with ⟨h1, v, h2, h3⟩ | ⟨s', v, x, m', h1, h2, h3, h4, h5, h6, h7, h8, h9⟩
  · refine .inl ⟨_, _, s, by rw [array, h1], by rw [locate, h2], _, _, _, h3⟩
  · cases hs : s'.arr (n, ty) with
    | some a =>
      obtain ⟨id, p, g1, g2, g3⟩ := h3.stored (n, ty) x a hty h4 hs
      subst g1
      refine .inr ⟨_, s', a, m', ptrs, arrs, by rw [array, h1]; dsimp only; rw [hs], h3, hs, ?_, id, p, h4, g2, g3, ?_⟩
      · rw [← h5, hs] at hsub; exact hsub
      · rw [locate, h2]; dsimp only [access]; rw [if_pos rfl]
    | none =>
      have hx := h3.bare (n, ty) x hty h4 hs
      subst hx
      have hs0 : s.arr (n, ty) = none := by rw [← h5]; exact hs
      rw [hs0] at hsub
      have h10 : (10 : Nat) = toU32 10 := by decide
      by_cases hf : Fits s' 10 (ten iy)
      · obtain ⟨pool, p, c1, c2⟩ := Rel.create (e := e) h3 (k := (n, ty)) hty hs (dimOk_ten iy) hf
        dsimp only at c1
        have hin : (n, ty) ∈ m'.map Prod.fst := by rw [h3.keys]; exact h7
        obtain ⟨w1, w2⟩ := Vars.rel_step h3.vars (.write n ty (.arr (some p))) hn
        simp only [Vars.Spec.step, h4] at w1 w2
        have rel := c2 _ _ s'.names w2 (fun j => lookup_update j hin) (by rw [update_fst, h3.keys]) (fun _ h => h) h7
        have hlen := h3.pool.len
        dsimp only at hlen
        refine .inr ⟨_, create e s' (n, ty) 10 (ten iy), table e ty 10 (ten iy), _, _, _, by rw [array, h1]; dsimp only; rw [hs]; dsimp only; rw [if_pos hf], rel, by simp [Spec.create], hsub,
          ptrs.length, p, by rw [lookup_update _ hin, if_pos rfl], by simp, by rw [hlen]; simp, ?_⟩
        rw [locate, h2]; dsimp only [access]
        rw [dim2_ten hsub, h10, c1]; dsimp only
        rw [if_neg (by simp)]
      · refine .inl ⟨.outOfMemory, { d with vars := v }, s', by rw [array, h1]; dsimp only; rw [hs]; dsimp only; rw [if_neg hf], ?_, _, _, _, h3⟩
        have := alloc_spec (dimOk_ten iy) (dflt e ty) h3.pool.next (by rw [h3.pool.size]; exact h3.pool.small)
        have hu := h3.pool.used; have hsz := h3.pool.size
        dsimp only at this hu hsz
        unfold Fits at hf
        rw [if_pos (by omega)] at this
        rw [locate, h2]; dsimp only [access]
        rw [dim2_ten hsub, h10, this]; dsimp only
        rw [if_pos rfl]

/-- One operation. -/
theorem stands_step (h : Stands d s) (op : Op) (hop : Allows e s op) :
    (step e d op).2 = (Spec.step e s op).2 ∧ Stands (step e d op).1 (Spec.step e s op).1 := by
  obtain ⟨m, ptrs, arrs, r⟩ := h
  cases op with
  | get n ty =>
    obtain ⟨hn, hty⟩ := hop
    simp only [step, Spec.step]
    rcases touch_rel r hn ty with ⟨h1, v, h2, h3⟩ | ⟨s', v, x, m', h1, h2, h3, h4, h5, h6, h7, h8, h9⟩
    · rw [h1, h2]; exact ⟨rfl, _, _, _, h3⟩
    · rw [h1, h2]; dsimp only [ofVar]
      exact ⟨by rw [h3.scal _ _ hty h4], _, _, _, h3⟩
  | set n ty x =>
    obtain ⟨hn, hty⟩ := hop
    simp only [step, Spec.step]
    rcases set_rel r hn hty x with ⟨h1, v, h2, h3⟩ | ⟨s', v, m', h1, h2, h3⟩
    · rw [h1, h2]; exact ⟨rfl, _, _, _, h3⟩
    · rw [h1, h2]; exact ⟨rfl, _, _, _, h3⟩
  | dim n ty s1 s2 =>
    obtain ⟨hn, hty, hd, hf⟩ := hop
    have hwf : ∀ p, (Vars.Op.dim n ty p).WF := by
      intro p; refine ⟨hn, ?_⟩
      cases ty <;> simp [isArr] at hty <;> simp
    have hlen : s.names.length = m.length := by rw [← r.keys, List.length_map]
    simp only [step, Spec.step]
    obtain ⟨n1, n2⟩ := Vars.rel_step r.vars _ (hwf none)
    have same : ∀ v : Table, Vars.Rel v ⟨s.cap, s.keep, m⟩ → Stands { d with vars := v } s :=
      fun v hv => ⟨m, ptrs, arrs, hv, r.pool, r.keys, r.scal, r.bare, r.stored, r.inj, r.fresh⟩
    cases hl : m.lookup (n, ty) with
    | some x =>
      have hin : (n, ty) ∈ m.map Prod.fst := by
        apply Classical.byContradiction
        intro hc; rw [lookup_none_keys.2 hc] at hl; cases hl
      have hin' : (n, ty) ∈ s.names := by rw [← r.keys]; exact hin
      simp only [Vars.Spec.step, hl] at n1 n2
      by_cases hk : s.keep = true ∧ (s.arr (n, ty)).isNone = true
      · have hno : s.arr (n, ty) = none := by simpa using hk.2
        have hx := r.bare (n, ty) x hty hl hno
        rw [if_pos ⟨hk.1, hx⟩] at n1
        rw [if_neg (fun hc => hc.2 hk), touch, if_pos hin']
        obtain ⟨pool, p, c1, c2⟩ := Rel.create (e := e) r (k := (n, ty)) hty hno hd hf
        dsimp only at c1
        generalize hv : Vars.step d.vars (.dim n ty none) = w at n1
        obtain ⟨v, o⟩ := w
        dsimp only at n1; rw [n1]; dsimp only
        rw [c1]; dsimp only
        obtain ⟨w1, w2⟩ := Vars.rel_step r.vars _ (hwf (some p))
        simp only [Vars.Spec.step, hl] at w1 w2
        rw [if_pos ⟨hk.1, hx⟩] at w2
        exact ⟨rfl, _, _, _, c2 _ _ s.names w2 (fun j => lookup_update j hin) (by rw [update_fst, r.keys]) (fun _ h => h) hin'⟩
      · have hx : ¬ (s.keep = true ∧ x = .arr none) := by
          rintro ⟨a1, a2⟩
          apply hk; refine ⟨a1, ?_⟩
          cases hs : s.arr (n, ty) with
          | none => rfl
          | some a =>
            obtain ⟨id, p, g1, _⟩ := r.stored (n, ty) x a hty hl hs
            rw [a2] at g1; cases g1
        rw [if_neg hx] at n1 n2
        rw [if_pos ⟨hin', hk⟩]
        generalize hv : Vars.step d.vars (.dim n ty none) = w at n1 n2
        obtain ⟨v, o⟩ := w
        dsimp only at n1; rw [n1]
        exact ⟨rfl, same v n2⟩
    | none =>
      have hin : (n, ty) ∉ s.names := by rw [← r.keys]; exact lookup_none_keys.1 hl
      simp only [Vars.Spec.step, hl] at n1 n2
      rw [if_neg (fun hc => hin hc.1), touch, if_neg hin]
      by_cases hfull : m.length = s.cap
      · rw [if_pos hfull] at n1 n2
        rw [if_pos (show s.names.length = s.cap by omega)]
        generalize hv : Vars.step d.vars (.dim n ty none) = w at n1 n2
        obtain ⟨v, o⟩ := w
        dsimp only at n1; rw [n1]
        exact ⟨rfl, same v n2⟩
      · rw [if_neg hfull] at n1
        rw [if_neg (show ¬ s.names.length = s.cap by omega)]
        obtain ⟨pool, p, c1, c2⟩ := Rel.create (e := e) r (k := (n, ty)) hty (r.fresh _ hin).2 hd hf
        dsimp only at c1
        generalize hv : Vars.step d.vars (.dim n ty none) = w at n1
        obtain ⟨v, o⟩ := w
        dsimp only at n1; rw [n1]; dsimp only
        rw [c1]; dsimp only
        obtain ⟨w1, w2⟩ := Vars.rel_step r.vars _ (hwf (some p))
        simp only [Vars.Spec.step, hl] at w1 w2
        rw [if_neg hfull] at w2
        exact ⟨rfl, _, _, _, c2 _ _ (s.names ++ [(n, ty)]) w2 (fun j => lookup_append_new hl j) (by rw [List.map_append, r.keys]; rfl)
          (fun j h => List.mem_append_left _ h) (by simp)⟩
  | elem n ty ix iy =>
    obtain ⟨hn, hty, hsub⟩ := hop
    simp only [step, Spec.step]
    rcases locate_rel r hn hty hsub with ⟨er, d', s', h1, h2, h3⟩ | ⟨d', s', a, m', ptrs', arrs', h1, h2, h3, h4, id, p, g1, g2, g3, g4⟩
    · rw [h1, h2]; exact ⟨rfl, h3⟩
    · rw [h1, g4]; dsimp only
      have b := (h2.pool.block id p a g2 g3).cells
      rcases entryChecked_spec h2.pool g2 g3 h4 with ⟨x, y, l1, l2, l3, l4⟩ | ⟨er, l1, l2⟩
      · dsimp only at l3 b
        rw [l1, l3]; dsimp only
        exact ⟨by rw [b x y l2], _, _, _, h2⟩
      · dsimp only at l2
        rw [l1, l2]; exact ⟨rfl, _, _, _, h2⟩
  | setElem n ty ix iy w =>
    obtain ⟨hn, hty, hsub⟩ := hop
    simp only [step, Spec.step]
    rcases locate_rel r hn hty hsub with ⟨er, d', s', h1, h2, h3⟩ | ⟨d', s', a, m', ptrs', arrs', h1, h2, h3, h4, id, p, g1, g2, g3, g4⟩
    · rw [h1, h2]; exact ⟨rfl, h3⟩
    · rw [h1, g4]; dsimp only
      obtain ⟨w1, w2⟩ := Arrays.rel_step h2.pool (.write id ix iy w) ⟨a, g3, h4⟩
      simp only [Arrays.step, Arrays.Spec.step, g2, g3] at w1 w2
      rcases entryChecked_spec h2.pool g2 g3 h4 with ⟨x, y, l1, l2, l3, l4⟩ | ⟨er, l1, l2⟩
      · dsimp only at l3
        rw [l1, l3] at w2; dsimp only at w2
        rw [l1, l3]; dsimp only
        exact ⟨rfl, _, _, _, h2.change hty g1 h3 g2 g3 w2⟩
      · dsimp only at l2
        rw [l1, l2]; exact ⟨rfl, _, _, _, h2⟩
  | clear =>
    obtain ⟨w1, w2⟩ := Vars.rel_step r.vars .clear trivial
    simp only [step, Spec.step]
    refine ⟨trivial, ?_⟩
    have pool : Arrays.Rel ⟨resetArr d.pool, []⟩ ⟨s.size, 0, []⟩ := by
      have q := r.pool
      exact ⟨q.size, rfl, q.small, Nat.zero_le _, rfl, fun id p a hp => by simp at hp, fun i j p q a b _ hp => by simp at hp⟩
    have hres : Vars.step d.vars .clear = (Vars.reset d.vars, .ok (.num 0)) := rfl
    rw [hres] at w2
    cases hk : s.keep with
    | true =>
      simp only [Vars.Spec.step, hk, if_true] at w2
      have hl : ∀ j x, (m.map fun e => (e.1, Vars.Spec.fresh e.1.2)).lookup j = some x → x = Vars.Spec.fresh j.2 := by
        intro j x h
        have := (lookup_some_iff (m := m.map fun e => (e.1, Vars.Spec.fresh e.1.2)) w2.nodup).1 h
        obtain ⟨e, _, he⟩ := List.mem_map.1 this
        cases he; rfl
      have arrF : ∀ j : Key, isArr j.2 = true → Vars.Spec.fresh j.2 = .arr none := by
        intro j h; obtain ⟨j1, j2⟩ := j; cases j2 <;> simp [isArr] at h <;> rfl
      refine ⟨_, [], [], w2, pool, ?_, ?_, ?_, ?_, ?_, ?_⟩
      · rw [List.map_map]; exact r.keys
      · intro j x _ h; rw [hl j x h]; rfl
      · intro j x ha h _; rw [hl j x h]; exact arrF j ha
      · intro j x a ha h hs; cases hs
      · intro j j' p ha _ h; have := hl j _ h; rw [arrF j ha] at this; cases this
      · intro j _; exact ⟨rfl, rfl⟩
    | false =>
      simp only [Vars.Spec.step, hk] at w2
      refine ⟨_, [], [], w2, pool, rfl, ?_, ?_, ?_, ?_, ?_⟩
      · intro j x _ h; cases h
      · intro j x ha h; cases h
      · intro j x a ha h; cases h
      · intro j j' p ha _ h; cases h
      · intro j _; exact ⟨rfl, rfl⟩

theorem stands_init (n size : Nat) (h : size ≤ 2147483648) (keep : Bool) : Stands (init n size keep) (Spec.init (2 ^ n) size keep) := by
  refine ⟨[], [], [], ?_, Arrays.rel_init h, rfl, ?_, ?_, ?_, ?_, fun j _ => ⟨rfl, rfl⟩⟩
  · exact Vars.rel_init n keep
  · intro j x _ h; cases h
  · intro j x ha h; cases h
  · intro j x a ha h; cases h
  · intro j j' p ha _ h; cases h

theorem stands_run {d : Mem} {s : Spec.St} (h : Stands d s) (ops : List Op) (hv : Valid e s ops) :
    (run e d ops).2 = (Spec.run e s ops).2 ∧ Stands (run e d ops).1 (Spec.run e s ops).1 := by
  induction ops generalizing d s with
  | nil => exact ⟨rfl, h⟩
  | cons op ops ih =>
    obtain ⟨h1, h2⟩ := stands_step h op hv.1
    obtain ⟨h3, h4⟩ := ih h2 hv.2
    simp only [run, Spec.run]
    rw [h1, h3]
    exact ⟨rfl, h4⟩

end Sbc.Named
