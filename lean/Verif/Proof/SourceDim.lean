import Verif.Proof.SourceBase
set_option autoImplicit false
/-!
# Arrays of source programs in the machine: DIM and assignments to elements
-/
namespace Sbc.Source
open Sbc Sbc.Tok Sbc.Tok.Spec Sbc.Machine

variable {σ : Type} {env : Env σ}

/-! ## Assigning -/

/-- An array that does not overlap the words that have changed. -/
theorem Laid.other {c c' : Core σ} {p : Nat} {g : Grid} (h : Laid c p g) {f t : Nat} (hm : ∀ w, w < f ∨ t ≤ w → c'.mem (.elem w) = c.mem (.elem w))
    (ht : ∀ w, w < f ∨ t ≤ w → c'.smem (.elem w) = c.smem (.elem w)) (hn : c.arrNext ≤ c'.arrNext) (hx : c'.arrMax = c.arrMax)
    (hn2 : c'.arrNext < c'.arrMax) (hd : p + 2 + g.size ≤ f ∨ t ≤ p) : Laid c' p g := by
  refine ⟨h.dims, by have := h.fits; omega, ⟨hn2, by rw [hx]; exact h.top.2⟩, ?_, ?_, ?_, ?_⟩
  · rw [hm _ (by omega)]; exact h.first
  · rw [hm _ (by omega)]; exact h.second
  · intro x y hi
    have := Grid.ofs_lt hi
    rw [hm _ (by omega)]; exact h.num x y hi
  · intro x y hi
    have := Grid.ofs_lt hi
    rw [ht _ (by omega)]; exact h.str x y hi

/-- Changing an array in place. -/
theorem Holds.put {U : List (List Nat)} {st : Store} {c c' : Core σ} (h : Holds U st c) {w n : List Nat} {isStr : Bool} {g g' : Grid} {i p : Nat}
    (hw : IsName w n isStr) (ha : Array' st c w n isStr g i p) (hv : c'.vars = c.vars) (hms : ∀ i, c'.mem (.slot i) = c.mem (.slot i))
    (hts : ∀ i, c'.smem (.slot i) = c.smem (.slot i)) (hm : ∀ w, w < p + 2 ∨ p + 2 + g.size ≤ w → c'.mem (.elem w) = c.mem (.elem w))
    (ht : ∀ w, w < p + 2 ∨ p + 2 + g.size ≤ w → c'.smem (.elem w) = c.smem (.elem w)) (hn : c'.arrNext = c.arrNext) (hx : c'.arrMax = c.arrMax)
    (he : c'.varsErr = c.varsErr) (hsize : g'.size = g.size) (hl : Laid c' p g') : Holds U (st.setGrid w g') c' := by
  obtain ⟨s, hr, hroom⟩ := h.table
  have hname : ∀ k n' s', k < c.vars.max → Vars.HasKey c.vars k (n', tyOf s' true) → k ≠ i → wname n' s' ≠ w := by
    intro k n' s' hk hkk hne e
    rw [hw.eq] at e
    have heq : n' = n ∧ s' = isStr := by
      cases s' <;> cases isStr
      · exact ⟨e, rfl⟩
      · exact absurd (show n'.getLast? = some 36 by rw [show n' = n ++ [36] from e]; simp) (h.stored.plain n' k hk hkk)
      · exact absurd (show n.getLast? = some 36 by rw [show n = n' ++ [36] from e.symm]; simp) (hw.plain rfl)
      · exact ⟨List.append_cancel_right (show n' ++ [36] = n ++ [36] from e), rfl⟩
    obtain ⟨rfl, rfl⟩ := heq
    exact hne (Vars.hasKey_unique hr.inv hk ha.lt hkk ha.key)
  have hself : ∀ n' s', Vars.HasKey c.vars i (n', tyOf s' true) → wname n' s' = w := by
    intro n' s' hk
    have h1 : n' = n := hk.2.symm.trans ha.key.2
    have h2 : s' = isStr := by
      have := hk.1.symm.trans ha.key.1
      cases s' <;> cases isStr <;> first | rfl | cases this
    rw [hw.eq, h1, h2]
  have hget : ∀ x, x ≠ w → (st.setGrid w g').grid x = st.grid x := fun x hx => if_neg hx
  have hget' : (st.setGrid w g').grid w = some g' := if_pos rfl
  refine ⟨⟨s, by rw [hv]; exact hr, hroom⟩, ?_, ?_, by rw [hv]; exact h.zero, by rw [hv]; exact h.empty, ⟨?_, by rw [hv]; exact h.stored.plain, ?_, ?_, ?_⟩⟩
  · rw [hv]; intro n' k hk hkk; rw [hms]; exact h.value n' k hk hkk
  · rw [hv]; intro n' k hk hkk; rw [hts]; exact h.text n' k hk hkk
  · rw [hv]
    intro n' s' k hk hkk
    by_cases hki : k = i
    · subst hki
      rw [hself n' s' hkk]
      exact ⟨g', p, hget', ha.val, hl⟩
    · obtain ⟨g1, p1, h1, h2, h3⟩ := h.stored.arr n' s' k hk hkk
      refine ⟨g1, p1, by rw [hget _ (hname k n' s' hk hkk hki)]; exact h1, h2, ?_⟩
      have hd := h.stored.apart n' s' k n isStr i g1 g p1 p hk ha.lt hki hkk ha.key h1 (by rw [← hw.eq]; exact ha.grid) h2 ha.val
      refine h3.other (f := p + 2) (t := p + 2 + g.size) hm ht (by rw [hn]) hx (by rw [hn, hx]; exact h3.top.1) ?_
      omega
  · rw [hv]
    intro n' s' hn' hp habs
    have hne : wname n' s' ≠ w := by
      intro e
      rw [hw.eq] at e
      have heq : n' = n ∧ s' = isStr := by
        cases s' <;> cases isStr
        · exact ⟨e, rfl⟩
        · exact absurd (show n'.getLast? = some 36 by rw [show n' = n ++ [36] from e]; simp) (hp rfl)
        · exact absurd (show n.getLast? = some 36 by rw [show n = n' ++ [36] from e.symm]; simp) (hw.plain rfl)
        · exact ⟨List.append_cancel_right (show n' ++ [36] = n ++ [36] from e), rfl⟩
      obtain ⟨rfl, rfl⟩ := heq
      exact habs i ha.lt ha.key
    rw [hget _ hne]
    exact h.stored.absent n' s' hn' hp habs
  · rw [hv]
    intro n1 s1 k1 n2 s2 k2 g1 g2 p1 p2 hk1 hk2 hne hkk1 hkk2 hg1 hg2 hv1 hv2
    have lift : ∀ k n' s' g1, k < c.vars.max → Vars.HasKey c.vars k (n', tyOf s' true) → (st.setGrid w g').grid (wname n' s') = some g1 →
        ∃ g0, st.grid (wname n' s') = some g0 ∧ g0.size = g1.size := by
      intro k n' s' g1 hk hkk hg1
      by_cases hki : k = i
      · subst hki
        rw [hself n' s' hkk] at hg1 ⊢
        rw [hget'] at hg1
        cases hg1
        exact ⟨g, ha.grid, hsize.symm⟩
      · rw [hget _ (hname k n' s' hk hkk hki)] at hg1
        exact ⟨g1, hg1, rfl⟩
    obtain ⟨a1, e1, z1⟩ := lift k1 n1 s1 g1 hk1 hkk1 hg1
    obtain ⟨a2, e2, z2⟩ := lift k2 n2 s2 g2 hk2 hkk2 hg2
    rw [← z1, ← z2]
    exact h.stored.apart n1 s1 k1 n2 s2 k2 a1 a2 p1 p2 hk1 hk2 hne hkk1 hkk2 e1 e2 hv1 hv2
  · rw [hn, hx, he]; exact h.stored.room

/-- Assigning a number to an element. -/
theorem Holds.putNum {U : List (List Nat)} {st : Store} {c : Core σ} (h : Holds U st c) {w n : List Nat} {g : Grid} {i p : Nat}
    (hw : IsName w n false) (ha : Array' st c w n false g i p) {x y : Nat} (hin : g.In x y) (v : Int) :
    Holds U (st.setGrid w (g.set x y v)) (c.store (.elem (p + 2 + (x + y * g.d1))) v) := by
  have hlt := Grid.ofs_lt hin
  have hm : ∀ k, k < p + 2 ∨ p + 2 + g.size ≤ k → (c.store (.elem (p + 2 + (x + y * g.d1))) v).mem (.elem k) = c.mem (.elem k) := by
    intro k hk
    refine if_neg ?_
    intro e; cases e; omega
  refine h.put hw ha rfl (fun _ => rfl) (fun _ => rfl) hm (fun _ _ => rfl) rfl rfl rfl rfl ?_
  refine ⟨ha.laid.dims, ha.laid.fits, ha.laid.top, (hm _ (by omega)).trans ha.laid.first, (hm _ (by omega)).trans ha.laid.second, ?_, ha.laid.str⟩
  intro x' y' hi'
  show (if (Ptr.elem (p + 2 + (x' + y' * g.d1))) = .elem (p + 2 + (x + y * g.d1)) then v else c.mem _) = if x' = x ∧ y' = y then v else g.num x' y'
  by_cases he : x' = x ∧ y' = y
  · obtain ⟨rfl, rfl⟩ := he
    rw [if_pos rfl, if_pos ⟨rfl, rfl⟩]
  · rw [if_neg he, if_neg]
    · exact ha.laid.num x' y' hi'
    · intro e
      have e := Ptr.elem.inj e
      exact he (Grid.ofs_inj (g := g) hi' hin (by omega))

/-- Assigning a string to an element. -/
theorem Holds.putStr {U : List (List Nat)} {st : Store} {c : Core σ} (h : Holds U st c) {w n : List Nat} {g : Grid} {i p : Nat}
    (hw : IsName w n true) (ha : Array' st c w n true g i p) {x y : Nat} (hin : g.In x y) (v : List Nat) :
    Holds U (st.setGrid w (g.setStr x y v)) (c.storeStr (.elem (p + 2 + (x + y * g.d1))) v) := by
  have hlt := Grid.ofs_lt hin
  have hm : ∀ k, k < p + 2 ∨ p + 2 + g.size ≤ k → (c.storeStr (.elem (p + 2 + (x + y * g.d1))) v).smem (.elem k) = c.smem (.elem k) := by
    intro k hk
    refine if_neg ?_
    intro e; cases e; omega
  refine h.put hw ha rfl (fun _ => rfl) (fun _ => rfl) (fun _ _ => rfl) hm rfl rfl rfl rfl ?_
  refine ⟨ha.laid.dims, ha.laid.fits, ha.laid.top, ha.laid.first, ha.laid.second, ha.laid.num, ?_⟩
  intro x' y' hi'
  show (if (Ptr.elem (p + 2 + (x' + y' * g.d1))) = .elem (p + 2 + (x + y * g.d1)) then v else c.smem _) = if x' = x ∧ y' = y then v else g.str x' y'
  by_cases he : x' = x ∧ y' = y
  · obtain ⟨rfl, rfl⟩ := he
    rw [if_pos rfl, if_pos ⟨rfl, rfl⟩]
  · rw [if_neg he, if_neg]
    · exact ha.laid.str x' y' hi'
    · intro e
      have e := Ptr.elem.inj e
      exact he (Grid.ofs_inj (g := g) hi' hin (by omega))

/-! ## New arrays -/

/-- A new array. -/
theorem dim_new {U : List (List Nat)} {st : Store} {c : Core σ} (h : Holds U st c) {w n : List Nat} {isStr : Bool} (hw : IsName w n isStr)
    (hU : w ++ [0] ∈ U) (hg : st.grid w = none) {x : Int} {y : Option Int} {g : Grid} (hgr : g = Grid.new x.toNat (y.map Int.toNat))
    (hx : 0 ≤ x ∧ IntPart x ∧ (∀ d ∈ y, 1 ≤ d ∧ IntPart d) ∧ g.size + 2 ≤ st.room) (herr : c.error = 0) :
    ∃ c' v, c.newArr (Arrays.toU32 x) (Arrays.dim2 y) = (c', .ok (some c.arrNext)) ∧
      (∃ i, Vars.getNewArrVar c.vars n (tyOf isStr true) (some c.arrNext) = (v, .ok i)) ∧
      Holds U { st.setGrid w g with room := st.room - (g.size + 2) } { c' with vars := v, error := c'.varsErr } ∧
      Keeps c { c' with vars := v } ∧ c'.stack = c.stack ∧ c'.ext = c.ext ∧ c'.varsErr = 0 := by
  obtain ⟨s, hr, hroom⟩ := h.table
  obtain ⟨hx0, hxi, hy, hsz⟩ := hx
  have hst := h.stored.room
  have hr0 : st.room ≠ 0 := by omega
  obtain ⟨hverr, hfits, hmax⟩ := hst.resolve_left hr0
  have hlen : ¬ n.length > 16 := by have := hw.good.2.1; omega
  have hd1 : (g.d1 : Int) = x := by rw [hgr]; show ((x.toNat : Nat) : Int) = x; omega
  have hd2 : g.d2 = y.map Int.toNat := by rw [hgr]; rfl
  have hcount : Arrays.Spec.count x y = (g.size : Int) := by
    unfold Grid.size
    rw [hd2]
    cases y with
    | none => show x = _; simp [hd1]
    | some y =>
      have := (hy y rfl).1
      show x * y = ((g.d1 * y.toNat : Nat) : Int)
      rw [Int.natCast_mul, hd1, Int.toNat_of_nonneg (by omega)]
  have hok : Arrays.Spec.DimOk x y := by
    refine ⟨hx0, hxi.2, ?_⟩
    cases y with
    | none => trivial
    | some y =>
      have := (hy y rfl)
      refine ⟨this.1, this.2.2, ?_⟩
      show Arrays.Spec.count x (some y) < _
      rw [hcount]; omega
  have hal : Arrays.alloc c.pool (Arrays.toU32 x) (Arrays.dim2 y) 0 = _ :=
    Arrays.alloc_spec hok 0 (show c.arrNext ≤ c.arrMax by omega) (show c.arrMax ≤ 2147483648 by omega)
  rw [if_neg (by rw [hcount]; show ¬ ((c.arrNext : Int) + g.size + 2 ≥ c.arrMax); omega), hcount, Int.toNat_natCast] at hal
  have habs : ∀ i < c.vars.max, ¬ Vars.HasKey c.vars i (n, tyOf isStr true) := by
    intro i hi hk
    obtain ⟨g', p, h1, _⟩ := h.stored.arr n isStr i hi hk
    rw [← hw.eq, hg] at h1; cases h1
  cases hs : Vars.search c.vars n (tyOf isStr true) with
  | none =>
    exfalso
    have hfull := Vars.search_none hr.inv hw.good hs
    have h1 : s.m.length = s.cap := by
      rw [hr.perm.length_eq, hr.cap]
      exact Vars.content_length_full _ fun i hi => (hfull i hi).1
    have h2 : (s.m.lookup (keyOf (w ++ [0]))).isNone = true := by
      rw [hw.key]
      cases hl : s.m.lookup (n, tyOf isStr true) with
      | none => rfl
      | some v =>
        obtain ⟨i, hi, hk, _⟩ := hr.lookup.mp hl
        exact absurd hk (hfull i hi).2
    have h3 : 1 ≤ missing s U := by
      unfold missing
      exact List.length_pos_of_mem (List.mem_filter.mpr ⟨hU, h2⟩)
    omega
  | some i =>
    obtain ⟨j, hj, hij, hor, _⟩ := Vars.search_some hr.inv hw.good hs
    have hi : i < c.vars.max := hij ▸ Vars.kpos_lt hr.inv _ _
    have he : (c.vars.slots i).ty = none := hor.resolve_right (habs i hi)
    obtain ⟨hl0, _, hrel⟩ := Vars.rel_insert hr hw.good hs he (.arr (some c.arrNext))
    have hget : Vars.getNewArrVar c.vars n (tyOf isStr true) (some c.arrNext) = ({ Vars.setSlot c.vars i { ty := some (tyOf isStr true), name := Names.storeName n (c.vars.slots i).name, val := .arr (some c.arrNext) } with
        count := c.vars.count + 1 }, .ok i) := by
      unfold Vars.getNewArrVar
      rw [if_neg hlen, hs]
      dsimp only
      rw [if_pos (Or.inl he)]
    generalize htab : ({ Vars.setSlot c.vars i { ty := some (tyOf isStr true), name := Names.storeName n (c.vars.slots i).name, val := .arr (some c.arrNext) } with
        count := c.vars.count + 1 } : Vars.Table) = t' at hget hrel
    have htm : t'.max = c.vars.max := by rw [← htab]; rfl
    have hslot : ∀ k, t'.slots k = if k = i then { ty := some (tyOf isStr true), name := Names.storeName n (c.vars.slots i).name, val := .arr (some c.arrNext) } else c.vars.slots k := by
      intro k; rw [← htab]; rfl
    have hkey : Vars.HasKey t' i (n, tyOf isStr true) := by
      unfold Vars.HasKey
      rw [hslot i, if_pos rfl]
      exact ⟨rfl, Names.fieldName_storeName n _ (hr.inv.len i hi) hw.good⟩
    have hsame : ∀ k, Vars.HasKey t' i k → k = (n, tyOf isStr true) := by
      rintro ⟨n', ty'⟩ hk
      have h1 : n' = n := hk.2.symm.trans hkey.2
      have h2 : ty' = tyOf isStr true := Option.some.inj (hk.1.symm.trans hkey.1)
      rw [h1, h2]
    have hother : ∀ k, k ≠ i → ∀ q, Vars.HasKey t' k q ↔ Vars.HasKey c.vars k q := by
      intro k hk q
      unfold Vars.HasKey
      rw [hslot k, if_neg hk]
    have hlift : ∀ q, (∀ k < t'.max, ¬ Vars.HasKey t' k q) → ∀ k < c.vars.max, ¬ Vars.HasKey c.vars k q := by
      intro q habs' k hk hkk
      have hki : k ≠ i := by
        rintro rfl
        have := hkk.1
        rw [he] at this; cases this
      exact habs' k (by rw [htm]; exact hk) ((hother k hki _).mpr hkk)
    have hnew : c.newArr (Arrays.toU32 x) (Arrays.dim2 y) = ({ c with
        arrNext := c.arrNext + g.size + 2
        mem := fun q => match q with
          | .elem w => Arrays.fill (fun w => if w = c.arrNext then x else if w = c.arrNext + 1 then Arrays.hdr2 y else c.mem (.elem w)) (c.arrNext + 2) g.size 0 w
          | .slot i => c.mem (.slot i)
        smem := fun q => match q with | .elem w => if c.arrNext + 2 ≤ w ∧ w < c.arrNext + g.size + 2 then [] else c.smem (.elem w) | .slot i => c.smem (.slot i) },
        .ok (some c.arrNext)) := by
      unfold Core.newArr
      rw [hal]
      rfl
    generalize hc : ({ c with
        arrNext := c.arrNext + g.size + 2
        mem := fun q => match q with
          | .elem w => Arrays.fill (fun w => if w = c.arrNext then x else if w = c.arrNext + 1 then Arrays.hdr2 y else c.mem (.elem w)) (c.arrNext + 2) g.size 0 w
          | .slot i => c.mem (.slot i)
        smem := fun q => match q with | .elem w => if c.arrNext + 2 ≤ w ∧ w < c.arrNext + g.size + 2 then [] else c.smem (.elem w) | .slot i => c.smem (.slot i) } : Core σ) = c' at hnew
    have hcv : c'.vars = c.vars := by rw [← hc]
    have hcs : c'.stack = c.stack := by rw [← hc]
    have hce : c'.ext = c.ext := by rw [← hc]
    have hcr : c'.varsErr = c.varsErr := by rw [← hc]
    have hcn : c'.arrNext = c.arrNext + g.size + 2 := by rw [← hc]
    have hcx : c'.arrMax = c.arrMax := by rw [← hc]
    have hcm : ∀ k, c'.mem (.slot k) = c.mem (.slot k) := by intro k; rw [← hc]
    have hct : ∀ k, c'.smem (.slot k) = c.smem (.slot k) := by intro k; rw [← hc]
    have hem : ∀ k, c'.mem (.elem k) = Arrays.fill (fun w => if w = c.arrNext then x else if w = c.arrNext + 1 then Arrays.hdr2 y else c.mem (.elem w)) (c.arrNext + 2) g.size 0 k := by
      intro k; rw [← hc]
    have het : ∀ k, c'.smem (.elem k) = if c.arrNext + 2 ≤ k ∧ k < c.arrNext + g.size + 2 then [] else c.smem (.elem k) := by
      intro k; rw [← hc]
    have hom : ∀ k, k < c.arrNext ∨ c.arrNext + g.size + 2 ≤ k → c'.mem (.elem k) = c.mem (.elem k) := by
      intro k hk
      rw [hem, Arrays.fill_ne (by omega), if_neg (by omega), if_neg (by omega)]
    have hot : ∀ k, k < c.arrNext ∨ c.arrNext + g.size + 2 ≤ k → c'.smem (.elem k) = c.smem (.elem k) := by
      intro k hk
      rw [het, if_neg (by omega)]
    have hvi : (t'.slots i).val = .arr (some c.arrNext) := by rw [hslot i, if_pos rfl]
    have hsl : ∀ k, k ≠ i → t'.slots k = c.vars.slots k := fun k hk => by rw [hslot k, if_neg hk]
    have hnum : ∀ k n', Vars.HasKey t' k (n', .num) → k ≠ i := by
      rintro k n' hk rfl
      have := (Prod.mk.inj (hsame _ hk)).2
      cases isStr <;> cases this
    have hstr : ∀ k n', Vars.HasKey t' k (n', .str) → k ≠ i := by
      rintro k n' hk rfl
      have := (Prod.mk.inj (hsame _ hk)).2
      cases isStr <;> cases this
    have hgn : (st.setGrid w g).grid w = some g := if_pos rfl
    have hgo : ∀ u, u ≠ w → (st.setGrid w g).grid u = st.grid u := fun u hu => if_neg hu
    have hself : ∀ n' s', Vars.HasKey t' i (n', tyOf s' true) → wname n' s' = w := by
      intro n' s' hk
      obtain ⟨h1, h2⟩ := Prod.mk.inj (hsame _ hk)
      have h2 : s' = isStr := by cases s' <;> cases isStr <;> first | rfl | cases h2
      rw [hw.eq, h1, h2]
    have hname : ∀ k n' s', k < c.vars.max → Vars.HasKey c.vars k (n', tyOf s' true) → wname n' s' ≠ w := by
      intro k n' s' hk hkk e
      obtain ⟨g', p, h1, _⟩ := h.stored.arr n' s' k hk hkk
      rw [e, hg] at h1; cases h1
    have hLnew : Laid { c' with vars := t', error := c'.varsErr } c.arrNext g := by
      refine ⟨⟨by have := hxi.2; omega, ?_⟩, ?_, ⟨?_, ?_⟩, ?_, ?_, ?_, ?_⟩
      · rw [hd2]
        intro d hd
        cases y with
        | none => cases hd
        | some y =>
          have := hy y rfl
          obtain rfl : y.toNat = d := Option.some.inj hd
          have := this.2.2
          omega
      · show c.arrNext + 2 + g.size ≤ c'.arrNext; omega
      · show c'.arrNext < c'.arrMax; omega
      · show c'.arrMax ≤ _; omega
      · show c'.mem _ = _
        rw [hem, Arrays.fill_ne (by omega), if_pos rfl, hd1]
      · show c'.mem _ = _
        rw [hem, Arrays.fill_ne (by omega), if_neg (by omega), if_pos rfl, hd2]
        cases y with
        | none => rfl
        | some y =>
          have := (hy y rfl).1
          show y = ((y.toNat : Nat) : Int)
          omega
      · intro a b hab
        have := Grid.ofs_lt hab
        show c'.mem _ = _
        rw [hem, Arrays.fill_in (by omega) (by omega), hgr]
        rfl
      · intro a b hab
        have := Grid.ofs_lt hab
        show c'.smem _ = _
        rw [het, if_pos (by omega), hgr]
        rfl
    have hLold : ∀ p g', Laid c p g' → Laid { c' with vars := t', error := c'.varsErr } p g' := by
      intro p g' hL
      have := hL.fits
      exact hL.other (f := c.arrNext) (t := c.arrNext + g.size + 2) hom hot (show c.arrNext ≤ c'.arrNext by omega) hcx (show c'.arrNext < c'.arrMax by omega)
        (Or.inl hL.fits)
    refine ⟨c', t', hnew, ⟨i, hget⟩, ?_, ⟨htm, ?_, ?_⟩, hcs, hce, hcr.trans hverr⟩
    · refine ⟨⟨_, hrel, ?_⟩, ?_, ?_, ?_, ?_, ⟨?_, ?_, ?_, ?_, ?_⟩⟩
      · have hfl := filter_lt (fun x => (s.m.lookup (keyOf x)).isNone)
          (fun x => ((s.m ++ [((n, tyOf isStr true), Vars.Val.arr (some c.arrNext))]).lookup (keyOf x)).isNone) U (w ++ [0]) hU (by
            show (s.m.lookup (keyOf (w ++ [0]))).isNone = true
            rw [hw.key, hl0]; rfl) (by
            show ((s.m ++ [((n, tyOf isStr true), Vars.Val.arr (some c.arrNext))]).lookup (keyOf (w ++ [0]))).isNone = false
            rw [hw.key, List.lookup_append, hl0]
            simp) (by
            intro y hy
            have hy' : ((s.m ++ [((n, tyOf isStr true), Vars.Val.arr (some c.arrNext))]).lookup (keyOf y)).isNone = true := hy
            rw [List.lookup_append] at hy'
            show (s.m.lookup (keyOf y)).isNone = true
            cases hl : s.m.lookup (keyOf y) with
            | none => rfl
            | some v => rw [hl] at hy'; simp at hy')
        show (s.m ++ [((n, tyOf isStr true), Vars.Val.arr (some c.arrNext))]).length + missing _ U ≤ s.cap
        unfold missing at hroom ⊢
        rw [List.length_append]
        simp only [List.length_cons, List.length_nil]
        omega
      · intro n' k hk hkk
        show c'.mem _ = _
        rw [hcm]
        exact h.value n' k (by rw [← htm]; exact hk) ((hother k (hnum k n' hkk) _).mp hkk)
      · intro n' k hk hkk
        show c'.smem _ = _
        rw [hct]
        exact h.text n' k (by rw [← htm]; exact hk) ((hother k (hstr k n' hkk) _).mp hkk)
      · intro n' hn' habs'
        exact h.zero n' hn' (hlift _ habs')
      · intro n' hn' habs'
        exact h.empty n' hn' (hlift _ habs')
      · intro n' s' k hk hkk
        by_cases hki : k = i
        · subst hki
          refine ⟨g, c.arrNext, ?_, hvi, hLnew⟩
          rw [hself n' s' hkk]; exact hgn
        · have hk' : k < c.vars.max := by rw [← htm]; exact hk
          have hkk' := (hother k hki _).mp hkk
          obtain ⟨g', p, h1, h2, h3⟩ := h.stored.arr n' s' k hk' hkk'
          exact ⟨g', p, (hgo _ (hname k n' s' hk' hkk')).trans h1, (congrArg Vars.Slot.val (hsl k hki)).trans h2, hLold p g' h3⟩
      · intro n' k hk hkk
        by_cases hki : k = i
        · subst hki
          obtain ⟨h1, h2⟩ := Prod.mk.inj (hsame _ hkk)
          rw [h1]
          exact hw.plain (by cases isStr <;> first | rfl | cases h2)
        · exact h.stored.plain n' k (by rw [← htm]; exact hk) ((hother k hki _).mp hkk)
      · intro n' s' hn' hd habs'
        have hne : wname n' s' ≠ w := by
          intro e
          rw [hw.eq] at e
          have heq : n' = n ∧ s' = isStr := by
            cases s' <;> cases isStr
            · exact ⟨e, rfl⟩
            · exact absurd (show n'.getLast? = some 36 by rw [show n' = n ++ [36] from e]; simp) (hd rfl)
            · exact absurd (show n.getLast? = some 36 by rw [show n = n' ++ [36] from e.symm]; simp) (hw.plain rfl)
            · exact ⟨List.append_cancel_right (show n' ++ [36] = n ++ [36] from e), rfl⟩
          obtain ⟨rfl, rfl⟩ := heq
          exact habs' i (show i < t'.max by rw [htm]; exact hi) hkey
        show (st.setGrid w g).grid _ = none
        rw [hgo _ hne]
        exact h.stored.absent n' s' hn' hd (hlift _ habs')
      · intro n1 s1 k1 n2 s2 k2 g1 g2 p q hk1 hk2 hne hkk1 hkk2 hg1 hg2 hv1 hv2
        have old : ∀ n1 s1 k1 g1 p, k1 < t'.max → k1 ≠ i → Vars.HasKey t' k1 (n1, tyOf s1 true) → (st.setGrid w g).grid (wname n1 s1) = some g1 →
            (t'.slots k1).val = .arr (some p) →
            k1 < c.vars.max ∧ Vars.HasKey c.vars k1 (n1, tyOf s1 true) ∧ st.grid (wname n1 s1) = some g1 ∧ (c.vars.slots k1).val = .arr (some p) ∧
              p + 2 + g1.size ≤ c.arrNext := by
          intro n1 s1 k1 g1 p hk hki hkk hg1 hv
          have hk' : k1 < c.vars.max := by rw [← htm]; exact hk
          have hkk' := (hother k1 hki _).mp hkk
          have hg' : st.grid (wname n1 s1) = some g1 := (hgo _ (hname k1 n1 s1 hk' hkk')).symm.trans hg1
          have hv' : (c.vars.slots k1).val = .arr (some p) := (congrArg Vars.Slot.val (hsl k1 hki)).symm.trans hv
          refine ⟨hk', hkk', hg', hv', ?_⟩
          obtain ⟨g', p', h1, h2, h3⟩ := h.stored.arr n1 s1 k1 hk' hkk'
          rw [hg'] at h1; cases h1
          rw [hv'] at h2; cases h2
          exact h3.fits
        by_cases e1 : k1 = i
        · subst e1
          have e2 : k2 ≠ k1 := fun e => hne e.symm
          obtain ⟨_, _, _, _, hf⟩ := old n2 s2 k2 g2 q hk2 e2 hkk2 hg2 hv2
          have : p = c.arrNext := by
            have := hv1.symm.trans hvi
            cases this; rfl
          omega
        · obtain ⟨a1, a2, a3, a4, a5⟩ := old n1 s1 k1 g1 p hk1 e1 hkk1 hg1 hv1
          by_cases e2 : k2 = i
          · subst e2
            have : q = c.arrNext := by
              have := hv2.symm.trans hvi
              cases this; rfl
            omega
          · obtain ⟨b1, b2, b3, b4, b5⟩ := old n2 s2 k2 g2 q hk2 e2 hkk2 hg2 hv2
            exact h.stored.apart n1 s1 k1 n2 s2 k2 g1 g2 p q a1 b1 hne a2 b2 a3 b3 a4 b4
      · right
        show c'.varsErr = 0 ∧ c'.arrNext + (st.room - (g.size + 2)) < c'.arrMax ∧ c'.arrMax ≤ 1073741824
        omega
    · intro k hk q hkk
      have hki : k ≠ i := by
        rintro rfl
        have := hkk.1
        rw [he] at this; cases this
      exact (hother k hki q).mpr hkk
    · intro k hk q hkk
      have hki : k ≠ i := by
        rintro rfl
        have := hkk.1
        rw [he] at this; cases this
      exact congrArg Vars.Slot.val (hsl k hki)

/-! ## Statements -/

section
variable {prog : List Line} {U : List (List Nat)} {C : Nat → Prop} {L : Labels.Table} {W : World σ} {K : Look}

theorem computes_number' {st : Store} (e : E) (hw : e.tree.WF) (hl : e.Leaves) (hU : ∀ x ∈ e.vars, x ∈ U) :
    Computes env K U st e.code ((e.number K st).bind fun v => .ok [.num v]) := by
  have h := computes_e (env := env) (K := K) (st := st) e hw hl hU
  unfold E.number
  cases hv : e.value K st with
  | err er => rw [hv] at h; exact h
  | ub => intro _ _ _ _ _ _ _ _; trivial
  | ok v =>
    rw [hv] at h
    cases v with
    | num n => exact h
    | str s => intro _ _ _ _ _ _ _ _; trivial
    | sep o => intro _ _ _ _ _ _ _ _; trivial

/-- What to do with subscripts. -/
def withSubs (cfg : Cfg σ) (o : Out (List Val)) (F : Int → Option Int → Res σ) : Res σ :=
  Res.with' cfg o fun vs => match subsOf vs with
    | some (x, y) => F x y
    | none => .undefined

/-- An element of an array: its name and its subscripts. -/
theorem cell_view {st : Store} {l : E} (hc : l.isCell = true) (hw : l.tree.WF) (hl : l.Leaves) (hU : ∀ x ∈ l.vars, x ∈ U) :
    ∃ w n isStr code k o, IsName w n isStr ∧ w ++ [0] ∈ U ∧ l.code = code ++ [.simple bcArgcount k, nameInstr w] ∧
      l.dimCode = code ++ [.simple bcArgcount k, dimInstr w] ∧ Computes env K U st code o ∧
      (∀ vs, o = .ok vs → vs.length = k ∧ ∃ x y, subsOf vs = some (x, y)) ∧
      (l.dest K st = o.bind fun vs => match subsOf vs with | some (x, y) => st.place w x y | none => .ub) ∧
      ∀ cfg : Cfg σ, cfg.store = st → K = W.look cfg.world →
        Cfg.dimAt K cfg l = withSubs cfg o (fun x y => cfg.dim w x y) ∧
        ∀ e, S.exec W prog cfg (.put l e) = withSubs cfg o (fun x y => cfg.putAt (W.look cfg.world) w x y e) := by
  cases l with
  | arr1 sq w a =>
    obtain ⟨n, isStr, hn⟩ := name_cases hl.1.1
    refine ⟨w, n, isStr, a.code, 1, _, hn, hU _ (by simp [E.vars]), rfl, ?_,
      computes_number' (K := K) (st := st) a hw.2 hl.2 (fun x hx => hU x (by simp [E.vars, hx])), ?_, ?_, ?_⟩
    · show (a.code ++ [_]) ++ [dimInstr w] = _
      simp
    · intro vs hvs
      cases hv : a.number K st with
      | ok v => rw [hv] at hvs; cases hvs; exact ⟨rfl, _, _, rfl⟩
      | err e => rw [hv] at hvs; cases hvs
      | ub => rw [hv] at hvs; cases hvs
    · show (a.number K st).bind _ = _
      cases a.number K st <;> rfl
    · intro cfg h1 h2
      subst h1 h2
      unfold withSubs
      refine ⟨?_, fun e => ?_⟩
      · show Res.with' cfg (a.number _ _) _ = _
        cases a.number (W.look cfg.world) cfg.store <;> rfl
      · show Res.with' cfg (a.number _ _) _ = _
        cases a.number (W.look cfg.world) cfg.store <;> rfl
  | arr2 sq w a b =>
    obtain ⟨n, isStr, hn⟩ := name_cases hl.1.1
    refine ⟨w, n, isStr, a.code ++ b.code, 2, _, hn, hU _ (by simp [E.vars]), rfl, ?_,
      (computes_number' (K := K) (st := st) a hw.2.1 hl.2.1 (fun x hx => hU x (by simp [E.vars, hx]))).append
        (computes_number' (K := K) (st := st) b hw.2.2 hl.2.2 (fun x hx => hU x (by simp [E.vars, hx]))), ?_, ?_, ?_⟩
    · show ((a.code ++ b.code) ++ [_]) ++ [dimInstr w] = _
      simp
    · intro vs hvs
      cases hv : a.number K st with
      | ok v =>
        cases hv2 : b.number K st with
        | ok u => rw [hv, hv2] at hvs; cases hvs; exact ⟨rfl, _, _, rfl⟩
        | err e => rw [hv, hv2] at hvs; cases hvs
        | ub => rw [hv, hv2] at hvs; cases hvs
      | err e => rw [hv] at hvs; cases hvs
      | ub => rw [hv] at hvs; cases hvs
    · show (a.number K st).bind _ = _
      cases a.number K st with
      | ok v => show (b.number K st).bind _ = _; cases b.number K st <;> rfl
      | err e => rfl
      | ub => rfl
    · intro cfg h1 h2
      subst h1 h2
      unfold withSubs
      refine ⟨?_, fun e => ?_⟩
      · show Res.with' cfg (a.number _ _) _ = _
        cases a.number (W.look cfg.world) cfg.store with
        | ok v => show Res.with' cfg (b.number _ _) _ = _; cases b.number (W.look cfg.world) cfg.store <;> rfl
        | err e => rfl
        | ub => rfl
      · show Res.with' cfg (a.number _ _) _ = _
        cases a.number (W.look cfg.world) cfg.store with
        | ok v => show Res.with' cfg (b.number _ _) _ = _; cases b.number (W.look cfg.world) cfg.store <;> rfl
        | err e => rfl
        | ub => rfl
  | _ => cases hc

/-- DIM, one array: what is known where its code ends. -/
def DimSim (env : Env σ) (prog : List Line) (U : List (List Nat)) (L : Labels.Table) (cfg : Cfg σ) (m : Mach σ) (a code : List Instr) : Res σ → Prop
  | .run c' => ∃ st c'', c' = { cfg with store := st } ∧ Goes env m (Machine.after m a code c'') ∧
      Base prog U C L cfg.calls cfg.data st cfg.world (Machine.after m a code c'')
  | .done er st w => Ends env U st w er m
  | .undefined => True

theorem dim_one (hperf : Performs env W C) {cfg : Cfg σ} {m : Mach σ} {a b : List Instr} {l : E} (hc : l.isCell = true) (hg : l.Good)
    (hlen : l.tree.post.length ≤ 40) (hv : ∀ x ∈ l.vars, x ∈ U)
    (hm : Base prog U C L cfg.calls cfg.data cfg.store cfg.world m) (hat : At m a (l.dimCode ++ b)) :
    DimSim (C := C) env prog U L cfg m a l.dimCode (cfg.dimAt (W.look cfg.world) l) := by
  obtain ⟨w, n, isStr, code, kk, o, hn, hU, hcode, hdim, hcomp, hvals, _, hexec⟩ :=
    cell_view (env := env) (U := U) (W := W) (prog := prog) (K := W.look cfg.world) (st := cfg.store) hc hg.tree hg.leaves hv
  rw [(hexec cfg rfl rfl).1]
  have hcl : code.length ≤ 100 := by
    have h1 := len_e l
    rw [hcode] at h1
    simp only [List.length_append, List.length_cons, List.length_nil] at h1
    omega
  rw [hdim] at hat ⊢
  have hat' := hat
  rw [List.append_assoc] at hat'
  have hp := hcomp m a _ hat' hm.argc (by rw [hm.stack]; simpa using hcl) hm.holds (by rw [hm.ext]; exact hperf.sees _)
  unfold withSubs
  cases ho : o with
  | ub => trivial
  | err er =>
    rw [ho] at hp
    have hp : Ends env U cfg.store m.core.ext (errNum er) m := hp
    rw [hm.ext] at hp
    cases er <;> exact hp
  | ok vs =>
    rw [ho] at hp
    obtain ⟨hk, x, y, hsub⟩ := hvals vs ho
    subst hk
    obtain ⟨_, c', ens, hr, hst, hs, hh, hgr⟩ := hp
    rw [hm.stack] at hst
    have herr : c'.error = 0 := hgr.error.trans hm.error
    obtain ⟨hsu, hne⟩ := subs_of hst hs hh hsub
    show DimSim (C := C) env prog U L cfg m a _ (match subsOf vs with | some (x, y) => cfg.dim w x y | none => .undefined)
    rw [hsub]
    show DimSim (C := C) env prog U L cfg m a _ (cfg.dim w x y)
    have hh2 := hh.stack []
    have hstep : ∀ c'', (execDim n isStr vs.length c' = .ok c'') →
        Reaches env m (Machine.after m a (code ++ [.simple bcArgcount vs.length, dimInstr w]) c'') := fun c'' hx =>
      name_step (env := env) hat hm.argc hr herr hn (dimIns hn) (by decide) ((if_pos rfl).trans hx)
    unfold Cfg.dim
    dsimp only
    cases hgw : cfg.store.grid w with
    | some g =>
      rw [if_pos (show (some g).isSome = true from rfl)]
      obtain ⟨i, p, ha, hlk⟩ := grid_slot hh2 hn hgw
      obtain ⟨s, hrel, _⟩ := hh2.table
      have hgn : ∀ al, Vars.getNewArrVar c'.vars n (tyOf isStr true) al = (c'.vars, .err .duplicateDim) := by
        intro al
        unfold Vars.getNewArrVar
        rw [if_neg (by have := hn.good.2.1; omega), search_found hrel.inv hn.good ha.lt ha.key]
        dsimp only
        rw [if_neg]
        have h1 := ha.key.1
        have h2 := ha.val
        change (c'.vars.slots i).ty = _ at h1
        change (c'.vars.slots i).val = _ at h2
        rw [h1, h2]
        rintro (h | ⟨_, h⟩) <;> cases h
      have hx : execDim n isStr vs.length c' = .ok { c' with stack := [], varsErr := 41, error := 41 } := by
        unfold execDim
        rw [hsu]
        dsimp only [Out.bind]
        rw [hgn]
        rfl
      exact ⟨_, hstep _ hx, ended_error (by show (41 : Nat) ≠ 0; decide), rfl, rfl, hh2.closed, hgr.ext.trans hm.ext⟩
    | none =>
      rw [if_neg (by simp)]
      split
      swap
      · trivial
      rename_i hok
      obtain ⟨c2, v, hnew, ⟨i, hgn⟩, hh3, hkeep, hst3, hext3, hve⟩ := dim_new hh2 hn hU hgw (g := Grid.new x.toNat (y.map Int.toNat)) rfl hok herr
      have hx : execDim n isStr vs.length c' = .ok { c2 with vars := v, error := c2.varsErr } := by
        unfold execDim
        rw [hsu]
        dsimp only [Out.bind]
        rw [hnew]
        dsimp only
        rw [show Vars.getNewArrVar c'.vars n (tyOf isStr true) (some c'.arrNext) = (v, .ok i) from hgn]
      have r := hstep _ hx
      obtain ⟨N, hN⟩ := r
      refine ⟨_, _, rfl, ⟨N, ?_, hN⟩, ?_⟩
      · rcases Nat.eq_zero_or_pos N with h0 | h0
        · exfalso
          subst h0
          have e1 : m = _ := Out.ok.inj hN
          have e3 : m.exec.index = posAfter (a ++ (code ++ [.simple bcArgcount vs.length, dimInstr w])) := congrArg (fun x : Mach σ => x.exec.index) e1
          rw [hat.index, show a ++ (code ++ [Instr.simple bcArgcount vs.length, dimInstr w]) = (a ++ code ++ [.simple bcArgcount vs.length]) ++ [dimInstr w] by simp,
            posAfter_snoc, posAfter_snoc, posAfter_append] at e3
          have : (Instr.simple bcArgcount vs.length).bytes.length = 2 := rfl
          omega
        · exact h0
      · exact { code := hm.code, main := hm.main, argc := hm.argc, frames := hm.frames,
                calls := (hm.calls.grow hgr).keep (c' := { c2 with vars := v }) ⟨hkeep.max, hkeep.keys, hkeep.vals⟩,
                labels := hm.labels, error := hve, stack := hst3, holds := hh3, ext := hext3.trans (hgr.ext.trans hm.ext) }

/-- DIM, the arrays one after the other. -/
theorem dims_go (hperf : Performs env W C) (K : Look) : (ls : List E) → (cfg : Cfg σ) → (m : Mach σ) → (a b : List Instr) → K = W.look cfg.world →
    (∀ l ∈ ls, l.isCell = true ∧ l.Good ∧ l.tree.post.length ≤ 40) → (∀ x ∈ ls.flatMap E.vars, x ∈ U) →
    Base prog U C L cfg.calls cfg.data cfg.store cfg.world m → At m a (ls.flatMap E.dimCode ++ b) →
    match cfg.dims K ls with
    | .run c' => ∃ st m', c' = { cfg with store := st } ∧ Reaches env m m' ∧ m'.exec.index = posAfter (a ++ ls.flatMap E.dimCode) ∧
        Base prog U C L cfg.calls cfg.data st cfg.world m'
    | .done er st w => Ends env U st w er m
    | .undefined => True
  | [], cfg, m, a, b, hK, _, _, hm, hat => ⟨cfg.store, m, rfl, Reaches.refl m, by rw [hat.index]; simp, hm⟩
  | l :: r, cfg, m, a, b, hK, hw, hv, hm, hat => by
    rw [List.flatMap_cons, List.append_assoc] at hat
    obtain ⟨h1, h2, h3⟩ := hw l (by simp)
    have one := dim_one (b := r.flatMap E.dimCode ++ b) hperf h1 h2 h3 (fun x hx => hv x (by simp [hx])) hm hat
    rw [← hK] at one
    unfold Cfg.dims
    cases hd : cfg.dimAt K l with
    | undefined => trivial
    | done er st w => rw [hd] at one; exact one
    | run c1 =>
      rw [hd] at one
      obtain ⟨st, c'', rfl, hgo, hb⟩ := one
      have hat' := At.after (m := m) (a := a) (e := l.dimCode) (b := r.flatMap E.dimCode ++ b) (c := c'') hat hb.error
      have ih := dims_go hperf K r { cfg with store := st } _ (a ++ l.dimCode) b hK (fun x hx => hw x (by simp [hx]))
        (fun x hx => hv x (by rw [List.flatMap_cons, List.mem_append]; exact Or.inr hx)) hb hat'
      dsimp only
      cases he : Cfg.dims K { cfg with store := st } r with
      | undefined => trivial
      | done er st' w => rw [he] at ih; exact Ends.after' hgo.reaches rfl ih
      | run c2 =>
        rw [he] at ih
        obtain ⟨st', m', e1, e2, e3, e4⟩ := ih
        refine ⟨st', m', e1, hgo.reaches.trans e2, ?_, e4⟩
        rw [e3, List.flatMap_cons, List.append_assoc]

/-- DIM. -/
theorem sim_dim (hperf : Performs env W C) {cfg : Cfg σ} {m : Mach σ} {a b : List Instr} {k : Nat} {l : E} {r : List E} (hs : FitsS U C (.dim l r))
    (hm : Base prog U C L cfg.calls cfg.data cfg.store cfg.world m) (hat : At m a ((S.dim l r).code k ++ b))
    (hplace : Place prog U C cfg.todo cfg.next (posAfter (a ++ (S.dim l r).code k))) :
    Sim env prog U C L m (S.exec W prog cfg (.dim l r)) := by
  obtain ⟨hw, hv, _⟩ := hs
  have hw : ∀ x ∈ l :: r, x.isCell = true ∧ x.Good ∧ x.tree.post.length ≤ 40 := hw
  have hv : ∀ x ∈ (l :: r).flatMap E.vars, x ∈ U := hv
  change At m a ((l :: r).flatMap E.dimCode ++ b) at hat
  change Place prog U C cfg.todo cfg.next (posAfter (a ++ (l :: r).flatMap E.dimCode)) at hplace
  show Sim env prog U C L m (cfg.dims (W.look cfg.world) (l :: r))
  rw [List.flatMap_cons, List.append_assoc] at hat
  rw [List.flatMap_cons] at hplace
  obtain ⟨h1, h2, h3⟩ := hw l (by simp)
  have one := dim_one (b := r.flatMap E.dimCode ++ b) hperf h1 h2 h3 (fun x hx => hv x (by simp [hx])) hm hat
  unfold Cfg.dims
  cases hd : cfg.dimAt (W.look cfg.world) l with
  | undefined => trivial
  | done er st w => rw [hd] at one; exact one
  | run c1 =>
    rw [hd] at one
    obtain ⟨st, c'', rfl, hgo, hb⟩ := one
    have hat' := At.after (m := m) (a := a) (e := l.dimCode) (b := r.flatMap E.dimCode ++ b) (c := c'') hat hb.error
    have ih := dims_go hperf (W.look cfg.world) r { cfg with store := st } _ (a ++ l.dimCode) b rfl (fun x hx => hw x (by simp [hx]))
      (fun x hx => hv x (by rw [List.flatMap_cons, List.mem_append]; exact Or.inr hx)) hb hat'
    dsimp only
    cases he : Cfg.dims (W.look cfg.world) { cfg with store := st } r with
    | undefined => trivial
    | done er st' w => rw [he] at ih; exact Ends.after' hgo.reaches rfl ih
    | run c2 =>
      rw [he] at ih
      obtain ⟨st', m', e1, e2, e3, e4⟩ := ih
      subst e1
      refine ⟨m', hgo.then e2, ?_, e4⟩
      rw [e3, List.append_assoc]
      exact hplace

/-- The array of a name after more has been computed. -/
theorem Array'.grow {U : List (List Nat)} {st : Store} {c c' : Core σ} {w n : List Nat} {isStr : Bool} {g : Grid} {i p : Nat} (ha : Array' st c w n isStr g i p)
    (hw : IsName w n isStr) (hg : Grow c c') (hh : Holds U st c') : Array' st c' w n isStr g i p := by
  have hi : i < c'.vars.max := by rw [hg.max]; exact ha.lt
  have hk := hg.keys i ha.lt _ ha.key
  have hv := (hg.vals i ha.lt _ ha.key).trans ha.val
  obtain ⟨g', p', h1, h2, h3⟩ := hh.stored.arr n isStr i hi hk
  rw [← hw.eq, ha.grid] at h1; cases h1
  rw [hv] at h2; cases h2
  exact ⟨ha.grid, hi, hk, hv, h3⟩

/-- Assignments to elements. -/
theorem sim_put (hperf : Performs env W C) {cfg : Cfg σ} {m : Mach σ} {a b : List Instr} {k : Nat} {l e : E} (hs : FitsS U C (.put l e))
    (hm : Base prog U C L cfg.calls cfg.data cfg.store cfg.world m) (hat : At m a ((S.put l e).code k ++ b))
    (hplace : Place prog U C cfg.todo cfg.next (posAfter (a ++ (S.put l e).code k))) :
    Sim env prog U C L m (S.exec W prog cfg (.put l e)) := by
  obtain ⟨hwf, hv, _⟩ := hs
  obtain ⟨hgl, he⟩ := put_good hwf
  obtain ⟨hc, _, hlen⟩ := hwf
  obtain ⟨w, n, isStr, code, kk, o, hn, hU, hcode, hdim, hcomp, hvals, _, hexec⟩ :=
    cell_view (env := env) (U := U) (W := W) (prog := prog) (K := W.look cfg.world) (st := cfg.store) hc hgl.tree hgl.leaves
      (fun x hx => hv x (by simp [S.vars, hx]))
  rw [(hexec cfg rfl rfl).2]
  have hcl : code.length + 2 + e.code.length ≤ 40 := by
    have h1 := len_e l
    have h2 := len_e e
    rw [hcode] at h1
    simp only [List.length_append, List.length_cons, List.length_nil] at h1
    omega
  have hput : (S.put l e).code k = (code ++ [.simple bcArgcount kk, nameInstr w]) ++ (e.code ++ [.simple bcOperator opAssign]) := by
    show l.code ++ _ = _
    rw [hcode]
  rw [hput] at hat hplace
  have hat0 : At m a ((code ++ [.simple bcArgcount kk, nameInstr w]) ++ (e.code ++ ([.simple bcOperator opAssign] ++ b))) :=
    hat.regroup rfl (by simp)
  have hat' : At m a (code ++ ([.simple bcArgcount kk, nameInstr w] ++ (e.code ++ ([.simple bcOperator opAssign] ++ b)))) :=
    hat.regroup rfl (by simp)
  have hp := hcomp m a _ hat' hm.argc (by rw [hm.stack]; simp only [List.length_nil]; omega) hm.holds (by rw [hm.ext]; exact hperf.sees _)
  unfold withSubs
  cases ho : o with
  | ub => trivial
  | err er =>
    rw [ho] at hp
    have hp : Ends env U cfg.store m.core.ext (errNum er) m := hp
    rw [hm.ext] at hp
    cases er <;> exact hp
  | ok vs =>
    rw [ho] at hp
    obtain ⟨hk, x, y, hsub⟩ := hvals vs ho
    subst hk
    obtain ⟨_, c', ens, hr, hst, hs, hh, hgr⟩ := hp
    rw [hm.stack] at hst
    have herr : c'.error = 0 := hgr.error.trans hm.error
    show Sim env prog U C L m (match subsOf vs with | some (x, y) => cfg.putAt (W.look cfg.world) w x y e | none => .undefined)
    rw [hsub]
    show Sim env prog U C L m (cfg.putAt (W.look cfg.world) w x y e)
    unfold Cfg.putAt
    cases hgw : cfg.store.grid w with
    | none => trivial
    | some g =>
      dsimp only
      have hel := name_elem hst (by simp) hs hh hsub hn hgw
      have hstep : ∀ c'', (execName false n isStr vs.length c' = .ok c'') →
          Reaches env m (Machine.after m a (code ++ [.simple bcArgcount vs.length, nameInstr w]) c'') := fun c'' hx =>
        name_step (env := env) hat0 hm.argc hr herr hn (nameIns hn) (by decide) ((if_neg (by decide)).trans hx)
      cases hq : g.at x y with
      | ub => trivial
      | err er =>
        rw [hq] at hel
        obtain ⟨h0, hx⟩ := hel
        have : Ends env U cfg.store cfg.world (errNum er) m := ⟨_, hstep _ hx, ended_error h0, rfl, rfl, hh.closed, hgr.ext.trans hm.ext⟩
        cases er <;> exact this
      | ok q =>
        rw [hq] at hel
        obtain ⟨hin, i, p, ha, hx⟩ := hel
        have r1 := hstep _ hx
        generalize hc1 : ({ c' with stack := ([] : List Entry) ++ [.var isStr false (.elem (p + 2 + (q.1 + q.2 * g.d1)))] } : Core σ) = c1 at r1 hx
        have hst1 : c1.stack = [.var isStr false (.elem (p + 2 + (q.1 + q.2 * g.d1)))] := by rw [← hc1]; rfl
        have hh1 : Holds U cfg.store c1 := by rw [← hc1]; exact hh.stack _
        have hg1 : Grow m.core c1 := by rw [← hc1]; exact hgr.stack _
        have ha1 : Array' cfg.store c1 w n isStr g i p := by
          rw [← hc1]
          exact ⟨ha.grid, ha.lt, ha.key, ha.val, ha.laid.congr (fun _ => rfl) (fun _ => rfl) rfl rfl⟩
        have err1 : c1.error = 0 := hg1.error.trans hm.error
        have hat1 := hat0.after err1
        have hcomp2 := computes_e (env := env) (K := W.look cfg.world) (U := U) (st := cfg.store) e he.tree he.leaves (fun x hx => hv x (by simp [S.vars, hx]))
        have hp := hcomp2 (Machine.after m a (code ++ [.simple bcArgcount vs.length, nameInstr w]) c1) _ _ hat1 hm.argc (by
          show c1.stack.length + _ ≤ _
          rw [hst1]; simp only [List.length_singleton]; omega) hh1 (by
          show Sees env _ c1.ext
          rw [hg1.ext, hm.ext]; exact hperf.sees _)
        show Sim env prog U C L m (Res.with' cfg (e.value (W.look cfg.world) cfg.store) fun v => cfg.put w g q v)
        cases hval : e.value (W.look cfg.world) cfg.store with
        | ub => trivial
        | err er =>
          rw [hval] at hp
          have hp : Ends env U cfg.store c1.ext (errNum er) (Machine.after m a (code ++ [.simple bcArgcount vs.length, nameInstr w]) c1) := hp
          rw [hg1.ext, hm.ext] at hp
          have hp := Ends.after' r1 rfl hp
          cases er <;> exact hp
        | ok v =>
          rw [hval] at hp
          obtain ⟨_, c2, ens, r2, hst2, hs2, hh2, hg2⟩ := hp
          have hg2 : Grow c1 c2 := hg2
          have hst2 : c2.stack = c1.stack ++ ens := hst2
          obtain ⟨en, rfl⟩ : ∃ en, ens = [en] := by
            cases hs2 with | cons h1 h2 => cases h2; exact ⟨_, rfl⟩
          have hstand : Stands cfg.store c2 en v := by cases hs2 with | cons h1 h2 => exact h1
          rw [hst1] at hst2
          have err2 : c2.error = 0 := hg2.error.trans err1
          have hat2 := hat1.after err2
          rw [after_after] at hat2 r2
          have ha2 := ha1.grow hn hg2 hh2
          have finish : ∀ (c3 : Core σ) (st' : Store), execOp env opAssign 0 c2 = .ok c3 → c3.stack = [] → c3.vars = c2.vars → c3.error = 0 → c3.ext = c2.ext →
              Holds U st' c3 → Sim env prog U C L m (.run { cfg with store := st' }) := by
            intro c3 st' hcore h1 h2 h3 h4 h5
            have r3 := At.simple (env := env) hat2 (by decide) c3 hm.argc (by
              rw [exec_op]
              refine congrArg _ ?_
              show execOp env opAssign m.exec.argc c2 = _
              rw [hm.argc, hcore])
            rw [List.append_assoc a, after_after] at r3
            have hr := (r1.trans r2).trans r3
            obtain ⟨N, hn'⟩ := hr
            refine ⟨_, ⟨N, ?_, hn'⟩, ?_, ?_⟩
            · rcases Nat.eq_zero_or_pos N with h0 | h0
              · exfalso
                subst h0
                have e1 : m = _ := Out.ok.inj hn'
                have e2 := congrArg (fun x : Mach σ => x.exec.index) e1
                have e3 : m.exec.index = posAfter (a ++ ((code ++ [.simple bcArgcount vs.length, nameInstr w]) ++ e.code ++ [.simple bcOperator opAssign])) := e2
                rw [hat.index, ← List.append_assoc, posAfter_snoc, posAfter_append] at e3
                omega
              · exact h0
            · show Place prog U C cfg.todo cfg.next (posAfter (a ++ ((code ++ [.simple bcArgcount vs.length, nameInstr w]) ++ e.code ++ [.simple bcOperator opAssign])))
              rw [List.append_assoc (code ++ [Instr.simple bcArgcount vs.length, nameInstr w])]
              exact hplace
            · exact { code := hm.code, main := hm.main, argc := hm.argc, frames := hm.frames,
                      calls := (show Links prog U C c3.vars cfg.calls m.calls from h2 ▸ (hm.calls.grow hg1).grow hg2), labels := hm.labels, error := h3,
                      stack := h1, holds := h5, ext := h4.trans (hg2.ext.trans (hg1.ext.trans hm.ext)) }
          show Sim env prog U C L m (cfg.put w g q v)
          cases v with
          | sep o => trivial
          | num v =>
            show Sim env prog U C L m (if w.getLast? = some 36 then .undefined else .run { cfg with store := cfg.store.setGrid w (g.set q.1 q.2 v) })
            by_cases hd : w.getLast? = some 36
            · rw [if_pos hd]; trivial
            · rw [if_neg hd]
              obtain rfl : isStr = false := by
                cases isStr with
                | false => rfl
                | true => exact absurd (hn.last.mpr rfl) hd
              obtain ⟨hnm, hx⟩ := hstand.number hh2
              exact finish { c2.store (.elem (p + 2 + (q.1 + q.2 * g.d1))) v with stack := [] } _ (execOp_assign (rest := []) hst2 hnm hx) rfl rfl err2 rfl
                ((hh2.putNum hn ha2 hin v).stack [])
          | str s =>
            show Sim env prog U C L m (if w.getLast? = some 36 then .run { cfg with store := cfg.store.setGrid w (g.setStr q.1 q.2 s) } else .undefined)
            by_cases hd : w.getLast? = some 36
            · rw [if_pos hd]
              obtain rfl : isStr = true := hn.last.mp hd
              refine finish { c2.storeStr (.elem (p + 2 + (q.1 + q.2 * g.d1))) s with stack := [] } _ ?_ rfl rfl err2 rfl
                ((hh2.putStr hn ha2 hin s).stack [])
              rw [op_assignStr (rest := []) hst2]
              exact hperf.assign c2 [] _ en s err2 hst2 (hstand.val hh2)
            · rw [if_neg hd]; trivial

end

end Sbc.Source
