import Verif.Proof.SourceCode
import Verif.Proof.Vars
import Verif.Proof.Control
import Verif.Proof.Found
import Verif.Proof.Arrays
import Verif.Props.Branch
set_option autoImplicit false
/-!
# The variables of a source program in the machine
-/
namespace Sbc.Source
open Sbc Sbc.Tok Sbc.Tok.Spec Sbc.Machine

variable {σ : Type} {env : Env σ}

/-- Name and type of a variable in the table; in lists of variables, an array is its name followed by a zero. -/
def keyOf (w : List Nat) : List Nat × Vars.Ty :=
  if w.getLast? = some 36 then (w.dropLast, .str)
  else if w.getLast? = some 0 then
    if w.dropLast.getLast? = some 36 then (w.dropLast.dropLast, .strArr) else (w.dropLast, .numArr)
  else (w, .num)

theorem keyOf_num {w : List Nat} (h : w.getLast? ≠ some 36) (h0 : ∀ c ∈ w, c ≠ 0) : keyOf w = (w, .num) := by
  unfold keyOf
  rw [if_neg h, if_neg fun e => h0 0 (List.mem_of_getLast? e) rfl]

theorem keyOf_str {w : List Nat} (h : w.getLast? = some 36) : keyOf w = (w.dropLast, .str) := if_pos h

/-- The name of an array as it is written. -/
def wname (n : List Nat) (isStr : Bool) : List Nat := if isStr then n ++ [36] else n

theorem keyOf_arr {n : List Nat} {isStr : Bool} (h : isStr = false → n.getLast? ≠ some 36) : keyOf (wname n isStr ++ [0]) = (n, tyOf isStr true) := by
  unfold keyOf wname
  rw [if_neg (by simp), if_pos (by simp), List.dropLast_concat]
  cases isStr with
  | false => rw [if_neg (by simp; exact h rfl)]; rfl
  | true => rw [if_pos (by simp)]; simp [tyOf]

theorem dollar {w : List Nat} (h : w.getLast? = some 36) : w.dropLast ++ [36] = w := by
  have hne : w ≠ [] := by rintro rfl; cases h
  have : w.getLast hne = 36 := by rw [List.getLast?_eq_some_getLast hne] at h; exact Option.some.inj h
  rw [← this]; exact List.dropLast_append_getLast hne

/-- How many of the names in `U` have no variable yet. -/
def missing (s : Vars.Spec.St) (U : List (List Nat)) : Nat := (U.filter fun n => (s.m.lookup (keyOf n)).isNone).length

/-- The second dimension as it is stored. -/
def hdr (d2 : Option Nat) : Int := match d2 with | none => 4294967295 | some d => d

/-- The array is stored at `p`. -/
structure Laid (c : Core σ) (p : Nat) (g : Grid) : Prop where
  dims : g.d1 ≤ 524287 ∧ ∀ d ∈ g.d2, 1 ≤ d ∧ d ≤ 524287
  fits : p + 2 + g.size ≤ c.arrNext
  top : c.arrNext < c.arrMax ∧ c.arrMax ≤ 1073741824
  first : c.mem (.elem p) = g.d1
  second : c.mem (.elem (p + 1)) = hdr g.d2
  num : ∀ x y, g.In x y → c.mem (.elem (p + 2 + (x + y * g.d1))) = g.num x y
  str : ∀ x y, g.In x y → c.smem (.elem (p + 2 + (x + y * g.d1))) = g.str x y

/-- The array memory. -/
structure Stored (st : Store) (c : Core σ) : Prop where
  arr : ∀ n s i, i < c.vars.max → Vars.HasKey c.vars i (n, tyOf s true) →
    ∃ g p, st.grid (wname n s) = some g ∧ (c.vars.slots i).val = .arr (some p) ∧ Laid c p g
  plain : ∀ n i, i < c.vars.max → Vars.HasKey c.vars i (n, .numArr) → n.getLast? ≠ some 36
  absent : ∀ n s, Names.GoodName n → (s = false → n.getLast? ≠ some 36) → (∀ i < c.vars.max, ¬ Vars.HasKey c.vars i (n, tyOf s true)) →
    st.grid (wname n s) = none
  apart : ∀ n s i n' s' j g g' p q, i < c.vars.max → j < c.vars.max → i ≠ j → Vars.HasKey c.vars i (n, tyOf s true) →
    Vars.HasKey c.vars j (n', tyOf s' true) → st.grid (wname n s) = some g → st.grid (wname n' s') = some g' →
    (c.vars.slots i).val = .arr (some p) → (c.vars.slots j).val = .arr (some q) → p + 2 + g.size ≤ q ∨ q + 2 + g'.size ≤ p
  room : st.room = 0 ∨ c.varsErr = 0 ∧ c.arrNext + st.room < c.arrMax ∧ c.arrMax ≤ 1073741824

/-- The variables have the values `st`; there is room for those of the names in `U` that are not used yet. -/
structure Holds (U : List (List Nat)) (st : Store) (c : Core σ) : Prop where
  table : ∃ s, Vars.Rel c.vars s ∧ s.m.length + missing s U ≤ s.cap
  value : ∀ n i, i < c.vars.max → Vars.HasKey c.vars i (n, .num) → c.mem (.slot i) = st.num n
  text : ∀ n i, i < c.vars.max → Vars.HasKey c.vars i (n, .str) → c.smem (.slot i) = st.str (n ++ [36])
  zero : ∀ n, Names.GoodName n → (∀ i < c.vars.max, ¬ Vars.HasKey c.vars i (n, .num)) → st.num n = 0
  empty : ∀ n, Names.GoodName n → (∀ i < c.vars.max, ¬ Vars.HasKey c.vars i (n, .str)) → st.str (n ++ [36]) = []
  stored : Stored st c

/-- `c'` has the variables of `c` and possibly more. -/
structure Keeps (c c' : Core σ) : Prop where
  max : c'.vars.max = c.vars.max
  keys : ∀ i < c.vars.max, ∀ k, Vars.HasKey c.vars i k → Vars.HasKey c'.vars i k
  vals : ∀ i < c.vars.max, ∀ k, Vars.HasKey c.vars i k → (c'.vars.slots i).val = (c.vars.slots i).val

/-- `c'` differs from `c` only in the stack and in additional variables. -/
structure Grow (c c' : Core σ) : Prop extends Keeps c c' where
  ext : c'.ext = c.ext
  error : c'.error = c.error
  mem : ∀ w, c'.mem (.elem w) = c.mem (.elem w)
  smem : ∀ w, c'.smem (.elem w) = c.smem (.elem w)

theorem Grow.refl (c : Core σ) : Grow c c := ⟨⟨rfl, fun _ _ _ h => h, fun _ _ _ _ => rfl⟩, rfl, rfl, fun _ => rfl, fun _ => rfl⟩

theorem Keeps.trans {a b c : Core σ} (h : Keeps a b) (k : Keeps b c) : Keeps a c :=
  ⟨k.max.trans h.max, fun i hi x hx => k.keys i (by rw [h.max]; exact hi) x (h.keys i hi x hx),
    fun i hi x hx => (k.vals i (by rw [h.max]; exact hi) x (h.keys i hi x hx)).trans (h.vals i hi x hx)⟩

theorem Grow.trans {a b c : Core σ} (h : Grow a b) (k : Grow b c) : Grow a c :=
  ⟨h.toKeeps.trans k.toKeeps, k.ext.trans h.ext, k.error.trans h.error, fun w => (k.mem w).trans (h.mem w), fun w => (k.smem w).trans (h.smem w)⟩

theorem Grow.stack {a b : Core σ} (h : Grow a b) (s : List Entry) : Grow a { b with stack := s } :=
  ⟨⟨h.max, h.keys, h.vals⟩, h.ext, h.error, h.mem, h.smem⟩

theorem Grow.of_stack {a b : Core σ} {s : List Entry} (h : Grow { a with stack := s } b) : Grow a b :=
  ⟨⟨h.max, h.keys, h.vals⟩, h.ext, h.error, h.mem, h.smem⟩

theorem Laid.congr {c c' : Core σ} {p : Nat} {g : Grid} (h : Laid c p g) (hm : ∀ w, c'.mem (.elem w) = c.mem (.elem w))
    (ht : ∀ w, c'.smem (.elem w) = c.smem (.elem w)) (hn : c'.arrNext = c.arrNext) (hx : c'.arrMax = c.arrMax) : Laid c' p g :=
  ⟨h.dims, by rw [hn]; exact h.fits, by rw [hn, hx]; exact h.top, by rw [hm]; exact h.first, by rw [hm]; exact h.second,
    fun x y hi => by rw [hm]; exact h.num x y hi, fun x y hi => by rw [ht]; exact h.str x y hi⟩

theorem Stored.congr {st st' : Store} {c c' : Core σ} (h : Stored st c) (hv : c'.vars = c.vars) (hm : ∀ w, c'.mem (.elem w) = c.mem (.elem w))
    (ht : ∀ w, c'.smem (.elem w) = c.smem (.elem w)) (hn : c'.arrNext = c.arrNext) (hx : c'.arrMax = c.arrMax) (he : c'.varsErr = c.varsErr)
    (hg : st'.grid = st.grid) (hr : st'.room = st.room) : Stored st' c' := by
  refine ⟨?_, by rw [hv]; exact h.plain, ?_, ?_, ?_⟩
  · rw [hv, hg]
    intro n s i hi hk
    obtain ⟨g, p, h1, h2, h3⟩ := h.arr n s i hi hk
    exact ⟨g, p, h1, h2, h3.congr hm ht hn hx⟩
  · rw [hv, hg]; exact h.absent
  · rw [hv, hg]; exact h.apart
  · rw [hr, he, hn, hx]; exact h.room

theorem Holds.stack {U : List (List Nat)} {st : Store} {c : Core σ} (h : Holds U st c) (s : List Entry) :
    Holds U st { c with stack := s } :=
  ⟨h.table, h.value, h.text, h.zero, h.empty, h.stored.congr rfl (fun _ => rfl) (fun _ => rfl) rfl rfl rfl rfl rfl⟩

theorem Holds.congr {U : List (List Nat)} {st : Store} {c c' : Core σ} (h : Holds U st c) (hv : c'.vars = c.vars) (hm : c'.mem = c.mem)
    (ht : c'.smem = c.smem) (hn : c'.arrNext = c.arrNext := by rfl) (hx : c'.arrMax = c.arrMax := by rfl) (he : c'.varsErr = c.varsErr := by rfl) :
    Holds U st c' :=
  ⟨by rw [hv]; exact h.table, by rw [hv, hm]; exact h.value, by rw [hv, ht]; exact h.text, by rw [hv]; exact h.zero, by rw [hv]; exact h.empty,
    h.stored.congr hv (fun _ => by rw [hm]) (fun _ => by rw [ht]) hn hx he rfl rfl⟩

/-- Without room for arrays. -/
def Store.closed (st : Store) : Store := { st with room := 0 }

theorem Holds.closed {U : List (List Nat)} {st : Store} {c c' : Core σ} (h : Holds U st c) (hv : c'.vars = c.vars := by rfl) (hm : c'.mem = c.mem := by rfl)
    (ht : c'.smem = c.smem := by rfl) (hn : c'.arrNext = c.arrNext := by rfl) (hx : c'.arrMax = c.arrMax := by rfl) : Holds U st.closed c' :=
  ⟨by rw [hv]; exact h.table, by rw [hv, hm]; exact h.value, by rw [hv, ht]; exact h.text, by rw [hv]; exact h.zero, by rw [hv]; exact h.empty,
    ⟨by
      rw [hv]
      intro n s i hi hk
      obtain ⟨g, p, h1, h2, h3⟩ := h.stored.arr n s i hi hk
      exact ⟨g, p, h1, h2, h3.congr (fun _ => by rw [hm]) (fun _ => by rw [ht]) hn hx⟩,
     by rw [hv]; exact h.stored.plain, by rw [hv]; exact h.stored.absent, by rw [hv]; exact h.stored.apart, Or.inl rfl⟩⟩

/-- The entry `en` of the stack stands for the value `v`. -/
inductive Stands (st : Store) (c : Core σ) : Entry → Val → Prop
  | num (v : Int) : Stands st c (.num v) (.num v)
  | var (n : List Nat) (i : Nat) : i < c.vars.max → Vars.HasKey c.vars i (n, .num) → Stands st c (.var false false (.slot i)) (.num (st.num n))
  | text (n : List Nat) (i : Nat) : i < c.vars.max → Vars.HasKey c.vars i (n, .str) → Stands st c (.var true false (.slot i)) (.str (st.str (n ++ [36])))
  | cell (w : Nat) : Stands st c (.var false false (.elem w)) (.num (c.mem (.elem w)))
  | cellStr (w : Nat) : Stands st c (.var true false (.elem w)) (.str (c.smem (.elem w)))
  | str (s : List Nat) : Stands st c (.str false s) (.str s)
  | sep (op : Nat) : Stands st c (.sep op) (.sep op)

theorem Stands.grow {st : Store} {c c' : Core σ} {en : Entry} {v : Val} (h : Stands st c en v) (g : Grow c c') : Stands st c' en v := by
  cases h with
  | num v => exact .num v
  | var n i h1 h2 => exact .var n i (by rw [g.max]; exact h1) (g.keys i h1 _ h2)
  | text n i h1 h2 => exact .text n i (by rw [g.max]; exact h1) (g.keys i h1 _ h2)
  | cell w => rw [← g.mem w]; exact .cell w
  | cellStr w => rw [← g.smem w]; exact .cellStr w
  | str s => exact .str s
  | sep op => exact .sep op

theorem Stands.number {U : List (List Nat)} {st : Store} {c : Core σ} {en : Entry} {v : Int} (h : Stands st c en (.num v))
    (hh : Holds U st c) : isNum en = true ∧ c.num en = .ok v := by
  cases h with
  | num v => exact ⟨rfl, rfl⟩
  | var n i h1 h2 => exact ⟨rfl, congrArg Out.ok (hh.value n i h1 h2)⟩
  | cell w => exact ⟨rfl, rfl⟩

theorem filter_lt {α : Type} (p q : α → Bool) (l : List α) (x : α) (hx : x ∈ l) (hp : p x = true) (hq : q x = false)
    (hle : ∀ y, q y = true → p y = true) : (l.filter q).length + 1 ≤ (l.filter p).length := by
  induction l with
  | nil => cases hx
  | cons y l ih =>
    have hmono : ∀ l : List α, (l.filter q).length ≤ (l.filter p).length := by
      intro l
      induction l with
      | nil => simp
      | cons z l ih =>
        rw [List.filter_cons, List.filter_cons]
        cases hq : q z with
        | true => rw [hle z hq]; simpa using ih
        | false =>
          cases p z <;> simp <;> omega
    rw [List.filter_cons, List.filter_cons]
    rcases List.mem_cons.mp hx with rfl | hx
    · rw [hp, hq]
      have := hmono l
      simp; omega
    · have := ih hx
      cases hqy : q y with
      | true => rw [hle y hqy]; simp; omega
      | false => cases p y <;> simp <;> omega

/-- Looking up a variable. -/
theorem lookup_var {U : List (List Nat)} {st : Store} {c : Core σ} (h : Holds U st c) {w n : List Nat} {ty : Vars.Ty} (hk : keyOf w = (n, ty))
    (hn : Names.GoodName n) (hU : w ∈ U) (hty : ty = .num ∨ ty = .str) :
    ∃ c' i, c.lookup n ty = .ok (c', some i) ∧ c'.stack = c.stack ∧ Holds U st c' ∧ Grow c c' ∧ i < c'.vars.max ∧
      Vars.HasKey c'.vars i (n, ty) := by
  obtain ⟨s, hr, hroom⟩ := h.table
  have hlen : ¬ n.length > 16 := by have := hn.2.1; omega
  cases hs : Vars.search c.vars n ty with
  | none =>
    -- the table is full and has no such variable: excluded by the room
    exfalso
    have hfull := Vars.search_none hr.inv hn hs
    have h1 : s.m.length = s.cap := by
      rw [hr.perm.length_eq, hr.cap]
      exact Vars.content_length_full _ fun i hi => (hfull i hi).1
    have h2 : (s.m.lookup (keyOf w)).isNone = true := by
      rw [hk]
      cases hl : s.m.lookup (n, ty) with
      | none => rfl
      | some v =>
        obtain ⟨i, hi, hk, _⟩ := hr.lookup.mp hl
        exact absurd hk (hfull i hi).2
    have h3 : 1 ≤ missing s U := by
      unfold missing
      exact List.length_pos_of_mem (List.mem_filter.mpr ⟨hU, h2⟩)
    omega
  | some i =>
    obtain ⟨j, hj, hij, hor, _⟩ := Vars.search_some hr.inv hn hs
    have hi : i < c.vars.max := hij ▸ Vars.kpos_lt hr.inv _ _
    by_cases he : (c.vars.slots i).ty = none
    · obtain ⟨hl0, _, hrel⟩ := Vars.rel_insert hr hn hs he (Vars.dflt ty)
      have habs := Vars.search_empty_absent hr.inv hn hs he
      have hget : Vars.getVar c.vars n ty = ({ Vars.setSlot c.vars i { ty := some ty, name := Names.storeName n (c.vars.slots i).name, val := Vars.dflt ty } with
          count := c.vars.count + 1 }, .ok i) := by
        unfold Vars.getVar
        rw [if_neg hlen, hs]
        dsimp only
        rw [if_pos he]
      generalize htab : ({ Vars.setSlot c.vars i { ty := some ty, name := Names.storeName n (c.vars.slots i).name, val := Vars.dflt ty } with
          count := c.vars.count + 1 } : Vars.Table) = t' at hget hrel
      have hmax : t'.max = c.vars.max := by rw [← htab]; rfl
      have hslot : ∀ k, t'.slots k = if k = i then { ty := some ty, name := Names.storeName n (c.vars.slots i).name, val := Vars.dflt ty } else c.vars.slots k := by
        intro k; rw [← htab]; rfl
      have hkey : Vars.HasKey t' i (n, ty) := by
        unfold Vars.HasKey
        rw [hslot i, if_pos rfl]
        exact ⟨rfl, Names.fieldName_storeName n _ (hr.inv.len i hi) hn⟩
      have hsame : ∀ x, Vars.HasKey t' i x → x = (n, ty) := by
        rintro ⟨n', ty'⟩ hx
        have h1 : n' = n := hx.2.symm.trans hkey.2
        have h2 : ty' = ty := Option.some.inj (hx.1.symm.trans hkey.1)
        rw [h1, h2]
      have hother : ∀ k, k ≠ i → ∀ x, Vars.HasKey t' k x ↔ Vars.HasKey c.vars k x := by
        intro k hk x
        unfold Vars.HasKey
        rw [hslot k, if_neg hk]
      have hlift : ∀ x, (∀ k < t'.max, ¬ Vars.HasKey t' k x) → ∀ k < c.vars.max, ¬ Vars.HasKey c.vars k x := by
        intro x habs' k hk hkk
        have hki : k ≠ i := by
          rintro rfl
          have := hkk.1
          rw [he] at this; cases this
        exact habs' k (by rw [hmax]; exact hk) ((hother k hki _).mpr hkk)
      refine ⟨({ c with vars := t' }.store (.slot i) 0).storeStr (.slot i) [], i, ?_, rfl, ⟨⟨_, hrel, ?_⟩, ?_, ?_, ?_, ?_, ?_⟩, ⟨⟨hmax, ?_, ?_⟩, rfl, rfl, fun _ => rfl, fun _ => rfl⟩, by
        show i < t'.max; rw [hmax]; exact hi, hkey⟩
      · unfold Core.lookup
        rw [hget]
        dsimp only
        rw [if_pos he]
      · -- room
        have hfl := filter_lt (fun x => (s.m.lookup (keyOf x)).isNone)
          (fun x => ((s.m ++ [((n, ty), Vars.dflt ty)]).lookup (keyOf x)).isNone) U w hU (by
            show (s.m.lookup (keyOf w)).isNone = true
            rw [hk, hl0]; rfl) (by
            show ((s.m ++ [((n, ty), Vars.dflt ty)]).lookup (keyOf w)).isNone = false
            rw [hk, List.lookup_append, hl0]
            simp) (by
            intro y hy
            have hy' : ((s.m ++ [((n, ty), Vars.dflt ty)]).lookup (keyOf y)).isNone = true := hy
            rw [List.lookup_append] at hy'
            show (s.m.lookup (keyOf y)).isNone = true
            cases hl : s.m.lookup (keyOf y) with
            | none => rfl
            | some v => rw [hl] at hy'; simp at hy')
        show (s.m ++ [((n, ty), Vars.dflt ty)]).length + missing _ U ≤ s.cap
        unfold missing at hroom ⊢
        rw [List.length_append]
        simp only [List.length_cons, List.length_nil]
        omega
      · intro n' k hk hkk
        show (if (Ptr.slot k) = .slot i then (0 : Int) else c.mem (.slot k)) = st.num n'
        by_cases hki : k = i
        · subst hki
          rw [if_pos rfl]
          obtain ⟨rfl, rfl⟩ := Prod.mk.inj (hsame _ hkk)
          exact (h.zero n' hn habs).symm
        · rw [if_neg (by simpa using hki)]
          exact h.value n' k (by rw [← hmax]; exact hk) ((hother k hki _).mp hkk)
      · intro n' k hk hkk
        show (if (Ptr.slot k) = .slot i then ([] : List Nat) else c.smem (.slot k)) = st.str (n' ++ [36])
        by_cases hki : k = i
        · subst hki
          rw [if_pos rfl]
          obtain ⟨rfl, rfl⟩ := Prod.mk.inj (hsame _ hkk)
          exact (h.empty n' hn habs).symm
        · rw [if_neg (by simpa using hki)]
          exact h.text n' k (by rw [← hmax]; exact hk) ((hother k hki _).mp hkk)
      · intro n' hn' habs'
        exact h.zero n' hn' (hlift _ habs')
      · intro n' hn' habs'
        exact h.empty n' hn' (hlift _ habs')
      · have hno : ∀ k n' s', Vars.HasKey t' k (n', tyOf s' true) → k ≠ i := by
          rintro k n' s' hk rfl
          have := (Prod.mk.inj (hsame _ hk)).2
          rcases hty with h | h <;> rw [h] at this <;> cases s' <;> cases this
        have hsl : ∀ k, k ≠ i → t'.slots k = c.vars.slots k := fun k hk => by rw [hslot k, if_neg hk]
        refine ⟨?_, ?_, ?_, ?_, h.stored.room⟩
        · intro n' s' k hk hkk
          have hki := hno k n' s' hkk
          obtain ⟨g, p, h1, h2, h3⟩ := h.stored.arr n' s' k (by rw [← hmax]; exact hk) ((hother k hki _).mp hkk)
          exact ⟨g, p, h1, (congrArg Vars.Slot.val (hsl k hki)).trans h2, h3.congr (fun _ => rfl) (fun _ => rfl) rfl rfl⟩
        · intro n' k hk hkk
          have hki := hno k n' false hkk
          exact h.stored.plain n' k (by rw [← hmax]; exact hk) ((hother k hki _).mp hkk)
        · intro n' s' hn' hd habs'
          exact h.stored.absent n' s' hn' hd (hlift _ habs')
        · intro n1 s1 k1 n2 s2 k2 g1 g2 p q hk1 hk2 hne hkk1 hkk2 hg1 hg2 hv1 hv2
          have e1 := hno k1 n1 s1 hkk1
          have e2 := hno k2 n2 s2 hkk2
          refine h.stored.apart n1 s1 k1 n2 s2 k2 g1 g2 p q (by rw [← hmax]; exact hk1) (by rw [← hmax]; exact hk2) hne ((hother k1 e1 _).mp hkk1)
            ((hother k2 e2 _).mp hkk2) hg1 hg2 ?_ ?_
          · rw [← hsl k1 e1]; exact hv1
          · rw [← hsl k2 e2]; exact hv2
      · intro k hk x hx
        have hki : k ≠ i := by
          rintro rfl
          have := hx.1
          rw [he] at this; cases this
        exact (hother k hki _).mpr hx
      · intro k hk x hx
        have hki : k ≠ i := by
          rintro rfl
          have := hx.1
          rw [he] at this; cases this
        exact congrArg Vars.Slot.val ((hslot k).trans (if_neg hki))
    · have hkey : Vars.HasKey c.vars i (n, ty) := by
        rcases hor with h' | h'
        · exact absurd h' he
        · exact h'
      have hget : Vars.getVar c.vars n ty = (c.vars, .ok i) := by
        unfold Vars.getVar
        rw [if_neg hlen, hs]
        dsimp only
        rw [if_neg he]
      refine ⟨{ c with vars := c.vars }, i, ?_, rfl, h.congr rfl rfl rfl, Grow.refl _, hi, hkey⟩
      unfold Core.lookup
      rw [hget]
      dsimp only
      rw [if_neg he]

/-- Assigning a number to a variable. -/
theorem Holds.assign {U : List (List Nat)} {st : Store} {c : Core σ} (h : Holds U st c) {n : List Nat} {i : Nat}
    (hi : i < c.vars.max) (hk : Vars.HasKey c.vars i (n, .num)) (v : Int) :
    Holds U (st.set n v) (c.store (.slot i) v) := by
  obtain ⟨s, hr, hroom⟩ := h.table
  refine ⟨⟨s, hr, hroom⟩, ?_, h.text, ?_, h.empty, h.stored.congr rfl (fun _ => rfl) (fun _ => rfl) rfl rfl rfl rfl rfl⟩
  · intro n' k hkm hkk
    show (if (Ptr.slot k) = .slot i then v else c.mem (.slot k)) = if n' = n then v else st.num n'
    by_cases hki : k = i
    · subst hki
      have : n' = n := hkk.2.symm.trans hk.2
      rw [if_pos rfl, if_pos this]
    · rw [if_neg (by simpa using hki)]
      have hne : n' ≠ n := by
        rintro rfl
        exact hki (Vars.hasKey_unique hr.inv hkm hi hkk hk)
      rw [if_neg hne]
      exact h.value n' k hkm hkk
  · intro n' hn' habs
    have hne : n' ≠ n := by
      rintro rfl
      exact habs i hi hk
    show (if n' = n then v else st.num n') = 0
    rw [if_neg hne]
    exact h.zero n' hn' habs

/-- Assigning a string to a variable. -/
theorem Holds.assignStr {U : List (List Nat)} {st : Store} {c : Core σ} (h : Holds U st c) {n : List Nat} {i : Nat}
    (hi : i < c.vars.max) (hk : Vars.HasKey c.vars i (n, .str)) (v : List Nat) :
    Holds U (st.setStr (n ++ [36]) v) (c.storeStr (.slot i) v) := by
  obtain ⟨s, hr, hroom⟩ := h.table
  have hinj : ∀ n', n' ++ [36] = n ++ [36] → n' = n := fun n' e => List.append_cancel_right e
  refine ⟨⟨s, hr, hroom⟩, h.value, ?_, h.zero, ?_, h.stored.congr rfl (fun _ => rfl) (fun _ => rfl) rfl rfl rfl rfl rfl⟩
  · intro n' k hkm hkk
    show (if (Ptr.slot k) = .slot i then v else c.smem (.slot k)) = if n' ++ [36] = n ++ [36] then v else st.str (n' ++ [36])
    by_cases hki : k = i
    · subst hki
      have : n' = n := hkk.2.symm.trans hk.2
      rw [if_pos rfl, if_pos (by rw [this])]
    · rw [if_neg (by simpa using hki)]
      have hne : n' ≠ n := by
        rintro rfl
        exact hki (Vars.hasKey_unique hr.inv hkm hi hkk hk)
      rw [if_neg (fun e => hne (hinj n' e))]
      exact h.text n' k hkm hkk
  · intro n' hn' habs
    have hne : n' ≠ n := by
      rintro rfl
      exact habs i hi hk
    show (if n' ++ [36] = n ++ [36] then v else st.str (n' ++ [36])) = []
    rw [if_neg (fun e => hne (hinj n' e))]
    exact h.empty n' hn' habs

end Sbc.Source
