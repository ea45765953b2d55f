import Verif.Spec.StrPool
set_option autoImplicit false
/-!
# Counting references to pool entries
-/
namespace Sbc.StrPool
open Sbc Sbc.Strs

/-- Number of times a list of entries mentions pool entry `i` as a temporary. -/
def cnt (es : List Entry) (i : Nat) : Nat := es.countP fun e => decide (e = .temp i)

/-- Number of variables below `n` referring to pool entry `i`. -/
def vcnt (vars : Nat → Ref) : Nat → Nat → Nat
  | 0, _ => 0
  | n + 1, i => vcnt vars n i + if vars n = .slot i then 1 else 0

/-- All references to pool entry `i`. -/
def refs (st : St) (i : Nat) : Nat := vcnt st.vars st.n i + cnt st.stack i

theorem cnt_nil (i : Nat) : cnt [] i = 0 := rfl

theorem cnt_cons (e : Entry) (es : List Entry) (i : Nat) : cnt (e :: es) i = cnt es i + if e = .temp i then 1 else 0 := by
  unfold cnt; rw [List.countP_cons]; by_cases h : e = .temp i <;> simp [h]

theorem cnt_append (es fs : List Entry) (i : Nat) : cnt (es ++ fs) i = cnt es i + cnt fs i := by
  unfold cnt; rw [List.countP_append]

theorem cnt_split (k : Nat) (es : List Entry) (i : Nat) : cnt (es.take k) i + cnt (es.drop k) i = cnt es i := by
  rw [← cnt_append, List.take_append_drop]

theorem vcnt_out (vars : Nat → Ref) (n v : Nat) (r : Ref) (i : Nat) (h : n ≤ v) :
    vcnt (upd vars v r) n i = vcnt vars n i := by
  induction n with
  | zero => rfl
  | succ n ih =>
    unfold vcnt
    rw [ih (by omega), upd_other _ _ (by omega)]

/-- Changing one variable. -/
theorem vcnt_upd (vars : Nat → Ref) (n v : Nat) (r : Ref) (i : Nat) (h : v < n) :
    vcnt (upd vars v r) n i + (if vars v = .slot i then 1 else 0) = vcnt vars n i + (if r = .slot i then 1 else 0) := by
  induction n with
  | zero => omega
  | succ n ih =>
    unfold vcnt
    by_cases hv : v = n
    · subst hv
      rw [vcnt_out _ _ _ _ _ (Nat.le_refl _), upd_same]; omega
    · have := ih (by omega)
      rw [upd_other _ _ (by omega)]; omega

theorem vcnt_pos (vars : Nat → Ref) (n v i : Nat) (h : v < n) (hv : vars v = .slot i) : 0 < vcnt vars n i := by
  induction n with
  | zero => omega
  | succ n ih =>
    unfold vcnt
    by_cases h1 : v = n
    · subst h1; rw [if_pos hv]; omega
    · have := ih (by omega); omega

theorem vcnt_empty (n i : Nat) : vcnt (fun _ => Ref.empty) n i = 0 := by
  induction n with
  | zero => rfl
  | succ n ih => unfold vcnt; simp [ih]

/-- The string an entry stands for. -/
def content (st : St) : Entry → Str
  | .const s => ⟨false, s⟩
  | .temp i => (st.slot i).str
  | .var v => st.deref (st.vars v)

/-- Variables on the stack exist. -/
def VarOk (n : Nat) : Entry → Prop
  | .var v => v < n
  | _ => True

/-- Use counts reduced by what the entries mention. -/
def St.less (st : St) (es : List Entry) : St :=
  { st with slot := fun i => { st.slot i with uses := (st.slot i).uses - cnt es i } }

theorem deref_congr (st st' : St) (h : ∀ i, (st'.slot i).str = (st.slot i).str) (r : Ref) : st'.deref r = st.deref r := by
  cases r with
  | empty => rfl
  | slot i => exact h i

theorem content_congr (st st' : St) (h : ∀ i, (st'.slot i).str = (st.slot i).str) (hv : st'.vars = st.vars) (e : Entry) :
    content st' e = content st e := by
  cases e with
  | const s => rfl
  | temp i => exact h i
  | var v => unfold content; rw [hv]; exact deref_congr st st' h _

theorem valueStrs_ok (es : List Entry) (st : St) (hv : ∀ e ∈ es, VarOk st.n e) (hc : ∀ i, cnt es i ≤ (st.slot i).uses) :
    st.valueStrs es = .ok (st.less es, es.map (content st)) := by
  induction es generalizing st with
  | nil =>
    unfold St.valueStrs St.less
    simp [cnt_nil]
  | cons e es ih =>
    have hv' : ∀ e ∈ es, VarOk st.n e := fun x hx => hv x (List.mem_cons_of_mem _ hx)
    unfold St.valueStrs
    cases e with
    | const s =>
      have hc' : ∀ i, cnt es i ≤ (st.slot i).uses := fun i => by have := hc i; rw [cnt_cons] at this; omega
      show (Out.ok (st, _)).bind _ = _
      show ((st.valueStrs es).bind _) = _
      rw [ih st hv' hc']
      show Out.ok _ = _
      congr 2
    | var v =>
      have hvn : v < st.n := hv (.var v) List.mem_cons_self
      have hc' : ∀ i, cnt es i ≤ (st.slot i).uses := fun i => by have := hc i; rw [cnt_cons] at this; omega
      have h1 : st.valueStr (.var v) = .ok (st, st.deref (st.vars v)) := by
        show (if v < st.n then _ else _) = _
        rw [if_pos hvn]
      rw [h1]
      show ((st.valueStrs es).bind _) = _
      rw [ih st hv' hc']
      show Out.ok _ = _
      congr 2
    | temp j =>
      have hj := hc j
      rw [cnt_cons, if_pos rfl] at hj
      have h1 : st.valueStr (.temp j) = .ok (st.setUses j ((st.slot j).uses - 1), (st.slot j).str) := by
        show (if (st.slot j).uses = 0 then Out.ub else _).bind _ = _
        rw [if_neg (by omega)]; rfl
      rw [h1]
      show (((st.setUses j ((st.slot j).uses - 1)).valueStrs es).bind _) = _
      have hu : ∀ i, ((st.setUses j ((st.slot j).uses - 1)).slot i).uses = if i = j then (st.slot j).uses - 1 else (st.slot i).uses := by
        intro i; unfold St.setUses upd; simp only []; split <;> rfl
      have hs : ∀ i, ((st.setUses j ((st.slot j).uses - 1)).slot i).str = (st.slot i).str := by
        intro i; unfold St.setUses upd; simp only []; split
        · next h => rw [h]
        · rfl
      rw [ih (st.setUses j ((st.slot j).uses - 1)) hv' (by
        intro i; rw [hu]; have := hc i; rw [cnt_cons] at this
        split
        · next h => subst h; rw [if_pos rfl] at this; omega
        · next h => omega)]
      show Out.ok _ = _
      congr 1
      refine Prod.ext ?_ ?_
      · show St.less _ es = St.less st _
        unfold St.less
        show St.mk _ _ _ _ _ = St.mk _ _ _ _ _
        congr 1
        funext i
        have a := hu i; have b := hs i
        show Slot.mk _ _ = Slot.mk _ _
        rw [a, b, cnt_cons]
        by_cases h : i = j
        · subst h; simp; omega
        · have : ¬ (Entry.temp j = Entry.temp i) := fun hh => h (by injection hh with hh; exact hh.symm)
          simp [h, this]
      · show _ :: List.map (content _) es = List.map (content st) (.temp j :: es)
        rw [List.map_cons]
        congr 1
        apply List.map_congr_left
        intro e _
        exact content_congr st _ hs rfl e

/-- Every reference is counted; `L` are the uses counted without a reference. -/
structure Inv (st : St) (L : Nat → Nat) : Prop where
  counted : ∀ i, (st.slot i).uses = refs st i + L i
  vars : ∀ e ∈ st.stack, VarOk st.n e

/-- `get_new_str` returns an entry without uses, inside the pool. -/
theorem newLoop_some (st : St) (fuel i z : Nat) (hi : i < st.max) (h : newLoop st fuel i = some z) :
    (st.slot z).uses = 0 ∧ z < st.max := by
  induction fuel generalizing i with
  | zero => simp [newLoop] at h
  | succ f ih =>
    unfold newLoop at h
    split at h
    · split at h
      · simp at h
      · exact ih (i + 1) (by omega) h
    · next hu => simp at h; subst h; exact ⟨by omega, hi⟩

theorem newLoop_uses (st : St) (fuel i z : Nat) (h : newLoop st fuel i = some z) : (st.slot z).uses = 0 := by
  induction fuel generalizing i with
  | zero => simp [newLoop] at h
  | succ f ih =>
    unfold newLoop at h
    split at h
    · split at h
      · simp at h
      · exact ih (i + 1) h
    · next hu => simp at h; subst h; omega

theorem newLoop_none (st : St) (fuel i : Nat) (hf : st.max < fuel + i) (h : newLoop st fuel i = none) :
    ∀ j, i ≤ j → j < st.max → 0 < (st.slot j).uses := by
  induction fuel generalizing i with
  | zero => intro j h1 h2; omega
  | succ f ih =>
    unfold newLoop at h
    split at h
    · next hu =>
      split at h
      · intro j h1 h2; have : j = i := by omega
        subst this; exact hu
      · intro j h1 h2
        by_cases hj : j = i
        · subst hj; exact hu
        · exact ih (i + 1) (by omega) h j (by omega) h2
    · simp at h

theorem new_uses {st : St} {z : Nat} (h : getNewStr st = some z) : (st.slot z).uses = 0 := newLoop_uses st _ _ z h

theorem new_bound {st : St} {z : Nat} (hm : 0 < st.max) (h : getNewStr st = some z) : z < st.max :=
  (newLoop_some st _ _ z hm h).2

theorem new_none {st : St} (h : getNewStr st = none) (j : Nat) (hj : j < st.max) : 0 < (st.slot j).uses :=
  newLoop_none st _ _ (by omega) h j (Nat.zero_le _) hj

/-- The item of the specification an entry stands for. -/
def item (st : St) : Entry → Spec.Item
  | .const s => .lit s
  | .temp i => .val (st.slot i).str
  | .var v => .var v

/-- The pool represents the values. -/
structure Sim (st : St) (a : Spec.State) : Prop where
  vals : ∀ v, v < st.n → st.deref (st.vars v) = a.vals v
  stack : a.stack = st.stack.map (item st)

theorem item_congr (st st' : St) (e : Entry) (h : ∀ i, e = .temp i → (st'.slot i).str = (st.slot i).str) :
    item st' e = item st e := by
  cases e with
  | const s => rfl
  | temp i => exact congrArg Spec.Item.val (h i rfl)
  | var v => rfl

theorem item_get {st : St} {a : Spec.State} (h : Sim st a) (e : Entry) (hv : VarOk st.n e) : a.get (item st e) = content st e := by
  cases e with
  | const s => rfl
  | temp i => rfl
  | var v => exact (h.vals v hv).symm

theorem uses_setUses (st : St) (j k i : Nat) : ((st.setUses j k).slot i).uses = if i = j then k else (st.slot i).uses := by
  unfold St.setUses upd; simp only []; split <;> rfl

theorem str_setUses (st : St) (j k i : Nat) : ((st.setUses j k).slot i).str = (st.slot i).str := by
  unfold St.setUses upd; simp only []; split
  · next h => rw [h]
  · rfl

theorem uses_setStr (st : St) (j : Nat) (s : Str) (i : Nat) : ((st.setStr j s).slot i).uses = (st.slot i).uses := by
  unfold St.setStr upd; simp only []; split
  · next h => rw [h]
  · rfl

theorem str_setStr (st : St) (j : Nat) (s : Str) (i : Nat) : ((st.setStr j s).slot i).str = if i = j then s else (st.slot i).str := by
  unfold St.setStr upd; simp only []; split <;> rfl

theorem uses_less (st : St) (es : List Entry) (i : Nat) : ((st.less es).slot i).uses = (st.slot i).uses - cnt es i := rfl
theorem str_less (st : St) (es : List Entry) (i : Nat) : ((st.less es).slot i).str = (st.slot i).str := rfl

theorem cnt_pos {es : List Entry} {i : Nat} (h : Entry.temp i ∈ es) : 0 < cnt es i := by
  unfold cnt; rw [List.countP_pos_iff]; exact ⟨_, h, by simp⟩

/-- A pool entry without uses is mentioned nowhere. -/
theorem free_var {st : St} {L : Nat → Nat} (h : Inv st L) {z : Nat} (hz : (st.slot z).uses = 0) (v : Nat) (hv : v < st.n) :
    st.vars v ≠ .slot z := by
  intro hh
  have := vcnt_pos st.vars st.n v z hv hh
  have := h.counted z; unfold refs at this; omega

theorem free_temp {st : St} {L : Nat → Nat} (h : Inv st L) {z : Nat} (hz : (st.slot z).uses = 0) : Entry.temp z ∉ st.stack := by
  intro hh
  have := cnt_pos hh
  have := h.counted z; unfold refs at this; omega

/-- Contents after a change that leaves the strings of all entries but the free entry `z`. -/
theorem sim_free {st st' : St} {a : Spec.State} {L : Nat → Nat} (h : Inv st L) (hs : Sim st a) {z : Nat} (hz : (st.slot z).uses = 0)
    (hn : st'.n = st.n) (hvars : st'.vars = st.vars) (hstr : ∀ i, i ≠ z → (st'.slot i).str = (st.slot i).str) :
    (∀ v, v < st'.n → st'.deref (st'.vars v) = a.vals v) ∧ ∀ e ∈ st.stack, item st' e = item st e := by
  constructor
  · intro v hv
    rw [hn] at hv
    rw [hvars, ← hs.vals v hv]
    have := free_var h hz v hv
    cases hr : st.vars v with
    | empty => rfl
    | slot i => exact hstr i (fun hh => this (by rw [hr, hh]))
  · intro e he
    apply item_congr
    intro i hi
    exact hstr i (fun hh => free_temp h hz (by rw [← hh, ← hi]; exact he))

theorem items_get {st : St} {a : Spec.State} (hs : Sim st a) (es : List Entry) (hv : ∀ e ∈ es, VarOk st.n e) :
    (es.map (item st)).map a.get = es.map (content st) := by
  rw [List.map_map]
  apply List.map_congr_left
  intro e he
  exact item_get hs e (hv e he)

/-- What a step establishes. -/
def Kept (n : Nat) (a : Spec.State) (L : Nat → Nat) (op : Op) (st' : St) (e : Option Err) : Prop :=
  ∃ a', Spec.step n a op = some (a', e) ∧ Sim st' a' ∧ st'.n = n ∧
    ∃ L', Inv st' L' ∧ (Spec.tidyStep n a op = true → (∀ i, L i = 0) → ∀ i, L' i = 0)

theorem kept_use {st : St} {a : Spec.State} {L : Nat → Nat} (h : Inv st L) (hs : Sim st a) (k : Nat) {st' : St} {e : Option Err}
    (hk : step st (.use k) = .ok (st', e)) : Kept st.n a L (.use k) st' e := by
  change (if st.stack.length < k then Out.ub else _) = _ at hk
  by_cases hlen : st.stack.length < k
  · rw [if_pos hlen] at hk; cases hk
  rw [if_neg hlen] at hk
  have hle : ∀ i, cnt (st.stack.take k) i ≤ (st.slot i).uses := fun i => by
    have := h.counted i; have := cnt_split k st.stack i; unfold refs at *; omega
  rw [valueStrs_ok _ { st with stack := st.stack.drop k } (fun e he => h.vars e (List.mem_of_mem_take he)) hle] at hk
  change Out.ok _ = _ at hk
  injection hk with hk; injection hk with h1 h2; subst h1; subst h2
  have hl : a.stack.length = st.stack.length := by rw [hs.stack, List.length_map]
  refine ⟨{ a with stack := a.stack.drop k }, ?_, ⟨?_, ?_⟩, rfl, L, ⟨?_, ?_⟩, fun _ hL => hL⟩
  · unfold Spec.step; simp only []; rw [if_neg (by omega)]
  · exact hs.vals
  · show List.drop k a.stack = (st.stack.drop k).map _
    rw [hs.stack, ← List.map_drop]
    rfl
  · intro i
    rw [uses_less]
    have := h.counted i; have := cnt_split k st.stack i
    unfold refs at *
    show (st.slot i).uses - _ = vcnt st.vars st.n i + cnt (st.stack.drop k) i + L i
    omega
  · intro e he; exact h.vars e (List.mem_of_mem_drop he)

theorem kept_fn {st : St} {a : Spec.State} {L : Nat → Nat} (h : Inv st L) (hs : Sim st a) (k : Nat) (f : List Str → Outcome)
    {st' : St} {e : Option Err} (hk : step st (.fn k f) = .ok (st', e)) : Kept st.n a L (.fn k f) st' e := by
  change (if st.stack.length < k then Out.ub else _) = _ at hk
  by_cases hlen : st.stack.length < k
  · rw [if_pos hlen] at hk; cases hk
  rw [if_neg hlen] at hk
  cases hz : getNewStr st with
  | none => rw [hz] at hk; cases hk
  | some z =>
    rw [hz] at hk
    simp only [] at hk
    have hzu := new_uses hz
    have hle : ∀ i, cnt (st.stack.take k) i ≤ (st.slot i).uses := fun i => by
      have := h.counted i; have := cnt_split k st.stack i; unfold refs at *; omega
    have hvt : ∀ e ∈ st.stack.take k, VarOk st.n e := fun e he => h.vars e (List.mem_of_mem_take he)
    have hvd : ∀ e ∈ st.stack.drop k, VarOk st.n e := fun e he => h.vars e (List.mem_of_mem_drop he)
    rw [valueStrs_ok _ { st with stack := st.stack.drop k } hvt hle] at hk
    have hcont : (st.stack.take k).map (content { st with stack := st.stack.drop k }) = (st.stack.take k).map (content st) :=
      List.map_congr_left fun e _ => content_congr st { st with stack := st.stack.drop k } (fun _ => rfl) rfl e
    rw [hcont] at hk
    simp only [Out.bind] at hk
    have hl : a.stack.length = st.stack.length := by rw [hs.stack, List.length_map]
    have hargs : (a.stack.take k).map a.get = (st.stack.take k).map (content st) := by
      rw [hs.stack, ← List.map_take]; exact items_get hs _ hvt
    have hcz : cnt st.stack z = 0 ∧ L z = 0 ∧ vcnt st.vars st.n z = 0 := by
      have := h.counted z; unfold refs at this; omega
    have hspec : Spec.step st.n a (.fn k f) = match f ((st.stack.take k).map (content st)) with
      | .fresh s => some ({ a with stack := .val s :: a.stack.drop k }, none)
      | .const s => some ({ a with stack := .lit s :: a.stack.drop k }, none)
      | .early e | .late e => some ({ a with stack := [] }, some e) := by
      show (if a.stack.length < k then none else _) = _
      rw [if_neg (by omega), hargs]
      cases f ((st.stack.take k).map (content st)) <;> rfl
    cases hf : f ((st.stack.take k).map (content st)) with
    | fresh s =>
      rw [hf] at hk hspec
      simp only [fin] at hk
      injection hk with hk; injection hk with h1 h2; subst h1; subst h2
      have fr := sim_free (st' := ((({ st with stack := st.stack.drop k }).less (st.stack.take k)).setUses z 1).setStr z s) h hs hzu rfl rfl
        (fun i hi => by rw [str_setStr, if_neg hi, str_setUses, str_less])
      refine ⟨_, hspec, ⟨fr.1, ?_⟩, rfl, L, ⟨?_, ?_⟩, fun _ hL => hL⟩
      · show Spec.Item.val s :: a.stack.drop k = item _ (.temp z) :: (st.stack.drop k).map _
        congr 1
        · refine congrArg Spec.Item.val ?_
          exact (by rw [str_setStr, if_pos rfl] : s = (((((({ st with stack := st.stack.drop k }).less (st.stack.take k)).setUses z 1).setStr z s).slot z).str))
        · rw [hs.stack, ← List.map_drop]
          apply List.map_congr_left
          intro e he
          exact (fr.2 e (List.mem_of_mem_drop he)).symm
      · intro i
        show (((((({ st with stack := st.stack.drop k }).less (st.stack.take k)).setUses z 1).setStr z s).slot i).uses) =
          vcnt st.vars st.n i + cnt (.temp z :: st.stack.drop k) i + L i
        rw [uses_setStr, uses_setUses, cnt_cons, uses_less]
        have := h.counted i; have := cnt_split k st.stack i; unfold refs at *
        by_cases hi : i = z
        · subst hi; simp; omega
        · have hne : ¬ (Entry.temp z = Entry.temp i) := fun hh => hi (by injection hh with hh; exact hh.symm)
          rw [if_neg hi, if_neg hne]
          show (st.slot i).uses - _ = _
          omega
      · intro e he
        cases List.mem_cons.1 he with
        | inl he => subst he; trivial
        | inr he => exact hvd e he
    | const s =>
      rw [hf] at hk hspec
      simp only [fin] at hk
      injection hk with hk; injection hk with h1 h2; subst h1; subst h2
      refine ⟨_, hspec, ⟨hs.vals, ?_⟩, rfl, L, ⟨?_, ?_⟩, fun _ hL => hL⟩
      · show Spec.Item.lit s :: a.stack.drop k = Spec.Item.lit s :: (st.stack.drop k).map _
        rw [hs.stack, ← List.map_drop]; rfl
      · intro i
        show (st.slot i).uses - cnt (st.stack.take k) i = vcnt st.vars st.n i + cnt (.const s :: st.stack.drop k) i + L i
        rw [cnt_cons, if_neg (by simp)]
        have := h.counted i; have := cnt_split k st.stack i; unfold refs at *; omega
      · intro e he
        cases List.mem_cons.1 he with
        | inl he => subst he; trivial
        | inr he => exact hvd e he
    | early x =>
      rw [hf] at hk hspec
      simp only [fail] at hk
      injection hk with hk; injection hk with h1 h2; subst h1; subst h2
      refine ⟨_, hspec, ⟨hs.vals, rfl⟩, rfl, fun i => L i + cnt (st.stack.drop k) i, ⟨?_, ?_⟩, ?_⟩
      · intro i
        show (st.slot i).uses - cnt (st.stack.take k) i = vcnt st.vars st.n i + cnt [] i + _
        rw [cnt_nil]
        have := h.counted i; have := cnt_split k st.stack i; unfold refs at *; omega
      · intro e he; cases he
      · intro ht; unfold Spec.tidyStep at ht; rw [hspec] at ht; simp at ht
    | late x =>
      rw [hf] at hk hspec
      simp only [fail] at hk
      injection hk with hk; injection hk with h1 h2; subst h1; subst h2
      have fr := sim_free (st' := (({ st with stack := st.stack.drop k }).less (st.stack.take k)).setUses z 1) h hs hzu rfl rfl
        (fun i _ => by rw [str_setUses, str_less])
      refine ⟨_, hspec, ⟨fr.1, rfl⟩, rfl, fun i => L i + cnt (st.stack.drop k) i + if i = z then 1 else 0, ⟨?_, ?_⟩, ?_⟩
      · intro i
        show (((({ st with stack := st.stack.drop k }).less (st.stack.take k)).setUses z 1).slot i).uses = vcnt st.vars st.n i + cnt [] i + _
        rw [cnt_nil, uses_setUses, uses_less]
        have := h.counted i; have := cnt_split k st.stack i; unfold refs at *
        by_cases hi : i = z
        · subst hi; rw [if_pos rfl, if_pos rfl]; omega
        · rw [if_neg hi, if_neg hi]; show (st.slot i).uses - _ = _; omega
      · intro e he; cases he
      · intro ht; unfold Spec.tidyStep at ht; rw [hspec] at ht; simp at ht

/-- Releasing the old string of a variable. -/
theorem release_ok (st : St) (v : Nat) (hu : ∀ i, st.vars v = .slot i → 0 < (st.slot i).uses) :
    ∃ st', release st v = .ok st' ∧ st'.n = st.n ∧ st'.max = st.max ∧ st'.vars = st.vars ∧ st'.stack = st.stack ∧ (∀ i, (st'.slot i).str = (st.slot i).str) ∧
      ∀ i, (st'.slot i).uses + (if st.vars v = .slot i then 1 else 0) = (st.slot i).uses := by
  unfold release
  cases hr : st.vars v with
  | empty => exact ⟨st, rfl, rfl, rfl, rfl, rfl, fun _ => rfl, fun i => by simp⟩
  | slot j =>
    have := hu j hr
    refine ⟨st.setUses j ((st.slot j).uses - 1), ?_, rfl, rfl, rfl, rfl, str_setUses _ _ _, ?_⟩
    · show (if (st.slot j).uses = 0 then Out.ub else _) = _
      rw [if_neg (by omega)]
    · intro i
      rw [uses_setUses]
      by_cases hi : i = j
      · subst hi; simp; omega
      · have : ¬ (Ref.slot j = Ref.slot i) := fun hh => hi (by injection hh with hh; exact hh.symm)
        simp [hi, this]

theorem tidy_same {n : Nat} {a : Spec.State} {L : Nat → Nat} {op : Op} :
    Spec.tidyStep n a op = true → (∀ i, L i = 0) → ∀ i, L i = 0 := fun _ h => h

/-- The common end of assignments: variable `v` now refers to entry `i`, whose string is `s`. -/
theorem sim_assign {st st' : St} {a : Spec.State} {v i : Nat} {s : Str} {rest : List Entry} (hs : Sim st a)
    (hn : st'.n = st.n) (hvars : st'.vars = upd st.vars v (.slot i)) (hst : st'.stack = rest)
    (hstr : ∀ u, u < st.n → u ≠ v → st'.deref (st.vars u) = st.deref (st.vars u))
    (hi : (st'.slot i).str = s) (hrest : ∀ e ∈ rest, item st' e = item st e) :
    Sim st' { a.put v s with stack := rest.map (item st) } := by
  constructor
  · intro u hu
    rw [hn] at hu
    rw [hvars]
    by_cases h : u = v
    · subst h; rw [upd_same]; show _ = if u = u then s else _; rw [if_pos rfl]; exact hi
    · rw [upd_other _ _ h, hstr u hu h]; show _ = if u = v then s else _; rw [if_neg h]; exact hs.vals u hu
  · rw [hst]; exact (List.map_congr_left hrest).symm

theorem kept_assign {st : St} {a : Spec.State} {L : Nat → Nat} (h : Inv st L) (hs : Sim st a) {st' : St} {e : Option Err}
    (hk : step st .assign = .ok (st', e)) (he : e ≠ some .outOfMemory) : Kept st.n a L .assign st' e := by
  have hk' : (match st.stack with
    | b :: .var v :: rest => if v < st.n then assignTo { st with stack := rest } v b else .ub
    | _ => .ub) = .ok (st', e) := hk
  clear hk
  split at hk'
  case h_2 => cases hk'
  case h_1 b v rest hstk =>
  by_cases hvn : ¬ v < st.n
  · rw [if_neg hvn] at hk'; cases hk'
  have hvn : v < st.n := Decidable.not_not.1 hvn
  rw [if_pos hvn] at hk'
  have hk := hk'
  clear hk'
  have hb : VarOk st.n b := h.vars b (by rw [hstk]; simp)
  have hrestv : ∀ x ∈ rest, VarOk st.n x := fun x hx => h.vars x (by rw [hstk]; simp [hx])
  have hspec : Spec.step st.n a .assign = some ({ a.put v (content st b) with stack := rest.map (item st) }, none) := by
    show (match a.stack with | b :: .var v :: rest => if v < st.n then some ({ a.put v (a.get b) with stack := rest }, none) else none | _ => none) = _
    rw [hs.stack, hstk]
    show (if v < st.n then _ else _) = _
    rw [if_pos hvn, item_get hs b hb]
  have hcount : ∀ i, (st.slot i).uses = vcnt st.vars st.n i + (cnt rest i + if b = .temp i then 1 else 0) + L i := by
    intro i; have := h.counted i; unfold refs at this; rw [hstk, cnt_cons, cnt_cons] at this; simp at this; exact this
  have hupd := fun r i => vcnt_upd st.vars st.n v r i hvn
  have hinv : ∀ i (st'' : St), st''.n = st.n → st''.vars = upd st.vars v (.slot i) → st''.stack = rest →
      (∀ j, (st''.slot j).uses + (if st.vars v = .slot j then 1 else 0) + (if b = .temp j then 1 else 0) = (st.slot j).uses + if j = i then 1 else 0) →
      Inv st'' L := by
    intro i st'' hn hv hst hu
    constructor
    · intro j
      unfold refs
      rw [hn, hv, hst]
      have h1 := hu j; have h2 := hcount j; have h3 := hupd (.slot i) j
      have h4 : (if Ref.slot i = Ref.slot j then 1 else 0) = if j = i then 1 else (0 : Nat) := by
        by_cases hj : j = i
        · subst hj; simp
        · have : ¬ (Ref.slot i = Ref.slot j) := fun hh => hj (by injection hh with hh; exact hh.symm)
          simp [hj, this]
      rw [h4] at h3
      omega
    · rw [hst, hn]; exact hrestv
  unfold assignTo at hk
  -- the part common to sharing: entry `i` is referred to by `b`
  have share : ∀ (i : Nat) (st1 : St), st1.n = st.n → st1.vars = st.vars → st1.stack = rest → (∀ j, (st1.slot j).str = (st.slot j).str) →
      (∀ j, (st1.slot j).uses + (if b = .temp j then 1 else 0) = (st.slot j).uses) → content st b = (st.slot i).str →
      ((release st1 v).bind fun st' => fin { st'.inc i with vars := upd st'.vars v (.slot i) }) = .ok (st', e) →
      Kept st.n a L .assign st' e := by
    intro i st1 hn hv hst hstr hu hc hk
    obtain ⟨st2, hr, hn2, _, hv2, hst2, hstr2, hu2⟩ := release_ok st1 v (by
      intro j hj; rw [hv] at hj
      have := vcnt_pos st.vars st.n v j hvn hj
      have := hcount j; have := hu j
      omega)
    rw [hr] at hk
    simp only [Out.bind, fin] at hk
    injection hk with hk; injection hk with h1 h2; subst h1; subst h2
    have hs2 : ∀ j, ((st2.inc i).slot j).str = (st.slot j).str := by
      intro j; unfold St.inc; rw [str_setUses, hstr2, hstr]
    refine ⟨_, hspec, ?_, ?_, L, ?_, tidy_same⟩
    · refine sim_assign (i := i) hs ?_ ?_ ?_ ?_ ?_ ?_
      · show st2.n = st.n; rw [hn2, hn]
      · show upd st2.vars v _ = _; rw [hv2, hv]
      · show st2.stack = _; rw [hst2, hst]
      · intro u hu hne
        exact deref_congr st (st2.inc i) hs2 _
      · show ((st2.inc i).slot i).str = _; rw [hs2, hc]
      · intro x hx; exact item_congr _ _ _ (fun j _ => hs2 j)
    · show st2.n = st.n; rw [hn2, hn]
    · refine hinv i _ (by show st2.n = st.n; rw [hn2, hn]) (by show upd st2.vars v _ = _; rw [hv2, hv]) (by show st2.stack = _; rw [hst2, hst]) ?_
      intro j
      have h1 := hu2 j; have h2 := hu j
      show ((st2.inc i).slot j).uses + _ + _ = _
      unfold St.inc; rw [uses_setUses]
      rw [hv] at h1
      by_cases hj : j = i
      · subst hj; rw [if_pos rfl, if_pos rfl]; omega
      · rw [if_neg hj, if_neg hj]; omega
  -- the part common to copying
  have copy : (∀ j, b ≠ .temp j) →
      ((release { st with stack := rest } v).bind fun st' =>
        match getNewStr { st with stack := rest } with
        | none => fail st' .outOfMemory
        | some z => fin { (st'.setStr z (content st b)).inc z with vars := upd st'.vars v (.slot z) }) = .ok (st', e) →
      Kept st.n a L .assign st' e := by
    intro hnt hk
    obtain ⟨st2, hr, hn2, _, hv2, hst2, hstr2, hu2⟩ := release_ok { st with stack := rest } v (by
      intro j hj
      have := vcnt_pos st.vars st.n v j hvn hj
      have := hcount j
      show 0 < (st.slot j).uses
      omega)
    rw [hr] at hk
    simp only [Out.bind] at hk
    cases hz : getNewStr { st with stack := rest } with
    | none =>
      rw [hz] at hk; simp only [fail] at hk
      injection hk with hk; injection hk with h1 h2
      exact absurd h2.symm he
    | some z =>
      rw [hz] at hk
      simp only [fin] at hk
      injection hk with hk; injection hk with h1 h2; subst h1; subst h2
      have hzu : (st.slot z).uses = 0 := new_uses (st := { st with stack := rest }) hz
      have hs2 : ∀ j, (((st2.setStr z (content st b)).inc z).slot j).str = if j = z then content st b else (st.slot j).str := by
        intro j; unfold St.inc; rw [str_setUses, str_setStr, hstr2]
      refine ⟨_, hspec, ?_, hn2, L, ?_, tidy_same⟩
      · refine sim_assign (i := z) hs ?_ ?_ ?_ ?_ ?_ ?_
        · exact hn2
        · show upd st2.vars v _ = _; rw [hv2]
        · exact hst2
        · intro u hu hne
          have := free_var h hzu u hu
          cases hr : st.vars u with
          | empty => rfl
          | slot i =>
            show (((st2.setStr z (content st b)).inc z).slot i).str = _
            rw [hs2, if_neg (fun hh => this (by rw [hr, hh]))]; rfl
        · show (((st2.setStr z (content st b)).inc z).slot z).str = _
          rw [hs2, if_pos rfl]
        · intro x hx
          apply item_congr
          intro j hj
          show (((st2.setStr z (content st b)).inc z).slot j).str = _
          rw [hs2, if_neg]
          intro hh
          exact free_temp h hzu (by rw [hstk, ← hh, ← hj]; simp [hx])
      · refine hinv z _ hn2 (by show upd st2.vars v _ = _; rw [hv2]) hst2 ?_
        intro j
        have h1 := hu2 j
        show (((st2.setStr z (content st b)).inc z).slot j).uses + _ + _ = _
        unfold St.inc; rw [uses_setUses, uses_setStr, uses_setStr, if_neg (hnt j)]
        have h1 : (st2.slot j).uses + (if st.vars v = Ref.slot j then 1 else 0) = (st.slot j).uses := h1
        by_cases hj : j = z
        · subst hj; rw [if_pos rfl, if_pos rfl]; omega
        · rw [if_neg hj, if_neg hj]; omega
  cases b with
  | const t => exact copy (by intro j hh; cases hh) hk
  | temp i =>
    have hi := hcount i
    rw [if_pos rfl] at hi
    have h1 : St.valueStr { st with stack := rest } (.temp i) = .ok (St.setUses { st with stack := rest } i ((st.slot i).uses - 1), (st.slot i).str) := by
      show (if (st.slot i).uses = 0 then Out.ub else _).bind _ = _
      rw [if_neg (by omega)]; rfl
    rw [h1] at hk
    refine share i (St.setUses { st with stack := rest } i ((st.slot i).uses - 1)) rfl rfl rfl (str_setUses _ _ _) ?_ rfl hk
    intro j
    rw [uses_setUses]
    by_cases hj : j = i
    · subst hj; rw [if_pos rfl, if_pos rfl]; omega
    · have : ¬ (Entry.temp i = Entry.temp j) := fun hh => hj (by injection hh with hh; exact hh.symm)
      rw [if_neg hj, if_neg this]; rfl
  | var u =>
    have h1 : St.valueStr { st with stack := rest } (.var u) = .ok ({ st with stack := rest }, st.deref (st.vars u)) := by
      show (if u < st.n then _ else _) = _
      rw [if_pos (show u < st.n from hb)]; rfl
    rw [h1] at hk
    simp only [Out.bind] at hk
    cases hr : st.vars u with
    | empty =>
      rw [hr] at hk
      refine copy (by intro j hh; cases hh) ?_
      rw [show content st (.var u) = emptyStr by unfold content; simp only [hr]; rfl]
      exact hk
    | slot i =>
      rw [hr] at hk
      refine share i { st with stack := rest } rfl rfl rfl (fun _ => rfl) (fun j => ?_) ?_ hk
      · rw [if_neg (by intro hh; cases hh)]; rfl
      · unfold content; simp only [hr]; rfl

theorem kept_input {st : St} {a : Spec.State} {L : Nat → Nat} (h : Inv st L) (hs : Sim st a) (v : Nat) (s : Str) {st' : St} {e : Option Err}
    (hk : step st (.input v s) = .ok (st', e)) : Kept st.n a L (.input v s) st' e := by
  change (if v < st.n then _ else Out.ub) = _ at hk
  by_cases hvn : ¬ v < st.n
  · rw [if_neg hvn] at hk; cases hk
  have hvn : v < st.n := Decidable.not_not.1 hvn
  rw [if_pos hvn] at hk
  have hspec : Spec.step st.n a (.input v s) = some (a.put v s, none) := if_pos hvn
  cases hz : getNewStr st with
  | none => rw [hz] at hk; cases hk
  | some z =>
    rw [hz] at hk
    have hzu := new_uses hz
    have hz0 : vcnt st.vars st.n z = 0 ∧ cnt st.stack z = 0 ∧ L z = 0 := by have := h.counted z; unfold refs at this; omega
    -- the old string is released or lost
    have old : ∃ st1 : St, inputRelease st v = .ok st1 ∧ st1.n = st.n ∧ st1.stack = st.stack ∧ (∀ i, (st1.slot i).str = (st.slot i).str) ∧
        ∃ K : Nat → Nat, (∀ i, (st1.slot i).uses + (if st.vars v = .slot i then 1 else 0) = (st.slot i).uses + K i) ∧
          ((a.vals v).wide = false → ∀ i, K i = 0) ∧ ∀ i, st.vars v ≠ .slot i → K i = 0 := by
      unfold inputRelease
      cases hr : st.vars v with
      | empty => exact ⟨st, rfl, rfl, rfl, fun _ => rfl, fun _ => 0, fun i => by simp, fun _ _ => rfl, fun _ _ => rfl⟩
      | slot i =>
        have hval : a.vals v = (st.slot i).str := by rw [← hs.vals v hvn, hr]; rfl
        by_cases hw : (st.slot i).str.wide = false
        · have := vcnt_pos st.vars st.n v i hvn hr
          have hp : 0 < (st.slot i).uses := by have := h.counted i; unfold refs at this; omega
          refine ⟨st.setUses i ((st.slot i).uses - 1), ?_, rfl, rfl, str_setUses _ _ _, fun _ => 0, ?_, fun _ _ => rfl, fun _ _ => rfl⟩
          · simp only [if_pos hw]
            show (if (st.slot i).uses = 0 then Out.ub else _) = _
            rw [if_neg (by omega)]
          · intro j
            rw [uses_setUses]
            by_cases hj : j = i
            · subst hj; simp; omega
            · have : ¬ (Ref.slot i = Ref.slot j) := fun hh => hj (by injection hh with hh; exact hh.symm)
              simp [hj, this]
        · refine ⟨st, ?_, rfl, rfl, fun _ => rfl, fun j => if Ref.slot i = .slot j then 1 else 0, fun _ => rfl, ?_, fun j hj => if_neg hj⟩
          · simp only [if_neg hw]
          · intro hh; rw [hval] at hh; exact absurd hh hw
    obtain ⟨st1, h1, hn1, hst1, hstr1, K, hK, hKz, hKo⟩ := old
    simp only [] at hk
    rw [h1] at hk
    simp only [Out.bind, fin] at hk
    injection hk with hk; injection hk with h2 h3; subst h2; subst h3
    have hstr2 : ∀ i, (((st1.setStr z s).setUses z 1).slot i).str = if i = z then s else (st.slot i).str := by
      intro i; rw [str_setUses, str_setStr, hstr1]
    refine ⟨_, hspec, ?_, hn1, fun i => L i + K i, ⟨?_, ?_⟩, ?_⟩
    · have := sim_assign (st := st) (st' := { ((st1.setStr z s).setUses z 1) with vars := upd st.vars v (.slot z) }) (i := z) (s := s) (v := v)
        (rest := st.stack) hs hn1 rfl hst1 (by
          intro u hu _
          have := free_var h hzu u hu
          cases hr : st.vars u with
          | empty => rfl
          | slot i =>
            show (((st1.setStr z s).setUses z 1).slot i).str = _
            rw [hstr2, if_neg (fun hh => this (by rw [hr, hh]))]; rfl) (by
          show (((st1.setStr z s).setUses z 1).slot z).str = _
          rw [hstr2, if_pos rfl]) (by
          intro x hx
          apply item_congr
          intro j hj
          show (((st1.setStr z s).setUses z 1).slot j).str = _
          rw [hstr2, if_neg]
          intro hh
          exact free_temp h hzu (by rw [← hh, ← hj]; exact hx))
      rw [← hs.stack] at this
      exact this
    · intro i
      show (((st1.setStr z s).setUses z 1).slot i).uses = vcnt (upd st.vars v (.slot z)) st1.n i + cnt st1.stack i + (L i + K i)
      rw [hn1, hst1, uses_setUses, uses_setStr]
      have h3 := vcnt_upd st.vars st.n v (.slot z) i hvn
      have h4 := hK i; have h5 := h.counted i; unfold refs at h5
      by_cases hi : i = z
      · subst hi
        rw [if_pos rfl] at h3
        rw [if_pos rfl]
        have hnz := free_var h hzu v hvn
        rw [if_neg hnz] at h3 h4
        have h6 : (st1.slot i).uses = (st.slot i).uses + K i := by omega
        have hKi : K i = 0 := hKo i hnz
        omega
      · have : ¬ (Ref.slot z = Ref.slot i) := fun hh => hi (by injection hh with hh; exact hh.symm)
        rw [if_neg this] at h3
        rw [if_neg hi]; omega
    · show ∀ x ∈ st1.stack, VarOk st1.n x
      rw [hst1, hn1]; exact h.vars
    · intro ht hL i
      have hw : (a.vals v).wide = false := by
        unfold Spec.tidyStep at ht; simp at ht; exact ht.2
      show L i + K i = 0
      rw [hL i, hKz hw i]

theorem kept_read {st : St} {a : Spec.State} {L : Nat → Nat} (h : Inv st L) (hs : Sim st a) (v : Nat) (s : List Nat) {st' : St} {e : Option Err}
    (hk : step st (.read v s) = .ok (st', e)) : Kept st.n a L (.read v s) st' e := by
  change (if v < st.n then _ else Out.ub) = _ at hk
  by_cases hvn : ¬ v < st.n
  · rw [if_neg hvn] at hk; cases hk
  have hvn : v < st.n := Decidable.not_not.1 hvn
  rw [if_pos hvn] at hk
  have hspec : Spec.step st.n a (.read v s) = some (a.put v ⟨false, s⟩, none) := if_pos hvn
  cases hz : getNewStr st with
  | none => rw [hz] at hk; cases hk
  | some z =>
    rw [hz] at hk
    have hzu := new_uses hz
    have hz0 : vcnt st.vars st.n z = 0 ∧ cnt st.stack z = 0 ∧ L z = 0 := by have := h.counted z; unfold refs at this; omega
    simp only [fin] at hk
    injection hk with hk; injection hk with h2 h3; subst h2; subst h3
    have hstr2 : ∀ i, (((st.setStr z ⟨false, s⟩).setUses z 1).slot i).str = if i = z then ⟨false, s⟩ else (st.slot i).str := by
      intro i; rw [str_setUses, str_setStr]
    refine ⟨_, hspec, ?_, rfl, fun i => L i + if st.vars v = .slot i then 1 else 0, ⟨?_, ?_⟩, ?_⟩
    · have := sim_assign (st := st) (st' := { ((st.setStr z ⟨false, s⟩).setUses z 1) with vars := upd st.vars v (.slot z) }) (i := z) (s := ⟨false, s⟩) (v := v)
        (rest := st.stack) hs rfl rfl rfl (by
          intro u hu _
          have := free_var h hzu u hu
          cases hr : st.vars u with
          | empty => rfl
          | slot i =>
            show (((st.setStr z ⟨false, s⟩).setUses z 1).slot i).str = _
            rw [hstr2, if_neg (fun hh => this (by rw [hr, hh]))]; rfl) (by
          show (((st.setStr z ⟨false, s⟩).setUses z 1).slot z).str = _
          rw [hstr2, if_pos rfl]) (by
          intro x hx
          apply item_congr
          intro j hj
          show (((st.setStr z ⟨false, s⟩).setUses z 1).slot j).str = _
          rw [hstr2, if_neg]
          intro hh
          exact free_temp h hzu (by rw [← hh, ← hj]; exact hx))
      rw [← hs.stack] at this
      exact this
    · intro i
      show (((st.setStr z ⟨false, s⟩).setUses z 1).slot i).uses = vcnt (upd st.vars v (.slot z)) st.n i + cnt st.stack i + (L i + _)
      rw [uses_setUses, uses_setStr]
      have h3 := vcnt_upd st.vars st.n v (.slot z) i hvn
      have h5 := h.counted i; unfold refs at h5
      by_cases hi : i = z
      · subst hi
        rw [if_pos rfl] at h3
        rw [if_pos rfl]
        have hnz := free_var h hzu v hvn
        rw [if_neg hnz] at h3 ⊢
        omega
      · have : ¬ (Ref.slot z = Ref.slot i) := fun hh => hi (by injection hh with hh; exact hh.symm)
        rw [if_neg this] at h3
        rw [if_neg hi]; omega
    · exact h.vars
    · intro ht; unfold Spec.tidyStep at ht; simp at ht

theorem kept_swap {st : St} {a : Spec.State} {L : Nat → Nat} (h : Inv st L) (hs : Sim st a) (u v : Nat) {st' : St} {e : Option Err}
    (hk : step st (.swap u v) = .ok (st', e)) : Kept st.n a L (.swap u v) st' e := by
  change (if u < st.n ∧ v < st.n then _ else Out.ub) = _ at hk
  by_cases hvn : ¬ (u < st.n ∧ v < st.n)
  · rw [if_neg hvn] at hk; cases hk
  have hvn : u < st.n ∧ v < st.n := Decidable.not_not.1 hvn
  rw [if_pos hvn] at hk
  simp only [fin] at hk
  injection hk with hk; injection hk with h2 h3; subst h2; subst h3
  refine ⟨_, if_pos hvn, ⟨?_, ?_⟩, rfl, L, ⟨?_, h.vars⟩, tidy_same⟩
  · intro w hw
    show st.deref (upd (upd st.vars u (st.vars v)) v (st.vars u) w) = if w = v then a.vals u else if w = u then a.vals v else a.vals w
    unfold upd
    split
    · exact hs.vals u hvn.1
    · split
      · exact hs.vals v hvn.2
      · exact hs.vals w hw
  · exact hs.stack
  · intro i
    show (st.slot i).uses = vcnt (upd (upd st.vars u (st.vars v)) v (st.vars u)) st.n i + cnt st.stack i + L i
    have h5 := h.counted i; unfold refs at h5
    have h1 := vcnt_upd st.vars st.n u (st.vars v) i hvn.1
    have h2 := vcnt_upd (upd st.vars u (st.vars v)) st.n v (st.vars u) i hvn.2
    by_cases huv : v = u
    · subst huv; rw [upd_same] at h2; omega
    · rw [upd_other _ _ huv] at h2; omega

theorem cnt_zero {a : Spec.State} {st : St} (hs : Sim st a) (h : (a.stack.all fun i => !i.isVal) = true) (i : Nat) : cnt st.stack i = 0 := by
  unfold cnt
  rw [List.countP_eq_zero]
  intro e he hh
  have he' : e = .temp i := by simpa using hh
  subst he'
  rw [hs.stack, List.all_eq_true] at h
  have := h (item st (.temp i)) (List.mem_map_of_mem he)
  simp [item, Spec.Item.isVal] at this

/-- One step keeps the pool consistent with the specification. -/
theorem kept_step {st : St} {a : Spec.State} {L : Nat → Nat} (h : Inv st L) (hs : Sim st a) (op : Op) {st' : St} {e : Option Err}
    (hk : step st op = .ok (st', e)) (he : e ≠ some .outOfMemory) : Kept st.n a L op st' e := by
  cases op with
  | lit s =>
    simp only [step, fin] at hk
    injection hk with hk; injection hk with h2 h3; subst h2; subst h3
    refine ⟨_, rfl, ⟨hs.vals, ?_⟩, rfl, L, ⟨?_, ?_⟩, tidy_same⟩
    · show Spec.Item.lit s :: a.stack = _
      rw [hs.stack]; rfl
    · intro i
      show (st.slot i).uses = vcnt st.vars st.n i + cnt (.const s :: st.stack) i + L i
      rw [cnt_cons, if_neg (by simp)]; exact h.counted i
    · intro x hx
      cases List.mem_cons.1 hx with
      | inl hx => subst hx; trivial
      | inr hx => exact h.vars x hx
  | load v =>
    change (if v < st.n then _ else Out.ub) = _ at hk
    by_cases hvn : ¬ v < st.n
    · rw [if_neg hvn] at hk; cases hk
    have hvn : v < st.n := Decidable.not_not.1 hvn
    rw [if_pos hvn] at hk
    simp only [fin] at hk
    injection hk with hk; injection hk with h2 h3; subst h2; subst h3
    refine ⟨_, if_pos hvn, ⟨hs.vals, ?_⟩, rfl, L, ⟨?_, ?_⟩, tidy_same⟩
    · show Spec.Item.var v :: a.stack = _
      rw [hs.stack]; rfl
    · intro i
      show (st.slot i).uses = vcnt st.vars st.n i + cnt (.var v :: st.stack) i + L i
      rw [cnt_cons, if_neg (by simp)]; exact h.counted i
    · intro x hx
      cases List.mem_cons.1 hx with
      | inl hx => subst hx; exact hvn
      | inr hx => exact h.vars x hx
  | fn k f => exact kept_fn h hs k f hk
  | use k => exact kept_use h hs k hk
  | assign => exact kept_assign h hs hk he
  | read v s => exact kept_read h hs v s hk
  | input v s => exact kept_input h hs v s hk
  | swap u v => exact kept_swap h hs u v hk
  | clear =>
    simp only [step, fin] at hk
    injection hk with hk; injection hk with h2 h3; subst h2; subst h3
    refine ⟨_, rfl, ⟨fun _ _ => rfl, rfl⟩, rfl, fun _ => 0, ⟨?_, ?_⟩, fun _ _ _ => rfl⟩
    · intro i
      show 0 = vcnt (fun _ => Ref.empty) st.n i + cnt [] i + 0
      rw [vcnt_empty]; rfl
    · intro x hx; cases hx
  | done =>
    simp only [step, fin] at hk
    injection hk with hk; injection hk with h2 h3; subst h2; subst h3
    refine ⟨_, rfl, ⟨hs.vals, rfl⟩, rfl, fun i => L i + cnt st.stack i, ⟨?_, ?_⟩, ?_⟩
    · intro i
      show (st.slot i).uses = vcnt st.vars st.n i + cnt [] i + (L i + cnt st.stack i)
      rw [cnt_nil]; have := h.counted i; unfold refs at this; omega
    · intro x hx; cases hx
    · intro ht hL i
      have : (a.stack.all fun i => !i.isVal) = true := by unfold Spec.tidyStep at ht; simp only [Bool.and_eq_true] at ht; exact ht.2
      show L i + cnt st.stack i = 0
      rw [hL i, cnt_zero hs this i]

theorem init_inv (max n : Nat) : Inv (init max n) (fun _ => 0) ∧ Sim (init max n) Spec.init := by
  refine ⟨⟨fun i => ?_, fun e he => by cases he⟩, fun _ _ => rfl, rfl⟩
  show 0 = vcnt (fun _ => Ref.empty) n i + cnt [] i + 0
  rw [vcnt_empty]; rfl

/-- Histories. -/
theorem kept_run {st : St} {a : Spec.State} {L : Nat → Nat} (h : Inv st L) (hs : Sim st a) (ops : List Op) {st' : St} {es : List (Option Err)}
    (hk : run st ops = .ok (st', es)) (he : some Err.outOfMemory ∉ es) :
    ∃ a', Spec.run st.n a ops = some (a', es) ∧ Sim st' a' ∧ st'.n = st.n ∧
      ∃ L', Inv st' L' ∧ (Spec.tidy st.n a ops = true → (∀ i, L i = 0) → ∀ i, L' i = 0) := by
  induction ops generalizing st a L es with
  | nil =>
    injection hk with hk; injection hk with h1 h2; subst h1; subst h2
    exact ⟨a, rfl, hs, rfl, L, h, fun _ hL => hL⟩
  | cons op ops ih =>
    unfold run at hk
    cases h1 : step st op with
    | ub => rw [h1] at hk; cases hk
    | err x => rw [h1] at hk; cases hk
    | ok r =>
      rw [h1] at hk
      simp only [Out.bind] at hk
      cases h2 : run r.1 ops with
      | ub => rw [h2] at hk; cases hk
      | err x => rw [h2] at hk; cases hk
      | ok q =>
        rw [h2] at hk
        simp only [] at hk
        injection hk with hk; injection hk with h3 h4; subst h3; subst h4
        obtain ⟨a1, hs1, hsim1, hn1, L1, hI1, ht1⟩ := kept_step h hs op (st' := r.1) (e := r.2) h1 (fun hh => he (by rw [hh]; simp))
        obtain ⟨a2, hs2, hsim2, hn2, L2, hI2, ht2⟩ := ih hI1 hsim1 (es := q.2) h2 (fun hh => he (by simp [hh]))
        rw [hn1] at hs2 ht2 hn2
        refine ⟨a2, ?_, hsim2, hn2, L2, hI2, ?_⟩
        · unfold Spec.run; rw [hs1]; simp only []; rw [hs2]
        · intro ht hL
          unfold Spec.tidy at ht
          rw [hs1] at ht
          simp only [Bool.and_eq_true] at ht
          exact ht2 ht.2 (ht1 ht.1 hL)

end Sbc.StrPool
