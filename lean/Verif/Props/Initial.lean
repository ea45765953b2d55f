import Verif.Model.Initial
import Verif.Spec.Initial
import Verif.Props.Chars
import Verif.Props.Files
set_option autoImplicit false
/-!
# C107: CHRINIT and COLINIT restore what was there at startup
-/
namespace Sbc.Initial
open Sbc Sbc.Strs Sbc.Res Sbc.Files

theorem path_eq {name : List Nat} (h : name.length = 4) : createPath resourcePath name ext = some (path name) := by
  unfold createPath
  rw [if_neg]
  · rfl
  · show ¬ (10 + name.length + 4 > 255)
    omega

theorem read_shipped {fs : FS} {name data : List Nat} {size : Nat} (hn : name.length = 4) (h : Shipped fs name size data) :
    readRes fs size name = .ok data := by
  obtain ⟨hl, head, rest, hf, hh⟩ := h
  unfold readRes
  rw [path_eq hn]
  show (match fs (path name) with | none => _ | some file => _) = _
  rw [hf]
  dsimp only
  rcases hh with ⟨h1, h2⟩ | ⟨h1, h2⟩
  · have : (head ++ data ++ rest).take 4 = head.take 4 := by
      rw [List.append_assoc, List.take_append_of_le_length (by omega)]
    rw [this, h2, if_pos rfl, List.append_assoc, List.drop_left' h1, List.take_left' hl]
  · have : (head ++ data ++ rest).take 4 = head.take 4 := by
      rw [List.append_assoc, List.take_append_of_le_length (by omega)]
    rw [this, h2, if_neg (by decide), if_pos rfl, List.append_assoc, List.drop_left' h1, List.take_left' hl]

theorem read_plain {fs : FS} (hp : Plain fs) {name : List Nat} (hn : name.length = 4) (size : Nat) :
    ∃ data, readRes fs size name = .ok data ∧ data.length ≤ size := by
  unfold readRes
  rw [path_eq hn]
  rw [show (some (path name)).bind fs = fs (path name) from rfl]
  cases hf : fs (path name) with
  | none => exact ⟨[], rfl, by simp⟩
  | some file =>
    dsimp only
    split
    · exact ⟨_, rfl, by simp; omega⟩
    · split
      · exact ⟨_, rfl, by simp; omega⟩
      · rw [if_neg (hp name file hf)]
        exact ⟨[], rfl, by simp⟩

theorem holds_write (b : Bank) (l : Loc) (data : List Nat) : Holds (b.write l 0 data) l data := by
  intro i hi
  rw [write_at, if_pos ⟨rfl, by omega, by omega⟩, Nat.sub_zero]

theorem others_write (b : Bank) (l : Loc) (data : List Nat) {size : Nat} (h : data.length ≤ size) : Others b (b.write l 0 data) l size := by
  intro l' i hn
  rw [write_at, if_neg (by intro h; exact hn ⟨h.1, by omega⟩)]

/-- The loop over the banks: every bank of the list gets its file, all else stays. -/
theorem initChr_spec {fs : FS} (hp : Plain fs) : ∀ (names : List (List Nat)) (i : Nat) (b : Bank), (∀ n ∈ names, n.length = 4) →
    ∃ b', initChr fs names i b = .ok b' ∧
      (∀ j name data, names[j]? = some name → Shipped fs name 8192 data → Holds b' (.chr (i + j)) data) ∧
      (∀ l, (∀ j, j < names.length → l ≠ .chr (i + j)) → ∀ x, b'.bytes l x = b.bytes l x) := by
  intro names
  induction names with
  | nil => intro i b _; exact ⟨b, rfl, by simp, fun _ _ _ => rfl⟩
  | cons name names ih =>
    intro i b hl
    obtain ⟨data, hd, hlen⟩ := read_plain hp (hl name (by simp)) 8192
    obtain ⟨b', h1, h2, h3⟩ := ih (i + 1) (b.write (.chr i) 0 data) fun n hn => hl n (by simp [hn])
    refine ⟨b', ?_, ?_, ?_⟩
    · unfold initChr loadRes; rw [hd]; exact h1
    · intro j nm dt hj hs
      cases j with
      | zero =>
        simp at hj; subst hj
        rw [read_shipped (hl name (by simp)) hs] at hd
        cases hd
        intro x hx
        rw [Nat.add_zero, h3 (.chr i) (by intro j _ h; injection h with h; omega)]
        exact holds_write b (.chr i) _ x hx
      | succ j =>
        simp at hj
        have := h2 j nm dt hj hs
        rw [show i + (j + 1) = i + 1 + j by omega]
        exact this
    · intro l hne x
      rw [h3 l (by intro j hj; have := hne (j + 1) (by simp; omega); rw [show i + 1 + j = i + (j + 1) by omega]; exact this)]
      have h0 := hne 0 (by simp)
      rw [write_at, if_neg (by intro h; exact h0 h.1)]

theorem initCol_spec {fs : FS} (hp : Plain fs) : ∀ (k i : Nat) (b : Bank),
    ∃ b', initCol fs k i b = .ok b' ∧
      (∀ j data, j < k → Shipped fs [67, 79, 76, 48 + (i + j) % 3] 512 data → Holds b' (.col (i + j)) data) ∧
      (∀ l, (∀ j, j < k → l ≠ .col (i + j)) → ∀ x, b'.bytes l x = b.bytes l x) ∧
      (∀ x, 512 ≤ x → ∀ l, b'.bytes l x = b.bytes l x) ∧ b'.regenChr = b.regenChr := by
  intro k
  induction k with
  | zero => intro i b; exact ⟨b, rfl, by simp, fun _ _ _ => rfl, fun _ _ _ => rfl, rfl⟩
  | succ k ih =>
    intro i b
    obtain ⟨data, hd, hlen⟩ := read_plain (name := [67, 79, 76, 48 + i % 3]) hp rfl 512
    obtain ⟨b', h1, h2, h3, h4, h5⟩ := ih (i + 1) (b.write (.col i) 0 data)
    refine ⟨b', ?_, ?_, ?_, ?_, h5⟩
    · unfold initCol loadRes; rw [hd]; exact h1
    · intro j dt hj hs
      cases j with
      | zero =>
        rw [Nat.add_zero] at hs
        rw [read_shipped rfl hs] at hd
        cases hd
        intro x hx
        rw [Nat.add_zero, h3 (.col i) (by intro j _ h; injection h with h; omega)]
        exact holds_write b (.col i) _ x hx
      | succ j =>
        rw [show i + (j + 1) = i + 1 + j by omega] at hs ⊢
        exact h2 j dt (by omega) hs
    · intro l hne x
      rw [h3 l (by intro j hj; have := hne (j + 1) (by omega); rw [show i + 1 + j = i + (j + 1) by omega]; exact this)]
      have h0 := hne 0 (by omega)
      rw [write_at, if_neg (by intro h; exact h0 h.1)]
    · intro x hx l
      rw [h4 x hx l, write_at, if_neg (by omega)]

/-- The place of a character resource is the one for which its file is loaded at startup. -/
theorem startup_name {k : Kind} (hk : k.ty = .chr) {b p : Nat} (h : k.Has b p) :
    ∃ i, locOf k b p = .chr i ∧ chrFiles[i]? = some (fileOf k b) := by
  obtain ⟨hb, hp⟩ := h
  cases k <;> simp [Kind.ty] at hk <;> simp [Kind.banks, Kind.screens] at hb hp <;>
    refine ⟨_, rfl, ?_⟩ <;>
    rcases below8 (b := b) (by omega) with rfl | rfl | rfl | rfl | rfl | rfl | rfl | rfl <;> (try omega) <;>
    (try rcases hp with rfl | rfl) <;> (try subst hp) <;> rfl

/-- **C107.** At startup every character resource gets the contents of the file with its letters and bank, and every palette of both
screens those of `COL` and its number. -/
theorem C107_startup {fs : FS} (hp : Plain fs) (b : Bank) :
    ∃ b0, startup fs b = .ok b0 ∧
      ∀ k bk p, k.Has bk p → k.ty = .chr ∨ k.ty = .col → ∀ data,
        Shipped fs (fileOf k bk) (if k.ty = .chr then 8192 else 512) data → Holds b0 (locOf k bk p) data := by
  obtain ⟨b1, h1, h2, _⟩ := initChr_spec hp chrFiles 0 b (by decide +kernel)
  obtain ⟨b2, g1, g2, g3, _⟩ := initCol_spec hp 6 0 b1
  refine ⟨b2, by unfold startup; rw [h1]; exact g1, ?_⟩
  intro k bk p hh ht data hs
  rcases ht with ht | ht
  · rw [if_pos ht] at hs
    obtain ⟨i, hi, hn⟩ := startup_name ht hh
    rw [hi]
    intro x hx
    rw [g3 (.chr i) (by intro j _ h; cases h)]
    have := h2 i _ data hn hs x hx
    rwa [Nat.zero_add] at this
  · rw [if_neg (by rw [ht]; decide)] at hs
    cases k <;> simp [Kind.ty] at ht
    obtain ⟨hb, hpp⟩ := hh
    simp [Kind.banks, Kind.screens] at hb hpp
    have hlt : bk = 0 ∨ bk = 1 ∨ bk = 2 := by omega
    have key := fun j => g2 j data
    simp only [Nat.zero_add] at key
    rcases hpp with rfl | rfl <;> rcases hlt with rfl | rfl | rfl
    · exact key 0 (by omega) hs
    · exact key 1 (by omega) hs
    · exact key 2 (by omega) hs
    · exact key 3 (by omega) hs
    · exact key 4 (by omega) hs
    · exact key 5 (by omega) hs

/-- The file CHRINIT reads. -/
def chrName (t : List Nat) : List Nat := [ch t 0, ch t 1, ch t 2, if ch t 3 = 0 then 48 else ch t 3]

theorem chrName_of (k : Kind) (b : Nat) (r : List Nat) : chrName (k.letters ++ (48 + b) :: r) = fileOf k b := by
  cases k <;> simp [chrName, fileOf, Kind.letters, ch]

/-- A name of a resource leads to the file with its letters and bank. -/
theorem chrName_eq {pg : Pages} (hpg : pg.WF) {t : List Nat} (ht : TypeName t) {k : Kind} (hk : k.ty = .chr) {b p : Nat} (hh : k.Has b p)
    (he : resourcePtr pg t = resourcePtr pg (k.name b p)) : chrName t = fileOf k b := by
  have two : ∀ k' b' p', k'.Has b' p' → resourcePtr pg t = resourcePtr pg (k'.name b' p') → k' = k ∧ b' = b := by
    intro k' b' p' h' he'
    have := C41_distinct pg pg h' hh (he'.symm.trans he)
    exact ⟨this.1, this.2.1⟩
  cases ht with
  | letters k' =>
    have h0 := C41_default pg k'
    obtain ⟨rfl, rfl⟩ := two k' 0 _ h0.2 h0.1
    cases k' <;> simp [Kind.ty] at hk <;> rfl
  | bank k' b' hb =>
    by_cases hs : k'.screens = []
    · have hn : k'.name b' 0 = k'.letters ++ [48 + b'] := by
        unfold Kind.name; rw [if_neg (by omega), if_pos hs, List.append_nil]
      have h' : k'.Has b' 0 := by
        unfold Kind.Has; rw [if_neg (by omega), if_pos hs]; exact ⟨hb, rfl⟩
      obtain ⟨rfl, rfl⟩ := two k' b' 0 h' (by rw [hn])
      exact chrName_of k' b' []
    · have h' := C41_current hpg hb hs
      obtain ⟨rfl, rfl⟩ := two k' b' _ h'.2 h'.1
      exact chrName_of k' b' []
  | screen k' b' p' hb hp' =>
    have hs : k'.screens ≠ [] := by intro h; rw [h] at hp'; cases hp'
    have hn : k'.name b' p' = k'.letters ++ [48 + b', p'] := by
      unfold Kind.name; rw [if_neg (by omega), if_neg hs]; simp
    have h' : k'.Has b' p' := by
      unfold Kind.Has; rw [if_neg (by omega), if_neg hs]; exact ⟨hb, hp'⟩
    obtain ⟨rfl, rfl⟩ := two k' b' p' h' (by rw [hn])
    exact chrName_of k' b' [p']
  | grp b' p' hb =>
    have h' := C41_grp pg hb p'
    obtain ⟨rfl, rfl⟩ := two _ _ _ h'.2 h'.1
    simp [Kind.ty] at hk
  | rest k' r hb hr =>
    have h' := C41_rest pg hb r
    obtain ⟨rfl, rfl⟩ := two _ _ _ h'.2 h'.1
    cases k' <;> simp [Kind.banks] at hb <;> simp [Kind.ty] at hk

theorem fileOf_len (k : Kind) (b : Nat) : (fileOf k b).length = 4 := by cases k <;> rfl

/-- What CHRINIT does for a valid name, in steps. -/
theorem chrinit_eq {pg : Pages} (hpg : pg.WF) (fs : FS) (bank : Bank) {s : Str} (hl : strLen s ≤ 5) (ht : TypeName (cstr s))
    {k : Kind} (hk : k.ty = .chr) {b p : Nat} (hh : k.Has b p) (he : resourcePtr pg (cstr s) = resourcePtr pg (k.name b p)) :
    chrinit pg fs bank s = (loadRes fs bank (locOf k b p) 8192 (fileOf k b)).bind fun r =>
      if ¬ r.2 then .err .fileLoad else (chrIndex pg (cstr s)).bind fun i => r.1.redraw i := by
  obtain ⟨k', b', p', h1, h2, h3, h4⟩ := C41_type_only hpg hl ht
  have h5 : resourcePtr pg (k'.name b' p') = resourcePtr pg (k.name b p) := by rw [ptr_full pg h1, ← h3, he]
  obtain ⟨rfl, rfl, rfl⟩ := C41_distinct pg pg h1 hh h5
  unfold chrinit
  rw [h4]
  show (if k'.ty = .chr then _ else _) = _
  rw [if_pos hk]
  show (loadRes fs bank (locOf k' b' p') 8192 (chrName (cstr s))).bind _ = _
  rw [chrName_eq hpg ht hk hh he]

/-- **C107.** CHRINIT, with any valid name of a character resource: the resource has the initial contents, and no other byte of any resource
changes. -/
theorem C107_chrinit {pg : Pages} (hpg : pg.WF) (fs : FS) (bank : Bank) {s : Str} (hl : strLen s ≤ 5) (ht : TypeName (cstr s))
    {k : Kind} (hk : k.ty = .chr) {b p : Nat} (hh : k.Has b p) (he : resourcePtr pg (cstr s) = resourcePtr pg (k.name b p))
    {data : List Nat} (hs : Shipped fs (fileOf k b) 8192 data) :
    ∃ bank', chrinit pg fs bank s = .ok bank' ∧ Holds bank' (locOf k b p) data ∧ Others bank bank' (locOf k b p) 8192 ∧
      bank'.regenCol = bank.regenCol := by
  obtain ⟨k', b', p', h1, h2, h3, h4⟩ := C41_type_only hpg hl ht
  have h5 : resourcePtr pg (k'.name b' p') = resourcePtr pg (k.name b p) := by rw [ptr_full pg h1, ← h3, he]
  obtain ⟨rfl, rfl, rfl⟩ := C41_distinct pg pg h1 hh h5
  obtain ⟨i, hi, hidx⟩ := chrIndex_ok hpg ht h2 hk
  have hlen := hs.1
  rw [chrinit_eq hpg fs bank hl ht hk hh he]
  unfold loadRes
  rw [read_shipped (fileOf_len _ _) hs]
  simp only [Out.bind]
  rw [if_neg (by simp; intro h; rw [h] at hlen; simp at hlen), hidx]
  simp only [Out.bind]
  unfold Bank.redraw
  rw [if_pos ⟨by omega, by omega⟩]
  refine ⟨_, rfl, ?_, ?_, rfl⟩
  · exact holds_write bank _ data
  · exact others_write bank _ data (by omega)

/-- **C107.** The contents after CHRINIT are those that the resource had at startup, whatever happened since. -/
theorem C107_chrinit_restores {pg : Pages} (hpg : pg.WF) {fs : FS} (hp : Plain fs) (b : Bank) (bank : Bank) {s : Str} (hl : strLen s ≤ 5)
    (ht : TypeName (cstr s)) {k : Kind} (hk : k.ty = .chr) {bk p : Nat} (hh : k.Has bk p)
    (he : resourcePtr pg (cstr s) = resourcePtr pg (k.name bk p)) {data : List Nat} (hs : Shipped fs (fileOf k bk) 8192 data) :
    ∃ b0 bank', startup fs b = .ok b0 ∧ chrinit pg fs bank s = .ok bank' ∧
      ∀ i, i < 8192 → bank'.bytes (locOf k bk p) i = b0.bytes (locOf k bk p) i := by
  obtain ⟨b0, h1, h2⟩ := C107_startup hp b
  obtain ⟨bank', g1, g2, _⟩ := C107_chrinit hpg fs bank hl ht hk hh he hs
  refine ⟨b0, bank', h1, g1, fun i hi => ?_⟩
  have hlen := hs.1
  rw [g2 i (by omega), h2 k bk p hh (.inl hk) data (by rw [if_pos hk]; exact hs) i (by omega)]

/-- **C107 (partial).** The picture of the resource is made again, and no other, for names with a bank.  Missing: names without a bank, for which
another bank may be marked (refuted, `C41_no_bank_violated`). -/
theorem C107_redraw_partial {pg : Pages} (hpg : pg.WF) (fs : FS) (bank : Bank) {s : Str} (hl : strLen s ≤ 5) {k : Kind} (hk : k.ty = .chr)
    {b : Nat} (hb : b < k.banks) {r : List Nat} (hr : r = [] ∨ ∃ p, p ∈ k.screens ∧ r = [p]) (hn : cstr s = k.letters ++ (48 + b) :: r)
    {data : List Nat} (hs : Shipped fs (fileOf k b) 8192 data) :
    ∃ i bank', resourcePtr pg (cstr s) = .ok (.chr i) ∧ chrinit pg fs bank s = .ok bank' ∧
      ∀ j, bank'.regenChr j = (if j = i then true else bank.regenChr j) := by
  obtain ⟨i, hi, h1, h2⟩ := C41_redraw_partial hpg hk hb hr
  rw [← hn] at h1 h2
  have ht : TypeName (cstr s) := by
    rw [hn]
    rcases hr with rfl | ⟨p, hp, rfl⟩
    · exact .bank k b hb
    · exact .screen k b p hb hp
  obtain ⟨k', b', p', g1, g2, g3, g4⟩ := C41_type_only hpg hl ht
  have hkk : k' = k := by
    apply kind_inj
    rw [← g2, hn, List.take_left' (letters_3 k)]
  subst hkk
  have he : resourcePtr pg (cstr s) = resourcePtr pg (k'.name b' p') := by rw [g3, ptr_full pg g1]
  have hbb : b' = b := by
    have := chrName_eq hpg ht hk g1 he
    rw [hn, chrName_of] at this
    unfold fileOf at this
    have := List.append_cancel_left this
    simp at this; omega
  subst hbb
  have hlen := hs.1
  refine ⟨i, { bank.write (locOf k' b' p') 0 data with regenChr := fun j => if j = (i : Int).toNat then true else bank.regenChr j }, h1, ?_, fun j => rfl⟩
  rw [chrinit_eq hpg fs bank hl ht hk g1 he]
  unfold loadRes
  rw [read_shipped (fileOf_len _ _) hs]
  simp only [Out.bind]
  rw [if_neg (by simp; intro h; rw [h] at hlen; simp at hlen), h2]
  simp only [Out.bind]
  unfold Bank.redraw
  rw [if_pos ⟨by omega, by omega⟩]
  rfl

/-- **C107.** Without the file CHRINIT is an error; so is CHRINIT of a resource that is not a character resource. -/
theorem C107_chrinit_errors {pg : Pages} (hpg : pg.WF) (fs : FS) (bank : Bank) {s : Str} (hl : strLen s ≤ 5) (ht : TypeName (cstr s))
    {k : Kind} {b p : Nat} (hh : k.Has b p) (he : resourcePtr pg (cstr s) = resourcePtr pg (k.name b p)) :
    (k.ty = .chr → fs (path (fileOf k b)) = none → chrinit pg fs bank s = .err .fileLoad) ∧
    (k.ty ≠ .chr → chrinit pg fs bank s = .err .invalidResource) := by
  constructor
  · intro hk hf
    rw [chrinit_eq hpg fs bank hl ht hk hh he]
    unfold loadRes readRes
    rw [path_eq (fileOf_len _ _)]
    rw [show (some (path (fileOf k b))).bind fs = fs (path (fileOf k b)) from rfl, hf]
    rfl
  · intro hk
    obtain ⟨k', b', p', h1, h2, h3, h4⟩ := C41_type_only hpg hl ht
    have h5 : resourcePtr pg (k'.name b' p') = resourcePtr pg (k.name b p) := by rw [ptr_full pg h1, ← h3, he]
    obtain ⟨rfl, rfl, rfl⟩ := C41_distinct pg pg h1 hh h5
    unfold chrinit
    rw [h4]
    show (if k'.ty = .chr then _ else _) = _
    rw [if_neg hk]

/-! ## COLINIT -/

/-- The names COLINIT knows: of the background, of the sprites, of the graphics. -/
def colName : Nat → List Nat
  | 0 => [66, 71]
  | 1 => [83, 80]
  | _ => [71, 82, 80]

/-- **C107.** COLINIT: all six palettes have the contents they had at startup, and nothing else changes. -/
theorem C107_colinit {fs : FS} (hp : Plain fs) (pg : Pages) (bank : Bank) (stale : Int) :
    ∃ bank', colinit pg fs bank stale .all = .ok bank' ∧ bank'.regenCol = true ∧ bank'.regenChr = bank.regenChr ∧
      (∀ b p, Kind.col.Has b p → ∀ data, Shipped fs (fileOf .col b) 512 data → Holds bank' (locOf .col b p) data) ∧
      (∀ l i, (¬ (∃ b p, Kind.col.Has b p ∧ l = locOf .col b p) ∨ 512 ≤ i) → bank'.bytes l i = bank.bytes l i) := by
  obtain ⟨b2, g1, g2, g3, g4, g5⟩ := initCol_spec hp 6 0 bank
  refine ⟨{ b2 with regenCol := true }, by unfold colinit; rw [g1]; rfl, rfl, g5, ?_, ?_⟩
  · intro b p hh data hs
    obtain ⟨hb, hpp⟩ := hh
    simp [Kind.banks, Kind.screens] at hb hpp
    have hlt : b = 0 ∨ b = 1 ∨ b = 2 := by omega
    have key := fun j => g2 j data
    simp only [Nat.zero_add] at key
    rcases hpp with rfl | rfl <;> rcases hlt with rfl | rfl | rfl
    · exact key 0 (by omega) hs
    · exact key 1 (by omega) hs
    · exact key 2 (by omega) hs
    · exact key 3 (by omega) hs
    · exact key 4 (by omega) hs
    · exact key 5 (by omega) hs
  · intro l i h
    rcases h with h | h
    · refine g3 l ?_ i
      intro j hj hl
      apply h
      rw [Nat.zero_add] at hl
      refine ⟨j % 3, if j < 3 then 85 else 76, ?_, ?_⟩
      · simp [Kind.Has, Kind.banks, Kind.screens]; omega
      · rw [hl]
        unfold locOf
        simp only
        congr 1
        split <;> split <;> omega
    · exact g4 i h l

/-- **C107.** COLINIT with the name of a palette: the palette of the current page has the contents it had at startup, nothing else changes. -/
theorem C107_colinit_name {pg : Pages} (hpg : pg.WF) (fs : FS) (bank : Bank) (stale : Int) {b : Nat} (hb : b < 3) {data : List Nat}
    (hs : Shipped fs (fileOf .col b) 512 data) :
    ∃ bank', colinit pg fs bank stale (.palette ⟨false, colName b⟩) = .ok bank' ∧ bank'.regenCol = true ∧
      bank'.regenChr = bank.regenChr ∧ Holds bank' (locOf .col b (letter (Kind.col.page pg b))) data ∧
      Others bank bank' (locOf .col b (letter (Kind.col.page pg b))) 512 := by
  have hc := C41_current (k := .col) hpg hb (by decide)
  have hptr : colResource pg ⟨false, colName b⟩ = .ok (locOf .col b (letter (Kind.col.page pg b))) := by
    rw [← ptr_full pg hc.2, ← hc.1]
    obtain ⟨n1, n2, n3, _⟩ := C40_names pg
    have : b = 0 ∨ b = 1 ∨ b = 2 := by omega
    rcases this with rfl | rfl | rfl
    · exact n1
    · exact n2
    · exact n3
  have hfile : [67, 79, 76, colDigitOf ⟨false, colName b⟩] = fileOf .col b := by
    have : b = 0 ∨ b = 1 ∨ b = 2 := by omega
    rcases this with rfl | rfl | rfl <;> rfl
  have hlen := hs.1
  refine ⟨{ bank.write (locOf .col b (letter (Kind.col.page pg b))) 0 data with regenCol := true }, ?_, rfl, rfl, ?_, ?_⟩
  · unfold colinit
    dsimp only
    unfold loadRes
    rw [hptr]
    simp only [Out.bind]
    rw [hfile, read_shipped (fileOf_len _ _) hs]
  · exact holds_write bank _ data
  · exact others_write bank _ data (by omega)

/-- **C107 (refuted case).** COLINIT of one colour uses a number that is not an argument: with 7 left on the stack, `COLINIT "BG",5` sets colour
7, and colour 5 keeps its value. -/
theorem C107_color_violated : ∃ (fs : FS) (bank : Bank),
    (∀ name, fs name ≠ none → name = path (fileOf .col 0)) ∧ Shipped fs (fileOf .col 0) 512 (List.replicate 512 9) ∧
    ∃ bank', colinit ⟨0, 0, 0⟩ fs bank (intToFp 7) (.color ⟨false, [66, 71]⟩ (intToFp 5)) = .ok bank' ∧
      bank'.bytes (.col 0) 10 = 0 ∧ bank'.bytes (.col 0) 14 = 9 := by
  refine ⟨fun n => if n = path (fileOf .col 0) then some ([80, 69, 84, 67, 0, 0, 0, 0, 0, 0, 0, 0] ++ List.replicate 512 9) else none,
    ⟨fun _ _ => 0, fun _ => false, false⟩, ?_, ?_, ?_⟩
  · intro n h
    by_cases hn : n = path (fileOf .col 0)
    · exact hn
    · exact absurd (if_neg hn) h
  · exact ⟨List.length_replicate, [80, 69, 84, 67, 0, 0, 0, 0, 0, 0, 0, 0], [], by rw [List.append_nil]; rfl, .inr ⟨rfl, rfl⟩⟩
  · have hr : readRes (fun n => if n = path (fileOf .col 0) then
        some ([80, 69, 84, 67, 0, 0, 0, 0, 0, 0, 0, 0] ++ List.replicate 512 9) else none) 512 (fileOf .col 0) = .ok (List.replicate 512 9) :=
      read_shipped rfl ⟨List.length_replicate, [80, 69, 84, 67, 0, 0, 0, 0, 0, 0, 0, 0], [], by rw [List.append_nil]; rfl, .inr ⟨rfl, rfl⟩⟩
    refine ⟨Bank.mk (Bank.putWord ⟨fun _ _ => 0, fun _ => false, false⟩ (.col 0) 7 (9 + 256 * 9)).bytes (fun _ => false) true, ?_, rfl, rfl⟩
    unfold colinit
    dsimp only
    rw [show colResource ⟨0, 0, 0⟩ ⟨false, [66, 71]⟩ = .ok (.col 0) from rfl]
    simp only [Out.bind]
    rw [show [67, 79, 76, colDigitOf ⟨false, [66, 71]⟩] = fileOf .col 0 from rfl, hr]
    simp only [Out.bind]
    rw [show byteArg (intToFp 7) = .ok 7 from rfl]
    simp only [Out.bind]
    rw [if_neg (by rw [List.length_replicate]; omega)]
    rw [List.getD_eq_getElem?_getD, List.getElem?_replicate, List.getD_eq_getElem?_getD, List.getElem?_replicate]
    rfl

/-! ## A case -/

/-- Files for all names: `PETC` headers and data that depend on the name. -/
def sampleFs : FS := fun n =>
  if n.length = 18 ∧ n.take 10 = resourcePath ∧ n.drop 14 = [46, 80, 84, 67] then
    some ([80, 69, 84, 67, 48, 49, 48, 48, 82, 67, 72, 82] ++ List.replicate 8192 (n.getD 13 0))
  else none

theorem sample_plain : Plain sampleFs := by
  intro name file h
  unfold sampleFs at h
  split at h
  · injection h with h; subst h
    rw [List.take_append_of_le_length (by decide)]
    decide
  · cases h

theorem sample_shipped : Shipped sampleFs (fileOf .sps 1) 8192 (List.replicate 8192 49) :=
  ⟨List.length_replicate, [80, 69, 84, 67, 48, 49, 48, 48, 82, 67, 72, 82], [], by rw [List.append_nil]; rfl, .inr ⟨rfl, rfl⟩⟩

/-- `CHRINIT "SPS1"` with the sprites of the lower screen current. -/
example : ∃ bank', chrinit ⟨0, 1, 0⟩ sampleFs ⟨fun _ _ => 0, fun _ => false, false⟩ ⟨false, [83, 80, 83, 49]⟩ = .ok bank' ∧
    Holds bank' (.chr 43) (List.replicate 8192 49) :=
  let ⟨b, h1, h2, _⟩ := C107_chrinit (pg := ⟨0, 1, 0⟩) (by decide) sampleFs ⟨fun _ _ => 0, fun _ => false, false⟩
    (s := ⟨false, [83, 80, 83, 49]⟩) (by decide) (.bank .sps 1 (by decide)) (k := .sps) rfl (b := 1) (p := 76) (by decide) rfl sample_shipped
  ⟨b, h1, h2⟩

end Sbc.Initial
