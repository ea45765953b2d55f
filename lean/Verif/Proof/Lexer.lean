import Verif.Spec.Lexer
set_option autoImplicit false
/-!
# Proofs about the lexer
-/
namespace Sbc.Tok.Spec
open Sbc Sbc.Tok

/-! ## The tables -/

/-- A name padded to eight characters. -/
def pad8 (n : List Nat) : List Nat := n ++ List.replicate (8 - n.length) 32

/-- A table of names of at most eight characters without blanks. -/
def NamesOk (names : List (List Nat)) : Prop := ∀ n ∈ names, n.length ≤ 8 ∧ 32 ∉ n

theorem pad8_length {n : List Nat} (h : n.length ≤ 8) : (pad8 n).length = 8 := by
  unfold pad8; simp; omega

theorem table_length : ∀ {names : List (List Nat)}, NamesOk names → (names.flatMap pad8).length = 8 * names.length
  | [], _ => rfl
  | n :: r, h => by
    rw [List.flatMap_cons, List.length_append, pad8_length (h n (by simp)).1,
      table_length (fun m hm => h m (List.mem_cons_of_mem _ hm)), List.length_cons]
    omega

theorem table_drop : ∀ {names : List (List Nat)} (_ : NamesOk names) (i : Nat) {n : List Nat}, names[i]? = some n →
    ∃ rest, (names.flatMap pad8).drop (8 * i) = pad8 n ++ rest
  | [], _, i, n, e => by simp at e
  | m :: r, h, 0, n, e => by
    simp only [List.getElem?_cons_zero, Option.some.injEq] at e
    subst e
    exact ⟨r.flatMap pad8, by simp⟩
  | m :: r, h, i + 1, n, e => by
    rw [List.getElem?_cons_succ] at e
    obtain ⟨rest, h'⟩ := table_drop (fun m hm => h m (List.mem_cons_of_mem _ hm)) i e
    refine ⟨rest, ?_⟩
    rw [List.flatMap_cons, show 8 * (i + 1) = 8 + 8 * i by omega, ← List.drop_drop,
      List.drop_left' (pad8_length (h m (by simp)).1), h']

theorem getElem?_pad {n rest : List Nat} {k : Nat} (h1 : n.length ≤ k) (h2 : k < 8) (_h : n.length ≤ 8) :
    (pad8 n ++ rest)[k]? = some 32 := by
  unfold pad8
  rw [List.append_assoc, List.getElem?_append_right h1, List.getElem?_append_left (by simp; omega),
    List.getElem?_replicate]
  rw [if_pos (by omega)]

theorem take_pad {n rest u : List Nat} (hn : n.length ≤ 8) (hu : 32 ∉ u) (h8 : u.length ≤ 8)
    (h : (pad8 n ++ rest).take u.length = u) : u.length ≤ n.length ∧ u = n.take u.length := by
  have hle : u.length ≤ n.length := by
    apply Nat.le_of_not_lt
    intro hlt
    apply hu
    have hx : ((pad8 n ++ rest).take u.length)[n.length]? = some 32 := by
      rw [List.getElem?_take, if_pos hlt, getElem?_pad (Nat.le_refl _) (by omega) hn]
    rw [h] at hx
    exact List.mem_of_getElem? hx
  refine ⟨hle, ?_⟩
  unfold pad8 at h
  rw [List.append_assoc, List.take_append_of_le_length hle] at h
  exact h.symm

/-- Words of at most eight characters match exactly their own entry. -/
theorem entryMatches_short {names : List (List Nat)} (hn : NamesOk names) {i : Nat} {n : List Nat} (hi : names[i]? = some n)
    {w : List Nat} (hw : 32 ∉ w.map upper) (h8 : w.length ≤ 8) :
    entryMatches ((names.flatMap pad8).drop (8 * i)) w = decide (w.map upper = n) := by
  obtain ⟨rest, e⟩ := table_drop hn i hi
  obtain ⟨hlen, hb⟩ := hn n (List.mem_of_getElem? hi)
  rw [e]
  by_cases h : w.map upper = n
  · rw [decide_eq_true h]
    unfold entryMatches
    have hl : w.length = n.length := by rw [← h]; simp
    rw [Bool.and_eq_true]
    refine ⟨?_, ?_⟩
    · rw [hl]
      unfold pad8
      rw [List.append_assoc, List.take_left, h]
      simp
    · by_cases hlt : w.length < 8
      · rw [getElem?_pad (by omega) hlt hlen]
        simp
      · simp; left; omega
  · rw [decide_eq_false h]
    apply Bool.eq_false_iff.mpr
    intro hm
    apply h
    unfold entryMatches at hm
    rw [Bool.and_eq_true] at hm
    obtain ⟨m1, m2⟩ := hm
    have m1 := eq_of_beq m1
    have hul : (w.map upper).length = w.length := by simp
    rw [← hul] at m1
    obtain ⟨h1, h2⟩ := take_pad hlen hw (by simpa using h8) m1
    rw [h2]
    apply List.take_of_length_le
    rw [hul]
    rcases Nat.lt_or_ge w.length n.length with hlt | hge
    · exfalso
      have h8' : w.length < 8 := by omega
      have hd : decide (8 ≤ w.length) = false := by simp; omega
      rw [hd, Bool.false_or] at m2
      have : (pad8 n ++ rest)[w.length]? = n[w.length]? := by
        unfold pad8
        rw [List.append_assoc, List.getElem?_append_left hlt]
      rw [this, List.getElem?_eq_getElem hlt] at m2
      apply hb
      have := eq_of_beq m2
      rw [← this]
      exact List.getElem_mem hlt
    · exact hge

/-- Longer words match only if they begin with the entry, of eight characters. -/
theorem entryMatches_long {names : List (List Nat)} (hn : NamesOk names) {i : Nat} {n : List Nat} (hi : names[i]? = some n)
    {w : List Nat} (hw : 32 ∉ w.map upper) (h8 : 8 < w.length)
    (h : entryMatches ((names.flatMap pad8).drop (8 * i)) w = true) : n.length = 8 ∧ (w.take 8).map upper = n := by
  obtain ⟨rest, e⟩ := table_drop hn i hi
  obtain ⟨hlen, hb⟩ := hn n (List.mem_of_getElem? hi)
  rw [e] at h
  unfold entryMatches at h
  rw [Bool.and_eq_true] at h
  have m1 := eq_of_beq h.1
  have m2 : (pad8 n ++ rest).take 8 = (w.take 8).map upper := by
    rw [List.map_take, ← m1, List.take_take, Nat.min_eq_left (by omega)]
  rw [List.take_left' (pad8_length hlen)] at m2
  have hl : ((w.take 8).map upper).length = 8 := by simp; omega
  have hn8 : n.length = 8 := by
    rcases Nat.lt_or_ge n.length 8 with hlt | hge
    · exfalso
      apply hw
      have : (pad8 n)[n.length]? = some 32 := by
        have := getElem?_pad (rest := []) (Nat.le_refl n.length) hlt hlen
        simpa using this
      rw [m2] at this
      have := List.mem_of_getElem? this
      rw [List.map_take] at this
      exact List.mem_of_mem_take this
    · omega
  refine ⟨hn8, ?_⟩
  rw [← m2]
  unfold pad8
  rw [hn8]
  simp

/-- A word found in the table: it is spelled like the entry, the first of that spelling. -/
theorem inTable_some {names : List (List Nat)} (hn : NamesOk names) (hd : names.Nodup) {i : Nat} {n : List Nat} (hi : names[i]? = some n)
    {w : List Nat} (hw : w.map upper = n) : inTable (names.flatMap pad8) w = some i := by
  obtain ⟨hlen, hb⟩ := hn n (List.mem_of_getElem? hi)
  have h8 : w.length ≤ 8 := by rw [← hw] at hlen; simpa using hlen
  have hb' : 32 ∉ w.map upper := by rw [hw]; exact hb
  have hil : i < names.length := (List.getElem?_eq_some_iff.mp hi).1
  unfold inTable
  rw [table_length hn, Nat.mul_div_cancel_left _ (by decide : 0 < 8), List.find?_range_eq_some]
  refine ⟨?_, ?_, ?_⟩
  · rw [entryMatches_short hn hi hb' h8]
    simp [hw]
  · simpa using hil
  · intro j hj
    have hjl : j < names.length := by omega
    rw [entryMatches_short hn (List.getElem?_eq_getElem hjl) hb' h8]
    simp only [Bool.not_eq_true', decide_eq_false_iff_not]
    intro he
    have : names[j] = names[i] := by
      rw [← he, hw]
      exact (List.getElem?_eq_some_iff.mp hi).2.symm
    exact (List.pairwise_iff_getElem.mp hd) j i hjl hil hj this

/-- A word not found. -/
theorem inTable_none {names : List (List Nat)} (hn : NamesOk names) {w : List Nat} (hb : 32 ∉ w.map upper)
    (h1 : ∀ n ∈ names, w.map upper ≠ n) (h2 : ∀ n ∈ names, n.length = 8 → (w.take 8).map upper ≠ n) :
    inTable (names.flatMap pad8) w = none := by
  unfold inTable
  rw [table_length hn, Nat.mul_div_cancel_left _ (by decide : 0 < 8), List.find?_eq_none]
  intro i hi
  have hil : i < names.length := by simpa using hi
  have hg := List.getElem?_eq_getElem hil
  have hm := List.getElem_mem hil
  intro he
  rcases Nat.lt_or_ge 8 w.length with hlt | hge
  · obtain ⟨a, b⟩ := entryMatches_long hn hg hb hlt he
    exact h2 _ hm a b
  · rw [entryMatches_short hn hg hb hge] at he
    exact h1 _ hm (by simpa using he)

/-- The names of a list. -/
def codes (l : List String) : List (List Nat) := l.map chars

/-- The operators in the order of their numbers. -/
def allOps : List String :=
  ["+", ",", "-", "*", "/", ";", "=", "(-)", "==", "!=", "<", ">", "<=", ">=", "%", "AND", "OR", "XOR", "NOT", "!", "(", ")", "[", "]"]

theorem commandTable_eq : commandTable = (codes commandNames).flatMap pad8 := by decide +kernel
theorem functionTable_eq : functionTable = (codes functionNames).flatMap pad8 := by decide +kernel
theorem sysvarTable_eq : sysvarTable = (codes sysvarNames).flatMap pad8 := by decide +kernel
theorem operationTable_eq : operationTable = (codes allOps).flatMap pad8 := by decide +kernel
theorem labelTable_eq : labelTable = (codes ["LABEL"]).flatMap pad8 := by decide +kernel
theorem commentTable_eq : commentTable = (codes ["REM"]).flatMap pad8 := by decide +kernel

instance (names : List (List Nat)) : Decidable (NamesOk names) := inferInstanceAs (Decidable (∀ n ∈ names, _ ∧ _))

theorem commandsOk : NamesOk (codes commandNames) ∧ (codes commandNames).Nodup := by decide +kernel
theorem functionsOk : NamesOk (codes functionNames) ∧ (codes functionNames).Nodup := by decide +kernel
theorem sysvarsOk : NamesOk (codes sysvarNames) ∧ (codes sysvarNames).Nodup := by decide +kernel
theorem opsOk : NamesOk (codes allOps) ∧ (codes allOps).Nodup := by decide +kernel
theorem labelOk : NamesOk (codes ["LABEL"]) ∧ (codes ["LABEL"]).Nodup := by decide +kernel
theorem remOk : NamesOk (codes ["REM"]) ∧ (codes ["REM"]).Nodup := by decide +kernel

/-- A word of at most eight characters that is not in the table. -/
theorem inTable_absent {names : List (List Nat)} (hn : NamesOk names) {w : List Nat} (hb : 32 ∉ w.map upper) (h8 : w.length ≤ 8)
    (h : w.map upper ∉ names) : inTable (names.flatMap pad8) w = none := by
  have h1 : ∀ n ∈ names, w.map upper ≠ n := fun n hm he => h (he ▸ hm)
  refine inTable_none hn hb h1 fun n hm _ => ?_
  rw [List.take_of_length_le h8]
  exact h1 n hm

theorem upper_ne_blank {c : Nat} (h : isVarname c = true) : upper c ≠ 32 := by
  simp only [isVarname, isName, isUpper, isLower, isDigit, Bool.or_eq_true, Bool.and_eq_true, decide_eq_true_eq, beq_iff_eq] at h
  unfold upper isLower
  split
  · rename_i h2
    simp only [Bool.and_eq_true, decide_eq_true_eq] at h2
    omega
  · omega

theorem no_blank {w : List Nat} (h : ∀ c ∈ w, isVarname c = true) : 32 ∉ w.map upper := by
  intro hm
  obtain ⟨c, hc, he⟩ := List.mem_map.mp hm
  exact upper_ne_blank (h c hc) he

/-! ## Pieces of text -/

theorem spanOf_eq {p : Nat → Bool} {w r : List Nat} {c : Nat} (hw : ∀ x ∈ w, p x = true) (hc : p c = false) :
    spanOf p (w ++ c :: r) = .ok (w, c :: r) := by
  unfold spanOf
  have h1 : (w ++ c :: r).dropWhile p = c :: r := by
    rw [List.dropWhile_append_of_pos hw, List.dropWhile_cons_of_neg (by simp [hc])]
  have h2 : (w ++ c :: r).takeWhile p = w := by
    rw [List.takeWhile_append_of_pos hw, List.takeWhile_cons_of_neg (by simp [hc])]
    simp
  rw [h1, h2, if_neg (by simp)]

theorem spanOne_eq {p : Nat → Bool} {w r : List Nat} {a c : Nat} (hw : ∀ x ∈ w, p x = true) (hc : p c = false) :
    spanOne p (a :: w ++ c :: r) = .ok (a :: w, c :: r) := by
  unfold spanOne
  simp only [List.cons_append]
  rw [spanOf_eq hw hc]
  rfl

theorem cut_eq {w : List Nat} (h : w.length ≤ 255) : cut w = w := by
  unfold cut
  rw [Nat.mod_eq_of_lt (by omega), List.take_length]

theorem add_eq {s : Lx} {t : Tk} (h : s.toks.length < 100) : s.add t = .ok { s with toks := s.toks ++ [t] } := if_pos h

/-- `tok_name` reads the whole word. -/
theorem tokName_eq {w r : List Nat} {c : Nat} {toks : List Tk} (hw : Wordlike w) (hc : isVarname c = false) (ht : toks.length < 100) :
    tokName ⟨w ++ c :: r, toks, false⟩ =
      match inTable commandTable w with
      | some i =>
        if i = cmdData then .ok (⟨c :: r, toks ++ [⟨.command, toLineEnd (c :: r), i, 0⟩], true⟩, .next)
        else .ok (⟨c :: r, toks ++ [⟨.command, [], i, 0⟩], false⟩, .next)
      | none => match inTable functionTable w with
        | some i => .ok (⟨c :: r, toks ++ [⟨.function, [], i, 0⟩], false⟩, .next)
        | none => match inTable operationTable w with
          | some i => .ok (⟨c :: r, toks ++ [⟨.operation, [], i, 0⟩], false⟩, .next)
          | none =>
            if (inTable labelTable w).isSome then tokLabel ⟨c :: r, toks, false⟩
            else if (inTable commentTable w).isSome then .ok (⟨c :: r, toks ++ [⟨.comment, w, 0, 0⟩], true⟩, .next)
            else match inTable sysvarTable w with
              | some i => .ok (⟨c :: r, toks ++ [⟨.sysvar, [], i, 0⟩], false⟩, .next)
              | none => .ok (⟨c :: r, toks ++ [⟨.name, w, 0, 0⟩], false⟩, .next) := by
  obtain ⟨⟨a, v, rfl, ha⟩, hv, hl⟩ := hw
  unfold tokName
  rw [if_neg (by simp only; omega)]
  simp only
  rw [spanOne_eq (fun x hx => hv x (List.mem_cons_of_mem _ hx)) hc]
  have h1 : ∀ t, Lx.add ⟨c :: r, toks, false⟩ t = .ok ⟨c :: r, toks ++ [t], false⟩ := fun t => add_eq ht
  have h2 : ∀ t, Lx.add ⟨c :: r, toks, true⟩ t = .ok ⟨c :: r, toks ++ [t], true⟩ := fun t => add_eq ht
  simp only [Out.bind, cut_eq hl]
  cases inTable commandTable (a :: v) with
  | some i => simp only [h1, h2]
  | none =>
    cases inTable functionTable (a :: v) with
    | some i => simp only [h1]
    | none =>
      cases inTable operationTable (a :: v) with
      | some i => simp only [h1]
      | none =>
        simp only [h2]
        cases inTable sysvarTable (a :: v) with
        | some i => simp only [h1]
        | none => simp only [h1]

theorem nameStart_ne {c : Nat} (h : isNameStart c = true) : c ≠ 13 ∧ isVarname c = true := by
  simp only [isNameStart, isVarname, isName, isUpper, isLower, isDigit, Bool.or_eq_true, Bool.and_eq_true, decide_eq_true_eq, beq_iff_eq] at h ⊢
  omega

/-- A word is read by `tok_name`. -/
theorem tokNone_word {w r : List Nat} {toks : List Tk} (hw : Wordlike w) :
    tokNone ⟨w ++ r, toks, false⟩ = tokName ⟨w ++ r, toks, false⟩ := by
  obtain ⟨⟨a, v, rfl, ha⟩, _, _⟩ := hw
  unfold tokNone
  simp only [List.cons_append]
  rw [if_neg (nameStart_ne ha).1, if_neg (by simp), if_pos ha]

/-- Names of one kind are not of another. -/
theorem disjoint : (∀ n ∈ codes functionNames, n ∉ codes commandNames) ∧
    (∀ n ∈ codes sysvarNames, n ∉ codes commandNames ∧ n ∉ codes functionNames ∧ n ∉ codes allOps ∧ n ∉ codes ["LABEL"] ∧ n ∉ codes ["REM"]) ∧
    (∀ n ∈ codes ["AND", "OR", "XOR", "NOT"], n ∉ codes commandNames ∧ n ∉ codes functionNames) ∧
    (∀ n ∈ codes ["LABEL", "REM"], n ∉ codes commandNames ∧ n ∉ codes functionNames ∧ n ∉ codes allOps) ∧
    chars "REM" ∉ codes ["LABEL"] := by decide +kernel

theorem spelled_len {s : String} {w : List Nat} {names : List (List Nat)} (hn : NamesOk names) (hm : chars s ∈ names) (h : Spelled s w) :
    w.length ≤ 8 := by
  have h' : w.map upper = chars s := h
  have := (hn _ hm).1
  rw [← h'] at this
  simpa using this

theorem codes_get {l : List String} {i : Nat} {s : String} (h : l[i]? = some s) : (codes l)[i]? = some (chars s) ∧ chars s ∈ codes l := by
  have : (codes l)[i]? = some (chars s) := by unfold codes; rw [List.getElem?_map, h]; rfl
  exact ⟨this, List.mem_of_getElem? this⟩

/-- Characters of a word spelled like a reserved word. -/
theorem upper_varname {c : Nat} (h : isUpper (upper c) = true ∨ isDigit (upper c) = true ∨ upper c = 36) : isVarname c = true := by
  unfold upper at h
  split at h
  · rename_i hl
    simp [isVarname, isName, hl]
  · rcases h with h | h | h
    · simp [isVarname, isName, h]
    · simp [isVarname, isName, h]
    · simp [isVarname, h]

theorem upper_start {c : Nat} (h : isUpper (upper c) = true) : isNameStart c = true := by
  unfold upper at h
  split at h
  · rename_i hl
    simp [isNameStart, hl]
  · simp [isNameStart, h]

/-- A word spelled like one made of capital letters is wordlike. -/
theorem wordlike_of_spelled {s : String} {w : List Nat} (hs : chars s ≠ [] ∧ (∀ c ∈ chars s, isUpper c = true) ∧ (chars s).length ≤ 8)
    (h : Spelled s w) : Wordlike w := by
  have h' : w.map upper = chars s := h
  have hall : ∀ c ∈ w, isUpper (upper c) = true := fun c hc => hs.2.1 _ (h' ▸ List.mem_map.mpr ⟨c, hc, rfl⟩)
  refine ⟨?_, fun c hc => upper_varname (Or.inl (hall c hc)), ?_⟩
  · cases w with
    | nil => exact absurd h'.symm hs.1
    | cons a v => exact ⟨a, v, rfl, upper_start (hall a (by simp))⟩
  · have : w.length = (chars s).length := by rw [← h']; simp
    omega

theorem tokNone_single {a c : Nat} {r : List Nat} {toks : List Tk} (ha : isSingleOp a = true) (ht : toks.length < 100) :
    tokNone ⟨a :: c :: r, toks, false⟩ = .ok (⟨c :: r, toks ++ [⟨.operation, [], opIndex [a], 0⟩], false⟩, .next) := by
  have hm : a ∈ [44, 59, 43, 45, 42, 47, 37, 40, 41, 91, 93] := by simpa [isSingleOp] using ha
  have hk : isNameStart a = false ∧ a ≠ 13 ∧ a ≠ 63 ∧ a ≠ 58 ∧ a ≠ 32 ∧ a ≠ 34 ∧ a ≠ 38 ∧ (isDigit a || a == 46) = false := by
    clear ha
    revert a
    simp only [List.mem_cons, List.not_mem_nil, or_false]
    rintro a (rfl | rfl | rfl | rfl | rfl | rfl | rfl | rfl | rfl | rfl | rfl) <;> decide
  obtain ⟨k1, k2, k3, k4, k5, k6, k7, k8⟩ := hk
  unfold tokNone
  simp only
  rw [if_neg k2, if_neg (by simp), if_neg (by simp [k1]), if_neg k3, if_neg k4, if_neg k5, if_neg k6, if_neg k7, if_neg (by simp only [k8]; simp), if_pos ha]
  rw [add_eq ht]
  rfl

theorem tokNone_comp {a c : Nat} {r : List Nat} {toks : List Tk} (ha : a = 60 ∨ a = 61 ∨ a = 62 ∨ a = 33) (hc : c ≠ 61) (ht : toks.length < 100) :
    tokNone ⟨a :: c :: r, toks, false⟩ = .ok (⟨c :: r, toks ++ [⟨.operation, [], opIndex [a], 0⟩], false⟩, .next) := by
  have hk : isNameStart a = false ∧ a ≠ 13 ∧ a ≠ 63 ∧ a ≠ 58 ∧ a ≠ 32 ∧ a ≠ 34 ∧ a ≠ 38 ∧ (isDigit a || a == 46) = false ∧ isSingleOp a = false := by
    rcases ha with rfl | rfl | rfl | rfl <;> decide
  obtain ⟨k1, k2, k3, k4, k5, k6, k7, k8, k9⟩ := hk
  unfold tokNone
  simp only
  rw [if_neg k2, if_neg (by simp), if_neg (by simp [k1]), if_neg k3, if_neg k4, if_neg k5, if_neg k6, if_neg k7,
    if_neg (by simp only [k8]; simp), if_neg (by simp [k9]), if_pos ha]
  split
  · rename_i h; cases h
  · rename_i h; cases h; exact absurd rfl hc
  · rw [add_eq ht]; rfl

theorem tokNone_comp2 {a : Nat} {r : List Nat} {toks : List Tk} (ha : a = 60 ∨ a = 61 ∨ a = 62 ∨ a = 33) (ht : toks.length < 100) :
    tokNone ⟨a :: 61 :: r, toks, false⟩ = .ok (⟨r, toks ++ [⟨.operation, [], opIndex [a, 61], 0⟩], false⟩, .next) := by
  have hk : isNameStart a = false ∧ a ≠ 13 ∧ a ≠ 63 ∧ a ≠ 58 ∧ a ≠ 32 ∧ a ≠ 34 ∧ a ≠ 38 ∧ (isDigit a || a == 46) = false ∧ isSingleOp a = false := by
    rcases ha with rfl | rfl | rfl | rfl <;> decide
  obtain ⟨k1, k2, k3, k4, k5, k6, k7, k8, k9⟩ := hk
  unfold tokNone
  simp only
  rw [if_neg k2, if_neg (by simp), if_neg (by simp [k1]), if_neg k3, if_neg k4, if_neg k5, if_neg k6, if_neg k7,
    if_neg (by simp only [k8]; simp), if_neg (by simp [k9]), if_pos ha]
  rw [add_eq ht]; rfl

theorem opIndex_signs : ∀ x ∈ signOps, opIndex (chars x.1) = x.2 := by decide +kernel

theorem tokLabel_eq {w r : List Nat} {n c : Nat} {toks : List Tk} (hn : 1 ≤ n) (hw : LabelName w) (hc : isName c = false) (ht : toks.length < 100) :
    tokLabel ⟨List.replicate n 32 ++ (w ++ c :: r), toks, false⟩ = .ok (⟨c :: r, toks ++ [⟨.label, w, 0, 0⟩], false⟩, .next) := by
  obtain ⟨h1, h2, h3⟩ := hw
  obtain ⟨m, rfl⟩ : ∃ m, n = m + 1 := ⟨n - 1, by omega⟩
  cases w with
  | nil => exact absurd rfl h1
  | cons a v =>
    have ha := h2 a (by simp)
    have ha32 : a ≠ 32 := by
      rintro rfl
      revert ha
      decide
    unfold tokLabel
    rw [List.replicate_succ]
    simp only [List.cons_append]
    rw [if_neg (by simp)]
    have hd : (List.replicate m 32 ++ a :: (v ++ c :: r)).dropWhile (· == 32) = a :: (v ++ c :: r) := by
      rw [List.dropWhile_append_of_pos (by intro x hx; simp [List.eq_of_mem_replicate hx]), List.dropWhile_cons_of_neg (by simp [ha32])]
    rw [hd]
    simp only
    rw [if_neg (by simp [ha])]
    have hs := spanOne_eq (p := isName) (w := v) (r := r) (a := a) (c := c) (fun x hx => h2 x (List.mem_cons_of_mem _ hx)) hc
    rw [List.cons_append] at hs
    rw [hs]
    simp only [Out.bind, cut_eq (w := a :: v) (by omega)]
    rw [if_neg (by omega), add_eq ht]

/-- Every word is read as its token. -/
theorem word_lexes {x : Word} (hx : x.WF) {c : Nat} {r : List Nat} {toks : List Tk} (hc : x.glues c = false) (ht : toks.length < 100) :
    tokNone ⟨x.text ++ c :: r, toks, false⟩ = .ok (⟨c :: r, toks ++ [x.tok], false⟩, .next) := by
  cases x with
  | command i w =>
    obtain ⟨hw, ⟨s, hs, hsp⟩, hne⟩ := hx
    obtain ⟨g1, g2⟩ := codes_get hs
    show tokNone ⟨w ++ c :: r, toks, false⟩ = _
    rw [tokNone_word hw, tokName_eq hw hc ht, commandTable_eq, inTable_some commandsOk.1 commandsOk.2 g1 hsp]
    simp only
    rw [if_neg hne]
    rfl
  | function i w =>
    obtain ⟨hw, s, hs, hsp⟩ := hx
    obtain ⟨g1, g2⟩ := codes_get hs
    have hb := no_blank hw.2.1
    have hl := spelled_len functionsOk.1 g2 hsp
    have hsp' : w.map upper = chars s := hsp
    show tokNone ⟨w ++ c :: r, toks, false⟩ = _
    rw [tokNone_word hw, tokName_eq hw hc ht, commandTable_eq,
      inTable_absent commandsOk.1 hb hl (by rw [hsp']; exact disjoint.1 _ g2), functionTable_eq,
      inTable_some functionsOk.1 functionsOk.2 g1 hsp]
    rfl
  | sysvar i w =>
    obtain ⟨hw, s, hs, hsp⟩ := hx
    obtain ⟨g1, g2⟩ := codes_get hs
    have hb := no_blank hw.2.1
    have hl := spelled_len sysvarsOk.1 g2 hsp
    have hsp' : w.map upper = chars s := hsp
    obtain ⟨d1, d2, d3, d4, d5⟩ := disjoint.2.1 _ g2
    rw [← hsp'] at d1 d2 d3 d4 d5
    show tokNone ⟨w ++ c :: r, toks, false⟩ = _
    rw [tokNone_word hw, tokName_eq hw hc ht, commandTable_eq, inTable_absent commandsOk.1 hb hl d1, functionTable_eq,
      inTable_absent functionsOk.1 hb hl d2, operationTable_eq, inTable_absent opsOk.1 hb hl d3, labelTable_eq,
      inTable_absent labelOk.1 hb hl d4, commentTable_eq, inTable_absent remOk.1 hb hl d5, sysvarTable_eq,
      inTable_some sysvarsOk.1 sysvarsOk.2 g1 hsp]
    rfl
  | wordOp i w =>
    obtain ⟨s, hs, hsp⟩ := hx
    have hsp' : w.map upper = chars s := hsp
    have hk : (chars s ≠ [] ∧ (∀ c ∈ chars s, isUpper c = true) ∧ (chars s).length ≤ 8) ∧ (codes allOps)[i]? = some (chars s) ∧
        chars s ∈ codes ["AND", "OR", "XOR", "NOT"] := by
      have : ∀ x ∈ wordOps, (chars x.1 ≠ [] ∧ (∀ c ∈ chars x.1, isUpper c = true) ∧ (chars x.1).length ≤ 8) ∧
        (codes allOps)[x.2]? = some (chars x.1) ∧ chars x.1 ∈ codes ["AND", "OR", "XOR", "NOT"] := by decide +kernel
      exact this _ hs
    have hw := wordlike_of_spelled hk.1 hsp
    have hb := no_blank hw.2.1
    have hl := spelled_len opsOk.1 (List.mem_of_getElem? hk.2.1) hsp
    obtain ⟨d1, d2⟩ := disjoint.2.2.1 _ hk.2.2
    rw [← hsp'] at d1 d2
    show tokNone ⟨w ++ c :: r, toks, false⟩ = _
    rw [tokNone_word hw, tokName_eq hw hc ht, commandTable_eq, inTable_absent commandsOk.1 hb hl d1, functionTable_eq,
      inTable_absent functionsOk.1 hb hl d2, operationTable_eq, inTable_some opsOk.1 opsOk.2 hk.2.1 hsp]
    rfl
  | signOp i w =>
    obtain ⟨s, hs, rfl⟩ := hx
    have hi := opIndex_signs _ hs
    have hk : (∃ a, chars s = [a] ∧ isSingleOp a = true) ∨ (∃ a, chars s = [a] ∧ (a = 60 ∨ a = 61 ∨ a = 62 ∨ a = 33)) ∨
        ∃ a, chars s = [a, 61] ∧ (a = 60 ∨ a = 61 ∨ a = 62 ∨ a = 33) := by
      have : ∀ x ∈ signOps, ((chars x.1).length = 1 ∧ isSingleOp ((chars x.1).getD 0 0) = true) ∨
          ((chars x.1).length = 1 ∧ (chars x.1).getD 0 0 ∈ [60, 61, 62, 33]) ∨
          ((chars x.1).length = 2 ∧ (chars x.1).getD 1 0 = 61 ∧ (chars x.1).getD 0 0 ∈ [60, 61, 62, 33]) := by decide +kernel
      have := this _ hs
      simp only at this
      generalize chars s = l at this
      rcases this with ⟨h1, h2⟩ | ⟨h1, h2⟩ | ⟨h1, h2, h3⟩
      · obtain ⟨a, rfl⟩ := List.length_eq_one_iff.mp h1
        exact Or.inl ⟨a, rfl, h2⟩
      · obtain ⟨a, rfl⟩ := List.length_eq_one_iff.mp h1
        refine Or.inr (Or.inl ⟨a, rfl, ?_⟩)
        simpa using h2
      · obtain ⟨a, b, rfl⟩ : ∃ a b, l = [a, b] := by
          match l, h1 with
          | [a, b], _ => exact ⟨a, b, rfl⟩
        refine Or.inr (Or.inr ⟨a, ?_, by simpa using h3⟩)
        have : b = 61 := by simpa using h2
        rw [this]
    show tokNone ⟨chars s ++ c :: r, toks, false⟩ = .ok (⟨c :: r, toks ++ [⟨.operation, [], i, 0⟩], false⟩, .next)
    simp only at hi
    rw [← hi]
    rcases hk with ⟨a, ha, h⟩ | ⟨a, ha, h⟩ | ⟨a, ha, h⟩
    · rw [ha]
      exact tokNone_single h ht
    · have hne : c ≠ 61 := by
        rintro rfl
        simp only [Word.glues, ha] at hc
        rcases h with rfl | rfl | rfl | rfl <;> simp at hc
      rw [ha]
      exact tokNone_comp h hne ht
    · rw [ha]
      exact tokNone_comp2 h ht
  | name w =>
    obtain ⟨hw, h1, h2⟩ := hx
    have hb := no_blank hw.2.1
    have key : ∀ l : List String, (∀ s ∈ l, s ∈ reserved) → NamesOk (codes l) → inTable ((codes l).flatMap pad8) w = none := by
      intro l hl hn
      refine inTable_none hn hb ?_ ?_
      · intro n hm he
        obtain ⟨s, hs, rfl⟩ := List.mem_map.mp hm
        exact h1 s (hl s hs) he
      · intro n hm h8 he
        obtain ⟨s, hs, rfl⟩ := List.mem_map.mp hm
        exact h2 s (hl s hs) h8 he
    have c1 := key commandNames (by intro s hs; simp [reserved, hs]) commandsOk.1
    have c2 := key functionNames (by intro s hs; simp [reserved, hs]) functionsOk.1
    have c3 := key sysvarNames (by intro s hs; simp [reserved, hs]) sysvarsOk.1
    have c4 := key ["LABEL"] (by intro s hs; simp at hs; simp [reserved, hs]) labelOk.1
    have c5 := key ["REM"] (by intro s hs; simp at hs; simp [reserved, hs]) remOk.1
    have c6 : inTable ((codes allOps).flatMap pad8) w = none := by
      refine inTable_none opsOk.1 hb ?_ ?_
      · intro n hm he
        obtain ⟨⟨a, v, rfl, ha⟩, hv, _⟩ := hw
        have hs : n ∈ codes ["AND", "OR", "XOR", "NOT"] ∨ ∃ c, n.head? = some c ∧ isUpper c = false ∧ c ≠ 95 := by
          have : ∀ n ∈ codes allOps, n ∈ codes ["AND", "OR", "XOR", "NOT"] ∨ (n.head?.isSome ∧ isUpper (n.head?.getD 0) = false ∧ n.head?.getD 0 ≠ 95) := by
            decide +kernel
          rcases this n hm with h | ⟨h, h', h''⟩
          · exact Or.inl h
          · obtain ⟨c, hc⟩ := Option.isSome_iff_exists.mp h
            rw [hc] at h' h''
            exact Or.inr ⟨c, hc, h', h''⟩
        rcases hs with hs | ⟨c, h, h', h''⟩
        · obtain ⟨s, hs2, rfl⟩ := List.mem_map.mp hs
          have : ∀ s ∈ ["AND", "OR", "XOR", "NOT"], s ∈ reserved := by decide +kernel
          exact h1 s (this s hs2) he
        · rw [← he] at h
          simp only [List.map_cons, List.head?_cons, Option.some.injEq] at h
          rw [← h] at h' h''
          revert h' h''
          unfold upper
          simp only [isNameStart, Bool.or_eq_true, beq_iff_eq] at ha
          split
          · rename_i hl
            simp only [isLower, isUpper, Bool.and_eq_true, decide_eq_true_eq, Bool.and_eq_false_iff, decide_eq_false_iff_not] at hl ⊢
            omega
          · rename_i hl
            intro h1 h2
            rcases ha with (ha | ha) | ha
            · rw [ha] at h1; cases h1
            · exact hl ha
            · exact h2 ha
      · intro n hm h8
        exfalso
        have : ∀ n ∈ codes allOps, n.length ≠ 8 := by decide +kernel
        exact this n hm h8
    show tokNone ⟨w ++ c :: r, toks, false⟩ = _
    rw [tokNone_word hw, tokName_eq hw hc ht, commandTable_eq, c1, functionTable_eq, c2, operationTable_eq, c6, labelTable_eq, c4,
      commentTable_eq, c5, sysvarTable_eq, c3]
    rfl
  | number w =>
    obtain ⟨h1, h2, h3⟩ := hx
    cases w with
    | nil => exact absurd rfl h1
    | cons a v =>
      have hd : (isDigit a || a == 46) = true := by simpa using h2 a (by simp)
      have hk : a ≠ 13 ∧ isNameStart a = false ∧ a ≠ 63 ∧ a ≠ 58 ∧ a ≠ 32 ∧ a ≠ 34 ∧ a ≠ 38 := by
        simp only [isDigit, isNameStart, isUpper, isLower, Bool.or_eq_true, Bool.and_eq_true, decide_eq_true_eq, beq_iff_eq,
          Bool.or_eq_false_iff, Bool.and_eq_false_iff, decide_eq_false_iff_not, beq_eq_false_iff_ne] at hd ⊢
        omega
      obtain ⟨k2, k1, k3, k4, k5, k6, k7⟩ := hk
      show tokNone ⟨a :: (v ++ c :: r), toks, false⟩ = _
      unfold tokNone
      simp only
      rw [if_neg k2, if_neg (by simp), if_neg (by simp [k1]), if_neg k3, if_neg k4, if_neg k5, if_neg k6, if_neg k7, if_pos hd]
      unfold tokNumberLex
      have hs := spanOne_eq (p := fun c => isDigit c || c == 46) (w := v) (r := r) (a := a) (c := c)
        (fun x hx => by simpa using h2 x (List.mem_cons_of_mem _ hx)) hc
      rw [List.cons_append] at hs
      rw [hs]
      simp only [Out.bind, cut_eq (w := a :: v) h3]
      rw [add_eq ht]
      rfl
  | base k ds =>
    obtain ⟨h1, h2, h3, h4⟩ := hx
    cases ds with
    | nil => exact absurd rfl h2
    | cons a v =>
      show tokNone ⟨38 :: k :: a :: (v ++ c :: r), toks, false⟩ = _
      unfold tokNone
      simp only
      rw [if_neg (by decide), if_neg (by simp), if_neg (by decide), if_neg (by decide), if_neg (by decide), if_neg (by decide), if_neg (by decide), if_pos (by decide)]
      unfold tokBaseNumber
      simp only
      have hs := spanOf_eq (p := isBaseDigit) (w := v) (r := r) (c := c)
        (fun x hx => by simpa [isBaseDigit] using h3 x (List.mem_cons_of_mem _ hx)) (by simpa [Word.glues, isBaseDigit] using hc)
      rw [hs]
      have hl : (38 :: k :: a :: v).length ≤ 255 := by simp only [List.length_cons] at h4 ⊢; omega
      simp only [Out.bind, cut_eq hl]
      rw [add_eq ht]
      rfl
  | string w =>
    obtain ⟨h1, h2⟩ := hx
    show tokNone ⟨34 :: (w ++ [34]) ++ c :: r, toks, false⟩ = _
    rw [List.cons_append, List.append_assoc]
    unfold tokNone
    simp only
    rw [if_neg (by decide), if_neg (by simp), if_neg (by decide), if_neg (by decide), if_neg (by decide), if_neg (by decide), if_pos (by decide)]
    unfold tokString
    have hs := spanOf_eq (p := fun c => c != 34 && c != 13) (w := w) (r := c :: r) (c := 34) (fun x hx => by simpa using h1 x hx) (by decide)
    rw [show w ++ ([34] ++ c :: r) = w ++ 34 :: c :: r from rfl, hs]
    simp only [Out.bind, cut_eq h2]
    rw [add_eq ht]
    rfl
  | label w =>
    obtain ⟨h1, h2, h3⟩ := hx
    cases w with
    | nil => exact absurd rfl h1
    | cons a v =>
      show tokNone ⟨64 :: (a :: v ++ c :: r), toks, false⟩ = _
      unfold tokNone
      simp only
      rw [if_neg (by decide), if_neg (by simp), if_neg (by decide), if_neg (by decide), if_neg (by decide), if_neg (by decide), if_neg (by decide), if_neg (by decide),
        if_neg (by decide), if_neg (by decide), if_neg (by decide), if_pos (by decide), if_neg (by omega)]
      rw [spanOne_eq (fun x hx => h2 x (List.mem_cons_of_mem _ hx)) hc]
      simp only [Out.bind, cut_eq (w := a :: v) (by omega)]
      rw [if_neg (by omega), add_eq ht]
      rfl
  | labelWord l n w =>
    obtain ⟨h1, h2, h3⟩ := hx
    have h1' : l.map upper = chars "LABEL" := h1
    have hw : Wordlike l := wordlike_of_spelled (by decide +kernel) h1
    have hb := no_blank hw.2.1
    have hl : l.length ≤ 8 := spelled_len labelOk.1 (by decide +kernel) h1
    obtain ⟨d1, d2, d3⟩ := disjoint.2.2.2.1 (chars "LABEL") (by decide +kernel)
    rw [← h1'] at d1 d2 d3
    show tokNone ⟨l ++ List.replicate n 32 ++ w ++ c :: r, toks, false⟩ = _
    rw [List.append_assoc, List.append_assoc, tokNone_word hw]
    obtain ⟨m, rfl⟩ : ∃ m, n = m + 1 := ⟨n - 1, by omega⟩
    rw [List.replicate_succ, List.cons_append, tokName_eq hw (by decide) ht, commandTable_eq, inTable_absent commandsOk.1 hb hl d1, functionTable_eq,
      inTable_absent functionsOk.1 hb hl d2, operationTable_eq, inTable_absent opsOk.1 hb hl d3, labelTable_eq,
      inTable_some labelOk.1 labelOk.2 (i := 0) (n := chars "LABEL") rfl h1]
    simp only [Option.isSome_some, if_true]
    have := tokLabel_eq (n := m + 1) (r := r) (by omega) h3 hc ht
    rw [List.replicate_succ, List.cons_append] at this
    exact this
  | question =>
    show tokNone ⟨63 :: c :: r, toks, false⟩ = _
    unfold tokNone
    simp only
    rw [if_neg (by decide), if_neg (by simp), if_neg (by decide), if_pos (by decide), add_eq ht]
    rfl
  | colon =>
    show tokNone ⟨58 :: c :: r, toks, false⟩ = _
    unfold tokNone
    simp only
    rw [if_neg (by decide), if_neg (by simp), if_neg (by decide), if_neg (by decide), if_pos (by decide), add_eq ht]
    rfl

end Sbc.Tok.Spec
