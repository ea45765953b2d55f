import Verif.Model.Listing
import Verif.Spec.Listing
import Verif.Props.Console
set_option autoImplicit false
/-!
# C110: FILES
-/
namespace Sbc.Listing
open Sbc Sbc.Console Sbc.Console.Spec Sbc.Strs Sbc.Strs.Spec Sbc.Listing.Spec

theorem idxOf_some {l : List Nat} {n : Nat} (h : l.idxOf? 46 = some n) : l.take n = stem l ∧ n = (stem l).length := by
  induction l generalizing n with
  | nil => simp at h
  | cons a l ih =>
    rw [List.idxOf?_cons] at h
    unfold stem
    by_cases ha : a = 46
    · subst ha
      simp at h
      subst h
      simp
    · rw [if_neg (by simpa using ha)] at h
      cases hl : l.idxOf? 46 with
      | none => rw [hl] at h; simp at h
      | some k =>
        rw [hl] at h
        simp at h
        subst h
        obtain ⟨e1, e2⟩ := ih hl
        unfold stem at e1 e2
        rw [List.takeWhile_cons_of_pos (by simpa using ha), List.take_succ_cons, e1]
        exact ⟨rfl, by rw [List.length_cons, ← e2]⟩

theorem idxOf_dot {l : List Nat} (h : 46 ∈ l) : ∃ n, l.idxOf? 46 = some n := by
  cases hl : l.idxOf? 46 with
  | none => rw [List.idxOf?_eq_none_iff] at hl; exact absurd h hl
  | some n => exact ⟨n, rfl⟩

theorem wide_text (l : List Nat) : text ⟨false, l⟩ = l.map toWide := rfl

theorem entries_spec (names : List (List Nat)) (hd : ∀ n ∈ names, 46 ∈ n ∧ (stem n).length < 128) :
    ∀ c : Con, Inv c → ∃ c', entries names c = .ok c' ∧ Inv c' ∧ c'.col = c.col ∧ c'.tabstep = c.tabstep ∧
      (view c').Same (lines c.col c.tabstep (listed names) (view c)) := by
  induction names with
  | nil => intro c h; exact ⟨c, rfl, h, rfl, rfl, rfl, rfl, fun _ _ _ _ => rfl⟩
  | cons n ns ih =>
    intro c h
    obtain ⟨k, hk⟩ := idxOf_dot (hd n (by simp)).1
    obtain ⟨e1, e2⟩ := idxOf_some hk
    have h128 := (hd n (by simp)).2
    have hs : toSigned k = k := by unfold toSigned; rw [if_pos (by omega)]
    have ih := ih fun m hm => hd m (List.mem_cons_of_mem _ hm)
    rw [entries, entry, hk]
    dsimp only
    rw [hs]
    by_cases hc : (k : Int) > 8 ∨ (k : Int) = 0
    · rw [if_pos hc]
      obtain ⟨c', a1, a2, a3, a4, a5⟩ := ih c h
      refine ⟨c', a1, a2, a3, a4, ?_⟩
      have : listed (n :: ns) = listed ns := by
        unfold listed
        rw [List.map_cons, List.filter_cons_of_neg (by simp only [decide_eq_true_eq]; omega)]
      rw [this]; exact a5
    · rw [if_neg hc, if_neg (by omega), e1]
      obtain ⟨c1, b1, b2, b3, b4, -, b6⟩ := puts_spec c h (text ⟨false, stem n⟩)
      have hp : conPuts c ⟨false, stem n⟩ = .ok c1 := by unfold conPuts; rw [strText]; exact b1
      rw [hp]
      obtain ⟨n1, n2, n3, n4, n5, n6⟩ := newline_spec c1 b2
      obtain ⟨c', a1, a2, a3, a4, a5⟩ := ih (conNewline c1 true) n1
      refine ⟨c', a1, a2, by rw [a3, n3, b3], by rw [a4, n4, b4], ?_⟩
      have : listed (n :: ns) = stem n :: listed ns := by
        unfold listed
        rw [List.map_cons, List.filter_cons_of_pos (by simp only [decide_eq_true_eq]; omega)]
      rw [this]
      rw [n3, n4, b3, b4] at a5
      refine Same.trans a5 ?_
      have hl : ∀ (ms : List (List Nat)) (s t : Screen), s.Same t → (lines c.col c.tabstep ms s).Same (lines c.col c.tabstep ms t) := by
        intro ms
        induction ms with
        | nil => exact fun _ _ h => h
        | cons m ms ihm =>
          intro s t h
          exact ihm (s.print c.col c.tabstep (toWide 32) [.text (m.map toWide)] false)
            (t.print c.col c.tabstep (toWide 32) [.text (m.map toWide)] false)
            (Same.newline (Same.piece h c.col c.tabstep (toWide 32) (.text (m.map toWide))) c.col)
      refine hl (listed ns) (view (conNewline c1 true)) ((view c).print c.col c.tabstep (toWide 32) [.text ((stem n).map toWide)] false) ?_
      rw [b3] at n6
      exact Same.trans n6 (Same.newline b6 c.col)

/-- **C110 (partial).** FILES prints the names in the order of the directory, each without what follows its first dot, as PRINT would on a
line of its own; names of no or more than 8 characters before the dot are left out.  Missing: names without a dot, or with more than 127
characters before it (refuted below). -/
theorem C110_files_partial (stack : Nat) (names : List (List Nat)) (hd : ∀ n ∈ names, 46 ∈ n ∧ (stem n).length < 128) (c : Con) (h : Inv c) :
    ∃ c', cmdFiles 0 stack (some names) c = .ok (c', 0) ∧ Inv c' ∧ (view c').Same (lines c.col c.tabstep (listed names) (view c)) := by
  obtain ⟨c', a1, a2, -, -, a5⟩ := entries_spec names hd c h
  refine ⟨c', ?_, a2, a5⟩
  unfold cmdFiles
  rw [if_neg (by simp)]
  dsimp only
  rw [a1]; rfl

theorem stem_usable {base : List Nat} (h : ∀ ch ∈ base, (48 ≤ ch ∧ ch ≤ 57) ∨ (65 ≤ ch ∧ ch ≤ 90) ∨ ch = 95) :
    stem (base ++ [46, 80, 84, 67]) = base := by
  unfold stem
  rw [List.takeWhile_append_of_pos (by intro x hx; have := h x hx; simp; omega)]
  simp

/-- **C110.** If the directory holds only files that BASIC can use, FILES lists exactly these, each once. -/
theorem C110_usable (stack : Nat) (bases : List (List Nat)) (hu : ∀ b ∈ bases, Usable (b ++ [46, 80, 84, 67])) (c : Con) (h : Inv c) :
    ∃ c', cmdFiles 0 stack (some (bases.map (· ++ [46, 80, 84, 67]))) c = .ok (c', 0) ∧ Inv c' ∧
      (view c').Same (lines c.col c.tabstep bases (view c)) := by
  have hb : ∀ b ∈ bases, stem (b ++ [46, 80, 84, 67]) = b ∧ 1 ≤ b.length ∧ b.length ≤ 8 := by
    intro b hb
    obtain ⟨b', e, l1, l2, l3⟩ := hu b hb
    have := List.append_cancel_right e
    subst this
    exact ⟨stem_usable l3, l1, l2⟩
  have hl : listed (bases.map (· ++ [46, 80, 84, 67])) = bases := by
    unfold listed
    rw [List.map_map, List.filter_eq_self.2, List.map_congr_left (g := id), List.map_id]
    · intro b h; exact (hb b h).1
    · intro x hx
      obtain ⟨b, h1, rfl⟩ := List.mem_map.1 hx
      simp only [Function.comp, (hb b h1).1, decide_eq_true_eq]
      exact (hb b h1).2
  have := C110_files_partial stack (bases.map (· ++ [46, 80, 84, 67])) (by
    intro n hn
    obtain ⟨b, h1, rfl⟩ := List.mem_map.1 hn
    rw [(hb b h1).1]
    refine ⟨by simp, ?_⟩
    have := (hb b h1).2.2
    omega) c h
  rw [hl] at this
  exact this

/-- The names `a b.txt`, `README` and a name of 128 letters with a dot. -/
def odd : List Nat := [97, 32, 98, 46, 116, 120, 116]
def readme : List Nat := [82, 69, 65, 68, 77, 69]
def long : List Nat := List.replicate 128 65 ++ [46]

/-- **C110 (refuted case).** Files that BASIC cannot use are listed: the test of the characters has no effect, and any extension is accepted. -/
theorem C110_filter_violated : ¬ Usable odd ∧ listed [odd] = [[97, 32, 98]] := by
  refine ⟨?_, by decide⟩
  rintro ⟨base, e, l1, l2, l3⟩
  have := congrArg List.reverse e
  simp [odd] at this

/-- **C110 (refuted cases).** A file without a dot in its name, a directory that cannot be opened, and (where `char` is signed) a name with 128
characters before the dot, which is copied into 30 bytes: undefined behaviour. -/
theorem C110_names_violated (stack : Nat) (c : Con) :
    cmdFiles 0 stack (some [readme]) c = .ub ∧ cmdFiles 0 stack none c = .ub ∧ cmdFiles 0 stack (some [long]) c = .ub := by
  refine ⟨rfl, rfl, ?_⟩
  have h : long.idxOf? 46 = some 128 := by decide +kernel
  unfold cmdFiles
  rw [if_neg (by simp)]
  dsimp only
  rw [entries, entry, h]
  rfl

/-- **C110 (refuted case).** `FILES "PRG"` lists all files: the number of arguments of a command is not in `argcount`, which only function
calls and subscripts set, and which is 0 when a command is executed. -/
theorem C110_type_violated (dir : Option (List (List Nat))) (c : Con) : cmdFiles 0 1 dir c = cmdFiles 0 0 dir c := rfl

/-- Two files and an entry that is left out. -/
example : ∃ c', cmdFiles 0 0 (some [[46, 46], [65, 66, 46, 80, 84, 67], [71, 46, 71]]) Console.init = .ok (c', 0) ∧ c'.text 0 1 = toWide 66 ∧
    c'.text 1 0 = toWide 71 ∧ c'.y = 2 := by
  refine ⟨_, rfl, ?_⟩
  decide +kernel

end Sbc.Listing
