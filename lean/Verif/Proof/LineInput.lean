import Verif.Spec.LineInput
set_option autoImplicit false
/-!
# Proofs about the line editor
-/
namespace Sbc.LineInput
open Sbc Sbc.Strs Sbc.Console Sbc.LineInput.Spec

theorem set2_same (f : Nat → Nat → Nat) (r c v : Nat) : set2 f r c v r c = v := by
  unfold set2; rw [upd_same, upd_same]

theorem set2_col (f : Nat → Nat → Nat) (r c v : Nat) {i : Nat} (h : i ≠ c) : set2 f r c v r i = f r i := by
  unfold set2; rw [upd_same, upd_other _ _ h]

theorem set2_else (f : Nat → Nat → Nat) (r c v : Nat) {r' i : Nat} (h : ¬ (r' = r ∧ i = c)) : set2 f r c v r' i = f r' i := by
  by_cases hr : r' = r
  · subst hr; exact set2_col f _ c v (fun e => h ⟨rfl, e⟩)
  · unfold set2; rw [upd_other _ _ hr]

theorem copyOn_spec (y pos : Nat) : (n : Nat) → (c : Con) →
    (copyOn y pos n c).x = c.x ∧ (copyOn y pos n c).y = c.y ∧ (copyOn y pos n c).col = c.col ∧ (copyOn y pos n c).tabstep = c.tabstep ∧
    (∀ i, pos < i → i ≤ pos + n → (copyOn y pos n c).text y i = c.text y (i - 1) ∧ (copyOn y pos n c).color y i = c.color y (i - 1)) ∧
    (∀ r i, ¬ (r = y ∧ pos < i ∧ i ≤ pos + n) → (copyOn y pos n c).text r i = c.text r i ∧ (copyOn y pos n c).color r i = c.color r i)
  | 0, c => ⟨rfl, rfl, rfl, rfl, fun i h1 h2 => absurd h2 (by omega), fun _ _ _ => ⟨rfl, rfl⟩⟩
  | n + 1, c => by
    obtain ⟨h1, h2, h3, h4, h5, h6⟩ := copyOn_spec y pos n { c with
      color := set2 c.color y (pos + n + 1) (c.color y (pos + n)), text := set2 c.text y (pos + n + 1) (c.text y (pos + n)) }
    refine ⟨h1, h2, h3, h4, fun i a b => ?_, fun r i h => ?_⟩
    · show (copyOn y pos n _).text y i = _ ∧ (copyOn y pos n _).color y i = _
      by_cases hi : i = pos + n + 1
      · subst hi
        rw [(h6 y (pos + n + 1) (by omega)).1, (h6 y (pos + n + 1) (by omega)).2]
        dsimp only
        rw [set2_same, set2_same]
        exact ⟨rfl, rfl⟩
      · rw [(h5 i a (by omega)).1, (h5 i a (by omega)).2]
        dsimp only
        rw [set2_col _ _ _ _ (by omega), set2_col _ _ _ _ (by omega)]
        exact ⟨rfl, rfl⟩
    · show (copyOn y pos n _).text r i = _ ∧ (copyOn y pos n _).color r i = _
      rw [(h6 r i (fun hh => h ⟨hh.1, hh.2.1, by omega⟩)).1, (h6 r i (fun hh => h ⟨hh.1, hh.2.1, by omega⟩)).2]
      dsimp only
      rw [set2_else _ _ _ _ (fun hh => h ⟨hh.1, by omega, by omega⟩), set2_else _ _ _ _ (fun hh => h ⟨hh.1, by omega, by omega⟩)]
      exact ⟨rfl, rfl⟩

theorem rd_row (f : Nat → Nat → Nat) (y i : Nat) (hy : y < 24) (hi : i < 32) : rd f y i = .ok (f y i) := by
  unfold rd width height
  rw [Nat.div_eq_of_lt hi, Nat.mod_eq_of_lt hi, if_pos (by omega)]
  rfl

theorem rd_some (f : Nat → Nat → Nat) (y i : Nat) (hy : y < 24) (hi : i ≤ 32) (h : y < 23 ∨ i < 32) : ∃ v, rd f y i = .ok v ∧ (i < 32 → v = f y i) := by
  by_cases hl : i < 32
  · exact ⟨_, rd_row f y i hy hl, fun _ => rfl⟩
  · have : i = 32 := by omega
    subst this
    refine ⟨f (y + 1) 0, ?_, fun h => absurd h hl⟩
    unfold rd width height
    rw [if_pos (by omega)]

theorem copyBack_spec (y : Nat) (hy : y < 24) : (n i : Nat) → (c : Con) → i + n ≤ 32 → (y < 23 ∨ i + n < 32) →
    ∃ c', copyBack y n i c = .ok c' ∧ c'.x = c.x ∧ c'.y = c.y ∧ c'.col = c.col ∧ c'.tabstep = c.tabstep ∧
      (∀ j, i ≤ j → j < i + n → j + 1 < 32 → c'.text y j = c.text y (j + 1) ∧ c'.color y j = c.color y (j + 1)) ∧
      (∀ r j, ¬ (r = y ∧ i ≤ j ∧ j < i + n) → c'.text r j = c.text r j ∧ c'.color r j = c.color r j)
  | 0, i, c, _, _ => ⟨c, rfl, rfl, rfl, rfl, rfl, fun j h1 h2 => absurd h2 (by omega), fun _ _ _ => ⟨rfl, rfl⟩⟩
  | n + 1, i, c, h, hb => by
    obtain ⟨k, hk, hk'⟩ := rd_some c.color y (i + 1) hy (by omega) (by omega)
    obtain ⟨w, hw, hw'⟩ := rd_some c.text y (i + 1) hy (by omega) (by omega)
    obtain ⟨c', h0, h1, h2, h3, h4, h5, h6⟩ := copyBack_spec y hy n (i + 1) { c with color := set2 c.color y i k, text := set2 c.text y i w }
      (by omega) (by omega)
    refine ⟨c', ?_, h1, h2, h3, h4, fun j a b d => ?_, fun r j hh => ?_⟩
    · unfold copyBack
      rw [hk, hw]
      exact h0
    · by_cases hj : j = i
      · subst hj
        rw [(h6 y j (by omega)).1, (h6 y j (by omega)).2]
        dsimp only
        rw [set2_same, set2_same, hk' d, hw' d]
        exact ⟨rfl, rfl⟩
      · rw [(h5 j (by omega) (by omega) d).1, (h5 j (by omega) (by omega) d).2]
        dsimp only
        rw [set2_col _ _ _ _ (by omega), set2_col _ _ _ _ (by omega)]
        exact ⟨rfl, rfl⟩
    · rw [(h6 r j (fun x => hh ⟨x.1, by omega, by omega⟩)).1, (h6 r j (fun x => hh ⟨x.1, by omega, by omega⟩)).2]
      dsimp only
      rw [set2_else _ _ _ _ (fun x => hh ⟨x.1, by omega, by omega⟩), set2_else _ _ _ _ (fun x => hh ⟨x.1, by omega, by omega⟩)]
      exact ⟨rfl, rfl⟩

/-- The cursor is set at the end of each round, so its column does not matter before. -/
structure Shows' (c0 : Con) (l : Line) (s : Ed) : Prop where
  pos : s.pos = l.before.length
  max : s.max = l.cells.length
  len : l.cells.length ≤ 32
  y : s.con.y = c0.y
  col : s.con.col = c0.col
  tabstep : s.con.tabstep = c0.tabstep
  cells : ∀ i k, l.cells[i]? = some k → (s.con.text c0.y i, s.con.color c0.y i) = k
  clear : ∀ i, l.cells.length ≤ i → i < 32 → s.con.text c0.y i = 0
  others : ∀ r i, ¬ (r = c0.y ∧ i < 32) → s.con.text r i = c0.text r i ∧ s.con.color r i = c0.color r i

/-- Inserting. -/
theorem insert_shows {c0 : Con} {l : Line} {s : Ed} (h : Shows' c0 l s) (hlen : l.cells.length < 32) (w : Nat) :
    Shows' c0 ⟨l.before ++ [(w, c0.col)], l.after⟩ ⟨putAt (copyOn s.con.y s.pos (s.max - s.pos) s.con) s.pos w, s.pos + 1, s.max + 1⟩ := by
  have hle : l.cells.length = l.before.length + l.after.length := by unfold Line.cells; rw [List.length_append]
  obtain ⟨e1, e2, e3, e4, e5, e6⟩ := copyOn_spec s.con.y s.pos (s.max - s.pos) s.con
  rw [h.y] at e5 e6 ⊢
  have hcells : (Line.cells ⟨l.before ++ [(w, c0.col)], l.after⟩).length = l.cells.length + 1 := by
    rw [hle]; unfold Line.cells; simp; omega
  have hp := h.pos
  have hm := h.max
  rw [h.y] at e2 e3 e4
  generalize copyOn c0.y s.pos (s.max - s.pos) s.con = d at *
  refine ⟨?_, ?_, ?_, ?_, ?_, ?_, fun i k hk => ?_, fun i a b => ?_, fun r i hh => ?_⟩
  · show s.pos + 1 = _
    rw [h.pos]; simp
  · show s.max + 1 = _
    rw [hcells, h.max]
  · rw [hcells]; omega
  · exact e2
  · show d.col = _
    rw [e3]; exact h.col
  · show d.tabstep = _
    rw [e4]; exact h.tabstep
  · show (set2 d.text d.y s.pos w c0.y i, set2 d.color d.y s.pos d.col c0.y i) = k
    rw [e2, e3, h.col]
    by_cases hi : i = s.pos
    · rw [hi, set2_same, set2_same]
      unfold Line.cells at hk
      dsimp only at hk
      rw [List.append_assoc, List.getElem?_append_right (by omega), hi, h.pos, Nat.sub_self] at hk
      exact Option.some.inj hk
    · rw [set2_col _ _ _ _ hi, set2_col _ _ _ _ hi]
      by_cases hlt : i < s.pos
      · rw [(e6 c0.y i (by omega)).1, (e6 c0.y i (by omega)).2]
        apply h.cells
        unfold Line.cells at hk ⊢
        dsimp only at hk
        rw [List.append_assoc, List.getElem?_append_left (by omega)] at hk
        rw [List.getElem?_append_left (by omega)]
        exact hk
      · have hil : i < l.cells.length + 1 := by
          have := (List.getElem?_eq_some_iff.mp hk).1
          rw [hcells] at this; exact this
        rw [(e5 i (by omega) (by omega)).1, (e5 i (by omega) (by omega)).2]
        apply h.cells
        unfold Line.cells at hk ⊢
        dsimp only at hk
        rw [List.append_assoc, List.getElem?_append_right (by omega), List.getElem?_append_right (by simp; omega)] at hk
        rw [List.getElem?_append_right (by omega)]
        simp only [List.length_cons, List.length_nil] at hk
        rw [show i - 1 - l.before.length = i - l.before.length - (0 + 1) by omega]
        exact hk
  · rw [hcells] at a
    show set2 d.text d.y s.pos w c0.y i = 0
    rw [set2_else _ _ _ _ (by omega), (e6 c0.y i (by omega)).1]
    exact h.clear i (by omega) b
  · show set2 d.text d.y s.pos w r i = _ ∧ set2 d.color d.y s.pos d.col r i = _
    rw [set2_else _ _ _ _ (fun x => hh ⟨by rw [x.1, e2], by omega⟩), set2_else _ _ _ _ (fun x => hh ⟨by rw [x.1, e2], by omega⟩),
      (e6 r i (fun x => hh ⟨x.1, by omega⟩)).1, (e6 r i (fun x => hh ⟨x.1, by omega⟩)).2]
    exact h.others r i hh

/-- Deleting character `i`. -/
theorem delete_shows {c0 : Con} {l : Line} {s : Ed} (h : Shows' c0 l s) (hy : c0.y < 24) (hfull : c0.y < 23 ∨ l.cells.length < 32)
    (l' : Line) (i : Nat) (hi : i < l.cells.length) (hl : l'.cells = l.cells.eraseIdx i) :
    ∃ c, deleteAt s i = .ok c ∧ Shows' c0 l' ⟨c, l'.before.length, s.max - 1⟩ := by
  have hm := h.max
  have hlen := h.len
  obtain ⟨d, e0, _, e2, e3, e4, e5, e6⟩ := copyBack_spec c0.y hy (s.max - i) i s.con (by omega) (by omega)
  have hcells : l'.cells.length = l.cells.length - 1 := by rw [hl, List.length_eraseIdx]; simp [hi]
  refine ⟨{ d with text := set2 d.text d.y (s.max - 1) 0 }, ?_, rfl, ?_, ?_, ?_, ?_, ?_, fun j k hk => ?_, fun j a b => ?_, fun r j hh => ?_⟩
  · unfold deleteAt
    rw [h.y, e0]
    rfl
  · show s.max - 1 = _
    rw [hcells, h.max]
  · omega
  · show d.y = _
    rw [e2]; exact h.y
  · show d.col = _
    rw [e3]; exact h.col
  · show d.tabstep = _
    rw [e4]; exact h.tabstep
  · show (set2 d.text d.y (s.max - 1) 0 c0.y j, d.color c0.y j) = k
    have hj : j < l.cells.length - 1 := by
      have := (List.getElem?_eq_some_iff.mp hk).1
      omega
    rw [e2, h.y, set2_col _ _ _ _ (by omega)]
    rw [hl, List.getElem?_eraseIdx] at hk
    by_cases hlt : j < i
    · rw [if_pos hlt] at hk
      rw [(e6 c0.y j (by omega)).1, (e6 c0.y j (by omega)).2]
      exact h.cells j k hk
    · rw [if_neg hlt] at hk
      rw [(e5 j (by omega) (by omega) (by omega)).1, (e5 j (by omega) (by omega) (by omega)).2]
      exact h.cells (j + 1) k hk
  · show set2 d.text d.y (s.max - 1) 0 c0.y j = 0
    rw [e2, h.y]
    by_cases hj : j = s.max - 1
    · rw [hj, set2_same]
    · rw [set2_col _ _ _ _ hj, (e6 c0.y j (by omega)).1]
      exact h.clear j (by omega) b
  · show set2 d.text d.y (s.max - 1) 0 r j = _ ∧ d.color r j = _
    rw [e2, h.y, set2_else _ _ _ _ (fun x => hh ⟨x.1, by omega⟩), (e6 r j (fun x => hh ⟨x.1, by omega⟩)).1, (e6 r j (fun x => hh ⟨x.1, by omega⟩)).2]
    exact h.others r j hh

/-- The same characters, with the cursor in another place. -/
theorem move_shows {c0 : Con} {l : Line} {s : Ed} (h : Shows' c0 l s) (l' : Line) (hl : l'.cells = l.cells) :
    Shows' c0 l' { s with pos := l'.before.length } :=
  ⟨rfl, by rw [hl]; exact h.max, by rw [hl]; exact h.len, h.y, h.col, h.tabstep, by rw [hl]; exact h.cells, by rw [hl]; exact h.clear, h.others⟩

/-- A round. -/
theorem key_shows {c0 : Con} {l : Line} {s : Ed} (h : Shows' c0 l s) (hy : c0.y < 24) (e : Event) (hfull : c0.y < 23 ∨ (Removes e → l.cells.length < 32))
    (hc : e.cursor ≤ 1) : ∃ s', editKey s e = .ok s' ∧ Shows' c0 (l.press c0.col e) s' := by
  have hp := h.pos
  have hm := h.max
  have hle : l.cells.length = l.before.length + l.after.length := by unfold Line.cells; rw [List.length_append]
  unfold editKey Line.press
  by_cases h1 : e.lr = true
  · rw [if_pos h1, if_pos h1]; exact ⟨s, rfl, h⟩
  rw [if_neg h1, if_neg h1]
  by_cases h2 : e.kb = 15 ∨ e.y = true
  · rw [if_pos h2, if_pos h2]
    by_cases h3 : s.pos > 0
    · rw [if_pos h3]
      obtain ⟨c, e1, e2⟩ := delete_shows h hy (hfull.imp id fun x => x ⟨by simpa using h1, h2.elim .inl fun y => .inr (.inl y)⟩) ⟨l.before.dropLast, l.after⟩ (s.pos - 1) (by omega) (by
        unfold Line.cells
        rw [List.eraseIdx_append_of_lt_length (by omega)]
        dsimp only
        rw [hp, ← List.eraseIdx_length_sub_one])
      refine ⟨⟨c, s.pos - 1, s.max - 1⟩, by rw [e1]; rfl, ?_⟩
      have : s.pos - 1 = l.before.dropLast.length := by rw [List.length_dropLast, hp]
      rw [this]
      exact e2
    · rw [if_neg h3]
      have : l.before = [] := List.eq_nil_of_length_eq_zero (by omega)
      refine ⟨s, rfl, ?_⟩
      rw [show (⟨l.before.dropLast, l.after⟩ : Line) = l by rw [this, List.dropLast_nil, ← this]]
      exact h
  rw [if_neg h2, if_neg h2]
  by_cases h4 : e.kb = 67
  · rw [if_pos h4, if_pos h4]
    by_cases h5 : s.pos < s.max
    · rw [if_pos h5]
      obtain ⟨c, e1, e2⟩ := delete_shows h hy (hfull.imp id fun x => x ⟨by simpa using h1, .inr (.inr h4)⟩) ⟨l.before, l.after.tail⟩ s.pos (by omega) (by
        unfold Line.cells
        rw [List.eraseIdx_append_of_length_le (by omega), hp, Nat.sub_self, List.eraseIdx_zero])
      refine ⟨⟨c, s.pos, s.max - 1⟩, by rw [e1]; rfl, ?_⟩
      rw [hp]
      exact e2
    · rw [if_neg h5]
      have : l.after = [] := List.eq_nil_of_length_eq_zero (by omega)
      refine ⟨s, rfl, ?_⟩
      rw [show (⟨l.before, l.after.tail⟩ : Line) = l by rw [this, List.tail_nil, ← this]]
      exact h
  rw [if_neg h4, if_neg h4]
  by_cases h6 : e.inkey = 13
  · rw [if_pos h6, if_pos h6]; exact ⟨s, rfl, h⟩
  rw [if_neg h6, if_neg h6]
  by_cases h7 : e.inkey ≠ 0 ∧ l.cells.length < 32
  · rw [if_pos (show e.inkey ≠ 0 ∧ s.max < width from ⟨h7.1, by rw [hm]; exact h7.2⟩), if_pos h7, if_neg (by omega)]
    exact ⟨_, rfl, insert_shows h h7.2 e.inkey⟩
  · rw [if_neg (show ¬ (e.inkey ≠ 0 ∧ s.max < width) from fun x => h7 ⟨x.1, by rw [← hm]; exact x.2⟩), if_neg h7]
    by_cases h8 : e.left = true
    · rw [if_pos h8, if_pos h8]
      refine ⟨_, rfl, ?_⟩
      cases hb : l.before.getLast? with
      | none =>
        have : l.before = [] := List.getLast?_eq_none_iff.mp hb
        have e0 : s.pos - 1 = s.pos := by rw [hp, this]; rfl
        rw [e0]
        exact h
      | some x =>
        have hne : l.before ≠ [] := fun x => by rw [x] at hb; cases hb
        have hx : l.before = l.before.dropLast ++ [x] := by
          obtain ⟨ys, hys⟩ := List.getLast?_eq_some_iff.mp hb
          rw [hys, List.dropLast_concat]
        have := move_shows h ⟨l.before.dropLast, x :: l.after⟩ (by
          unfold Line.cells
          dsimp only
          rw [List.append_cons, ← hx])
        have e0 : s.pos - 1 = l.before.dropLast.length := by rw [List.length_dropLast, hp]
        rw [e0]
        exact this
    rw [if_neg h8, if_neg h8]
    by_cases h9 : e.right = true
    · rw [if_pos h9, if_pos h9]
      refine ⟨_, rfl, ?_⟩
      cases ha : l.after with
      | nil =>
        have : ¬ s.pos < s.max := by rw [hp, hm, hle, ha]; simp
        rw [if_neg this]
        exact h
      | cons x r =>
        have : s.pos < s.max := by rw [hp, hm, hle, ha]; simp
        rw [if_pos this]
        have := move_shows h ⟨l.before ++ [x], r⟩ (by unfold Line.cells; dsimp only; rw [ha]; simp)
        have e0 : s.pos + 1 = (l.before ++ [x]).length := by rw [List.length_append, hp]; rfl
        rw [e0]
        exact this
    rw [if_neg h9, if_neg h9]
    exact ⟨s, rfl, h⟩

theorem Spec.Roomy.head {y col : Nat} {l : Line} {e : Event} {es : List Event} (h : Roomy y col l (e :: es)) : y < 23 ∨ (Removes e → l.cells.length < 32) :=
  h.imp id fun h => h 0 e rfl

theorem Spec.Roomy.tail {y col : Nat} {l : Line} {e : Event} {es : List Event} (h : Roomy y col l (e :: es)) : Roomy y col (l.press col e) es :=
  h.imp id fun h k x hk => h (k + 1) x (by simpa using hk)

theorem step_shows {c0 : Con} {l : Line} {s : Ed} (h : Shows' c0 l s) (hy : c0.y < 24) (e : Event) (hfull : c0.y < 23 ∨ (Removes e → l.cells.length < 32))
    (hc : e.cursor ≤ 1) : ∃ s', editStep s e = .ok s' ∧ Shows' c0 (l.press c0.col e) s' ∧ s'.con.x = (l.press c0.col e).before.length := by
  obtain ⟨s', h1, h2⟩ := key_shows h hy e hfull hc
  refine ⟨{ s' with con := { s'.con with x := s'.pos } }, by unfold editStep; rw [h1]; rfl, ?_, h2.pos⟩
  exact ⟨h2.pos, h2.max, h2.len, h2.y, h2.col, h2.tabstep, h2.cells, h2.clear, h2.others⟩

theorem run_shows {c0 : Con} (hy : c0.y < 24) : (es : List Event) → (l : Line) → (s : Ed) → Shows' c0 l s → s.con.x = l.before.length →
    Roomy c0.y c0.col l es → (∀ e ∈ es, e.cursor ≤ 1) →
    ∃ s', editRun es s = .ok s' ∧ Shows' c0 (l.presses c0.col es) s' ∧ s'.con.x = (l.presses c0.col es).before.length
  | [], l, s, h, hx, _, _ => ⟨s, rfl, h, hx⟩
  | e :: es, l, s, h, _, hr, hc => by
    obtain ⟨s1, h1, h2, h3⟩ := step_shows h hy e hr.head (hc e (by simp))
    obtain ⟨s2, h4, h5⟩ := run_shows hy es _ s1 h2 h3 hr.tail (fun x hx => hc x (by simp [hx]))
    exact ⟨s2, by rw [editRun, h1]; exact h4, h5⟩

theorem loop_run (rest : List Event) (e : Event) (he : e.stops = true) : (es : List Event) → (∀ x ∈ es, x.stops = false) → (s s' : Ed) →
    editRun (es ++ [e]) s = .ok s' → editLoop (es ++ e :: rest) s = .ok (some (s', e.err))
  | [], _, s, s', h => by
    have h : (editStep s e).bind (editRun []) = .ok s' := h
    show (editStep s e).bind (fun s => if e.stops then .ok (some (s, e.err)) else editLoop rest s) = _
    cases h1 : editStep s e with
    | ok s1 =>
      rw [h1] at h
      have h : Out.ok s1 = .ok s' := h
      cases h
      show (if e.stops then _ else _) = _
      rw [if_pos he]
    | err x => rw [h1] at h; cases h
    | ub => rw [h1] at h; cases h
  | x :: es, hs, s, s', h => by
    have h : (editStep s x).bind (editRun (es ++ [e])) = .ok s' := h
    show (editStep s x).bind (fun s => if x.stops then .ok (some (s, x.err)) else editLoop (es ++ e :: rest) s) = _
    cases h1 : editStep s x with
    | ok s1 =>
      rw [h1] at h
      show (if x.stops then _ else _) = _
      rw [if_neg (by rw [hs x (by simp)]; decide)]
      exact loop_run rest e he es (fun z hz => hs z (by simp [hz])) s1 s' h
    | err x => rw [h1] at h; cases h
    | ub => rw [h1] at h; cases h

theorem loop_waits : (es : List Event) → (∀ x ∈ es, x.stops = false) → (s s' : Ed) → editRun es s = .ok s' → editLoop es s = .ok none
  | [], _, _, _, _ => rfl
  | x :: es, hs, s, s', h => by
    have h : (editStep s x).bind (editRun es) = .ok s' := h
    show (editStep s x).bind (fun s => if x.stops then .ok (some (s, x.err)) else editLoop es s) = _
    cases h1 : editStep s x with
    | ok s1 =>
      rw [h1] at h
      show (if x.stops then _ else _) = _
      rw [if_neg (by rw [hs x (by simp)]; decide)]
      exact loop_waits es (fun z hz => hs z (by simp [hz])) s1 s' h
    | err x => rw [h1] at h; cases h
    | ub => rw [h1] at h; cases h

theorem start_shows (c : Con) (hc : RowClear c) : Shows' c Line.empty ⟨c, 0, 0⟩ :=
  ⟨rfl, rfl, by decide, rfl, rfl, rfl, fun i k h => by simp [Line.empty, Line.cells] at h, fun i _ h => hc i h, fun _ _ _ => ⟨rfl, rfl⟩⟩

theorem shows_of {c : Con} {l : Line} {s : Ed} (h : Shows' c l s) (hx : s.con.x = l.before.length) : Shows c l s.con :=
  ⟨hx, h.y, h.col, h.tabstep, h.cells, h.clear, h.others⟩

/-- The whole editor. -/
theorem shared_shows (c : Con) (hy : c.y < 24) (hc : RowClear c) (es rest : List Event) (e : Event) (hs : ∀ x ∈ es, x.stops = false) (he : e.stops = true)
    (hr : Roomy c.y c.col Line.empty (es ++ [e])) (hcur : ∀ x ∈ es ++ [e], x.cursor ≤ 1) :
    ∃ c', sharedInput (es ++ e :: rest) c = .ok (some (c', e.err)) ∧ Shows c (Line.empty.presses c.col (es ++ [e])) c' ∧
      (Line.empty.presses c.col (es ++ [e])).cells.length ≤ 32 := by
  by_cases h0 : es ++ [e] = []
  · simp at h0
  · obtain ⟨e1, r, hr1⟩ := List.exists_cons_of_ne_nil h0
    rw [hr1] at hr hcur
    obtain ⟨s1, h1, h2, h3⟩ := step_shows (start_shows c hc) hy e1 hr.head (hcur e1 (by simp))
    obtain ⟨s2, h4, h5, h6⟩ := run_shows hy r _ s1 h2 h3 hr.tail (fun x hx => hcur x (by simp [hx]))
    have hrun : editRun (es ++ [e]) ⟨c, 0, 0⟩ = .ok s2 := by rw [hr1, editRun, h1]; exact h4
    refine ⟨s2.con, ?_, ?_, ?_⟩
    · unfold sharedInput
      rw [if_pos (show c.y < height from hy), loop_run rest e he es hs _ _ hrun]
      rfl
    · rw [hr1]; exact shows_of h5 h6
    · rw [hr1]; exact h5.len

/-- The row shows the characters of the line. -/
theorem row_text {c c' : Con} {l : Line} (h : Shows c l c') (hl : l.cells.length ≤ 32) : row c' = l.text ++ List.replicate (32 - l.cells.length) 0 := by
  apply List.ext_getElem?
  intro i
  unfold row
  rw [h.y]
  by_cases hi : i < l.cells.length
  · rw [List.getElem?_append_left (by unfold Line.text; rw [List.length_map]; exact hi)]
    unfold Line.text
    rw [List.getElem?_map, List.getElem?_map, List.getElem?_range (show i < width from Nat.lt_of_lt_of_le hi hl), List.getElem?_eq_getElem hi]
    have := h.cells i _ (List.getElem?_eq_getElem hi)
    rw [← this]
    rfl
  · rw [List.getElem?_append_right (by unfold Line.text; rw [List.length_map]; omega), List.getElem?_map]
    by_cases hi2 : i < 32
    · rw [List.getElem?_range (show i < width from hi2)]
      unfold Line.text
      rw [List.length_map, List.getElem?_replicate, if_pos (by omega)]
      show some (c'.text c.y i) = _
      rw [h.clear i (by omega) hi2]
    · unfold Line.text
      rw [List.length_map, List.getElem?_replicate, if_neg (by omega), List.getElem?_eq_none (by simp [width]; omega)]
      rfl

theorem take_text (t : List Nat) (k : Nat) (h : 0 ∉ t) : (t ++ List.replicate k 0).takeWhile (· != 0) = t := by
  induction t with
  | nil => cases k <;> rfl
  | cons a t ih =>
    simp only [List.mem_cons, not_or] at h
    rw [List.cons_append, List.takeWhile_cons_of_pos (by simpa using fun e => h.1 e.symm), ih h.2]

end Sbc.LineInput
