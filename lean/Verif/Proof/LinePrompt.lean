import Verif.Proof.LineFields
import Verif.Props.Console
set_option autoImplicit false
/-!
# Proofs about the prompt of INPUT and LINPUT
-/
namespace Sbc.LineInput
open Sbc Sbc.Strs Sbc.Strs.Spec Sbc.Console Sbc.Console.Spec Sbc.LineInput.Spec

/-- After a string, nothing is beyond the cursor. -/
theorem puts_beyond (c : Con) (h : Inv c) (hb : Beyond c) (s : Str) :
    ∃ c', conPuts c s = .ok c' ∧ Inv c' ∧ Beyond c' ∧ c'.col = c.col ∧ c'.x = (c.x + strLen s) % 32 ∧ (0 < strLen s ∨ c.y < 24 → c'.y = 24 → 0 < strLen s ∧ c'.x = 0) := by
  obtain ⟨c', e1, e2, e3, -, -, e6⟩ := puts_spec c h (text s)
  have hlen : (text s).length = strLen s := text_length s
  refine ⟨c', by unfold conPuts; rw [strText]; exact e1, e2, ?_, e3, ?_, ?_⟩
  · intro r i hr hi hle
    have h1 := e6.2.2 r i hr hi
    have hx : c'.x = _ := e6.1
    have hy : c'.y = _ := e6.2.1
    have ht : c'.text r i = (((view c).write c.col (text s)).cell r i).1 := by rw [← h1]; rfl
    rw [ht]
    have hx : c'.x = (32 * c.y + c.x + (text s).length - 32 * ((32 * c.y + c.x + ((text s).length - 1)) / 32 - 23)) % 32 := hx
    have hy : c'.y = (32 * c.y + c.x + (text s).length - 32 * ((32 * c.y + c.x + ((text s).length - 1)) / 32 - 23)) / 32 := hy
    suffices key : ∀ k, k = (32 * c.y + c.x + ((text s).length - 1)) / 32 - 23 → ((if 32 * c.y + c.x ≤ 32 * (r + k) + i ∧ 32 * (r + k) + i < 32 * c.y + c.x + (text s).length then
        ((text s).getD (32 * (r + k) + i - (32 * c.y + c.x)) 0, c.col) else if r + k < 24 then (c.text (r + k) i, c.color (r + k) i) else (0, c.col)) : Nat × Nat).1 = 0 from key _ rfl
    intro k hk
    rw [← hk] at hx hy
    rw [hx, hy] at hle
    have hkk : 32 * k ≤ 32 * c.y + c.x + (text s).length := by omega
    rw [if_neg (by omega)]
    by_cases hr2 : r + k < 24
    · rw [if_pos hr2]
      exact hb _ _ hr2 hi (by omega)
    · rw [if_neg hr2]
  · have hx : c'.x = _ := e6.1
    unfold Screen.write at hx
    simp only [view] at hx
    rw [hx, hlen]
    have := h.x
    omega
  · intro hc hy24
    refine ⟨?_, e2.edge hy24⟩
    rcases hc with hc | hc
    · exact hc
    · have hy : c'.y = _ := e6.2.1
      unfold Screen.write at hy
      simp only [view] at hy
      rw [hlen] at hy
      have := h.x
      omega

theorem put_beyond (c : Con) (h : Inv c) (hy : c.y < 24) (hb : Beyond c) (w : Nat) :
    ∃ c', conPut c w = .ok c' ∧ Inv c' ∧ Beyond c' ∧ c'.col = c.col ∧ (c.x ≠ 31 → c'.y < 24) ∧ (c.x ≠ 31 → c'.x ≠ 0) ∧ (c.x = 31 → c'.x = 0 ∧ c'.y = c.y + 1) := by
  have hx := h.x
  unfold conPut
  rw [if_neg (show ¬ ¬ c.x < width from fun x => x hx), if_neg (show ¬ ¬ c.y < height from fun x => x hy)]
  dsimp only
  by_cases h31 : c.x = 31
  · rw [if_pos (show c.x + 1 ≥ width by unfold width; omega)]
    refine ⟨_, rfl, ⟨by show 0 < 32; decide, hy, fun _ => rfl, h.tab⟩, ?_, rfl, fun x => absurd h31 x, fun x => absurd h31 x, fun _ => ⟨rfl, rfl⟩⟩
    intro r i hr hi hle
    have hle : 32 * (c.y + 1) + 0 ≤ 32 * r + i := hle
    show set2 c.text c.y c.x w r i = 0
    rw [set2_eq, if_neg (by omega)]
    exact hb r i hr hi (by omega)
  · rw [if_neg (show ¬ c.x + 1 ≥ width by unfold width; omega)]
    refine ⟨_, rfl, ⟨?_, h.y, ?_, h.tab⟩, ?_, rfl, fun _ => hy, ?_, fun x => absurd x h31⟩
    · show c.x + 1 < 32; omega
    · show c.y = 24 → _; omega
    · intro r i hr hi hle
      have hle : 32 * c.y + (c.x + 1) ≤ 32 * r + i := hle
      show set2 c.text c.y c.x w r i = 0
      rw [set2_eq, if_neg (by omega)]
      exact hb r i hr hi (by omega)
    · intro _
      show c.x + 1 ≠ 0
      omega

theorem newline_beyond' (c : Con) (h : Inv c) (hb : ∀ r i, r < 24 → i < 32 → c.y < r → c.text r i = 0) :
    Inv (conNewline c true) ∧ (conNewline c true).y < 24 ∧ (conNewline c true).col = c.col ∧ (conNewline c true).x = 0 ∧ Beyond (conNewline c true) := by
  obtain ⟨e1, e2, e3, -, -, e6⟩ := newline_spec c h
  have hx : (conNewline c true).x = 0 := e6.1
  refine ⟨e1, e2, e3, hx, ?_⟩
  intro r i hr hi hle
  have hy : (conNewline c true).y = _ := e6.2.1
  have ht : (conNewline c true).text r i = (((view c).newline c.col).cell r i).1 := by rw [← e6.2.2 r i hr hi]; rfl
  rw [ht]
  rw [hx, hy] at hle
  have hle : 32 * (c.y + 1 - (c.y + 1 - 23)) + 0 ≤ 32 * r + i := hle
  show ((if r + (c.y + 1 - 23) < 24 then (c.text (r + (c.y + 1 - 23)) i, c.color (r + (c.y + 1 - 23)) i) else (0, c.col)) : Nat × Nat).1 = 0
  by_cases hr2 : r + (c.y + 1 - 23) < 24
  · rw [if_pos hr2]
    exact hb _ _ hr2 hi (by omega)
  · rw [if_neg hr2]

theorem newline_beyond (c : Con) (h : Inv c) (hb : Beyond c) :
    Inv (conNewline c true) ∧ (conNewline c true).y < 24 ∧ (conNewline c true).col = c.col ∧ (conNewline c true).x = 0 ∧ Beyond (conNewline c true) :=
  newline_beyond' c h fun r i hr hi hlt => hb r i hr hi (by have := h.x; omega)

/-- The line after the one that was edited. -/
theorem newline_shows {c c' : Con} {l : Line} (hs : Shows c l c') (h : Inv c) (hy : c.y < 24) (hx : c.x = 0) (hb : Beyond c) :
    Inv (conNewline c' true) ∧ (conNewline c' true).y < 24 ∧ (conNewline c' true).col = c.col ∧ (conNewline c' true).x = 0 ∧ Beyond (conNewline c' true) := by
  have e : conNewline c' true = conNewline { c' with x := 0 } true := rfl
  rw [e]
  have := newline_beyond' { c' with x := 0 } ⟨by show 0 < 32; decide, by show c'.y ≤ 24; rw [hs.y]; omega, fun _ => rfl, by show 1 ≤ c'.tabstep ∧ _; rw [hs.tabstep]; exact h.tab⟩
    (fun r i hr hi hlt => by
      have hlt : c'.y < r := hlt
      rw [hs.y] at hlt
      show c'.text r i = 0
      rw [(hs.others r i (by omega)).1]
      exact hb r i hr hi (by omega))
  exact ⟨this.1, this.2.1, this.2.2.1.trans hs.col, this.2.2.2⟩

theorem beyond_clear {c : Con} (h : Beyond c) (hx : c.x = 0) (hy : c.y < 24) : RowClear c := fun i hi => h c.y i hy hi (by omega)

/-- The prompt. -/
theorem prompt_clear (c : Con) (h : Inv c) (hy : c.y < 24) (hb : Beyond c) (prompt : Option Str) (h31 : (c.x + promptLen prompt) % 32 ≠ 31)
    (h0 : promptLen prompt = 0 ∨ (c.x + promptLen prompt) % 32 ≠ 0) :
    ∃ c', conPrompt c prompt = .ok c' ∧ Inv c' ∧ c'.y < 24 ∧ c'.col = c.col ∧ c'.x = 0 ∧ Beyond c' := by
  have key : ∀ c1 : Con, Inv c1 → c1.y < 24 → Beyond c1 → c1.col = c.col → c1.x ≠ 31 →
      ∃ c', ((conPut c1 (toWide 63)).bind fun c => .ok (if c.x ≠ 0 then conNewline c true else c)) = .ok c' ∧ Inv c' ∧ c'.y < 24 ∧ c'.col = c.col ∧ c'.x = 0 ∧ Beyond c' := by
    intro c1 i1 y1 b1 col1 x1
    obtain ⟨c2, e1, i2, b2, col2, y2, x2, -⟩ := put_beyond c1 i1 y1 b1 (toWide 63)
    obtain ⟨i3, y3, col3, x3, b3⟩ := newline_beyond c2 i2 b2
    refine ⟨conNewline c2 true, ?_, i3, y3, by rw [col3, col2, col1], x3, b3⟩
    rw [e1]
    show Out.ok (if c2.x ≠ 0 then conNewline c2 true else c2) = _
    rw [if_pos (x2 x1)]
  unfold conPrompt
  cases prompt with
  | none =>
    refine key c h hy hb rfl ?_
    have : (c.x + 0) % 32 ≠ 31 := h31
    have := h.x
    omega
  | some s =>
    obtain ⟨c1, e1, i1, b1, col1, x1, y1⟩ := puts_beyond c h hb s
    have h31 : (c.x + strLen s) % 32 ≠ 31 := h31
    have h0 : strLen s = 0 ∨ (c.x + strLen s) % 32 ≠ 0 := h0
    have hy1 : c1.y < 24 := by
      have hle := i1.y
      by_cases h24 : c1.y = 24
      · obtain ⟨h2, h3⟩ := y1 (.inr hy) h24
        omega
      · omega
    obtain ⟨c2, h2⟩ := key c1 i1 hy1 b1 col1 (by omega)
    refine ⟨c2, ?_, h2.2⟩
    show (conPuts c s).bind _ = _
    rw [e1]
    exact h2.1

/-- The text that asks again. -/
theorem reprompt_clear {c c' : Con} {l : Line} (hs : Shows c l c') (h : Inv c) (hy : c.y < 24) (hx : c.x = 0) (hb : Beyond c) (prompt : Option Str)
    (h31 : promptLen prompt % 32 ≠ 31) (h0 : promptLen prompt = 0 ∨ promptLen prompt % 32 ≠ 0) :
    ∃ d, conReprompt c' prompt = .ok d ∧ Inv d ∧ d.y < 24 ∧ d.col = c.col ∧ d.x = 0 ∧ Beyond d := by
  obtain ⟨i1, y1, col1, x1, b1⟩ := newline_shows hs h hy hx hb
  obtain ⟨d, e2, i2, b2, col2, x2, -⟩ := puts_beyond _ i1 b1 redoText
  obtain ⟨i3, y3, col3, x3, b3⟩ := newline_beyond d i2 b2
  obtain ⟨f, e4, i4, y4, col4, x4, b4⟩ := prompt_clear _ i3 y3 b3 prompt (by rw [x3, Nat.zero_add]; exact h31) (by rw [x3, Nat.zero_add]; exact h0)
  refine ⟨f, ?_, i4, y4, by rw [col4, col3, col2, col1], x4, b4⟩
  unfold conReprompt
  rw [e2]
  exact e4

/-- All characters of a line have been typed. -/
theorem press_typed (P : Nat → Prop) (col : Nat) (l : Line) (e : Event) (he : e.inkey = 0 ∨ P e.inkey) (h : ∀ k ∈ l.cells, P k.1) :
    ∀ k ∈ (l.press col e).cells, P k.1 := by
  have hb : ∀ k ∈ l.before, P k.1 := fun k hk => h k (by simp [Line.cells, hk])
  have ha : ∀ k ∈ l.after, P k.1 := fun k hk => h k (by simp [Line.cells, hk])
  have mk : ∀ b a : List (Nat × Nat), (∀ k ∈ b, P k.1) → (∀ k ∈ a, P k.1) → ∀ k ∈ (Line.mk b a).cells, P k.1 := by
    intro b a h1 h2 k hk
    rcases List.mem_append.mp hk with hk | hk
    · exact h1 k hk
    · exact h2 k hk
  unfold Line.press
  split
  · exact h
  split
  · exact mk _ _ (fun k hk => hb k (List.dropLast_subset _ hk)) ha
  split
  · exact mk _ _ hb (fun k hk => ha k (List.mem_of_mem_tail hk))
  split
  · exact h
  split
  · rename_i hc
    refine mk _ _ (fun k hk => ?_) ha
    rcases List.mem_append.mp hk with hk | hk
    · exact hb k hk
    · rw [List.mem_singleton.mp hk]; exact he.resolve_left hc.1
  split
  · split
    · exact h
    · rename_i x hx
      refine mk _ _ (fun k hk => hb k (List.dropLast_subset _ hk)) (fun k hk => ?_)
      rcases List.mem_cons.mp hk with hk | hk
      · rw [hk]; exact hb x (List.mem_of_getLast? hx)
      · exact ha k hk
  split
  · split
    · exact h
    · rename_i x r hx
      rw [hx] at ha
      refine mk _ _ (fun k hk => ?_) (fun k hk => ha k (by simp [hk]))
      rcases List.mem_append.mp hk with hk | hk
      · exact hb k hk
      · rw [List.mem_singleton.mp hk]; exact ha x (by simp)
  · exact h

theorem presses_typed (P : Nat → Prop) (col : Nat) : (es : List Event) → (∀ e ∈ es, e.inkey = 0 ∨ P e.inkey) → (l : Line) → (∀ k ∈ l.cells, P k.1) →
    ∀ k ∈ (l.presses col es).cells, P k.1
  | [], _, _, h => h
  | e :: es, he, l, h => presses_typed P col es (fun x hx => he x (by simp [hx])) (l.press col e) (press_typed P col l e (he e (by simp)) h)

theorem text_typed (P : Nat → Prop) (col : Nat) (es : List Event) (he : ∀ e ∈ es, e.inkey = 0 ∨ P e.inkey) : ∀ w ∈ (Line.empty.presses col es).text, P w := by
  intro w h
  obtain ⟨k, hk, e⟩ := List.mem_map.mp h
  rw [← e]
  exact presses_typed P col es he Line.empty (by simp [Line.empty, Line.cells]) k hk

/-- No empty cell within a line. -/
theorem text_zero (col : Nat) (es : List Event) : 0 ∉ (Line.empty.presses col es).text := fun h =>
  text_typed (· ≠ 0) col es (fun e _ => (Nat.eq_zero_or_pos e.inkey).imp id Nat.ne_of_gt) 0 h rfl

/-- The string that LINPUT makes. -/
theorem line_str (w : Bool) (t : List Nat) (k : Nat) (h0 : 0 ∉ t) (ht : w = true ∨ ∀ x ∈ t, Typable x ∨ toChar x = -1) :
    text (lineStr w (t ++ List.replicate k 0)) = t := by
  unfold lineStr
  dsimp only
  rw [take_text t k h0]
  by_cases hw : (w || t.any (fun w => toChar w == -1)) = true
  · rw [if_pos hw]; rfl
  · rw [if_neg hw]
    rw [Bool.or_eq_true, not_or] at hw
    have hall : ∀ x ∈ t, Typable x := fun x hx => by
      rcases ht with ht | ht
      · exact absurd ht hw.1
      · refine (ht x hx).resolve_right fun e => hw.2 ?_
        exact List.any_eq_true.mpr ⟨x, hx, by simpa using e⟩
    show ((t.map fun w => toU8 (toChar w)).map toWide) = t
    rw [List.map_map]
    have : ∀ x ∈ t, (toWide ∘ fun w => toU8 (toChar w)) x = x := by
      intro x hx
      obtain ⟨c, hc, e⟩ := hall x hx
      show toWide (toU8 (toChar x)) = x
      rw [e]
      have := roundtrip_all ⟨c, hc⟩
      dsimp only at this
      rw [this]
      congr 1
      unfold toU8
      omega
    rw [List.map_congr_left this]
    simp

end Sbc.LineInput
