import Verif.Proof.LinePrompt
set_option autoImplicit false
/-!
# The line editor, LINPUT and INPUT (C92, C93, C94)
-/
namespace Sbc.LineInput
open Sbc Sbc.Strs Sbc.Strs.Spec Sbc.Console Sbc.Console.Spec Sbc.LineInput.Spec

theorem Spec.Ready.inv {c : Con} (h : Ready c) : Inv c := ⟨by rw [h.x]; decide, Nat.le_of_lt h.y, fun _ => h.x, h.tab⟩
theorem Spec.Ready.clear {c : Con} (h : Ready c) : RowClear c := beyond_clear h.beyond h.x h.y

theorem stops_iff (e : Event) : e.stops = true ↔ Ends e := by
  unfold Event.stops Ends
  simp only [Bool.or_eq_true, beq_iff_eq]
  constructor
  · rintro ((h | h) | h)
    · exact .inr (.inr h)
    · exact .inl h
    · exact .inr (.inl h)
  · rintro (h | h | h)
    · exact .inl (.inr h)
    · exact .inr h
    · exact .inl (.inl h)

theorem not_stops {e : Event} (h : ¬ Ends e) : e.stops = false := by
  cases hs : e.stops
  · rfl
  · exact absurd ((stops_iff e).mp hs) h

/-- A character is typed. -/
def key (w : Nat) : Event := ⟨w, 0, false, false, false, false, false, 0, false⟩
/-- RETURN is typed. -/
def enter : Event := key 13
/-- BACKSPACE on the panel. -/
def backspace : Event := ⟨0, 15, false, false, false, false, false, 0, false⟩
/-- LEFT is pressed. -/
def goLeft : Event := ⟨0, 0, false, false, true, false, false, 0, false⟩

/-- **C92 (partial).** Whatever is typed, and however it is edited, from a cursor in an empty row on: after every number of
rounds that do not end the input, the editor still waits, and the screen shows exactly the line that the editing leaves, with
the cursor in its place and every other row as before; the round with RETURN, A or BREAK ends it, with the line on the screen
(at most 32 characters).  Missing: a row with something in it, INSERT, removing from a full line in the last row (see below). -/
theorem C92_editor_partial (c : Con) (hy : c.y < 24) (hc : RowClear c) :
    (∀ es : List Event, es ≠ [] → (∀ e ∈ es, ¬ Ends e) → (∀ e ∈ es, e.cursor ≤ 1) → Roomy c.y c.col Line.empty es →
      sharedInput es c = .ok none ∧
      ∃ s, editRun es ⟨c, 0, 0⟩ = .ok s ∧ Shows c (Line.empty.presses c.col es) s.con ∧ (Line.empty.presses c.col es).cells.length ≤ 32) ∧
    (∀ es err l, Entered c.y c.col es err l → ∃ c', sharedInput es c = .ok (some (c', err)) ∧ Shows c l c' ∧ l.cells.length ≤ 32) := by
  refine ⟨fun es hne hs hcur hr => ?_, ?_⟩
  · obtain ⟨e1, r, hr1⟩ := List.exists_cons_of_ne_nil hne
    have hr' := hr
    have hcur' := hcur
    rw [hr1] at hr' hcur'
    obtain ⟨s1, h1, h2, h3⟩ := step_shows (start_shows c hc) hy e1 hr'.head (hcur' e1 (by simp))
    obtain ⟨s2, h4, h5, h6⟩ := run_shows hy r _ s1 h2 h3 hr'.tail (fun x hx => hcur' x (by simp [hx]))
    have hrun : editRun es ⟨c, 0, 0⟩ = .ok s2 := by rw [hr1, editRun, h1]; exact h4
    refine ⟨?_, s2, hrun, ?_, ?_⟩
    · unfold sharedInput
      rw [if_pos (show c.y < height from hy), loop_waits es (fun x hx => not_stops (hs x hx)) _ _ hrun]
      rfl
    · rw [hr1]; exact shows_of h5 h6
    · rw [hr1]; exact h5.len
  · rintro es err l ⟨before, e, rest, rfl, hs, he, rfl, hcur, hr, rfl⟩
    exact shared_shows c hy hc before rest e (fun x hx => not_stops (hs x hx)) ((stops_iff e).mpr he) hr hcur

/-- Typing A, B, D, then LEFT, C and RETURN gives ABCD. -/
example : Entered 0 7 [key 65, key 66, key 68, goLeft, key 67, enter] false ⟨[(65, 7), (66, 7), (67, 7)], [(68, 7)]⟩ :=
  ⟨[key 65, key 66, key 68, goLeft, key 67], enter, [], rfl, by unfold Ends; decide, .inl rfl, rfl, by decide, .inl (by decide), rfl⟩

/-- The empty screen with the cursor in row `y`. -/
def blankAt (y : Nat) : Con := { init with y := y }

theorem blank_ready (y : Nat) (h : y < 24) : Ready (blankAt y) := ⟨rfl, h, ⟨by show 1 ≤ 4; decide, by show 4 ≤ 16; decide⟩, fun _ _ _ _ _ => rfl⟩

/-- **C92 (refuted case).** In the last row, BACKSPACE in a full line reads behind the arrays of the screen. -/
theorem C92_bottom_violated : sharedInput (List.replicate 32 (key 65) ++ [backspace, enter]) (blankAt 23) = .ub := by rfl

/-- **C92 (refuted case).** The INSERT key has no effect: with it on or off, whatever is typed is inserted. -/
theorem C92_insert_violated (s : Ed) (e : Event) : editKey s { e with cursor := 1 } = editKey s { e with cursor := 0 } := by
  unfold editKey
  simp

/-- **C92 (refuted case).** A character that arrives in the round in which L or R changes is lost. -/
theorem C92_lost_violated (s : Ed) (e : Event) (h : e.lr = true) : editKey s e = .ok s := by
  unfold editKey
  rw [if_pos h]

/-- **C93 (partial).** LINPUT with any prompt (that ends inside a row) on a screen that shows nothing from the cursor on: whatever
is typed and edited up to RETURN or A, the variable gets exactly the characters of the line; the screen is ready again.
With BREAK, nothing is stored.  Missing: a row with something in it (see below), a prompt that ends at the right edge. -/
theorem C93_linput_partial (c : Con) (hi : Inv c) (hy : c.y < 24) (hb : Beyond c) (prompt : Option Str) (hp : PromptFits c.x prompt) :
    ∃ c1, conPrompt c prompt = .ok c1 ∧ Ready c1 ∧
      (∀ es l wide, Entered c1.y c.col es false l → (wide = true ∨ ∀ e ∈ es, e.inkey = 0 ∨ Typable e.inkey ∨ toChar e.inkey = -1) →
        ∃ c' s, cmdLinput prompt (some wide) es c = .ok (some (c', some s)) ∧ text s = l.text ∧ strLen s ≤ 32 ∧ Ready c') ∧
      (∀ es l pool, Entered c1.y c.col es true l → ∃ c', cmdLinput prompt pool es c = .ok (some (c', none)) ∧ Shows c1 l c') := by
  obtain ⟨c1, e1, i1, y1, col1, x1, b1⟩ := prompt_clear c hi hy hb prompt hp.1 hp.2
  have hrd : Ready c1 := ⟨x1, y1, i1.tab, b1⟩
  refine ⟨c1, e1, hrd, ?_, ?_⟩
  · intro es l wide hE htyp
    rw [← col1] at hE
    obtain ⟨c2, h1, h2, h3⟩ := (C92_editor_partial c1 y1 hrd.clear).2 es false l hE
    obtain ⟨i3, y3, col3, x3, b3⟩ := newline_shows h2 i1 y1 x1 b1
    have hrow := row_text h2 h3
    obtain ⟨before, e, rest, he1, -, -, -, -, -, hl⟩ := hE
    have h0 : 0 ∉ l.text := by rw [hl]; exact text_zero _ _
    have ht : wide = true ∨ ∀ x ∈ l.text, Typable x ∨ toChar x = -1 := by
      refine htyp.imp id fun h => ?_
      rw [hl]
      exact text_typed (fun x => Typable x ∨ toChar x = -1) _ _ fun x hx => h x (by
        rw [he1]
        rcases List.mem_append.mp hx with hx | hx
        · simp [hx]
        · simp [List.mem_singleton.mp hx])
    have hs := line_str wide l.text (32 - l.cells.length) h0 ht
    refine ⟨conNewline c2 true, lineStr wide (row c2), ?_, by rw [hrow]; exact hs, ?_, ⟨x3, y3, i3.tab, b3⟩⟩
    · unfold cmdLinput
      rw [e1]
      show (sharedInput es c1).bind _ = _
      rw [h1]
      rfl
    · rw [← text_length, hrow, hs]
      unfold Line.text
      rw [List.length_map]
      exact h3
  · intro es l pool hE
    rw [← col1] at hE
    obtain ⟨c2, h1, h2, h3⟩ := (C92_editor_partial c1 y1 hrd.clear).2 es true l hE
    refine ⟨c2, ?_, h2⟩
    unfold cmdLinput
    rw [e1]
    show (sharedInput es c1).bind _ = _
    rw [h1]
    rfl

/-- A prompt, a line with a wide character, and its end. -/
example : PromptFits 0 (some ⟨false, [78, 65, 77, 69]⟩) ∧ Beyond init ∧ Inv init ∧
    Entered 1 0 [key 65, key 0x30a2, enter] false ⟨[(65, 0), (0x30a2, 0)], []⟩ :=
  ⟨⟨by decide, by decide⟩, fun _ _ _ _ _ => rfl, ⟨by decide, by decide, by decide, by decide⟩,
    ⟨[key 65, key 0x30a2], enter, [], rfl, by unfold Ends; decide, .inl rfl, rfl, by decide, .inl (by decide), rfl⟩⟩

/-- **C93 (refuted case).** Text that stands in the row is not removed: `A` typed over `HELLO` gives `AELLO`. -/
theorem C93_old_text_violated : ∃ c c', conPuts { init with y := 1 } ⟨false, [72, 69, 76, 76, 79]⟩ = .ok c ∧
    cmdLinput none (some false) [key (toWide 65), enter] { c with x := 0, y := 0 } = .ok (some (c', some ⟨false, [65, 69, 76, 76, 79]⟩)) :=
  ⟨_, _, rfl, rfl⟩

/-- **C93 (refuted case).** After a prompt whose question mark is in the last cell of the screen, the line is outside the screen. -/
theorem C93_corner_violated (es : List Event) (pool : Option Bool) : cmdLinput none pool es { init with x := 31, y := 23 } = .ub := rfl

/-- **C93 (refuted case).** BREAK in a full line leaves the cursor outside the row; the next character to be written fails an
assertion. -/
theorem C93_break_violated : ∃ c', cmdLinput none (some false) (List.replicate 32 (key 65) ++ [{ enter with err := true }]) init = .ok (some (c', none)) ∧
    conPut c' 65 = .ub := ⟨_, rfl, rfl⟩

/-! ### INPUT -/

/-- A line of 8-bit characters on the screen. -/
theorem shows_row {c c' : Con} {l : Line} {u : List Nat} (h : Shows c l c') (hl : l.cells.length ≤ 32) (hu : l.text = u.map toWide) : RowShows u c' := by
  have h2 : l.cells.length = u.length := by
    have := congrArg List.length hu
    unfold Line.text at this
    simpa using this
  unfold RowShows
  rw [row_text h hl, hu, h2]

theorem zero_codes {t : List Nat} (h : 0 ∉ t) {u : List Nat} (hu : t = u.map toWide) : 0 ∉ u := fun hm => h (by
  rw [hu]
  exact List.mem_map.mpr ⟨0, hm, rfl⟩)

theorem examine_accepts {u : List Nat} {c : Con} (h : RowShows u c) (hb : ∀ x ∈ u, x < 256) (h0 : 0 ∉ u) (hu : u.length ≤ 31) {kinds : List Kind}
    {fs : List (List Nat)} (hfs : fs ≠ []) (hacc : List.Forall₂ Accepts kinds fs) (he : u = commaText fs) :
    ∃ g, examine true kinds c = .ok (g, .accept) ∧ MeansAll kinds fs g := by
  have hnc : ∀ f ∈ fs, 44 ∉ f := by
    clear he hfs
    induction hacc with
    | nil => simp
    | cons h1 _ ih =>
      intro f hf
      rcases List.mem_cons.mp hf with hf | hf
      · rw [hf]; exact accepts_no_comma h1
      · exact ih f hf
  have hcount := count_commaText fs hfs hnc
  have hlen := hacc.length_eq
  obtain ⟨vs, h1, h2⟩ := all_fields h hb h0 hu kinds fs hacc 0 33 [] (fun _ => Nat.zero_le _) (fun _ => by rw [List.drop_zero]; exact he) (by omega)
  refine ⟨vs, ?_, h1⟩
  unfold examine
  rw [if_neg (by rw [commas_row h hb, he]; omega)]
  exact h2

theorem examine_refuses {u : List Nat} {c : Con} (h : RowShows u c) (hb : ∀ x ∈ u, x < 256) (h0 : 0 ∉ u) (hu : u.length ≤ 31) {kinds : List Kind}
    (hr : Refused kinds u) : ∃ g, examine true kinds c = .ok (g, .reject) := by
  unfold examine
  by_cases hn : kinds.length ≠ commas c + 1
  · rw [if_pos hn]; exact ⟨_, rfl⟩
  · rw [if_neg hn]
    cases hr with
    | count hc => rw [commas_row h hb] at hn; exact absurd hc hn
    | field ks ks' fs a rest e1 hacc e2 ha hbad =>
      obtain ⟨vs, -, h2⟩ := bad_field h hb h0 hu ks' a rest ha hbad ks fs hacc 0 33 [] (Nat.zero_le _) (by rw [List.drop_zero]; exact e2) (by omega)
      rw [e1]
      exact ⟨_, h2⟩

/-- Lines that are refused, one after the other. -/
theorem refuse_all (prompt : Option Str) (kinds : List Kind) (hp : PromptFits 0 prompt) (col : Nat) : (bad : List (List Event)) →
    (∀ es ∈ bad, ∃ l u, Entered 23 col es false l ∧ l.text = u.map toWide ∧ (∀ x ∈ u, x < 256) ∧ u.length ≤ 31 ∧ Refused kinds u) →
    (c : Con) → Ready c → c.col = col → (more : List (List Event)) →
    ∃ c', Ready c' ∧ c'.col = col ∧ inputLoop prompt true kinds (bad ++ more) c = inputLoop prompt true kinds more c'
  | [], _, c, hc, hcol, more => ⟨c, hc, hcol, rfl⟩
  | es :: bad, hbad, c, hc, hcol, more => by
    obtain ⟨l, u, hE, hu, h256, h31, hr⟩ := hbad es (by simp)
    have hE' : Entered c.y c.col es false l := by
      obtain ⟨b, e, r, e1, e2, e3, e4, e5, e6, e7⟩ := hE
      rw [hcol]
      exact ⟨b, e, r, e1, e2, e3, e4, e5, .inr (e6.resolve_left (by omega)), e7⟩
    obtain ⟨c2, h1, h2, h3⟩ := (C92_editor_partial c hc.y hc.clear).2 es false l hE'
    have h0 : 0 ∉ u := by
      obtain ⟨b, e, r, e1, e2, e3, e4, e5, e6, e7⟩ := hE
      exact zero_codes (text_zero col (b ++ [e])) (by rw [← e7]; exact hu)
    obtain ⟨g, hg⟩ := examine_refuses (shows_row h2 h3 hu) h256 h0 h31 hr
    obtain ⟨d, e1, i1, y1, col1, x1, b1⟩ := reprompt_clear h2 hc.inv hc.y hc.x hc.beyond prompt (by have := hp.1; omega) (by have := hp.2; omega)
    obtain ⟨c', r1, r2, r3⟩ := refuse_all prompt kinds hp col bad (fun x hx => hbad x (by simp [hx])) d ⟨x1, y1, i1.tab, b1⟩ (by rw [col1, hcol]) more
    refine ⟨c', r1, r2, ?_⟩
    rw [← r3, List.cons_append, inputLoop, h1]
    show (examine true kinds c2).bind _ = _
    rw [hg]
    show (conReprompt c2 prompt).bind _ = _
    rw [e1]
    rfl

/-- **C94 (partial).** INPUT with any prompt (that ends inside a row) and any variables, on a screen that shows nothing from the cursor on.
After any number of lines that are refused (a wrong number of fields, a field for a number that is empty or is no number), a
line with a field for each variable stores exactly the values that the fields stand for; each refused line is answered by the
prompt, on a screen that is ready for the next one.  Missing: lines of 32 characters, and fields with spaces, see below. -/
theorem C94_input_partial (c : Con) (hi : Inv c) (hy : c.y < 24) (hb : Beyond c) (prompt : Option Str) (hp : PromptFits c.x prompt) (hp0 : PromptFits 0 prompt)
    (kinds : List Kind) (bad : List (List Event))
    (hbad : ∀ es ∈ bad, ∃ l u, Entered 23 c.col es false l ∧ l.text = u.map toWide ∧ (∀ x ∈ u, x < 256) ∧ u.length ≤ 31 ∧ Refused kinds u)
    (es : List Event) (more : List (List Event)) (l : Line) (fs : List (List Nat)) (hE : Entered 23 c.col es false l)
    (hl : l.text = (commaText fs).map toWide) (h256 : ∀ x ∈ commaText fs, x < 256) (h31 : (commaText fs).length ≤ 31) (hfs : fs ≠ [])
    (hacc : List.Forall₂ Accepts kinds fs) :
    ∃ c' g, cmdInput prompt true kinds (bad ++ es :: more) c = .ok (some (c', .stored g)) ∧ MeansAll kinds fs g ∧ Ready c' := by
  obtain ⟨c1, e1, i1, y1, col1, x1, b1⟩ := prompt_clear c hi hy hb prompt hp.1 hp.2
  obtain ⟨c2, hc2, hcol2, h2⟩ := refuse_all prompt kinds hp0 c.col bad hbad c1 ⟨x1, y1, i1.tab, b1⟩ col1 (es :: more)
  have hE' : Entered c2.y c2.col es false l := by
    obtain ⟨b, e, r, e1, e2, e3, e4, e5, e6, e7⟩ := hE
    rw [hcol2]
    exact ⟨b, e, r, e1, e2, e3, e4, e5, .inr (e6.resolve_left (by omega)), e7⟩
  obtain ⟨c3, h3, h4, h5⟩ := (C92_editor_partial c2 hc2.y hc2.clear).2 es false l hE'
  have h0 : 0 ∉ commaText fs := by
    obtain ⟨b, e, r, e1, e2, e3, e4, e5, e6, e7⟩ := hE
    exact zero_codes (text_zero c.col (b ++ [e])) (by rw [← e7]; exact hl)
  obtain ⟨g, h6, h7⟩ := examine_accepts (shows_row h4 h5 hl) h256 h0 h31 hfs hacc rfl
  obtain ⟨i8, y8, -, x8, b8⟩ := newline_shows h4 hc2.inv hc2.y hc2.x hc2.beyond
  refine ⟨conNewline c3 true, g, ?_, h7, ⟨x8, y8, i8.tab, b8⟩⟩
  have hk : ¬ (kinds = [] ∧ prompt = none) := fun hk => hfs (by
    have := hacc.length_eq
    rw [hk.1] at this
    exact List.eq_nil_of_length_eq_zero this.symm)
  unfold cmdInput
  rw [if_neg hk, e1]
  show inputLoop prompt true kinds (bad ++ es :: more) c1 = _
  rw [h2, inputLoop, h3]
  show (examine true kinds c3).bind _ = _
  rw [h6]
  rfl

/-- For two variables, `X` (too few fields) and then `12,AB`. -/
example : Entered 23 0 ([88].map (key ∘ toWide) ++ [enter]) false ⟨[(toWide 88, 0)], []⟩ ∧ Refused [.num, .str] [88] ∧
    Entered 23 0 ([49, 50, 44, 65, 66].map (key ∘ toWide) ++ [enter]) false ⟨[49, 50, 44, 65, 66].map fun x => (toWide x, 0), []⟩ ∧
    List.Forall₂ Accepts [.num, .str] [[49, 50], [65, 66]] ∧ commaText [[49, 50], [65, 66]] = [49, 50, 44, 65, 66] := by
  refine ⟨⟨[88].map (key ∘ toWide), enter, [], rfl, by unfold Ends; decide, .inl rfl, rfl, by decide, .inr ?_, rfl⟩, .count (by decide),
    ⟨[49, 50, 44, 65, 66].map (key ∘ toWide), enter, [], rfl, by unfold Ends; decide, .inl rfl, rfl, by decide, .inr ?_, rfl⟩, ?_, rfl⟩
  · intro k e hk hr
    have hm := List.mem_of_getElem? hk
    exfalso
    revert hr
    rcases (by simpa using hm : e = key (toWide 88) ∨ e = enter) with rfl | rfl <;> unfold Removes <;> decide
  · intro k e hk hr
    have hm := List.mem_of_getElem? hk
    exfalso
    have : ∀ e ∈ [49, 50, 44, 65, 66].map (key ∘ toWide) ++ [enter], ¬ (e.lr = false ∧ (e.kb = 15 ∨ e.y = true ∨ e.kb = 67)) := by decide
    exact this e hm hr
  · exact .cons ⟨by decide, by unfold Numeric; decide, by decide, by decide⟩ (.cons (show 44 ∉ _ by decide) .nil)

/-- A field with a letter is refused: `1,2X`. -/
example : Refused [.num, .num] [49, 44, 50, 88] :=
  .field [.num] [] [[49]] [50] [88] rfl (.cons ⟨by decide, by unfold Numeric; decide, by decide, by decide⟩ .nil) rfl (by unfold Numeric; decide)
    (.inr ⟨88, rfl, by unfold Numeric; decide, by decide, by decide⟩)

theorem field_kinds (pool : Bool) (c : Con) : (fuel : Nat) → (kinds : List Kind) → (p o : Nat) → (g g' : List Got) → (done : List Kind) →
    List.Forall₂ OfKind done g → fieldLoop pool c fuel kinds p o g = .ok (g', .accept) → List.Forall₂ OfKind (done ++ kinds) g'
  | fuel, [], p, o, g, g', done, hd, h => by
    have : g = g' := by cases fuel <;> · simp only [fieldLoop, Out.ok.injEq, Prod.mk.injEq, and_true] at h; exact h
    rw [List.append_nil, ← this]
    exact hd
  | 0, _ :: _, _, _, _, _, _, _, h => by cases h
  | f + 1, k :: ks, p, o, g, g', done, hd, h => by
    rw [fieldLoop] at h
    have hsnoc : ∀ (v : Got), OfKind k v → List.Forall₂ OfKind (done ++ [k]) (g ++ [v]) := fun v hv =>
      List.rel_append hd (.cons hv .nil)
    have happ : done ++ k :: ks = (done ++ [k]) ++ ks := by simp
    split at h
    · cases h
    · cases k with
      | num =>
        dsimp only at h
        split at h
        · exact field_kinds pool c f _ _ _ g g' done hd h
        · split at h
          · split at h
            · cases h
            · cases hn : fieldNum c p o with
              | ok n =>
                rw [hn] at h
                rw [happ]
                have hi : I32 n := by
                  unfold fieldNum at hn
                  cases hm : Num.strToNumber ((List.range (o - p)).map fun j => toWide (byteAt c (p + j))) 10 true with
                  | ok m =>
                    rw [hm] at hn
                    cases hn
                    exact wrap32_i32 m
                  | err e => rw [hm] at hn; cases hn
                  | ub => rw [hm] at hn; cases hn
                exact field_kinds pool c f ks _ _ _ g' _ (hsnoc (.num n) hi) h
              | err e => rw [hn] at h; cases h
              | ub => rw [hn] at h; cases h
          · cases h
      | str =>
        dsimp only at h
        split at h
        · split at h
          · rw [happ]
            exact field_kinds pool c f ks _ _ _ g' _ (hsnoc (.str _) trivial) h
          · cases h
        · exact field_kinds pool c f _ _ _ g g' done hd h
      | other => cases h

/-- **C94.** Whatever is typed and whatever the screen shows: if INPUT stores values, each variable has got exactly one, of its kind. -/
theorem C94_kinds (prompt : Option Str) (pool : Bool) (kinds : List Kind) (lines : List (List Event)) (c c' : Con) (g : List Got)
    (h : cmdInput prompt pool kinds lines c = .ok (some (c', .stored g))) : List.Forall₂ OfKind kinds g := by
  have key : ∀ (lines : List (List Event)) (c : Con), inputLoop prompt pool kinds lines c = .ok (some (c', .stored g)) → List.Forall₂ OfKind kinds g := by
    intro lines
    induction lines with
    | nil => intro c h; cases h
    | cons es ls ih =>
      intro c h
      rw [inputLoop] at h
      cases h1 : sharedInput es c with
      | ok r =>
        rw [h1] at h
        match r, h with
        | some (c1, true), h => cases h
        | some (c1, false), h =>
          have h : (examine pool kinds c1).bind (fun g => match g.2 with
            | .accept => .ok (some (conNewline c1 true, Outcome.stored g.1))
            | .badType => .ok (some (c1, .badType))
            | .reject => (conReprompt c1 prompt).bind fun c => inputLoop prompt pool kinds ls c) = _ := h
          cases h2 : examine pool kinds c1 with
          | ok r =>
            rw [h2] at h
            obtain ⟨g1, en⟩ := r
            cases en with
            | accept =>
              have h : Out.ok (some (conNewline c1 true, Outcome.stored g1)) = _ := h
              injection h with h
              injection h with h
              injection h with h3 h
              injection h with h
              subst h
              unfold examine at h2
              split at h2
              · cases h2
              · exact field_kinds pool c1 _ kinds 0 0 [] g1 [] .nil h2
            | reject =>
              have h : ((conReprompt c1 prompt).bind fun c => inputLoop prompt pool kinds ls c) = _ := h
              cases h3 : conReprompt c1 prompt with
              | ok c2 => rw [h3] at h; exact ih c2 h
              | err e => rw [h3] at h; cases h
              | ub => rw [h3] at h; cases h
            | badType => cases h
          | err e => rw [h2] at h; cases h
          | ub => rw [h2] at h; cases h
      | err e => rw [h1] at h; cases h
      | ub => rw [h1] at h; cases h
  unfold cmdInput at h
  split at h
  · cases h
  · cases h1 : conPrompt c prompt with
    | ok c1 => rw [h1] at h; exact key lines c1 h
    | err e => rw [h1] at h; cases h
    | ub => rw [h1] at h; cases h

/-- **C94 (refuted case).** 32 digits write behind the array `conversion_copy`. -/
theorem C94_long_violated : cmdInput none true [.num] [List.replicate 32 (key (toWide 49)) ++ [enter]] init = .ub := by rfl

/-- **C94 (refuted case).** Of a string of 32 characters the last one is lost. -/
theorem C94_string_violated : ∃ c', cmdInput none true [.str] [List.replicate 32 (key (toWide 65)) ++ [enter]] init =
    .ok (some (c', .stored [.str ⟨false, List.replicate 31 65⟩])) := ⟨_, rfl⟩

/-- The numbers that INPUT stores. -/
def numbers : Out (Option (Con × Outcome)) → List Int
  | .ok (some (_, .stored g)) => g.filterMap fun v => match v with | .num n => some n | .str _ => none
  | _ => []

/-- **C94 (refuted case).** A space separates fields but is not counted: `1 2,3` for two variables is accepted and gives 1 and 2. -/
theorem C94_space_violated :
    numbers (cmdInput none true [.num, .num] [[49, 32, 50, 44, 51].map (key ∘ toWide) ++ [enter]] init) = [4096, 8192] := by decide +kernel

end Sbc.LineInput
