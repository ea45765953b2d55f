import Verif.Proof.Lexer
set_option autoImplicit false
/-!
# C77: the words of a program are recognised as they are written
-/
namespace Sbc.Tok.Spec
open Sbc Sbc.Tok

/-- The end of a line. -/
theorem eol_lexes {rest : List Nat} {toks : List Tk} {b : Bool} (ht : toks.length < 100) :
    Lexes ⟨13 :: rest, toks, b⟩ (toks ++ [⟨.newline, [13], 0, 0⟩]) rest := by
  apply Lexes.done
  unfold tokNone
  simp only
  rw [if_pos trivial, add_eq ht]
  rfl

/-- Comments are skipped. -/
theorem comment_lexes {toks : List Tk} (ht : toks.length < 100) {rest : List Nat} :
    ∀ {t : List Nat}, (∀ c ∈ t, c ≠ 13) → Lexes ⟨t ++ 13 :: rest, toks, true⟩ (toks ++ [⟨.newline, [13], 0, 0⟩]) rest
  | [], _ => eol_lexes ht
  | c :: t, h => by
    refine Lexes.step (s' := ⟨t ++ 13 :: rest, toks, true⟩) ?_ (comment_lexes ht fun x hx => h x (List.mem_cons_of_mem _ hx))
    unfold tokNone
    simp only [List.cons_append]
    rw [if_neg (h c (by simp)), if_pos trivial]

/-- Blanks are skipped. -/
theorem blanks_lexes {toks res : List Tk} {rest text : List Nat} :
    ∀ (n : Nat), Lexes ⟨text, toks, false⟩ res rest → Lexes ⟨List.replicate n 32 ++ text, toks, false⟩ res rest
  | 0, h => h
  | n + 1, h => by
    refine Lexes.step (s' := ⟨List.replicate n 32 ++ text, toks, false⟩) ?_ (blanks_lexes n h)
    rw [List.replicate_succ]
    unfold tokNone
    simp only [List.cons_append]
    rw [if_neg (by decide), if_neg (by simp), if_neg (by decide), if_neg (by decide), if_neg (by decide), if_pos trivial]

theorem toLineEnd_eq {t rest : List Nat} (h : ∀ c ∈ t, c ≠ 13) : toLineEnd (t ++ 13 :: rest) = t ++ [13] := by
  unfold toLineEnd
  rw [List.takeWhile_append_of_pos (by simpa using h), List.dropWhile_append_of_pos (by simpa using h),
    List.takeWhile_cons_of_neg (by simp), List.dropWhile_cons_of_neg (by simp)]
  simp

/-- What follows a word in a comment or DATA line. -/
theorem next_char {t rest : List Nat} (h : ∀ c, t.head? = some c → isVarname c = false) :
    ∃ c r, t ++ 13 :: rest = c :: r ∧ isVarname c = false := by
  cases t with
  | nil => exact ⟨13, rest, rfl, by decide⟩
  | cons a v => exact ⟨a, v ++ 13 :: rest, rfl, h a rfl⟩

/-- The end of a line is read as its tokens. -/
theorem tail_lexes {t : Ending} (hw : t.WF) {toks : List Tk} {rest : List Nat} (ht : toks.length + t.toks.length ≤ 100) :
    Lexes ⟨t.text ++ rest, toks, false⟩ (toks ++ t.toks) rest := by
  cases t with
  | nothing => exact eol_lexes (by simp only [Ending.toks, List.length_cons, List.length_nil] at ht; omega)
  | tick t =>
    refine Lexes.step (s' := ⟨t ++ 13 :: rest, toks, true⟩) ?_ (comment_lexes (by simp only [Ending.toks, List.length_cons, List.length_nil] at ht; omega) hw)
    show tokNone ⟨39 :: (t ++ [13]) ++ rest, toks, false⟩ = _
    rw [List.cons_append, List.append_assoc]
    unfold tokNone
    simp only
    rw [if_neg (by decide), if_neg (by simp), if_neg (by decide), if_neg (by decide), if_neg (by decide), if_neg (by decide), if_neg (by decide),
      if_neg (by decide), if_neg (by decide), if_neg (by decide), if_neg (by decide), if_neg (by decide), if_pos trivial]
    rfl
  | rem w t =>
    obtain ⟨h1, h2, h3⟩ := hw
    simp only [Ending.toks, List.length_cons, List.length_nil] at ht
    have h1' : w.map upper = chars "REM" := h1
    have hw : Wordlike w := wordlike_of_spelled (by decide +kernel) h1
    have hb := no_blank hw.2.1
    have hl : w.length ≤ 8 := spelled_len remOk.1 (by decide +kernel) h1
    obtain ⟨d1, d2, d3⟩ := disjoint.2.2.2.1 (chars "REM") (by decide +kernel)
    have d4 := disjoint.2.2.2.2
    rw [← h1'] at d1 d2 d3 d4
    refine Lexes.step (s' := ⟨t ++ 13 :: rest, toks ++ [⟨.comment, w, 0, 0⟩], true⟩) ?_ ?_
    · show tokNone ⟨w ++ t ++ [13] ++ rest, toks, false⟩ = _
      rw [List.append_assoc, List.append_assoc, tokNone_word hw]
      obtain ⟨c, r, e, hc⟩ := next_char (rest := rest) h3
      show tokName ⟨w ++ (t ++ 13 :: rest), toks, false⟩ = _
      rw [e, tokName_eq hw hc (by omega), commandTable_eq, inTable_absent commandsOk.1 hb hl d1, functionTable_eq,
        inTable_absent functionsOk.1 hb hl d2, operationTable_eq, inTable_absent opsOk.1 hb hl d3, labelTable_eq,
        inTable_absent labelOk.1 hb hl d4, commentTable_eq, inTable_some remOk.1 remOk.2 (i := 0) (n := chars "REM") rfl h1]
      rfl
    · have := comment_lexes (rest := rest) (t := t) (toks := toks ++ [⟨.comment, w, 0, 0⟩]) (by simp; omega) h2
      simpa [Ending.toks] using this
  | data w t =>
    obtain ⟨h1, h2, h3⟩ := hw
    simp only [Ending.toks, List.length_cons, List.length_nil] at ht
    have h1' : w.map upper = chars "DATA" := h1
    have hw : Wordlike w := wordlike_of_spelled (by decide +kernel) h1
    refine Lexes.step (s' := ⟨t ++ 13 :: rest, toks ++ [⟨.command, t ++ [13], cmdData, 0⟩], true⟩) ?_ ?_
    · show tokNone ⟨w ++ t ++ [13] ++ rest, toks, false⟩ = _
      rw [List.append_assoc, List.append_assoc, tokNone_word hw]
      obtain ⟨c, r, e, hc⟩ := next_char (rest := rest) h3
      have e2 := toLineEnd_eq (rest := rest) h2
      show tokName ⟨w ++ (t ++ 13 :: rest), toks, false⟩ = _
      rw [e] at e2 ⊢
      rw [tokName_eq hw hc (by omega), commandTable_eq, inTable_some commandsOk.1 commandsOk.2 (i := 52) (n := chars "DATA") rfl h1]
      simp only [if_pos (show 52 = cmdData from rfl), e2]
      rfl
    · have := comment_lexes (rest := rest) (t := t) (toks := toks ++ [⟨.command, t ++ [13], cmdData, 0⟩]) (by simp; omega) h2
      simpa [Ending.toks] using this
  | unclosed t =>
    obtain ⟨h1, h2⟩ := hw
    simp only [Ending.toks, List.length_cons, List.length_nil] at ht
    refine Lexes.step (s' := ⟨13 :: rest, toks ++ [⟨.string, t, 0, 0⟩], false⟩) ?_ ?_
    · show tokNone ⟨34 :: (t ++ [13]) ++ rest, toks, false⟩ = _
      rw [List.cons_append, List.append_assoc]
      unfold tokNone
      simp only
      rw [if_neg (by decide), if_neg (by simp), if_neg (by decide), if_neg (by decide), if_neg (by decide), if_neg (by decide), if_pos (by decide)]
      unfold tokString
      have hs := spanOf_eq (p := fun c => c != 34 && c != 13) (w := t) (r := rest) (c := 13) (fun x hx => by simpa using h1 x hx) (by decide)
      rw [show t ++ ([13] ++ rest) = t ++ 13 :: rest from rfl, hs]
      simp only [Out.bind, cut_eq h2]
      rw [add_eq (by simp only; omega)]
    · have := eol_lexes (rest := rest) (toks := toks ++ [⟨.string, t, 0, 0⟩]) (b := false) (by simp; omega)
      simpa [Ending.toks] using this

theorem lineText_ne (l : List (Word × Nat)) (t : Ending) (rest : List Nat) :
    ∃ c r, lineText l t ++ rest = c :: r := by
  have : lineText l t ≠ [] := by
    induction l with
    | nil => cases t <;> simp [lineText, Ending.text]
    | cons x l ih => simp [lineText, ih]
  obtain ⟨c, r, h⟩ := List.exists_cons_of_ne_nil this
  exact ⟨c, r ++ rest, by rw [h]; rfl⟩

theorem line_lexes {t : Ending} {rest : List Nat} : ∀ {l : List (Word × Nat)} {toks : List Tk}, LineWF l t →
    toks.length + (lineTokens l t).length ≤ 100 → Lexes ⟨lineText l t ++ rest, toks, false⟩ (toks ++ lineTokens l t) rest
  | [], toks, h, ht => tail_lexes h ht
  | (w, n) :: l, toks, h, ht => by
    obtain ⟨h1, h2, h3⟩ := h
    have hlen : (lineTokens ((w, n) :: l) t).length = (lineTokens l t).length + 1 := by simp [lineTokens]
    have ih := line_lexes (rest := rest) (toks := toks ++ [w.tok]) h3 (by rw [hlen] at ht; simp; omega)
    rw [List.append_assoc] at ih
    have hb := blanks_lexes n ih
    rw [show lineTokens ((w, n) :: l) t = [w.tok] ++ lineTokens l t from rfl]
    refine Lexes.step (s' := ⟨List.replicate n 32 ++ (lineText l t ++ rest), toks ++ [w.tok], false⟩) ?_ hb
    show tokNone ⟨w.text ++ List.replicate n 32 ++ lineText l t ++ rest, toks, false⟩ = _
    rw [List.append_assoc, List.append_assoc]
    have hc : ∃ c r, List.replicate n 32 ++ (lineText l t ++ rest) = c :: r ∧ w.glues c = false := by
      cases n with
      | zero =>
        have hne : lineText l t ≠ [] := by
          obtain ⟨c, r, e⟩ := lineText_ne l t []
          intro h
          rw [h] at e
          cases e
        obtain ⟨c, r, e⟩ := List.exists_cons_of_ne_nil hne
        refine ⟨c, r ++ rest, by rw [e]; rfl, h2 rfl c (by rw [e]; rfl)⟩
      | succ n =>
        refine ⟨32, List.replicate n 32 ++ (lineText l t ++ rest), by rw [List.replicate_succ]; rfl, ?_⟩
        cases w <;> simp only [Word.glues] <;> first | decide | rfl
    obtain ⟨c, r, e, hg⟩ := hc
    rw [e]
    exact word_lexes h1 hg (by rw [hlen] at ht; omega)

/-- C77: a line of at most 100 words, with any number of blanks before and between the words, keywords in any mixture
of upper and lower case, and any comment, is read as exactly the tokens of its words, whatever follows the line. -/
theorem C77_line_partial (l : List (Word × Nat)) (t : Ending) (lead : Nat) (rest : List Nat) (h : LineWF l t)
    (hlen : (lineTokens l t).length ≤ 100) :
    Lexes ⟨List.replicate lead 32 ++ lineText l t ++ rest, [], false⟩ (lineTokens l t) rest := by
  rw [List.append_assoc]
  apply blanks_lexes
  have := line_lexes (rest := rest) (toks := []) h (by simpa using hlen)
  simpa using this

/-- The lexer is deterministic: a text has one reading. -/
theorem C77_unique {s : Lx} {a b : List Tk} {r q : List Nat} (h : Lexes s a r) (k : Lexes s b q) : a = b ∧ r = q := by
  induction h with
  | done e =>
    cases k with
    | done f =>
      rw [e] at f
      simp only [Out.ok.injEq, Prod.mk.injEq, Lx.mk.injEq, and_true] at f
      exact ⟨f.2, f.1⟩
    | step f _ => rw [e] at f; simp at f
  | step e _ ih =>
    cases k with
    | done f => rw [e] at f; simp at f
    | step f k =>
      rw [e] at f
      simp only [Out.ok.injEq, Prod.mk.injEq, and_true] at f
      subst f
      exact ih k

/-- So two correctly written lines with the same text consist of the same tokens: keywords, names, constants and labels
cannot be confused. -/
theorem C77_unambiguous (l l' : List (Word × Nat)) (t t' : Ending) (h : LineWF l t) (h' : LineWF l' t')
    (hlen : (lineTokens l t).length ≤ 100) (hlen' : (lineTokens l' t').length ≤ 100) (e : lineText l t = lineText l' t') :
    lineTokens l t = lineTokens l' t' := by
  have a := C77_line_partial l t 0 [] h hlen
  have b := C77_line_partial l' t' 0 [] h' hlen'
  rw [e] at a
  exact (C77_unique a b).1

/-! Example: `for I=0to 9:?"x";i AND &H1F'end` -/
/-- The words of the example. -/
def exampleLine : List (Word × Nat) :=
  [(.command 4 (chars "for"), 1), (.name (chars "I"), 0), (.signOp 6 (chars "="), 0), (.number (chars "0"), 0),
   (.command 5 (chars "to"), 2), (.number (chars "9"), 0), (.colon, 0), (.question, 0), (.string (chars "x"), 0),
   (.signOp 5 (chars ";"), 0), (.name (chars "i"), 1), (.wordOp 15 (chars "AND"), 1), (.base 72 (chars "1F"), 0)]

example : lineText exampleLine (.tick (chars "end")) = chars "for I=0to  9:?\"x\";i AND &H1F'end\r" := by decide +kernel

example : LineWF exampleLine (.tick (chars "end")) := by
  have n1 : Wordlike (chars "I") := ⟨⟨73, [], rfl, by decide⟩, by decide, by decide⟩
  have n2 : Wordlike (chars "i") := ⟨⟨105, [], rfl, by decide⟩, by decide, by decide⟩
  have n3 : Wordlike (chars "for") := ⟨⟨102, _, rfl, by decide⟩, by decide, by decide⟩
  have n4 : Wordlike (chars "to") := ⟨⟨116, _, rfl, by decide⟩, by decide, by decide⟩
  refine ⟨⟨n3, ⟨"FOR", rfl, by decide +kernel⟩, by decide⟩, by simp, ⟨n1, by decide +kernel, by decide +kernel⟩, ?_,
    ⟨"=", by decide +kernel, rfl⟩, ?_, ⟨by decide, by decide, by decide⟩, ?_, ⟨n4, ⟨"TO", rfl, by decide +kernel⟩, by decide⟩, by simp,
    ⟨by decide, by decide, by decide⟩, ?_, trivial, fun _ _ _ => rfl, trivial, fun _ _ _ => rfl, ⟨by decide, by decide⟩, fun _ _ _ => rfl,
    ⟨";", by decide +kernel, rfl⟩, ?_, ⟨n2, by decide +kernel, by decide +kernel⟩, by simp, ⟨"AND", by decide +kernel, by decide +kernel⟩, by simp,
    ⟨by decide, by decide, by decide, by decide⟩, ?_, ?_⟩
  · intro _ c hc
    have : c = 61 := by simpa [lineText, exampleLine, Word.text, chars] using hc.symm
    subst this; decide
  · intro _ c hc
    have : c = 48 := by simpa [lineText, exampleLine, Word.text, chars] using hc.symm
    subst this; decide
  · intro _ c hc
    have : c = 116 := by simpa [lineText, exampleLine, Word.text, chars] using hc.symm
    subst this; decide
  · intro _ c hc
    have : c = 58 := by simpa [lineText, exampleLine, Word.text, chars] using hc.symm
    subst this; decide
  · intro _ c hc
    have : c = 105 := by simpa [lineText, exampleLine, Word.text, chars] using hc.symm
    subst this; decide
  · intro _ c hc
    have : c = 39 := by simpa [lineText, Ending.text, chars] using hc.symm
    subst this; decide
  · intro c hc
    revert c
    decide

/-- The exclusion of names that begin with a reserved word of eight letters is necessary: `KEYBOARDFUNCNO` is not
reserved, but it is read as the system variable KEYBOARD, and `MAINCNTLMAINCNTH` as MAINCNTL: the search compares
the word with the table across the border between two entries. -/
theorem C77_long_name_violated :
    (∀ w ∈ [chars "KEYBOARDFUNCNO", chars "MAINCNTLMAINCNTH"], ∀ s ∈ reserved, ¬ Spelled s w) ∧
    tokNone ⟨chars "KEYBOARDFUNCNO=1\r", [], false⟩ = .ok (⟨chars "=1\r", [⟨.sysvar, [], 24, 0⟩], false⟩, .next) ∧
    tokNone ⟨chars "MAINCNTLMAINCNTH=1\r", [], false⟩ = .ok (⟨chars "=1\r", [⟨.sysvar, [], 6, 0⟩], false⟩, .next) := by
  decide +kernel

theorem colons_overrun (p : Opts) (pre : Tk) (o : Obj) : ∀ (n fuel : Nat) (toks : List Tk), toks.length ≤ 100 → 100 ≤ toks.length + n →
    tokenizeLoop p pre (fuel + n + 1) ⟨List.replicate n 58 ++ [13], toks, false⟩ o = .ub
  | 0, fuel, toks, h1, h2 => by
    have : Lx.add ⟨[], toks, false⟩ ⟨.newline, [13], 0, 0⟩ = .ub := if_neg (by simp only; omega)
    unfold tokenizeLoop
    rw [if_neg (by simp)]
    show (tokNone ⟨[13], toks, false⟩).bind _ = _
    unfold tokNone
    simp only [if_pos trivial]
    rw [this]
    rfl
  | n + 1, fuel, toks, h1, h2 => by
    unfold tokenizeLoop
    rw [if_neg (by simp)]
    rw [List.replicate_succ]
    rcases Nat.lt_or_ge toks.length 100 with hlt | hge
    · have : tokNone ⟨58 :: List.replicate n 58 ++ [13], toks, false⟩ = .ok (⟨List.replicate n 58 ++ [13], toks ++ [Word.colon.tok], false⟩, .next) := by
        unfold tokNone
        simp only [List.cons_append]
        rw [if_neg (by decide), if_neg (by simp), if_neg (by decide), if_neg (by decide), if_pos trivial, add_eq hlt]
        rfl
      rw [this]
      exact colons_overrun p pre o n fuel _ (by simp; omega) (by simp; omega)
    · have : tokNone ⟨58 :: List.replicate n 58 ++ [13], toks, false⟩ = .ub := by
        unfold tokNone
        simp only [List.cons_append]
        rw [if_neg (by decide), if_neg (by simp), if_neg (by decide), if_neg (by decide), if_pos trivial,
          show Lx.add ⟨List.replicate n 58 ++ [13], toks, false⟩ ⟨.newline, [58], 0, 0⟩ = .ub from if_neg (by simp only; omega)]
        rfl
      rw [this]
      rfl

/-- A line of 100 characters, the documented maximum, can have more tokens than the array has places: 100 colons and
the end of the line. -/
theorem C77_long_line_violated (p : Opts) (pre : Tk) (o : Obj) : tokenize p pre (List.replicate 100 58 ++ [13]) o = .ub :=
  colons_overrun p pre _ 100 1 [] (by decide) (by decide)

end Sbc.Tok.Spec
