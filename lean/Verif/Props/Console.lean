import Verif.Proof.Console
import Verif.Proof.Num
set_option autoImplicit false
/-!
# C25, C26: the text console
-/
namespace Sbc.Console
open Sbc Sbc.Strs Sbc.Strs.Spec Sbc.Console.Spec

/-- What the user sees of a console. -/
def view (c : Con) : Screen := ⟨fun r k => (c.text r k, c.color r k), c.x, c.y⟩

/-- Cells outside the 24×32 screen are the same in both. -/
def SameOutside (c c' : Con) : Prop :=
  ∀ r k, ¬ (r < 24 ∧ k < 32) → c'.text r k = c.text r k ∧ c'.color r k = c.color r k

/-- States between statements. -/
structure Inv (c : Con) : Prop where
  x : c.x < 32
  y : c.y ≤ 24
  edge : c.y = 24 → c.x = 0
  tab : 1 ≤ c.tabstep ∧ c.tabstep ≤ 16

theorem Same.write {s t : Screen} (h : s.Same t) (col : Nat) (ws : List Nat) : (s.write col ws).Same (t.write col ws) := by
  obtain ⟨h1, h2, h3⟩ := h
  unfold Screen.write
  simp only [h1, h2]
  refine ⟨rfl, rfl, fun r c hr hc => ?_⟩
  simp only []
  split
  · rfl
  · split
    · exact h3 _ _ (by assumption) hc
    · rfl

theorem Same.newline {s t : Screen} (h : s.Same t) (col : Nat) : (s.newline col).Same (t.newline col) := by
  obtain ⟨h1, h2, h3⟩ := h
  unfold Screen.newline
  simp only [h2]
  refine ⟨rfl, rfl, fun r c hr hc => ?_⟩
  simp only []
  split
  · exact h3 _ _ (by assumption) hc
  · rfl

theorem Same.trans {s t u : Screen} (h1 : s.Same t) (h2 : t.Same u) : s.Same u :=
  ⟨h1.1.trans h2.1, h1.2.1.trans h2.2.1, fun r c hr hc => (h1.2.2 r c hr hc).trans (h2.2.2 r c hr hc)⟩

theorem Same.piece {s t : Screen} (h : s.Same t) (col tab sp : Nat) (p : Piece) :
    (s.piece col tab sp p).Same (t.piece col tab sp p) := by
  cases p with
  | text ws => exact Same.write h col ws
  | tab => unfold Screen.piece; simp only [h.1]; exact Same.write h col _

/-- `putsLoop` started from a possibly off-screen cursor after the initial scroll. -/
theorem puts_spec (c : Con) (h : Inv c) (ws : List Nat) :
    ∃ c', putsLoop ws (if c.y ≥ height then conScroll c else c) = .ok c' ∧ Inv c' ∧ c'.col = c.col ∧ c'.tabstep = c.tabstep ∧
      SameOutside c c' ∧ (view c').Same ((view c).write c.col ws) := by
  by_cases hy : c.y = 24
  · rw [if_pos (by unfold height; omega), conScroll_eq c (by omega)]
    have hx := h.edge hy
    obtain ⟨c', e1, e2, e3, e4, e5, e6, e7, e8, e9⟩ := putsLoop_spec ws
      { c with y := 23, text := shifted c.text (c.y - 23) 0, color := shifted c.color (c.y - 23) c.col } h.x (by simp)
    simp only [hy, hx, Nat.reduceSub] at e7 e8 e9
    have hk : (32 * 24 + 0 + (ws.length - 1)) / 32 - 23 = ((32 * 23 + 0 + (ws.length - 1)) / 32 - 23) + 1 := by omega
    refine ⟨c', e1, ⟨e4, e5, e6, by rw [e3]; exact h.tab⟩, e2, e3, ?_, ?_⟩
    · intro r k hrk
      rw [e8, e9]
      unfold written shifted
      simp only [hrk, if_false, and_self]
    · unfold Screen.write view
      refine ⟨?_, ?_, ?_⟩
      · simp only [hx, hy]; omega
      · simp only [hx, hy]; omega
      · intro r k hr hk'
        simp only [hx, hy]
        rw [e8, e9, hk]
        unfold written shifted
        simp only [hr, hk', and_self, if_true]
        generalize (32 * 23 + 0 + (ws.length - 1)) / 32 - 23 = q
        by_cases h1 : 32 * 23 + 0 ≤ 32 * (r + q) + k ∧ 32 * (r + q) + k < 32 * 23 + 0 + ws.length
        · have h1' : 32 * 24 + 0 ≤ 32 * (r + (q + 1)) + k ∧ 32 * (r + (q + 1)) + k < 32 * 24 + 0 + ws.length := by omega
          rw [if_pos h1, if_pos h1, if_pos h1']
          rw [show 32 * (r + q) + k - (32 * 23 + 0) = 32 * (r + (q + 1)) + k - (32 * 24 + 0) by omega]
        · have h1' : ¬ (32 * 24 + 0 ≤ 32 * (r + (q + 1)) + k ∧ 32 * (r + (q + 1)) + k < 32 * 24 + 0 + ws.length) := by omega
          rw [if_neg h1, if_neg h1, if_neg h1']
          by_cases h2 : r + q < 24
          · simp only [h2, and_self, if_true]
            by_cases h3 : r + (q + 1) < 24
            · have h3' : r + q + 1 < 24 := by omega
              rw [if_pos h3', if_pos h3', if_pos h3]; rfl
            · have h3' : ¬ r + q + 1 < 24 := by omega
              rw [if_neg h3', if_neg h3', if_neg h3]
          · have h3 : ¬ r + (q + 1) < 24 := by omega
            rw [if_neg h2, if_neg h2, if_neg h3]
  · rw [if_neg (by unfold height; have := h.y; omega)]
    have hy2 : c.y < 24 := by have := h.y; omega
    obtain ⟨c', e1, e2, e3, e4, e5, e6, e7, e8, e9⟩ := putsLoop_spec ws c h.x hy2
    refine ⟨c', e1, ⟨e4, e5, e6, by rw [e3]; exact h.tab⟩, e2, e3, ?_, ?_⟩
    · intro r k hrk
      rw [e8, e9]
      unfold written
      simp only [hrk, if_false, and_self]
    · unfold Screen.write view
      refine ⟨?_, ?_, ?_⟩
      · simp only []; omega
      · simp only []; omega
      · intro r k hr hk'
        simp only []
        rw [e8, e9]
        unfold written
        simp only [hr, hk', and_self, if_true]
        split
        · rfl
        · split <;> rfl

theorem strText (s : Str) : (List.range (strLen s)).map (strAtWide s) = text s := by
  apply List.ext_getElem?
  intro i
  by_cases h : i < strLen s
  · rw [← strAtWide_text s i h]
    simp [h]
  · rw [List.getElem?_eq_none (by simp; omega), List.getElem?_eq_none (by rw [text_length]; omega)]

/-- **C26.** Every string (up to any length, in either representation) printed at any cursor position appears
in reading order starting at the cursor, wrapped at 32 columns, scrolling by exactly the number of
overflowing lines; all other cells keep their content (moved up by the scrolling). -/
theorem C26_puts (c : Con) (h : Inv c) (s : Str) :
    ∃ c', conPuts c s = .ok c' ∧ Inv c' ∧ (view c').Same ((view c).write c.col (text s)) := by
  obtain ⟨c', e1, e2, -, -, -, e6⟩ := puts_spec c h (text s)
  exact ⟨c', by unfold conPuts; rw [strText]; exact e1, e2, e6⟩

theorem tabLoop_spec : ∀ (n fuel : Nat) (c : Con), 1 ≤ c.tabstep → c.x < 32 → c.y < 24 → n = tabSpaces c.tabstep c.x → n ≤ fuel →
    tabLoop fuel c = putsLoop (List.replicate n (toWide 32)) c := by
  intro n
  induction n with
  | zero =>
    intro fuel c ht hx hy hn hf
    unfold tabSpaces at hn
    have := Nat.mod_lt c.x (show c.tabstep > 0 by omega)
    omega
  | succ n ih =>
    intro fuel c ht hx hy hn hf
    obtain ⟨f, rfl⟩ : ∃ f, fuel = f + 1 := ⟨fuel - 1, by omega⟩
    rw [tabLoop, List.replicate_succ, putsLoop]
    obtain ⟨c1, h1, h2, h3, h4, h5, h6, h7, h8, h9⟩ := put_step c (toWide 32) hx hy
    rw [h1]; simp only [Out.bind]
    rw [if_neg (by omega)]
    unfold tabSpaces at hn
    have hml := Nat.mod_lt c.x (show c.tabstep > 0 by omega)
    by_cases hz : n = 0
    · subst hz
      simp only [List.replicate_zero, ne_eq, not_true, false_and, if_false, putsLoop]
      rw [if_neg]
      rw [h3]
      intro hne
      apply hne
      by_cases hw : c.x = 31
      · rw [show c1.x = 0 by omega]; simp
      · have hx1 : c1.x = c.x + 1 := by omega
        have : c.x % c.tabstep + 1 = c.tabstep := by omega
        rw [hx1, Nat.add_mod]
        by_cases h1t : c.tabstep = 1
        · rw [h1t]; exact Nat.mod_one _
        · rw [Nat.mod_eq_of_lt (show 1 < c.tabstep by omega), this, Nat.mod_self]
    · have hx1 : c1.x = c.x + 1 := by omega
      have hy1 : c1.y < 24 := by omega
      have hmod : c1.x % c.tabstep = c.x % c.tabstep + 1 := by
        rw [hx1, Nat.add_mod, Nat.mod_eq_of_lt (show 1 < c.tabstep by omega), Nat.mod_eq_of_lt (by omega)]
      rw [if_pos (by rw [h3, hmod]; omega)]
      rw [if_neg (by unfold height; omega)]
      exact ih f c1 (by omega) h4 hy1 (by unfold tabSpaces; rw [h3, hmod]; omega) (by omega)

/-- What an item asks to be printed; `none` for `;`.  Numbers are printed as `STR$` gives them. -/
def meaning : Item → Option Piece
  | .num n => match Num.funcStr n with | .ok s => some (.text (text s)) | _ => none
  | .str s => some (.text (text s))
  | .comma => some .tab
  | .semicolon => none

theorem funcStr_ok (n : Int) (h : n ≠ -2147483648) : ∃ s, Num.funcStr n = .ok s := by
  unfold Num.funcStr Num.fixpToChar
  rw [if_neg h]
  exact ⟨_, rfl⟩

theorem printItem_spec (c : Con) (h : Inv c) (i : Item) (hi : i ≠ .num (-2147483648)) :
    ∃ c', printItem c i = .ok c' ∧ Inv c' ∧ c'.col = c.col ∧ c'.tabstep = c.tabstep ∧ SameOutside c c' ∧
      (view c').Same (match meaning i with | some p => (view c).piece c.col c.tabstep (toWide 32) p | none => view c) := by
  cases i with
  | num n =>
    obtain ⟨s, hs⟩ := funcStr_ok n (fun he => hi (by rw [he]))
    simp only [printItem, conPutn, meaning, hs, Out.bind, conPuts, strText]
    exact puts_spec c h (text s)
  | str s =>
    simp only [printItem, meaning, conPuts, strText]
    exact puts_spec c h (text s)
  | comma =>
    unfold printItem meaning
    simp only [Screen.piece]
    have hsp := puts_spec c h (List.replicate (tabSpaces c.tabstep c.x) (toWide 32))
    have hcond : (if c.x = 0 ∧ c.y = height then conScroll c else c) = (if c.y ≥ height then conScroll c else c) := by
      unfold height
      by_cases hy : c.y = 24
      · rw [if_pos ⟨h.edge hy, hy⟩, if_pos (by omega)]
      · rw [if_neg (by omega), if_neg (by have := h.y; omega)]
    rw [hcond]
    have htl : tabLoop 33 (if c.y ≥ height then conScroll c else c) =
        putsLoop (List.replicate (tabSpaces c.tabstep c.x) (toWide 32)) (if c.y ≥ height then conScroll c else c) := by
      by_cases hy : c.y = 24
      · rw [if_pos (by unfold height; omega), conScroll_eq c (by omega)]
        refine tabLoop_spec (tabSpaces c.tabstep c.x) 33 { c with y := 23, text := shifted c.text (c.y - 23) 0, color := shifted c.color (c.y - 23) c.col } h.tab.1 h.x (show 23 < 24 by decide) rfl ?_
        unfold tabSpaces; have := h.tab; omega
      · rw [if_neg (by unfold height; have := h.y; omega)]
        apply tabLoop_spec _ _ _ h.tab.1 h.x (by have := h.y; omega) rfl
        unfold tabSpaces; have := h.tab; omega
    rw [htl]
    exact hsp
  | semicolon =>
    exact ⟨c, rfl, h, rfl, rfl, fun _ _ _ => ⟨rfl, rfl⟩, rfl, rfl, fun _ _ _ _ => rfl⟩

theorem printItems_spec (is : List Item) : ∀ (c : Con), Inv c → Item.num (-2147483648) ∉ is →
    ∃ c', printItems is c = .ok c' ∧ Inv c' ∧ c'.col = c.col ∧ c'.tabstep = c.tabstep ∧ SameOutside c c' ∧
      (view c').Same ((is.filterMap meaning).foldl (fun s p => s.piece c.col c.tabstep (toWide 32) p) (view c)) := by
  induction is with
  | nil => intro c h _; exact ⟨c, rfl, h, rfl, rfl, fun _ _ _ => ⟨rfl, rfl⟩, rfl, rfl, fun _ _ _ _ => rfl⟩
  | cons i is ih =>
    intro c h hno
    obtain ⟨c1, a1, a2, a3, a4, a5, a6⟩ := printItem_spec c h i (by rintro rfl; simp at hno)
    obtain ⟨c2, b1, b2, b3, b4, b5, b6⟩ := ih c1 a2 (fun hm => hno (by simp [hm]))
    rw [printItems, a1]; simp only [Out.bind]
    refine ⟨c2, b1, b2, by rw [b3, a3], by rw [b4, a4], ?_, ?_⟩
    · intro r k hrk
      exact ⟨(b5 r k hrk).1.trans (a5 r k hrk).1, (b5 r k hrk).2.trans (a5 r k hrk).2⟩
    · refine Same.trans b6 ?_
      rw [a3, a4]
      have hfold : ∀ (ps : List Piece) (s t : Screen), s.Same t →
          (ps.foldl (fun s p => s.piece c.col c.tabstep (toWide 32) p) s).Same
            (ps.foldl (fun s p => s.piece c.col c.tabstep (toWide 32) p) t) := by
        intro ps
        induction ps with
        | nil => intro s t hs; exact hs
        | cons p ps ihp => intro s t hs; exact ihp _ _ (Same.piece hs _ _ _ p)
      cases hm : meaning i with
      | none => rw [List.filterMap_cons_none hm]; rw [hm] at a6; exact hfold _ _ _ a6
      | some p => rw [List.filterMap_cons_some hm, List.foldl_cons]; rw [hm] at a6; exact hfold _ _ _ a6

theorem newline_spec (c : Con) (h : Inv c) :
    Inv (conNewline c true) ∧ (conNewline c true).y < 24 ∧ (conNewline c true).col = c.col ∧ (conNewline c true).tabstep = c.tabstep ∧
      SameOutside c (conNewline c true) ∧ (view (conNewline c true)).Same ((view c).newline c.col) := by
  unfold conNewline
  simp only [if_true]
  have hyle := h.y
  by_cases hy : c.y + 1 < 24
  · rw [conScroll_small _ hy]
    refine ⟨⟨by simp, by simp only []; omega, fun _ => rfl, h.tab⟩, hy, by trivial, by trivial, fun _ _ _ => ⟨rfl, rfl⟩, rfl, ?_, ?_⟩
    · simp only [view, Screen.newline]; omega
    · intro r k hr hk
      show (c.text r k, c.color r k) = if r + (c.y + 1 - 23) < 24 then _ else _
      rw [if_pos (by omega)]
      show _ = (c.text (r + (c.y + 1 - 23)) k, c.color (r + (c.y + 1 - 23)) k)
      rw [show r + (c.y + 1 - 23) = r by omega]
  · rw [conScroll_eq _ (by simp only []; omega)]
    refine ⟨⟨by simp, by simp, fun _ => rfl, h.tab⟩, by simp, by trivial, by trivial, ?_, rfl, ?_, ?_⟩
    · intro r k hrk
      unfold shifted
      simp only [hrk, if_false, and_self]
    · simp only [view, Screen.newline]; omega
    · intro r k hr hk
      simp only [view, Screen.newline]
      unfold shifted
      simp only [hr, hk, and_self, if_true]
      by_cases hq : r + (c.y + 1 - 23) < 24
      · rw [if_pos hq, if_pos hq]; exact (if_pos hq).symm
      · rw [if_neg hq, if_neg hq]; exact (if_neg hq).symm

theorem endsOpen_iff (is : List Item) : endsOpen is = true ↔ ∃ before, is = before ++ [.comma] ∨ is = before ++ [.semicolon] := by
  rcases List.eq_nil_or_concat is with rfl | ⟨l, i, rfl⟩
  · simp [endsOpen]
  · have he : endsOpen (l ++ [i]) = match i with | .comma => true | .semicolon => true | _ => false := by
      cases l with
      | nil => cases i <;> rfl
      | cons a l =>
        have : ((a :: l) ++ [i]).getLast? = some i := by rw [List.getLast?_append]; rfl
        show (match ((a :: l) ++ [i]).getLast? with | some .comma => true | some .semicolon => true | _ => false) = _
        rw [this]; cases i <;> rfl
    rw [List.concat_eq_append, he]
    constructor
    · intro h
      refine ⟨l, ?_⟩
      cases i with
      | comma => exact Or.inl rfl
      | semicolon => exact Or.inr rfl
      | num n => cases h
      | str s => cases h
    · rintro ⟨b, h | h⟩
      · obtain ⟨-, h⟩ := List.append_inj' h rfl
        simp at h; subst h; rfl
      · obtain ⟨-, h⟩ := List.append_inj' h rfl
        simp at h; subst h; rfl

/-- **C26.** For every `PRINT` statement (any items, any cursor position, tab width and colour; no number
being the smallest one, which `STR$` cannot convert), the screen afterwards is the one described by the
specification: texts in reading order, commas as spaces up to the tab stop or line end, final new line
unless the statement ends with `,` or `;`. -/
theorem C26_print (c : Con) (h : Inv c) (is : List Item) (hno : Item.num (-2147483648) ∉ is) (stay : Bool)
    (hs : stay = true ↔ ∃ before, is = before ++ [.comma] ∨ is = before ++ [.semicolon]) :
    ∃ c', cmdPrint c is = .ok c' ∧ Inv c' ∧
      (view c').Same ((view c).print c.col c.tabstep (toWide 32) (is.filterMap meaning) stay) := by
  obtain rfl : stay = endsOpen is := by
    rw [Bool.eq_iff_iff, hs, endsOpen_iff]
  obtain ⟨c1, b1, b2, b3, b4, b5, b6⟩ := printItems_spec is c h hno
  unfold cmdPrint Screen.print
  rw [b1]; simp only [Out.bind]
  cases endsOpen is with
  | true => exact ⟨c1, rfl, b2, b6⟩
  | false =>
    obtain ⟨n1, n2, n3, n4, n5, n6⟩ := newline_spec c1 b2
    refine ⟨_, rfl, n1, ?_⟩
    simp only [Bool.false_eq_true, if_false]
    rw [b3] at n6
    exact Same.trans n6 (Same.newline b6 c.col)

/-! ## Histories -/

/-- Console statements of a BASIC program. -/
inductive Op where
  | print (is : List Item)
  | locate (x y : Int)
  | cls
  | color (fg : Int) (bg : Option Int)
  | tabstep (v : Int)

/-- One statement on the model. -/
def step (c : Con) : Op → Out Con
  | .print is => cmdPrint c is
  | .locate x y => .ok (cmdLocate c x y)
  | .cls => .ok (cmdCls c)
  | .color fg bg => .ok (cmdColor c fg bg)
  | .tabstep v => .ok (setTabstep c v)

/-- A program's statements in order. -/
def run : List Op → Con → Out Con
  | [], c => .ok c
  | o :: os, c => (step c o).bind (run os)

theorem step_spec (c : Con) (h : Inv c) (o : Op) (hno : ∀ is, o = .print is → Item.num (-2147483648) ∉ is) :
    ∃ c', step c o = .ok c' ∧ Inv c' ∧ SameOutside c c' := by
  cases o with
  | print is =>
    obtain ⟨c1, b1, b2, b3, b4, b5, b6⟩ := printItems_spec is c h (hno is rfl)
    simp only [step, cmdPrint, b1, Out.bind]
    cases endsOpen is with
    | true => exact ⟨c1, rfl, b2, b5⟩
    | false =>
      obtain ⟨n1, n2, n3, n4, n5, n6⟩ := newline_spec c1 b2
      refine ⟨_, rfl, n1, ?_⟩
      intro r k hrk
      exact ⟨(n5 r k hrk).1.trans (b5 r k hrk).1, (n5 r k hrk).2.trans (b5 r k hrk).2⟩
  | locate x y =>
    refine ⟨_, rfl, ?_, ?_⟩
    · unfold cmdLocate width height
      simp only []
      split
      · rename_i hc
        exact ⟨by simp only []; omega, by simp only []; omega, by simp only []; omega, h.tab⟩
      · exact h
    · unfold cmdLocate; simp only []
      split <;> exact fun _ _ _ => ⟨rfl, rfl⟩
  | cls =>
    refine ⟨_, rfl, ⟨by simp [cmdCls], by simp [cmdCls], by simp [cmdCls], h.tab⟩, ?_⟩
    intro r k hrk
    simp only [cmdCls, width, height, hrk, if_false, and_self]
  | color fg bg =>
    refine ⟨_, rfl, ?_, ?_⟩
    · cases bg <;> exact ⟨h.x, h.y, h.edge, h.tab⟩
    · cases bg <;> exact fun _ _ _ => ⟨rfl, rfl⟩
  | tabstep v =>
    refine ⟨_, rfl, ⟨h.x, h.y, h.edge, ?_⟩, fun _ _ _ => ⟨rfl, rfl⟩⟩
    unfold setTabstep
    simp only []
    split <;> split <;> omega

/-- **C25 (partial).** Every program of `PRINT`, `LOCATE`, `CLS`, `COLOR` and `TABSTEP=` statements (not
printing the smallest number) runs without undefined behaviour or failed assertion, never changes anything
outside the 24×32 cells, and keeps the cursor column in 0..31 and row in 0..24.
Missing: the row is documented to be at most 23, and `INPUT`'s prompt; both are refuted below. -/
theorem C25_screen_partial (os : List Op) (hno : ∀ is, Op.print is ∈ os → Item.num (-2147483648) ∉ is) :
    ∃ c, run os init = .ok c ∧ c.x < 32 ∧ c.y ≤ 24 ∧ (c.y = 24 → c.x = 0) ∧ SameOutside init c := by
  have : ∀ (os : List Op) (c : Con), Inv c → (∀ is, Op.print is ∈ os → Item.num (-2147483648) ∉ is) →
      ∃ c', run os c = .ok c' ∧ Inv c' ∧ SameOutside c c' := by
    intro os
    induction os with
    | nil => intro c h _; exact ⟨c, rfl, h, fun _ _ _ => ⟨rfl, rfl⟩⟩
    | cons o os ih =>
      intro c h hn
      obtain ⟨c1, a1, a2, a3⟩ := step_spec c h o (fun is he => hn is (by simp [he]))
      obtain ⟨c2, b1, b2, b3⟩ := ih c1 a2 (fun is he => hn is (by simp [he]))
      rw [run, a1]; simp only [Out.bind]
      refine ⟨c2, b1, b2, fun r k hrk => ?_⟩
      exact ⟨(b3 r k hrk).1.trans (a3 r k hrk).1, (b3 r k hrk).2.trans (a3 r k hrk).2⟩
  obtain ⟨c, h1, h2, h3⟩ := this os init ⟨by decide, by decide, by decide, by decide⟩ hno
  exact ⟨c, h1, h2.x, h2.y, h2.edge, h3⟩

/-- **C25 (refuted case).** `LOCATE 31,23:PRINT "A";` leaves the cursor in row 24, outside the documented
range, and a following `INPUT` or `LINPUT` without prompt then fails the assertion of `con_put`
(in a build without assertions, it writes outside the screen). -/
theorem C25_prompt_violated :
    ∃ c, run [.locate (31 * 4096) (23 * 4096), .print [.str ⟨false, [65]⟩, .semicolon]] init = .ok c ∧ c.y = 24 ∧
      conPrompt c none = .ub := by
  refine ⟨_, rfl, by decide, rfl⟩

/-- **C25.** `LOCATE` moves the cursor exactly to on-screen positions and ignores all others; `CHKCHR` reads
the character code of on-screen cells and gives -1 elsewhere. -/
theorem C25_locate (c : Con) (x y : Int) :
    (0 ≤ x / 4096 ∧ x / 4096 < 32 ∧ 0 ≤ y / 4096 ∧ y / 4096 < 24 →
      cmdLocate c x y = { c with x := (x / 4096).toNat, y := (y / 4096).toNat } ∧
      funcChkchr c x y = intToFp (toChar (c.text (y / 4096).toNat (x / 4096).toNat))) ∧
    (¬ (0 ≤ x / 4096 ∧ x / 4096 < 32 ∧ 0 ≤ y / 4096 ∧ y / 4096 < 24) →
      cmdLocate c x y = c ∧ funcChkchr c x y = -4096) := by
  unfold cmdLocate funcChkchr fpToInt width height
  simp only []
  constructor
  · intro h
    rw [if_pos (by omega), if_pos (by omega)]
    exact ⟨rfl, rfl⟩
  · intro h
    rw [if_neg (by omega), if_neg (by omega)]
    exact ⟨rfl, by decide⟩

/-- Printing "ABC" at column 31 of the last row wraps and scrolls by one line. -/
example : ∃ c, run [.locate (31 * 4096) (23 * 4096), .print [.str ⟨false, [65, 66, 67]⟩]] init = .ok c ∧
    c.text 21 31 = toWide 65 ∧ c.text 22 0 = toWide 66 ∧ c.text 22 1 = toWide 67 ∧ c.y = 23 := by
  refine ⟨_, rfl, ?_⟩
  decide +kernel

end Sbc.Console
