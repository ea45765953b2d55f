import Verif.Proof.Panel
import Verif.Props.Console
set_option autoImplicit false
/-!
# The panel: typing on the touch screen (C95), function keys, text and icons (C96), types and pictures (C97)
-/
namespace Sbc.Panel
open Sbc Sbc.Strs Sbc.Strs.Spec Sbc.Input Sbc.Console Sbc.Panel.Spec

/-- **C95 (partial).** Any number of touches, each on one key (or on none) from its first to its last frame, in any state of
the keyboard: they put exactly the characters of the keys, in this order and repeated as often as the times say, behind what is
in the keyboard buffer, as far as it holds them (256); they change SHIFT, CAPS, INSERT, the layout and the page of icons in the
way the keys do, ESC stops the program, and nothing else changes.  Missing: touches that slide from a key to a place without
one (`C95_slide_violated`). -/
theorem C95_typing_partial {p : Panel} {r : Ring} {q : List Nat} {s : Kb} (ts : List Tap) (hp : Rep p s) (hr : Holds r q)
    (hk : p.key = 0) (ht : p.time = 0) (hmax : p.pmax ≤ 2147479552) (hts : ∀ t ∈ ts, t.Steady ∧ t.rest.length < 2147483647) :
    ∃ p' r', frames p r false (ts.flatMap Tap.frames) = .ok (p', r', (s.taps p.func p.pmax (p.puse ≠ 0) ts).2.2) ∧
      Rep p' (s.taps p.func p.pmax (p.puse ≠ 0) ts).1 ∧ Holds r' ((q ++ (s.taps p.func p.pmax (p.puse ≠ 0) ts).2.1).take 256) ∧
      Kept p p' ∧ p'.key = 0 ∧ p'.time = 0 := by
  obtain ⟨p', r', e, h⟩ := taps_frames ts (b := false) hp hr hk ht hmax hts
  rw [Bool.false_or] at e
  exact ⟨p', r', e, h.rep, h.ring, h.kept, h.key, h.time⟩

/-- **C95 (violated).** A touch begins on any key and goes on, in the next frame, at any place without a key: the program then
reads the table of the keys outside its bounds. -/
theorem C95_slide_violated {p : Panel} {r : Ring} {s : Kb} {q : List Nat} {d e : Nat × Nat} {a : Area} (hp : Rep p s) (hr : Holds r q)
    (hk : p.key = 0) (ht : p.time = 0) (hmax : p.pmax ≤ 2147479552) (hd : d.1 < 256 ∧ d.2 < 192) (he : e.1 < 256 ∧ e.2 < 192)
    (ha : areaAt d = some a) (hn : areaAt e = none) : frames p r false [some d, some e] = .ub := by
  obtain ⟨h1, h2, h3, h4, hok⟩ := map_some hd.1 hd.2 ha
  have hm := map_none he.1 he.2 hn
  have key : ∀ (p1 : Panel) (r1 : Ring) (b1 : Bool), frame p r (some d) = .ok (p1, r1, b1) → p1.key ≠ 0 → frames p r false [some d, some e] = .ub := by
    intro p1 r1 b1 e1 hk1
    unfold frames
    rw [e1]
    show frames p1 r1 _ [some e] = _
    unfold frames
    show (pressKey p1 r1 true e.1 e.2).bind _ = _
    have : pressKey p1 r1 true e.1 e.2 = .ub := by
      unfold pressKey
      rw [if_neg (by decide), if_pos hk1]
      unfold holdKey
      rw [hm]
      rfl
    rw [this]
    rfl
  have first : ∀ (c : Nat) (a' : Area), KeyOk a' → (if mapAt d.1 d.2 = 89 ∧ p.puse ≠ 0 ∧ d.2 ≥ 180 then 90 else mapAt d.1 d.2) = c → c ≠ 255 →
      keyCodes[c]? = some (code a') → frames p r false [some d, some e] = .ub := by
    intro c a' hka hc h255 hcode
    have hf : (if p.key ≠ 0 then holdKey p d.1 d.2 else if p.time > 0 then .ok p else touchKey p d.1 d.2) = .ok { p with id := c, key := code a', time := 1 } := by
      rw [if_neg (fun x => x hk), if_neg (by omega)]
      unfold touchKey
      dsimp only
      rw [hc, if_pos h255]
      unfold codeOf
      rw [hcode]
      rfl
    have hg : getPressed { p with id := c, key := code a', time := 1 } = code a' := by
      unfold getPressed
      rw [if_neg (by
        rintro (x | x)
        · exact code_pos hka x
        · exact absurd (show checkRepeat 1 30 4 = false from x) (by decide))]
    obtain ⟨p', r', e1, _, _, _, hst⟩ := act_press (p := { p with id := c, key := code a', time := 1 }) (s := s) (q := q) (r := r)
      ⟨hp.type, hp.le, hp.shift, hp.cursor, hp.page, hp.range⟩ hr hka hg hmax
    refine key p' r' _ ((frame_touch r hf).trans e1) ?_
    rw [hst.1]
    exact code_pos hka
  by_cases hpg : mapAt d.1 d.2 = 89 ∧ p.puse ≠ 0 ∧ d.2 ≥ 180
  · exact first 90 (.page true) page_ok (by rw [if_pos hpg]) (by decide) (by decide +kernel)
  · exact first _ a hok (by rw [if_neg hpg]) h1 h2

/-- The page of icons, as the buttons change it, stays between 0 and ICONPMAX. -/
theorem press_page {func : Nat → List Nat} {pmax : Int} {s : Kb} {a : Area} (h0 : 0 ≤ s.page) (hm : s.page ≤ pmax) (hd : ∃ k, s.page = 4096 * k) (hp : ∃ k, pmax = 4096 * k) :
    0 ≤ (s.press func pmax a).1.page ∧ (s.press func pmax a).1.page ≤ pmax ∧ ∃ k, (s.press func pmax a).1.page = 4096 * k := by
  obtain ⟨k, hk⟩ := hd
  obtain ⟨m, hm'⟩ := hp
  have same : (s.press func pmax a).1.page = s.page → 0 ≤ (s.press func pmax a).1.page ∧ (s.press func pmax a).1.page ≤ pmax ∧ ∃ k, (s.press func pmax a).1.page = 4096 * k :=
    fun e => by rw [e]; exact ⟨h0, hm, k, hk⟩
  cases a with
  | page b =>
    cases b with
    | false =>
      show 0 ≤ (if s.page > 0 then s.page - 4096 else s.page) ∧ (if s.page > 0 then s.page - 4096 else s.page) ≤ pmax ∧ ∃ k, (if s.page > 0 then s.page - 4096 else s.page) = 4096 * k
      split
      · exact ⟨by omega, by omega, k - 1, by omega⟩
      · exact ⟨h0, hm, k, hk⟩
    | true =>
      show 0 ≤ (if s.page < pmax then s.page + 4096 else s.page) ∧ (if s.page < pmax then s.page + 4096 else s.page) ≤ pmax ∧ ∃ k, (if s.page < pmax then s.page + 4096 else s.page) = 4096 * k
      split
      · exact ⟨by omega, by omega, k + 1, by omega⟩
      · exact ⟨h0, hm, k, hk⟩
  | _ =>
    apply same
    simp only [Kb.press]
    repeat' split
    all_goals rfl

theorem presses_page {func : Nat → List Nat} {pmax : Int} {s : Kb} {a : Area} (h0 : 0 ≤ s.page) (hm : s.page ≤ pmax) (hd : ∃ k, s.page = 4096 * k) (hp : ∃ k, pmax = 4096 * k) :
    (n : Nat) → 0 ≤ (s.presses func pmax a n).1.page ∧ (s.presses func pmax a n).1.page ≤ pmax ∧ ∃ k, (s.presses func pmax a n).1.page = 4096 * k
  | 0 => ⟨h0, hm, hd⟩
  | n + 1 => by
    have := presses_page (a := a) h0 hm hd hp (func := func) n
    exact press_page this.1 this.2.1 this.2.2 hp

theorem taps_page {func : Nat → List Nat} {pmax : Int} {puse : Bool} (hp : ∃ k, pmax = 4096 * k) : (ts : List Tap) → {s : Kb} → 0 ≤ s.page → s.page ≤ pmax → (∃ k, s.page = 4096 * k) →
    0 ≤ (s.taps func pmax puse ts).1.page ∧ (s.taps func pmax puse ts).1.page ≤ pmax ∧ ∃ k, (s.taps func pmax puse ts).1.page = 4096 * k
  | [], _, h0, hm, hd => ⟨h0, hm, hd⟩
  | t :: ts, s, h0, hm, hd => by
    have h1 : 0 ≤ (s.tap func pmax puse t).1.page ∧ (s.tap func pmax puse t).1.page ≤ pmax ∧ ∃ k, (s.tap func pmax puse t).1.page = 4096 * k := by
      unfold Kb.tap
      cases touched puse t.first with
      | none => exact ⟨h0, hm, hd⟩
      | some a => exact presses_page h0 hm hd hp _
    exact taps_page hp ts h1.1 h1.2.1 h1.2.2

/-- **C95.** Whatever is touched (as in `C95_typing_partial`), ICONPAGE remains a whole number between 0 and ICONPMAX. -/
theorem C95_page {p : Panel} {r : Ring} {q : List Nat} {s : Kb} (ts : List Tap) (hp : Rep p s) (hr : Holds r q) (hk : p.key = 0) (ht : p.time = 0)
    (hmax : p.pmax ≤ 2147479552) (hts : ∀ t ∈ ts, t.Steady ∧ t.rest.length < 2147483647) (h0 : 0 ≤ p.page ∧ p.page ≤ p.pmax)
    (hint : ∃ k, p.page = 4096 * k) (hm : ∃ k, p.pmax = 4096 * k) :
    ∃ p' r' b, frames p r false (ts.flatMap Tap.frames) = .ok (p', r', b) ∧ 0 ≤ p'.page ∧ p'.page ≤ p'.pmax ∧ ∃ k, p'.page = 4096 * k := by
  obtain ⟨p', r', e, h1, _, hkept, _⟩ := C95_typing_partial ts hp hr hk ht hmax hts
  refine ⟨p', r', _, e, ?_⟩
  rw [h1.page, hkept.pmax]
  rw [hp.page] at h0 hint
  exact taps_page hm ts h0.1 h0.2 hint

/-- **C95 (violated).** While pages are not in use (ICONPUSE 0: no buttons are shown), touching their place still changes
ICONPAGE. -/
theorem C95_hidden_violated {p : Panel} {r : Ring} {q : List Nat} {s : Kb} (d : Nat × Nat) (hp : Rep p s) (hr : Holds r q) (hk : p.key = 0) (ht : p.time = 0)
    (hmax : p.pmax ≤ 2147479552) (_hu : p.puse = 0) (hpg : p.page > 0) (hd : 144 ≤ d.1 ∧ d.1 < 160 ∧ 168 ≤ d.2 ∧ d.2 < 192) :
    ∃ p' r' b, frames p r false [some d, none] = .ok (p', r', b) ∧ p'.page = p.page - 4096 := by
  have harea : areaAt d = some (.page false) := by
    have h1 : d.1 / 8 = 18 ∨ d.1 / 8 = 19 := by omega
    have h2 : d.2 / 8 = 21 ∨ d.2 / 8 = 22 ∨ d.2 / 8 = 23 := by omega
    unfold areaAt
    rcases h1 with h1 | h1 <;> rcases h2 with h2 | h2 | h2 <;> rw [h1, h2] <;> rfl
  have hst : ({ first := d, rest := [], gap := 0 } : Tap).Steady := by
    intro x hx
    rw [List.mem_singleton] at hx
    rw [hx]
    exact ⟨by show d.1 < 256; omega, by show d.2 < 192; omega, rfl⟩
  obtain ⟨p', r', e, h1, _⟩ := C95_typing_partial [{ first := d, rest := [], gap := 0 }] hp hr hk ht hmax
    (fun t ht => by rw [List.mem_singleton] at ht; rw [ht]; exact ⟨hst, by show 0 < 2147483647; decide⟩)
  refine ⟨p', r', _, e, ?_⟩
  rw [h1.page]
  have hto : touched (decide (p.puse ≠ 0)) d = some (.page false) := by
    unfold touched
    rw [if_neg (by rintro ⟨_, x, _⟩; exact (of_decide_eq_true x) _hu), harea]
  have e2 : s.taps p.func p.pmax (decide (p.puse ≠ 0)) [{ first := d, rest := [], gap := 0 }] =
      ((s.press p.func p.pmax (.page false)).1, [] ++ (s.press p.func p.pmax (.page false)).2.1 ++ [], (false || (s.press p.func p.pmax (.page false)).2.2) || false) := by
    show ((s.tap p.func p.pmax (decide (p.puse ≠ 0)) _).1, _, _) = _
    unfold Kb.tap
    dsimp only
    rw [hto]
    rfl
  rw [e2, hp.page]
  show (if s.page > 0 then s.page - 4096 else s.page) = _
  rw [if_pos (by rw [← hp.page]; exact hpg)]

/-! ## Text -/

theorem put_step {c : Con} (w : Nat) (hx : c.x < 32) (hy : c.y < 24) :
    ∃ c', conPut c w = .ok c' ∧ c'.text = set2 c.text c.y c.x w ∧ c'.color = set2 c.color c.y c.x c.col ∧ c'.col = c.col ∧ c'.tabstep = c.tabstep ∧
      (c.x < 31 → c'.x = c.x + 1 ∧ c'.y = c.y) ∧ (c.x = 31 → c'.x = 0 ∧ c'.y = c.y + 1) := by
  unfold conPut
  rw [if_neg (fun h => h hx), if_neg (fun h => h hy)]
  dsimp only
  by_cases h : c.x + 1 ≥ width
  · rw [if_pos h]
    have : c.x = 31 := by have : width = 32 := rfl; omega
    exact ⟨_, rfl, rfl, rfl, rfl, rfl, fun x => absurd x (by omega), fun _ => ⟨rfl, rfl⟩⟩
  · rw [if_neg h]
    have : c.x ≠ 31 := by have : width = 32 := rfl; omega
    exact ⟨_, rfl, rfl, rfl, rfl, rfl, fun _ => ⟨rfl, rfl⟩, fun x => absurd x this⟩

theorem written_cons {old mid new : Nat → Nat → Nat} {row col w : Nat} {ws : List Nat} (hc : col < 32) (hm : mid = set2 old row col w)
    (h : Written mid new row (col + 1) ws) : Written old new row col (w :: ws) := by
  subst hm
  refine ⟨?_, ?_⟩
  · intro i v hi hl
    cases i with
    | zero =>
      rw [Nat.add_zero, h.2 row col (by omega), set2_eq, if_pos ⟨rfl, rfl⟩]
      simpa using hi
    | succ i =>
      have := h.1 i v (by simpa using hi) (by omega)
      rw [← this]
      congr 1
      omega
  · intro r k hrk
    rw [List.length_cons] at hrk
    rw [h.2 r k (by omega), set2_eq, if_neg (by rintro ⟨rfl, rfl⟩; exact hrk ⟨rfl, by omega, by omega, hc⟩)]

theorem written_nil {α : Type} (old : Nat → Nat → α) (row col : Nat) : Written old old row col [] :=
  ⟨fun i w h => by simp at h, fun _ _ _ => rfl⟩

/-- The loop of PNLSTR. -/
theorem pnl_loop (y : Nat) (hy : y < 24) : (ws : List Nat) → (c : Con) → c.x < 32 → c.y = y →
    ∃ c', pnlLoop y ws c = .ok c' ∧ Written c.text c'.text y c.x ws ∧ Written c.color c'.color y c.x (ws.map fun _ => c.col)
  | [], c, _, _ => ⟨c, rfl, written_nil _ _ _, written_nil _ _ _⟩
  | w :: ws, c, hx, hcy => by
    obtain ⟨c1, e1, ht, hc, hcol, _, hlow, hedge⟩ := put_step w hx (by rw [hcy]; exact hy)
    rw [hcy] at ht hc
    unfold pnlLoop
    rw [e1]
    show ∃ c', (if c1.y ≠ y then _ else _) = _ ∧ _
    by_cases h31 : c.x < 31
    · obtain ⟨hx1, hy1⟩ := hlow h31
      rw [if_neg (fun h => h (hy1.trans hcy))]
      obtain ⟨c', e, h1, h2⟩ := pnl_loop y hy ws c1 (by omega) (hy1.trans hcy)
      rw [hx1] at h1 h2
      rw [hcol] at h2
      exact ⟨c', e, written_cons hx ht h1, written_cons hx hc h2⟩
    · obtain ⟨hx1, hy1⟩ := hedge (by omega)
      rw [if_pos (by omega)]
      have stop : ∀ (f : Nat → Nat → Nat) (vs : List Nat), Written f f y (c.x + 1) vs :=
        fun f vs => ⟨fun i v _ hl => absurd hl (by omega), fun _ _ _ => rfl⟩
      exact ⟨c1, rfl, written_cons hx ht (stop _ _), written_cons hx hc (stop _ _)⟩

/-- **C96.** PNLSTR with a place on the screen and a colour (none: 0): the characters of the text are written there, in the
colour, in one row up to the edge of the screen, and nothing else changes.  A place outside the screen is ignored; a wrong
colour is reported. -/
theorem C96_pnlstr (p : Panel) (x y : Int) (s : Str) (col : Option Int) :
    (0 ≤ fpToInt x ∧ fpToInt x < 32 ∧ 0 ≤ fpToInt y ∧ fpToInt y < 24 →
      ((∀ v, col = some v → 0 ≤ fpToInt v ∧ fpToInt v < 16) →
        ∃ p', cmdPnlstr p x y s col = .ok p' ∧ { p' with text := p.text } = p ∧
          Written p.text.text p'.text.text (fpToInt y).toNat (fpToInt x).toNat (text s) ∧
          Written p.text.color p'.text.color (fpToInt y).toNat (fpToInt x).toNat ((text s).map fun _ => (match col with | none => 0 | some v => (fpToInt v).toNat))) ∧
      (∀ v, col = some v → ¬ (0 ≤ fpToInt v ∧ fpToInt v < 16) → cmdPnlstr p x y s col = .err .outOfRange)) ∧
    (¬ (0 ≤ fpToInt x ∧ fpToInt x < 32 ∧ 0 ≤ fpToInt y ∧ fpToInt y < 24) → cmdPnlstr p x y s col = .ok p) := by
  have fin : ∀ n : Nat, 0 ≤ fpToInt x ∧ fpToInt x < 32 ∧ 0 ≤ fpToInt y ∧ fpToInt y < 24 →
      ∃ p', ((pnlLoop (fpToInt y).toNat ((List.range (strLen s)).map (strAtWide s))
        { p.text with col := n, x := (fpToInt x).toNat, y := (fpToInt y).toNat }).bind fun c => Out.ok { p with text := c }) = .ok p' ∧ { p' with text := p.text } = p ∧
        Written p.text.text p'.text.text (fpToInt y).toNat (fpToInt x).toNat (text s) ∧
        Written p.text.color p'.text.color (fpToInt y).toNat (fpToInt x).toNat ((text s).map fun _ => n) := by
    intro n h
    rw [strText]
    obtain ⟨c', e, h1, h2⟩ := pnl_loop (fpToInt y).toNat (by omega) (text s) { p.text with col := n, x := (fpToInt x).toNat, y := (fpToInt y).toNat }
      (by show (fpToInt x).toNat < 32; omega) rfl
    rw [e]
    exact ⟨_, rfl, rfl, h1, h2⟩
  refine ⟨fun h => ⟨fun hc => ?_, fun v hv hn => ?_⟩, fun h => ?_⟩
  · unfold cmdPnlstr
    rw [if_neg (by omega), if_neg (by omega)]
    cases col with
    | none => exact fin 0 h
    | some v =>
      have := hc v rfl
      dsimp only
      rw [if_pos (by omega)]
      exact fin _ h
  · unfold cmdPnlstr
    rw [if_neg (by omega), if_neg (by omega)]
    subst hv
    dsimp only
    rw [if_neg (by omega)]
    rfl
  · unfold cmdPnlstr
    split
    · rfl
    · rw [if_pos (by omega)]

/-- Characters put in a row that has room for them. -/
theorem fold_put : (ws : List Nat) → (c : Con) → c.x + ws.length < 32 → c.y < 24 →
    ∃ c', ws.foldl (fun (c : Out Con) w => c.bind fun c => conPut c w) (.ok c) = .ok c' ∧ c'.y = c.y ∧ Written c.text c'.text c.y c.x ws
  | [], c, _, _ => ⟨c, rfl, rfl, written_nil _ _ _⟩
  | w :: ws, c, hx, hy => by
    rw [List.length_cons] at hx
    obtain ⟨c1, e1, ht, _, _, _, hlow, _⟩ := put_step w (by omega) hy
    obtain ⟨hx1, hy1⟩ := hlow (by omega)
    obtain ⟨c', e, h1, h2⟩ := fold_put ws c1 (by omega) (by omega)
    rw [List.foldl_cons]
    show ∃ c', List.foldl _ (conPut c w) ws = _ ∧ _
    rw [e1]
    rw [hx1, hy1] at h2
    exact ⟨c', e, h1.trans hy1, written_cons (by omega) ht h2⟩

theorem shown_label (s : Str) : ((List.range 5).map fun i => if i = 4 ∧ strLen s > 4 then toWide 46 else if i < strLen s then strAtWide s i else toWide 32) = label (text s) := by
  have hl := text_length s
  have hg : ∀ i, i < strLen s → some (strAtWide s i) = (text s)[i]? := by
    intro i hi
    rw [strAtWide_text s i hi]
  have key : ∀ i, i < 4 → (if i < strLen s then strAtWide s i else toWide 32) = (text s ++ List.replicate 4 (toWide 32)).getD i 0 := by
    intro i hi
    rw [List.getD_eq_getElem?_getD]
    split
    · next h => rw [List.getElem?_append_left (by omega), ← hg i h]; rfl
    · next h => rw [List.getElem?_append_right (by omega), List.getElem?_replicate, if_pos (by omega)]; rfl
  have e4 : (text s ++ List.replicate 4 (toWide 32)).take 4 = (List.range 4).map fun i => if i < strLen s then strAtWide s i else toWide 32 := by
    apply List.ext_getElem
    · simp
    · intro i h1 h2
      have hi : i < 4 := by simpa using h2
      rw [List.getElem_take, List.getElem_map, List.getElem_range, key i hi, List.getD_eq_getElem?_getD, List.getElem?_eq_getElem (by simp; omega)]
      rfl
  unfold label
  rw [e4, hl]
  have e5 : (if (4 : Nat) = 4 ∧ strLen s > 4 then toWide 46 else if 4 < strLen s then strAtWide s 4 else toWide 32) = if strLen s > 4 then toWide 46 else toWide 32 := by
    by_cases h : strLen s > 4
    · rw [if_pos ⟨rfl, h⟩, if_pos h]
    · rw [if_neg (fun x => h x.2), if_neg h, if_neg h]
  rw [← e5]
  rfl

/-- **C96.** KEY with a number from 1 to 5: this function key types the text from now on (see `C95_typing_partial`), its label
shows the beginning of it, and nothing else changes; another number is reported. -/
theorem C96_key (p : Panel) (n : Int) (s : Str) (hy : p.keysText.y = 0) (hl : strLen s ≤ 256) :
    (1 ≤ fpToInt n ∧ fpToInt n ≤ 5 →
      ∃ p', cmdKey p n s = .ok p' ∧ { p' with func := p.func, keysText := p.keysText } = p ∧
        (∀ j : Nat, (j : Int) + 1 = fpToInt n → p'.func j = text s) ∧ (∀ j : Nat, (j : Int) + 1 ≠ fpToInt n → p'.func j = p.func j) ∧
        Written p.keysText.text p'.keysText.text 0 (6 * (fpToInt n).toNat - 5) (label (text s)) ∧ p'.keysText.y = 0) ∧
    (¬ (1 ≤ fpToInt n ∧ fpToInt n ≤ 5) → cmdKey p n s = .err .outOfRange) := by
  refine ⟨fun h => ?_, fun h => by unfold cmdKey; rw [if_neg h]⟩
  unfold cmdKey
  rw [if_pos h]
  unfold setFunctionKey
  rw [if_neg (by omega), if_neg (by omega)]
  dsimp only
  rw [shown_label, strText]
  have hlab : (label (text s)).length = 5 := by unfold label; simp
  obtain ⟨c', e, hy', hw⟩ := fold_put (label (text s)) { p.keysText with x := 1 + ((fpToInt n).toNat - 1) * 6 }
    (by show 1 + ((fpToInt n).toNat - 1) * 6 + _ < 32; rw [hlab]; omega) (by show p.keysText.y < 24; omega)
  rw [e]
  refine ⟨_, rfl, rfl, ?_, ?_, ?_, hy'.trans hy⟩
  · intro j hj
    show upd p.func ((fpToInt n).toNat - 1) (text s) j = _
    rw [show (fpToInt n).toNat - 1 = j by omega, upd_same]
  · intro j hj
    show upd p.func ((fpToInt n).toNat - 1) (text s) j = _
    rw [upd_other _ _ (by omega)]
  · rw [show ({ p.keysText with x := 1 + ((fpToInt n).toNat - 1) * 6 } : Con).y = 0 from hy] at hw
    rw [show 6 * (fpToInt n).toNat - 5 = 1 + ((fpToInt n).toNat - 1) * 6 by omega]
    exact hw

/-! ## Icons -/

/-- Performing a command for icons. -/
def iconCmd (p : Panel) : IconCmd → Out Panel
  | .set i n => cmdIconset p (intToFp i) (intToFp n)
  | .clear i => cmdIconclr p (some (intToFp i))
  | .clearAll => cmdIconclr p none

/-- The icon in a place: nothing, or its number. -/
def iconAt (p : Panel) (i : Nat) : Option Int := if p.active (91 + i) then some (p.chr (91 + i)) else none

/-- A command with a place and an icon that exist. -/
def IconCmd.Ok : IconCmd → Prop
  | .set i n => i < 4 ∧ n < 64
  | .clear i => i < 4
  | .clearAll => True

theorem icon_step (p : Panel) (c : IconCmd) (h : IconCmd.Ok c) :
    ∃ p', iconCmd p c = .ok p' ∧ { p' with active := p.active, chr := p.chr } = p ∧
      (∀ k, ¬ (91 ≤ k ∧ k < 95) → p'.active k = p.active k ∧ p'.chr k = p.chr k) ∧
      ∀ i, i < 4 → iconAt p' i = (match c with
        | .set j n => if i = j then some ((4 * n : Nat) : Int) else iconAt p i
        | .clear j => if i = j then none else iconAt p i
        | .clearAll => none) := by
  cases c with
  | set j n =>
    obtain ⟨hj, hn⟩ := h
    have e1 : fpToInt (intToFp j) = j := by rw [intToFp_small (by omega)]; unfold fpToInt; omega
    have e2 : fpToInt (intToFp n) = n := by rw [intToFp_small (by omega)]; unfold fpToInt; omega
    show ∃ p', cmdIconset p (intToFp j) (intToFp n) = .ok p' ∧ _
    unfold cmdIconset
    rw [e1, e2, if_neg (by omega), if_neg (by omega)]
    refine ⟨_, rfl, rfl, ?_, ?_⟩
    · intro k hk
      exact ⟨upd_other _ _ (by omega), upd_other _ _ (by omega)⟩
    · intro i hi
      unfold iconAt
      show (if upd p.active (91 + (j : Int).toNat) true (91 + i) then some (upd p.chr (91 + (j : Int).toNat) ((n : Int) * 4) (91 + i)) else none) = if i = j then _ else _
      by_cases hij : i = j
      · subst hij
        rw [show ((i : Int).toNat) = i by omega, upd_same, upd_same, if_pos rfl, if_pos rfl, show (n : Int) * 4 = ((4 * n : Nat) : Int) by omega]
      · rw [upd_other _ _ (by omega), upd_other _ _ (by omega), if_neg hij]
  | clear j =>
    have hj : j < 4 := h
    have e1 : fpToInt (intToFp j) = j := by rw [intToFp_small (by omega)]; unfold fpToInt; omega
    show ∃ p', cmdIconclr p (some (intToFp j)) = .ok p' ∧ _
    unfold cmdIconclr
    dsimp only
    rw [e1, if_pos (by omega)]
    refine ⟨_, rfl, rfl, ?_, ?_⟩
    · intro k hk
      exact ⟨upd_other _ _ (by omega), rfl⟩
    · intro i hi
      unfold iconAt
      show (if upd p.active (91 + (j : Int).toNat) false (91 + i) then some (p.chr (91 + i)) else none) = if i = j then _ else _
      by_cases hij : i = j
      · subst hij
        rw [show ((i : Int).toNat) = i by omega, upd_same, if_pos rfl]
        rfl
      · rw [upd_other _ _ (by omega), if_neg hij]
  | clearAll =>
    refine ⟨_, rfl, rfl, ?_, ?_⟩
    · intro k hk
      exact ⟨if_neg hk, rfl⟩
    · intro i hi
      have : (if 91 ≤ 91 + i ∧ 91 + i < 95 then false else p.active (91 + i)) = false := if_pos (by omega)
      show (if (if 91 ≤ 91 + i ∧ 91 + i < 95 then false else p.active (91 + i)) = true then _ else none) = none
      rw [this]
      rfl

/-- Commands for icons, the most recent first. -/
def iconCmds (p : Panel) : List IconCmd → Out Panel
  | [] => .ok p
  | c :: cs => (iconCmds p cs).bind fun p => iconCmd p c

/-- **C96.** After any commands ICONSET and ICONCLR, each of the four places shows the icon that was last put there, or nothing
if it was cleared since (or never set); nothing else changes. -/
theorem C96_icons : (cs : List IconCmd) → (p : Panel) → (old : Nat → Option Nat) → (∀ c ∈ cs, IconCmd.Ok c) →
    (∀ i, i < 4 → iconAt p i = (old i).map fun n => ((4 * n : Nat) : Int)) →
    ∃ p', iconCmds p cs = .ok p' ∧ { p' with active := p.active, chr := p.chr } = p ∧
      (∀ k, ¬ (91 ≤ k ∧ k < 95) → p'.active k = p.active k ∧ p'.chr k = p.chr k) ∧
      ∀ i, i < 4 → iconAt p' i = (shown i cs (old i)).map fun n => ((4 * n : Nat) : Int)
  | [], p, old, _, h => ⟨p, rfl, rfl, fun _ _ => ⟨rfl, rfl⟩, h⟩
  | c :: cs, p, old, hok, h => by
    obtain ⟨p1, e1, hs1, hf1, h1⟩ := C96_icons cs p old (fun x hx => hok x (List.mem_cons_of_mem _ hx)) h
    obtain ⟨p2, e2, hs2, hf2, h2⟩ := icon_step p1 c (hok c (List.mem_cons_self ..))
    refine ⟨p2, by unfold iconCmds; rw [e1]; exact e2, ?_, ?_, ?_⟩
    · rw [← hs1, ← hs2]
    · intro k hk
      exact ⟨(hf2 k hk).1.trans (hf1 k hk).1, (hf2 k hk).2.trans (hf1 k hk).2⟩
    · intro i hi
      rw [h2 i hi]
      cases c with
      | set j n =>
        show (if i = j then _ else _) = (if i = j then _ else _ : Option Nat).map _
        by_cases hij : i = j
        · rw [if_pos hij, if_pos hij]; rfl
        · rw [if_neg hij, if_neg hij]; exact h1 i hi
      | clear j =>
        show (if i = j then _ else _) = (if i = j then _ else _ : Option Nat).map _
        by_cases hij : i = j
        · rw [if_pos hij, if_pos hij]; rfl
        · rw [if_neg hij, if_neg hij]; exact h1 i hi
      | clearAll => rfl

/-- Numbers of places that do not exist are reported, and so are icons above 64. -/
theorem C96_icon_range (p : Panel) (i n : Int) :
    (¬ (0 ≤ fpToInt i ∧ fpToInt i < 4) → cmdIconset p i n = .err .outOfRange ∧ cmdIconclr p (some i) = .err .outOfRange) ∧
    (¬ (0 ≤ fpToInt n ∧ fpToInt n ≤ 64) → cmdIconset p i n = .err .outOfRange) := by
  refine ⟨fun h => ⟨?_, ?_⟩, fun h => ?_⟩
  · unfold cmdIconset; rw [if_pos (by omega)]
  · unfold cmdIconclr; dsimp only; rw [if_neg (by omega)]
  · unfold cmdIconset
    rw [if_pos h, ite_self]

/-- **C96 (violated).** There are 64 icons, 0 to 63, but ICONSET also takes 64, and shows what follows them in memory. -/
theorem C96_icon64_violated (p : Panel) : ∃ p', cmdIconset p 0 (intToFp 64) = .ok p' ∧ iconAt p' 0 = some 256 := by
  refine ⟨_, rfl, ?_⟩
  unfold iconAt
  show (if upd p.active 91 true 91 then some (upd p.chr 91 (64 * 4) 91) else none) = _
  rw [upd_same, upd_same]
  rfl

/-- Squares of the icons. -/
theorem icon_squares : (List.range 24).all (fun y => (List.range 32).all fun x =>
    match areaSquare x y with
    | some (.icon n) => decide ((keyMap.getD y []).getD x 255 = 91 + n)
    | _ => true) = true := by decide +kernel

theorem icon_map {d : Nat × Nat} {n : Nat} (hx : d.1 < 256) (hy : d.2 < 192) (h : areaAt d = some (.icon n)) : mapAt d.1 d.2 = 91 + n := by
  have h1 := List.all_eq_true.mp icon_squares (d.2 / 8) (List.mem_range.mpr (by omega))
  have h2 := List.all_eq_true.mp h1 (d.1 / 8) (List.mem_range.mpr (by omega))
  unfold areaAt at h
  rw [h] at h2
  simpa [mapAt] using h2

/-- An icon does nothing by itself. -/
theorem icon_act {n : Nat} (p : Panel) (r : Ring) (hk : p.key = 90 + n) (hn : n < 4) : act p r = .ok (p, r, false) := by
  have hg : getPressed p = 0 ∨ getPressed p = 90 + n := by
    unfold getPressed
    split
    · exact .inl rfl
    · exact .inr hk
  rcases hg with hg | hg
  · exact act_none r hg
  · unfold act pageKeys
    rw [hg, if_neg (by omega), if_neg (by omega)]
    show (if p.type < 2 then _ else keyAction p r (getPressed p)) = _
    split
    · rfl
    · rw [hg]
      unfold keyAction
      rw [if_neg (by omega), if_neg (by omega), if_neg (by omega), if_neg (by omega), if_neg (by omega), if_neg (by omega), if_neg (by omega),
        if_neg (by omega), if_neg (by omega), if_neg (by omega)]

/-- Holding an icon: only the time changes. -/
theorem icon_hold {n : Nat} (hn : n < 4) : (ds : List (Nat × Nat)) → (t : Nat) → 1 ≤ t → t + ds.length < 2147483648 → (p : Panel) → (r : Ring) →
    (∀ d ∈ ds, d.1 < 256 ∧ d.2 < 192 ∧ areaAt d = some (.icon n)) → p.key = 90 + n → p.time = t →
    frames p r false (ds.map some) = .ok ({ p with time := t + ds.length }, r, false)
  | [], t, _, _, p, r, _, _, ht => by rw [List.length_nil, Nat.add_zero, ← ht]; rfl
  | d :: ds, t, h1, hlen, p, r, hd, hk, ht => by
    rw [List.length_cons] at hlen
    obtain ⟨hx, hy, harea⟩ := hd d (List.mem_cons_self ..)
    obtain ⟨_, h2, _⟩ := map_some hx hy harea
    have hf : (if p.key ≠ 0 then holdKey p d.1 d.2 else if p.time > 0 then .ok p else touchKey p d.1 d.2) = .ok { p with time := t + 1 } := by
      rw [if_pos (by omega)]
      unfold holdKey codeOf
      rw [h2]
      show (if 90 + n ≠ p.key then _ else _) = _
      rw [if_neg (fun x => x hk.symm), ht, if_pos (by omega)]
    rw [List.map_cons]
    unfold frames
    rw [frame_touch r hf, icon_act { p with time := t + 1 } r hk hn]
    show frames { p with time := t + 1 } r false (ds.map some) = _
    rw [icon_hold hn ds (t + 1) (by omega) (by omega) { p with time := t + 1 } r (fun x hx => hd x (List.mem_cons_of_mem _ hx)) hk rfl, List.length_cons]
    show Out.ok ({ p with time := t + 1 + ds.length }, r, false) = _
    rw [show t + 1 + ds.length = t + (ds.length + 1) by omega]

/-- **C96.** ICONCHK while the place of an icon is touched, in frame number `ds.length + 1` of the touch: the number of the place
if it shows an icon, in the first frame, in frame 31 and in every fifth after it; −1 in the others, and always if the place
shows none. -/
theorem C96_iconchk {p : Panel} {r : Ring} {n : Nat} (d : Nat × Nat) (ds : List (Nat × Nat)) (hk : p.key = 0) (ht : p.time = 0) (hlen : ds.length < 2147483647)
    (hd : ∀ x ∈ d :: ds, x.1 < 256 ∧ x.2 < 192 ∧ areaAt x = some (.icon n)) :
    ∃ p', frames p r false ((d :: ds).map some) = .ok (p', r, false) ∧
      funcIconchk p' = if iconAt p n ≠ none ∧ (ds.length = 0 ∨ (30 ≤ ds.length ∧ ds.length % 5 = 0)) then ((4096 * n : Nat) : Int) else -4096 := by
  obtain ⟨hx, hy, harea⟩ := hd d (List.mem_cons_self ..)
  obtain ⟨_, h2, _, _, hok⟩ := map_some hx hy harea
  have hm := icon_map hx hy harea
  have hn := hok.icon n rfl
  rw [hm] at h2
  have hf : (if p.key ≠ 0 then holdKey p d.1 d.2 else if p.time > 0 then .ok p else touchKey p d.1 d.2) = .ok { p with id := 91 + n, key := 90 + n, time := 1 } := by
    rw [if_neg (fun x => x hk), if_neg (by omega)]
    unfold touchKey
    dsimp only
    rw [hm, if_neg (show ¬ (91 + n = 89 ∧ p.puse ≠ 0 ∧ d.2 ≥ 180) by omega), if_pos (by omega)]
    unfold codeOf
    rw [h2]
    rfl
  refine ⟨{ p with id := 91 + n, key := 90 + n, time := 1 + ds.length }, ?_, ?_⟩
  · rw [List.map_cons]
    unfold frames
    rw [frame_touch r hf, icon_act { p with id := 91 + n, key := 90 + n, time := 1 } r rfl hn]
    show frames _ r false (ds.map some) = _
    rw [icon_hold hn ds 1 (by omega) (by omega) _ r (fun x hx => hd x (List.mem_cons_of_mem _ hx)) rfl rfl]
  · have hrep := repeat_iff (t := 1 + ds.length) (by omega)
    unfold funcIconchk iconAt
    by_cases hc : checkRepeat ((1 + ds.length : Nat) : Int) 30 4 = true
    · have hg : getPressed { p with id := 91 + n, key := 90 + n, time := 1 + ds.length } = 90 + n := by
        unfold getPressed
        rw [if_neg (by
          rintro (x | x)
          · exact absurd (show 90 + n = 0 from x) (by omega)
          · rw [show checkRepeat ((1 + ds.length : Nat) : Int) 30 4 = false from x] at hc; exact absurd hc (by decide))]
      rw [hrep] at hc
      dsimp only
      rw [hg]
      by_cases ha : p.active (91 + n) = true
      · rw [if_pos ⟨by omega, by omega, ha⟩, if_pos ⟨by rw [if_pos ha]; simp, by omega⟩]
        rw [intToFp_small (by omega)]
        omega
      · rw [if_neg (fun x => ha x.2.2), if_neg (fun x => x.1 (if_neg ha))]
        rfl
    · have hg : getPressed { p with id := 91 + n, key := 90 + n, time := 1 + ds.length } = 0 := by
        unfold getPressed
        rw [if_pos (Or.inr (by simpa using hc))]
      rw [hrep] at hc
      dsimp only
      rw [hg, if_neg (by omega), if_neg (fun x => hc (by omega))]
      rfl

/-! ## Types and pictures -/

theorem pnltype_eq (p : Panel) (s : Str) : cmdPnltype p s = match typeNumber (text s) with
    | some n => .ok (newType p n)
    | none => .err .invalidArgumentValue := by
  have h : ∀ l : List Nat, (strComp false s ⟨false, l⟩ = true) = (text s = l.map toWide) :=
    fun l => propext (strComp_iff s ⟨false, l⟩ false (by simp))
  unfold cmdPnltype typeNumber
  simp only [h]
  repeat' split
  all_goals simp_all

/-- **C97 (partial).** PNLTYPE with one of the names OFF, PNL, KYA, KYM, KYK selects this type and leaves the keys, the texts and
the icons alone; another name is reported.  The picture behind the keys fits the type afterwards, if it did so before, except
when the command changes between OFF and PNL (`C97_off_pnl_violated`). -/
theorem C97_pnltype_partial (p : Panel) (s : Str) :
    (∀ n, typeNumber (text s) = some n →
      ∃ p', cmdPnltype p s = .ok p' ∧ p'.type = n ∧ { p' with type := p.type, pic := p.pic } = p ∧
        (p.pic = picture p.type → (p.type = n ∨ 2 ≤ p.type ∨ 2 ≤ n) → p'.pic = picture n)) ∧
    (typeNumber (text s) = none → cmdPnltype p s = .err .invalidArgumentValue) := by
  rw [pnltype_eq]
  constructor
  · intro n hn
    rw [hn]
    refine ⟨_, rfl, ?_, ?_, ?_⟩
    · unfold newType; split <;> rfl
    · unfold newType; split <;> rfl
    · intro hp hc
      unfold newType
      by_cases h : p.type ≠ n ∧ decide (p.type ≥ 2) ≠ decide (n ≥ 2)
      · rw [if_pos h]
        rfl
      · rw [if_neg h]
        show p.pic = _
        rw [hp]
        by_cases he : p.type = n
        · rw [he]
        · have hd : decide (p.type ≥ 2) = decide (n ≥ 2) := Decidable.not_not.mp fun x => h ⟨he, x⟩
          rw [decide_eq_decide] at hd
          unfold picture
          rw [if_neg (by omega), if_neg (by omega), if_neg (by omega), if_neg (by omega)]
  · intro hn
    rw [hn]

/-- **C97 (violated).** PNLTYPE "PNL" after PNLTYPE "OFF" (and the other way round) does not change the picture: the panel stays
invisible (or visible). -/
theorem C97_off_pnl_violated (p : Panel) (hp : p.pic = picture p.type) :
    (p.type = 0 → ∃ p', cmdPnltype p (plain [80, 78, 76]) = .ok p' ∧ p'.type = 1 ∧ p'.pic = picture 0) ∧
    (p.type = 1 → ∃ p', cmdPnltype p (plain [79, 70, 70]) = .ok p' ∧ p'.type = 0 ∧ p'.pic = picture 1) := by
  constructor
  · intro h
    refine ⟨newType p 1, rfl, ?_, ?_⟩
    · unfold newType; split <;> rfl
    · unfold newType
      rw [if_neg (by rw [h]; decide)]
      show p.pic = _
      rw [hp, h]
  · intro h
    refine ⟨newType p 0, rfl, ?_, ?_⟩
    · unfold newType; split <;> rfl
    · unfold newType
      rw [if_neg (by rw [h]; decide)]
      show p.pic = _
      rw [hp, h]

/-- **C97 (violated).** INPUT and LINPUT show the keyboard and then select the old type again, but not its picture: with OFF or
PNL selected, the keyboard stays visible after them. -/
theorem C97_input_violated (p : Panel) (h : p.type < 2) : (afterInput p (inputPanel p)).type = p.type ∧ (afterInput p (inputPanel p)).pic ≠ picture p.type := by
  refine ⟨rfl, ?_⟩
  show (2 : Nat) ≠ picture p.type
  have : p.type = 0 ∨ p.type = 1 := by omega
  rcases this with h | h <;> rw [h] <;> decide

/-- The name of a keyboard can be written in both kinds of strings. -/
example : typeNumber (text ⟨false, [75, 89, 75]⟩) = some 4 ∧ typeNumber (text ⟨true, [75, 89, 75].map toWide⟩) = some 4 ∧ typeNumber (text ⟨false, [75, 89]⟩) = none := by
  decide +kernel

/-! ## The start, and samples -/

/-- The start: letters, no SHIFT, insertion on, and the function keys FILES, LOAD", SAVE", CONT and RUN with their labels. -/
theorem C96_start : ∃ p, initPanel = .ok p ∧ Rep p ⟨2, false, false, true, 0⟩ ∧ p.key = 0 ∧ p.time = 0 ∧ p.puse = 0 ∧ p.pmax = 0 ∧ p.pic = picture p.type ∧
    p.func 0 = [70, 73, 76, 69, 83].map toWide ∧ p.func 1 = [76, 79, 65, 68, 34].map toWide ∧ p.func 2 = [83, 65, 86, 69, 34].map toWide ∧
    p.func 3 = [67, 79, 78, 84].map toWide ∧ p.func 4 = [82, 85, 78].map toWide ∧ (∀ i, i < 4 → iconAt p i = none) ∧ p.keysText.y = 0 ∧
    (List.range 32).map (fun k => p.keysText.text 0 k) =
      [0] ++ [70, 73, 76, 69, 46].map toWide ++ [0] ++ [76, 79, 65, 68, 46].map toWide ++ [0] ++ [83, 65, 86, 69, 46].map toWide ++ [0] ++
      [67, 79, 78, 84, 32].map toWide ++ [0] ++ [82, 85, 78, 32, 32].map toWide ++ [0, 0] := by
  refine ⟨_, rfl, ⟨rfl, by decide, rfl, rfl, rfl, by decide⟩, rfl, rfl, rfl, rfl, rfl, ?_, ?_, ?_, ?_, ?_, ?_, rfl, ?_⟩ <;> decide +kernel

/-- The dots of a key, held for `n + 1` frames. -/
def hold (x y n : Nat) : Tap := ⟨(x, y), List.replicate n (x, y + 1), 0⟩

/-- Touches: SHIFT, Q, W held for 36 frames, the function key 5, between the keys, RETURN. -/
def sampleTaps : List Tap := [hold 8 130 1, hold 40 80 1, hold 56 80 35, hold 200 0 2, hold 0 20 10, hold 240 130 1]

/-- They are as the theorem wants, and type "qWWWRUN" and RETURN. -/
example : (∀ t ∈ sampleTaps, t.Steady ∧ t.rest.length < 2147483647) ∧
    ((⟨2, false, false, true, 0⟩ : Kb).taps (fun n => if n = 4 then [82, 85, 78] else []) 0 false sampleTaps).2.1 =
      [113, 87, 87, 87].map toWide ++ [82, 85, 78] ++ [toWide 13] := by
  refine ⟨?_, ?_⟩
  · intro t ht
    have : ∀ x y n, (x < 256 ∧ y + 1 < 192 ∧ areaAt (x, y + 1) = areaAt (x, y)) → n < 2147483647 → (hold x y n).Steady ∧ (hold x y n).rest.length < 2147483647 := by
      intro x y n h hn
      refine ⟨?_, by unfold hold; rw [List.length_replicate]; exact hn⟩
      intro d hd
      rcases List.mem_cons.mp hd with hd | hd
      · rw [hd]; exact ⟨h.1, by show y < 192; omega, rfl⟩
      · rw [(List.mem_replicate.mp hd).2]; exact ⟨h.1, h.2.1, h.2.2⟩
    simp only [sampleTaps, List.mem_cons, List.not_mem_nil, or_false] at ht
    rcases ht with rfl | rfl | rfl | rfl | rfl | rfl <;> exact this _ _ _ (by decide) (by decide)
  · decide +kernel

/-- A history of icons (most recent first): place 0 has icon 5 although it was cleared before, place 1 nothing. -/
example : (∀ c ∈ [IconCmd.set 0 5, .clearAll, .set 1 7, .clear 0], IconCmd.Ok c) ∧
    shown 0 [IconCmd.set 0 5, .clearAll, .set 1 7, .clear 0] none = some 5 ∧ shown 1 [IconCmd.set 0 5, .clearAll, .set 1 7, .clear 0] none = none := by
  refine ⟨?_, by decide, by decide⟩
  intro c hc
  simp only [List.mem_cons, List.not_mem_nil, or_false] at hc
  rcases hc with rfl | rfl | rfl | rfl <;> simp [IconCmd.Ok]

/-- The violation of C95 has instances: from ESC (dot 8,50) to the space above it. -/
example : areaAt (8, 50) = some .esc ∧ areaAt (8, 40) = none := by decide

end Sbc.Panel
