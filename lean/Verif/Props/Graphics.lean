import Verif.Proof.Graphics
set_option autoImplicit false
/-!
# C29, C30: graphics pages, drawing, XOR mode
-/
namespace Sbc.Graphics
open Sbc Sbc.Graphics.Spec

/-- **C29.** The 256×192 dots of a page and its 49152 bytes correspond one to one. -/
theorem C29_index :
    (∀ x y, OnScreen x y → grpIndex x y < 49152) ∧
    (∀ x y x' y', OnScreen x y → OnScreen x' y' → grpIndex x y = grpIndex x' y' → x = x' ∧ y = y') ∧
    (∀ i, i < 49152 → ∃ x y, OnScreen x y ∧ grpIndex x y = i) :=
  ⟨fun _ _ h => grpIndex_lt h, fun _ _ _ _ h h' he => grpIndex_inj h h' he, fun _ h => grpIndex_surj h⟩

/-- **C29.** `GSPOIT` shows the dot of the draw page or of the page asked for, and -1 off the screen.  Its
result is the colour as a 20.12 number. -/
theorem C29_gspoit (g : Gfx) (x y : Int) :
    (∀ p, p < 4 → funcGspoit g (some (p * 4096 : Nat)) x y =
      if OnScreen (x / 4096) (y / 4096) then .ok (intToFp (g.dot p (x / 4096) (y / 4096))) else .ok (-4096)) ∧
    (funcGspoit g none x y =
      if OnScreen (x / 4096) (y / 4096) then .ok (intToFp (g.dot g.page (x / 4096) (y / 4096))) else .ok (-4096)) := by
  have key : ∀ p, (if x / 4096 ≥ gw ∨ x / 4096 < 0 ∨ y / 4096 < 0 ∨ y / 4096 ≥ gh then Out.ok (-4096 : Int)
      else .ok (intToFp (g.grp p (grpIndex (x / 4096) (y / 4096))))) =
      if OnScreen (x / 4096) (y / 4096) then .ok (intToFp (g.dot p (x / 4096) (y / 4096))) else .ok (-4096) := by
    intro p
    unfold gw gh Gfx.dot
    by_cases h : x / 4096 ≥ 256 ∨ x / 4096 < 0 ∨ y / 4096 < 0 ∨ y / 4096 ≥ 192
    · have hs : ¬ OnScreen (x / 4096) (y / 4096) := by unfold OnScreen; omega
      rw [if_pos h, if_neg hs]
    · have hs : OnScreen (x / 4096) (y / 4096) := by unfold OnScreen; omega
      rw [if_neg h, if_pos hs]
  constructor
  · intro p hp
    unfold funcGspoit fpToInt
    simp only []
    have hq : ((p * 4096 : Nat) : Int) / 4096 = p := by omega
    rw [hq, if_neg (by omega)]
    exact key p
  · exact key g.page

/-- **C29.** `GPSET` with an accepted colour changes exactly the dot addressed on the page drawn to; off the
screen it changes nothing.  With `C29_gspoit`, `GSPOIT` afterwards shows the colour (normal mode). -/
theorem C29_gpset (g : Gfx) (x y : Int) (a : Option Int) (c : Nat) (hc : ColorArg g a c) :
    ∃ g', cmdGpset g x y a = .ok (g', none) ∧
      Draws g g' (fun u v old => if u = x / 4096 ∧ v = y / 4096 then put g.drawmode c old else old) ∧
      (¬ OnScreen (x / 4096) (y / 4096) → g' = g) := by
  unfold cmdGpset fpToInt gw gh OnScreen
  simp only []
  by_cases h1 : x / 4096 < 0 ∨ x / 4096 > 256 - 1
  · rw [if_pos h1]
    refine ⟨g, rfl, ⟨?_, fun _ _ => rfl, fun _ _ => rfl, rfl⟩, fun _ => rfl⟩
    intro u v huv; unfold OnScreen at huv
    rw [if_neg (by omega)]
  rw [if_neg h1]
  by_cases h2 : y / 4096 < 0 ∨ y / 4096 > 192 - 1
  · rw [if_pos h2]
    refine ⟨g, rfl, ⟨?_, fun _ _ => rfl, fun _ _ => rfl, rfl⟩, fun _ => rfl⟩
    intro u v huv; unfold OnScreen at huv
    rw [if_neg (by omega)]
  rw [if_neg h2, withColor_ok hc]
  refine ⟨_, rfl, setPage_draws g _ _ ?_ ?_, fun h => absurd (by omega) h⟩
  · intro u v huv
    rw [grpPixel_dot _ _ _ _ _ huv]
    by_cases he : x / 4096 = u ∧ y / 4096 = v
    · rw [if_pos he, if_pos ⟨he.1.symm, he.2.symm⟩]
    · rw [if_neg he, if_neg (fun hh => he ⟨hh.1.symm, hh.2.symm⟩)]
  · intro i hi; exact grpPixel_beyond _ _ _ _ _ hi

/-- **C29.** A colour outside 0..255 is reported and nothing changes. -/
theorem C29_color_checked (g : Gfx) (x y x2 y2 : Int) (a : Option Int) (ha : ∀ c, ¬ ColorArg g a c) :
    (cmdGpset g x y a = .ok (g, none) ∨ cmdGpset g x y a = .ok (g, some .outOfRange)) ∧
    (OnScreen (x / 4096) (y / 4096) → cmdGpset g x y a = .ok (g, some .outOfRange)) ∧
    cmdGfill g x y x2 y2 a = .ok (g, some .outOfRange) ∧ cmdGbox g x y x2 y2 a = .ok (g, some .outOfRange) ∧
    cmdGline g x y x2 y2 a = .ok (g, some .outOfRange) ∧ cmdGcls g a = .ok (g, some .outOfRange) := by
  unfold cmdGpset cmdGfill cmdGbox cmdGline cmdGcls
  simp only [withColor_bad ha, and_true]
  constructor
  · split
    · exact .inl rfl
    · split
      · exact .inl rfl
      · exact .inr rfl
  · unfold OnScreen gw gh fpToInt
    intro h
    rw [if_neg (by omega), if_neg (by omega)]

/-- **C29.** `GCLS` sets every dot of the page drawn to, whatever the drawing mode. -/
theorem C29_gcls (g : Gfx) (a : Option Int) (c : Nat) (hc : ColorArg g a c) :
    ∃ g', cmdGcls g a = .ok (g', none) ∧ Draws g g' (fun _ _ _ => c) := by
  unfold cmdGcls
  rw [withColor_ok hc]
  have key : ∀ (n : Nat) (pg : Page) (i : Nat), ((List.range n).foldl (fun pg i => upd pg i c) pg) i = if i < n then c else pg i := by
    intro n
    induction n with
    | zero => intro pg i; simp
    | succ n ih =>
      intro pg i
      rw [List.range_succ, List.foldl_append]
      simp only [List.foldl_cons, List.foldl_nil]
      by_cases he : i = n
      · subst he; rw [upd_same, if_pos (by omega)]
      · rw [upd_other _ _ he, ih]
        by_cases hl : i < n
        · rw [if_pos hl, if_pos (by omega)]
        · rw [if_neg hl, if_neg (by omega)]
  refine ⟨_, rfl, setPage_draws g _ _ ?_ ?_⟩
  · intro u v huv
    rw [key, if_pos]
    exact grpIndex_lt huv
  · intro i hi
    rw [key, if_neg]
    unfold grpSize; omega

theorem count_fill (x1 y1 x2 y2 x y : Int) :
    (fillPixels x1 y1 x2 y2).count (x, y) = if x1 ≤ x ∧ x ≤ x2 ∧ y1 ≤ y ∧ y ≤ y2 then 1 else 0 := by
  unfold fillPixels
  have hrow : ∀ u, ((upTo y1 y2).map fun v => (u, v)).count (x, y) = if u = x then (upTo y1 y2).count y else 0 := by
    intro u
    induction (upTo y1 y2) with
    | nil => simp
    | cons v l ih =>
      rw [List.map_cons, List.count_cons, ih, List.count_cons]
      by_cases h : u = x
      · subst h; simp
      · simp [h]
  rw [List.count_flatMap]
  have : (List.map (List.count (x, y) ∘ fun u => List.map (fun v => (u, v)) (upTo y1 y2)) (upTo x1 x2)).sum
      = (upTo x1 x2).count x * (upTo y1 y2).count y := by
    induction (upTo x1 x2) with
    | nil => simp
    | cons u l ih =>
      rw [List.map_cons, List.sum_cons, ih, List.count_cons]
      simp only [Function.comp]
      rw [hrow]
      by_cases h : u = x
      · subst h; simp [Nat.add_mul, Nat.add_comm]
      · simp [h]
  rw [this, count_upTo, count_upTo]
  by_cases h1 : x1 ≤ x ∧ x ≤ x2 <;> by_cases h2 : y1 ≤ y ∧ y ≤ y2
  · rw [if_pos h1, if_pos h2, if_pos (by omega)]
  · rw [if_pos h1, if_neg h2, if_neg (by omega)]
  · rw [if_neg h1, if_pos h2, if_neg (by omega)]
  · rw [if_neg h1, if_neg h2, if_neg (by omega)]

/-- **C29 (partial).** `GFILL x1,y1,x2,y2`: when the second corner is not left of or above the screen, exactly
the dots of the screen inside the rectangle are drawn, each once.  Missing: the other rectangles, refuted
below. -/
theorem C29_fill_partial (g : Gfx) (x1 y1 x2 y2 : Int) (a : Option Int) (c : Nat) (hc : ColorArg g a c)
    (hx : 0 ≤ x2) (hy : 0 ≤ y2) :
    ∃ g', cmdGfill g x1 y1 x2 y2 a = .ok (g', none) ∧
      Draws g g' (fun u v old => if x1 / 4096 ≤ u ∧ u ≤ x2 / 4096 ∧ y1 / 4096 ≤ v ∧ v ≤ y2 / 4096 then put g.drawmode c old else old) := by
  unfold cmdGfill
  rw [withColor_ok hc]
  refine ⟨_, rfl, ?_⟩
  have h := drawAll_draws g (fillPixels (clampTo gw (fpToInt x1)) (clampTo gh (fpToInt y1)) (clampTo gw (fpToInt x2)) (clampTo gh (fpToInt y2))) c
  refine ⟨?_, h.beyond, h.pages, h.settings⟩
  intro u v huv
  rw [h.dots u v huv, count_fill]
  have hiff : (clampTo gw (fpToInt x1) ≤ u ∧ u ≤ clampTo gw (fpToInt x2) ∧ clampTo gh (fpToInt y1) ≤ v ∧ v ≤ clampTo gh (fpToInt y2)) ↔
      (x1 / 4096 ≤ u ∧ u ≤ x2 / 4096 ∧ y1 / 4096 ≤ v ∧ v ≤ y2 / 4096) := by
    unfold OnScreen at huv
    unfold clampTo gw gh fpToInt
    repeat' split
    all_goals omega
  simp only [hiff]
  by_cases hin : x1 / 4096 ≤ u ∧ u ≤ x2 / 4096 ∧ y1 / 4096 ≤ v ∧ v ≤ y2 / 4096
  · rw [if_pos hin, if_pos hin]; rfl
  · rw [if_neg hin, if_neg hin]; rfl

/-- **C29 (refuted case).** `GFILL -5,0,-3,0,1` and `GBOX -5,-5,20,20,1` draw on the left edge of the screen
although the rectangle (the left side of the box) lies outside it. -/
theorem C29_offscreen_violated :
    (∃ g', cmdGfill init (-5 * 4096) 0 (-3 * 4096) 0 (some 4096) = .ok (g', none) ∧ g'.dot 0 0 0 = 1 ∧ init.dot 0 0 0 = 0) ∧
    (∃ g', cmdGbox init (-5 * 4096) (-5 * 4096) (20 * 4096) (20 * 4096) (some 4096) = .ok (g', none) ∧ g'.dot 0 0 10 = 1 ∧
      init.dot 0 0 10 = 0) := by
  refine ⟨⟨_, rfl, ?_⟩, ⟨_, rfl, ?_⟩⟩ <;> decide +kernel

theorem count_map_fst (l : List Int) (k x y : Int) : (l.map fun u => (u, k)).count (x, y) = if y = k then l.count x else 0 := by
  induction l with
  | nil => simp
  | cons u l ih =>
    rw [List.map_cons, List.count_cons, ih, List.count_cons]
    by_cases h : y = k
    · subst h; simp
    · have : ¬ k = y := fun h' => h h'.symm
      simp [h, this]

theorem count_map_snd (l : List Int) (k x y : Int) : (l.map fun v => (k, v)).count (x, y) = if x = k then l.count y else 0 := by
  induction l with
  | nil => simp
  | cons u l ih =>
    rw [List.map_cons, List.count_cons, ih, List.count_cons]
    by_cases h : x = k
    · subst h; simp
    · have : ¬ k = x := fun h' => h h'.symm
      simp [h, this]

/-- How many sides of the box `x1,y1`–`x2,y2` contain the dot `x,y`. -/
def sides (x1 y1 x2 y2 x y : Int) : Nat :=
  (if x1 ≤ x ∧ x ≤ x2 ∧ y = y1 then 1 else 0) + (if y1 ≤ y ∧ y ≤ y2 ∧ x = x1 then 1 else 0) +
  (if x1 ≤ x ∧ x ≤ x2 ∧ y = y2 then 1 else 0) + (if y1 ≤ y ∧ y ≤ y2 ∧ x = x2 then 1 else 0)

theorem count_box (x1 y1 x2 y2 x y : Int) : (boxPixels x1 y1 x2 y2).count (x, y) = sides x1 y1 x2 y2 x y := by
  unfold boxPixels sides
  simp only [List.count_append, count_map_fst, count_map_snd, count_upTo]
  have e1 : ∀ (P Q : Prop) [Decidable P] [Decidable Q], (if P then if Q then (1 : Nat) else 0 else 0) = if Q ∧ P then 1 else 0 := by
    intro P Q _ _; by_cases P <;> by_cases Q <;> simp_all
  simp only [e1, and_assoc]

/-- **C29 (partial).** `GBOX` with corners not left of or above the screen draws exactly the dots of the screen
on the four sides, once per side they lie on (so in normal mode the sides, in XOR mode the sides without
the corners for a proper box).  Missing: other boxes, refuted above. -/
theorem C29_box_partial (g : Gfx) (x1 y1 x2 y2 : Int) (a : Option Int) (c : Nat) (hc : ColorArg g a c)
    (hx1 : 0 ≤ x1) (hy1 : 0 ≤ y1) (hx : 0 ≤ x2) (hy : 0 ≤ y2) :
    ∃ g', cmdGbox g x1 y1 x2 y2 a = .ok (g', none) ∧
      Draws g g' (fun u v old => putN g.drawmode c (sides (x1 / 4096) (y1 / 4096) (x2 / 4096) (y2 / 4096) u v) old) := by
  unfold cmdGbox
  rw [withColor_ok hc]
  refine ⟨_, rfl, ?_⟩
  have h := drawAll_draws g (boxPixels (clampTo gw (fpToInt x1)) (clampTo gh (fpToInt y1)) (clampTo gw (fpToInt x2)) (clampTo gh (fpToInt y2))) c
  refine ⟨?_, h.beyond, h.pages, h.settings⟩
  intro u v huv
  rw [h.dots u v huv, count_box]
  unfold OnScreen at huv
  have cx : ∀ w : Int, 0 ≤ w → (clampTo gw (fpToInt w) ≤ u ↔ w / 4096 ≤ u) ∧ (u ≤ clampTo gw (fpToInt w) ↔ u ≤ w / 4096) ∧ (u = clampTo gw (fpToInt w) ↔ u = w / 4096) := by
    intro w hw; unfold clampTo gw fpToInt; repeat' split
    all_goals omega
  have cy : ∀ w : Int, 0 ≤ w → (clampTo gh (fpToInt w) ≤ v ↔ w / 4096 ≤ v) ∧ (v ≤ clampTo gh (fpToInt w) ↔ v ≤ w / 4096) ∧ (v = clampTo gh (fpToInt w) ↔ v = w / 4096) := by
    intro w hw; unfold clampTo gh fpToInt; repeat' split
    all_goals omega
  refine congrArg (fun n => putN g.drawmode c n _) ?_
  unfold sides
  simp only [cx x1 hx1, cx x2 hx, cy y1 hy1, cy y2 hy]

/-! ## XOR mode -/

theorem drawAll_twice (ps : List (Int × Int)) (c : Nat) (page : Page) : drawAll (drawAll page ps c true) ps c true = page := by
  funext i
  by_cases h : 49152 ≤ i
  · rw [drawAll_beyond _ _ _ h, drawAll_beyond _ _ _ h]
  · obtain ⟨x, y, hs, rfl⟩ := grpIndex_surj (i := i) (by omega)
    rw [drawAll_dot _ _ _ hs, drawAll_dot _ _ _ hs, put_true_iter, put_true_iter]
    split
    · rfl
    · rw [Nat.xor_assoc, Nat.xor_self, Nat.xor_zero]

/-- Dots of several colours in order (`GPUTCHR`). -/
def drawColored (page : Page) (ps : List (Int × Int × Nat)) (mode : Bool) : Page :=
  ps.foldl (fun pg p => grpPixel pg p.1 p.2.1 p.2.2 mode) page

theorem drawColored_xor (ps : List (Int × Int × Nat)) {x y : Int} (h : OnScreen x y) : ∀ (page : Page),
    drawColored page ps true (grpIndex x y) =
      ps.foldl (fun o p => if p.1 = x ∧ p.2.1 = y then o ^^^ p.2.2 else o) (page (grpIndex x y)) := by
  induction ps with
  | nil => intro page; rfl
  | cons p ps ih =>
    intro page
    show drawColored (grpPixel page p.1 p.2.1 p.2.2 true) ps true (grpIndex x y) = _
    rw [ih, grpPixel_dot _ _ _ _ _ h]; rfl

theorem fold_xor (ps : List (Int × Int × Nat)) (x y : Int) : ∀ o : Nat,
    ps.foldl (fun o p => if p.1 = x ∧ p.2.1 = y then o ^^^ p.2.2 else o) o =
      o ^^^ ps.foldl (fun o p => if p.1 = x ∧ p.2.1 = y then o ^^^ p.2.2 else o) 0 := by
  induction ps with
  | nil => intro o; simp
  | cons p ps ih =>
    intro o
    simp only [List.foldl_cons]
    rw [ih, ih (if p.1 = x ∧ p.2.1 = y then 0 ^^^ p.2.2 else 0)]
    split
    · rw [Nat.zero_xor, Nat.xor_assoc]
    · rw [Nat.zero_xor]

/-- **C30.** For every page and every list of coloured dots — in particular those of `GLINE`, `GCIRCLE`,
`GPUTCHR`, whatever their arithmetic — drawing the list twice in XOR mode restores every byte. -/
theorem C30_dots (ps : List (Int × Int × Nat)) (page : Page) : drawColored (drawColored page ps true) ps true = page := by
  funext i
  by_cases h : 49152 ≤ i
  · have hb : ∀ page : Page, drawColored page ps true i = page i := by
      induction ps with
      | nil => intro page; rfl
      | cons p ps ih =>
        intro page
        show drawColored (grpPixel page p.1 p.2.1 p.2.2 true) ps true i = _
        rw [ih, grpPixel_beyond _ _ _ _ _ h]
    rw [hb, hb]
  · obtain ⟨x, y, hs, rfl⟩ := grpIndex_surj (i := i) (by omega)
    rw [drawColored_xor _ hs, drawColored_xor _ hs, fold_xor, fold_xor ps x y (page _), Nat.xor_assoc, Nat.xor_self, Nat.xor_zero]

/-- A drawing statement. -/
inductive Draw where
  | pset (x y : Int) (c : Option Int)
  | fill (x1 y1 x2 y2 : Int) (c : Option Int)
  | box (x1 y1 x2 y2 : Int) (c : Option Int)
  | line (x1 y1 x2 y2 : Int) (c : Option Int)

/-- Execution of a drawing statement. -/
def Draw.run (g : Gfx) : Draw → Res
  | .pset x y c => cmdGpset g x y c
  | .fill x1 y1 x2 y2 c => cmdGfill g x1 y1 x2 y2 c
  | .box x1 y1 x2 y2 c => cmdGbox g x1 y1 x2 y2 c
  | .line x1 y1 x2 y2 c => cmdGline g x1 y1 x2 y2 c

theorem setPage_twice (g : Gfx) (p : Page) (h : p = g.grp g.page) : g.setPage p = g := by
  subst h
  obtain ⟨a, b, c, d, e, f, gr⟩ := g
  unfold Gfx.setPage Gfx.page
  simp only [Gfx.mk.injEq, true_and]
  funext i
  by_cases hi : i = d a
  · subst hi; rw [upd_same]
  · rw [upd_other _ _ hi]

theorem twice_core (g : Gfx) (hx : g.drawmode = true) (ps : List (Int × Int)) (c : Nat) :
    (g.setPage (drawAll (g.grp g.page) ps c g.drawmode)).setPage
      (drawAll ((g.setPage (drawAll (g.grp g.page) ps c g.drawmode)).grp (g.setPage (drawAll (g.grp g.page) ps c g.drawmode)).page) ps c
        (g.setPage (drawAll (g.grp g.page) ps c g.drawmode)).drawmode) = g := by
  have e1 : (g.setPage (drawAll (g.grp g.page) ps c g.drawmode)).page = g.page := rfl
  have e2 : (g.setPage (drawAll (g.grp g.page) ps c g.drawmode)).drawmode = g.drawmode := rfl
  have e3 : (g.setPage (drawAll (g.grp g.page) ps c g.drawmode)).grp g.page = drawAll (g.grp g.page) ps c g.drawmode := by
    unfold Gfx.setPage; simp only [upd_same]
  rw [e1, e2, e3, hx, drawAll_twice]
  obtain ⟨a, b, cc, d, e, f, gr⟩ := g
  unfold Gfx.setPage Gfx.page
  simp only [Gfx.mk.injEq, true_and]
  funext i
  by_cases hi : i = d a
  · subst hi; rw [upd_same]
  · rw [upd_other _ _ hi, upd_other _ _ hi]

theorem withColor_congr (g g' : Gfx) (h : g'.color = g.color) (a : Option Int) (f : Nat → Res) (c : Nat) (hc : ColorArg g a c) :
    withColor g' a f = f c := by
  apply withColor_ok
  unfold ColorArg at *
  cases a with
  | none => simp only [] at hc ⊢; rw [hc, h]
  | some v => exact hc

/-- **C30.** In XOR mode, every drawing statement that succeeds, executed a second time, succeeds and restores
the state before the first, byte for byte. -/
theorem C30_involution (g g' : Gfx) (hx : g.drawmode = true) (d : Draw) (h : d.run g = .ok (g', none)) :
    d.run g' = .ok (g, none) := by
  have hcol : ∀ a f, withColor g a f = .ok (g', none) → ∃ c, ColorArg g a c ∧ f c = .ok (g', none) := by
    intro a f hw
    by_cases hc : ∃ c, ColorArg g a c
    · obtain ⟨c, hc⟩ := hc
      rw [withColor_ok hc] at hw
      exact ⟨c, hc, hw⟩
    · rw [withColor_bad (fun c hh => hc ⟨c, hh⟩)] at hw
      simp at hw
  cases d with
  | pset x y a =>
    simp only [Draw.run, cmdGpset] at h ⊢
    split at h
    · rename_i h1; rw [if_pos h1]; injection h with h; injection h with h h'; rw [h]; rfl
    · rename_i h1
      rw [if_neg h1]
      split at h
      · rename_i h2; rw [if_pos h2]; injection h with h; injection h with h h'; rw [h]; rfl
      · rename_i h2
        rw [if_neg h2]
        obtain ⟨c, hc, hf⟩ := hcol _ _ h
        injection hf with hf; injection hf with hf _
        subst hf
        refine Eq.trans (withColor_congr g (g.setPage _) rfl _ _ c hc) ?_
        have := twice_core g hx [(fpToInt x, fpToInt y)] c
        exact congrArg (fun z => Out.ok (z, none)) this
  | fill x1 y1 x2 y2 a =>
    simp only [Draw.run, cmdGfill] at h ⊢
    obtain ⟨c, hc, hf⟩ := hcol _ _ h
    injection hf with hf; injection hf with hf _
    subst hf
    refine Eq.trans (withColor_congr g (g.setPage _) rfl _ _ c hc) ?_
    exact congrArg (fun z => Out.ok (z, none)) (twice_core g hx _ c)
  | box x1 y1 x2 y2 a =>
    simp only [Draw.run, cmdGbox] at h ⊢
    obtain ⟨c, hc, hf⟩ := hcol _ _ h
    injection hf with hf; injection hf with hf _
    subst hf
    refine Eq.trans (withColor_congr g (g.setPage _) rfl _ _ c hc) ?_
    exact congrArg (fun z => Out.ok (z, none)) (twice_core g hx _ c)
  | line x1 y1 x2 y2 a =>
    simp only [Draw.run, cmdGline] at h ⊢
    obtain ⟨c, hc, hf⟩ := hcol _ _ h
    cases hl : linePixels (fpToInt x1) (fpToInt y1) (fpToInt x2) (fpToInt y2) with
    | ok ps =>
      rw [hl] at hf
      simp only [Out.bind] at hf
      injection hf with hf; injection hf with hf _
      subst hf
      refine Eq.trans (withColor_congr g (g.setPage _) rfl _ _ c hc) ?_
      exact congrArg (fun z => Out.ok (z, none)) (twice_core g hx _ c)
    | err e => rw [hl] at hf; simp [Out.bind] at hf
    | ub => rw [hl] at hf; simp [Out.bind] at hf

/-- XOR drawing really changes the page: `GLINE 0,0,3,2,5` in XOR mode. -/
example : ∃ g', (Draw.line 0 0 (3 * 4096) (2 * 4096) (some (5 * 4096))).run { init with drawmode := true } = .ok (g', none) ∧
    g'.dot 0 0 0 = 5 ∧ g'.dot 0 1 1 = 5 ∧ g'.dot 0 2 1 = 5 ∧ g'.dot 0 3 2 = 5 ∧ g'.dot 0 1 0 = 0 := by
  refine ⟨_, rfl, ?_⟩; decide +kernel

/-- `GPSET 3,4,7` on the cleared page, then `GSPOIT(3,4)`. -/
example : ∃ g', cmdGpset init (3 * 4096) (4 * 4096 + 17) (some (7 * 4096)) = .ok (g', none) ∧
    funcGspoit g' none (3 * 4096) (4 * 4096) = .ok (7 * 4096) ∧ funcGspoit g' none (4 * 4096) (4 * 4096) = .ok 0 := by
  refine ⟨_, rfl, ?_⟩; decide +kernel

/-- Whether a page setting of `GPAGE` was made: the pages of the given screen. -/
def PageArg (a : Int) (n : Nat) (max : Int) : Prop := a / 4096 = n ∧ a / 4096 ≤ max

/-- **C29.** `GPAGE s` selects the screen; `GPAGE s,d,w` also selects its draw page and its display page; the settings
of the other screen and the contents of all pages stay as they are. -/
theorem C29_gpage (g : Gfx) (sa da wa : Int) (s d w : Nat) (hs : PageArg sa s 1) (hd : PageArg da d 3) (hw : PageArg wa w 3) :
    (∃ g', cmdGpage g sa none = .ok (g', none) ∧ g' = { g with screen := s }) ∧
    (∃ g', cmdGpage g sa (some (da, wa)) = .ok (g', none) ∧ g'.screen = s ∧ g'.page = d ∧ g'.displaypage s = w ∧
      (∀ t, t ≠ s → g'.drawpage t = g.drawpage t ∧ g'.displaypage t = g.displaypage t) ∧
      g'.grp = g.grp ∧ g'.prio = g.prio ∧ g'.color = g.color ∧ g'.drawmode = g.drawmode) := by
  obtain ⟨s1, s2⟩ := hs
  obtain ⟨d1, d2⟩ := hd
  obtain ⟨w1, w2⟩ := hw
  unfold cmdGpage fpToInt fin
  dsimp only
  rw [if_neg (by omega), if_neg (by omega), if_neg (by omega), if_neg (by omega), s1, d1, w1]
  simp only [Int.toNat_natCast]
  refine ⟨⟨_, rfl, rfl⟩, _, rfl, rfl, ?_, ?_, ?_, rfl, rfl, rfl, rfl⟩
  · show upd g.drawpage s d s = d
    rw [upd_same]
  · show upd g.displaypage s w s = w
    rw [upd_same]
  · intro t ht
    exact ⟨upd_other _ _ ht, upd_other _ _ ht⟩

/-- **C29.** `GPAGE` with a screen other than 0, 1 is an error that changes nothing. -/
theorem C29_gpage_checked (g : Gfx) (sa : Int) (pages : Option (Int × Int)) (h : ¬ ∃ s, PageArg sa s 1) :
    cmdGpage g sa pages = .ok (g, some .outOfRange) := by
  unfold cmdGpage fpToInt fail
  dsimp only
  rw [if_pos]
  by_cases h0 : sa / 4096 < 0
  · exact Or.inl h0
  · refine Or.inr ?_
    by_cases h1 : sa / 4096 ≤ 1
    · exact absurd ⟨(sa / 4096).toNat, by unfold PageArg; omega⟩ h
    · omega

/-- `GPAGE` with a wrong page number is an error, but the screen (and, for the third argument, the draw page) is already
changed. -/
theorem C29_gpage_violated : ∃ g, cmdGpage init 4096 (some (2 * 4096, 4 * 4096)) = .ok (g, some .outOfRange) ∧
    g.screen = 1 ∧ g.drawpage 1 = 2 := by
  refine ⟨_, rfl, rfl, rfl⟩

example : PageArg 4096 1 1 ∧ PageArg (3 * 4096) 3 3 := by unfold PageArg; decide

end Sbc.Graphics
