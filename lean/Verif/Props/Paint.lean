import Verif.Proof.PaintFill
set_option autoImplicit false
/-!
# C54: GPAINT fills the region
-/
namespace Sbc.Graphics
open Sbc Sbc.Graphics.Spec

open Classical in
theorem Painted.draws {c : Nat} {g : Gfx} {d' : Page} {S : Int → Int → Prop} (h : Painted c (g.grp g.page) d' S) :
    Draws g (g.setPage d') (fun x y old => if S x y then c else old) := by
  refine setPage_draws g d' _ ?_ h.beyond
  intro x y ho
  by_cases hs : S x y
  · simp only [if_pos hs]; exact h.on x y ho hs
  · simp only [if_neg hs]; exact h.off x y ho hs

open Classical in
/-- The match value stands for the fillable colours. -/
theorem paint_go {mt : Int} {c fuel : Nat} (hc : mcol mt c = false) (g : Gfx) (x y : Int) (ho : OnScreen x y) (b : Option Int)
    (hfill : ∀ v, mcol mt v = true ↔ Fillable b (g.dot g.page x y) v) (hs : Fillable b (g.dot g.page x y) (g.dot g.page x y))
    (hfuel : 257 * 49152 + 2 ≤ fuel) :
    ∃ g' e, ((paintFrom mt c fuel (g.grp g.page) x y).map fun r => (Out.ok (g.setPage r.1, r.2) : Res)) = some (.ok (g', e)) ∧
      (e = none → Draws g g' (fun u v old =>
        if Region (fun p => Fillable b (g.dot g.page x y) (g.dot g.page p.1 p.2)) (x, y) (u, v) then c else old)) ∧
      (e ≠ none → e = some .paintOverflow ∧ ∃ Q : Int → Int → Prop,
        (∀ u v, Q u v → Region (fun p => Fillable b (g.dot g.page x y) (g.dot g.page p.1 p.2)) (x, y) (u, v)) ∧
        Draws g g' (fun u v old => if Q u v then c else old)) := by
  have hfree : free mt (g.grp g.page) = fun p => Fillable b (g.dot g.page x y) (g.dot g.page p.1 p.2) := by
    funext p
    exact propext (hfill _)
  have hinv := Inv.init (mt := mt) (c := c) (g.grp g.page) x y ho ((hfill _).2 hs)
  obtain ⟨h1, h2⟩ := paintLoop_spec hc (g.grp g.page) (x, y) fuel _ _ _ hinv (by simp)
  have hne := h1 (by
    have := insCount_bound mt (g.grp g.page)
    simp only [List.length_cons, List.length_nil]
    omega)
  unfold paintFrom
  obtain ⟨⟨d', e⟩, hr⟩ := Option.ne_none_iff_exists'.1 hne
  obtain ⟨h3, h4⟩ := h2 d' e hr
  rw [hfree] at h3 h4
  refine ⟨g.setPage d', e, by rw [hr]; rfl, fun he => (h3 he).draws, fun he => ?_⟩
  obtain ⟨h5, Q, h6, h7⟩ := h4 he
  exact ⟨h5, fun u v => Q (u, v), fun u v hq => h7 _ hq, h6.draws⟩

open Classical in
/-- C54: GPAINT from a dot of the screen that may be painted over, in a colour that may not, ends; when it ends
without an error the dots of the region around the start have the colour and nothing else has changed; the only
possible error is PAINT STACK OVERFLOW, and then only dots of the region have been painted.  (Missing from the
full claim: that the region is always filled – see the violations.) -/
theorem C54_paint_partial (fuel : Nat) (g : Gfx) (x y : Int) (c b : Option Int) (col : Nat) (hcol : ColorArg g c col)
    (ho : OnScreen (x / 4096) (y / 4096)) (hb : ∀ v, b = some v → 0 ≤ v / 4096 ∧ v / 4096 ≤ 255)
    (hs : Fillable b (g.dot g.page (x / 4096) (y / 4096)) (g.dot g.page (x / 4096) (y / 4096)))
    (hc : ¬ Fillable b (g.dot g.page (x / 4096) (y / 4096)) col) (hfuel : 257 * 49152 + 2 ≤ fuel) :
    ∃ g' e, cmdGpaint fuel g x y c b = some (.ok (g', e)) ∧
      (e = none → Draws g g' (fun u v old =>
        if Region (fun p => Fillable b (g.dot g.page (x / 4096) (y / 4096)) (g.dot g.page p.1 p.2)) (x / 4096, y / 4096) (u, v) then col else old)) ∧
      (e ≠ none → e = some .paintOverflow ∧ ∃ Q : Int → Int → Prop,
        (∀ u v, Q u v → Region (fun p => Fillable b (g.dot g.page (x / 4096) (y / 4096)) (g.dot g.page p.1 p.2)) (x / 4096, y / 4096) (u, v)) ∧
        Draws g g' (fun u v old => if Q u v then col else old)) := by
  have hidx : grpIndex (x / 4096) (y / 4096) < grpSize := grpIndex_lt ho
  have hgo : ∃ mt, mcol mt col = false ∧ (∀ v, mcol mt v = true ↔ Fillable b (g.dot g.page (x / 4096) (y / 4096)) v) ∧
      cmdGpaint fuel g x y c b = (paintFrom mt col fuel (g.grp g.page) (x / 4096) (y / 4096)).map fun r => (Out.ok (g.setPage r.1, r.2) : Res) := by
    have hmt : ∃ mt, (∀ v, mcol mt v = true ↔ Fillable b (g.dot g.page (x / 4096) (y / 4096)) v) ∧
        ∀ col' : Nat, (match (generalizing := false) b with
          | some b =>
            let b := fpToInt b
            if b < 0 ∨ b > 255 then some (fail g .outOfRange) else
              (paintFrom (-1 - b) col' fuel (g.grp g.page) (fpToInt x) (fpToInt y)).map fun r => (Out.ok (g.setPage r.1, r.2) : Res)
          | none => if grpIndex (fpToInt x) (fpToInt y) < grpSize then
              (paintFrom (g.grp g.page (grpIndex (fpToInt x) (fpToInt y))) col' fuel (g.grp g.page) (fpToInt x) (fpToInt y)).map fun r => (Out.ok (g.setPage r.1, r.2) : Res)
              else some .ub) =
          (paintFrom mt col' fuel (g.grp g.page) (x / 4096) (y / 4096)).map fun r => (Out.ok (g.setPage r.1, r.2) : Res) := by
      cases b with
      | none =>
        refine ⟨(g.dot g.page (x / 4096) (y / 4096) : Nat), ?_, ?_⟩
        · intro v
          unfold mcol Fillable
          rw [if_pos (by omega), decide_eq_true_iff]
          omega
        · intro col'
          exact if_pos hidx
      | some bb =>
        obtain ⟨hb1, hb2⟩ := hb bb rfl
        refine ⟨-1 - bb / 4096, ?_, ?_⟩
        · intro v
          unfold mcol Fillable
          rw [if_neg (by omega), decide_eq_true_iff]
          simp only []
          omega
        · intro col'
          have : ¬ (fpToInt bb < 0 ∨ fpToInt bb > 255) := by unfold fpToInt; omega
          exact if_neg this
    obtain ⟨mt, h1, h2⟩ := hmt
    refine ⟨mt, ?_, h1, ?_⟩
    · by_contra h
      exact hc ((h1 col).1 (by simpa using h))
    · rw [← h2 col]
      cases c with
      | none => unfold ColorArg at hcol; simp only [] at hcol; rw [hcol]; cases b <;> rfl
      | some cc =>
        obtain ⟨k1, k2, k3⟩ := hcol
        have hn : ¬ (fpToInt cc < 0 ∨ fpToInt cc > 255) := by unfold fpToInt; omega
        have hcc : (fpToInt cc).toNat = col := by unfold fpToInt; omega
        unfold cmdGpaint
        simp only []
        rw [if_neg hn, hcc]
        cases b <;> rfl
  obtain ⟨mt, h1, h2, h3⟩ := hgo
  rw [h3]
  exact paint_go h1 g _ _ ho b h2 hs hfuel

/-- The case of C54_paint_partial is met: GPAINT 3,4,5 on a page of zeros. -/
example : ∃ g : Gfx, ColorArg g (some (5 * 4096)) 5 ∧ OnScreen (3 * 4096 / 4096) (4 * 4096 / 4096) ∧
    Fillable none (g.dot g.page 3 4) (g.dot g.page 3 4) ∧ ¬ Fillable none (g.dot g.page 3 4) 5 :=
  ⟨init, by unfold ColorArg; decide, by decide, rfl, by unfold Fillable; decide⟩

/-! ## Painting up to a border in another colour -/

/-- A page in colour 2 with a square of four dots of colour `v` in the upper right corner. -/
def square (v : Nat) : Page := fun i =>
  if i = grpIndex 254 0 ∨ i = grpIndex 255 0 ∨ i = grpIndex 254 1 ∨ i = grpIndex 255 1 then v else 2

theorem upd_self (d : Page) (i v : Nat) (h : d i = v) : upd d i v = d := by
  funext j
  by_cases hj : j = i
  · rw [hj, upd_same, h]
  · rw [upd_other _ _ hj]

theorem paintPush_ok {stk : List Nat} (v : Nat) (h : stk.length ≤ 255) : paintPush stk v = some (v :: stk) := by
  unfold paintPush paintMax
  rw [if_neg (by omega)]

theorem paintPush_full {stk : List Nat} (v : Nat) (h : 256 ≤ stk.length) : paintPush stk v = none := by
  unfold paintPush paintMax
  rw [if_pos (by omega)]

theorem square_fill0 (d : Page) (h1 : d (grpIndex 254 0) = 0 ∨ d (grpIndex 254 0) = 1) (h2 : d (grpIndex 255 0) = 0 ∨ d (grpIndex 255 0) = 1)
    (h3 : d (grpIndex 253 0) = 2) (stk : List Nat) (hl : stk.length ≤ 254) :
    paintEntry (-3) 1 d stk 254 254 0 (-1) = (upd (upd d (grpIndex 254 0) 1) (grpIndex 255 0) 1,
      some (pack 255 255 1 1 :: pack 254 255 (-1) (-1) :: stk)) := by
  have i1 : inside d 254 0 (-3) = true := by
    unfold inside gw gh
    rcases h1 with h | h <;> rw [h] <;> decide
  have i3 : inside d 253 0 (-3) = false := by
    unfold inside gw gh
    rw [h3]; decide
  have i2 : inside (upd d (grpIndex 254 0) 1) 255 0 (-3) = true := by
    unfold inside gw gh
    rw [upd_other _ _ (by decide)]
    rcases h2 with h | h <;> rw [h] <;> decide
  have hL : leftLoop (-3) 1 0 254 d = (d, 254) := by
    show (if inside d 253 0 (-3) then _ else _) = _
    rw [i3]; rfl
  have hR : rightLoop (-3) 1 0 2 d 254 = (upd (upd d (grpIndex 254 0) 1) (grpIndex 255 0) 1, 256) := by
    show (if inside d 254 0 (-3) then rightLoop (-3) 1 0 1 (upd d (grpIndex 254 0) 1) 255 else _) = _
    rw [i1, if_pos rfl]
    show (if inside (upd d (grpIndex 254 0) 1) 255 0 (-3) then _ else _) = _
    rw [i2, if_pos rfl]
    rfl
  unfold paintEntry
  have i1' : inside d ((254 : Nat) : Int) ((0 : Nat) : Int) (-3) = true := i1
  rw [i1', if_pos rfl, hL]
  simp only []
  rw [if_neg (by omega)]
  simp only []
  rw [show 254 + 1 - 254 = 1 from rfl, rowLoop, if_pos (by omega), show 256 - 254 = 2 from rfl, hR]
  simp only []
  rw [if_pos (by omega), paintPush_ok _ (by omega)]
  simp only []
  rw [if_pos (by omega), paintPush_ok _ (by rw [List.length_cons]; omega)]
  simp only [rowLoop]
  rfl

theorem square_fill1 (d : Page) (h1 : d (grpIndex 254 1) = 0 ∨ d (grpIndex 254 1) = 1) (h2 : d (grpIndex 255 1) = 0 ∨ d (grpIndex 255 1) = 1)
    (h3 : d (grpIndex 253 1) = 2) (stk : List Nat) (hl : stk.length ≤ 255) :
    paintEntry (-3) 1 d stk 255 255 1 1 = (upd (upd d (grpIndex 254 1) 1) (grpIndex 255 1) 1,
      if stk.length ≤ 254 then some (pack 254 255 2 1 :: pack 254 254 0 (-1) :: stk) else none) := by
  have i1 : inside d 254 1 (-3) = true := by
    unfold inside gw gh
    rcases h1 with h | h <;> rw [h] <;> decide
  have i3 : inside (upd d (grpIndex 254 1) 1) 253 1 (-3) = false := by
    unfold inside gw gh
    rw [upd_other _ _ (by decide), h3]; decide
  have i0 : inside d 255 1 (-3) = true := by
    unfold inside gw gh
    rcases h2 with h | h <;> rw [h] <;> decide
  have i2 : inside (upd d (grpIndex 254 1) 1) 255 1 (-3) = true := by
    unfold inside gw gh
    rw [upd_other _ _ (by decide)]
    rcases h2 with h | h <;> rw [h] <;> decide
  have hL : leftLoop (-3) 1 1 255 d = (upd d (grpIndex 254 1) 1, 254) := by
    show (if inside d 254 1 (-3) then leftLoop (-3) 1 1 254 (upd d (grpIndex 254 1) 1) else _) = _
    rw [i1, if_pos rfl]
    show (if inside _ 253 1 (-3) then _ else _) = _
    rw [i3]; rfl
  have hR : rightLoop (-3) 1 1 1 (upd d (grpIndex 254 1) 1) 255 = (upd (upd d (grpIndex 254 1) 1) (grpIndex 255 1) 1, 256) := by
    show (if inside (upd d (grpIndex 254 1) 1) 255 1 (-3) then _ else _) = _
    rw [i2, if_pos rfl]
    rfl
  unfold paintEntry
  have i0' : inside d ((255 : Nat) : Int) ((1 : Nat) : Int) (-3) = true := i0
  rw [i0', if_pos rfl, hL]
  simp only []
  rw [if_pos (by omega), paintPush_ok _ hl]
  simp only []
  rw [show 255 + 1 - 255 = 1 from rfl, rowLoop, if_pos (by omega), show 256 - 255 = 1 from rfl, hR]
  simp only []
  rw [if_pos (by omega)]
  by_cases h : stk.length ≤ 254
  · rw [paintPush_ok _ (by rw [List.length_cons]; omega), if_pos h]
    simp only []
    rw [if_neg (by omega)]
    simp only [rowLoop]
    rfl
  · rw [paintPush_full _ (by rw [List.length_cons]; omega), if_neg h]

theorem square_fill2 (d : Page) (h1 : d (grpIndex 254 2) = 2) (h2 : d (grpIndex 255 2) = 2) (stk : List Nat) :
    paintEntry (-3) 1 d stk 254 255 2 1 = (d, some stk) := by
  have i1 : inside d 254 2 (-3) = false := by
    unfold inside gw gh
    rw [h1]; decide
  have i2 : inside d 255 2 (-3) = false := by
    unfold inside gw gh
    rw [h2]; decide
  have hR1 : rightLoop (-3) 1 2 2 d 254 = (d, 254) := by
    show (if inside d 254 2 (-3) then _ else _) = _
    rw [i1]; rfl
  have hR2 : rightLoop (-3) 1 2 1 d 255 = (d, 255) := by
    show (if inside d 255 2 (-3) then _ else _) = _
    rw [i2]; rfl
  unfold paintEntry
  have i1' : ¬ inside d ((254 : Nat) : Int) ((2 : Nat) : Int) (-3) = true := by
    rw [show inside d ((254 : Nat) : Int) ((2 : Nat) : Int) (-3) = false from i1]; decide
  rw [if_neg i1', show 255 + 1 - 254 = 2 from rfl, rowLoop, if_pos (by omega), show 256 - 254 = 2 from rfl, hR1]
  simp only []
  rw [if_neg (by omega)]
  simp only []
  rw [if_neg (by omega)]
  simp only []
  rw [show skipLoop (-3) 2 255 (255 - (254 + 1)) d (254 + 1) = 255 from rfl, rowLoop, if_pos (by omega), show 256 - 255 = 1 from rfl, hR2]
  simp only []
  rw [if_neg (by omega)]
  simp only []
  rw [if_neg (by omega)]
  simp only [rowLoop]

theorem square_round (fuel : Nat) (stk : List Nat) (hl : stk.length ≤ 253) :
    paintLoop (-3) 1 (fuel + 3) (square 1) (pack 254 254 0 (-1) :: stk) =
      paintLoop (-3) 1 fuel (square 1) (pack 254 254 0 (-1) :: pack 254 255 (-1) (-1) :: stk) := by
  rw [paintLoop]
  show (match paintEntry (-3) 1 (square 1) stk 254 254 0 (-1) with
    | (d, none) => some (d, some Err.paintOverflow)
    | (d, some stk) => paintLoop (-3) 1 (fuel + 2) d stk) = _
  rw [square_fill0 _ (.inr (by decide)) (.inr (by decide)) (by decide) _ (by omega), upd_self _ _ _ (by decide), upd_self _ _ _ (by decide)]
  simp only []
  rw [paintLoop]
  show (match paintEntry (-3) 1 (square 1) (pack 254 255 (-1) (-1) :: stk) 255 255 1 1 with
    | (d, none) => some (d, some Err.paintOverflow)
    | (d, some stk) => paintLoop (-3) 1 (fuel + 1) d stk) = _
  rw [square_fill1 _ (.inr (by decide)) (.inr (by decide)) (by decide) _ (by rw [List.length_cons]; omega), upd_self _ _ _ (by decide), upd_self _ _ _ (by decide),
    if_pos (by rw [List.length_cons]; omega)]
  simp only []
  rw [paintLoop]
  show (match paintEntry (-3) 1 (square 1) (pack 254 254 0 (-1) :: pack 254 255 (-1) (-1) :: stk) 254 255 2 1 with
    | (d, none) => some (d, some Err.paintOverflow)
    | (d, some stk) => paintLoop (-3) 1 fuel d stk) = _
  rw [square_fill2 _ (by decide) (by decide)]

theorem square_last (fuel : Nat) (stk : List Nat) (hl : stk.length = 254) :
    paintLoop (-3) 1 (fuel + 2) (square 1) (pack 254 254 0 (-1) :: stk) = some (square 1, some .paintOverflow) := by
  rw [paintLoop]
  show (match paintEntry (-3) 1 (square 1) stk 254 254 0 (-1) with
    | (d, none) => some (d, some Err.paintOverflow)
    | (d, some stk) => paintLoop (-3) 1 (fuel + 1) d stk) = _
  rw [square_fill0 _ (.inr (by decide)) (.inr (by decide)) (by decide) _ (by omega), upd_self _ _ _ (by decide), upd_self _ _ _ (by decide)]
  simp only []
  rw [paintLoop]
  show (match paintEntry (-3) 1 (square 1) (pack 254 255 (-1) (-1) :: stk) 255 255 1 1 with
    | (d, none) => some (d, some Err.paintOverflow)
    | (d, some stk) => paintLoop (-3) 1 fuel d stk) = _
  rw [square_fill1 _ (.inr (by decide)) (.inr (by decide)) (by decide) _ (by rw [List.length_cons]; omega), upd_self _ _ _ (by decide), upd_self _ _ _ (by decide),
    if_neg (by rw [List.length_cons]; omega)]

theorem square_many : ∀ (k fuel : Nat) (stk : List Nat), stk.length + k = 254 →
    paintLoop (-3) 1 (fuel + 3 * k + 2) (square 1) (pack 254 254 0 (-1) :: stk) = some (square 1, some .paintOverflow) := by
  intro k
  induction k with
  | zero => intro fuel stk h; exact square_last fuel stk (by omega)
  | succ k ih =>
    intro fuel stk h
    rw [show fuel + 3 * (k + 1) + 2 = (fuel + 3 * k + 2) + 3 by omega, square_round _ _ (by omega)]
    exact ih fuel _ (by rw [List.length_cons]; omega)

theorem square_full : upd (upd (upd (upd (square 0) (grpIndex 254 0) 1) (grpIndex 255 0) 1) (grpIndex 254 1) 1) (grpIndex 255 1) 1 = square 1 := by
  funext i
  unfold square upd
  by_cases h1 : i = grpIndex 255 1
  · rw [if_pos h1, if_pos (by tauto)]
  · rw [if_neg h1]
    by_cases h2 : i = grpIndex 254 1
    · rw [if_pos h2, if_pos (by tauto)]
    · rw [if_neg h2]
      by_cases h3 : i = grpIndex 255 0
      · rw [if_pos h3, if_pos (by tauto)]
      · rw [if_neg h3]
        by_cases h4 : i = grpIndex 254 0
        · rw [if_pos h4, if_pos (by tauto)]
        · rw [if_neg h4]
          simp only []
          rw [if_neg (by tauto), if_neg (by tauto)]

/-- C54 fails for a border in another colour than the one painted: filling a region of four dots with colour 1 up
to a border of colour 2 always stops with PAINT STACK OVERFLOW. -/
theorem C54_border_violated (fuel : Nat) (hf : 764 ≤ fuel) (g : Gfx) (hg : g.grp g.page = square 0) :
    ∃ g', cmdGpaint fuel g (254 * 4096) (1 * 4096) (some (1 * 4096)) (some (2 * 4096)) = some (.ok (g', some .paintOverflow)) := by
  obtain ⟨n, rfl⟩ : ∃ n, fuel = n + 3 * 252 + 2 + 3 + 3 := ⟨fuel - 764, by omega⟩
  refine ⟨g.setPage (square 1), ?_⟩
  have key : paintFrom (-3) 1 (n + 3 * 252 + 2 + 3 + 3) (square 0) 254 1 = some (square 1, some .paintOverflow) := by
    unfold paintFrom
    have := square_many 252 (n + 3) [pack 254 255 (-1) (-1), pack 254 254 1 1] rfl
    rw [show n + 3 + 3 * 252 + 2 = n + 3 * 252 + 2 + 3 by omega] at this
    rw [paintLoop]
    show (match paintEntry (-3) 1 (square 0) [pack 254 254 1 1] 254 254 0 (-1) with
      | (d, none) => some (d, some Err.paintOverflow)
      | (d, some stk) => paintLoop (-3) 1 (n + 3 * 252 + 2 + 3 + 2) d stk) = _
    rw [square_fill0 _ (.inl (by decide)) (.inl (by decide)) (by decide) _ (by decide)]
    simp only []
    rw [paintLoop]
    show (match paintEntry (-3) 1 (upd (upd (square 0) (grpIndex 254 0) 1) (grpIndex 255 0) 1) [pack 254 255 (-1) (-1), pack 254 254 1 1] 255 255 1 1 with
      | (d, none) => some (d, some Err.paintOverflow)
      | (d, some stk) => paintLoop (-3) 1 (n + 3 * 252 + 2 + 3 + 1) d stk) = _
    rw [square_fill1 _ (.inl (by decide)) (.inl (by decide)) (by decide) _ (by decide), if_pos (by decide), square_full]
    simp only []
    rw [paintLoop]
    show (match paintEntry (-3) 1 (square 1) (pack 254 254 0 (-1) :: [pack 254 255 (-1) (-1), pack 254 254 1 1]) 254 255 2 1 with
      | (d, none) => some (d, some Err.paintOverflow)
      | (d, some stk) => paintLoop (-3) 1 (n + 3 * 252 + 2 + 3) d stk) = _
    rw [square_fill2 _ (by decide) (by decide)]
    exact this
  unfold cmdGpaint
  rw [hg]
  generalize n + 3 * 252 + 2 + 3 + 3 = m at key ⊢
  simp only []
  rw [show fpToInt (254 * 4096) = 254 from by decide, show fpToInt (1 * 4096) = 1 from by decide, show fpToInt (2 * 4096) = 2 from by decide,
    if_neg (by decide), if_neg (by decide), show ((-1 : Int) - 2) = -3 from by decide, show (1 : Int).toNat = 1 from rfl, key]
  rfl

/-- The dot at `(x,y)` of the current page when the command has ended without an error. -/
def dotAfter (r : Option Res) (x y : Int) : Option Nat :=
  match r with
  | some (.ok (g, none)) => some (g.dot g.page x y)
  | _ => none

/-- C54 fails for a start dot of the border colour: nothing can be reached from it, but the region above it is
painted. -/
theorem C54_on_border_violated : ¬ Fillable (some (2 * 4096)) 2 (square 0 (grpIndex 254 2)) ∧
    dotAfter (cmdGpaint 20 (init.setPage (square 0)) (254 * 4096) (2 * 4096) (some (2 * 4096)) (some (2 * 4096))) 254 1 = some 2 ∧
    square 0 (grpIndex 254 1) = 0 := by
  refine ⟨by unfold Fillable; decide, by decide +kernel, by decide⟩

/-- C54 fails for a start off the screen: `GPAINT 256,1` on a page of zeros reads the dot (0,1) as the start and
paints from there. -/
theorem C54_offscreen_violated : ¬ OnScreen (256 * 4096 / 4096) (4096 / 4096) ∧
    dotAfter (cmdGpaint 20 (init.setPage (fun i => if i = grpIndex 0 1 then 0 else 7)) (256 * 4096) 4096 (some (7 * 4096)) none) 0 1 = some 7 ∧
    (if grpIndex 0 1 = grpIndex 0 1 then 0 else 7) = 0 := by
  refine ⟨by decide, by decide +kernel, by decide⟩

/-- Without a border colour, a start below the screen reads a byte outside the page. -/
theorem C54_read_violated (fuel : Nat) (g : Gfx) : cmdGpaint fuel g 0 (192 * 4096) none none = some .ub := by
  unfold cmdGpaint
  simp only []
  rw [if_neg (by decide)]

end Sbc.Graphics
