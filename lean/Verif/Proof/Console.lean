import Verif.Model.Console
import Verif.Spec.Console
import Mathlib.Tactic.SplitIfs
set_option autoImplicit false
namespace Sbc.Console
open Sbc Sbc.Strs

theorem set2_eq (f : Nat → Nat → Nat) (r c v a b : Nat) :
    set2 f r c v a b = if a = r ∧ b = c then v else f a b := by
  unfold set2 upd
  by_cases h : a = r
  · subst h; simp only [if_true, true_and]
  · simp [h]

theorem copyRow_aux (f : Nat → Nat → Nat) (i m : Nat) (hi : 1 ≤ i) (a b : Nat) :
    (List.range m).foldl (fun f j => set2 f (i - 1) j (f i j)) f a b =
      if a = i - 1 ∧ b < m then f i b else f a b := by
  induction m generalizing a b with
  | zero => simp
  | succ m ih =>
    rw [List.range_succ, List.foldl_append, List.foldl_cons, List.foldl_nil, set2_eq]
    by_cases h : a = i - 1 ∧ b = m
    · rw [if_pos h, ih, if_neg (by omega), if_pos (by omega), h.2]
    · rw [if_neg h, ih]
      by_cases h2 : a = i - 1 ∧ b < m
      · rw [if_pos h2, if_pos (by omega)]
      · rw [if_neg h2, if_neg (by omega)]

theorem copyRow_eq (f : Nat → Nat → Nat) (i : Nat) (hi : 1 ≤ i) (a b : Nat) :
    copyRow f i a b = if a = i - 1 ∧ b < 32 then f i b else f a b := copyRow_aux f i 32 hi a b

theorem copyRows_eq (f : Nat → Nat → Nat) (m a b : Nat) :
    (List.range' 1 m).foldl copyRow f a b = if a < m ∧ b < 32 then f (a + 1) b else f a b := by
  induction m generalizing a b with
  | zero => simp
  | succ m ih =>
    rw [List.range'_1_concat, List.foldl_append, List.foldl_cons, List.foldl_nil, copyRow_eq _ _ (by omega), ih, ih]
    by_cases h : a = 1 + m - 1 ∧ b < 32
    · rw [if_pos h, if_neg (by omega), if_pos (by omega), show 1 + m = a + 1 by omega]
    · rw [if_neg h]
      by_cases h2 : a < m ∧ b < 32
      · rw [if_pos h2, if_pos (by omega)]
      · rw [if_neg h2, if_neg (by omega)]

theorem fillLast_eq (f : Nat → Nat → Nat) (v a b : Nat) :
    fillLast f v a b = if a = 23 ∧ b < 32 then v else f a b := by
  unfold fillLast width height
  have : ∀ m, (List.range m).foldl (fun f j => set2 f (24 - 1) j v) f a b = if a = 23 ∧ b < m then v else f a b := by
    intro m
    induction m with
    | zero => simp
    | succ m ih =>
      rw [List.range_succ, List.foldl_append, List.foldl_cons, List.foldl_nil, set2_eq, ih]
      by_cases h : a = 24 - 1 ∧ b = m
      · rw [if_pos h, if_pos (by omega)]
      · rw [if_neg h]
        by_cases h2 : a = 23 ∧ b < m
        · rw [if_pos h2, if_pos (by omega)]
        · rw [if_neg h2, if_neg (by omega)]
  exact this 32

/-- Content of one array after scrolling up `k` lines. -/
def shifted (f : Nat → Nat → Nat) (k v a b : Nat) : Nat :=
  if a < 24 ∧ b < 32 then if a + k < 24 then f (a + k) b else v else f a b

theorem scrollRows_eq (f : Nat → Nat → Nat) (v a b : Nat) :
    fillLast ((List.range' 1 (height - 1)).foldl copyRow f) v a b = shifted f 1 v a b := by
  rw [fillLast_eq]
  unfold height shifted
  rw [copyRows_eq]
  by_cases h1 : a = 23 ∧ b < 32
  · rw [if_pos h1, if_pos (by omega), if_neg (by omega)]
  · rw [if_neg h1]
    by_cases h2 : a < 24 - 1 ∧ b < 32
    · rw [if_pos h2, if_pos (by omega), if_pos (by omega)]
    · rw [if_neg h2, if_neg (by omega)]

theorem shifted_zero (f : Nat → Nat → Nat) (v a b : Nat) : shifted f 0 v a b = f a b := by
  unfold shifted
  split
  · rw [if_pos (by omega)]; simp
  · rfl

theorem shifted_shifted (f : Nat → Nat → Nat) (k v a b : Nat) :
    shifted (shifted f 1 v) k v a b = shifted f (k + 1) v a b := by
  unfold shifted
  by_cases h : a < 24 ∧ b < 32
  · rw [if_pos h, if_pos h]
    by_cases h1 : a + k < 24
    · rw [if_pos h1, if_pos (by omega)]
      by_cases h2 : a + k + 1 < 24
      · rw [if_pos h2, if_pos (by omega)]; rfl
      · rw [if_neg h2, if_neg (by omega)]
    · rw [if_neg h1, if_neg (by omega)]
  · rw [if_neg h, if_neg h, if_neg h]

theorem scrollLoop_eq (k : Nat) : ∀ (fuel : Nat) (c : Con), c.y = 23 + k → k < fuel →
    scrollLoop fuel c = { c with y := 23, text := shifted c.text k 0, color := shifted c.color k c.col } := by
  induction k with
  | zero =>
    intro fuel c hy hf
    obtain ⟨f, rfl⟩ : ∃ f, fuel = f + 1 := ⟨fuel - 1, by omega⟩
    rw [scrollLoop, if_neg (by unfold height; omega)]
    have e1 : shifted c.text 0 0 = c.text := by funext a b; exact shifted_zero _ _ _ _
    have e2 : shifted c.color 0 c.col = c.color := by funext a b; exact shifted_zero _ _ _ _
    rw [e1, e2]
    cases c; simp_all
  | succ k ih =>
    intro fuel c hy hf
    obtain ⟨f, rfl⟩ : ∃ f, fuel = f + 1 := ⟨fuel - 1, by omega⟩
    rw [scrollLoop, if_pos (by unfold height; omega), ih f (scroll1 c) (by simp only [scroll1]; omega) (by omega)]
    have e1 : fillLast ((List.range' 1 (height - 1)).foldl copyRow c.text) 0 = shifted c.text 1 0 := by
      funext a b; exact scrollRows_eq _ _ _ _
    have e2 : fillLast ((List.range' 1 (height - 1)).foldl copyRow c.color) c.col = shifted c.color 1 c.col := by
      funext a b; exact scrollRows_eq _ _ _ _
    unfold scroll1
    simp only [e1, e2]
    congr 1
    · funext a b; exact shifted_shifted _ _ _ _ _
    · funext a b; exact shifted_shifted _ _ _ _ _

theorem conScroll_eq (c : Con) (h : 23 ≤ c.y) :
    conScroll c = { c with y := 23, text := shifted c.text (c.y - 23) 0, color := shifted c.color (c.y - 23) c.col } :=
  scrollLoop_eq (c.y - 23) (c.y + 1) c (by omega) (by omega)

theorem conScroll_small (c : Con) (h : c.y < 24) : conScroll c = c := by
  unfold conScroll
  rw [scrollLoop, if_neg (by unfold height; omega)]

/-- What writing `ws` at reading position `p` does to one array: `val` is what is stored for the `i`-th character. -/
def written (f : Nat → Nat → Nat) (p n k v : Nat) (val : Nat → Nat) (a b : Nat) : Nat :=
  if a < 24 ∧ b < 32 then
    if p ≤ 32 * (a + k) + b ∧ 32 * (a + k) + b < p + n then val (32 * (a + k) + b - p)
    else if a + k < 24 then f (a + k) b else v
  else f a b

theorem written_comp (f : Nat → Nat → Nat) (p p2 n k1 k2 v : Nat) (val1 val2 val : Nat → Nat) (hp : p2 + 32 * k1 = p + 1)
    (hlt : p < 32 * 24) (h0 : val 0 = val1 0) (hs : ∀ i, val (i + 1) = val2 i) (a b : Nat) :
    written (written f p 1 k1 v val1) p2 n k2 v val2 a b = written f p (n + 1) (k1 + k2) v val a b := by
  unfold written
  by_cases hab : a < 24 ∧ b < 32
  · rw [if_pos hab, if_pos hab]
    by_cases h1 : p2 ≤ 32 * (a + k2) + b ∧ 32 * (a + k2) + b < p2 + n
    · rw [if_pos h1, if_pos (by omega), ← hs]
      congr 1; omega
    · rw [if_neg h1]
      by_cases h2 : a + k2 < 24
      · rw [if_pos h2, if_pos (by omega)]
        by_cases h3 : p ≤ 32 * (a + k2 + k1) + b ∧ 32 * (a + k2 + k1) + b < p + 1
        · rw [if_pos h3, if_pos (by omega), show 32 * (a + k2 + k1) + b - p = 0 by omega,
            show 32 * (a + (k1 + k2)) + b - p = 0 by omega, h0]
        · have h3' : ¬ (p ≤ 32 * (a + (k1 + k2)) + b ∧ 32 * (a + (k1 + k2)) + b < p + (n + 1)) := by omega
          rw [if_neg h3, if_neg h3']
          by_cases h4 : a + k2 + k1 < 24
          · rw [if_pos h4, if_pos (by omega)]; congr 1; omega
          · rw [if_neg h4, if_neg (by omega)]
      · rw [if_neg h2, if_neg (by omega), if_neg (by omega)]
  · simp only [hab, if_false]

theorem put_written (f : Nat → Nat → Nat) (y x v blank : Nat) (hx : x < 32) (hy : y < 24) (a b : Nat) :
    set2 f y x v a b = written f (32 * y + x) 1 0 blank (fun _ => v) a b := by
  rw [set2_eq]
  unfold written
  by_cases h : a = y ∧ b = x
  · rw [if_pos h, if_pos (by omega), if_pos (by omega)]
  · rw [if_neg h]
    by_cases hab : a < 24 ∧ b < 32
    · rw [if_pos hab, if_neg (by omega), if_pos (by omega)]; rfl
    · rw [if_neg hab]

theorem put_written_scroll (f : Nat → Nat → Nat) (v blank : Nat) (a b : Nat) :
    shifted (set2 f 23 31 v) 1 blank a b = written f (32 * 23 + 31) 1 1 blank (fun _ => v) a b := by
  unfold shifted written
  by_cases hab : a < 24 ∧ b < 32
  · rw [if_pos hab, if_pos hab]
    by_cases h1 : a + 1 < 24
    · rw [if_pos h1, set2_eq, if_pos h1]
      by_cases h2 : a + 1 = 23 ∧ b = 31
      · rw [if_pos h2, if_pos (by omega)]
      · rw [if_neg h2, if_neg (by omega)]
    · rw [if_neg h1, if_neg (by omega), if_neg h1]
  · rw [if_neg hab, if_neg hab, set2_eq, if_neg (by omega)]

/-- One character, with the scrolling `con_puts` does before the next one. -/
theorem put_step (c : Con) (w : Nat) (hx : c.x < 32) (hy : c.y < 24) :
    ∃ c1, conPut c w = .ok c1 ∧ c1.col = c.col ∧ c1.tabstep = c.tabstep ∧ c1.x < 32 ∧ c1.y ≤ 24 ∧ (c1.y = 24 → c1.x = 0) ∧
      32 * c1.y + c1.x = 32 * c.y + c.x + 1 ∧
      c1.text = set2 c.text c.y c.x w ∧ c1.color = set2 c.color c.y c.x c.col := by
  unfold conPut width height
  rw [if_neg (by omega), if_neg (by omega)]
  refine ⟨_, rfl, ?_⟩
  simp only []
  by_cases h : c.x + 1 ≥ 32
  · rw [if_pos h]
    unfold conNewline
    simp only [Bool.false_eq_true, if_false]
    and_intros <;> first | rfl | trivial | omega | (intro _; trivial)
  · rw [if_neg h]
    refine ⟨rfl, rfl, by simp only []; omega, by simp only []; omega, by simp only []; omega, by simp only []; omega, rfl, rfl⟩

theorem putsLoop_spec : ∀ (ws : List Nat) (c : Con), c.x < 32 → c.y < 24 →
    ∃ c', putsLoop ws c = .ok c' ∧ c'.col = c.col ∧ c'.tabstep = c.tabstep ∧ c'.x < 32 ∧ c'.y ≤ 24 ∧ (c'.y = 24 → c'.x = 0) ∧
      32 * c'.y + c'.x + 32 * ((32 * c.y + c.x + (ws.length - 1)) / 32 - 23) = 32 * c.y + c.x + ws.length ∧
      (∀ a b, c'.text a b = written c.text (32 * c.y + c.x) ws.length ((32 * c.y + c.x + (ws.length - 1)) / 32 - 23) 0
        (fun i => ws.getD i 0) a b) ∧
      (∀ a b, c'.color a b = written c.color (32 * c.y + c.x) ws.length ((32 * c.y + c.x + (ws.length - 1)) / 32 - 23) c.col
        (fun _ => c.col) a b) := by
  intro ws
  induction ws with
  | nil =>
    intro c hx hy
    have hk : (32 * c.y + c.x + (([] : List Nat).length - 1)) / 32 - 23 = 0 := by simp only [List.length_nil]; omega
    rw [hk]
    refine ⟨c, rfl, rfl, rfl, hx, by omega, by omega, by simp, ?_, ?_⟩
    · intro a b
      unfold written
      split
      · rw [if_neg (by simp), if_pos (by omega)]; rfl
      · rfl
    · intro a b
      unfold written
      split
      · rw [if_neg (by simp), if_pos (by omega)]; rfl
      · rfl
  | cons w ws ih =>
    intro c hx hy
    rw [putsLoop]
    obtain ⟨c1, h1, h2, h3, h4, h5, h6, h7, h8, h9⟩ := put_step c w hx hy
    rw [h1]; simp only [Out.bind]
    cases ws with
    | nil =>
      simp only [ne_eq, not_true, false_and, if_false, putsLoop]
      have hk : (32 * c.y + c.x + ([w].length - 1)) / 32 - 23 = 0 := by simp only [List.length_singleton]; omega
      rw [hk]
      refine ⟨c1, rfl, h2, h3, h4, h5, h6, by simp; omega, ?_, ?_⟩
      · intro a b; rw [h8, put_written c.text c.y c.x w 0 hx hy]
        unfold written; simp only [List.length_singleton]
        split
        · split
          · rename_i hc; rw [show 32 * (a + 0) + b - (32 * c.y + c.x) = 0 by omega]; rfl
          · rfl
        · rfl
      · intro a b; rw [h9, put_written c.color c.y c.x c.col c.col hx hy]; rfl
    | cons w2 ws =>
      by_cases hy1 : c1.y = 24
      · have hcx : c.x = 31 ∧ c.y = 23 := by have := h6 hy1; omega
        have hc2 : (if w2 :: ws ≠ [] ∧ c1.y = height then conScroll c1 else c1) =
            { c1 with y := 23, text := shifted c1.text 1 0, color := shifted c1.color 1 c1.col } := by
          rw [if_pos ⟨by simp, hy1⟩, conScroll_eq c1 (by omega), hy1]
        rw [hc2]
        obtain ⟨c', e1, e2, e3, e4, e5, e6, e7, e8, e9⟩ := ih
          { c1 with y := 23, text := shifted c1.text 1 0, color := shifted c1.color 1 c1.col } h4 (by simp)
        simp only [List.length_cons] at *
        have hc1x := h6 hy1
        have hk : (32 * c.y + c.x + (ws.length + 1 + 1 - 1)) / 32 - 23 = 1 + ((32 * 23 + c1.x + (ws.length + 1 - 1)) / 32 - 23) := by omega
        rw [hk]
        refine ⟨c', e1, by rw [e2, h2], by rw [e3, h3], e4, e5, e6, by omega, ?_, ?_⟩
        · intro a b
          rw [e8]
          have : shifted c1.text 1 0 = written c.text (32 * c.y + c.x) 1 1 0 (fun _ => w) := by
            funext a b
            rw [h8, hcx.1, hcx.2]
            exact put_written_scroll c.text w 0 a b
          rw [this]
          apply written_comp
          · omega
          · omega
          · rfl
          · intro i; rfl
        · intro a b
          rw [e9, h2]
          have : shifted c1.color 1 c.col = written c.color (32 * c.y + c.x) 1 1 c.col (fun _ => c.col) := by
            funext a b
            rw [h9, hcx.1, hcx.2]
            exact put_written_scroll c.color c.col c.col a b
          rw [this]
          apply written_comp
          · omega
          · omega
          · rfl
          · intro i; rfl
      · rw [if_neg (by simp only [height]; omega)]
        obtain ⟨c', e1, e2, e3, e4, e5, e6, e7, e8, e9⟩ := ih c1 h4 (by omega)
        simp only [List.length_cons] at *
        have hk : (32 * c.y + c.x + (ws.length + 1 + 1 - 1)) / 32 - 23 = 0 + ((32 * c1.y + c1.x + (ws.length + 1 - 1)) / 32 - 23) := by
          omega
        rw [hk]
        refine ⟨c', e1, by rw [e2, h2], by rw [e3, h3], e4, e5, e6, by omega, ?_, ?_⟩
        · intro a b
          rw [e8]
          have : c1.text = written c.text (32 * c.y + c.x) 1 0 0 (fun _ => w) := by
            funext a b; rw [h8]; exact put_written c.text c.y c.x w 0 hx hy a b
          rw [this]
          apply written_comp
          · omega
          · omega
          · rfl
          · intro i; rfl
        · intro a b
          rw [e9, h2]
          have : c1.color = written c.color (32 * c.y + c.x) 1 0 c.col (fun _ => c.col) := by
            funext a b; rw [h9]; exact put_written c.color c.y c.x c.col c.col hx hy a b
          rw [this]
          apply written_comp
          · omega
          · omega
          · rfl
          · intro i; rfl

end Sbc.Console
