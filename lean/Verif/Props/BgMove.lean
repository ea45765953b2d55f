import Verif.Proof.Bg
import Mathlib.Tactic.Ring
import Mathlib.Tactic.Linarith
set_option autoImplicit false
/-!
# C43 (BG part): BGOFS
-/
namespace Sbc.Bg
open Sbc

/-- `n` frames. -/
def frames : Nat → Bg → Out Bg
  | 0, g => .ok g
  | n + 1, g => (stepBg g).bind (frames n)

/-- The movement of a layer cannot overflow. -/
structure Ofs.Safe (o : Ofs) : Prop where
  time : 0 ≤ o.time
  x : I32 o.x
  y : I32 o.y
  endX : I32 (o.x + o.time * o.stepX)
  endY : I32 (o.y + o.time * o.stepY)

/-- All layers are safe. -/
def Safe (g : Bg) : Prop := g.page < 2 ∧ ∀ p l, p < 2 → l < 2 → (g.ofs p l).Safe

/-- Between two 32-bit numbers. -/
theorem step_range {a t s : Int} (ht : 0 < t) (ha : I32 a) (hb : I32 (a + t * s)) : I32 (a + s) := by
  unfold I32 at *
  by_cases h : 0 ≤ s
  · have : s ≤ t * s := by nlinarith
    omega
  · have : t * s ≤ s := by nlinarith
    omega

theorem stepOfs_safe {o : Ofs} (h : o.Safe) : ∃ o', stepOfs o = .ok o' ∧ o'.Safe ∧
    (0 < o.time → o' = { o with x := o.x + o.stepX, y := o.y + o.stepY, time := o.time - 1 }) ∧ (o.time = 0 → o' = o) := by
  unfold stepOfs
  by_cases ht : o.time > 0
  · have hx := step_range ht h.x h.endX
    have hy := step_range ht h.y h.endY
    rw [if_pos ht, if_pos ⟨hx, hy⟩]
    refine ⟨_, rfl, ⟨by simp only []; omega, hx, hy, ?_, ?_⟩, fun _ => rfl, fun h0 => by omega⟩
    · simp only []
      have := h.endX
      rw [show o.x + o.stepX + (o.time - 1) * o.stepX = o.x + o.time * o.stepX by ring]; exact this
    · simp only []
      have := h.endY
      rw [show o.y + o.stepY + (o.time - 1) * o.stepY = o.y + o.time * o.stepY by ring]; exact this
  · rw [if_neg ht]
    exact ⟨o, rfl, h, fun h0 => absurd h0 ht, fun _ => rfl⟩

theorem stepBg_safe {g : Bg} (h : Safe g) : ∃ g', stepBg g = .ok g' ∧ Safe g' ∧ g'.page = g.page ∧ g'.scr = g.scr ∧ g'.clip = g.clip ∧
    ∀ p l, p < 2 → l < 2 → stepOfs (g.ofs p l) = .ok (g'.ofs p l) := by
  obtain ⟨a, a1, a2, -⟩ := stepOfs_safe (h.2 0 0 (by omega) (by omega))
  obtain ⟨b, b1, b2, -⟩ := stepOfs_safe (h.2 0 1 (by omega) (by omega))
  obtain ⟨c, c1, c2, -⟩ := stepOfs_safe (h.2 1 0 (by omega) (by omega))
  obtain ⟨d, d1, d2, -⟩ := stepOfs_safe (h.2 1 1 (by omega) (by omega))
  refine ⟨{ g with ofs := fun p l => if p = 0 then (if l = 0 then a else b) else (if l = 0 then c else d) }, by unfold stepBg; rw [a1, b1, c1, d1]; rfl, ⟨h.1, ?_⟩, rfl, rfl, rfl, ?_⟩
  · intro p l hp hl
    simp only []
    split <;> split <;> assumption
  · intro p l hp hl
    simp only []
    have : (p = 0 ∨ p = 1) ∧ (l = 0 ∨ l = 1) := by omega
    obtain ⟨rfl | rfl, rfl | rfl⟩ := this
    · exact a1
    · exact b1
    · exact c1
    · exact d1

/-- The state of a moving layer after `n` frames. -/
theorem frames_spec : ∀ (n : Nat) (g : Bg), Safe g → ∃ g', frames n g = .ok g' ∧ Safe g' ∧ g'.page = g.page ∧ g'.scr = g.scr ∧ g'.clip = g.clip ∧
    ∀ p l, p < 2 → l < 2 →
      ((n : Int) ≤ (g.ofs p l).time → g'.ofs p l = { g.ofs p l with x := (g.ofs p l).x + n * (g.ofs p l).stepX, y := (g.ofs p l).y + n * (g.ofs p l).stepY, time := (g.ofs p l).time - n }) ∧
      ((g.ofs p l).time ≤ n → g'.ofs p l = { g.ofs p l with x := (g.ofs p l).x + (g.ofs p l).time * (g.ofs p l).stepX, y := (g.ofs p l).y + (g.ofs p l).time * (g.ofs p l).stepY, time := 0 }) := by
  intro n
  induction n with
  | zero =>
    intro g h
    refine ⟨g, rfl, h, rfl, rfl, rfl, ?_⟩
    intro p l hp hl
    have h0 := (h.2 p l hp hl).time
    generalize g.ofs p l = o at *
    obtain ⟨x, y, sx, sy, t⟩ := o
    constructor
    · intro _
      simp
    · intro ht
      simp only [] at *
      have : t = 0 := by omega
      subst this
      simp
  | succ n ih =>
    intro g h
    obtain ⟨g1, e1, e2, e3, e4, e5, e6⟩ := stepBg_safe h
    obtain ⟨g', f1, f2, f3, f4, f5, f6⟩ := ih g1 e2
    refine ⟨g', by rw [frames, e1]; exact f1, f2, f3.trans e3, f4.trans e4, f5.trans e5, ?_⟩
    intro p l hp hl
    obtain ⟨k1, k2⟩ := f6 p l hp hl
    obtain ⟨o', q1, q2, q3, q4⟩ := stepOfs_safe (h.2 p l hp hl)
    have hq : g1.ofs p l = o' := by
      have := e6 p l hp hl
      rw [q1] at this
      injection this with this
      exact this.symm
    rw [hq] at k1 k2
    have h0 := (h.2 p l hp hl).time
    by_cases ht : (g.ofs p l).time = 0
    · rw [q4 ht] at k1 k2
      constructor
      · intro hn; omega
      · intro _; exact k2 (by omega)
    · have q5 := q3 (by omega)
      rw [q5] at k1 k2
      simp only [] at k1 k2
      generalize g.ofs p l = o at *
      obtain ⟨x, y, sx, sy, t⟩ := o
      simp only [] at *
      constructor
      · intro hn
        rw [k1 (by omega)]
        rw [show x + sx + (n : Int) * sx = x + ((n + 1 : Nat) : Int) * sx by push_cast; ring,
          show y + sy + (n : Int) * sy = y + ((n + 1 : Nat) : Int) * sy by push_cast; ring,
          show t - 1 - (n : Int) = t - ((n + 1 : Nat) : Int) by omega]
      · intro hn
        rw [k2 (by omega)]
        rw [show x + sx + (t - 1) * sx = x + t * sx by ring, show y + sy + (t - 1) * sy = y + t * sy by ring]

/-- Rounding of the step: `t` steps end within `t - 1` units of the target, on the near side. -/
theorem tdiv_bound (d t : Int) (ht : 0 < t) : (t * d.tdiv t - d).natAbs < t.natAbs ∧ (t ∣ d → t * d.tdiv t = d) ∧
    (0 ≤ d → 0 ≤ t * d.tdiv t ∧ t * d.tdiv t ≤ d) ∧ (d ≤ 0 → d ≤ t * d.tdiv t ∧ t * d.tdiv t ≤ 0) := by
  have h := Int.mul_tdiv_add_tmod d t
  have hm : (d.tmod t).natAbs < t.natAbs := by
    have := Int.tmod_lt_of_pos d ht
    have := Int.lt_tmod_of_pos d ht
    omega
  refine ⟨by omega, fun hd => Int.mul_tdiv_cancel' hd, ?_, ?_⟩
  · intro hd
    have h1 := Int.tmod_nonneg t hd
    have h2 : 0 ≤ d.tdiv t := Int.tdiv_nonneg hd (by omega)
    have : 0 ≤ t * d.tdiv t := Int.mul_nonneg (by omega) h2
    omega
  · intro hd
    have e1 : d.tdiv t = -((-d).tdiv t) := by rw [Int.neg_tdiv]; omega
    have e2 : d.tmod t = -((-d).tmod t) := by rw [Int.neg_tmod]; omega
    have h1 := Int.tmod_nonneg t (show 0 ≤ -d by omega)
    have h2 : 0 ≤ (-d).tdiv t := Int.tdiv_nonneg (by omega) (by omega)
    have : 0 ≤ t * (-d).tdiv t := Int.mul_nonneg (by omega) h2
    have h3 : t * d.tdiv t = -(t * (-d).tdiv t) := by rw [e1]; ring
    omega

/-- C43: `BGOFS l,x,y,t` with `t` frames: while fewer than `t` frames have passed BGCHK says the layer is moving
and it moves by equal steps; after `t` frames and ever after it rests, less than `t` units of 1/4096 before the
target, and exactly at the target when the distance is a multiple of `t` units.  Other layers are not affected.
(The full claim says exactly at the target.) -/
theorem C43_bgofs_partial (g : Bg) (la x y ta : Int) (l : Nat) (t : Int) (hl : LayerArg la l) (hs : Safe g) (hx : I32 x) (hy : I32 y)
    (ht : ta / 4096 = t) (ht0 : 0 < t) (hdx : I32 (x - (g.ofs g.page l).x)) (hdy : I32 (y - (g.ofs g.page l).y)) :
    ∃ g1, cmdBgofs g la x y (some ta) = .ok (g1, none) ∧ Safe g1 ∧
      (∀ p k, (p, k) ≠ (g.page, l) → g1.ofs p k = g.ofs p k) ∧ (g1.page, g1.scr, g1.clip) = (g.page, g.scr, g.clip) ∧
      ∀ n : Nat, ∃ g2, frames n g1 = .ok g2 ∧ funcBgchk g2 la = .ok (if (n : Int) < t then 4096 else 0) ∧
        ((n : Int) ≤ t → (g2.ofs g.page l).x = (g.ofs g.page l).x + n * (x - (g.ofs g.page l).x).tdiv t ∧
          (g2.ofs g.page l).y = (g.ofs g.page l).y + n * (y - (g.ofs g.page l).y).tdiv t) ∧
        (t ≤ n → ((g2.ofs g.page l).x - x).natAbs < t.natAbs ∧ ((g2.ofs g.page l).y - y).natAbs < t.natAbs ∧
          (t ∣ x - (g.ofs g.page l).x → (g2.ofs g.page l).x = x) ∧ (t ∣ y - (g.ofs g.page l).y → (g2.ofs g.page l).y = y)) := by
  obtain ⟨h1, h2⟩ := hl
  generalize ho : g.ofs g.page l = o at *
  have hsafe := hs.2 g.page l hs.1 h2
  rw [ho] at hsafe
  obtain ⟨bx1, bx2, bx3, bx4⟩ := tdiv_bound (x - o.x) t ht0
  obtain ⟨by1, by2, by3, by4⟩ := tdiv_bound (y - o.y) t ht0
  have hex : I32 (o.x + t * (x - o.x).tdiv t) := by
    have := hsafe.x
    unfold I32 at *
    by_cases h : 0 ≤ x - o.x
    · have := bx3 h; omega
    · have := bx4 (by omega); omega
  have hey : I32 (o.y + t * (y - o.y).tdiv t) := by
    have := hsafe.y
    unfold I32 at *
    by_cases h : 0 ≤ y - o.y
    · have := by3 h; omega
    · have := by4 (by omega); omega
  have hs1 : Safe (g.setOfs l { o with stepX := (x - o.x).tdiv t, stepY := (y - o.y).tdiv t, time := t }) := by
    refine ⟨hs.1, ?_⟩
    intro p k hp hk
    unfold Bg.setOfs
    simp only []
    split
    · exact ⟨by simp only []; omega, hsafe.x, hsafe.y, hex, hey⟩
    · exact hs.2 p k hp hk
  refine ⟨_, ?_, hs1, ?_, rfl, ?_⟩
  · unfold cmdBgofs checked
    rw [range_ok (by omega)]
    simp only []
    rw [h1, show (l : Int).toNat = l from rfl, ho, show fpToInt ta = t from ht, if_neg (by omega), if_pos (by omega)]
    unfold stepOf
    rw [if_pos hdx, if_pos hdy]
    rfl
  · intro p k hpk
    unfold Bg.setOfs
    simp only []
    rw [if_neg]
    rintro ⟨rfl, rfl⟩
    exact hpk rfl
  · intro n
    obtain ⟨g2, f1, f2, f3, f4, f5, f6⟩ := frames_spec n _ hs1
    refine ⟨g2, f1, ?_⟩
    obtain ⟨k1, k2⟩ := f6 g.page l hs.1 h2
    have hset : (g.setOfs l { o with stepX := (x - o.x).tdiv t, stepY := (y - o.y).tdiv t, time := t }).ofs g.page l =
        { o with stepX := (x - o.x).tdiv t, stepY := (y - o.y).tdiv t, time := t } := by
      unfold Bg.setOfs
      exact if_pos ⟨rfl, rfl⟩
    rw [hset] at k1 k2
    simp only [] at k1 k2
    have f3' : g2.page = g.page := f3
    refine ⟨?_, ?_, ?_⟩
    · unfold funcBgchk
      rw [range_ok (by omega)]
      simp only [Out.bind]
      rw [h1, show (l : Int).toNat = l from rfl, f3']
      by_cases hn : (n : Int) < t
      · rw [k1 (by omega)]
        simp only []
        rw [if_pos hn, if_pos (by omega)]
      · rw [k2 (by omega)]
        simp only []
        rw [if_neg hn, if_neg (by omega)]
    · intro hn
      rw [k1 hn]
      simp only [and_self]
    · intro hn
      rw [k2 hn]
      simp only []
      refine ⟨by omega, by omega, fun hd => ?_, fun hd => ?_⟩
      · have := bx2 hd; omega
      · have := by2 hd; omega

example : LayerArg 0 0 ∧ Safe init ∧ I32 (8 * 4096 - (init.ofs init.page 0).x) := by
  refine ⟨by unfold LayerArg; decide, ⟨by decide, fun p l _ _ => ?_⟩, by decide⟩
  rw [show init.ofs p l = ⟨0, 0, 0, 0, 0⟩ from rfl]
  exact ⟨by decide, by decide, by decide, by decide, by decide⟩

/-- C43: BGOFS without a time or with time 0 moves at once and the layer rests. -/
theorem C43_bgofs_jump (g : Bg) (la x y : Int) (ta : Option Int) (l : Nat) (hl : LayerArg la l) (ht : ta = none ∨ ∃ t, ta = some t ∧ t / 4096 = 0) :
    ∃ g1, cmdBgofs g la x y ta = .ok (g1, none) ∧ (g1.ofs g.page l).x = x ∧ (g1.ofs g.page l).y = y ∧ funcBgchk g1 la = .ok 0 ∧
      (∀ p k, (p, k) ≠ (g.page, l) → g1.ofs p k = g.ofs p k) ∧ (g1.page, g1.scr, g1.clip) = (g.page, g.scr, g.clip) := by
  obtain ⟨h1, h2⟩ := hl
  have hc : ∃ o : Ofs, o.x = x ∧ o.y = y ∧ o.time = 0 ∧ cmdBgofs g la x y ta = .ok (g.setOfs l o, none) := by
    unfold cmdBgofs checked
    rw [range_ok (by omega)]
    simp only []
    rw [h1, show (l : Int).toNat = l from rfl]
    rcases ht with rfl | ⟨t, rfl, ht⟩
    · exact ⟨_, rfl, rfl, rfl, rfl⟩
    · simp only []
      rw [show fpToInt t = 0 from ht, if_neg (by omega), if_neg (by omega)]
      exact ⟨_, rfl, rfl, rfl, rfl⟩
  obtain ⟨o, e1, e2, e3, e4⟩ := hc
  have hset : (g.setOfs l o).ofs g.page l = o := by
    unfold Bg.setOfs
    exact if_pos ⟨rfl, rfl⟩
  refine ⟨_, e4, by rw [hset]; exact e1, by rw [hset]; exact e2, ?_, ?_, rfl⟩
  · unfold funcBgchk
    rw [range_ok (by omega)]
    simp only [Out.bind]
    rw [h1, show (l : Int).toNat = l from rfl, show (g.setOfs l o).page = g.page from rfl, hset, e3]
    rfl
  · intro p k hpk
    unfold Bg.setOfs
    simp only []
    rw [if_neg]
    rintro ⟨rfl, rfl⟩
    exact hpk rfl

/-- C43: a negative time is reported and changes nothing. -/
theorem C43_bgofs_checked (g : Bg) (la x y t : Int) (l : Nat) (hl : LayerArg la l) (ht : t / 4096 < 0) :
    cmdBgofs g la x y (some t) = .ok (g, some .outOfRange) := by
  obtain ⟨h1, h2⟩ := hl
  unfold cmdBgofs checked
  rw [range_ok (by omega)]
  simp only []
  rw [if_pos (show fpToInt t < 0 from ht)]
  rfl

/-- C43 fails: `BGOFS 0,1,0,3` ends 1/4096 before the target. -/
theorem C43_bgofs_violated : ∃ g1 g2, cmdBgofs init 0 4096 0 (some (3 * 4096)) = .ok (g1, none) ∧ frames 3 g1 = .ok g2 ∧
    funcBgchk g2 0 = .ok 0 ∧ (g2.ofs 0 0).x = 4095 :=
  ⟨_, _, rfl, rfl, by decide, by decide⟩

/-- C43 fails: a distance of more than half the number range overflows. -/
theorem C43_bgofs_overflow_violated : ∃ g1, cmdBgofs init 0 (-300000 * 4096) 0 none = .ok (g1, none) ∧
    cmdBgofs g1 0 (300000 * 4096) 0 (some 4096) = .ub :=
  ⟨_, rfl, rfl⟩

end Sbc.Bg
