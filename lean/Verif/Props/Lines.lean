import Verif.Proof.Lines
set_option autoImplicit false
/-!
# C52: GLINE
-/
namespace Sbc.Graphics
open Sbc Sbc.Graphics.Spec

theorem linePixels_eq (x1 y1 x2 y2 : Int) (hl : (x2 - x1).natAbs ≤ 524287) (hl2 : (y2 - y1).natAbs ≤ 524287) :
    ∃ ps, linePixels x1 y1 x2 y2 = .ok ps ∧
      ((x2 - x1).natAbs ≤ 2049 → (y2 - y1).natAbs ≤ 2049 → IsLine x1 y1 x2 y2 ps) := by
  unfold linePixels IsLine
  by_cases hm : (y2 - y1).natAbs ≤ (x2 - x1).natAbs
  · rw [if_pos (show (x2 - x1).natAbs ≥ (y2 - y1).natAbs from hm)]
    by_cases hp : x1 = x2 ∧ y1 = y2
    · rw [if_pos hp]
      obtain ⟨rfl, rfl⟩ := hp
      refine ⟨_, rfl, fun _ _ => ⟨List.nodup_singleton _, ?_⟩⟩
      rw [if_pos hm]
      refine ⟨fun _ => y1, ⟨rfl, rfl, fun _ _ _ => by omega, fun _ _ _ h => absurd rfl h⟩, fun x y => ?_⟩
      simp only [List.mem_singleton, Prod.mk.injEq]
      omega
    · rw [if_neg hp]
      have hne : x1 ≠ x2 := by omega
      obtain ⟨f, hf, hloop⟩ := long_line x1 y1 x2 y2 hne hl hm
      have hres : (let s := slope (y2 - y1) (x2 - x1)
          let (x1, y1, x2) := if x1 > x2 then (x2, y2, x1) else (x1, y1, x2)
          (lineLoop s y1 (x2 + 1 - x1).toNat 0).bind fun l => .ok (l.map fun p => (x1 + p.1, p.2))) =
          Out.ok ((List.range (x2 - x1).natAbs.succ).map fun (i : Nat) => (min x1 x2 + (i : Int), f (min x1 x2 + i))) := by
        by_cases hgt : x1 > x2
        · rw [if_pos hgt] at hloop
          simp only [if_pos hgt]
          rw [show (x1 + 1 - x2).toNat = (x2 - x1).natAbs.succ by omega, hloop]
          simp only [Out.bind, List.map_map]
          congr 1
          apply List.map_congr_left
          intro i _
          simp only [Function.comp]
          rw [show x2 + (i : Int) = min x1 x2 + i by omega]
        · rw [if_neg hgt] at hloop
          simp only [if_neg hgt]
          rw [show (x2 + 1 - x1).toNat = (x2 - x1).natAbs.succ by omega, hloop]
          simp only [Out.bind, List.map_map]
          congr 1
          apply List.map_congr_left
          intro i _
          simp only [Function.comp]
          rw [show x1 + (i : Int) = min x1 x2 + i by omega]
      refine ⟨_, hres, fun h2049 _ => ⟨?_, ?_⟩⟩
      · refine List.Nodup.map ?_ List.nodup_range
        intro i j hij
        simp only [Prod.mk.injEq] at hij
        omega
      · rw [if_pos hm]
        refine ⟨f, hf h2049, fun x y => ?_⟩
        rw [List.mem_map]
        constructor
        · rintro ⟨i, hi, he⟩
          rw [List.mem_range] at hi
          simp only [Prod.mk.injEq] at he
          obtain ⟨rfl, rfl⟩ := he
          exact ⟨by omega, by omega, rfl⟩
        · rintro ⟨h1, h2, rfl⟩
          refine ⟨(x - min x1 x2).toNat, by rw [List.mem_range]; omega, ?_⟩
          have : min x1 x2 + ((x - min x1 x2).toNat : Int) = x := by omega
          rw [this]
  · rw [if_neg (show ¬ (x2 - x1).natAbs ≥ (y2 - y1).natAbs from hm)]
    have hne : y1 ≠ y2 := by omega
    obtain ⟨f, hf, hloop⟩ := long_line y1 x1 y2 x2 hne hl2 (by omega)
    have hres : (let s := slope (x2 - x1) (y2 - y1)
        let (x1, y1, y2) := if y1 > y2 then (x2, y2, y1) else (x1, y1, y2)
        (lineLoop s x1 (y2 + 1 - y1).toNat 0).bind fun l => .ok (l.map fun p => (p.2, y1 + p.1))) =
        Out.ok ((List.range (y2 - y1).natAbs.succ).map fun (i : Nat) => (f (min y1 y2 + i), min y1 y2 + (i : Int))) := by
      by_cases hgt : y1 > y2
      · rw [if_pos hgt] at hloop
        simp only [if_pos hgt]
        rw [show (y1 + 1 - y2).toNat = (y2 - y1).natAbs.succ by omega, hloop]
        simp only [Out.bind, List.map_map]
        congr 1
        apply List.map_congr_left
        intro i _
        simp only [Function.comp]
        rw [show y2 + (i : Int) = min y1 y2 + i by omega]
      · rw [if_neg hgt] at hloop
        simp only [if_neg hgt]
        rw [show (y2 + 1 - y1).toNat = (y2 - y1).natAbs.succ by omega, hloop]
        simp only [Out.bind, List.map_map]
        congr 1
        apply List.map_congr_left
        intro i _
        simp only [Function.comp]
        rw [show y1 + (i : Int) = min y1 y2 + i by omega]
    refine ⟨_, hres, fun _ h2049 => ⟨?_, ?_⟩⟩
    · refine List.Nodup.map ?_ List.nodup_range
      intro i j hij
      simp only [Prod.mk.injEq] at hij
      omega
    · rw [if_neg hm]
      refine ⟨f, hf h2049, fun x y => ?_⟩
      rw [List.mem_map]
      constructor
      · rintro ⟨i, hi, he⟩
        rw [List.mem_range] at hi
        simp only [Prod.mk.injEq] at he
        obtain ⟨rfl, rfl⟩ := he
        exact ⟨by omega, by omega, rfl⟩
      · rintro ⟨h1, h2, rfl⟩
        refine ⟨(y - min y1 y2).toNat, by rw [List.mem_range]; omega, ?_⟩
        have : min y1 y2 + ((y - min y1 y2).toNat : Int) = y := by omega
        rw [this]

/-- **C52 (partial).** `GLINE` between any two points at most 2049 apart in each direction draws exactly the
dots of a straight line between them that lie on the screen: one per column (row, for steep lines), both
end points included, without jumps, within less than one dot of the ideal line, and nothing else.
Missing: longer lines, for which precision is lost (refuted below). -/
theorem C52_line_partial (g : Gfx) (x1 y1 x2 y2 : Int) (a : Option Int) (c : Nat) (hc : ColorArg g a c)
    (hx : (x2 / 4096 - x1 / 4096).natAbs ≤ 2049) (hy : (y2 / 4096 - y1 / 4096).natAbs ≤ 2049) :
    ∃ g' ps, cmdGline g x1 y1 x2 y2 a = .ok (g', none) ∧ IsLine (x1 / 4096) (y1 / 4096) (x2 / 4096) (y2 / 4096) ps ∧
      Draws g g' (fun u v old => if (u, v) ∈ ps then put g.drawmode c old else old) := by
  obtain ⟨ps, hps, hl⟩ := linePixels_eq (x1 / 4096) (y1 / 4096) (x2 / 4096) (y2 / 4096) (by omega) (by omega)
  unfold cmdGline
  rw [withColor_ok hc]
  unfold fpToInt
  rw [hps]
  simp only [Out.bind]
  refine ⟨_, ps, rfl, hl hx hy, ?_⟩
  have h := drawAll_draws g ps c
  refine ⟨?_, h.beyond, h.pages, h.settings⟩
  intro u v huv
  rw [h.dots u v huv, (hl hx hy).1.count]
  by_cases hin : (u, v) ∈ ps
  · rw [if_pos hin, if_pos hin]; rfl
  · rw [if_neg hin, if_neg hin]; rfl

/-- **C52.** Every line whose end points are less than 524288 apart is drawn without undefined behaviour,
touching only bytes of the page drawn to. -/
theorem C52_line_safe (g : Gfx) (x1 y1 x2 y2 : Int) (a : Option Int) (c : Nat) (hc : ColorArg g a c)
    (hx : (x2 / 4096 - x1 / 4096).natAbs ≤ 524287) (hy : (y2 / 4096 - y1 / 4096).natAbs ≤ 524287) :
    ∃ g' f, cmdGline g x1 y1 x2 y2 a = .ok (g', none) ∧ Draws g g' f := by
  obtain ⟨ps, hps, -⟩ := linePixels_eq (x1 / 4096) (y1 / 4096) (x2 / 4096) (y2 / 4096) hx hy
  unfold cmdGline
  rw [withColor_ok hc]
  unfold fpToInt
  rw [hps]
  exact ⟨_, _, rfl, drawAll_draws g ps c⟩

theorem lineLoop_ub (s base : Int) : ∀ (n : Nat) (k j : Int), k ≤ j → j < k + n → ¬ I32 (s * j) → lineLoop s base n k = .ub := by
  intro n
  induction n with
  | zero => intro k j h1 h2; omega
  | succ n ih =>
    intro k j h1 h2 h3
    rw [lineLoop]
    by_cases he : k = j
    · subst he
      unfold minorAt
      rw [if_pos h3]; rfl
    · unfold minorAt
      split
      · rfl
      · split
        · rfl
        · simp only [Out.bind]
          rw [ih (k + 1) j (by omega) (by omega) h3]

/-- **C52 (refuted cases).** `GLINE -100000,0,155,20` does not draw its end point (155,20), a dot of the screen;
and `GLINE -300000,-300000,300000,300000` overflows a signed multiplication. -/
theorem C52_long_violated :
    (∃ ps, linePixels (-100000) 0 155 20 = .ok ps ∧ (155, 20) ∉ ps) ∧
    linePixels (-300000) (-300000) 300000 300000 = .ub := by
  constructor
  · unfold linePixels
    rw [if_pos (by decide), if_neg (by decide)]
    simp only []
    rw [if_neg (by decide)]
    simp only []
    rw [show slope (20 - 0) (155 - -100000) = 0 by decide]
    rw [lineLoop_ok 0 0 524287 (by decide) (by decide) _ 0 (by decide) (by decide)]
    refine ⟨_, rfl, ?_⟩
    rw [List.map_map, List.mem_map]
    rintro ⟨i, -, he⟩
    simp only [Function.comp, minor, Prod.mk.injEq, Int.zero_mul] at he
    exact absurd he.2 (by decide)
  · unfold linePixels
    rw [if_pos (by decide), if_neg (by decide)]
    simp only []
    rw [if_neg (by decide)]
    simp only []
    rw [show slope (300000 - -300000) (300000 - -300000) = 4096 by decide]
    rw [lineLoop_ub 4096 (-300000) _ 0 600000 (by omega) (by decide) (by decide)]
    rfl

/-- A steep line drawn upwards. -/
example : linePixels 2 5 1 1 = .ok [(1, 1), (1, 2), (2, 3), (2, 4), (2, 5)] := by decide +kernel

end Sbc.Graphics
