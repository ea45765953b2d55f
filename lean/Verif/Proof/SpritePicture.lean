import Verif.Proof.Display
set_option autoImplicit false
namespace Sbc.Display
open Sbc Sbc.Display.Spec

theorem spriteRow_eq (ax ay bx b_y : Int) (pal : Nat) : ∀ (n : Nat) (xc yc chr : Int),
    spriteRow ax ay bx b_y pal n xc yc chr = (List.range n).map fun (i : Nat) => spriteQuad (xc + i * ax) (yc + i * ay) ax ay bx b_y pal (chr + i)
  | 0, _, _, _ => rfl
  | n + 1, xc, yc, chr => by
    rw [spriteRow, spriteRow_eq ax ay bx b_y pal n, List.range_succ_eq_map, List.map_cons, List.map_map]
    congr 1
    · simp
    · apply List.map_congr_left
      intro i _
      simp only [Function.comp]
      congr 1
      · rw [Int.natCast_succ, Int.add_mul, Int.one_mul]; omega
      · rw [Int.natCast_succ, Int.add_mul, Int.one_mul]; omega
      · rw [Int.natCast_succ]; omega

theorem spriteRows_eq (ax b_y : Int) (pal cols : Nat) : ∀ (n : Nat) (xc yc chr : Int),
    spriteRows ax 0 0 b_y pal cols n xc yc chr = (List.range n).flatMap fun (j : Nat) => (List.range cols).map fun (i : Nat) =>
      spriteQuad (xc + i * ax) (yc + j * b_y) ax 0 0 b_y pal (chr + j * cols + i)
  | 0, _, _, _ => rfl
  | n + 1, xc, yc, chr => by
    rw [spriteRows, spriteRow_eq, spriteRows_eq ax b_y pal cols n, List.range_succ_eq_map, List.flatMap_cons, List.flatMap_map]
    congr 1
    · apply List.map_congr_left
      intro i _
      congr 1 <;> simp
    · simp only [List.flatMap_def]
      congr 1
      apply List.map_congr_left
      intro j _
      apply List.map_congr_left
      intro i _
      congr 1
      · rw [Int.neg_mul]; omega
      · rw [Int.natCast_succ, Int.add_mul, Int.one_mul]; simp; omega
      · rw [Int.natCast_succ, Int.add_mul, Int.one_mul]; omega

/-- One tile in the direction of the image. -/
def dir (flip : Bool) : Int := if flip then -8 else 8

/-- Distance from the edge where the image begins. -/
def away (flip : Bool) (X p : Int) : Int := if flip then X - 1 - p else p - X

theorem axis_inside (flip : Bool) (X p : Int) (i : Nat) :
    inside (X + i * dir flip) (X + i * dir flip + dir flip) p ↔ away flip X p / 8 = i := by
  unfold inside dir away
  cases flip
  · simp only [Bool.false_eq_true, if_false]; omega
  · simp only [if_true]; omega

theorem axis_interp {flip : Bool} {X p : Int} {i : Nat} (h : away flip X p / 8 = i) (u : Int) :
    interp (X + i * dir flip) (X + i * dir flip + dir flip) u (u + 8) p = u + away flip X p % 8 := by
  have hi := (axis_inside flip X p i).mpr h
  cases flip
  · unfold dir away at *
    simp only [Bool.false_eq_true, if_false] at *
    rw [interp_right hi]; omega
  · unfold dir away at *
    simp only [if_true] at *
    rw [show X + (i : Int) * -8 + -8 = X + i * -8 - 8 by omega] at hi ⊢
    rw [interp_back hi]; omega

theorem fp_step (x : Int) (flip : Bool) (i : Nat) : fpToInt (x + i * (4096 * dir flip)) = fpToInt x + i * dir flip := by
  unfold fpToInt dir
  cases flip
  · simp only [Bool.false_eq_true, if_false]; omega
  · simp only [if_true]; omega

/-- Where a quad of an unscaled sprite is. -/
theorem spriteQuad_at (x y : Int) (fx fy : Bool) (i j n : Nat) (pal : Nat) (px py : Int) :
    (spriteQuad (x + i * (4096 * dir fx)) (y + j * (4096 * dir fy)) (4096 * dir fx) 0 0 (4096 * dir fy) pal n).at px py =
      if away fx (fpToInt x) px / 8 = i ∧ away fy (fpToInt y) py / 8 = j then
        some (8 * ((n % 32 : Nat) : Int) + away fx (fpToInt x) px % 8, 8 * ((n / 32 : Nat) : Int) + away fy (fpToInt y) py % 8)
      else none := by
  have tm : (n : Int).tmod 32 = (n % 32 : Nat) := by rw [Int.tmod_eq_emod_of_nonneg (by omega)]; rfl
  have td : (n : Int).tdiv 32 = (n / 32 : Nat) := by rw [Int.tdiv_eq_ediv_of_nonneg (by omega)]; rfl
  have ex : fpToInt (x + i * (4096 * dir fx)) = fpToInt x + i * dir fx := fp_step x fx i
  have ey : fpToInt (y + j * (4096 * dir fy)) = fpToInt y + j * dir fy := fp_step y fy j
  have ex' : fpToInt (x + i * (4096 * dir fx) + 4096 * dir fx + 0) = fpToInt x + i * dir fx + dir fx := by
    have := fp_step (x + i * (4096 * dir fx)) fx 1
    rw [ex] at this
    rw [show ((1 : Nat) : Int) = 1 from rfl, Int.one_mul, Int.one_mul] at this
    rw [Int.add_zero]; exact this
  have ey' : fpToInt (y + j * (4096 * dir fy) + 0 + 4096 * dir fy) = fpToInt y + j * dir fy + dir fy := by
    have := fp_step (y + j * (4096 * dir fy)) fy 1
    rw [ey] at this
    rw [show ((1 : Nat) : Int) = 1 from rfl, Int.one_mul, Int.one_mul] at this
    rw [Int.add_zero]; exact this
  have key : ∀ a a' c c' u u' v v' : Int, Quad.at ⟨⟨a, c, pal, u, v⟩, ⟨a', c, pal, u', v⟩, ⟨a', c', pal, u', v'⟩, ⟨a, c', pal, u, v'⟩⟩ px py =
      if inside a a' px ∧ inside c c' py then some (interp a a' u u' px, interp c c' v v' py) else none := fun _ _ _ _ _ _ _ _ => rfl
  have hq : spriteQuad (x + i * (4096 * dir fx)) (y + j * (4096 * dir fy)) (4096 * dir fx) 0 0 (4096 * dir fy) pal n =
      ⟨⟨fpToInt x + i * dir fx, fpToInt y + j * dir fy, pal, 8 * ((n % 32 : Nat) : Int), 8 * ((n / 32 : Nat) : Int)⟩,
       ⟨fpToInt x + i * dir fx + dir fx, fpToInt y + j * dir fy, pal, 8 * ((n % 32 : Nat) : Int) + 8, 8 * ((n / 32 : Nat) : Int)⟩,
       ⟨fpToInt x + i * dir fx + dir fx, fpToInt y + j * dir fy + dir fy, pal, 8 * ((n % 32 : Nat) : Int) + 8, 8 * ((n / 32 : Nat) : Int) + 8⟩,
       ⟨fpToInt x + i * dir fx, fpToInt y + j * dir fy + dir fy, pal, 8 * ((n % 32 : Nat) : Int), 8 * ((n / 32 : Nat) : Int) + 8⟩⟩ := by
    unfold spriteQuad texCoords
    dsimp only
    rw [tm, td, ex', ey', ex, ey]
    rw [Int.add_zero] at ex' ey'
    simp only [Int.add_zero, ex', ey', ex, ey, Int.mul_add, Int.mul_one]
  rw [hq, key]
  by_cases h : away fx (fpToInt x) px / 8 = i ∧ away fy (fpToInt y) py / 8 = j
  · rw [if_pos h, if_pos ⟨(axis_inside _ _ _ _).mpr h.1, (axis_inside _ _ _ _).mpr h.2⟩, axis_interp h.1, axis_interp h.2]
  · rw [if_neg h, if_neg (fun hh => h ⟨(axis_inside _ _ _ _).mp hh.1, (axis_inside _ _ _ _).mp hh.2⟩)]

/-- A rectangle of quads of an unscaled sprite. -/
theorem sprite_draw {s : Scene} {b : Res.Bank} (hf : Fresh s b) {k t : Nat} (hk : k < 6) (hk' : k % 3 ≠ 2) (ht : t < 10) {x y : Int} {fx fy : Bool}
    {pal cols rows chr : Nat} (hp : pal < 16) (hc : chr + rows * cols ≤ texSize t) (px py : Int) :
    s.draw k t ((List.range rows).flatMap fun (j : Nat) => (List.range cols).map fun (i : Nat) =>
      spriteQuad (x + i * (4096 * dir fx)) (y + j * (4096 * dir fy)) (4096 * dir fx) 0 0 (4096 * dir fy) (16 * pal) ((chr : Int) + j * cols + i)) px py =
    if 0 ≤ away fx (fpToInt x) px ∧ away fx (fpToInt x) px < 8 * cols ∧ 0 ≤ away fy (fpToInt y) py ∧ away fy (fpToInt y) py < 8 * rows then
      paint b k pal (dot b (texBanks t).1 (chr + (away fy (fpToInt y) py).toNat / 8 * cols + (away fx (fpToInt x) px).toNat / 8)
        ((away fx (fpToInt x) px).toNat % 8) ((away fy (fpToInt y) py).toNat % 8))
    else none := by
  have cast : ∀ i j : Nat, (chr : Int) + j * cols + i = ((chr + j * cols + i : Nat) : Int) := fun i j => by simp
  unfold Scene.draw
  generalize hdx : away fx (fpToInt x) px = dx
  generalize hdy : away fy (fpToInt y) py = dy
  by_cases h : 0 ≤ dx ∧ dx < 8 * cols ∧ 0 ≤ dy ∧ dy < 8 * rows
  · rw [if_pos h]
    obtain ⟨i, hi⟩ : ∃ i : Nat, dx / 8 = i := ⟨(dx / 8).toNat, by omega⟩
    obtain ⟨j, hj⟩ : ∃ j : Nat, dy / 8 = j := ⟨(dy / 8).toNat, by omega⟩
    have hn : chr + j * cols + i < texSize t := by
      have : j * cols + cols ≤ rows * cols := by
        rw [← Nat.succ_mul]; exact Nat.mul_le_mul_right _ (by omega)
      omega
    rw [draw_unique (q0 := spriteQuad (x + i * (4096 * dir fx)) (y + j * (4096 * dir fy)) (4096 * dir fx) 0 0 (4096 * dir fy) (16 * pal) ((chr : Int) + j * cols + i))]
    · unfold Quad.color
      rw [cast, spriteQuad_at, hdx, hdy, if_pos ⟨hi, hj⟩]
      show shade s.colTex k (16 * pal) (texel (s.chrTex t) (texHeight t) _ _) = _
      rw [show 8 * (((chr + j * cols + i) % 32 : Nat) : Int) + dx % 8 = ((8 * ((chr + j * cols + i) % 32) + dx.toNat % 8 : Nat) : Int) by omega,
        show 8 * (((chr + j * cols + i) / 32 : Nat) : Int) + dy % 8 = ((8 * ((chr + j * cols + i) / 32) + dy.toNat % 8 : Nat) : Int) by omega,
        hf.chr t ht _ hn _ (by omega) _ (by omega), shade_spec hf hk hk' hp (dot_lt _ _ _ _ _),
        show dy.toNat / 8 = j by omega, show dx.toNat / 8 = i by omega]
    · exact List.mem_flatMap.mpr ⟨j, List.mem_range.mpr (by omega), List.mem_map.mpr ⟨i, List.mem_range.mpr (by omega), rfl⟩⟩
    · intro q hq
      obtain ⟨j', hj', hq⟩ := List.mem_flatMap.mp hq
      obtain ⟨i', hi', rfl⟩ := List.mem_map.mp hq
      by_cases e : i' = i ∧ j' = j
      · right; rw [e.1, e.2]
      · left
        rw [cast, spriteQuad_at, hdx, hdy, if_neg]
        omega
  · rw [if_neg h, drawVa_eq]
    have : ∀ (l : List Quad) (acc : Option Rgb), (∀ q ∈ l, q.at px py = none) →
        l.foldl (fun acc q => (q.color s.colTex k (s.chrTex t) (texHeight t) px py).or acc) acc = acc := by
      intro l
      induction l with
      | nil => intro acc _; rfl
      | cons q l ih =>
        intro acc hq
        rw [List.foldl_cons, show q.color s.colTex k (s.chrTex t) (texHeight t) px py = none by unfold Quad.color; rw [hq q (by simp)], Option.none_or]
        exact ih acc fun q h => hq q (List.mem_cons_of_mem _ h)
    apply this
    intro q hq
    obtain ⟨j', hj', hq⟩ := List.mem_flatMap.mp hq
    obtain ⟨i', hi', rfl⟩ := List.mem_map.mp hq
    have h1 := List.mem_range.mp hj'
    have h2 := List.mem_range.mp hi'
    rw [cast, spriteQuad_at, hdx, hdy, if_neg]
    omega

/-- The quads of an unscaled sprite. -/
theorem addSprite_unscaled {i : Sprites.Sprite} (hs : i.scale.v = 4096) (hw : 0 < i.w ∧ i.w < 256) (hh : 0 < i.h ∧ i.h < 256)
    (hx : -1073741824 ≤ i.pos.x ∧ i.pos.x ≤ 1073741824) (hy : -1073741824 ≤ i.pos.y ∧ i.pos.y ≤ 1073741824)
    (hhx : -32768 ≤ i.homeX ∧ i.homeX ≤ 32767) (hhy : -32768 ≤ i.homeY ∧ i.homeY ≤ 32767) :
    addSprite i = .ok ((List.range (i.h / 8)).flatMap fun (j : Nat) => (List.range (i.w / 8)).map fun (k : Nat) =>
      spriteQuad (i.pos.x + 4096 * ((if i.flipX then (i.w : Int) else 0) - i.homeX) + k * (4096 * dir i.flipX))
        (i.pos.y + 4096 * ((if i.flipY then (i.h : Int) else 0) - i.homeY) + j * (4096 * dir i.flipY)) (4096 * dir i.flipX) 0 0 (4096 * dir i.flipY) (16 * i.pal % 256)
        (4 * Sprites.shownChr i + j * (i.w / 8 : Nat) + k)) := by
  have td : ∀ (n : Nat), 0 < n → ((n : Int) * 4096).tdiv n = 4096 ∧ (-((n : Int) * 4096)).tdiv n = -4096 := by
    intro n hn
    have h0 : (n : Int) ≠ 0 := by omega
    rw [Int.neg_tdiv, Int.mul_tdiv_cancel_left _ h0]
    exact ⟨rfl, rfl⟩
  unfold addSprite
  dsimp only
  rw [hs]
  rw [if_pos (by unfold I32; cases i.flipX <;> cases i.flipY <;> simp only [Bool.false_eq_true, if_false, if_true] <;> omega)]
  congr 1
  have ex : ((if i.flipX = true then -4096 * i.homeX else -4096 * i.homeX + ↑i.w * 4096) + i.pos.x -
      ((if i.flipX = true then -4096 * i.homeX + ↑i.w * 4096 else -4096 * i.homeX) + i.pos.x)).tdiv i.w * 8 = 4096 * dir i.flipX := by
    obtain ⟨t1, t2⟩ := td i.w hw.1
    unfold dir
    cases i.flipX
    · simp only [Bool.false_eq_true, if_false]
      rw [show -4096 * i.homeX + ↑i.w * 4096 + i.pos.x - (-4096 * i.homeX + i.pos.x) = (i.w : Int) * 4096 by omega, t1]
    · simp only [if_true]
      rw [show -4096 * i.homeX + i.pos.x - (-4096 * i.homeX + ↑i.w * 4096 + i.pos.x) = -((i.w : Int) * 4096) by omega, t2]; rfl
  have ey : ((if i.flipY = true then -4096 * i.homeY else -4096 * i.homeY + ↑i.h * 4096) + i.pos.y -
      ((if i.flipY = true then -4096 * i.homeY + ↑i.h * 4096 else -4096 * i.homeY) + i.pos.y)).tdiv i.h * 8 = 4096 * dir i.flipY := by
    obtain ⟨t1, t2⟩ := td i.h hh.1
    unfold dir
    cases i.flipY
    · simp only [Bool.false_eq_true, if_false]
      rw [show -4096 * i.homeY + ↑i.h * 4096 + i.pos.y - (-4096 * i.homeY + i.pos.y) = (i.h : Int) * 4096 by omega, t1]
    · simp only [if_true]
      rw [show -4096 * i.homeY + i.pos.y - (-4096 * i.homeY + ↑i.h * 4096 + i.pos.y) = -((i.h : Int) * 4096) by omega, t2]; rfl
  rw [ex, ey, Int.sub_self, Int.sub_self, Int.zero_tdiv, Int.zero_tdiv, Int.zero_mul, spriteRows_eq]
  simp only [List.flatMap_def]
  congr 1
  apply List.map_congr_left
  intro j _
  apply List.map_congr_left
  intro k _
  congr 1
  · cases i.flipX <;> simp only [Bool.false_eq_true, if_false, if_true] <;> omega
  · cases i.flipY <;> simp only [Bool.false_eq_true, if_false, if_true] <;> omega

end Sbc.Display
