import Verif.Proof.SpritePicture
import Verif.Spec.Picture
set_option autoImplicit false
namespace Sbc.Display
open Sbc Sbc.Display.Spec

/-- The width of a column. -/
def width (o sc : Int) (flip : Bool) (j : Nat) : Int :=
  if flip then edge o sc flip j - edge o sc flip (j + 1) else edge o sc flip (j + 1) - edge o sc flip j

/-- Distance of a pixel from the edge of a column. -/
def gap (o sc : Int) (flip : Bool) (j : Nat) (p : Int) : Int := if flip then edge o sc flip j - 1 - p else p - edge o sc flip j

/-- The pixel is in the column. -/
def within (o sc : Int) (flip : Bool) (p : Int) (j : Nat) : Prop := 0 ≤ gap o sc flip j p ∧ gap o sc flip j p < width o sc flip j

instance (o sc : Int) (flip : Bool) (p : Int) (j : Nat) : Decidable (within o sc flip p j) := inferInstanceAs (Decidable (_ ∧ _))

/-- The dot. -/
def sample (o sc : Int) (flip : Bool) (j : Nat) (p : Int) : Nat := (8 * (2 * gap o sc flip j p + 1) / (2 * width o sc flip j)).toNat

theorem column_eq (o sc : Int) (flip : Bool) (n : Nat) (p : Int) :
    column o sc flip n p = (List.range n).findSome? fun j => if within o sc flip p j then some (j, sample o sc flip j p) else none := rfl

theorem edge_mono {o sc : Int} (h : 0 ≤ sc) (flip : Bool) {j k : Nat} (hjk : j ≤ k) :
    if flip then edge o sc flip k ≤ edge o sc flip j else edge o sc flip j ≤ edge o sc flip k := by
  have : 8 * sc * j ≤ 8 * sc * k := Int.mul_le_mul_of_nonneg_left (by omega) (by omega)
  unfold edge
  cases flip <;> simp only [Bool.false_eq_true, if_false, if_true] <;> omega

theorem within_unique {o sc : Int} (h : 0 ≤ sc) {flip : Bool} {p : Int} {j k : Nat} (hj : within o sc flip p j) (hk : within o sc flip p k) : j = k := by
  have key : ∀ {j k : Nat}, within o sc flip p j → within o sc flip p k → ¬ j < k := by
    intro j k hj hk hlt
    have := edge_mono (o := o) h flip (show j + 1 ≤ k by omega)
    unfold within gap width at hj hk
    cases flip <;> simp only [Bool.false_eq_true, if_false, if_true] at * <;> omega
  have := key hj hk
  have := key hk hj
  omega

theorem column_some {o sc : Int} (h : 0 ≤ sc) {flip : Bool} {n : Nat} {p : Int} {j : Nat} (hj : j < n) (hw : within o sc flip p j) :
    column o sc flip n p = some (j, sample o sc flip j p) := by
  rw [column_eq]
  cases hf : (List.range n).findSome? fun j => if within o sc flip p j then some (j, sample o sc flip j p) else none with
  | none =>
    have := List.findSome?_eq_none_iff.mp hf j (List.mem_range.mpr hj)
    rw [if_pos hw] at this
    cases this
  | some r =>
    obtain ⟨k, _, hk⟩ := List.exists_of_findSome?_eq_some hf
    by_cases hkw : within o sc flip p k
    · rw [if_pos hkw] at hk
      rw [← hk, within_unique h hw hkw]
    · rw [if_neg hkw] at hk; cases hk

theorem column_none {o sc : Int} {flip : Bool} {n : Nat} {p : Int} (hc : column o sc flip n p = none) {j : Nat} (hj : j < n) : ¬ within o sc flip p j := by
  rw [column_eq] at hc
  intro hw
  have := List.findSome?_eq_none_iff.mp hc j (List.mem_range.mpr hj)
  rw [if_pos hw] at this
  cases this

theorem column_cases (o sc : Int) (flip : Bool) (n : Nat) (p : Int) (h : 0 ≤ sc) :
    (∃ j, j < n ∧ within o sc flip p j ∧ column o sc flip n p = some (j, sample o sc flip j p)) ∨
    (column o sc flip n p = none ∧ ∀ j, j < n → ¬ within o sc flip p j) := by
  by_cases hx : ∃ j, j < n ∧ within o sc flip p j
  · obtain ⟨j, hj, hw⟩ := hx
    exact .inl ⟨j, hj, hw, column_some h hj hw⟩
  · right
    have hno : ∀ j, j < n → ¬ within o sc flip p j := fun j hj hw => hx ⟨j, hj, hw⟩
    refine ⟨?_, hno⟩
    rw [column_eq, List.findSome?_eq_none_iff]
    intro j hj
    rw [if_neg (hno j (List.mem_range.mp hj))]

theorem inside_within {o sc : Int} (h : 0 ≤ sc) (flip : Bool) (p : Int) (j : Nat) :
    inside (edge o sc flip j) (edge o sc flip (j + 1)) p ↔ within o sc flip p j := by
  have := edge_mono (o := o) h flip (show j ≤ j + 1 by omega)
  unfold inside within gap width
  cases flip <;> simp only [Bool.false_eq_true, if_false, if_true] at * <;> omega

theorem sample_nonneg {o sc : Int} {flip : Bool} {p : Int} {j : Nat} (hw : within o sc flip p j) :
    ((sample o sc flip j p : Nat) : Int) = 8 * (2 * gap o sc flip j p + 1) / (2 * width o sc flip j) ∧ sample o sc flip j p < 8 := by
  unfold within at hw
  unfold sample
  generalize gap o sc flip j p = q at *
  generalize width o sc flip j = w at *
  have h0 : 0 ≤ 8 * (2 * q + 1) / (2 * w) := Int.ediv_nonneg (by omega) (by omega)
  have h8 : 8 * (2 * q + 1) / (2 * w) < 8 := Int.ediv_lt_of_lt_mul (by omega) (by omega)
  omega

theorem interp_within {o sc : Int} {flip : Bool} {p : Int} {j : Nat} (hw : within o sc flip p j) (u : Int) :
    interp (edge o sc flip j) (edge o sc flip (j + 1)) u (u + 8) p = u + (sample o sc flip j p : Nat) := by
  rw [(sample_nonneg hw).1]
  unfold within at hw
  unfold interp
  cases flip
  · unfold gap width at *
    simp only [Bool.false_eq_true, if_false] at *
    generalize edge o sc false j = a at *
    generalize edge o sc false (j + 1) = b at *
    rw [Int.fdiv_eq_ediv_of_nonneg _ (by omega), show u + 8 - u = 8 by omega, show 2 * u * (b - a) = u * (2 * (b - a)) by rw [Int.mul_comm 2 u, Int.mul_assoc],
      Int.add_comm, Int.add_mul_ediv_right _ _ (by omega), Int.mul_comm (2 * (p - a) + 1) 8, Int.add_comm]
  · unfold gap width at *
    simp only [if_true] at *
    generalize edge o sc true j = a at *
    generalize edge o sc true (j + 1) = b at *
    have e : 2 * u * (b - a) + (2 * (p - a) + 1) * (u + 8 - u) = -(8 * (2 * (a - 1 - p) + 1) + u * (2 * (a - b))) := by
      rw [show b - a = -(a - b) by omega, show 2 * u * -(a - b) = -(u * (2 * (a - b))) by rw [Int.mul_neg, Int.mul_comm 2 u, Int.mul_assoc]]
      omega
    rw [e, show 2 * (b - a) = -(2 * (a - b)) by omega, Int.neg_fdiv_neg, Int.fdiv_eq_ediv_of_nonneg _ (by omega), Int.add_mul_ediv_right _ _ (by omega), Int.add_comm]

/-- One character in the direction of the image. -/
def stride (sc : Int) (flip : Bool) : Int := if flip then -(8 * sc) else 8 * sc

theorem edge_fp (o sc : Int) (flip : Bool) (j : Nat) : fpToInt (o + j * stride sc flip) = edge o sc flip j := by
  unfold fpToInt edge stride
  cases flip
  · simp only [Bool.false_eq_true, if_false]
    rw [Int.mul_comm (j : Int)]
  · simp only [if_true]
    rw [Int.mul_comm (j : Int), Int.neg_mul, Int.sub_eq_add_neg]

theorem edge_next (o sc : Int) (flip : Bool) (j : Nat) : fpToInt (o + j * stride sc flip + stride sc flip) = edge o sc flip (j + 1) := by
  rw [← edge_fp]
  congr 1
  rw [Int.natCast_succ, Int.add_mul, Int.one_mul]
  omega

/-- Where a quad of a scaled sprite is. -/
theorem scaledQuad_at {x y sc : Int} (h : 0 ≤ sc) (fx fy : Bool) (i j n : Nat) (pal : Nat) (px py : Int) :
    (spriteQuad (x + i * stride sc fx) (y + j * stride sc fy) (stride sc fx) 0 0 (stride sc fy) pal n).at px py =
      if within x sc fx px i ∧ within y sc fy py j then
        some (8 * ((n % 32 : Nat) : Int) + (sample x sc fx i px : Nat), 8 * ((n / 32 : Nat) : Int) + (sample y sc fy j py : Nat))
      else none := by
  have tm : (n : Int).tmod 32 = (n % 32 : Nat) := by rw [Int.tmod_eq_emod_of_nonneg (by omega)]; rfl
  have td : (n : Int).tdiv 32 = (n / 32 : Nat) := by rw [Int.tdiv_eq_ediv_of_nonneg (by omega)]; rfl
  have key : ∀ a a' c c' u u' v v' : Int, Quad.at ⟨⟨a, c, pal, u, v⟩, ⟨a', c, pal, u', v⟩, ⟨a', c', pal, u', v'⟩, ⟨a, c', pal, u, v'⟩⟩ px py =
      if inside a a' px ∧ inside c c' py then some (interp a a' u u' px, interp c c' v v' py) else none := fun _ _ _ _ _ _ _ _ => rfl
  have hq : spriteQuad (x + i * stride sc fx) (y + j * stride sc fy) (stride sc fx) 0 0 (stride sc fy) pal n =
      ⟨⟨edge x sc fx i, edge y sc fy j, pal, 8 * ((n % 32 : Nat) : Int), 8 * ((n / 32 : Nat) : Int)⟩,
       ⟨edge x sc fx (i + 1), edge y sc fy j, pal, 8 * ((n % 32 : Nat) : Int) + 8, 8 * ((n / 32 : Nat) : Int)⟩,
       ⟨edge x sc fx (i + 1), edge y sc fy (j + 1), pal, 8 * ((n % 32 : Nat) : Int) + 8, 8 * ((n / 32 : Nat) : Int) + 8⟩,
       ⟨edge x sc fx i, edge y sc fy (j + 1), pal, 8 * ((n % 32 : Nat) : Int), 8 * ((n / 32 : Nat) : Int) + 8⟩⟩ := by
    unfold spriteQuad texCoords
    dsimp only
    simp only [tm, td, Int.add_zero, edge_fp, edge_next, Int.mul_add, Int.mul_one]
  rw [hq, key]
  by_cases hh : within x sc fx px i ∧ within y sc fy py j
  · rw [if_pos hh, if_pos ⟨(inside_within h _ _ _).mpr hh.1, (inside_within h _ _ _).mpr hh.2⟩, interp_within hh.1, interp_within hh.2]
  · rw [if_neg hh, if_neg (fun k => hh ⟨(inside_within h _ _ _).mp k.1, (inside_within h _ _ _).mp k.2⟩)]

/-- A rectangle of quads of a scaled sprite. -/
theorem scaled_draw {s : Scene} {b : Res.Bank} (hf : Fresh s b) {k t : Nat} (hk : k < 6) (hk' : k % 3 ≠ 2) (ht : t < 10) {x y sc : Int} (h : 0 ≤ sc) {fx fy : Bool}
    {pal cols rows chr : Nat} (hp : pal < 16) (hc : chr + rows * cols ≤ texSize t) (px py : Int) :
    s.draw k t ((List.range rows).flatMap fun (j : Nat) => (List.range cols).map fun (i : Nat) =>
      spriteQuad (x + i * stride sc fx) (y + j * stride sc fy) (stride sc fx) 0 0 (stride sc fy) (16 * pal) ((chr : Int) + j * cols + i)) px py =
    match column x sc fx cols px, column y sc fy rows py with
    | some (cx, dx), some (cy, dy) => paint b k pal (dot b (texBanks t).1 (chr + cy * cols + cx) dx dy)
    | _, _ => none := by
  have cast : ∀ i j : Nat, (chr : Int) + j * cols + i = ((chr + j * cols + i : Nat) : Int) := fun i j => by simp
  have hnone : (∀ i j, i < cols → j < rows → ¬ (within x sc fx px i ∧ within y sc fy py j)) →
      s.draw k t ((List.range rows).flatMap fun (j : Nat) => (List.range cols).map fun (i : Nat) =>
        spriteQuad (x + i * stride sc fx) (y + j * stride sc fy) (stride sc fx) 0 0 (stride sc fy) (16 * pal) ((chr : Int) + j * cols + i)) px py = none := by
    intro hno
    unfold Scene.draw
    rw [drawVa_eq]
    have : ∀ (l : List Quad) (acc : Option Rgb), (∀ q ∈ l, q.at px py = none) →
        l.foldl (fun acc q => (q.color s.colTex k (s.chrTex t) (texHeight t) px py).or acc) acc = acc := by
      intro l
      induction l with
      | nil => intro acc _; rfl
      | cons q l ih =>
        intro acc hq
        rw [List.foldl_cons, show q.color s.colTex k (s.chrTex t) (texHeight t) px py = none by unfold Quad.color; rw [hq q (by simp)], Option.none_or]
        exact ih acc fun q h => hq q (List.mem_cons_of_mem _ h)
    apply this
    intro q hq
    obtain ⟨j', hj', hq⟩ := List.mem_flatMap.mp hq
    obtain ⟨i', hi', rfl⟩ := List.mem_map.mp hq
    rw [cast, scaledQuad_at h, if_neg (hno _ _ (List.mem_range.mp hi') (List.mem_range.mp hj'))]
  rcases column_cases x sc fx cols px h with ⟨i, hi, wi, ei⟩ | ⟨ei, ni⟩
  · rcases column_cases y sc fy rows py h with ⟨j, hj, wj, ej⟩ | ⟨ej, nj⟩
    · rw [ei, ej]
      dsimp only
      have hn : chr + j * cols + i < texSize t := by
        have : j * cols + cols ≤ rows * cols := by
          rw [← Nat.succ_mul]; exact Nat.mul_le_mul_right _ (by omega)
        omega
      have s1 := (sample_nonneg wi).2
      have s2 := (sample_nonneg wj).2
      unfold Scene.draw
      rw [draw_unique (q0 := spriteQuad (x + i * stride sc fx) (y + j * stride sc fy) (stride sc fx) 0 0 (stride sc fy) (16 * pal) ((chr : Int) + j * cols + i))]
      · unfold Quad.color
        rw [cast, scaledQuad_at h, if_pos ⟨wi, wj⟩]
        show shade s.colTex k (16 * pal) (texel (s.chrTex t) (texHeight t) _ _) = _
        rw [show 8 * (((chr + j * cols + i) % 32 : Nat) : Int) + (sample x sc fx i px : Nat) = ((8 * ((chr + j * cols + i) % 32) + sample x sc fx i px : Nat) : Int) by omega,
          show 8 * (((chr + j * cols + i) / 32 : Nat) : Int) + (sample y sc fy j py : Nat) = ((8 * ((chr + j * cols + i) / 32) + sample y sc fy j py : Nat) : Int) by omega,
          hf.chr t ht _ hn _ s1 _ s2, shade_spec hf hk hk' hp (dot_lt _ _ _ _ _)]
      · exact List.mem_flatMap.mpr ⟨j, List.mem_range.mpr hj, List.mem_map.mpr ⟨i, List.mem_range.mpr hi, rfl⟩⟩
      · intro q hq
        obtain ⟨j', hj', hq⟩ := List.mem_flatMap.mp hq
        obtain ⟨i', hi', rfl⟩ := List.mem_map.mp hq
        by_cases e : i' = i ∧ j' = j
        · right; rw [e.1, e.2]
        · left
          rw [cast, scaledQuad_at h, if_neg]
          rintro ⟨a, c⟩
          exact e ⟨within_unique h a wi, within_unique h c wj⟩
    · rw [ej, hnone fun i' j' _ hj' hh => nj j' hj' hh.2]
      cases column x sc fx cols px <;> rfl
  · rw [ei, hnone fun i' j' hi' _ hh => ni i' hi' hh.1]

/-- The quads of a sprite without angle. -/
theorem addSprite_scaled {i : Sprites.Sprite} (hs : 0 ≤ i.scale.v ∧ i.scale.v ≤ 8192) (hw : 0 < i.w ∧ i.w < 256) (hh : 0 < i.h ∧ i.h < 256)
    (hx : -1073741824 ≤ i.pos.x ∧ i.pos.x ≤ 1073741824) (hy : -1073741824 ≤ i.pos.y ∧ i.pos.y ≤ 1073741824)
    (hhx : -32768 ≤ i.homeX ∧ i.homeX ≤ 32767) (hhy : -32768 ≤ i.homeY ∧ i.homeY ≤ 32767) :
    addSprite i = .ok ((List.range (i.h / 8)).flatMap fun (j : Nat) => (List.range (i.w / 8)).map fun (k : Nat) =>
      spriteQuad (i.pos.x + i.scale.v * ((if i.flipX then (i.w : Int) else 0) - i.homeX) + k * stride i.scale.v i.flipX)
        (i.pos.y + i.scale.v * ((if i.flipY then (i.h : Int) else 0) - i.homeY) + j * stride i.scale.v i.flipY) (stride i.scale.v i.flipX) 0 0 (stride i.scale.v i.flipY)
        (16 * i.pal % 256) (4 * Sprites.shownChr i + j * (i.w / 8 : Nat) + k)) := by
  generalize hsc : i.scale.v = sc at *
  have td : ∀ (n : Nat), 0 < n → ((n : Int) * sc).tdiv n = sc ∧ (-((n : Int) * sc)).tdiv n = -sc := by
    intro n hn
    have h0 : (n : Int) ≠ 0 := by omega
    rw [Int.neg_tdiv, Int.mul_tdiv_cancel_left _ h0]
    exact ⟨rfl, rfl⟩
  have bw : ∀ n : Nat, n < 256 → 0 ≤ (n : Int) * sc ∧ (n : Int) * sc ≤ 2097152 := by
    intro n hn
    refine ⟨Int.mul_nonneg (by omega) hs.1, ?_⟩
    have := Int.mul_le_mul (show (n : Int) ≤ 256 by omega) hs.2 hs.1 (by omega)
    omega
  have bh : ∀ a : Int, -32768 ≤ a ∧ a ≤ 32767 → -268435456 ≤ sc * a ∧ sc * a ≤ 268435456 := by
    intro a ha
    have h1 := Int.mul_le_mul_of_nonneg_left ha.2 hs.1
    have h2 := Int.mul_le_mul_of_nonneg_left ha.1 hs.1
    omega
  have w1 := bw i.w hw.2
  have w2 := bw i.h hh.2
  have m1 := bh i.homeX hhx
  have m2 := bh i.homeY hhy
  unfold addSprite
  dsimp only
  rw [hsc]
  have e1 : -sc * i.homeX = -(sc * i.homeX) := Int.neg_mul ..
  have e2 : -sc * i.homeY = -(sc * i.homeY) := Int.neg_mul ..
  have e3 : sc * ((if i.flipX then (i.w : Int) else 0) - i.homeX) = (if i.flipX then (i.w : Int) * sc else 0) - sc * i.homeX := by
    rw [Int.mul_sub]; cases i.flipX <;> simp [Int.mul_comm]
  have e4 : sc * ((if i.flipY then (i.h : Int) else 0) - i.homeY) = (if i.flipY then (i.h : Int) * sc else 0) - sc * i.homeY := by
    rw [Int.mul_sub]; cases i.flipY <;> simp [Int.mul_comm]
  rw [e1, e2, e3, e4]
  obtain ⟨t1, t2⟩ := td i.w hw.1
  obtain ⟨t3, t4⟩ := td i.h hh.1
  generalize (i.w : Int) * sc = A at *
  generalize (i.h : Int) * sc = B at *
  generalize sc * i.homeX = P at *
  generalize sc * i.homeY = Q at *
  rw [if_pos (by unfold I32; cases i.flipX <;> cases i.flipY <;> simp only [Bool.false_eq_true, if_false, if_true] <;> omega)]
  congr 1
  have ex : ((if i.flipX = true then -P else -P + A) + i.pos.x - ((if i.flipX = true then -P + A else -P) + i.pos.x)).tdiv i.w * 8 = stride sc i.flipX := by
    unfold stride
    cases i.flipX
    · simp only [Bool.false_eq_true, if_false]
      rw [show -P + A + i.pos.x - (-P + i.pos.x) = A by omega, t1, Int.mul_comm]
    · simp only [if_true]
      rw [show -P + i.pos.x - (-P + A + i.pos.x) = -A by omega, t2, Int.neg_mul, Int.mul_comm]
  have ey : ((if i.flipY = true then -Q else -Q + B) + i.pos.y - ((if i.flipY = true then -Q + B else -Q) + i.pos.y)).tdiv i.h * 8 = stride sc i.flipY := by
    unfold stride
    cases i.flipY
    · simp only [Bool.false_eq_true, if_false]
      rw [show -Q + B + i.pos.y - (-Q + i.pos.y) = B by omega, t3, Int.mul_comm]
    · simp only [if_true]
      rw [show -Q + i.pos.y - (-Q + B + i.pos.y) = -B by omega, t4, Int.neg_mul, Int.mul_comm]
  rw [ex, ey, Int.sub_self, Int.sub_self, Int.zero_tdiv, Int.zero_tdiv, Int.zero_mul, spriteRows_eq]
  simp only [List.flatMap_def]
  congr 1
  apply List.map_congr_left
  intro j _
  apply List.map_congr_left
  intro k _
  congr 1
  · cases i.flipX <;> simp only [Bool.false_eq_true, if_false, if_true] <;> omega
  · cases i.flipY <;> simp only [Bool.false_eq_true, if_false, if_true] <;> omega

/-- Without scaling: the image of `imageColor`. -/
theorem column_plain (o : Int) (flip : Bool) (n : Nat) (p : Int) :
    column o 4096 flip n p = if 0 ≤ away flip (o / 4096) p ∧ away flip (o / 4096) p < 8 * n then
      some ((away flip (o / 4096) p).toNat / 8, (away flip (o / 4096) p).toNat % 8) else none := by
  have ed : ∀ j : Nat, edge o 4096 flip j = if flip then o / 4096 - 8 * j else o / 4096 + 8 * j := by
    intro j; unfold edge; cases flip <;> simp only [Bool.false_eq_true, if_false, if_true] <;> omega
  have wd : ∀ j : Nat, width o 4096 flip j = 8 := by
    intro j; unfold width; rw [ed, ed]; cases flip <;> simp only [Bool.false_eq_true, if_false, if_true] <;> omega
  have gp : ∀ j : Nat, gap o 4096 flip j p = away flip (o / 4096) p - 8 * j := by
    intro j; unfold gap away; rw [ed]; cases flip <;> simp only [Bool.false_eq_true, if_false, if_true] <;> omega
  rcases column_cases o 4096 flip n p (by decide) with ⟨j, hj, hw, e⟩ | ⟨e, hno⟩
  · rw [e]
    have hw' := hw
    unfold within at hw'
    rw [gp, wd] at hw'
    unfold sample
    rw [gp, wd]
    generalize away flip (o / 4096) p = a at *
    rw [if_pos (by omega), show a.toNat / 8 = j by omega, show (8 * (2 * (a - 8 * j) + 1) / (2 * 8)).toNat = a.toNat % 8 by omega]
  · rw [e]
    by_cases h : 0 ≤ away flip (o / 4096) p ∧ away flip (o / 4096) p < 8 * n
    · exfalso
      refine hno ((away flip (o / 4096) p).toNat / 8) (by omega) ?_
      unfold within
      rw [gp, wd]
      omega
    · rw [if_neg h]

end Sbc.Display
