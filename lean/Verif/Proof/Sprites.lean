import Verif.Proof.Sat
set_option autoImplicit false
/-!
# Collision test of sprites: the loops and the arithmetic
-/
namespace Sbc.Sprites
open Sbc

theorem minMax_fold (d : Int) : ∀ (ds : List Int) (m : Int × Int),
    ((ds.foldl (fun m d => (if d < m.1 then d else m.1, if d > m.2 then d else m.2)) m).1 ≤ d ↔ m.1 ≤ d ∨ ∃ e ∈ ds, e ≤ d) ∧
    (d ≤ (ds.foldl (fun m d => (if d < m.1 then d else m.1, if d > m.2 then d else m.2)) m).2 ↔ d ≤ m.2 ∨ ∃ e ∈ ds, d ≤ e) := by
  intro ds
  induction ds with
  | nil => intro m; simp
  | cons a ds ih =>
    intro m
    obtain ⟨i1, i2⟩ := ih (if a < m.1 then a else m.1, if a > m.2 then a else m.2)
    simp only [List.foldl_cons]
    rw [i1, i2]
    simp only [List.mem_cons, exists_eq_or_imp]
    constructor
    · rw [← or_assoc]
      refine or_congr_left ?_
      split <;> omega
    · rw [← or_assoc]
      refine or_congr_left ?_
      split <;> omega

theorem minMax_spec {ds : List Int} (h0 : ds ≠ []) (h : ∀ e ∈ ds, I64 e) (d : Int) (hd : I64 d) :
    ((minMax ds).1 ≤ d ↔ ∃ e ∈ ds, e ≤ d) ∧ (d ≤ (minMax ds).2 ↔ ∃ e ∈ ds, d ≤ e) := by
  obtain ⟨i1, i2⟩ := minMax_fold d ds (9223372036854775807, -9223372036854775808)
  obtain ⟨e, he⟩ := List.exists_mem_of_ne_nil ds h0
  have hee := h e he
  unfold I64 at hd hee
  unfold minMax
  constructor
  · rw [i1]
    constructor
    · rintro (k | k)
      · exact ⟨e, he, by omega⟩
      · exact k
    · exact Or.inr
  · rw [i2]
    constructor
    · rintro (k | k)
      · exact ⟨e, he, by omega⟩
      · exact k
    · exact Or.inr

theorem minMax_le {ds : List Int} (h0 : ds ≠ []) (h : ∀ e ∈ ds, I64 e) : (minMax ds).1 ≤ (minMax ds).2 := by
  obtain ⟨e, he⟩ := List.exists_mem_of_ne_nil ds h0
  obtain ⟨i1, i2⟩ := minMax_spec h0 h e (h e he)
  exact le_trans (i1.2 ⟨e, he, le_refl _⟩) (i2.2 ⟨e, he, le_refl _⟩)

theorem scan_fold (lo hi : Int) : ∀ (ds : List Int) (st : Bool × Bool × Bool), (st.1 = true → st.2.1 = true → st.2.2 = true) →
    ((ds.foldl (fun st d =>
      let l := st.1 || decide (d < lo)
      let r := st.2.1 || decide (d > hi)
      let i := st.2.2 || decide (lo ≤ d ∧ d ≤ hi)
      (l, r, i || (l && r))) st).2.2 = true ↔
      st.2.2 = true ∨ (∃ d ∈ ds, lo ≤ d ∧ d ≤ hi) ∨ ((st.1 = true ∨ ∃ d ∈ ds, d < lo) ∧ (st.2.1 = true ∨ ∃ d ∈ ds, hi < d))) := by
  intro ds
  induction ds with
  | nil =>
    rintro ⟨l, r, i⟩ h
    simp only [List.foldl_nil, List.not_mem_nil, false_and, exists_false, or_false, false_or] at *
    tauto
  | cons a ds ih =>
    rintro ⟨l, r, i⟩ h
    simp only [List.foldl_cons]
    rw [ih _ (by simp only [Bool.or_eq_true, Bool.and_eq_true]; intro x y; exact Or.inr ⟨x, y⟩)]
    simp only [Bool.or_eq_true, Bool.and_eq_true, decide_eq_true_eq, List.mem_cons, exists_eq_or_imp, gt_iff_lt]
    clear ih h
    generalize (∃ x ∈ ds, lo ≤ x ∧ x ≤ hi) = A
    generalize (∃ x ∈ ds, x < lo) = B
    generalize (∃ x ∈ ds, hi < x) = C
    generalize (a < lo) = D
    generalize (hi < a) = E
    generalize (lo ≤ a ∧ a ≤ hi) = F
    generalize (l = true) = L
    generalize (r = true) = R
    generalize (i = true) = I
    tauto

theorem scan_spec {lo hi : Int} (h : lo ≤ hi) (ds : List Int) :
    (scan lo hi ds).2.2 = true ↔ (∃ d ∈ ds, lo ≤ d) ∧ (∃ d ∈ ds, d ≤ hi) := by
  unfold scan
  rw [scan_fold lo hi ds _ (by simp)]
  simp only [Bool.false_eq_true, false_or]
  constructor
  · rintro (⟨d, h1, h2, h3⟩ | ⟨⟨d, h1, h2⟩, e, h3, h4⟩)
    · exact ⟨⟨d, h1, h2⟩, d, h1, h3⟩
    · exact ⟨⟨e, h3, by omega⟩, d, h1, by omega⟩
  · rintro ⟨⟨d, h1, h2⟩, e, h3, h4⟩
    by_cases k1 : d ≤ hi
    · exact Or.inl ⟨d, h1, h2, k1⟩
    · by_cases k2 : lo ≤ e
      · exact Or.inl ⟨e, h3, k2, h4⟩
      · exact Or.inr ⟨⟨e, h3, by omega⟩, d, h1, by omega⟩

/-- The points of the list are within `b` of the origin. -/
def Near (b : Int) (l : List (Int × Int)) : Prop := ∀ p ∈ l, -b ≤ p.1 ∧ p.1 ≤ b ∧ -b ≤ p.2 ∧ p.2 ≤ b

theorem mul_bound {a b m n : Int} (ha : -m ≤ a ∧ a ≤ m) (hb : -n ≤ b ∧ b ≤ n) : -(m * n) ≤ a * b ∧ a * b ≤ m * n := by
  obtain ⟨a1, a2⟩ := ha
  obtain ⟨b1, b2⟩ := hb
  have h1 : 0 ≤ (m - a) * (n + b) := mul_nonneg (by omega) (by omega)
  have h2 : 0 ≤ (m + a) * (n - b) := mul_nonneg (by omega) (by omega)
  have h3 : 0 ≤ (m + a) * (n + b) := mul_nonneg (by omega) (by omega)
  have h4 : 0 ≤ (m - a) * (n - b) := mul_nonneg (by omega) (by omega)
  constructor <;> nlinarith

theorem project_ok {nx ny : Int} (hx : -134217728 ≤ nx ∧ nx ≤ 134217728) (hy : -134217728 ≤ ny ∧ ny ≤ 134217728) :
    ∀ l : List (Int × Int), Near 1073741824 l → project nx ny l = .ok (l.map fun p => nx * p.1 + ny * p.2) ∧ ∀ e ∈ l.map (fun p => nx * p.1 + ny * p.2), I64 e := by
  intro l
  induction l with
  | nil => intro _; exact ⟨rfl, by simp⟩
  | cons p ps ih =>
    intro h
    obtain ⟨i1, i2⟩ := ih (fun q hq => h q (List.mem_cons_of_mem _ hq))
    obtain ⟨h1, h2, h3, h4⟩ := h p (List.mem_cons_self ..)
    have k : I64 (nx * p.1 + ny * p.2) := by
      have a := mul_bound hx ⟨h1, h2⟩
      have b := mul_bound hy ⟨h3, h4⟩
      unfold I64
      generalize nx * p.1 = A at *
      generalize ny * p.2 = B at *
      omega
    refine ⟨by rw [project, if_pos k, i1]; rfl, ?_⟩
    intro e he
    rw [List.map_cons, List.mem_cons] at he
    rcases he with rfl | he
    · exact k
    · exact i2 e he

theorem axis_ok {nx ny : Int} (hx : -134217728 ≤ nx ∧ nx ≤ 134217728) (hy : -134217728 ≤ ny ∧ ny ≤ 134217728) {av bv : List (Int × Int)}
    (ha : Near 1073741824 av) (hb : Near 1073741824 bv) (ha0 : av ≠ []) (hb0 : bv ≠ []) :
    ∃ r, axis av bv nx ny = .ok r ∧ (r = true ↔ (∃ p ∈ av, ∃ q ∈ bv, nx * q.1 + ny * q.2 ≤ nx * p.1 + ny * p.2) ∧
      (∃ p ∈ av, ∃ q ∈ bv, nx * p.1 + ny * p.2 ≤ nx * q.1 + ny * q.2)) := by
  unfold axis
  by_cases h0 : nx = 0 ∧ ny = 0
  · rw [if_pos h0]
    obtain ⟨rfl, rfl⟩ := h0
    obtain ⟨p, hp⟩ := List.exists_mem_of_ne_nil av ha0
    obtain ⟨q, hq⟩ := List.exists_mem_of_ne_nil bv hb0
    exact ⟨true, rfl, by simp only [true_iff]; exact ⟨⟨p, hp, q, hq, by omega⟩, p, hp, q, hq, by omega⟩⟩
  · rw [if_neg h0]
    obtain ⟨a1, a2⟩ := project_ok hx hy av ha
    obtain ⟨b1, b2⟩ := project_ok hx hy bv hb
    rw [a1, b1]
    refine ⟨_, rfl, ?_⟩
    have hne : bv.map (fun p => nx * p.1 + ny * p.2) ≠ [] := by simpa using hb0
    rw [scan_spec (minMax_le hne b2)]
    constructor
    · rintro ⟨⟨d, h1, h2⟩, e, h3, h4⟩
      have k1 := ((minMax_spec hne b2 d (a2 d h1)).1).1 h2
      have k2 := ((minMax_spec hne b2 e (a2 e h3)).2).1 h4
      obtain ⟨p, hp, rfl⟩ := List.mem_map.1 h1
      obtain ⟨p', hp', rfl⟩ := List.mem_map.1 h3
      obtain ⟨x, hx1, hx2⟩ := k1
      obtain ⟨y, hy1, hy2⟩ := k2
      obtain ⟨q, hq, rfl⟩ := List.mem_map.1 hx1
      obtain ⟨q', hq', rfl⟩ := List.mem_map.1 hy1
      exact ⟨⟨p, hp, q, hq, hx2⟩, p', hp', q', hq', hy2⟩
    · rintro ⟨⟨p, hp, q, hq, h1⟩, p', hp', q', hq', h2⟩
      refine ⟨⟨_, List.mem_map.2 ⟨p, hp, rfl⟩, ((minMax_spec hne b2 _ (a2 _ (List.mem_map.2 ⟨p, hp, rfl⟩))).1).2 ⟨_, List.mem_map.2 ⟨q, hq, rfl⟩, h1⟩⟩,
        _, List.mem_map.2 ⟨p', hp', rfl⟩, ((minMax_spec hne b2 _ (a2 _ (List.mem_map.2 ⟨p', hp', rfl⟩))).2).2 ⟨_, List.mem_map.2 ⟨q', hq', rfl⟩, h2⟩⟩

theorem scaled_eq {v s : Int} (hv : -524288 ≤ v ∧ v ≤ 1572864) (hs : 0 ≤ s ∧ s ≤ 8192) :
    scaled v s = v * s / 4096 ∧ -1048576 ≤ v * s / 4096 ∧ v * s / 4096 ≤ 3145728 := by
  have h1 : -524288 * 8192 ≤ v * s := by nlinarith
  have h2 : v * s ≤ 1572864 * 8192 := by nlinarith
  unfold scaled
  generalize v * s = m at *
  exact ⟨wrap32_of_i32 (by unfold I32; omega), by omega, by omega⟩

theorem add32_ok {a b : Int} (h : I32 (a + b)) : add32 a b = .ok (a + b) := if_pos h

theorem boxOf_sane {s : Sprite} (h : Sane s) :
    boxOf s = .ok ((hitBox s).left, (hitBox s).top, (hitBox s).right, (hitBox s).bottom) ∧ (hitBox s).Proper ∧
    (-540016640 ≤ (hitBox s).left ∧ (hitBox s).left ≤ 540016640) ∧ (-540016640 ≤ (hitBox s).top ∧ (hitBox s).top ≤ 540016640) ∧
    (-540016640 ≤ (hitBox s).right ∧ (hitBox s).right ≤ 540016640) ∧ (-540016640 ≤ (hitBox s).bottom ∧ (hitBox s).bottom ≤ 540016640) := by
  obtain ⟨x1, x2⟩ := h.x
  obtain ⟨y1, y2⟩ := h.y
  obtain ⟨hx1, hx2⟩ := h.hx
  obtain ⟨hy1, hy2⟩ := h.hy
  obtain ⟨hw1, hw2⟩ := h.hw
  obtain ⟨hh1, hh2⟩ := h.hh
  have sc := h.sc
  obtain ⟨e1, l1, u1⟩ := scaled_eq (v := s.hit.x) (s := s.scale.v) ⟨hx1, by omega⟩ sc
  obtain ⟨e2, l2, u2⟩ := scaled_eq (v := s.hit.y) (s := s.scale.v) ⟨hy1, by omega⟩ sc
  obtain ⟨e3, l3, u3⟩ := scaled_eq (v := s.hit.x + s.hit.w) (s := s.scale.v) ⟨by omega, by omega⟩ sc
  obtain ⟨e4, l4, u4⟩ := scaled_eq (v := s.hit.y + s.hit.h) (s := s.scale.v) ⟨by omega, by omega⟩ sc
  have m1 : s.hit.x * s.scale.v / 4096 ≤ (s.hit.x + s.hit.w) * s.scale.v / 4096 := by
    apply Int.ediv_le_ediv (by omega); nlinarith
  have m2 : s.hit.y * s.scale.v / 4096 ≤ (s.hit.y + s.hit.h) * s.scale.v / 4096 := by
    apply Int.ediv_le_ediv (by omega); nlinarith
  unfold boxOf
  rw [e1, e2, e3, e4]
  unfold hitBox Box.Proper
  simp only []
  generalize s.hit.x * s.scale.v / 4096 = A at *
  generalize s.hit.y * s.scale.v / 4096 = B at *
  generalize (s.hit.x + s.hit.w) * s.scale.v / 4096 = C at *
  generalize (s.hit.y + s.hit.h) * s.scale.v / 4096 = D at *
  rw [add32_ok (by unfold I32; omega), add32_ok (by unfold I32; omega), add32_ok (by unfold I32; omega), add32_ok (by unfold I32; omega)]
  refine ⟨rfl, ⟨by omega, by omega⟩, ⟨by omega, by omega⟩, ⟨by omega, by omega⟩, ⟨by omega, by omega⟩, by omega, by omega⟩

theorem vec_sane {s : Sprite} (h : Sane s) : vec s = velocity s ∧ (-67108864 ≤ (velocity s).1 ∧ (velocity s).1 ≤ 67108864) ∧
    (-67108864 ≤ (velocity s).2 ∧ (velocity s).2 ≤ 67108864) := by
  refine ⟨rfl, ?_⟩
  unfold velocity
  split
  · exact ⟨h.dx, h.dy⟩
  · exact ⟨h.hdx, h.hdy⟩

theorem shift_ok {vx vy : Int} (hx : -134217728 ≤ vx ∧ vx ≤ 134217728) (hy : -134217728 ≤ vy ∧ vy ≤ 134217728) :
    ∀ l : List (Int × Int), Near 540016640 l → shift vx vy l = .ok (l.map fun p => (p.1 + vx, p.2 + vy)) := by
  intro l
  induction l with
  | nil => intro _; rfl
  | cons p ps ih =>
    intro h
    obtain ⟨h1, h2, h3, h4⟩ := h p (List.mem_cons_self ..)
    rw [shift, add32_ok (by unfold I32; omega), add32_ok (by unfold I32; omega), ih (fun q hq => h q (List.mem_cons_of_mem _ hq))]
    rfl

/-- The rectangles in the form of the core lemma. -/
theorem sweeps_iff {a b : Box} (ha : a.Proper) (hb : b.Proper) (vx vy : Int) :
    a.Sweeps b vx vy ↔ ∃ lam : Rat, 0 ≤ lam ∧ lam ≤ 1 ∧ ((b.left - a.right : Int) : Rat) ≤ lam * vx ∧ lam * vx ≤ ((b.right - a.left : Int) : Rat) ∧
      ((b.top - a.bottom : Int) : Rat) ≤ lam * vy ∧ lam * vy ≤ ((b.bottom - a.top : Int) : Rat) := by
  have a1 : (a.left : Rat) ≤ a.right := by exact_mod_cast ha.1
  have a2 : (a.top : Rat) ≤ a.bottom := by exact_mod_cast ha.2
  have b1 : (b.left : Rat) ≤ b.right := by exact_mod_cast hb.1
  have b2 : (b.top : Rat) ≤ b.bottom := by exact_mod_cast hb.2
  unfold Box.Sweeps Box.Has
  simp only [Int.cast_sub]
  constructor
  · rintro ⟨l, l0, l1, x, y, ⟨h1, h2, h3, h4⟩, h5, h6, h7, h8⟩
    exact ⟨l, l0, l1, by linarith, by linarith, by linarith, by linarith⟩
  · rintro ⟨l, l0, l1, h1, h2, h3, h4⟩
    refine ⟨l, l0, l1, max (a.left + l * vx) b.left, max (a.top + l * vy) b.top, ⟨?_, ?_, ?_, ?_⟩, le_max_right _ _, ?_, le_max_right _ _, ?_⟩
    · have := le_max_left ((a.left : Rat) + l * vx) b.left; linarith
    · rw [sub_le_iff_le_add]; exact max_le (by linarith) (by linarith)
    · have := le_max_left ((a.top : Rat) + l * vy) b.top; linarith
    · rw [sub_le_iff_le_add]; exact max_le (by linarith) (by linarith)
    · exact max_le (by linarith) b1
    · exact max_le (by linarith) b2

/-- The separating axis test on integers decides `Sweeps`. -/
theorem sweeps_core {a b : Box} (ha : a.Proper) (hb : b.Proper) (u v : Int) :
    a.Sweeps b u v ↔
      (b.left - a.right ≤ 0 ∨ b.left - a.right ≤ u) ∧ (0 ≤ b.right - a.left ∨ u ≤ b.right - a.left) ∧
      (b.top - a.bottom ≤ 0 ∨ b.top - a.bottom ≤ v) ∧ (0 ≤ b.bottom - a.top ∨ v ≤ b.bottom - a.top) ∧
      ((b.left - a.right) * v ≤ (b.top - a.bottom) * u ∨ (b.left - a.right) * v ≤ (b.bottom - a.top) * u ∨
       (b.right - a.left) * v ≤ (b.top - a.bottom) * u ∨ (b.right - a.left) * v ≤ (b.bottom - a.top) * u) ∧
      ((b.top - a.bottom) * u ≤ (b.left - a.right) * v ∨ (b.bottom - a.top) * u ≤ (b.left - a.right) * v ∨
       (b.top - a.bottom) * u ≤ (b.right - a.left) * v ∨ (b.bottom - a.top) * u ≤ (b.right - a.left) * v) := by
  rw [sweeps_iff ha hb]
  have hp := ha.1; have hp' := ha.2; have hq := hb.1; have hq' := hb.2
  have h1 : b.left - a.right ≤ b.right - a.left := by omega
  have h2 : b.top - a.bottom ≤ b.bottom - a.top := by omega
  generalize b.left - a.right = p at *
  generalize b.right - a.left = q at *
  generalize b.top - a.bottom = r at *
  generalize b.bottom - a.top = s at *
  constructor
  · rintro ⟨l, l0, l1, k1, k2, k3, k4⟩
    have := core_conv l0 l1 k1 k2 k3 k4
    exact_mod_cast this
  · rintro ⟨k1, k2, k3, k4, k5, k6⟩
    apply core (by exact_mod_cast h1) (by exact_mod_cast h2)
    · exact_mod_cast k1
    · exact_mod_cast k2
    · exact_mod_cast k3
    · exact_mod_cast k4
    · exact_mod_cast k5
    · exact_mod_cast k6

/-- The corners of a rectangle as the code lists them. -/
def Box.corners (b : Box) : List (Int × Int) := [(b.left, b.top), (b.right, b.top), (b.right, b.bottom), (b.left, b.bottom)]

/-- The vertices of a moving rectangle. -/
def Box.swept (b : Box) (u v : Int) : List (Int × Int) := b.corners ++ b.corners.map fun p => (p.1 + u, p.2 + v)

theorem mem_corners {b : Box} (h : b.Proper) {p : Int × Int} (hp : p ∈ b.corners) :
    b.left ≤ p.1 ∧ p.1 ≤ b.right ∧ b.top ≤ p.2 ∧ p.2 ≤ b.bottom := by
  have h1 := h.1
  have h2 := h.2
  simp only [Box.corners, List.mem_cons, List.not_mem_nil, or_false] at hp
  rcases hp with rfl | rfl | rfl | rfl <;> simp only [] <;> omega

theorem mem_swept {b : Box} (h : b.Proper) {u v : Int} {p : Int × Int} (hp : p ∈ b.swept u v) :
    ∃ x y, b.left ≤ x ∧ x ≤ b.right ∧ b.top ≤ y ∧ y ≤ b.bottom ∧ (p = (x, y) ∨ p = (x + u, y + v)) := by
  rcases List.mem_append.1 hp with hp | hp
  · obtain ⟨h1, h2, h3, h4⟩ := mem_corners h hp
    exact ⟨p.1, p.2, h1, h2, h3, h4, Or.inl rfl⟩
  · obtain ⟨q, hq, rfl⟩ := List.mem_map.1 hp
    obtain ⟨h1, h2, h3, h4⟩ := mem_corners h hq
    exact ⟨q.1, q.2, h1, h2, h3, h4, Or.inr rfl⟩

theorem axis_x {a b : Box} (ha : a.Proper) (hb : b.Proper) (u v : Int) :
    ((∃ p ∈ a.swept u v, ∃ q ∈ b.corners, 4096 * q.1 + 0 * q.2 ≤ 4096 * p.1 + 0 * p.2) ∧
      (∃ p ∈ a.swept u v, ∃ q ∈ b.corners, 4096 * p.1 + 0 * p.2 ≤ 4096 * q.1 + 0 * q.2)) ↔
    (b.left - a.right ≤ 0 ∨ b.left - a.right ≤ u) ∧ (0 ≤ b.right - a.left ∨ u ≤ b.right - a.left) := by
  constructor
  · rintro ⟨⟨p, hp, q, hq, h1⟩, p', hp', q', hq', h2⟩
    obtain ⟨x, y, k1, k2, k3, k4, k5⟩ := mem_swept ha hp
    obtain ⟨x', y', j1, j2, j3, j4, j5⟩ := mem_swept ha hp'
    have m := mem_corners hb hq
    have m' := mem_corners hb hq'
    refine ⟨?_, ?_⟩
    · rcases k5 with rfl | rfl <;> simp only [] at h1 <;> omega
    · rcases j5 with rfl | rfl <;> simp only [] at h2 <;> omega
  · rintro ⟨h1, h2⟩
    refine ⟨?_, ?_⟩
    · rcases h1 with h | h
      · exact ⟨(a.right, a.top), by simp [Box.swept, Box.corners], (b.left, b.top), by simp [Box.corners], by simp only []; omega⟩
      · exact ⟨(a.right + u, a.top + v), by simp [Box.swept, Box.corners], (b.left, b.top), by simp [Box.corners], by simp only []; omega⟩
    · rcases h2 with h | h
      · exact ⟨(a.left, a.top), by simp [Box.swept, Box.corners], (b.right, b.top), by simp [Box.corners], by simp only []; omega⟩
      · exact ⟨(a.left + u, a.top + v), by simp [Box.swept, Box.corners], (b.right, b.top), by simp [Box.corners], by simp only []; omega⟩

theorem axis_y {a b : Box} (ha : a.Proper) (hb : b.Proper) (u v : Int) :
    ((∃ p ∈ a.swept u v, ∃ q ∈ b.corners, 0 * q.1 + 4096 * q.2 ≤ 0 * p.1 + 4096 * p.2) ∧
      (∃ p ∈ a.swept u v, ∃ q ∈ b.corners, 0 * p.1 + 4096 * p.2 ≤ 0 * q.1 + 4096 * q.2)) ↔
    (b.top - a.bottom ≤ 0 ∨ b.top - a.bottom ≤ v) ∧ (0 ≤ b.bottom - a.top ∨ v ≤ b.bottom - a.top) := by
  constructor
  · rintro ⟨⟨p, hp, q, hq, h1⟩, p', hp', q', hq', h2⟩
    obtain ⟨x, y, k1, k2, k3, k4, k5⟩ := mem_swept ha hp
    obtain ⟨x', y', j1, j2, j3, j4, j5⟩ := mem_swept ha hp'
    have m := mem_corners hb hq
    have m' := mem_corners hb hq'
    refine ⟨?_, ?_⟩
    · rcases k5 with rfl | rfl <;> simp only [] at h1 <;> omega
    · rcases j5 with rfl | rfl <;> simp only [] at h2 <;> omega
  · rintro ⟨h1, h2⟩
    refine ⟨?_, ?_⟩
    · rcases h1 with h | h
      · exact ⟨(a.left, a.bottom), by simp [Box.swept, Box.corners], (b.left, b.top), by simp [Box.corners], by simp only []; omega⟩
      · exact ⟨(a.left + u, a.bottom + v), by simp [Box.swept, Box.corners], (b.left, b.top), by simp [Box.corners], by simp only []; omega⟩
    · rcases h2 with h | h
      · exact ⟨(a.left, a.top), by simp [Box.swept, Box.corners], (b.left, b.bottom), by simp [Box.corners], by simp only []; omega⟩
      · exact ⟨(a.left + u, a.top + v), by simp [Box.swept, Box.corners], (b.left, b.bottom), by simp [Box.corners], by simp only []; omega⟩

/-- A linear function is nonnegative on a rectangle only if it is at a corner. -/
theorem corner_le {p q r s u v x y : Int} (hx : p ≤ x ∧ x ≤ q) (hy : r ≤ y ∧ y ≤ s) (h : x * v ≤ y * u) :
    p * v ≤ r * u ∨ p * v ≤ s * u ∨ q * v ≤ r * u ∨ q * v ≤ s * u := by
  obtain ⟨x1, x2⟩ := hx
  obtain ⟨y1, y2⟩ := hy
  rcases le_total 0 u with hu | hu <;> rcases le_total 0 v with hv | hv
  · right; left; nlinarith [mul_le_mul_of_nonneg_right x1 hv, mul_le_mul_of_nonneg_right y2 hu]
  · right; right; right; nlinarith [mul_le_mul_of_nonpos_right x2 hv, mul_le_mul_of_nonneg_right y2 hu]
  · left; nlinarith [mul_le_mul_of_nonneg_right x1 hv, mul_le_mul_of_nonpos_right y1 hu]
  · right; right; left; nlinarith [mul_le_mul_of_nonpos_right x2 hv, mul_le_mul_of_nonpos_right y1 hu]

theorem axis_n {a b : Box} (ha : a.Proper) (hb : b.Proper) (u v : Int) :
    ((∃ p ∈ a.swept u v, ∃ q ∈ b.corners, -v * q.1 + u * q.2 ≤ -v * p.1 + u * p.2) ∧
      (∃ p ∈ a.swept u v, ∃ q ∈ b.corners, -v * p.1 + u * p.2 ≤ -v * q.1 + u * q.2)) ↔
      ((b.left - a.right) * v ≤ (b.top - a.bottom) * u ∨ (b.left - a.right) * v ≤ (b.bottom - a.top) * u ∨
       (b.right - a.left) * v ≤ (b.top - a.bottom) * u ∨ (b.right - a.left) * v ≤ (b.bottom - a.top) * u) ∧
      ((b.top - a.bottom) * u ≤ (b.left - a.right) * v ∨ (b.bottom - a.top) * u ≤ (b.left - a.right) * v ∨
       (b.top - a.bottom) * u ≤ (b.right - a.left) * v ∨ (b.bottom - a.top) * u ≤ (b.right - a.left) * v) := by
  constructor
  · rintro ⟨⟨p, hp, q, hq, h1⟩, p', hp', q', hq', h2⟩
    obtain ⟨x, y, k1, k2, k3, k4, k5⟩ := mem_swept ha hp
    obtain ⟨x', y', j1, j2, j3, j4, j5⟩ := mem_swept ha hp'
    obtain ⟨m1, m2, m3, m4⟩ := mem_corners hb hq
    obtain ⟨n1, n2, n3, n4⟩ := mem_corners hb hq'
    refine ⟨?_, ?_⟩
    · have h : (q'.1 - x') * v ≤ (q'.2 - y') * u := by
        rcases j5 with rfl | rfl <;> simp only [] at h2 <;> nlinarith
      exact corner_le (x := q'.1 - x') (y := q'.2 - y') ⟨by omega, by omega⟩ ⟨by omega, by omega⟩ h
    · have h : (q.2 - y) * u ≤ (q.1 - x) * v := by
        rcases k5 with rfl | rfl <;> simp only [] at h1 <;> nlinarith
      rcases corner_le (p := b.top - a.bottom) (q := b.bottom - a.top) (r := b.left - a.right) (s := b.right - a.left) (x := q.2 - y) (y := q.1 - x) ⟨by omega, by omega⟩ ⟨by omega, by omega⟩ h with h | h | h | h
      · exact Or.inl h
      · exact Or.inr (Or.inr (Or.inl h))
      · exact Or.inr (Or.inl h)
      · exact Or.inr (Or.inr (Or.inr h))
  · rintro ⟨h1, h2⟩
    refine ⟨?_, ?_⟩
    · rcases h2 with h | h | h | h
      · exact ⟨(a.right, a.bottom), by simp [Box.swept, Box.corners], (b.left, b.top), by simp [Box.corners], by simp only []; nlinarith⟩
      · exact ⟨(a.right, a.top), by simp [Box.swept, Box.corners], (b.left, b.bottom), by simp [Box.corners], by simp only []; nlinarith⟩
      · exact ⟨(a.left, a.bottom), by simp [Box.swept, Box.corners], (b.right, b.top), by simp [Box.corners], by simp only []; nlinarith⟩
      · exact ⟨(a.left, a.top), by simp [Box.swept, Box.corners], (b.right, b.bottom), by simp [Box.corners], by simp only []; nlinarith⟩
    · rcases h1 with h | h | h | h
      · exact ⟨(a.right, a.bottom), by simp [Box.swept, Box.corners], (b.left, b.top), by simp [Box.corners], by simp only []; nlinarith⟩
      · exact ⟨(a.right, a.top), by simp [Box.swept, Box.corners], (b.left, b.bottom), by simp [Box.corners], by simp only []; nlinarith⟩
      · exact ⟨(a.left, a.bottom), by simp [Box.swept, Box.corners], (b.right, b.top), by simp [Box.corners], by simp only []; nlinarith⟩
      · exact ⟨(a.left, a.top), by simp [Box.swept, Box.corners], (b.right, b.bottom), by simp [Box.corners], by simp only []; nlinarith⟩

theorem isHit_sane {a b : Sprite} (ha : Sane a) (hb : Sane b) : ∃ r, isHit a b = .ok r ∧ (r = true ↔ Collide a b) := by
  unfold isHit Collide
  by_cases h1 : a.active = false ∨ b.active = false
  · rw [if_pos h1]
    refine ⟨false, rfl, ?_⟩
    simp only [Bool.false_eq_true, false_iff]
    rintro ⟨k1, k2, -⟩
    rcases h1 with h | h
    · rw [h] at k1; cases k1
    · rw [h] at k2; cases k2
  rw [if_neg h1]
  by_cases h2 : a.hit.mask &&& b.hit.mask = 0
  · rw [if_pos h2]
    refine ⟨false, rfl, ?_⟩
    simp only [Bool.false_eq_true, false_iff]
    rintro ⟨-, -, k, -⟩
    exact k h2
  rw [if_neg h2]
  have act : a.active = true ∧ b.active = true := by
    cases h : a.active <;> cases h' : b.active <;> simp_all
  obtain ⟨e1, va1, va2⟩ := vec_sane ha
  obtain ⟨e2, vb1, vb2⟩ := vec_sane hb
  rw [e1, e2]
  obtain ⟨ba, pa, ra⟩ := boxOf_sane ha
  obtain ⟨bb, pb, rb⟩ := boxOf_sane hb
  rw [ba, bb]
  generalize velocity a = va at *
  generalize velocity b = vb at *
  generalize hitBox a = A at *
  generalize hitBox b = B at *
  rw [add32_ok (by unfold I32; omega), add32_ok (by unfold I32; omega)]
  simp only [Out.bind]
  rw [add32_ok (by unfold I32; omega), add32_ok (by unfold I32; omega)]
  simp only [Out.bind]
  rw [add32_ok (by unfold I32; omega)]
  simp only [Out.bind]
  have eu : va.1 + -vb.1 = va.1 - vb.1 := by omega
  have ev : 0 + -(0 + -va.2 + -(0 + -vb.2)) = va.2 - vb.2 := by omega
  have en : 0 + -va.2 + -(0 + -vb.2) = -(va.2 - vb.2) := by omega
  rw [ev, en, eu]
  have hu : -134217728 ≤ va.1 - vb.1 ∧ va.1 - vb.1 ≤ 134217728 := by omega
  have hv : -134217728 ≤ va.2 - vb.2 ∧ va.2 - vb.2 ≤ 134217728 := by omega
  generalize va.1 - vb.1 = u at *
  generalize va.2 - vb.2 = v at *
  have na : Near 540016640 A.corners := by
    intro p hp
    have := mem_corners pa hp
    omega
  have nb : Near 1073741824 B.corners := by
    intro p hp
    have := mem_corners pb hp
    omega
  have ns : Near 1073741824 (A.swept u v) := by
    intro p hp
    obtain ⟨x, y, k1, k2, k3, k4, k5⟩ := mem_swept pa hp
    rcases k5 with rfl | rfl <;> simp only [] <;> omega
  have c1 : corners (A.left, A.top, A.right, A.bottom) = A.corners := rfl
  have c2 : corners (B.left, B.top, B.right, B.bottom) = B.corners := rfl
  rw [c1, c2, shift_ok hu hv _ na]
  simp only [Out.bind]
  change ∃ r, (axis (A.swept u v) B.corners 4096 0).bind _ = _ ∧ _
  have z1 : A.swept u v ≠ [] := by simp [Box.swept, Box.corners]
  have z2 : B.corners ≠ [] := by simp [Box.corners]
  obtain ⟨r1, f1, g1⟩ := axis_ok (nx := 4096) (ny := 0) (by omega) (by omega) ns nb z1 z2
  obtain ⟨r2, f2, g2⟩ := axis_ok (nx := 0) (ny := 4096) (by omega) (by omega) ns nb z1 z2
  obtain ⟨r3, f3, g3⟩ := axis_ok (nx := -v) (ny := u) (by omega) hu ns nb z1 z2
  rw [axis_x pa pb] at g1
  rw [axis_y pa pb] at g2
  rw [axis_n pa pb] at g3
  rw [sweeps_core pa pb]
  change ∃ r, (axis (A.swept u v) B.corners 4096 0).bind (fun r => if r = false then Out.ok false else
      (axis (A.swept u v) B.corners 0 4096).bind fun r => if r = false then Out.ok false else
      (axis (A.swept u v) B.corners (-v) u).bind fun r => Out.ok r) = _ ∧ _
  rw [f1, f2, f3]
  simp only [Out.bind]
  refine ⟨r1 && r2 && r3, ?_, ?_⟩
  · cases r1 <;> cases r2 <;> cases r3 <;> rfl
  · rw [Bool.and_eq_true, Bool.and_eq_true, g1, g2, g3]
    have hm : a.hit.mask &&& b.hit.mask ≠ 0 := h2
    constructor
    · rintro ⟨⟨⟨k1, k2⟩, k3, k4⟩, k5, k6⟩
      exact ⟨act.1, act.2, hm, k1, k2, k3, k4, k5, k6⟩
    · rintro ⟨-, -, -, k1, k2, k3, k4, k5, k6⟩
      exact ⟨⟨⟨k1, k2⟩, k3, k4⟩, k5, k6⟩

end Sbc.Sprites
