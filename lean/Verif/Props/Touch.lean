import Verif.Model.Touch
import Verif.Spec.Touch
set_option autoImplicit false
/-!
# C100: the touch variables
-/
namespace Sbc.Touch
open Sbc Spec

/-- All frames of a history (DS build). -/
def dsRun : List Pen → St → St
  | [], s => s
  | some (x, y) :: h, s => dsRun h (s.dsFrame true x y)
  | none :: h, s => dsRun h (s.dsFrame false 0 0)

/-- The frames of a mouse (PC build). -/
def pcRun (wx wy : Nat) : List Mouse → St → Out St
  | [], s => .ok s
  | m :: h, s => (s.pcFrame m.pressed m.x m.y wx wy).bind (pcRun wx wy h)

theorem dsRun_append (a b : List Pen) (s : St) : dsRun (a ++ b) s = dsRun b (dsRun a s) := by
  induction a generalizing s with
  | nil => rfl
  | cons p a ih =>
    cases p with
    | none => exact ih _
    | some q => exact ih _

/-- A place on the screen. -/
def OnScreen (p : Pen) : Prop := ∀ x y, p = some (x, y) → x < 256 ∧ y < 192

theorem place_lt (h : List Pen) (ho : ∀ p ∈ h, OnScreen p) : (lastPlace h).1 < 256 ∧ (lastPlace h).2 < 256 := by
  unfold lastPlace
  cases hf : h.reverse.findSome? id with
  | none => exact ⟨by show 0 < 256; decide, by show 0 < 256; decide⟩
  | some q =>
    obtain ⟨p, hp, hq⟩ := List.exists_of_findSome?_eq_some hf
    have hp : p ∈ h := List.mem_reverse.mp hp
    have hq : p = some q := hq
    have := ho p hp q.1 q.2 hq
    exact ⟨this.1, Nat.lt_trans this.2 (by decide)⟩

theorem run_state (h : List Pen) (ho : ∀ p ∈ h, OnScreen p) :
    dsRun h St.init = ⟨heldFor h, (lastPlace h).1, (lastPlace h).2⟩ := by
  generalize hr : h.reverse = r
  induction r generalizing h with
  | nil =>
    have : h = [] := by simpa using hr
    subst this; rfl
  | cons p r ih =>
    have hh : h = r.reverse ++ [p] := by rw [← List.reverse_reverse h, hr, List.reverse_cons]
    subst hh
    rw [dsRun_append, ih r.reverse (fun q hq => ho q (List.mem_append.mpr (Or.inl hq))) (List.reverse_reverse r)]
    have hp := ho p (by simp)
    cases p with
    | none =>
      show (⟨0, _, _⟩ : St) = _
      simp [heldFor, lastPlace]
    | some q =>
      obtain ⟨x, y⟩ := q
      have hp := hp x y rfl
      show (⟨heldFor r.reverse + 1, x % 256, y % 256⟩ : St) = _
      rw [Nat.mod_eq_of_lt hp.1, Nat.mod_eq_of_lt (show y < 256 by omega)]
      simp [heldFor, lastPlace]

theorem held_touched (h : List Pen) : (if heldFor h > 0 then (1 : Int) else 0) = if touched h = true then 1 else 0 := by
  generalize hr : h.reverse = r
  have hh : h = r.reverse := by rw [← hr, List.reverse_reverse]
  subst hh
  cases r with
  | nil => rfl
  | cons p r =>
    cases p with
    | none => simp [heldFor, touched]
    | some q => simp [heldFor, touched]

/-- **C100.** After every history of frames, TCHST is 1 when the pen is on the screen and 0 otherwise, TCHX and TCHY are the place where it
was on the screen for the last time (0 and 0 if never), and TCHTIME is the number of frames since it was put down without interruption, up
to 524287. -/
theorem C100_touch_partial (h : List Pen) (ho : ∀ p ∈ h, OnScreen p) :
    (dsRun h St.init).tchst = (if touched h = true then 4096 else 0) ∧
    (dsRun h St.init).tchx = (lastPlace h).1 * 4096 ∧ (dsRun h St.init).tchy = (lastPlace h).2 * 4096 ∧
    (heldFor h < 524288 → (dsRun h St.init).tchtime = heldFor h * 4096) := by
  rw [run_state h ho]
  have hp := place_lt h ho
  refine ⟨?_, ?_, ?_, fun hl => ?_⟩
  · show intToFp (if heldFor h > 0 then (1 : Int) else 0) = _
    rw [held_touched]
    split <;> rfl
  · show intToFp (wrap32 ((lastPlace h).1 : Int)) = _
    rw [wrap32_of_i32 (by unfold I32; omega), intToFp_small (by omega)]
  · show intToFp (wrap32 ((lastPlace h).2 : Int)) = _
    rw [wrap32_of_i32 (by unfold I32; omega), intToFp_small (by omega)]
  · show intToFp (wrap32 (heldFor h : Int)) = _
    rw [wrap32_of_i32 (by unfold I32; omega), intToFp_small (by omega)]

/-- Three frames without the pen, then two with it. -/
example : (dsRun [none, some (9, 9), none, some (10, 20), some (11, 20)] St.init).tchtime = 8192 ∧
    (dsRun [none, some (9, 9), none, some (10, 20), some (11, 20)] St.init).tchx = 45056 := by decide

/-- **C100.** (Violated.)  When the pen has been on the screen for 524288 frames (two hours and 25 minutes), at whatever places, TCHTIME is
-524288. -/
theorem C100_time_violated (h : List Pen) (ho : ∀ p ∈ h, OnScreen p) (hl : heldFor h = 524288) :
    (dsRun h St.init).tchtime = -524288 * 4096 := by
  rw [run_state h ho, hl]
  show intToFp (wrap32 524288) = _
  decide +kernel

example : ∀ n, n = 524288 → heldFor (List.replicate n (some (1, 1))) = 524288 := by
  intro n hn
  unfold heldFor
  rw [List.reverse_replicate, List.takeWhile_replicate, if_pos (show (some (1, 1)).isSome = true from rfl), List.length_replicate, hn]

/-! ### The mouse of the PC build -/

/-- The point under the mouse. -/
theorem place_below (wx h : Nat) (px py : Int) (hx : wx ≤ 1048576) (hh : h ≤ 1048576) (h1 : 0 ≤ px) (h2 : px < wx) (h3 : (h : Int) ≤ py) (h4 : py < 2 * h) :
    pcPlace px py wx (2 * h) = .ok (some ((256 * px / wx).toNat, (192 * (py - h) / h).toNat)) ∧ (256 * px / wx).toNat < 256 ∧
      (192 * (py - h) / h).toNat < 192 := by
  have hwx : (0 : Int) < wx := by omega
  have hh0 : (0 : Int) < h := by omega
  have e2 : 2 * h / 2 = h := by omega
  have a1 : 0 ≤ 256 * px / (wx : Int) := Int.ediv_nonneg (by omega) (by omega)
  have a2 : 256 * px / (wx : Int) < 256 := Int.ediv_lt_of_lt_mul hwx (by omega)
  have b0 : 192 * py / (h : Int) - 192 = 192 * (py - h) / h := by
    have : 192 * py = 192 * (py - h) + 192 * (h : Int) := by omega
    rw [this, Int.add_mul_ediv_right _ _ (by omega)]
    omega
  have b1 : 0 ≤ 192 * (py - h) / (h : Int) := Int.ediv_nonneg (by omega) (by omega)
  have b2 : 192 * (py - h) / (h : Int) < 192 := Int.ediv_lt_of_lt_mul hh0 (by omega)
  refine ⟨?_, by omega, by omega⟩
  unfold pcPlace
  rw [e2, if_pos h3, if_neg (by unfold I32; omega)]
  dsimp only
  rw [Int.emod_eq_of_lt (show 0 ≤ 256 * px by omega) (by omega), Int.emod_eq_of_lt (show 0 ≤ 192 * py by omega) (by omega), b0,
    wrap32_of_i32 (by unfold I32; omega), wrap32_of_i32 (by unfold I32; omega), if_pos ⟨a2, a1, b2, b1⟩]

/-- No point when the mouse is elsewhere (also to the left of the window or below it). -/
theorem place_else (wx h : Nat) (px py : Int) (hx : 1 ≤ wx ∧ wx ≤ 1048576) (hh : 1 ≤ h ∧ h ≤ 1048576) (h1 : -1048576 ≤ px ∧ px ≤ 1048576)
    (h2 : -1048576 ≤ py ∧ py ≤ 1048576) (hn : ¬ (0 ≤ px ∧ px < wx ∧ (h : Int) ≤ py ∧ py < 2 * h)) : pcPlace px py wx (2 * h) = .ok none := by
  have hwx : (0 : Int) < wx := by omega
  have hh0 : (0 : Int) < h := by omega
  have e2 : 2 * h / 2 = h := by omega
  unfold pcPlace
  rw [e2]
  by_cases h3 : py ≥ (h : Int)
  · rw [if_pos h3, if_neg (by unfold I32; omega)]
    dsimp only
    rw [if_neg]
    intro ⟨c1, c2, c3, c4⟩
    have hy : 0 ≤ 192 * py := by omega
    rw [Int.emod_eq_of_lt hy (by omega)] at c3 c4
    have y1 : 0 ≤ 192 * py / (h : Int) := Int.ediv_nonneg hy (by omega)
    have y2 : 192 * py / (h : Int) ≤ 192 * py := Int.ediv_le_self _ hy
    rw [wrap32_of_i32 (by unfold I32; omega)] at c3 c4
    have y3 : 192 * py / (h : Int) < 384 := by omega
    have y4 : 192 * py < 384 * (h : Int) := (Int.ediv_lt_iff_lt_mul hh0).mp y3
    by_cases hp : 0 ≤ px
    · rw [Int.emod_eq_of_lt (show 0 ≤ 256 * px by omega) (by omega)] at c1 c2
      have x1 : 0 ≤ 256 * px / (wx : Int) := Int.ediv_nonneg (by omega) (by omega)
      have x2 : 256 * px / (wx : Int) ≤ 256 * px := Int.ediv_le_self _ (by omega)
      rw [wrap32_of_i32 (by unfold I32; omega)] at c1
      have x3 : 256 * px < 256 * (wx : Int) := (Int.ediv_lt_iff_lt_mul hwx).mp c1
      omega
    · have hm : (256 * px) % 4294967296 = 256 * px + 4294967296 := by omega
      rw [hm] at c1 c2
      have x1 : 3840 ≤ (256 * px + 4294967296) / (wx : Int) := by
        rw [Int.le_ediv_iff_mul_le hwx]
        omega
      by_cases h1' : wx = 1
      · subst h1'
        rw [show ((1 : Nat) : Int) = 1 from rfl, Int.ediv_one] at c2
        unfold wrap32 at c2
        omega
      · have x2 : (256 * px + 4294967296) / (wx : Int) < 2147483648 := by
          refine Int.ediv_lt_of_lt_mul hwx ?_
          omega
        rw [wrap32_of_i32 (by unfold I32; omega)] at c1
        omega
  · rw [if_neg h3]

/-- **C100.** With the PC build, in a window of any size, a mouse that stays over the lower screen works like the pen at the point under
it: the state after every history is that of the pen. -/
theorem C100_mouse_partial (wx h : Nat) (hx : wx ≤ 1048576) (hh : h ≤ 1048576) (ms : List Mouse) (hb : ∀ m ∈ ms, m.below wx h) (s : St) :
    pcRun wx (2 * h) ms s = .ok (dsRun (ms.map fun m => m.pen wx h) s) ∧ ∀ p ∈ ms.map (fun m => m.pen wx h), OnScreen p := by
  induction ms generalizing s with
  | nil => exact ⟨rfl, by simp⟩
  | cons m ms ih =>
    obtain ⟨h1, h2, h3, h4⟩ := hb m (by simp)
    obtain ⟨e, p1, p2⟩ := place_below wx h m.x m.y hx hh h1 h2 h3 h4
    have hi := ih (fun q hq => hb q (by simp [hq]))
    constructor
    · show (St.pcFrame s m.pressed m.x m.y wx (2 * h)).bind (pcRun wx (2 * h) ms) = _
      unfold St.pcFrame
      rw [e]
      show pcRun wx (2 * h) ms (s.set m.pressed _ _) = _
      rw [(hi _).1]
      cases hp : m.pressed with
      | true =>
        have : m.pen wx h = some (m.point wx h) := by unfold Mouse.pen; rw [if_pos hp]
        rw [List.map_cons, this]
        rfl
      | false =>
        have : m.pen wx h = none := by unfold Mouse.pen; rw [if_neg (by rw [hp]; decide)]
        rw [List.map_cons, this]
        rfl
    · intro p hp
      rw [List.map_cons] at hp
      rcases List.mem_cons.mp hp with hp | hp
      · intro x y hxy
        rw [hp] at hxy
        unfold Mouse.pen at hxy
        split at hxy
        · have : m.point wx h = (x, y) := Option.some.inj hxy
          unfold Mouse.point at this
          obtain ⟨e1, e2⟩ := Prod.mk.inj this
          exact ⟨e1 ▸ p1, e2 ▸ p2⟩
        · cases hxy
      · exact (hi s).2 p hp

example : (Mouse.mk true 511 767).below 512 384 ∧ (Mouse.mk true 511 767).point 512 384 = (255, 191) := by
  refine ⟨⟨?_, ?_, ?_, ?_⟩, ?_⟩ <;> decide

/-- **C100.** (Violated.)  The mouse is pressed on the lower screen, moved off it and released: TCHST stays 1, and TCHTIME stays what it
was, for as many frames as the mouse stays outside, although nothing is pressed. -/
theorem C100_release_violated (wx h : Nat) (hx : 1 ≤ wx ∧ wx ≤ 1048576) (hh : 1 ≤ h ∧ h ≤ 1048576) (m : Mouse) (hm : m.below wx h)
    (hp : m.pressed = true) (out : List Mouse)
    (ho : ∀ q ∈ out, q.pressed = false ∧ (-1048576 ≤ q.x ∧ q.x ≤ 1048576) ∧ (-1048576 ≤ q.y ∧ q.y ≤ 1048576) ∧ ¬ q.below wx h) :
    ∃ s, pcRun wx (2 * h) (m :: out) St.init = .ok s ∧ s.tchst = 4096 ∧ s.tchtime = 4096 := by
  have key : ∀ (out : List Mouse) (s : St),
      (∀ q ∈ out, q.pressed = false ∧ (-1048576 ≤ q.x ∧ q.x ≤ 1048576) ∧ (-1048576 ≤ q.y ∧ q.y ≤ 1048576) ∧ ¬ q.below wx h) →
      pcRun wx (2 * h) out s = .ok s := by
    intro out
    induction out with
    | nil => intro s _; rfl
    | cons q out ih =>
      intro s ho
      obtain ⟨_, h1, h2, h3⟩ := ho q (by simp)
      show (St.pcFrame s q.pressed q.x q.y wx (2 * h)).bind (pcRun wx (2 * h) out) = _
      unfold St.pcFrame
      rw [place_else wx h q.x q.y hx hh h1 h2 h3]
      exact ih s fun r hr => ho r (by simp [hr])
  obtain ⟨h1, h2, h3, h4⟩ := hm
  obtain ⟨e, _, _⟩ := place_below wx h m.x m.y hx.2 hh.2 h1 h2 h3 h4
  refine ⟨⟨1, (256 * m.x / wx).toNat % 256, (192 * (m.y - h) / h).toNat % 256⟩, ?_, by show intToFp 1 = _; decide, by show intToFp (wrap32 1) = _; decide⟩
  show (St.pcFrame St.init m.pressed m.x m.y wx (2 * h)).bind (pcRun wx (2 * h) out) = _
  unfold St.pcFrame
  rw [e, hp]
  exact key out _ ho

/-- **C100.** (Violated.)  In a window of one line the mouse leads to a division by zero. -/
theorem C100_window_violated (wx : Nat) (px py : Int) (hy : 0 ≤ py) : pcPlace px py wx 1 = .ub := by
  unfold pcPlace
  rw [if_pos (show py ≥ ((1 / 2 : Nat) : Int) from hy), if_pos (Or.inr (Or.inl rfl))]

end Sbc.Touch
