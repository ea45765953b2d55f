import Verif.Proof.Sprites
import Mathlib.Tactic.NormNum
set_option autoImplicit false
/-!
# C43 (SPOFS), C44 (SPHIT), C49 (independent stepping)
-/
namespace Sbc.Sprites
open Sbc

/-! ## C44: collisions -/

theorem bind_inv {α β : Type} {x : Out α} {f : α → Out β} {r : β} (h : x.bind f = .ok r) : ∃ a, x = .ok a ∧ f a = .ok r := by
  cases x with
  | ok a => exact ⟨a, rfl, h⟩
  | err e => cases h
  | ub => cases h

theorem sweeps_comm {a b : Box} {u v : Int} (h : a.Sweeps b u v) : b.Sweeps a (-u) (-v) := by
  obtain ⟨l, l0, l1, x, y, h1, h2⟩ := h
  refine ⟨l, l0, l1, x - l * u, y - l * v, ?_, h1⟩
  unfold Box.Has at *
  simp only [Int.cast_neg]
  refine ⟨by linarith [h2.1], by linarith [h2.2.1], by linarith [h2.2.2.1], by linarith [h2.2.2.2]⟩

/-- Collision is symmetric. -/
theorem Collide.symm {a b : Sprite} (h : Collide a b) : Collide b a := by
  obtain ⟨h1, h2, h3, h4⟩ := h
  refine ⟨h2, h1, by rw [Nat.and_comm]; exact h3, ?_⟩
  have := sweeps_comm h4
  rwa [neg_sub, neg_sub] at this

/-- Sprites at rest collide exactly if their hit rectangles share a point. -/
theorem C44_resting {a b : Sprite} (ha : velocity a = (0, 0)) (hb : velocity b = (0, 0)) :
    Collide a b ↔ a.active = true ∧ b.active = true ∧ a.hit.mask &&& b.hit.mask ≠ 0 ∧ (hitBox a).Meets (hitBox b) := by
  unfold Collide
  rw [ha, hb]
  unfold Box.Sweeps Box.Meets
  simp only [sub_self, Int.cast_zero, mul_zero, sub_zero]
  constructor
  · rintro ⟨h1, h2, h3, l, l0, l1, x, y, h4⟩
    exact ⟨h1, h2, h3, x, y, h4⟩
  · rintro ⟨h1, h2, h3, x, y, h4⟩
    exact ⟨h1, h2, h3, 0, le_refl _, zero_le_one, x, y, h4⟩

theorem hitLoop_spec {f : Nat → Sprite} {id : Nat} (hid : Sane (f id)) : ∀ (n i : Nat), (∀ j, i ≤ j → j < i + n → Sane (f j)) →
    (∃ k, hitLoop f id n i = .ok (some k) ∧ i ≤ k ∧ k < i + n ∧ k ≠ id ∧ Collide (f id) (f k) ∧ ∀ j, i ≤ j → j < k → j ≠ id → ¬ Collide (f id) (f j)) ∨
    (hitLoop f id n i = .ok none ∧ ∀ j, i ≤ j → j < i + n → j ≠ id → ¬ Collide (f id) (f j)) := by
  intro n
  induction n with
  | zero => intro i _; right; exact ⟨rfl, fun j h1 h2 => by omega⟩
  | succ n ih =>
    intro i h
    have ih := ih (i + 1) (fun j h1 h2 => h j (by omega) (by omega))
    by_cases hi : i = id
    · rw [hitLoop, if_pos hi]
      rcases ih with ⟨k, k1, k2, k3, k4, k5, k6⟩ | ⟨k1, k2⟩
      · left
        exact ⟨k, k1, by omega, by omega, k4, k5, fun j h1 h2 h3 => k6 j (by omega) h2 h3⟩
      · right
        exact ⟨k1, fun j h1 h2 h3 => k2 j (by omega) (by omega) h3⟩
    · rw [hitLoop, if_neg hi]
      obtain ⟨r, r1, r2⟩ := isHit_sane hid (h i (le_refl _) (by omega))
      rw [r1]
      simp only [Out.bind]
      by_cases hr : r = true
      · rw [if_pos hr]
        left
        exact ⟨i, rfl, le_refl _, by omega, hi, r2.1 hr, fun j h1 h2 => by omega⟩
      · rw [if_neg hr]
        have hc : ¬ Collide (f id) (f i) := fun c => hr (r2.2 c)
        rcases ih with ⟨k, k1, k2, k3, k4, k5, k6⟩ | ⟨k1, k2⟩
        · left
          refine ⟨k, k1, by omega, by omega, k4, k5, fun j h1 h2 h3 => ?_⟩
          by_cases hj : j = i
          · rw [hj]; exact hc
          · exact k6 j (by omega) h2 h3
        · right
          refine ⟨k1, fun j h1 h2 h3 => ?_⟩
          by_cases hj : j = i
          · rw [hj]; exact hc
          · exact k2 j (by omega) (by omega) h3

/-- The page in use exists. -/
def PageOk (g : Sprites) : Prop := 0 ≤ g.page ∧ g.page < 2

/-- The sprite `i` of the page in use. -/
def spr (g : Sprites) (i : Nat) : Sprite := g.info g.page.toNat i

theorem get_ok {g : Sprites} (h : PageOk g) {id : Int} (h0 : 0 ≤ id) (h1 : id ≤ 99) : g.get id = .ok (spr g id.toNat) := by
  unfold Sprites.get spr
  rw [if_pos ⟨h.1, h.2, h0, by unfold maxSprites; omega⟩]

/-- SPHIT(id[,start]) (C44): the answer is 1 exactly if some other sprite from `start` on collides with sprite
`id`, and SPHITNO is then the least such sprite; otherwise the answer is 0 and nothing changes. -/
theorem C44_sphit (g : Sprites) (hp : PageOk g) (hs : ∀ i, i < 100 → Sane (spr g i)) (id : Int) (h0 : 0 ≤ fpToInt id) (h1 : fpToInt id ≤ 99)
    (start : Option Int) (h2 : ∀ s, start = some s → 0 ≤ fpToInt s ∧ fpToInt s ≤ 99) :
    ∃ g' r, funcSphit g id start = .ok (g', r) ∧ g'.info = g.info ∧ g'.page = g.page ∧
      ((∃ k : Nat, r = 4096 ∧ sysSphitno g' = k * 4096 ∧ (start.map fpToInt).getD 0 ≤ k ∧ k < 100 ∧ k ≠ (fpToInt id).toNat ∧
          Collide (spr g (fpToInt id).toNat) (spr g k) ∧
          ∀ j : Nat, (start.map fpToInt).getD 0 ≤ j → j < k → j ≠ (fpToInt id).toNat → ¬ Collide (spr g (fpToInt id).toNat) (spr g j)) ∨
       (r = 0 ∧ g' = g ∧ ∀ j : Nat, (start.map fpToInt).getD 0 ≤ j → j < 100 → j ≠ (fpToInt id).toNat → ¬ Collide (spr g (fpToInt id).toNat) (spr g j))) := by
  have hid : Sane (spr g (fpToInt id).toNat) := hs _ (by omega)
  have main : ∀ st : Int, 0 ≤ st → st ≤ 99 → ∃ g' r, ((g.get (fpToInt id)).bind fun s =>
        (hitLoop (g.info g.page.toNat) (fpToInt id).toNat (maxSprites - st.toNat) st.toNat).bind fun
          | some i => Out.ok ({ g with sphitno := (i : Int), sphitt := 0, sphitx := s.pos.x, sphity := s.pos.y }, (4096 : Int))
          | none => .ok (g, 0)) = .ok (g', r) ∧ g'.info = g.info ∧ g'.page = g.page ∧
      ((∃ k : Nat, r = 4096 ∧ sysSphitno g' = k * 4096 ∧ st ≤ k ∧ k < 100 ∧ k ≠ (fpToInt id).toNat ∧
          Collide (spr g (fpToInt id).toNat) (spr g k) ∧
          ∀ j : Nat, st ≤ j → j < k → j ≠ (fpToInt id).toNat → ¬ Collide (spr g (fpToInt id).toNat) (spr g j)) ∨
       (r = 0 ∧ g' = g ∧ ∀ j : Nat, st ≤ j → j < 100 → j ≠ (fpToInt id).toNat → ¬ Collide (spr g (fpToInt id).toNat) (spr g j))) := by
    intro st s0 s1
    rw [get_ok hp h0 h1]
    simp only [Out.bind]
    have hm : maxSprites = 100 := rfl
    rcases hitLoop_spec hid (maxSprites - st.toNat) st.toNat (fun j _ h => hs j (by omega)) with ⟨k, k1, k2, k3, k4, k5, k6⟩ | ⟨k1, k2⟩
    · change hitLoop (g.info g.page.toNat) _ _ _ = _ at k1
      rw [k1]
      refine ⟨_, _, rfl, rfl, rfl, Or.inl ⟨k, rfl, ?_, by omega, by omega, k4, k5, fun j j1 j2 j3 => k6 j (by omega) j2 j3⟩⟩
      unfold sysSphitno
      exact intToFp_small (by simp only []; omega)
    · change hitLoop (g.info g.page.toNat) _ _ _ = _ at k1
      rw [k1]
      exact ⟨_, _, rfl, rfl, rfl, Or.inr ⟨rfl, rfl, fun j j1 j2 j3 => k2 j (by omega) (by omega) j3⟩⟩
  unfold funcSphit
  have hn : ¬ (fpToInt id < 0 ∨ fpToInt id > 99) := by omega
  rw [if_neg hn]
  cases start with
  | none => exact main 0 (by omega) (by omega)
  | some s =>
    obtain ⟨s0, s1⟩ := h2 s rfl
    have hn2 : ¬ (fpToInt s < 0 ∨ fpToInt s > 99) := by omega
    simp only []
    rw [if_neg hn2]
    exact main _ s0 s1

/-- SPHITSP(a,b) tells whether the two sprites collide, and changes no sprite. -/
theorem C44_sphitsp (g : Sprites) (hp : PageOk g) (a b : Int) (ha : 0 ≤ fpToInt a ∧ fpToInt a ≤ 99) (hb : 0 ≤ fpToInt b ∧ fpToInt b ≤ 99)
    (sa : Sane (spr g (fpToInt a).toNat)) (sb : Sane (spr g (fpToInt b).toNat)) :
    ∃ g' r, funcSphitsp g a b = .ok (g', r) ∧ g'.info = g.info ∧ g'.page = g.page ∧ g'.sphitno = g.sphitno ∧ (r = 4096 ∨ r = 0) ∧
      (r = 4096 ↔ Collide (spr g (fpToInt a).toNat) (spr g (fpToInt b).toNat)) := by
  unfold funcSphitsp
  have n1 : ¬ (fpToInt b < 0 ∨ fpToInt b > 99) := by omega
  have n2 : ¬ (fpToInt a < 0 ∨ fpToInt a > 99) := by omega
  rw [if_neg n1, if_neg n2, get_ok hp hb.1 hb.2, get_ok hp ha.1 ha.2]
  obtain ⟨r, r1, r2⟩ := isHit_sane sb sa
  simp only [Out.bind]
  rw [r1]
  simp only []
  cases r with
  | true =>
    rw [if_pos rfl]
    exact ⟨_, _, rfl, rfl, rfl, rfl, Or.inl rfl, by simp only [true_iff]; exact (r2.1 rfl).symm⟩
  | false =>
    rw [if_neg (by simp)]
    refine ⟨_, _, rfl, rfl, rfl, rfl, Or.inr rfl, ?_⟩
    constructor
    · intro h; omega
    · intro h; exact absurd (r2.2 h.symm) (by simp)

/-- Arguments outside 0..99 are errors. -/
theorem C44_checked (g : Sprites) (id : Int) (h : ¬ (0 ≤ fpToInt id ∧ fpToInt id ≤ 99)) (o : Int) (s : Option Int) :
    funcSphit g id s = .err .outOfRange ∧ funcSphitsp g o id = .err .outOfRange := by
  have h' : fpToInt id < 0 ∨ fpToInt id > 99 := by omega
  refine ⟨?_, ?_⟩
  · unfold funcSphit; rw [if_pos h']
  · unfold funcSphitsp; rw [if_pos h']

/-- Run a list of commands. -/
def run (g : Sprites) : List (Sprites → Res) → Out Sprites
  | [] => .ok g
  | c :: cs => (c g).bind fun r => run r.1 cs

/-- Two sprites of the standard size; the first one moves 32 dots to the right in two frames. -/
def demo : Out Sprites :=
  (run init [fun g => cmdSpset g 0 0 0 0 0 0 none, fun g => cmdSpset g 4096 0 0 0 0 0 none, fun g => cmdSpofs g 4096 (4096 * 60) 0 none,
    fun g => cmdSpofs g 0 (4096 * 32) 0 (some 8192)]).bind (frames 2)

/-- After the movement the two sprites rest at (32,0) and (60,0), 12 dots apart, none of them moving (SPCHK bit 0
clear, no SPCOLVEC) - yet SPHIT reports a collision, because the last displacement is never cleared. -/
theorem C44_stale_violated :
    (demo.bind fun g => (funcSphit g 0 none).bind fun r => .ok ((spr g 0).pos.time, (spr g 1).pos.time, r.2)) = .ok (-1, -1, 4096) ∧
    (demo.bind fun g => .ok (hitBox (spr g 0), hitBox (spr g 1))) =
      .ok (⟨4096 * 32, 0, 4096 * 48, 4096 * 16⟩, ⟨4096 * 60, 0, 4096 * 76, 4096 * 16⟩) ∧
    ¬ (Box.mk (4096 * 32) 0 (4096 * 48) (4096 * 16)).Meets ⟨4096 * 60, 0, 4096 * 76, 4096 * 16⟩ := by
  refine ⟨by decide +kernel, by decide +kernel, ?_⟩
  rintro ⟨x, y, ⟨-, h1, -⟩, h2, -⟩
  simp only [] at h1 h2
  have := le_trans h2 h1
  norm_num at this

/-- The hypotheses of `C44_sphit` hold of this state (for the sprites not in use too). -/
example : ∃ g, demo = .ok g ∧ PageOk g ∧ (spr g 0).active = true ∧ (spr g 1).active = true ∧ Sane (spr g 0) ∧ Sane (spr g 1) ∧ Sane (spr g 2) := by
  obtain ⟨g, hg⟩ : ∃ g, demo = .ok g := by
    have : (demo.bind fun g => Out.ok g.page) = .ok 0 := by decide +kernel
    obtain ⟨g, hg, -⟩ := bind_inv this
    exact ⟨g, hg⟩
  have k0 : (demo.bind fun g => Out.ok (g.page, (spr g 0).active, (spr g 1).active)) = .ok (0, true, true) := by decide +kernel
  have k1 : (demo.bind fun g => Out.ok ((spr g 0).pos, (spr g 0).hit, (spr g 0).scale)) =
    .ok (⟨4096 * 32, 0, 4096 * 16, 0, -1⟩, ⟨0, 0, 0, 0, 65536, 65536, false, 255⟩, ⟨4096, 0, -1⟩) := by decide +kernel
  have k2 : (demo.bind fun g => Out.ok ((spr g 1).pos, (spr g 1).hit, (spr g 1).scale)) =
    .ok (⟨4096 * 60, 0, 0, 0, -1⟩, ⟨0, 0, 0, 0, 65536, 65536, false, 255⟩, ⟨4096, 0, -1⟩) := by decide +kernel
  have k3 : (demo.bind fun g => Out.ok ((spr g 2).pos, (spr g 2).hit, (spr g 2).scale)) =
    .ok (⟨0, 0, 0, 0, 0⟩, ⟨0, 0, 0, 0, 0, 0, false, 0⟩, ⟨0, 0, 0⟩) := by decide +kernel
  rw [hg] at k0 k1 k2 k3
  simp only [Out.bind, Out.ok.injEq, Prod.mk.injEq] at k0 k1 k2 k3
  obtain ⟨a0, a1, a2⟩ := k0
  obtain ⟨b0, b1, b2⟩ := k1
  obtain ⟨c0, c1, c2⟩ := k2
  obtain ⟨d0, d1, d2⟩ := k3
  refine ⟨g, hg, ⟨by omega, by omega⟩, a1, a2, ?_, ?_, ?_⟩
  · constructor <;> simp only [b0, b1, b2] <;> omega
  · constructor <;> simp only [c0, c1, c2] <;> omega
  · constructor <;> simp only [d0, d1, d2] <;> omega

/-! ## C49: independent stepping -/

theorem stepFrom_exact : ∀ (n i : Nat) (f f' : Nat → Sprite), stepFrom n i f = .ok f' →
    ∃ m, m ≤ n ∧ (∀ j, ¬ (i ≤ j ∧ j < i + m) → f' j = f j) ∧
      (∀ j, i ≤ j → j + 1 < i + m → stepSprite (f j) = .ok (f' j, false)) ∧
      ((m = n ∧ (∀ j, i ≤ j → j < i + n → stepSprite (f j) = .ok (f' j, false))) ∨ (0 < m ∧ stepSprite (f (i + m - 1)) = .ok (f' (i + m - 1), true))) := by
  intro n
  induction n with
  | zero =>
    intro i f f' h
    rw [stepFrom] at h
    cases h
    exact ⟨0, le_refl _, fun _ _ => rfl, fun j h1 h2 => by omega, Or.inl ⟨rfl, fun j h1 h2 => by omega⟩⟩
  | succ n ih =>
    intro i f f' h
    rw [stepFrom] at h
    cases hs : stepSprite (f i) with
    | err e => rw [hs] at h; cases h
    | ub => rw [hs] at h; cases h
    | ok r =>
      obtain ⟨s', fl⟩ := r
      rw [hs] at h
      simp only [Out.bind] at h
      cases fl with
      | true =>
        rw [if_pos rfl] at h
        cases h
        refine ⟨1, by omega, ?_, fun j h1 h2 => by omega, Or.inr ⟨by omega, ?_⟩⟩
        · intro j hj
          exact upd_other _ _ (by omega)
        · rw [show i + 1 - 1 = i by omega, hs, upd_same]
      | false =>
        rw [if_neg (by simp)] at h
        obtain ⟨m, m1, m2, m3, m4⟩ := ih (i + 1) _ _ h
        have hfi : f' i = s' := by rw [m2 i (by omega), upd_same]
        refine ⟨m + 1, by omega, ?_, ?_, ?_⟩
        · intro j hj
          rw [m2 j (by omega), upd_other _ _ (by omega)]
        · intro j h1 h2
          by_cases hj : j = i
          · rw [hj, hs, hfi]
          · have := m3 j (by omega) (by omega)
            rwa [upd_other _ _ hj] at this
        · rcases m4 with ⟨k1, k2⟩ | ⟨k1, k2⟩
          · left
            refine ⟨by omega, fun j h1 h2 => ?_⟩
            by_cases hj : j = i
            · rw [hj, hs, hfi]
            · have := k2 j (by omega) (by omega)
              rwa [upd_other _ _ hj] at this
          · right
            refine ⟨by omega, ?_⟩
            rw [show i + 1 + m - 1 = i + (m + 1) - 1 by omega] at k2
            rwa [upd_other _ _ (by omega)] at k2

/-- The frame update of the whole screen, page by page: what happens to every sprite (the model as it is): the sprites up to
and including the first one whose animation ends in this frame are stepped, the later ones of the page are not. -/
theorem C49_exact (g g' : Sprites) (h : stepSprites g = .ok g') : g'.page = g.page ∧ g'.sphitno = g.sphitno ∧
    ∀ p, p < 2 → ∃ m, m ≤ 100 ∧ (∀ j, m ≤ j → g'.info p j = g.info p j) ∧
      (∀ j, j + 1 < m → stepSprite (g.info p j) = .ok (g'.info p j, false)) ∧
      ((m = 100 ∧ (∀ j, j < 100 → stepSprite (g.info p j) = .ok (g'.info p j, false))) ∨ (0 < m ∧ stepSprite (g.info p (m - 1)) = .ok (g'.info p (m - 1), true))) := by
  unfold stepSprites at h
  cases ha : stepFrom maxSprites 0 (g.info 0) with
  | err e => rw [ha] at h; cases h
  | ub => rw [ha] at h; cases h
  | ok a =>
    rw [ha] at h
    cases hb : stepFrom maxSprites 0 (g.info 1) with
    | err e => rw [hb] at h; cases h
    | ub => rw [hb] at h; cases h
    | ok b =>
      rw [hb] at h
      simp only [Out.bind] at h
      cases h
      refine ⟨rfl, rfl, ?_⟩
      intro p hp
      have e : ∀ (f f' : Nat → Sprite), stepFrom maxSprites 0 f = .ok f' → ∃ m, m ≤ 100 ∧ (∀ j, m ≤ j → f' j = f j) ∧
          (∀ j, j + 1 < m → stepSprite (f j) = .ok (f' j, false)) ∧
          ((m = 100 ∧ (∀ j, j < 100 → stepSprite (f j) = .ok (f' j, false))) ∨ (0 < m ∧ stepSprite (f (m - 1)) = .ok (f' (m - 1), true))) := by
        intro f f' hf
        obtain ⟨m, m1, m2, m3, m4⟩ := stepFrom_exact _ _ _ _ hf
        have hm : maxSprites = 100 := rfl
        refine ⟨m, by omega, fun j hj => m2 j (by omega), fun j hj => m3 j (by omega) (by omega), ?_⟩
        rcases m4 with ⟨k1, k2⟩ | ⟨k1, k2⟩
        · exact Or.inl ⟨by omega, fun j hj => k2 j (by omega) (by omega)⟩
        · right; rw [Nat.zero_add] at k2; exact ⟨k1, k2⟩
      have : p = 0 ∨ p = 1 := by omega
      rcases this with rfl | rfl
      · exact e _ _ ha
      · exact e _ _ hb

/-- No animation of this sprite can end: it runs forever or not at all. -/
def Steady (s : Sprite) : Prop := s.anim.forever = true ∨ s.anim.loop ≤ 0

theorem stepAnim_frame {s s' : Sprite} {fl : Bool} (h : stepAnim s = .ok (s', fl)) :
    s' = { s with anim := s'.anim } ∧ s'.anim.chrs = s.anim.chrs ∧ s'.anim.framesPerChr = s.anim.framesPerChr ∧ s'.anim.forever = s.anim.forever ∧
    (Steady s → fl = false ∧ s'.anim.loop = s.anim.loop) := by
  unfold stepAnim at h
  by_cases hr : s.anim.forever = true ∨ s.anim.loop > 0
  · rw [if_pos hr] at h
    obtain ⟨f, hf, h⟩ := bind_inv h
    by_cases h1 : f = s.anim.framesPerChr
    · rw [if_pos h1] at h
      simp only [] at h
      obtain ⟨c, hc, h⟩ := bind_inv h
      obtain ⟨d, hd, h⟩ := bind_inv h
      by_cases h2 : d.tdiv (if s.w * s.h / 256 < 1 then 1 else ((s.w * s.h / 256 : Nat) : Int)) = s.anim.chrs
      · rw [if_pos h2] at h
        by_cases h3 : s.anim.forever = true
        · rw [h3] at h
          simp only [Bool.true_eq_false, false_and, if_false] at h
          cases h
          exact ⟨rfl, rfl, rfl, h3.symm, fun _ => ⟨rfl, rfl⟩⟩
        · have h4 : s.anim.forever = false := by simpa using h3
          have h5 : s.anim.loop > 0 := by
            rcases hr with hr | hr
            · exact absurd hr h3
            · exact hr
          have no : ¬ Steady s := by
            rintro (k | k)
            · exact h3 k
            · omega
          rw [if_pos h4] at h
          by_cases h6 : s.anim.forever = false ∧ s.anim.loop - 1 = 0
          · rw [if_pos h6] at h
            obtain ⟨e, he, h⟩ := bind_inv h
            cases h
            exact ⟨rfl, rfl, rfl, rfl, fun k => absurd k no⟩
          · rw [if_neg h6] at h
            cases h
            exact ⟨rfl, rfl, rfl, rfl, fun k => absurd k no⟩
      · rw [if_neg h2] at h
        cases h
        exact ⟨rfl, rfl, rfl, rfl, fun _ => ⟨rfl, rfl⟩⟩
    · rw [if_neg h1] at h
      cases h
      exact ⟨rfl, rfl, rfl, rfl, fun _ => ⟨rfl, rfl⟩⟩
  · rw [if_neg hr] at h
    cases h
    exact ⟨rfl, rfl, rfl, rfl, fun _ => ⟨rfl, rfl⟩⟩

theorem add32_inv {a b c : Int} (h : add32 a b = .ok c) : c = a + b := by
  unfold add32 at h
  split at h
  · cases h; rfl
  · cases h

theorem stepSlide_ok {d : Int → Int} {v w : Slide} (h : stepSlide d v = .ok w) :
    w = if v.time ≥ 0 then { v with v := v.v + d v.d, time := v.time - 1 } else v := by
  unfold stepSlide at h
  by_cases ht : v.time ≥ 0
  · rw [if_pos ht] at h
    rw [if_pos ht]
    obtain ⟨x, hx, h⟩ := bind_inv h
    rw [← add32_inv hx]
    cases h; rfl
  · rw [if_neg ht] at h
    rw [if_neg ht]
    cases h; rfl

theorem stepPos_ok {p q : Pos} (h : stepPos p = .ok q) :
    q = if p.time ≥ 0 then { p with x := p.x + p.dx, y := p.y + p.dy, time := p.time - 1 } else p := by
  unfold stepPos at h
  by_cases ht : p.time ≥ 0
  · rw [if_pos ht] at h
    rw [if_pos ht]
    obtain ⟨x, hx, h⟩ := bind_inv h
    obtain ⟨y, hy, h⟩ := bind_inv h
    rw [← add32_inv hx, ← add32_inv hy]
    cases h; rfl
  · rw [if_neg ht] at h
    rw [if_neg ht]
    cases h; rfl

/-- What one frame does to one sprite (C49, first part): an inactive sprite does not change; an active one moves, scales and
turns by its own steps while its own timers run, and keeps everything else except the animation. -/
theorem C49_sprite (s s' : Sprite) (fl : Bool) (h : stepSprite s = .ok (s', fl)) :
    (s.active = false → s' = s ∧ fl = false) ∧
    (s.active = true →
      s' = { s with pos := s'.pos, scale := s'.scale, angle := s'.angle, anim := s'.anim } ∧
      s'.pos = (if s.pos.time ≥ 0 then { s.pos with x := s.pos.x + s.pos.dx, y := s.pos.y + s.pos.dy, time := s.pos.time - 1 } else s.pos) ∧
      s'.scale = (if s.scale.time ≥ 0 then { s.scale with v := s.scale.v + s.scale.d, time := s.scale.time - 1 } else s.scale) ∧
      s'.angle = (if s.angle.time ≥ 0 then { s.angle with v := s.angle.v + s.angle.d.tmod (360 * 4096), time := s.angle.time - 1 } else s.angle) ∧
      (Steady s → fl = false ∧ Steady s')) := by
  unfold stepSprite at h
  constructor
  · intro ha
    rw [if_pos ha] at h
    cases h
    exact ⟨rfl, rfl⟩
  · intro ha
    rw [if_neg (by rw [ha]; simp)] at h
    cases h1 : stepSlide id s.scale with
    | err e => rw [h1] at h; cases h
    | ub => rw [h1] at h; cases h
    | ok sc =>
      rw [h1] at h
      cases h2 : stepSlide (fun d => d.tmod 1474560) s.angle with
      | err e => rw [h2] at h; cases h
      | ub => rw [h2] at h; cases h
      | ok an =>
        rw [h2] at h
        cases h3 : stepPos s.pos with
        | err e => rw [h3] at h; cases h
        | ub => rw [h3] at h; cases h
        | ok po =>
          rw [h3] at h
          simp only [Out.bind] at h
          obtain ⟨k1, k2, k3, k4, k5⟩ := stepAnim_frame h
          have e1 := stepSlide_ok h1
          have e2 := stepSlide_ok h2
          have e3 := stepPos_ok h3
          have p1 : s'.pos = po := by rw [k1]
          have p2 : s'.scale = sc := by rw [k1]
          have p3 : s'.angle = an := by rw [k1]
          refine ⟨?_, by rw [p1, e3], by rw [p2, e1]; rfl, by rw [p3, e2]; rfl, ?_⟩
          · rw [p1, p2, p3]; exact k1
          · intro hst
            obtain ⟨q1, q2⟩ := k5 hst
            refine ⟨q1, ?_⟩
            rcases hst with hst | hst
            · left; rw [k4]; exact hst
            · right; rw [q2]; exact hst

/-- No sprite has a finite animation. -/
def AllSteady (g : Sprites) : Prop := ∀ p i, p < 2 → i < 100 → Steady (g.info p i)

theorem stepSprite_steady {s s' : Sprite} {fl : Bool} (hst : Steady s) (h : stepSprite s = .ok (s', fl)) : fl = false ∧ Steady s' := by
  obtain ⟨h1, h2⟩ := C49_sprite s s' fl h
  cases ha : s.active with
  | false =>
    obtain ⟨e1, e2⟩ := h1 ha
    exact ⟨e2, by rw [e1]; exact hst⟩
  | true => exact (h2 ha).2.2.2.2 hst

/-- Independence (C49), as far as it holds: in a frame in which no animation ends, every sprite of both pages takes its own
step, computed from its own state alone.  Missing: frames in which an animation ends (`C49_violated`). -/
theorem C49_independent_partial (g g' : Sprites) (hst : ∀ p i, p < 2 → i < 100 → ∀ s', stepSprite (g.info p i) ≠ .ok (s', true)) (h : stepSprites g = .ok g') :
    ∀ p i, p < 2 → i < 100 → stepSprite (g.info p i) = .ok (g'.info p i, false) := by
  intro p i hp hi
  obtain ⟨-, -, h3⟩ := C49_exact g g' h
  obtain ⟨m, m1, m2, m3, m4⟩ := h3 p hp
  rcases m4 with ⟨k1, k2⟩ | ⟨k1, k2⟩
  · exact k2 i hi
  · exact absurd k2 (hst p (m - 1) hp (by omega) _)

/-- Sprites without a finite animation are such a case, and stay one. -/
theorem C49_steady (g g' : Sprites) (hst : AllSteady g) (h : stepSprites g = .ok g') :
    AllSteady g' ∧ ∀ p i, p < 2 → i < 100 → stepSprite (g.info p i) = .ok (g'.info p i, false) := by
  have k := C49_independent_partial g g' (fun p i hp hi s' hs => by have := (stepSprite_steady (hst p i hp hi) hs).1; cases this) h
  exact ⟨fun p i hp hi => (stepSprite_steady (hst p i hp hi) (k p i hp hi)).2, k⟩

/-- Sprite 0 with an animation of one character, one frame, once; sprite 1 moving. -/
def demo49 : Out Sprites :=
  run init [fun g => cmdSpset g 0 0 0 0 0 0 none, fun g => cmdSpset g 4096 0 0 0 0 0 none, fun g => cmdSpofs g 4096 4096 0 (some 4096), fun g => cmdSpanim g 0 4096 4096 (some 4096)]

/-- The movement of sprite 1, due in this frame, does not happen because the animation of sprite 0 ends in it. -/
theorem C49_violated : ((demo49.bind stepSprites).bind fun g => .ok ((spr g 1).pos.x, (spr g 1).pos.time)) = .ok (0, 0) ∧
    (demo49.bind fun g => (stepSprite (spr g 1)).bind fun r => .ok (r.1.pos.x, r.1.pos.time)) = .ok (4096, -1) := by
  constructor <;> decide +kernel

/-! ## C43: SPOFS -/

theorem frames_pos : ∀ (n : Nat) (g g' : Sprites), AllSteady g → frames n g = .ok g' → AllSteady g' ∧ g'.page = g.page ∧
    ∀ p i, p < 2 → i < 100 → (g.info p i).active = true → -1 ≤ (g.info p i).pos.time → (g'.info p i).active = true ∧ (g'.info p i).vars = (g.info p i).vars ∧
      ((n : Int) ≤ (g.info p i).pos.time + 1 → (g'.info p i).pos = { (g.info p i).pos with x := (g.info p i).pos.x + n * (g.info p i).pos.dx, y := (g.info p i).pos.y + n * (g.info p i).pos.dy, time := (g.info p i).pos.time - n }) ∧
      ((g.info p i).pos.time + 1 ≤ n → (g'.info p i).pos = { (g.info p i).pos with x := (g.info p i).pos.x + ((g.info p i).pos.time + 1) * (g.info p i).pos.dx, y := (g.info p i).pos.y + ((g.info p i).pos.time + 1) * (g.info p i).pos.dy, time := -1 }) := by
  intro n
  induction n with
  | zero =>
    intro g g' hst h
    rw [frames] at h
    cases h
    refine ⟨hst, rfl, fun p i hp hi ha ht => ⟨ha, rfl, ?_, ?_⟩⟩
    · intro _; simp
    · intro h0
      have : (g.info p i).pos.time = -1 := by omega
      rw [this]
      generalize (g.info p i).pos = o at *
      obtain ⟨a, b, c, d, t⟩ := o
      simp only [] at this
      subst this
      simp
  | succ n ih =>
    intro g g' hst h
    rw [frames] at h
    cases h1 : stepSprites g with
    | err e => rw [h1] at h; cases h
    | ub => rw [h1] at h; cases h
    | ok g1 =>
      rw [h1] at h
      simp only [Out.bind] at h
      obtain ⟨s1, s2⟩ := C49_steady g g1 hst h1
      obtain ⟨t1, t2, t3⟩ := ih g1 g' s1 h
      refine ⟨t1, t2.trans (C49_exact g g1 h1).1, fun p i hp hi ha ht => ?_⟩
      obtain ⟨c1, c2, -⟩ := (C49_sprite _ _ _ (s2 p i hp hi)).2 ha
      have a1 : (g1.info p i).active = true := by rw [c1]; exact ha
      have v1 : (g1.info p i).vars = (g.info p i).vars := by rw [c1]
      have q1 : -1 ≤ (g1.info p i).pos.time := by
        rw [c2]; split
        · simp only []; omega
        · exact ht
      obtain ⟨d1, d2, d3, d4⟩ := t3 p i hp hi a1 q1
      rw [c2] at d3 d4
      generalize (g.info p i).pos = o at *
      obtain ⟨x, y, dx, dy, t⟩ := o
      simp only [] at *
      refine ⟨d1, d2.trans v1, ?_, ?_⟩
      · intro hn
        rw [if_pos (by omega)] at d3
        simp only [] at d3
        rw [d3 (by omega)]
        simp only [Pos.mk.injEq, true_and]
        refine ⟨by rw [Nat.cast_succ]; ring, by rw [Nat.cast_succ]; ring, by omega⟩
      · intro hn
        by_cases h0 : t ≥ 0
        · rw [if_pos h0] at d4
          simp only [] at d4
          rw [d4 (by omega)]
          simp only [Pos.mk.injEq, true_and, and_true]
          refine ⟨by ring, by ring⟩
        · rw [if_neg h0] at d4
          simp only [] at d4
          exact d4 (by omega)

/-- The whole dots of a 20.12 coordinate. -/
def wholeDots (v : Int) : Int := v / 4096 * 4096

theorem stepTo_inv {a b t c : Int} (h : stepTo a b t = .ok c) : c = (a - b).tdiv t := by
  unfold stepTo at h
  split at h
  · cases h; rfl
  · cases h

theorem spofs_state {g g1 : Sprites} (hp : PageOk g) {id x y t : Int} (h : cmdSpofs g id x y (some t) = .ok (g1, none)) :
    0 ≤ fpToInt id ∧ fpToInt id ≤ 99 ∧ 0 ≤ fpToInt t ∧ (spr g (fpToInt id).toNat).active = true ∧
    (fpToInt t ≠ 0 → g1 = g.set (fpToInt id) { spr g (fpToInt id).toNat with pos := { (spr g (fpToInt id).toNat).pos with
        dx := (wholeDots x - (spr g (fpToInt id).toNat).pos.x).tdiv (fpToInt t), dy := (wholeDots y - (spr g (fpToInt id).toNat).pos.y).tdiv (fpToInt t), time := fpToInt t - 1 } }) ∧
    (fpToInt t = 0 → g1 = g.set (fpToInt id) { spr g (fpToInt id).toNat with pos := { (spr g (fpToInt id).toNat).pos with x := wholeDots x, y := wholeDots y, time := -1 } }) := by
  unfold cmdSpofs ranged at h
  by_cases h1 : fpToInt id < 0 ∨ fpToInt id > 99
  · rw [if_pos h1] at h; cases h
  rw [if_neg h1] at h
  simp only [] at h
  rw [get_ok hp (by omega) (by omega)] at h
  simp only [Out.bind] at h
  by_cases h2 : (spr g (fpToInt id).toNat).active = false
  · rw [if_pos h2] at h; cases h
  rw [if_neg h2] at h
  unfold atLeast at h
  by_cases h3 : fpToInt t < 0
  · rw [if_pos h3] at h; cases h
  rw [if_neg h3] at h
  beta_reduce at h
  refine ⟨by omega, by omega, by omega, by simpa using h2, ?_, ?_⟩
  · intro h4
    rw [if_pos h4] at h
    obtain ⟨dx, e1, h⟩ := bind_inv (x := stepTo _ _ _) h
    obtain ⟨dy, e2, h⟩ := bind_inv (x := stepTo _ _ _) h
    rw [← stepTo_inv (a := wholeDots x) e1, ← stepTo_inv (a := wholeDots y) e2]
    cases h; rfl
  · intro h4
    have h5 : ¬ fpToInt t ≠ 0 := by simpa using h4
    rw [if_neg h5] at h
    cases h; rfl

theorem set_info (g : Sprites) (id : Int) (s : Sprite) (p i : Nat) :
    (g.set id s).info p i = if p = g.page.toNat ∧ i = id.toNat then s else g.info p i := by
  unfold Sprites.set upd
  simp only []
  by_cases h1 : p = g.page.toNat
  · by_cases h2 : i = id.toNat
    · rw [if_pos h1, if_pos h2, if_pos ⟨h1, h2⟩]
    · rw [if_pos h1, if_neg h2, if_neg (by tauto), h1]
  · rw [if_neg h1, if_neg (by tauto)]

/-- The moving flag of SPCHK (bit 0). -/
def moving (g : Sprites) (id : Int) : Prop := ∃ k : Int, funcSpchk g id = .ok (4096 * (2 * k + 1))
/-- Bit 0 of SPCHK is clear. -/
def still (g : Sprites) (id : Int) : Prop := ∃ k : Int, funcSpchk g id = .ok (4096 * (2 * k))

theorem spchk_bit {g : Sprites} (hp : PageOk g) {id : Int} (h0 : 0 ≤ fpToInt id) (h1 : fpToInt id ≤ 99) :
    ((spr g (fpToInt id).toNat).pos.time ≥ 0 → moving g id) ∧ ((spr g (fpToInt id).toNat).pos.time < 0 → still g id) := by
  have h2 : ¬ (fpToInt id < 0 ∨ fpToInt id > 99) := by omega
  unfold moving still funcSpchk
  rw [if_neg h2, get_ok hp h0 h1]
  simp only [Out.bind]
  generalize spr g (fpToInt id).toNat = s
  generalize hA : (if s.angle.time ≥ 0 then (2 : Int) else 0) = A
  generalize hB : (if s.scale.time ≥ 0 then (4 : Int) else 0) = B
  generalize hC : (if s.anim.forever = true ∨ s.anim.loop > 0 then (8 : Int) else 0) = C
  have a : A = 2 ∨ A = 0 := by rw [← hA]; split <;> simp
  have b : B = 4 ∨ B = 0 := by rw [← hB]; split <;> simp
  have c : C = 8 ∨ C = 0 := by rw [← hC]; split <;> simp
  constructor
  · intro h
    rw [if_pos h]
    refine ⟨A / 2 + B / 2 + C / 2, congrArg _ ?_⟩
    omega
  · intro h
    rw [if_neg (by omega)]
    refine ⟨A / 2 + B / 2 + C / 2, congrArg _ ?_⟩
    omega

/-- SPOFS with a time (C43), as far as it holds: SPCHK reports movement for exactly `t` frames, during which the sprite moves in
equal steps; from then on it rests at `start + t * ((target - start) / t)` (division towards zero), which is the target
if the distance is divisible by the time.  Missing: other distances (`C43_spofs_violated`), overflow (`C43_spofs_overflow_violated`),
frames in which an animation ends (`C49_violated`). -/
theorem C43_spofs_partial (g g1 g' : Sprites) (hp : PageOk g) (hst : AllSteady g) (id x y t : Int) (ht : fpToInt t ≠ 0)
    (h : cmdSpofs g id x y (some t) = .ok (g1, none)) (n : Nat) (hf : frames n g1 = .ok g') :
    ((n : Int) < fpToInt t → moving g' id ∧
      (spr g' (fpToInt id).toNat).pos.x = (spr g (fpToInt id).toNat).pos.x + n * (wholeDots x - (spr g (fpToInt id).toNat).pos.x).tdiv (fpToInt t) ∧
      (spr g' (fpToInt id).toNat).pos.y = (spr g (fpToInt id).toNat).pos.y + n * (wholeDots y - (spr g (fpToInt id).toNat).pos.y).tdiv (fpToInt t)) ∧
    (fpToInt t ≤ n → still g' id ∧
      (spr g' (fpToInt id).toNat).pos.x = (spr g (fpToInt id).toNat).pos.x + fpToInt t * (wholeDots x - (spr g (fpToInt id).toNat).pos.x).tdiv (fpToInt t) ∧
      (spr g' (fpToInt id).toNat).pos.y = (spr g (fpToInt id).toNat).pos.y + fpToInt t * (wholeDots y - (spr g (fpToInt id).toNat).pos.y).tdiv (fpToInt t) ∧
      (fpToInt t ∣ wholeDots x - (spr g (fpToInt id).toNat).pos.x → (spr g' (fpToInt id).toNat).pos.x = wholeDots x) ∧
      (fpToInt t ∣ wholeDots y - (spr g (fpToInt id).toNat).pos.y → (spr g' (fpToInt id).toNat).pos.y = wholeDots y)) := by
  obtain ⟨i0, i1, t0, ha, e1, -⟩ := spofs_state hp h
  have e1 := e1 ht
  have hpg : g1.page = g.page := by rw [e1]; rfl
  have hst1 : AllSteady g1 := by
    intro p i pp ii
    rw [e1, set_info]
    split
    · have := hst g.page.toNat (fpToInt id).toNat (by have := hp.1; have := hp.2; omega) (by omega)
      exact this
    · exact hst p i pp ii
  obtain ⟨-, f2, f3⟩ := frames_pos n g1 g' hst1 hf
  have hpn : g.page.toNat < 2 := by have := hp.1; have := hp.2; omega
  have hin : (fpToInt id).toNat < 100 := by omega
  have hs1 : g1.info g.page.toNat (fpToInt id).toNat = { spr g (fpToInt id).toNat with pos := { (spr g (fpToInt id).toNat).pos with
        dx := (wholeDots x - (spr g (fpToInt id).toNat).pos.x).tdiv (fpToInt t), dy := (wholeDots y - (spr g (fpToInt id).toNat).pos.y).tdiv (fpToInt t), time := fpToInt t - 1 } } := by
    rw [e1, set_info, if_pos ⟨rfl, rfl⟩]
  have k := f3 g.page.toNat (fpToInt id).toNat hpn hin (by rw [hs1]; exact ha) (by rw [hs1]; simp only []; omega)
  rw [hs1] at k
  simp only [] at k
  obtain ⟨-, -, k1, k2⟩ := k
  have hpg' : g'.page = g.page := f2.trans hpg
  have hpo : PageOk g' := by unfold PageOk; rw [hpg']; exact hp
  have hsp : g'.info g.page.toNat (fpToInt id).toNat = spr g' (fpToInt id).toNat := by unfold spr; rw [hpg']
  rw [hsp] at k1 k2
  constructor
  · intro hn
    have k := k1 (by omega)
    refine ⟨(spchk_bit hpo i0 i1).1 (by rw [k]; simp only []; omega), by rw [k], by rw [k]⟩
  · intro hn
    have k := k2 (by omega)
    rw [show fpToInt t - 1 + 1 = fpToInt t by omega] at k
    refine ⟨(spchk_bit hpo i0 i1).2 (by rw [k]; simp only []; omega), by rw [k], by rw [k], ?_, ?_⟩
    · intro hd
      rw [k]
      simp only []
      rw [Int.mul_tdiv_cancel' hd]; omega
    · intro hd
      rw [k]
      simp only []
      rw [Int.mul_tdiv_cancel' hd]; omega

/-- SPOFS without a time or with time 0 moves at once (C43). -/
theorem C43_spofs_jump (g : Sprites) (hp : PageOk g) (id x y : Int) (i0 : 0 ≤ fpToInt id) (i1 : fpToInt id ≤ 99) (ha : (spr g (fpToInt id).toNat).active = true)
    (t : Option Int) (ht : ∀ u, t = some u → fpToInt u = 0) :
    ∃ g1, cmdSpofs g id x y t = .ok (g1, none) ∧ (spr g1 (fpToInt id).toNat).pos.x = wholeDots x ∧ (spr g1 (fpToInt id).toNat).pos.y = wholeDots y ∧ still g1 id ∧
      ∀ p i, ¬ (p = g.page.toNat ∧ i = (fpToInt id).toNat) → g1.info p i = g.info p i := by
  have key : cmdSpofs g id x y t = .ok (g.set (fpToInt id) { spr g (fpToInt id).toNat with pos := { (spr g (fpToInt id).toNat).pos with x := wholeDots x, y := wholeDots y, time := -1 } }, none) := by
    have h1 : ¬ (fpToInt id < 0 ∨ fpToInt id > 99) := by omega
    unfold cmdSpofs ranged
    rw [if_neg h1]
    simp only []
    rw [get_ok hp i0 i1]
    simp only [Out.bind]
    rw [if_neg (by rw [ha]; simp)]
    cases t with
    | none => rfl
    | some u =>
      have h3 : ¬ fpToInt u < 0 := by rw [ht u rfl]; omega
      simp only []
      unfold atLeast
      rw [if_neg h3]
      beta_reduce
      have h4 : ¬ fpToInt u ≠ 0 := by rw [ht u rfl]; simp
      rw [if_neg h4]
      rfl
  refine ⟨_, key, ?_, ?_, ?_, ?_⟩
  · change ((g.set _ _).info g.page.toNat (fpToInt id).toNat).pos.x = _
    rw [set_info, if_pos ⟨rfl, rfl⟩]
  · change ((g.set _ _).info g.page.toNat (fpToInt id).toNat).pos.y = _
    rw [set_info, if_pos ⟨rfl, rfl⟩]
  · refine (spchk_bit (g := g.set _ _) hp i0 i1).2 ?_
    change ((g.set _ _).info g.page.toNat (fpToInt id).toNat).pos.time < 0
    rw [set_info, if_pos ⟨rfl, rfl⟩]
    simp only []
    omega
  · intro p i hn
    rw [set_info, if_neg hn]

/-- SPOFS 0,1,0,3 from (0,0): after the three frames SPREAD still gives x = 0. -/
theorem C43_spofs_violated : (((run init [fun g => cmdSpset g 0 0 0 0 0 0 none, fun g => cmdSpofs g 0 4096 0 (some (3 * 4096))]).bind (frames 3)).bind fun g =>
    (cmdSpread g 0).bind fun l => (funcSpchk g 0).bind fun c => .ok (l.head?, (spr g 0).pos.x, c)) = .ok (some 0, 4095, 0) := by decide +kernel

/-- From -400000 to 400000 the distance does not fit 32 bits. -/
theorem C43_spofs_overflow_violated : ((run init [fun g => cmdSpset g 0 0 0 0 0 0 none, fun g => cmdSpofs g 0 (-400000 * 4096) 0 none]).bind fun g =>
    (cmdSpofs g 0 (400000 * 4096) 0 (some 4096)).bind fun r => .ok r.2) = .ub := by decide +kernel

/-- The hypotheses of `C43_spofs_partial` are met. -/
example : ((run init [fun g => cmdSpset g 0 0 0 0 0 0 none, fun g => cmdSpofs g 0 (4096 * 30) 0 (some (3 * 4096))]).bind fun g1 => (frames 3 g1).bind fun g => .ok ((spr g 0).pos.x, g1.page)) =
    .ok (4096 * 30, 0) := by decide +kernel

end Sbc.Sprites
