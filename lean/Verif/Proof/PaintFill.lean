import Verif.Proof.PaintRow
set_option autoImplicit false
namespace Sbc.Graphics
open Sbc Sbc.Graphics.Spec

/-- Result of processing one entry for columns `lo..hi` of row `y`. -/
structure EntryPost (mt : Int) (c : Nat) (d d' : Page) (y : Nat) (dy : Int) (lo hi : Int) (S : Int → Prop) (N : List Nat) : Prop where
  painted : Painted c d d' (fun u v => v = y ∧ S u)
  grown : ∀ t, S t → Grown (fun t => Ins mt d t y) (fun t => lo ≤ t ∧ t ≤ hi) t
  done : ∀ t, lo ≤ t → t ≤ hi → ¬ Ins mt d' t y
  ends : ∀ t, S t → ¬ Ins mt d' (t - 1) y ∧ ¬ Ins mt d' (t + 1) y
  ahead : ∀ t, S t → 0 ≤ (y : Int) + dy → ∃ w ∈ N, Covers w t (y + dy)
  back : ∀ t, S t → ¬ (lo ≤ t ∧ t ≤ hi) → 0 ≤ (y : Int) - dy → ∃ w ∈ N, Covers w t (y - dy)
  entries : ∀ w ∈ N, (unpack w).1 ≤ (unpack w).2.1 ∧ (∀ t : Int, ((unpack w).1 : Int) ≤ t → t ≤ (unpack w).2.1 → S t) ∧
    ((unpack w).2.2.1 < 192 → ((unpack w).2.2.1 : Int) - (unpack w).2.2.2 = y)

theorem paintEntry_spec {mt : Int} {c : Nat} (hc : mcol mt c = false) (d : Page) (stk : List Nat) (x1 x2 y : Nat) (dy : Int)
    (hd : dy = 1 ∨ dy = -1) (hx2 : x2 < 256) (hle : x1 ≤ x2) (hl : stk.length ≤ 256) :
    ∃ d' S, (paintEntry mt c d stk x1 x2 y dy = (d', none) ∧ Painted c d d' (fun u v => v = y ∧ S u) ∧
          (∀ t, S t → Grown (fun t => Ins mt d t y) (fun t => (x1 : Int) ≤ t ∧ t ≤ x2) t)) ∨
        ∃ N, paintEntry mt c d stk x1 x2 y dy = (d', some (N ++ stk)) ∧ (N ++ stk).length ≤ 256 ∧ EntryPost mt c d d' y dy x1 x2 S N := by
  unfold paintEntry
  by_cases hi : Ins mt d x1 y
  · have hi' := hi
    unfold Ins at hi'
    rw [if_pos hi']
    have ho := ((Ins_iff mt d x1 y).1 hi).1
    unfold OnScreen at ho
    obtain ⟨d1, xl, e1, e2, e3, e4, e5⟩ := leftLoop_spec hc y x1 d
    rw [e1]
    simp only []
    have hd1 : ∀ t, Ins mt d1 t y → Ins mt d t y := fun t h => ((e3.ins hc t y).1 h).1
    have hgrow : ∀ k : Nat, (xl : Int) ≤ x1 - k → Grown (fun t => Ins mt d t y) (fun t => (x1 : Int) ≤ t ∧ t ≤ x2) ((x1 : Int) - k) := by
      intro k
      induction k with
      | zero => intro h; simp only [Int.natCast_zero, Int.sub_zero]; exact .base ⟨by omega, by omega⟩ hi
      | succ k ihk =>
        intro h
        have := Grown.left (ihk (by omega)) (e4 _ (by omega) (by omega))
        rw [show (x1 : Int) - ((k + 1 : Nat) : Int) = x1 - k - 1 by omega]; exact this
    have hgrow' : ∀ t : Int, (xl : Int) ≤ t → t < x1 → Grown (fun t => Ins mt d t y) (fun t => (x1 : Int) ≤ t ∧ t ≤ x2) t := by
      intro t h1 h2
      have := hgrow (x1 - t).toNat (by omega)
      rw [show (x1 : Int) - ((x1 - t).toNat : Int) = t by omega] at this; exact this
    cases hp : (if xl < x1 then paintPush stk (pack xl (x1 - 1 : Int) (y - dy) (-dy)) else some stk) with
    | none => exact ⟨d1, fun t => (xl : Int) ≤ t ∧ t < x1, .inl ⟨rfl, e3, fun t ht => hgrow' t ht.1 ht.2⟩⟩
    | some stk1 =>
      simp only []
      have h1 : ∃ N1, stk1 = N1 ++ stk ∧ stk1.length ≤ 256 ∧ (∀ w ∈ N1, xl < x1 ∧ w = pack xl ((x1 - 1 : Nat) : Int) (y + -dy) (-dy)) ∧
          (xl < x1 → pack xl ((x1 - 1 : Nat) : Int) (y + -dy) (-dy) ∈ N1) := by
        by_cases hrx : xl < x1
        · rw [if_pos hrx] at hp
          obtain ⟨h1, h2⟩ := paintPush_some hp
          rw [show ((x1 : Int) - 1) = ((x1 - 1 : Nat) : Int) by omega, show (y : Int) - dy = y + -dy by omega] at h1
          refine ⟨[_], h1, ?_, ?_, ?_⟩
          · rw [h1, List.length_cons]; omega
          · intro w hw; rw [List.mem_singleton] at hw; exact ⟨hrx, hw⟩
          · intro _; exact List.mem_singleton.2 rfl
        · rw [if_neg hrx] at hp
          injection hp with hp
          exact ⟨[], hp.symm, by rw [← hp]; exact hl, by simp, fun h => absurd h hrx⟩
      obtain ⟨N1, hN1, hl1, hN1a, hN1b⟩ := h1
      obtain ⟨d', S, hcase⟩ := rowLoop_spec hc y dy hd x2 hx2 (x2 + 1 - x1) d1 stk1 xl x1 (by omega) e2 (.inl (by omega)) hl1
        (fun h => e5 (hd1 _ h)) (fun t h1 h2 h3 => ((e3.ins hc t y).1 h3).2 ⟨rfl, h1, h2⟩)
      have hS : ∀ t, Grown (fun t => Ins mt d1 t y) (fun t => (x1 : Int) ≤ t ∧ t ≤ x2) t →
          Grown (fun t => Ins mt d t y) (fun t => (x1 : Int) ≤ t ∧ t ≤ x2) t :=
        fun t h => h.mono hd1 (fun u hu hi => .base hu (hd1 u hi))
      refine ⟨d', fun t => ((xl : Int) ≤ t ∧ t < x1) ∨ S t, ?_⟩
      have hpaint : Painted c d1 d' (fun u v => v = y ∧ S u) → Painted c d d' (fun u v => v = y ∧ (((xl : Int) ≤ u ∧ u < x1) ∨ S u)) := by
        intro f2
        refine (e3.trans f2).congr ?_
        intro u v; constructor
        · rintro (⟨rfl, h⟩ | ⟨rfl, h⟩)
          · exact ⟨rfl, .inl h⟩
          · exact ⟨rfl, .inr h⟩
        · rintro ⟨rfl, h | h⟩
          · exact .inl ⟨rfl, h⟩
          · exact .inr ⟨rfl, h⟩
      rcases hcase with ⟨f1, f2, f3⟩ | ⟨N, f1, f2, f3⟩
      · refine .inl ⟨f1, hpaint f2, ?_⟩
        rintro t (ht | ht)
        · exact hgrow' t ht.1 ht.2
        · exact hS t (f3 t ht)
      · have hd' : ∀ t v, Ins mt d' t v → Ins mt d1 t v := fun t v h => ((f3.painted.ins hc t v).1 h).1
        refine .inr ⟨N ++ N1, by rw [f1, hN1, List.append_assoc], by rw [List.append_assoc, ← hN1]; exact f2, ?_⟩
        refine ⟨hpaint f3.painted, ?_, f3.done, ?_, ?_, ?_, ?_⟩
        · rintro t (ht | ht)
          · exact hgrow' t ht.1 ht.2
          · exact hS t (f3.grown t ht)
        · rintro t (ht | ht)
          · constructor
            · intro h
              have h4 := hd' _ _ h
              by_cases h0 : (xl : Int) ≤ t - 1
              · exact ((e3.ins hc _ y).1 h4).2 ⟨rfl, h0, by omega⟩
              · have h5 := hd1 _ h4
                rw [show t - 1 = (xl : Int) - 1 by omega] at h5
                exact e5 h5
            · intro h
              by_cases h0 : t + 1 < x1
              · exact ((e3.ins hc _ y).1 (hd' _ _ h)).2 ⟨rfl, by omega, h0⟩
              · exact f3.done (t + 1) (by omega) (by omega) h
          · exact f3.ends t ht
        · intro t ht h0
          have : S t ∨ (x1 ≤ x2 ∧ (xl : Int) ≤ t ∧ t < x1) := by
            rcases ht with h | h
            · exact .inr ⟨hle, h.1, h.2⟩
            · exact .inl h
          obtain ⟨w, hw, hw2⟩ := f3.ahead t this h0
          exact ⟨w, List.mem_append_left _ hw, hw2⟩
        · intro t ht hnot h0
          by_cases hts : (x2 : Int) < t
          · have : S t := by
              rcases ht with h | h
              · omega
              · exact h
            obtain ⟨w, hw, hw2⟩ := f3.back t this hts h0
            exact ⟨w, List.mem_append_left _ hw, hw2⟩
          · have hlt : (xl : Int) ≤ t ∧ t < x1 := by
              rcases ht with h | h
              · exact h
              · -- S lies to the right of x1 because [xl,x1) is not inside
                exfalso
                have hg := f3.grown t h
                have : (x1 : Int) ≤ t := by
                  clear h hts
                  clear hnot
                  induction hg with
                  | base ha _ => exact ha.1
                  | right _ _ ih2 => omega
                  | left _ hi2 ih2 =>
                    rename_i u _
                    by_contra hcon
                    have hu : u = x1 := by omega
                    rw [hu] at hi2
                    by_cases hx : xl < x1
                    · exact ((e3.ins hc _ y).1 hi2).2 ⟨rfl, by omega, by omega⟩
                    · have h6 := hd1 _ hi2
                      rw [show (x1 : Int) - 1 = xl - 1 by omega] at h6
                      exact e5 h6
                omega
            have hrx : xl < x1 := by omega
            have := (pushed xl (x1 - 1) y (-dy) (by omega) (by omega) (by omega) (by omega)).1 t hlt.1 (by omega) (by omega)
            rw [show (y : Int) + -dy = y - dy by omega] at this
            refine ⟨_, ?_, this⟩
            have hm := hN1b hrx
            rw [show (y : Int) + -dy = y - dy by omega] at hm
            exact List.mem_append_right _ hm
        · intro w hw
          rw [List.mem_append] at hw
          rcases hw with hw | hw
          · obtain ⟨g1, g2, g3⟩ := f3.entries w hw
            refine ⟨g1, fun t h1 h2 => ?_, g3⟩
            rcases g2 t h1 h2 with h | h
            · exact .inr h
            · exact .inl ⟨h.2.1, h.2.2⟩
          · obtain ⟨hrx, rfl⟩ := hN1a w hw
            obtain ⟨-, g1, g2, g3⟩ := pushed xl (x1 - 1) y (-dy) (by omega) (by omega) (by omega) (by omega)
            rw [g1, g2]
            exact ⟨by omega, fun t h1 h2 => .inl ⟨by omega, by omega⟩, g3⟩
  · have hi' := hi
    unfold Ins at hi'
    rw [if_neg hi']
    -- process from `x1 + 1` in effect: the left neighbour condition is supplied by `x1` itself
    have key : ∃ d' S, (rowLoop mt c y dy x2 (x2 + 1 - x1) d stk x1 x1 = (d', none) ∧ Painted c d d' (fun u v => v = y ∧ S u) ∧
          (∀ t, S t → Grown (fun t => Ins mt d t y) (fun t => (x1 : Int) ≤ t ∧ t ≤ x2) t)) ∨
        ∃ N, rowLoop mt c y dy x2 (x2 + 1 - x1) d stk x1 x1 = (d', some (N ++ stk)) ∧ (N ++ stk).length ≤ 256 ∧
          RowPost mt c d d' y dy (x1 + 1 : Nat) x2 S (fun t => S t) N ∧ ¬ Ins mt d' x1 y := by
      rw [show x2 + 1 - x1 = (x2 - x1) + 1 by omega, rowLoop, if_pos hle]
      have hr : rightLoop mt c y (256 - x1) d x1 = (d, x1) := by
        cases 256 - x1 with
        | zero => rfl
        | succ n => rw [rightLoop, if_neg hi']
      rw [hr]
      simp only []
      rw [if_neg (by omega)]
      simp only []
      rw [if_neg (by omega)]
      simp only []
      obtain ⟨x', s1, s2, s3, s4⟩ := skipLoop_spec (mt := mt) y x2 d (x2 - (x1 + 1)) (x1 + 1) (by omega)
      rw [s1]
      have hleft : ¬ Ins mt d ((x' : Int) - 1) y := by
        by_cases hx' : x' = x1 + 1
        · rw [hx', show ((x1 + 1 : Nat) : Int) - 1 = x1 by omega]; exact hi
        · exact s3 _ (by omega) (by omega)
      obtain ⟨d', S, hcase⟩ := rowLoop_spec hc y dy hd x2 hx2 (x2 - x1) d stk x' x' (by omega) (by omega) (.inr rfl) hl hleft (by intro t h1 h2; omega)
      refine ⟨d', S, ?_⟩
      rcases hcase with ⟨f1, f2, f3⟩ | ⟨N, f1, f2, f3⟩
      · exact .inl ⟨f1, f2, fun t ht => (f3 t ht).mono (fun _ h => h) (fun u hu hi => .base ⟨by omega, hu.2⟩ hi)⟩
      · refine .inr ⟨N, f1, f2, ⟨f3.painted, f3.ins, ?_, ?_, f3.ends, ?_, f3.back, ?_⟩, ?_⟩
        · exact fun t ht => (f3.grown t ht).mono (fun _ h => h) (fun u hu hi => .base ⟨by omega, hu.2⟩ hi)
        · intro t h1 h2 h3
          by_cases hx : t < x'
          · exact s3 t h1 hx ((f3.painted.ins hc t y).1 h3).1
          · exact f3.done t (by omega) h2 h3
        · exact fun t ht h0 => f3.ahead t (.inl ht) h0
        · intro w hw
          obtain ⟨g1, g2, g3⟩ := f3.entries w hw
          refine ⟨g1, fun t h1 h2 => ?_, g3⟩
          rcases g2 t h1 h2 with h | h
          · exact h
          · omega
        · intro h; exact hi ((f3.painted.ins hc _ y).1 h).1
    obtain ⟨d', S, hcase⟩ := key
    refine ⟨d', S, ?_⟩
    rcases hcase with h | ⟨N, f1, f2, f3, f4⟩
    · exact .inl h
    · have hright : ∀ t, S t → (x1 : Int) < t := by
        intro t ht
        have hg := f3.grown t ht
        clear ht
        induction hg with
        | base ha _ => omega
        | right _ _ ih2 => omega
        | left _ hi2 ih2 =>
          rename_i u _
          by_contra hcon
          have hu : u = x1 + 1 := by omega
          rw [hu, show (x1 : Int) + 1 - 1 = x1 by omega] at hi2
          exact hi hi2
      refine .inr ⟨N, f1, f2, ⟨f3.painted, ?_, ?_, f3.ends, f3.ahead, ?_, f3.entries⟩⟩
      · exact fun t ht => (f3.grown t ht).mono (fun _ h => h) (fun u hu hi => .base ⟨by omega, hu.2⟩ hi)
      · intro t h1 h2 h3
        by_cases hx : t = x1
        · rw [hx] at h3; exact f4 h3
        · exact f3.done t (by omega) h2 h3
      · intro t ht hnot h0
        have := hright t ht
        exact f3.back t ht (by omega) h0

/-! ### The whole fill -/

/-- Dots of the original picture that count as inside. -/
def free (mt : Int) (d : Page) (p : Int × Int) : Prop := mcol mt (d (grpIndex p.1 p.2)) = true

/-- Invariant of the main loop. -/
structure Inv (mt : Int) (c : Nat) (d0 d : Page) (start : Int × Int) (stk : List Nat) (Q : Int × Int → Prop) : Prop where
  painted : Painted c d0 d (fun x y => Q (x, y))
  sound : ∀ p, Q p → Region (free mt d0) start p
  entry : ∀ v ∈ stk, (unpack v).1 ≤ (unpack v).2.1 ∧
    ∀ t : Int, Covers v t (unpack v).2.2.1 → Ins mt d0 t (unpack v).2.2.1 → Region (free mt d0) start (t, ((unpack v).2.2.1 : Int))
  closed : ∀ p q, Q p → Adj p q → Ins mt d q.1 q.2 → ∃ v ∈ stk, Covers v q.1 q.2
  behind : ∀ v ∈ stk, (unpack v).2.2.1 < 192 → ∀ t : Int, ((unpack v).1 : Int) ≤ t → t ≤ (unpack v).2.1 →
    Ins mt d t ((unpack v).2.2.1 - (unpack v).2.2.2) → ∃ w ∈ stk, Covers w t ((unpack v).2.2.1 - (unpack v).2.2.2)
  begin : Ins mt d start.1 start.2 → ∃ v ∈ stk, Covers v start.1 start.2

theorem unpack_bounds (v : Nat) : (unpack v).1 < 256 ∧ (unpack v).2.1 < 256 ∧ (unpack v).2.2.1 < 256 ∧ ((unpack v).2.2.2 = 1 ∨ (unpack v).2.2.2 = -1) := by
  rw [unpack_eq]
  refine ⟨Nat.mod_lt _ (by omega), Nat.mod_lt _ (by omega), Nat.mod_lt _ (by omega), ?_⟩
  by_cases h : v / 16777216 % 2 = 1
  · left; simp [h]
  · right; simp [h]

theorem Inv.row_sound {mt : Int} {c : Nat} (hc : mcol mt c = false) {d0 d : Page} {start : Int × Int} {v : Nat} {stk : List Nat} {Q : Int × Int → Prop}
    (h : Inv mt c d0 d start (v :: stk) Q) {t : Int}
    (hg : Grown (fun t => Ins mt d t (unpack v).2.2.1) (fun t => ((unpack v).1 : Int) ≤ t ∧ t ≤ (unpack v).2.1) t) :
    Region (free mt d0) start (t, ((unpack v).2.2.1 : Int)) := by
  have hd0 : ∀ x y, Ins mt d x y → Ins mt d0 x y := fun x y hh => ((h.painted.ins hc x y).1 hh).1
  induction hg with
  | base ha hi =>
    exact (h.entry v (by simp)).2 _ ⟨ha.1, ha.2, rfl⟩ (hd0 _ _ hi)
  | right _ hi ih =>
    have := (Ins_iff mt d0 _ _).1 (hd0 _ _ hi)
    exact .next ih (.inl ⟨rfl, .inl rfl⟩) this.1 this.2
  | left _ hi ih =>
    have := (Ins_iff mt d0 _ _).1 (hd0 _ _ hi)
    exact .next ih (.inl ⟨rfl, .inr rfl⟩) this.1 this.2

theorem Inv.step {mt : Int} {c : Nat} (hc : mcol mt c = false) {d0 d d' : Page} {start : Int × Int} {v : Nat} {stk N : List Nat} {Q : Int × Int → Prop}
    (h : Inv mt c d0 d start (v :: stk) Q) {S : Int → Prop}
    (hp : EntryPost mt c d d' (unpack v).2.2.1 (unpack v).2.2.2 (unpack v).1 (unpack v).2.1 S N) :
    Inv mt c d0 d' start (N ++ stk) (fun p => Q p ∨ (p.2 = (unpack v).2.2.1 ∧ S p.1)) := by
  obtain ⟨hb1, hb2, hb3, hb4⟩ := unpack_bounds v
  have hd' : ∀ x y, Ins mt d' x y → Ins mt d x y := fun x y hh => ((hp.painted.ins hc x y).1 hh).1
  have hd0 : ∀ x y, Ins mt d x y → Ins mt d0 x y := fun x y hh => ((h.painted.ins hc x y).1 hh).1
  have hSR : ∀ t, S t → Region (free mt d0) start (t, ((unpack v).2.2.1 : Int)) := fun t ht => h.row_sound hc (hp.grown t ht)
  -- coverage by the popped entry is coverage by a dot that is no longer inside
  have hcov : ∀ x y, Ins mt d' x y → (∃ w ∈ v :: stk, Covers w x y) → ∃ w ∈ N ++ stk, Covers w x y := by
    rintro x y hi ⟨w, hw, hcw⟩
    rw [List.mem_cons] at hw
    rcases hw with rfl | hw
    · exfalso
      obtain ⟨h1, h2, h3⟩ := hcw
      rw [h3] at hi
      exact hp.done x h1 h2 hi
    · exact ⟨w, List.mem_append_right _ hw, hcw⟩
  refine ⟨?_, ?_, ?_, ?_, ?_, ?_⟩
  · exact h.painted.trans hp.painted
  · rintro p (hq | ⟨h1, h2⟩)
    · exact h.sound p hq
    · have := hSR _ h2
      rw [← h1] at this
      exact this
  · intro w hw
    rw [List.mem_append] at hw
    rcases hw with hw | hw
    · obtain ⟨g1, g2, g3⟩ := hp.entries w hw
      refine ⟨g1, fun t ht hi => ?_⟩
      have ho := (Ins_iff mt d0 _ _).1 hi
      have hlt : (unpack w).2.2.1 < 192 := by have := ho.1; unfold OnScreen at this; omega
      have h5 := g3 hlt
      obtain ⟨-, -, -, hb⟩ := unpack_bounds w
      refine .next (hSR t (g2 t ht.1 ht.2.1)) (.inr ⟨rfl, ?_⟩) ho.1 ho.2
      simp only []
      omega
    · exact h.entry w (List.mem_cons_of_mem _ hw)
  · rintro p q (hq | ⟨h1, h2⟩) hadj hi
    · exact hcov _ _ hi (h.closed p q hq hadj (hd' _ _ hi))
    · rcases hadj with ⟨ha, hb⟩ | ⟨ha, hb⟩
      · exfalso
        rw [← ha, h1] at hi
        rcases hb with hb | hb
        · rw [hb] at hi; exact (hp.ends _ h2).2 hi
        · rw [hb] at hi; exact (hp.ends _ h2).1 hi
      · have hon := ((Ins_iff mt d' _ _).1 hi).1
        have hon0 := (Ins_iff mt d _ _).1 (hd' _ _ hi)
        unfold OnScreen at hon
        have hy192 : (unpack v).2.2.1 < 192 := by
          have hR := hSR _ h2
          have : OnScreen p.1 ((unpack v).2.2.1 : Int) := by
            cases hR with
            | here ho _ => exact ho
            | next _ _ ho _ => exact ho
          unfold OnScreen at this; omega
        rw [← ha] at hi ⊢
        by_cases hdir : q.2 = (unpack v).2.2.1 + (unpack v).2.2.2
        · obtain ⟨w, hw, hw2⟩ := hp.ahead p.1 h2 (by omega)
          exact ⟨w, List.mem_append_left _ hw, by rw [hdir]; exact hw2⟩
        · have hdir2 : q.2 = (unpack v).2.2.1 - (unpack v).2.2.2 := by omega
          rw [hdir2] at hi ⊢
          by_cases hin : ((unpack v).1 : Int) ≤ p.1 ∧ p.1 ≤ (unpack v).2.1
          · exact hcov _ _ hi (h.behind v (by simp) hy192 p.1 hin.1 hin.2 (hd' _ _ hi))
          · obtain ⟨w, hw, hw2⟩ := hp.back p.1 h2 hin (by omega)
            exact ⟨w, List.mem_append_left _ hw, hw2⟩
  · intro w hw hlt t h1 h2 hi
    rw [List.mem_append] at hw
    rcases hw with hw | hw
    · exfalso
      obtain ⟨g1, g2, g3⟩ := hp.entries w hw
      rw [g3 hlt] at hi
      exact ((hp.painted.ins hc _ _).1 hi).2 ⟨rfl, g2 t h1 h2⟩
    · exact hcov _ _ hi (h.behind w (List.mem_cons_of_mem _ hw) hlt t h1 h2 (hd' _ _ hi))
  · intro hi
    exact hcov _ _ hi (h.begin (hd' _ _ hi))

/-- Nothing is left to do: everything reachable has been painted. -/
theorem Inv.complete {mt : Int} {c : Nat} (hc : mcol mt c = false) {d0 d : Page} {start : Int × Int} {Q : Int × Int → Prop}
    (h : Inv mt c d0 d start [] Q) {p : Int × Int} (hr : Region (free mt d0) start p) : Q p := by
  have hins : ∀ q : Int × Int, OnScreen q.1 q.2 → free mt d0 q → ¬ Ins mt d q.1 q.2 → Q q := by
    intro q ho hf hn
    by_contra hq
    apply hn
    rw [h.painted.ins hc]
    exact ⟨(Ins_iff mt d0 _ _).2 ⟨ho, hf⟩, hq⟩
  induction hr with
  | here ho hf => exact hins _ ho hf (fun hi => by obtain ⟨v, hv, -⟩ := h.begin hi; simp at hv)
  | next _ hadj ho hf ih => exact hins _ ho hf (fun hi => by obtain ⟨v, hv, -⟩ := h.closed _ _ ih hadj hi; simp at hv)

theorem Inv.init {mt : Int} {c : Nat} (d : Page) (x y : Int) (ho : OnScreen x y) (hf : free mt d (x, y)) :
    Inv mt c d d (x, y) [pack x x (y - 1) (-1), pack x x y 1] (fun _ => False) := by
  obtain ⟨h1, h2, h3, h4⟩ := ho
  obtain ⟨a, rfl⟩ := Int.eq_ofNat_of_zero_le h1
  obtain ⟨b, rfl⟩ := Int.eq_ofNat_of_zero_le h3
  have ho : OnScreen (a : Int) (b : Int) := ⟨h1, h2, h3, h4⟩
  have e2 : unpack (pack a a b 1) = (a, a, b, 1) := by
    have := unpack_pack a a b 1 (by omega) (by omega) (by omega) (by omega) (.inl rfl)
    simpa using this
  have e1 : (unpack (pack a a ((b : Int) - 1) (-1))).1 = a ∧ (unpack (pack a a ((b : Int) - 1) (-1))).2.1 = a ∧
      (b = 0 → (unpack (pack a a ((b : Int) - 1) (-1))).2.2.1 = 255) ∧
      (0 < b → (unpack (pack a a ((b : Int) - 1) (-1))).2.2.1 = b - 1 ∧ (unpack (pack a a ((b : Int) - 1) (-1))).2.2.2 = -1) := by
    by_cases hb : b = 0
    · subst hb
      rw [show ((0 : Nat) : Int) - 1 = -1 by decide, unpack_pack_above a a (-1) (by omega) (by omega)]
      exact ⟨rfl, rfl, fun _ => rfl, fun h => absurd h (by omega)⟩
    · have := unpack_pack a a ((b : Int) - 1) (-1) (by omega) (by omega) (by omega) (by omega) (.inr rfl)
      rw [this]
      exact ⟨rfl, rfl, fun h => absurd h hb, fun _ => ⟨by simp only []; omega, rfl⟩⟩
  obtain ⟨e11, e12, e13, e14⟩ := e1
  generalize hv1 : pack a a ((b : Int) - 1) (-1) = v1 at *
  generalize hv2 : pack a a (b : Int) 1 = v2 at *
  have c2 : Covers v2 a b := by unfold Covers; rw [e2]; exact ⟨by simp, by simp, rfl⟩
  refine ⟨(Painted.refl c d), fun _ h => h.elim, ?_, fun _ _ h => h.elim, ?_, fun _ => ⟨v2, by simp, c2⟩⟩
  · intro v hv
    simp only [List.mem_cons, List.not_mem_nil, or_false] at hv
    rcases hv with rfl | rfl
    · rw [e11, e12]
      refine ⟨by omega, fun t ht hi => ?_⟩
      obtain ⟨t1, t2, -⟩ := ht
      rw [e11] at t1; rw [e12] at t2
      have : t = a := by omega
      subst this
      have hi' := (Ins_iff mt d _ _).1 hi
      have hb : 0 < b := by
        by_contra hb
        have := hi'.1
        rw [e13 (by omega)] at this
        unfold OnScreen at this; omega
      refine .next (.here ho hf) (.inr ⟨rfl, .inr ?_⟩) hi'.1 hi'.2
      simp only []
      rw [(e14 hb).1]; omega
    · rw [e2]
      refine ⟨by simp, fun t ht hi => ?_⟩
      obtain ⟨t1, t2, -⟩ := ht
      rw [e2] at t1 t2
      simp only [] at t1 t2 hi ⊢
      have : t = a := by omega
      subst this
      exact .here ho hf
  · intro v hv hlt t ht1 ht2 hi
    simp only [List.mem_cons, List.not_mem_nil, or_false] at hv
    rcases hv with rfl | rfl
    · rw [e11] at ht1; rw [e12] at ht2
      have : t = a := by omega
      subst this
      have hb : 0 < b := by
        by_contra hb
        rw [e13 (by omega)] at hlt; omega
      rw [(e14 hb).1, (e14 hb).2]
      refine ⟨v2, by simp, ?_⟩
      rw [show ((b - 1 : Nat) : Int) - -1 = b by omega]
      exact c2
    · rw [e2] at ht1 ht2 hi ⊢
      simp only [] at ht1 ht2 hi ⊢
      have : t = a := by omega
      subst this
      have hb : 0 < b := by
        have := ((Ins_iff mt d _ _).1 hi).1
        unfold OnScreen at this; omega
      refine ⟨v1, by simp, ?_⟩
      unfold Covers
      rw [e11, e12, (e14 hb).1]
      exact ⟨by omega, by omega, by omega⟩

/-- The elements of `F` still inside. -/
def insIn (F : Finset (Nat × Nat)) (mt : Int) (d : Page) : Finset (Nat × Nat) :=
  F.filter fun p => inside d (p.1 : Int) (p.2 : Int) mt = true

theorem mem_insIn (F : Finset (Nat × Nat)) (mt : Int) (d : Page) (p : Nat × Nat) : p ∈ insIn F mt d ↔ p ∈ F ∧ Ins mt d (p.1 : Int) (p.2 : Int) := by
  unfold insIn; exact Finset.mem_filter

theorem insIn_sub {F : Finset (Nat × Nat)} {mt : Int} {d d' : Page} (h : ∀ x y, Ins mt d' x y → Ins mt d x y) : insIn F mt d' ⊆ insIn F mt d := by
  intro p hp
  rw [mem_insIn] at hp ⊢
  exact ⟨hp.1, h _ _ hp.2⟩

theorem insIn_card_lt {F : Finset (Nat × Nat)} {mt : Int} {d d' : Page} (h : ∀ x y, Ins mt d' x y → Ins mt d x y) {p : Nat × Nat} (hF : p ∈ F)
    (h1 : Ins mt d p.1 p.2) (h2 : ¬ Ins mt d' p.1 p.2) : (insIn F mt d').card < (insIn F mt d).card := by
  apply Finset.card_lt_card
  refine ⟨insIn_sub h, fun hsub => ?_⟩
  exact h2 ((mem_insIn _ _ _ _).1 (hsub ((mem_insIn _ _ _ _).2 ⟨hF, h1⟩))).2

/-- The dots of a screen of `w` by `h` dots. -/
def cells (w h : Nat) : Finset (Nat × Nat) := Finset.range w ×ˢ Finset.range h

theorem mem_cells (w h : Nat) (p : Nat × Nat) : p ∈ cells w h ↔ p.1 < w ∧ p.2 < h := by
  unfold cells; rw [Finset.mem_product, Finset.mem_range, Finset.mem_range]

theorem card_cells (w h : Nat) : (cells w h).card = w * h := by
  unfold cells; rw [Finset.card_product, Finset.card_range, Finset.card_range]

attribute [irreducible] cells insIn

/-- How many dots of the screen are still inside. -/
def insCount (mt : Int) (d : Page) : Nat := (insIn (cells 256 192) mt d).card

theorem insCount_le {mt : Int} {d d' : Page} (h : ∀ x y, Ins mt d' x y → Ins mt d x y) : insCount mt d' ≤ insCount mt d :=
  Finset.card_le_card (insIn_sub h)

theorem insCount_lt {mt : Int} {d d' : Page} (h : ∀ x y, Ins mt d' x y → Ins mt d x y) {x y : Int} (h1 : Ins mt d x y) (h2 : ¬ Ins mt d' x y) :
    insCount mt d' < insCount mt d := by
  have ho := ((Ins_iff mt d x y).1 h1).1
  unfold OnScreen at ho
  have ex : ((x.toNat : Nat) : Int) = x := by omega
  have ey : ((y.toNat : Nat) : Int) = y := by omega
  refine insIn_card_lt (p := (x.toNat, y.toNat)) h ((mem_cells _ _ _).2 ⟨?_, ?_⟩) ?_ ?_
  · show x.toNat < 256; omega
  · show y.toNat < 192; omega
  · show Ins mt d ((x.toNat : Nat) : Int) ((y.toNat : Nat) : Int); rw [ex, ey]; exact h1
  · show ¬ Ins mt d' ((x.toNat : Nat) : Int) ((y.toNat : Nat) : Int); rw [ex, ey]; exact h2

theorem insCount_bound (mt : Int) (d : Page) : insCount mt d ≤ 49152 := by
  have h : insCount mt d ≤ (cells 256 192).card := Finset.card_le_card (fun p hp => ((mem_insIn _ _ _ _).1 hp).1)
  rw [card_cells] at h
  exact h

/-- The main loop ends, and whatever it returns is right. -/
theorem paintLoop_spec {mt : Int} {c : Nat} (hc : mcol mt c = false) (d0 : Page) (start : Int × Int) : ∀ (fuel : Nat) (d : Page) (stk : List Nat) (Q : Int × Int → Prop),
    Inv mt c d0 d start stk Q → stk.length ≤ 256 →
    (257 * insCount mt d + stk.length ≤ fuel → paintLoop mt c fuel d stk ≠ none) ∧
    (∀ d' e, paintLoop mt c fuel d stk = some (d', e) →
      (e = none → Painted c d0 d' (fun x y => Region (free mt d0) start (x, y))) ∧
      (e ≠ none → e = some .paintOverflow ∧ ∃ Q' : Int × Int → Prop, Painted c d0 d' (fun x y => Q' (x, y)) ∧ ∀ p, Q' p → Region (free mt d0) start p)) := by
  intro fuel
  induction fuel with
  | zero =>
    intro d stk Q h hl
    cases stk with
    | nil =>
      rw [paintLoop]
      refine ⟨fun _ => by simp, ?_⟩
      intro d' e he
      injection he with he; injection he with he1 he2
      subst he1; subst he2
      refine ⟨fun _ => h.painted.congr (fun x y => ⟨h.sound _, h.complete hc⟩), fun hh => absurd rfl hh⟩
    | cons v stk =>
      rw [paintLoop]
      refine ⟨fun hh => ?_, fun d' e he => by simp at he⟩
      rw [List.length_cons] at hh; omega
  | succ fuel ih =>
    intro d stk Q h hl
    cases stk with
    | nil =>
      rw [paintLoop]
      refine ⟨fun _ => by simp, ?_⟩
      intro d' e he
      injection he with he; injection he with he1 he2
      subst he1; subst he2
      refine ⟨fun _ => h.painted.congr (fun x y => ⟨h.sound _, h.complete hc⟩), fun hh => absurd rfl hh⟩
    | cons v stk =>
      rw [paintLoop]
      simp only []
      obtain ⟨hb1, hb2, hb3, hb4⟩ := unpack_bounds v
      rw [List.length_cons] at hl
      obtain ⟨d1, S, hcase⟩ := paintEntry_spec hc d stk (unpack v).1 (unpack v).2.1 (unpack v).2.2.1 (unpack v).2.2.2 hb4 hb2 (h.entry v (by simp)).1 (by omega)
      rcases hcase with ⟨f1, f2, f3⟩ | ⟨N, f1, f2, f3⟩
      · rw [f1]
        simp only []
        refine ⟨fun _ => by simp, ?_⟩
        intro d' e he
        injection he with he; injection he with he1 he2
        subst he1; subst he2
        refine ⟨fun hh => by simp at hh, fun _ => ⟨rfl, fun p => Q p ∨ (p.2 = (unpack v).2.2.1 ∧ S p.1), h.painted.trans f2, ?_⟩⟩
        rintro p (hq | ⟨h1, h2⟩)
        · exact h.sound p hq
        · have := h.row_sound hc (f3 _ h2)
          rw [← h1] at this
          exact this
      · rw [f1]
        simp only []
        have hinv := h.step hc f3
        obtain ⟨i1, i2⟩ := ih d1 (N ++ stk) _ hinv f2
        refine ⟨fun hfuel => i1 ?_, i2⟩
        rw [List.length_cons] at hfuel
        have hmono : ∀ x y, Ins mt d1 x y → Ins mt d x y := fun x y hh => ((f3.painted.ins hc x y).1 hh).1
        by_cases hS : ∃ t, S t
        · obtain ⟨t, ht⟩ := hS
          have hin : Ins mt d t (unpack v).2.2.1 := by
            have := f3.grown t ht
            cases this with
            | base _ hi => exact hi
            | right _ hi => exact hi
            | left _ hi => exact hi
          have hnin : ¬ Ins mt d1 t (unpack v).2.2.1 := fun hh => ((f3.painted.ins hc _ _).1 hh).2 ⟨rfl, ht⟩
          have := insCount_lt hmono hin hnin
          omega
        · have hN : N = [] := by
            cases N with
            | nil => rfl
            | cons w N =>
              obtain ⟨g1, g2, -⟩ := f3.entries w (by simp)
              exact absurd ⟨_, g2 (unpack w).1 (by omega) (by omega)⟩ hS
          have := insCount_le hmono
          rw [hN, List.nil_append]
          omega

end Sbc.Graphics
