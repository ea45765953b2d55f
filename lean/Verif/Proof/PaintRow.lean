import Verif.Proof.Paint
set_option autoImplicit false
namespace Sbc.Graphics
open Sbc Sbc.Graphics.Spec

/-- Columns a run of the row algorithm reaches from column set `A` by going over inside dots. -/
inductive Grown (I : Int → Prop) (A : Int → Prop) : Int → Prop
  | base {t : Int} : A t → I t → Grown I A t
  | right {t : Int} : Grown I A t → I (t + 1) → Grown I A (t + 1)
  | left {t : Int} : Grown I A t → I (t - 1) → Grown I A (t - 1)

theorem Grown.mono {I J A B : Int → Prop} (hI : ∀ t, I t → J t) (hA : ∀ t, A t → I t → Grown J B t) {t : Int} (h : Grown I A t) : Grown J B t := by
  induction h with
  | base ha hi => exact hA _ ha hi
  | right _ hi ih => exact .right ih (hI _ hi)
  | left _ hi ih => exact .left ih (hI _ hi)

theorem paintPush_some {stk stk' : List Nat} {v : Nat} (h : paintPush stk v = some stk') : stk' = v :: stk ∧ stk.length < 256 := by
  unfold paintPush paintMax at h
  split at h
  · simp at h
  · injection h with h; exact ⟨h.symm, by omega⟩

/-- Result of the row algorithm for columns `lo..` up to `hi` of row `y`. -/
structure RowPost (mt : Int) (c : Nat) (d d' : Page) (y : Nat) (dy : Int) (lo hi : Int) (S P : Int → Prop) (N : List Nat) : Prop where
  painted : Painted c d d' (fun u v => v = y ∧ S u)
  ins : ∀ t, S t → Ins mt d t y
  grown : ∀ t, S t → Grown (fun t => Ins mt d t y) (fun t => lo ≤ t ∧ t ≤ hi) t
  done : ∀ t, lo ≤ t → t ≤ hi → ¬ Ins mt d' t y
  ends : ∀ t, S t → ¬ Ins mt d' (t - 1) y ∧ ¬ Ins mt d' (t + 1) y
  ahead : ∀ t, P t → 0 ≤ (y : Int) + dy → ∃ w ∈ N, Covers w t (y + dy)
  back : ∀ t, S t → hi < t → 0 ≤ (y : Int) - dy → ∃ w ∈ N, Covers w t (y - dy)
  entries : ∀ w ∈ N, (unpack w).1 ≤ (unpack w).2.1 ∧ (∀ t : Int, ((unpack w).1 : Int) ≤ t → t ≤ (unpack w).2.1 → P t) ∧
    ((unpack w).2.2.1 < 192 → ((unpack w).2.2.1 : Int) - (unpack w).2.2.2 = y)

theorem rowLoop_spec {mt : Int} {c : Nat} (hc : mcol mt c = false) (y : Nat) (dy : Int) (hd : dy = 1 ∨ dy = -1) (x2 : Nat) (hx2 : x2 < 256) :
    ∀ (n : Nat) (d : Page) (stk : List Nat) (x x1 : Nat), x2 + 1 ≤ x1 + n → x ≤ x1 → (y < 192 ∨ x = x1) → stk.length ≤ 256 →
      ¬ Ins mt d (x - 1) y → (∀ t : Int, (x : Int) ≤ t → t < x1 → ¬ Ins mt d t y) →
      ∃ d' S, (rowLoop mt c y dy x2 n d stk x x1 = (d', none) ∧ Painted c d d' (fun u v => v = y ∧ S u) ∧
          (∀ t, S t → Grown (fun t => Ins mt d t y) (fun t => (x1 : Int) ≤ t ∧ t ≤ x2) t)) ∨
        ∃ N, rowLoop mt c y dy x2 n d stk x x1 = (d', some (N ++ stk)) ∧ (N ++ stk).length ≤ 256 ∧
          RowPost mt c d d' y dy x1 x2 S (fun t => S t ∨ (x1 ≤ x2 ∧ (x : Int) ≤ t ∧ t < x1)) N := by
  intro n
  induction n with
  | zero =>
    intro d stk x x1 hn hx hy hl hlb hp
    refine ⟨d, fun _ => False, .inr ⟨[], rfl, hl, ?_⟩⟩
    exact ⟨(Painted.refl c d).congr (fun u v => ⟨fun h => h.elim, fun h => h.2⟩), fun _ h => h.elim, fun _ h => h.elim, fun t h1 h2 => by omega,
      fun _ h => h.elim, fun t h => by rcases h with h | h; exact h.elim; omega, fun _ h => h.elim, fun _ h => by simp at h⟩
  | succ n ih =>
    intro d stk x x1 hn hx hy hl hlb hp
    rw [rowLoop]
    by_cases hle : x1 ≤ x2
    · rw [if_pos hle]
      obtain ⟨d1, r, e1, e2, e3, e4, e5⟩ := rightLoop_spec hc y (256 - x1) d x1 (by omega)
      rw [e1]
      simp only []
      have hr256 : r ≤ 256 := by
        by_contra hcon
        have := ((Ins_iff mt d ((r : Int) - 1) y).1 (e4 _ (by omega) (by omega))).1
        unfold OnScreen at this; omega
      have hy192 : r > x → y < 192 := by
        intro hrx
        rcases hy with hy | hy
        · exact hy
        · have := ((Ins_iff mt d x1 y).1 (e4 _ (by omega) (by omega))).1
          unfold OnScreen at this; omega
      have hgrow : ∀ k : Nat, (x1 : Int) + k < r → Grown (fun t => Ins mt d t y) (fun t => (x1 : Int) ≤ t ∧ t ≤ x2) ((x1 : Int) + k) := by
        intro k
        induction k with
        | zero => intro h; exact .base ⟨by omega, by omega⟩ (e4 _ (by omega) (by omega))
        | succ k ihk =>
          intro h
          have := Grown.right (ihk (by omega)) (e4 _ (by omega) (by omega))
          rw [show (x1 : Int) + ((k + 1 : Nat) : Int) = x1 + k + 1 by omega]; exact this
      have hgrow' : ∀ t : Int, (x1 : Int) ≤ t → t < r → Grown (fun t => Ins mt d t y) (fun t => (x1 : Int) ≤ t ∧ t ≤ x2) t := by
        intro t h1 h2
        have := hgrow (t - x1).toNat (by omega)
        rw [show (x1 : Int) + ((t - x1).toNat : Int) = t by omega] at this; exact this
      have hd1 : ∀ t, Ins mt d1 t y → Ins mt d t y := fun t h => ((e3.ins hc t y).1 h).1
      -- first push
      cases hp1 : (if r > x then paintPush stk (pack x (r - 1 : Int) (y + dy) dy) else some stk) with
      | none =>
        refine ⟨d1, fun t => (x1 : Int) ≤ t ∧ t < r, .inl ⟨rfl, e3, fun t ht => hgrow' t ht.1 ht.2⟩⟩
      | some stk1 =>
        simp only []
        have h1 : ∃ N1, stk1 = N1 ++ stk ∧ stk1.length ≤ 256 ∧ (∀ w ∈ N1, r > x ∧ w = pack x ((r - 1 : Nat) : Int) (y + dy) dy) ∧
            (r > x → pack x ((r - 1 : Nat) : Int) (y + dy) dy ∈ N1) := by
          by_cases hrx : r > x
          · rw [if_pos hrx] at hp1
            obtain ⟨h1, h2⟩ := paintPush_some hp1
            rw [show ((r : Int) - 1) = ((r - 1 : Nat) : Int) by omega] at h1
            refine ⟨[pack x ((r - 1 : Nat) : Int) (y + dy) dy], h1, ?_, ?_, ?_⟩
            · rw [h1, List.length_cons]; omega
            · intro w hw; rw [List.mem_singleton] at hw; exact ⟨hrx, hw⟩
            · intro _; exact List.mem_singleton.2 rfl
          · rw [if_neg hrx] at hp1
            injection hp1 with hp1
            exact ⟨[], hp1.symm, by rw [← hp1]; exact hl, by simp, fun h => absurd h hrx⟩
        obtain ⟨N1, hN1, hl1, hN1a, hN1b⟩ := h1
        cases hp2 : (if r > x2 + 1 then paintPush stk1 (pack (x2 + 1) (r - 1 : Int) (y - dy) (-dy)) else some stk1) with
        | none =>
          refine ⟨d1, fun t => (x1 : Int) ≤ t ∧ t < r, .inl ⟨rfl, e3, fun t ht => hgrow' t ht.1 ht.2⟩⟩
        | some stk2 =>
          simp only []
          have h2 : ∃ N2, stk2 = N2 ++ stk1 ∧ stk2.length ≤ 256 ∧ (∀ w ∈ N2, r > x2 + 1 ∧ w = pack ((x2 + 1 : Nat) : Int) ((r - 1 : Nat) : Int) (y + -dy) (-dy)) ∧
              (r > x2 + 1 → pack ((x2 + 1 : Nat) : Int) ((r - 1 : Nat) : Int) (y + -dy) (-dy) ∈ N2) := by
            by_cases hrx : r > x2 + 1
            · rw [if_pos hrx] at hp2
              obtain ⟨h1, h2⟩ := paintPush_some hp2
              rw [show ((r : Int) - 1) = ((r - 1 : Nat) : Int) by omega, show ((x2 : Int) + 1) = ((x2 + 1 : Nat) : Int) by omega,
                show (y : Int) - dy = y + -dy by omega] at h1
              refine ⟨[_], h1, ?_, ?_, ?_⟩
              · rw [h1, List.length_cons]; omega
              · intro w hw; rw [List.mem_singleton] at hw; exact ⟨hrx, hw⟩
              · intro _; exact List.mem_singleton.2 rfl
            · rw [if_neg hrx] at hp2
              injection hp2 with hp2
              exact ⟨[], hp2.symm, by rw [← hp2]; exact hl1, by simp, fun h => absurd h hrx⟩
          obtain ⟨N2, hN2, hl2, hN2a, hN2b⟩ := h2
          obtain ⟨x', s1, s2, s3, s4⟩ := skipLoop_spec (mt := mt) y x2 d1 (x2 - (r + 1)) (r + 1) (by omega)
          rw [s1]
          have hnotr : ¬ Ins mt d1 r y := fun h => e5 (hd1 _ h)
          have hleft : ¬ Ins mt d1 ((x' : Int) - 1) y := by
            by_cases hx' : x' = r + 1
            · rw [hx', show ((r + 1 : Nat) : Int) - 1 = r by omega]; exact hnotr
            · exact s3 _ (by omega) (by omega)
          obtain ⟨d', S, hcase⟩ := ih d1 stk2 x' x' (by omega) (by omega) (.inr rfl) hl2 hleft (by intro t h1 h2; omega)
          have hS : ∀ t, Grown (fun t => Ins mt d1 t y) (fun t => (x' : Int) ≤ t ∧ t ≤ x2) t →
              Grown (fun t => Ins mt d t y) (fun t => (x1 : Int) ≤ t ∧ t ≤ x2) t := by
            intro t h
            exact h.mono hd1 (fun u hu hi => .base ⟨by omega, hu.2⟩ (hd1 u hi))
          refine ⟨d', fun t => ((x1 : Int) ≤ t ∧ t < r) ∨ S t, ?_⟩
          rcases hcase with ⟨f1, f2, f3⟩ | ⟨N, f1, f2, f3⟩
          · refine .inl ⟨f1, (e3.trans f2).congr ?_, ?_⟩
            · intro u v; constructor
              · rintro (⟨rfl, h⟩ | ⟨rfl, h⟩)
                · exact ⟨rfl, .inl h⟩
                · exact ⟨rfl, .inr h⟩
              · rintro ⟨rfl, h | h⟩
                · exact .inl ⟨rfl, h⟩
                · exact .inr ⟨rfl, h⟩
            · rintro t (ht | ht)
              · exact hgrow' t ht.1 ht.2
              · exact hS t (f3 t ht)
          · have hSx : ∀ t, S t → (x' : Int) ≤ t := by
              -- grown only to the right of `x'`, whose left neighbour is not inside
              intro t ht
              have h := f3.grown t ht
              clear ht
              induction h with
              | base ha _ => exact ha.1
              | right _ _ ih2 => omega
              | left _ hi ih2 =>
                rename_i u _
                by_contra hcon
                have : u = x' := by omega
                rw [this] at hi
                exact hleft hi
            have hd' : ∀ t v, Ins mt d' t v → Ins mt d1 t v := fun t v h => ((f3.painted.ins hc t v).1 h).1
            refine .inr ⟨N ++ N2 ++ N1, ?_, ?_, ?_⟩
            · rw [f1, hN2, hN1]; simp [List.append_assoc]
            · rw [hN2, hN1] at f2; simpa [List.append_assoc] using f2
            · refine ⟨?_, ?_, ?_, ?_, ?_, ?_, ?_, ?_⟩
              · refine (e3.trans f3.painted).congr ?_
                intro u v; constructor
                · rintro (⟨rfl, h⟩ | ⟨rfl, h⟩)
                  · exact ⟨rfl, .inl h⟩
                  · exact ⟨rfl, .inr h⟩
                · rintro ⟨rfl, h | h⟩
                  · exact .inl ⟨rfl, h⟩
                  · exact .inr ⟨rfl, h⟩
              · rintro t (ht | ht)
                · exact e4 t ht.1 ht.2
                · exact hd1 t (f3.ins t ht)
              · rintro t (ht | ht)
                · exact hgrow' t ht.1 ht.2
                · exact hS t (f3.grown t ht)
              · intro t h1 h2 h3
                have h4 := hd' _ _ h3
                by_cases hr : t < r
                · exact ((e3.ins hc t y).1 h4).2 ⟨rfl, h1, hr⟩
                · by_cases hr2 : t = r
                  · rw [hr2] at h4; exact hnotr h4
                  · by_cases hr3 : t < x'
                    · exact s3 t (by omega) hr3 h4
                    · exact f3.done t (by omega) h2 h3
              · rintro t (ht | ht)
                · constructor
                  · intro h
                    have h4 := hd' _ _ h
                    by_cases ht0 : (x1 : Int) ≤ t - 1
                    · exact ((e3.ins hc (t - 1) y).1 h4).2 ⟨rfl, ht0, by omega⟩
                    · have h5 := hd1 _ h4
                      by_cases hxx : x = x1
                      · rw [show t - 1 = (x : Int) - 1 by omega] at h5; exact hlb h5
                      · exact hp (t - 1) (by omega) (by omega) h5
                  · intro h
                    have h4 := hd' _ _ h
                    by_cases ht0 : t + 1 < r
                    · exact ((e3.ins hc (t + 1) y).1 h4).2 ⟨rfl, by omega, ht0⟩
                    · rw [show t + 1 = (r : Int) by omega] at h4; exact hnotr h4
                · exact f3.ends t ht
              · intro t ht h0
                by_cases hts : S t
                · obtain ⟨w, hw, hw2⟩ := f3.ahead t (.inl hts) h0
                  exact ⟨w, by simp [hw], hw2⟩
                · have hxr : (x : Int) ≤ t ∧ t < r := by
                    rcases ht with (h | h) | h
                    · exact ⟨by omega, by omega⟩
                    · exact absurd h hts
                    · exact ⟨by omega, by omega⟩
                  have hrx : r > x := by omega
                  have := (pushed x (r - 1) y dy (by omega) (by omega) (hy192 hrx) hd).1 t hxr.1 (by omega) h0
                  exact ⟨_, by simp [hN1b hrx], this⟩
              · intro t ht h2 h0
                by_cases hts : S t
                · obtain ⟨w, hw, hw2⟩ := f3.back t hts h2 h0
                  exact ⟨w, by simp [hw], hw2⟩
                · have ht' := ht.resolve_right hts
                  have hrx : r > x2 + 1 := by omega
                  have := (pushed (x2 + 1) (r - 1) y (-dy) (by omega) (by omega) (hy192 (by omega)) (by omega)).1 t (by omega) (by omega) (by omega)
                  rw [show (y : Int) + -dy = y - dy by omega] at this
                  refine ⟨_, ?_, this⟩
                  have hm := hN2b hrx
                  rw [show (y : Int) + -dy = y - dy by omega] at hm
                  exact List.mem_append_left _ (List.mem_append_right _ hm)
              · intro w hw
                rw [List.append_assoc, List.mem_append, List.mem_append] at hw
                rcases hw with hw | hw | hw
                · obtain ⟨g1, g2, g3⟩ := f3.entries w hw
                  refine ⟨g1, fun t h1 h2 => ?_, g3⟩
                  rcases g2 t h1 h2 with h | h
                  · exact .inl (.inr h)
                  · omega
                · obtain ⟨hrx, rfl⟩ := hN2a w hw
                  obtain ⟨-, g1, g2, g3⟩ := pushed (x2 + 1) (r - 1) y (-dy) (by omega) (by omega) (hy192 (by omega)) (by omega)
                  rw [g1, g2]
                  exact ⟨by omega, fun t h1 h2 => .inl (.inl ⟨by omega, by omega⟩), g3⟩
                · obtain ⟨hrx, rfl⟩ := hN1a w hw
                  obtain ⟨-, g1, g2, g3⟩ := pushed x (r - 1) y dy (by omega) (by omega) (hy192 hrx) hd
                  rw [g1, g2]
                  refine ⟨by omega, fun t h1 h2 => ?_, g3⟩
                  by_cases h : (x1 : Int) ≤ t
                  · exact .inl (.inl ⟨h, by omega⟩)
                  · exact .inr ⟨hle, h1, by omega⟩
    · rw [if_neg hle]
      refine ⟨d, fun _ => False, .inr ⟨[], rfl, hl, ?_⟩⟩
      exact ⟨(Painted.refl c d).congr (fun u v => ⟨fun h => h.elim, fun h => h.2⟩), fun _ h => h.elim, fun _ h => h.elim, fun t h1 h2 => by omega,
        fun _ h => h.elim, fun t h => by rcases h with h | h; exact h.elim; omega, fun _ h => h.elim, fun _ h => by simp at h⟩

end Sbc.Graphics
