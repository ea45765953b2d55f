import Verif.Proof.Display
import Verif.Props.Resources
set_option autoImplicit false
namespace Sbc.Display
open Sbc Sbc.Display.Spec

theorem Spec.ChrFresh.congr {tex tex' : Nat → Nat → Nat} {b b' : Res.Bank} {t : Nat} (ht : tex' t = tex t)
    (hb : ∀ k < (texBanks t).2, b'.bytes (.chr ((texBanks t).1 + k)) = b.bytes (.chr ((texBanks t).1 + k)))
    (h : ChrFresh tex b t) : ChrFresh tex' b' t := by
  intro n hn x hx y hy
  rw [ht, h n hn x hx y hy]
  unfold dot
  rw [hb]
  unfold texSize at hn
  omega

theorem Spec.ColFresh.congr {col : Nat → Nat} {b b' : Res.Bank} (hb : ∀ k < 6, b'.bytes (.col k) = b.bytes (.col k)) (h : ColFresh col b) : ColFresh col b' := by
  intro k hk c hc
  rw [h k hk c hc]
  unfold Res.Bank.word
  rw [hb k hk]

theorem texel_fresh (junk : Nat → Nat) (b : Res.Bank) (tex : Nat → Nat → Nat) {t : Nat} (ht : t < 10) :
    ∃ a, genChr junk (chrSrc b (texBanks t).1) (texSize t) = .ok a ∧ ChrFresh (upd tex t a) b t := by
  obtain ⟨a, h1, h2⟩ := texel_spec junk b ht
  refine ⟨a, h1, fun n hn x hx y hy => ?_⟩
  rw [upd_same]
  exact h2 n hn x hx y hy

theorem col_fresh (junk : Nat → Nat) (b : Res.Bank) : ∃ a, genCol junk (colSrc b) = .ok a ∧ ColFresh a b := by
  obtain ⟨a, h1, h2⟩ := genCol_spec junk (colSrc b)
  refine ⟨a, h1, fun k hk c hc => ?_⟩
  rw [colorAt_spec h2 hk hc]
  unfold colSrc
  rw [show (256 * k + c) / 256 = k by omega, show (256 * k + c) % 256 = c by omega]

/-- What is not marked is up to date. -/
structure Tracked (b : Res.Bank) (tex : Nat → Nat → Nat) (col : Nat → Nat) : Prop where
  chr : ∀ t < 10, ChrFresh tex b t ∨ ∃ k < (texBanks t).2, b.regenChr ((texBanks t).1 + k) = true
  col : ColFresh col b ∨ b.regenCol = true

/-- The textures use different banks. -/
theorem banks_apart {t u : Nat} (ht : t < 10) (hu : u < 10) (h : t ≠ u) {k j : Nat} (hk : k < (texBanks t).2) (hj : j < (texBanks u).2) :
    (texBanks t).1 + k ≠ (texBanks u).1 + j := by
  have : ∀ t u : Fin 10, t ≠ u → (texBanks t.1).1 + (texBanks t.1).2 ≤ (texBanks u.1).1 ∨ (texBanks u.1).1 + (texBanks u.1).2 ≤ (texBanks t.1).1 := by decide
  have := this ⟨t, ht⟩ ⟨u, hu⟩ (by simpa using h)
  dsimp only at this
  omega

theorem refreshTex_spec (junk : Nat → Nat) {b : Res.Bank} {tex : Nat → Nat → Nat} {t : Nat} (ht : t < 10)
    (h : ∀ u < 10, ChrFresh tex b u ∨ ∃ k < (texBanks u).2, b.regenChr ((texBanks u).1 + k) = true) :
    ∃ b' tex', refreshTex junk b tex t = .ok (b', tex') ∧ b'.bytes = b.bytes ∧ b'.regenCol = b.regenCol ∧
      (∀ u < 10, ChrFresh tex' b' u ∨ ∃ k < (texBanks u).2, b'.regenChr ((texBanks u).1 + k) = true) ∧ ChrFresh tex' b' t ∧
      (∀ u < 10, ChrFresh tex b u → ChrFresh tex' b' u) := by
  unfold refreshTex
  dsimp only
  by_cases hc : ∃ k ∈ List.range (texBanks t).2, b.regenChr ((texBanks t).1 + k) = true
  · rw [if_pos hc]
    obtain ⟨a, h1, h2⟩ := texel_fresh junk b tex ht
    rw [h1]
    refine ⟨_, _, rfl, rfl, rfl, ?_, ?_, ?_⟩
    · intro u hu
      by_cases e : u = t
      · subst e
        exact Or.inl (h2.congr rfl fun _ _ => rfl)
      · rcases h u hu with h3 | ⟨k, hk, h3⟩
        · exact Or.inl (h3.congr (upd_other _ _ e) fun _ _ => rfl)
        · refine Or.inr ⟨k, hk, ?_⟩
          dsimp only
          rw [if_neg]
          · exact h3
          · rintro ⟨h4, h5⟩
            exact banks_apart hu ht e hk (j := (texBanks u).1 + k - (texBanks t).1) (by omega) (by omega)
    · exact h2.congr rfl fun _ _ => rfl
    · intro u hu h3
      by_cases e : u = t
      · subst e
        exact h2.congr rfl fun _ _ => rfl
      · exact h3.congr (upd_other _ _ e) fun _ _ => rfl
  · rw [if_neg hc]
    refine ⟨_, _, rfl, rfl, rfl, h, ?_, fun u _ h => h⟩
    rcases h t ht with h3 | ⟨k, hk, h3⟩
    · exact h3
    · exact absurd ⟨k, List.mem_range.mpr hk, h3⟩ hc

theorem refreshLoop_spec (junk : Nat → Nat) : ∀ (l : List Nat) (b : Res.Bank) (tex : Nat → Nat → Nat), (∀ t ∈ l, t < 10) →
    (∀ u < 10, ChrFresh tex b u ∨ ∃ k < (texBanks u).2, b.regenChr ((texBanks u).1 + k) = true) →
    ∃ b' tex', refreshLoop junk l (b, tex) = .ok (b', tex') ∧ b'.bytes = b.bytes ∧ b'.regenCol = b.regenCol ∧
      (∀ t ∈ l, ChrFresh tex' b' t) ∧ (∀ u < 10, ChrFresh tex b u → ChrFresh tex' b' u)
  | [], b, tex, _, _ => ⟨b, tex, rfl, rfl, rfl, by simp, fun _ _ h => h⟩
  | t :: r, b, tex, hl, h => by
    obtain ⟨b1, x1, e1, e2, e3, e4, e5, e6⟩ := refreshTex_spec junk (hl t (by simp)) h
    obtain ⟨b2, x2, f1, f2, f3, f4, f5⟩ := refreshLoop_spec junk r b1 x1 (fun t ht => hl t (List.mem_cons_of_mem _ ht)) e4
    refine ⟨b2, x2, by rw [refreshLoop, e1]; exact f1, f2.trans e2, f3.trans e3, ?_, fun u hu hf => f5 u hu (e6 u hu hf)⟩
    intro u hu
    rcases List.mem_cons.mp hu with rfl | hu
    · exact f5 _ (hl _ (by simp)) e5
    · exact f4 u hu

theorem refresh_spec (junk : Nat → Nat) {b : Res.Bank} {tex : Nat → Nat → Nat} {col : Nat → Nat} (h : Tracked b tex col) :
    ∃ b' tex' col', refresh junk b tex col = .ok (b', tex', col') ∧ b'.bytes = b.bytes ∧ (∀ t < 10, ChrFresh tex' b' t) ∧ ColFresh col' b' := by
  obtain ⟨b1, x1, e1, e2, e3, e4, -⟩ := refreshLoop_spec junk (List.range 10) b tex (by simp) h.chr
  have hb : ∀ t < 10, ChrFresh x1 b1 t := fun t ht => e4 t (List.mem_range.mpr ht)
  unfold refresh
  rw [e1]
  show ∃ b' tex' col', (if b1.regenCol = true then (genCol junk (colSrc b1)).bind fun c => .ok ({ b1 with regenCol := false }, x1, c)
    else .ok (b1, x1, col) : Out _) = _ ∧ _
  by_cases hc : b1.regenCol = true
  · rw [if_pos hc]
    obtain ⟨a, f1, f2⟩ := col_fresh junk b1
    rw [f1]
    exact ⟨_, _, _, rfl, e2, fun t ht => (hb t ht).congr rfl fun _ _ => rfl, f2.congr fun _ _ => rfl⟩
  · rw [if_neg hc]
    refine ⟨_, _, _, rfl, e2, hb, ?_⟩
    rcases h.col with h | h
    · exact h.congr fun _ _ => by rw [e2]
    · rw [e3] at hc; exact absurd h hc

theorem initLoop_spec (junk : Nat → Nat) (b : Res.Bank) : ∀ (l : List Nat) (tex : Nat → Nat → Nat), (∀ t ∈ l, t < 10) →
    ∃ tex', initLoop junk b l tex = .ok tex' ∧ (∀ t ∈ l, ChrFresh tex' b t) ∧ ∀ u < 10, ChrFresh tex b u → ChrFresh tex' b u
  | [], tex, _ => ⟨tex, rfl, by simp, fun _ _ h => h⟩
  | t :: r, tex, hl => by
    obtain ⟨a, h1, h2⟩ := texel_fresh junk b tex (hl t (by simp))
    obtain ⟨x, f1, f2, f3⟩ := initLoop_spec junk b r (upd tex t a) fun t ht => hl t (List.mem_cons_of_mem _ ht)
    refine ⟨x, by rw [initLoop, h1]; exact f1, ?_, ?_⟩
    · intro u hu
      rcases List.mem_cons.mp hu with rfl | hu
      · exact f3 _ (hl _ (by simp)) h2
      · exact f2 u hu
    · intro u hu hf
      apply f3 u hu
      by_cases e : u = t
      · subst e; exact h2
      · exact hf.congr (upd_other _ _ e) fun _ _ => rfl

theorem init_spec (junk : Nat → Nat) (b : Res.Bank) (tex0 : Nat → Nat → Nat) :
    ∃ tex col, initTextures junk b tex0 = .ok (tex, col) ∧ (∀ t < 10, ChrFresh tex b t) ∧ ColFresh col b := by
  obtain ⟨x, f1, f2, -⟩ := initLoop_spec junk b (List.range 10) tex0 (by simp)
  obtain ⟨a, h1, h2⟩ := col_fresh junk b
  exact ⟨x, a, by unfold initTextures; rw [f1]; simp only [Out.bind, h1], fun t ht => f2 t (List.mem_range.mpr ht), h2⟩

/-- A write to a bank that is marked keeps track. -/
theorem Tracked.write {b b' : Res.Bank} {tex : Nat → Nat → Nat} {col : Nat → Nat} (h : Tracked b tex col) {i : Nat}
    (hb : ∀ l, l ≠ .chr i → b'.bytes l = b.bytes l) (hm : b'.regenChr = fun j => if j = i then true else b.regenChr j)
    (hc : b'.regenCol = b.regenCol) : Tracked b' tex col := by
  refine ⟨fun t ht => ?_, ?_⟩
  · by_cases hi : ∃ k < (texBanks t).2, (texBanks t).1 + k = i
    · obtain ⟨k, hk, e⟩ := hi
      exact Or.inr ⟨k, hk, by rw [hm]; exact if_pos e⟩
    · rcases h.chr t ht with h1 | ⟨k, hk, h1⟩
      · refine Or.inl (h1.congr rfl fun k hk => hb _ ?_)
        intro e
        injection e with e
        exact hi ⟨k, hk, e⟩
      · refine Or.inr ⟨k, hk, ?_⟩
        rw [hm]
        show (if _ then _ else _) = _
        rw [h1, ite_self]
  · rcases h.col with h1 | h1
    · exact Or.inl (h1.congr fun k _ => hb _ (by simp))
    · exact Or.inr (hc.trans h1)

theorem Tracked.color {b b' : Res.Bank} {tex : Nat → Nat → Nat} {col : Nat → Nat} (h : Tracked b tex col)
    (hb : ∀ i, b'.bytes (.chr i) = b.bytes (.chr i)) (hm : b'.regenChr = b.regenChr) (hc : b'.regenCol = true) : Tracked b' tex col :=
  ⟨fun t ht => by
    rcases h.chr t ht with h1 | ⟨k, hk, h1⟩
    · exact Or.inl (h1.congr rfl fun k _ => hb _)
    · exact Or.inr ⟨k, hk, by rw [hm]; exact h1⟩, Or.inr hc⟩

end Sbc.Display
