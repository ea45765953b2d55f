import Verif.Proof.Bg
set_option autoImplicit false
/-!
# C27, C28: background layers
-/
namespace Sbc.Bg
open Sbc Sbc.Strs

/-- C27: the places of the map and the cells of a layer's memory correspond one to one. -/
theorem C27_index :
    (∀ x y, InMap x y → bgIndex x y < 4096) ∧
    (∀ x y u v, InMap x y → InMap u v → bgIndex x y = bgIndex u v → x = u ∧ y = v) ∧
    (∀ i, i < 4096 → ∃ x y, InMap x y ∧ bgIndex x y = i) :=
  ⟨fun _ _ h => bgIndex_lt h, fun _ _ _ _ h h' e => bgIndex_inj h h' e, bgIndex_surj⟩

/-- C27: different layers have different memory. -/
theorem C27_banks (p l p' l' : Nat) (hl : l < 2) (hl' : l' < 2) (h : bank p l = bank p' l') : p = p' ∧ l = l' := by
  unfold bank at h; omega

/-- C27: BGPUT puts the tile at the place, taken modulo 64, and changes nothing else. -/
theorem C27_bgput (g : Bg) (la x y : Int) (t : Tile) (l n : Nat) (hl : LayerArg la l) (ht : TileArg t n) :
    ∃ g', cmdBgput g la x y t = .ok (g', none) ∧
      Changes g g' l (fun u v => if u = x / 4096 % 64 ∧ v = y / 4096 % 64 then n else g.tile g.page l u v) := by
  obtain ⟨h1, h2⟩ := hl
  have hm : InMap (x / 4096 % 64) (y / 4096 % 64) := by unfold InMap; omega
  refine ⟨g.setLayer l (upd (g.layer l) (bgIndex (x / 4096 % 64) (y / 4096 % 64)) n), ?_, ?_⟩
  · unfold cmdBgput checked
    rw [range_ok (by omega), tileData_arg ht]
    simp only [fpToInt]
    rw [store_ok _ hm, h1]
    rfl
  · refine setLayer_changes g l _ _ ?_ ?_
    · intro u v huv
      by_cases he : u = x / 4096 % 64 ∧ v = y / 4096 % 64
      · rw [if_pos he, he.1, he.2, upd_same]
      · rw [if_neg he, upd_other]
        · rfl
        · intro hi
          exact he (bgIndex_inj huv hm hi)
    · intro i hi
      rw [upd_other]
      have := bgIndex_lt hm
      omega

/-- C27: BGPUT with an argument out of range reports it and changes nothing; it never does anything else. -/
theorem C27_bgput_checked (g : Bg) (la x y : Int) (t : Tile) (h : ¬ ∃ l n, LayerArg la l ∧ TileArg t n) :
    cmdBgput g la x y t = .ok (g, some .outOfRange) := by
  unfold cmdBgput checked
  by_cases hl : 0 ≤ la / 4096 ∧ la / 4096 ≤ 1
  · rw [range_ok hl]
    simp only []
    rcases tileArg_or t with ⟨n, hn⟩ | ht
    · exact absurd ⟨(la / 4096).toNat, n, ⟨by omega, by omega⟩, hn⟩ h
    · rw [ht]; rfl
  · rw [range_err hl]; rfl

/-- C27: BGREAD shows the tile at the place, taken modulo 64: as a number, as four hexadecimal digits, or as
character, palette and flips. -/
theorem C27_bgread (g : Bg) (la x y : Int) (l t : Nat) (hl : LayerArg la l) (ht : g.tile g.page l (x / 4096 % 64) (y / 4096 % 64) = t) (hlt : t < 65536) :
    cmdBgread g la x y .num = .ok (.num (t * 4096)) ∧
    (∃ s, cmdBgread g la x y .str = .ok (.str s) ∧ s.wide = false ∧ s.data.length = 4 ∧ (∀ c ∈ s.data, Num.Spec.isHexDigit c = true) ∧ Num.Spec.hexVal s.data = t) ∧
    ∃ c p h v : Nat, cmdBgread g la x y .parts = .ok (.parts (c * 4096) (p * 4096) (h * 4096) (v * 4096)) ∧
      c < 1024 ∧ p < 16 ∧ h < 2 ∧ v < 2 ∧ tileOf c p h v = t := by
  obtain ⟨h1, h2⟩ := hl
  have ht' : g.layer l (bgIndex (x / 4096 % 64) (y / 4096 % 64)) = t := ht
  have e1 : (t &&& 0xf000) >>> 12 = t / 2 ^ 12 % 2 ^ 4 := field t 12 4
  have e2 : (t &&& 0x0f00) >>> 8 = t / 2 ^ 8 % 2 ^ 4 := field t 8 4
  have e3 : (t &&& 0x00f0) >>> 4 = t / 2 ^ 4 % 2 ^ 4 := field t 4 4
  have e4 : t &&& 0x000f = t / 2 ^ 0 % 2 ^ 4 := field t 0 4
  have e5 : t &&& 0x03ff = t / 2 ^ 0 % 2 ^ 10 := field t 0 10
  have e6 : (t &&& 0x0400) >>> 10 = t / 2 ^ 10 % 2 ^ 1 := field t 10 1
  have e7 : (t &&& 0x0800) >>> 11 = t / 2 ^ 11 % 2 ^ 1 := field t 11 1
  refine ⟨?_, ?_, ?_⟩
  · unfold cmdBgread
    rw [range_ok (by omega)]
    simp only [Out.bind, fpToInt]
    rw [h1, show (l : Int).toNat = l from rfl, ht', intToFp_small (by omega)]
  · unfold cmdBgread
    rw [range_ok (by omega)]
    simp only [Out.bind, fpToInt]
    rw [h1, show (l : Int).toNat = l from rfl, ht', e1, e2, e3, e4]
    refine ⟨_, rfl, rfl, rfl, ?_, ?_⟩
    · intro c hc
      simp only [List.mem_cons, List.not_mem_nil, or_false] at hc
      rcases hc with rfl | rfl | rfl | rfl <;> exact (Num.hexChar_all ⟨_, by omega⟩).2.2
    · unfold Num.Spec.hexVal
      simp only [List.foldl_cons, List.foldl_nil]
      rw [(Num.hexChar_all ⟨t / 2 ^ 12 % 2 ^ 4, by omega⟩).2.1, (Num.hexChar_all ⟨t / 2 ^ 8 % 2 ^ 4, by omega⟩).2.1,
        (Num.hexChar_all ⟨t / 2 ^ 4 % 2 ^ 4, by omega⟩).2.1, (Num.hexChar_all ⟨t / 2 ^ 0 % 2 ^ 4, by omega⟩).2.1]
      simp only []
      omega
  · refine ⟨t / 2 ^ 0 % 2 ^ 10, t / 2 ^ 12 % 2 ^ 4, t / 2 ^ 10 % 2 ^ 1, t / 2 ^ 11 % 2 ^ 1, ?_, by omega, by omega, by omega, by omega, ?_⟩
    · unfold cmdBgread
      rw [range_ok (by omega)]
      simp only [Out.bind, fpToInt]
      rw [h1, show (l : Int).toNat = l from rfl, ht', e1, e5, e6, e7, intToFp_small (by omega), intToFp_small (by omega), intToFp_small (by omega), intToFp_small (by omega)]
    · unfold tileOf
      omega

/-- A tile below 65536 is determined by its parts, and its parts by the tile. -/
theorem C27_parts (c p h v c' p' h' v' : Nat) (hc : c < 1024) (hp : p < 16) (hh : h < 2) (hv : v < 2)
    (hc' : c' < 1024) (hp' : p' < 16) (hh' : h' < 2) (hv' : v' < 2) (e : tileOf c p h v = tileOf c' p' h' v') :
    c = c' ∧ p = p' ∧ h = h' ∧ v = v' ∧ tileOf c p h v < 65536 := by
  unfold tileOf at *; omega

/-- C27: what BGREAD returns in any of the three forms, given back to BGPUT, means the same tile. -/
theorem C27_reput (g : Bg) (la x y : Int) (l t : Nat) (hl : LayerArg la l) (ht : g.tile g.page l (x / 4096 % 64) (y / 4096 % 64) = t) (hlt : t < 65536) :
    (∀ n, cmdBgread g la x y .num = .ok (.num n) → TileArg (.num n) t) ∧
    (∀ s, cmdBgread g la x y .str = .ok (.str s) → TileArg (.str s) t) ∧
    (∀ c p h v, cmdBgread g la x y .parts = .ok (.parts c p h v) → TileArg (.parts c p h v) t) := by
  obtain ⟨h1, ⟨s, h2, h3, h4, h5, h6⟩, c, p, h, v, h7, h8, h9, h10, h11, h12⟩ := C27_bgread g la x y l t hl ht hlt
  refine ⟨?_, ?_, ?_⟩
  · intro n hn
    rw [h1] at hn
    injection hn with hn; injection hn with hn
    subst hn
    unfold TileArg
    omega
  · intro s' hs
    rw [h2] at hs
    injection hs with hs; injection hs with hs
    subst hs
    refine ⟨(t : Int) * 4096, ?_, by omega⟩
    have hw : wideChars s = s.data.map toWide := by unfold wideChars; rw [h3]; rfl
    unfold Num.strToNumber
    rw [hw, Num.intLoop_hex s.data h5 true 0 (by rw [h6]; omega), h6]
    simp only []
    rw [if_neg (by omega)]
    simp
  · intro c' p' h' v' hq
    rw [h7] at hq
    injection hq with hq; injection hq with q1 q2 q3 q4
    subst q1; subst q2; subst q3; subst q4
    exact ⟨c, p, h, v, by omega, h8, by omega, h9, by omega, h10, by omega, h11, h12.symm⟩

/-- C27: BGREAD after BGPUT at the same place returns the tile; at another place it returns what it returned
before. -/
theorem C27_put_read (g : Bg) (la x y : Int) (t : Tile) (l n : Nat) (hl : LayerArg la l) (ht : TileArg t n) :
    ∃ g', cmdBgput g la x y t = .ok (g', none) ∧ cmdBgread g' la x y .num = .ok (.num (n * 4096)) ∧
      ∀ la' u v a, ¬ ((∃ l', LayerArg la' l' ∧ l' = l) ∧ u / 4096 % 64 = x / 4096 % 64 ∧ v / 4096 % 64 = y / 4096 % 64) →
        cmdBgread g' la' u v a = cmdBgread g la' u v a := by
  obtain ⟨g', h1, h2⟩ := C27_bgput g la x y t l n hl ht
  have hpage : g'.page = g.page := congrArg Prod.fst h2.rest
  refine ⟨g', h1, ?_, ?_⟩
  · refine (C27_bgread g' la x y l n hl ?_ (tileArg_lt ht)).1
    rw [hpage, h2.tiles _ _ (by unfold InMap; omega), if_pos ⟨rfl, rfl⟩]
  · intro la' u v a hne
    unfold cmdBgread
    by_cases hla : 0 ≤ la' / 4096 ∧ la' / 4096 ≤ 1
    · rw [range_ok hla]
      simp only [Out.bind, fpToInt]
      have : g'.layer (la' / 4096).toNat (bgIndex (u / 4096 % 64) (v / 4096 % 64)) = g.layer (la' / 4096).toNat (bgIndex (u / 4096 % 64) (v / 4096 % 64)) := by
        unfold Bg.layer
        rw [hpage]
        by_cases hll : (la' / 4096).toNat = l
        · rw [hll]
          refine (h2.tiles _ _ (by unfold InMap; omega)).trans ?_
          rw [if_neg]
          · rfl
          · intro hh
            exact hne ⟨⟨l, ⟨by omega, hl.2⟩, rfl⟩, hh⟩
        · rw [h2.banks]
          intro hb
          exact hll (C27_banks _ _ _ _ (by omega) hl.2 hb).2
      rw [this]
    · rw [range_err hla]; simp only [Out.bind]

example : LayerArg 4096 1 ∧ TileArg (.parts (5 * 4096) (3 * 4096) 0 4096) (tileOf 5 3 0 1) ∧ tileOf 5 3 0 1 < 65536 :=
  ⟨by unfold LayerArg; decide, ⟨5, 3, 0, 1, by decide⟩, by decide⟩

/-- C27: BGCLR clears one layer, or both. -/
theorem C27_bgclr (g : Bg) (la : Int) (l : Nat) (hl : LayerArg la l) :
    ∃ g', cmdBgclr g (some la) = .ok (g', none) ∧ Changes g g' l (fun _ _ => 0) := by
  obtain ⟨h1, h2⟩ := hl
  refine ⟨g.setLayer l (clearLayer (g.layer l)), ?_, ?_⟩
  · unfold cmdBgclr checked
    simp only []
    rw [range_ok (by omega)]
    simp only []
    rw [h1]
    exact rfl
  · refine setLayer_changes g l _ _ ?_ ?_
    · intro x y hxy
      rw [clearLayer_get, if_pos (bgIndex_lt hxy)]
    · intro i hi
      rw [clearLayer_get, if_neg (by omega)]

/-- C27: BGCLR without an argument clears both layers of the current page and nothing else. -/
theorem C27_bgclr_all (g : Bg) : ∃ g', cmdBgclr g none = .ok (g', none) ∧
    (∀ l x y, l < 2 → InMap x y → g'.tile g.page l x y = 0) ∧
    (∀ b, b ≠ bank g.page 0 → b ≠ bank g.page 1 → g'.scr b = g.scr b) ∧ (g'.page, g'.ofs, g'.clip) = (g.page, g.ofs, g.clip) := by
  refine ⟨_, rfl, ?_, ?_, rfl⟩
  · intro l x y hl hxy
    unfold Bg.tile Bg.setLayer Bg.layer
    simp only []
    by_cases h : l = 1
    · subst h
      rw [upd_same, clearLayer_get, if_pos (bgIndex_lt hxy)]
    · have : l = 0 := by omega
      subst this
      rw [upd_other _ _ (by unfold bank; omega), upd_same, clearLayer_get, if_pos (bgIndex_lt hxy)]
  · intro b h0 h1
    unfold Bg.setLayer
    simp only []
    rw [upd_other _ _ h1, upd_other _ _ h0]

/-- C28: BGFILL puts the tile at exactly the places of the rectangle, after moving the corners into the map. -/
theorem C28_bgfill (g : Bg) (la x1 y1 x2 y2 : Int) (t : Tile) (l n : Nat) (hl : LayerArg la l) (ht : TileArg t n) :
    ∃ g', cmdBgfill g la x1 y1 x2 y2 t = .ok (g', none) ∧
      Changes g g' l (fun u v => if InRect (nearest (x1 / 4096)) (nearest (y1 / 4096)) (nearest (x2 / 4096)) (nearest (y2 / 4096)) u v then n
        else g.tile g.page l u v) := by
  obtain ⟨h1, h2⟩ := hl
  unfold cmdBgfill checked
  rw [range_ok (by omega), tileData_arg ht]
  simp only [fpToInt, clamp_eq]
  rw [h1, show (l : Int).toNat = l from rfl]
  rw [show ∀ v : Int, max 0 (min 63 v) = nearest v from fun _ => rfl, show ∀ v : Int, max 0 (min 63 v) = nearest v from fun _ => rfl,
    show ∀ v : Int, max 0 (min 63 v) = nearest v from fun _ => rfl, show ∀ v : Int, max 0 (min 63 v) = nearest v from fun _ => rfl]
  have b1 : 0 ≤ nearest (x1 / 4096) ∧ nearest (x1 / 4096) ≤ 63 := by unfold nearest; omega
  have b2 : 0 ≤ nearest (x2 / 4096) ∧ nearest (x2 / 4096) ≤ 63 := by unfold nearest; omega
  have b3 : 0 ≤ nearest (y1 / 4096) ∧ nearest (y1 / 4096) ≤ 63 := by unfold nearest; omega
  have b4 : 0 ≤ nearest (y2 / 4096) ∧ nearest (y2 / 4096) ≤ 63 := by unfold nearest; omega
  generalize nearest (x1 / 4096) = a at *
  generalize nearest (x2 / 4096) = b at *
  generalize nearest (y1 / 4096) = c at *
  generalize nearest (y2 / 4096) = d at *
  have key : ∀ a' b' c' d' : Int, a' = min a b → b' = max a b → c' = min c d → d' = max c d →
      ∃ g', ((storeAll (fun _ p => (bgIndex p.1 p.2, n)) (cellsOf a' c' b' d') (g.layer l)).bind fun m => fin (g.setLayer l m)) = .ok (g', none) ∧
        Changes g g' l (fun u v => if InRect a c b d u v then n else g.tile g.page l u v) := by
    intro a' b' c' d' ha hb hc hd
    obtain ⟨m', k1, k2, k3⟩ := storeAll_fill n (cellsOf a' c' b' d') (g.layer l) (by
      intro p hp
      rw [mem_cellsOf] at hp
      unfold InMap; omega)
    refine ⟨_, by rw [k1]; rfl, setLayer_changes g l _ _ ?_ k3⟩
    intro x y hxy
    rw [k2 x y hxy]
    by_cases hr : InRect a c b d x y
    · rw [if_pos hr, if_pos]
      rw [mem_cellsOf]; unfold InRect at hr; simp only []; omega
    · rw [if_neg hr, if_neg]
      · rfl
      · rw [mem_cellsOf]; unfold InRect at hr; simp only []; omega
  by_cases hab : a > b
  · by_cases hcd : c > d
    · rw [if_pos hab, if_pos hcd]; exact key b a d c (by omega) (by omega) (by omega) (by omega)
    · rw [if_pos hab, if_neg hcd]; exact key b a c d (by omega) (by omega) (by omega) (by omega)
  · by_cases hcd : c > d
    · rw [if_neg hab, if_pos hcd]; exact key a b d c (by omega) (by omega) (by omega) (by omega)
    · rw [if_neg hab, if_neg hcd]; exact key a b c d (by omega) (by omega) (by omega) (by omega)

/-- C28: BGCOPY copies the tiles of the source rectangle as they were, also when source and destination overlap,
and changes nothing else, when the destination rectangle lies inside the map. -/
theorem C28_bgcopy_partial (g : Bg) (la x1 y1 x2 y2 x3 y3 : Int) (l : Nat) (hl : LayerArg la l) (a b c d e f : Int)
    (ha : a = nearest (x1 / 4096)) (hb : b = nearest (x2 / 4096)) (hc : c = nearest (y1 / 4096)) (hd : d = nearest (y2 / 4096))
    (he : e = nearest (x3 / 4096)) (hf : f = nearest (y3 / 4096))
    (hx : e + (max a b - min a b) ≤ 63) (hy : f + (max c d - min c d) ≤ 63) :
    ∃ g', cmdBgcopy g la x1 y1 x2 y2 x3 y3 = .ok (g', none) ∧
      Changes g g' l (fun u v => if InRect a c b d (u - e + min a b) (v - f + min c d) then g.tile g.page l (u - e + min a b) (v - f + min c d)
        else g.tile g.page l u v) := by
  obtain ⟨h1, h2⟩ := hl
  unfold cmdBgcopy checked
  rw [range_ok (by omega)]
  simp only [fpToInt, clamp_eq]
  rw [h1, show (l : Int).toNat = l from rfl]
  have hn : ∀ v : Int, max 0 (min 63 v) = nearest v := fun _ => rfl
  simp only [hn, ← ha, ← hb, ← hc, ← hd, ← he, ← hf]
  have b1 : 0 ≤ a ∧ a ≤ 63 := by rw [ha]; unfold nearest; omega
  have b2 : 0 ≤ b ∧ b ≤ 63 := by rw [hb]; unfold nearest; omega
  have b3 : 0 ≤ c ∧ c ≤ 63 := by rw [hc]; unfold nearest; omega
  have b4 : 0 ≤ d ∧ d ≤ 63 := by rw [hd]; unfold nearest; omega
  have b5 : 0 ≤ e ∧ e ≤ 63 := by rw [he]; unfold nearest; omega
  have b6 : 0 ≤ f ∧ f ≤ 63 := by rw [hf]; unfold nearest; omega
  clear ha hb hc hd he hf
  have key : ∀ a' b' c' d' : Int, a' = min a b → b' = max a b → c' = min c d → d' = max c d →
      ∃ g', ((storeAll (fun m p => (bgIndex (p.1 - a' + e) (p.2 - c' + f), m (bgIndex p.1 p.2)))
          (if f < c' ∨ (f = c' ∧ e < a') then cellsOf a' c' b' d' else (cellsOf a' c' b' d').reverse) (g.layer l)).bind fun m => fin (g.setLayer l m)) = .ok (g', none) ∧
        Changes g g' l (fun u v => if InRect a c b d (u - e + min a b) (v - f + min c d) then g.tile g.page l (u - e + min a b) (v - f + min c d)
          else g.tile g.page l u v) := by
    intro a' b' c' d' ha hb hc hd
    have hord : ∃ ps, (if f < c' ∨ (f = c' ∧ e < a') then cellsOf a' c' b' d' else (cellsOf a' c' b' d').reverse) = ps ∧
        (∀ p, p ∈ ps ↔ p ∈ cellsOf a' c' b' d') ∧ ps.Nodup ∧ (ps.Pairwise (fun p q => q ≠ (p.1 - a' + e, p.2 - c' + f))) := by
      by_cases hdir : f < c' ∨ (f = c' ∧ e < a')
      · refine ⟨_, if_pos hdir, fun p => Iff.rfl, cellsOf_nodup _ _ _ _, ?_⟩
        refine (cellsOf_pairwise _ _ _ _).imp ?_
        intro p q hpq hq
        rw [hq] at hpq
        simp only [] at hpq
        omega
      · refine ⟨_, if_neg hdir, fun p => List.mem_reverse, by rw [List.Nodup, List.pairwise_reverse]; exact (cellsOf_nodup _ _ _ _).imp (fun h => h.symm), ?_⟩
        rw [List.pairwise_reverse]
        refine (cellsOf_pairwise _ _ _ _).imp ?_
        intro p q hpq hq
        rw [hq] at hpq
        simp only [] at hpq
        omega
    obtain ⟨ps, e0, e1, e2, e3⟩ := hord
    rw [e0]
    obtain ⟨m', k1, k2, k3⟩ := storeAll_copy a' e c' f ps (g.layer l) (by
      intro p hp
      rw [e1, mem_cellsOf] at hp
      unfold InMap; omega) e3 e2
    refine ⟨_, by rw [k1]; rfl, setLayer_changes g l _ _ ?_ k3⟩
    intro x y hxy
    rw [k2 x y hxy, ← ha, ← hc]
    by_cases hr : InRect a c b d (x - e + a') (y - f + c')
    · rw [if_pos hr, if_pos]
      · rfl
      · rw [e1, mem_cellsOf]; unfold InRect at hr; simp only []; omega
    · rw [if_neg hr, if_neg]
      · rfl
      · rw [e1, mem_cellsOf]; unfold InRect at hr; simp only []; omega
  by_cases hab : a > b
  · by_cases hcd : c > d
    · simp only [if_pos hab, if_pos hcd]; exact key b a d c (by omega) (by omega) (by omega) (by omega)
    · simp only [if_pos hab, if_neg hcd]; exact key b a c d (by omega) (by omega) (by omega) (by omega)
  · by_cases hcd : c > d
    · simp only [if_neg hab, if_pos hcd]; exact key a b d c (by omega) (by omega) (by omega) (by omega)
    · simp only [if_neg hab, if_neg hcd]; exact key a b c d (by omega) (by omega) (by omega) (by omega)

example : (10 : Int) = nearest (10 * 4096 / 4096) ∧ (10 : Int) + (max 3 20 - min 3 20) ≤ 63 := by decide

/-- C28 fails for BGCOPY beyond the map: copying the whole layer to (32,32) writes outside the layer's memory. -/
theorem C28_bgcopy_violated (g : Bg) : cmdBgcopy g 0 0 0 (63 * 4096) (63 * 4096) (32 * 4096) (32 * 4096) = .ub := by
  have hl : ∀ l : List (Int × Int), ∀ m : Nat → Nat,
      storeAll (fun m p => (bgIndex (p.1 - 0 + 32) (p.2 - 0 + 32), m (bgIndex p.1 p.2))) ((63, 63) :: l) m = .ub := by
    intro l m
    rw [storeAll]
    unfold store scrCells
    have : ¬ bgIndex (63 - 0 + 32) (63 - 0 + 32) < 4096 := by decide
    simp only []
    rw [if_neg this]
    rfl
  unfold cmdBgcopy checked
  rw [range_ok (by decide)]
  simp only []
  have hc : ∃ l, (cellsOf 0 0 63 63).reverse = (63, 63) :: l := by
    have h : (cellsOf 0 0 63 63).getLast? = some (63, 63) := by decide +kernel
    rw [List.getLast?_eq_some_iff] at h
    obtain ⟨ys, h⟩ := h
    exact ⟨ys.reverse, by rw [h, List.reverse_append]; rfl⟩
  obtain ⟨ps, hps⟩ := hc
  have e1 : clamp (fpToInt (63 * 4096)) = 63 := by decide
  have e2 : clamp (fpToInt (32 * 4096)) = 32 := by decide
  have e0 : clamp (fpToInt 0) = 0 := by decide
  rw [e1, e2, e0, if_neg (by decide), if_neg (by decide)]
  simp only []
  rw [hps, hl]
  rfl

/-- C28 fails for BGCOPY beyond the right edge: copying two tiles to (63,0) changes the tile at (0,32). -/
theorem C28_bgcopy_edge_violated (g : Bg) : ∃ g', cmdBgcopy g 0 0 0 4096 0 (63 * 4096) 0 = .ok (g', none) ∧
    g'.tile g.page 0 0 32 = g.tile g.page 0 1 0 := by
  refine ⟨g.setLayer 0 (upd (upd (g.layer 0) (bgIndex (1 - 0 + 63) (0 - 0 + 0)) (g.layer 0 (bgIndex 1 0))) (bgIndex (0 - 0 + 63) (0 - 0 + 0))
    (upd (g.layer 0) (bgIndex (1 - 0 + 63) (0 - 0 + 0)) (g.layer 0 (bgIndex 1 0)) (bgIndex 0 0))), rfl, ?_⟩
  unfold Bg.tile Bg.setLayer
  simp only [upd_same]
  rw [upd_other _ _ (by decide), show bgIndex 0 32 = bgIndex (1 - 0 + 63) (0 - 0 + 0) from by decide, upd_same]
  rfl

end Sbc.Bg
