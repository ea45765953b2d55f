import Verif.Proof.DisplayRefresh
import Verif.Props.Chars
set_option autoImplicit false
/-!
# C80, C84: the textures and the memory of characters and colours
-/
namespace Sbc.Display
open Sbc Sbc.Display.Spec Sbc.Res

theorem obind_inv {α β : Type} {x : Out α} {f : α → Out β} {r : β} (h : x.bind f = .ok r) : ∃ a, x = .ok a ∧ f a = .ok r := by
  cases x with
  | ok a => exact ⟨a, rfl, h⟩
  | err e => cases h
  | ub => cases h

theorem redraw_inv {b b' : Bank} {i : Nat} (h : b.redraw i = .ok b') :
    b'.bytes = b.bytes ∧ (b'.regenChr = fun j => if j = i then true else b.regenChr j) ∧ b'.regenCol = b.regenCol := by
  unfold Bank.redraw at h
  split at h
  · injection h with h; subst h; exact ⟨rfl, by simp, rfl⟩
  · cases h

theorem write_other {b : Bank} {l l' : Loc} {a : Nat} {data : List Nat} (h : l' ≠ l) : (b.write l a data).bytes l' = b.bytes l' := by
  funext i
  show (if _ then _ else _) = _
  rw [if_neg (fun hh => h hh.1)]

theorem bank_ptr {pg : Pages} (hpg : pg.WF) {n : List Nat} (hn : BankName n) :
    ∃ i : Nat, i < 44 ∧ resourcePtr pg n = .ok (.chr i) ∧ chrIndex pg n = .ok i := by
  obtain ⟨k, b, r, h1, h2, h3, rfl⟩ := hn
  exact C41_redraw_partial hpg h1 h2 h3

theorem write_tracked {pg : Pages} (hpg : pg.WF) {n : List Nat} (hn : BankName n) {b b' : Bank} {tex : Nat → Nat → Nat} {col : Nat → Nat}
    {l : Loc} {r : Int} {a : Nat} {data : List Nat} (hl : resourcePtr pg n = .ok l) (hr : chrIndex pg n = .ok r)
    (h : (b.write l a data).redraw r = .ok b') (ht : Tracked b tex col) : Tracked b' tex col := by
  obtain ⟨i, -, h1, h2⟩ := bank_ptr hpg hn
  rw [h1] at hl; injection hl with hl; subst hl
  rw [h2] at hr; injection hr with hr; subst hr
  obtain ⟨e1, e2, e3⟩ := redraw_inv h
  exact ht.write (i := i) (fun l hl => by rw [e1]; exact write_other hl) e2 e3

theorem chrset_inv {pg : Pages} {b b' : Bank} {res data : Strs.Str} {id : Int} (h : chrset pg b res id data = .ok b') :
    ∃ l r a d, resourcePtr pg (cstr res) = .ok l ∧ chrIndex pg (cstr res) = .ok r ∧ (b.write l a d).redraw r = .ok b' := by
  unfold chrset at h
  obtain ⟨n, -, h⟩ := obind_inv h
  split at h
  · cases h
  obtain ⟨info, hi, h⟩ := obind_inv h
  have ht : info.type = cstr res := by
    unfold verifiedType at hi
    split at hi
    · cases hi
    split at hi
    · cases hi
    obtain ⟨l, -, hi⟩ := obind_inv hi
    injection hi with hi
    rw [← hi]
  split at h
  · obtain ⟨l, hl, h⟩ := obind_inv h
    obtain ⟨d, -, h⟩ := obind_inv h
    obtain ⟨r, hr, h⟩ := obind_inv h
    rw [ht] at hl hr
    exact ⟨l, r, _, d, hl, hr, h⟩
  · cases h

theorem cell_col {size : Nat} {i : Int} {l : Loc} (h : cell .col size i = .ok l) : ∃ i, l = .col i := by
  unfold cell at h
  split at h
  · injection h with h; exact ⟨_, h.symm⟩
  · cases h

theorem col_ptr {pg : Pages} {n : List Nat} (hn : n.take 3 = Kind.col.letters) {l : Loc} (h : resourcePtr pg n = .ok l) : ∃ i, l = .col i := by
  unfold resourcePtr at h
  rw [hn] at h
  dsimp only at h
  rw [if_neg (by decide), if_neg (by decide), if_neg (by decide), if_neg (by decide), if_neg (by decide), if_neg (by decide), if_neg (by decide),
    if_neg (by decide), if_pos (by decide)] at h
  exact cell_col h

theorem putWord_other {b : Bank} {l l' : Loc} {i v : Nat} (h : l' ≠ l) : (b.putWord l i v).bytes l' = b.bytes l' := by
  funext j
  show (if _ then _ else if _ then _ else _) = _
  rw [if_neg (fun hh => h hh.1), if_neg (fun hh => h hh.1)]

theorem colset_inv {pg : Pages} {b b' : Bank} {res data : Strs.Str} {c : Int} (h : colset pg b res c data = .ok b') :
    ∃ i n v, b' = { b.putWord (.col i) n v with regenCol := true } := by
  unfold colset at h
  obtain ⟨n, -, h⟩ := obind_inv h
  obtain ⟨l, hl, h⟩ := obind_inv h
  have : ∃ i, l = .col i := by
    unfold colResource at hl
    split at hl
    · exact col_ptr (n := [67, 79, 76, 48]) rfl hl
    split at hl
    · exact col_ptr (n := [67, 79, 76, 49]) rfl hl
    split at hl
    · exact col_ptr (n := [67, 79, 76, 50]) rfl hl
    · cases hl
  obtain ⟨i, rfl⟩ := this
  split at h
  · cases h
  split at h
  · cases h
  split at h
  · cases h
  injection h with h
  exact ⟨_, _, _, h.symm⟩

theorem Spec.Step.tracked {junk : Nat → Nat} {v w : Video} (h : Step junk v w) (ht : Tracked v.bank v.tex v.col) : Tracked w.bank w.tex w.col := by
  cases h with
  | chrset hpg hn h =>
    obtain ⟨l, r, a, d, h1, h2, h3⟩ := chrset_inv h
    exact write_tracked hpg hn h1 h2 h3 ht
  | colset hpg h =>
    obtain ⟨i, n, x, rfl⟩ := colset_inv h
    exact ht.color (fun j => putWord_other (b := v.bank) (l := .col i) (l' := .chr j) (i := n) (v := x) (by simp)) rfl rfl
  | loadChr hpg hn h =>
    obtain ⟨l, h1, h⟩ := obind_inv h
    obtain ⟨r, h2, h⟩ := obind_inv h
    exact write_tracked hpg hn h1 h2 h ht
  | @loadCol _ n data _ hpg hn h =>
    obtain ⟨l, h1, h⟩ := obind_inv h
    obtain ⟨i, rfl⟩ := col_ptr hn h1
    injection h with h
    subst h
    exact ht.color (fun j => write_other (b := v.bank) (l := .col i) (l' := .chr j) (a := 0) (data := data) (by simp)) rfl rfl
  | draw h =>
    obtain ⟨b', x, c, h1, h2, h3, h4⟩ := refresh_spec junk ht
    rw [h1] at h
    injection h with h
    injection h with e1 h
    injection h with e2 e3
    subst e1 e2 e3
    exact ⟨fun t ht => Or.inl (h3 t ht), Or.inl h4⟩

theorem Spec.Steps.tracked {junk : Nat → Nat} {v w : Video} (h : Steps junk v w) (ht : Tracked v.bank v.tex v.col) : Tracked w.bank w.tex w.col := by
  induction h with
  | none => exact ht
  | next _ s ih => exact s.tracked ih

/-- The display after it was set up with any memory. -/
def Started (junk : Nat → Nat) (v : Video) : Prop := ∃ tex0, initTextures junk v.bank tex0 = .ok (v.tex, v.col)

theorem Started.tracked {junk : Nat → Nat} {v : Video} (h : Started junk v) : Tracked v.bank v.tex v.col := by
  obtain ⟨tex0, h⟩ := h
  obtain ⟨tex, col, h1, h2, h3⟩ := init_spec junk v.bank tex0
  rw [h1] at h
  injection h with h
  injection h with e1 e2
  subst e1 e2
  exact ⟨fun t ht => Or.inl (h2 t ht), Or.inl h3⟩

/-- Setting up the display succeeds for any memory. -/
theorem C84_starts (junk : Nat → Nat) (b : Bank) : ∃ v, v.bank = b ∧ Started junk v := by
  obtain ⟨tex, col, h1, -, -⟩ := init_spec junk b (fun _ _ => 0)
  exact ⟨⟨b, tex, col⟩, rfl, _, h1⟩

/-- C84: whatever the sequence of CHRSET, COLSET, loads and frames before, drawing a frame succeeds, does not touch the memory, and leaves all
textures as the memory says.  Missing: names without a bank, and writes that do not ask for a redraw (below). -/
theorem C84_fresh_partial {junk : Nat → Nat} {v0 v : Video} (h0 : Started junk v0) (h : Steps junk v0 v) :
    ∃ w : Video, refresh junk v.bank v.tex v.col = .ok (w.bank, w.tex, w.col) ∧ Step junk v w ∧ w.bank.bytes = v.bank.bytes ∧
      (∀ t < 10, ChrFresh w.tex w.bank t) ∧ ColFresh w.col w.bank := by
  obtain ⟨b, x, c, h1, h2, h3, h4⟩ := refresh_spec junk (h.tracked h0.tracked)
  exact ⟨⟨b, x, c⟩, h1, .draw h1, h2, h3, h4⟩

/-- C80: after CHRSET of 64 digits and the next frame, the texture that shows the bank holds digit `x + 8 y` at dot `(x, y)` of the character. -/
theorem C80_chrset_partial {junk : Nat → Nat} {v0 v : Video} (h0 : Started junk v0) (h : Steps junk v0 v) {pg : Pages} (hpg : pg.WF) {res : Strs.Str}
    (hl : Strs.strLen res ≤ 5) (hn : BankName (cstr res)) {a : Int} {id : Nat} (ha : fpToInt a = id) (hid : id < 256) {data : Strs.Str} {ds : List Nat}
    (h64 : ds.length = 64) (hd : ∀ d ∈ ds, d < 16) (hs : Spells data ds) :
    ∃ (b' : Bank) (w : Video), chrset pg v.bank res a data = .ok b' ∧ refresh junk b' v.tex v.col = .ok (w.bank, w.tex, w.col) ∧
      ∀ t < 10, ∀ k < (texBanks t).2, resourcePtr pg (cstr res) = .ok (.chr ((texBanks t).1 + k)) → ∀ x < 8, ∀ y < 8,
        texel (w.tex t) (texHeight t) (8 * ((256 * k + id) % 32) + x : Nat) (8 * ((256 * k + id) / 32) + y : Nat) = ds.getD (x + 8 * y) 0 := by
  have hn' := hn
  obtain ⟨k, bk, r, g1, g2, g3, g4⟩ := hn'
  have ht : TypeName (cstr res) := by
    rw [g4]
    rcases g3 with rfl | ⟨p, hp, rfl⟩
    · exact .bank k bk g2
    · exact .screen k bk p g2 hp
  have hk : (cstr res).take 3 = k.letters := by rw [g4]; exact List.take_left' (letters_3 k)
  obtain ⟨l, b', e1, e2, e3, e4, -⟩ := C39_set hpg v.bank hl ht hk g1 ha hid h64 hd hs
  have st : Steps junk v0 ⟨b', v.tex, v.col⟩ := .next h (.chrset hpg hn e2)
  obtain ⟨w, f1, -, f2, f3, -⟩ := C84_fresh_partial h0 st
  refine ⟨b', w, e2, f1, fun t ht kk hkk hp x hx y hy => ?_⟩
  rw [f3 t ht _ (by unfold texSize; omega) x hx y hy]
  rw [e1] at hp
  injection hp with hp
  subst hp
  unfold dot
  rw [f2, show (256 * kk + id) / 256 = kk by omega, show (256 * kk + id) % 256 = id by omega, e3 _ (by omega)]
  have l1 := getD_lt hd (by omega) (2 * ((x + 8 * y) / 2))
  have l2 := getD_lt hd (by omega) (2 * ((x + 8 * y) / 2) + 1)
  by_cases e : x % 2 = 0
  · rw [if_pos e, Nat.div_one, show 2 * ((x + 8 * y) / 2) = x + 8 * y by omega]
    rw [show 2 * ((x + 8 * y) / 2) = x + 8 * y by omega] at l1
    omega
  · rw [if_neg e]
    rw [show 2 * ((x + 8 * y) / 2) + 1 = x + 8 * y by omega] at l2 ⊢
    omega

theorem shown_entry (r g b : Nat) (hr : r < 256) (hg : g < 256) (hb : b < 256) : shown (entry r g b) = (r / 8 * 8, g / 4 * 4, b / 8 * 8) := by
  unfold shown entry
  have key : ∀ R G B z : Nat, R < 32 → G < 32 → B < 32 → z < 2 → (R + 32 * G + 1024 * B + 32768 * z) % 32 = R ∧
      (R + 32 * G + 1024 * B + 32768 * z) / 32 % 32 = G ∧ (R + 32 * G + 1024 * B + 32768 * z) / 1024 % 32 = B ∧
      (R + 32 * G + 1024 * B + 32768 * z) / 32768 % 2 = z := by
    intro R G B z h1 h2 h3 h4
    refine ⟨by omega, by omega, ?_, ?_⟩
    · rw [show R + 32 * G + 1024 * B + 32768 * z = (R + 32 * G) + 1024 * (B + 32 * z) by omega]; omega
    · rw [show R + 32 * G + 1024 * B + 32768 * z = (R + 32 * G + 1024 * B) + 32768 * z by omega]; omega
  obtain ⟨k1, k2, k3, k4⟩ := key (r / 8) (g / 8) (b / 8) (g / 4 % 2) (by omega) (by omega) (by omega) (by omega)
  rw [k1, k2, k3, k4]
  refine Prod.ext ?_ (Prod.ext ?_ ?_) <;> dsimp only <;> omega

/-- C80: after COLSET and the next frame, the colour is shown with its lowest bits (3, 2 and 3) cleared, unless it is the transparent one. -/
theorem C80_colset {junk : Nat → Nat} {v0 v : Video} (h0 : Started junk v0) (h : Steps junk v0 v) {pg : Pages} (hpg : pg.WF) {res : Strs.Str}
    {k : Nat} (hk : k < 6) (hres : colResource pg res = .ok (.col k)) {a : Int} {c : Nat} (ha : fpToInt a = c) (hc : c < 256)
    {r g bl : Nat} (hr : r < 256) (hg : g < 256) (hb : bl < 256) :
    ∃ (b' : Bank) (w : Video), colset pg v.bank res a ⟨false, (hex6 r g bl).map Num.hexChar⟩ = .ok b' ∧ refresh junk b' v.tex v.col = .ok (w.bank, w.tex, w.col) ∧
      colorAt w.col k c = if (if k % 3 = 2 then c else c % 16) = 0 then none else some (r / 8 * 8, g / 4 * 4, bl / 8 * 8) := by
  obtain ⟨b', e1, e2, -, -⟩ := C40_set v.bank hres ha hc hr hg hb
  have st : Steps junk v0 ⟨b', v.tex, v.col⟩ := .next h (.colset hpg e1)
  obtain ⟨w, f1, -, f2, -, f3⟩ := C84_fresh_partial h0 st
  refine ⟨b', w, e1, f1, ?_⟩
  rw [f3 k hk c hc]
  have : w.bank.word (.col k) c = entry r g bl := by rw [← e2]; unfold Bank.word; rw [f2]
  rw [this, shown_entry r g bl hr hg hb]

/-- C80 fails for what COLREAD reports: white is read back as 255, 255, 255 and shown as 248, 252, 248. -/
theorem C80_white_violated {junk : Nat → Nat} {v : Video} (h0 : Started junk v) :
    ∃ (b' : Bank) (w : Video), colset ⟨0, 0, 0⟩ v.bank ⟨false, [66, 71]⟩ 4096 ⟨false, [70, 70, 70, 70, 70, 70]⟩ = .ok b' ∧
      colread ⟨0, 0, 0⟩ b' ⟨false, [66, 71]⟩ 4096 = .ok (255 * 4096, 255 * 4096, 255 * 4096) ∧
      refresh junk b' v.tex v.col = .ok (w.bank, w.tex, w.col) ∧ colorAt w.col 0 1 = some (248, 252, 248) := by
  obtain ⟨b', w, h1, h2, h3⟩ := C80_colset h0 (.none v) (pg := ⟨0, 0, 0⟩) (by decide) (res := ⟨false, [66, 71]⟩) (k := 0) (by decide) rfl (a := 4096) (c := 1) (by decide)
    (by decide) (r := 255) (g := 255) (bl := 255) (by decide) (by decide) (by decide)
  obtain ⟨b'', e1, -, -, e2⟩ := C40_set (pg := ⟨0, 0, 0⟩) v.bank (res := ⟨false, [66, 71]⟩) (l := .col 0) rfl (x := 4096) (col := 1) (by decide) (by decide)
    (r := 255) (g := 255) (bl := 255) (by decide) (by decide) (by decide)
  rw [e1] at h1
  injection h1 with h1
  subst h1
  exact ⟨b'', w, e1, e2, h2, h3⟩

/-- C84 fails for a write that does not ask for a redraw (POKE, MEMCOPY): the memory has the new dot, the picture keeps the old one. -/
theorem C84_poke_violated (junk : Nat → Nat) : ∃ v, Started junk v ∧ ∃ w : Video,
    refresh junk (v.bank.put (.chr 8) 0 1) v.tex v.col = .ok (w.bank, w.tex, w.col) ∧ dot w.bank 8 0 0 0 = 1 ∧
      texel (w.tex 2) (texHeight 2) 0 0 = 0 := by
  obtain ⟨v, hv, h0⟩ := C84_starts junk ⟨fun _ _ => 0, fun _ => false, false⟩
  have ht := h0.tracked
  refine ⟨v, h0, ?_⟩
  have hf : ChrFresh v.tex v.bank 2 := by
    rcases ht.chr 2 (by decide) with h | ⟨k, -, h⟩
    · exact h
    · rw [hv] at h; cases h
  have loop : ∀ (l : List Nat) (x : Nat → Nat → Nat), refreshLoop junk l (v.bank.put (.chr 8) 0 1, x) = .ok (v.bank.put (.chr 8) 0 1, x) := by
    intro l
    induction l with
    | nil => intro x; rfl
    | cons t l ih =>
      intro x
      rw [refreshLoop]
      unfold refreshTex
      dsimp only
      rw [if_neg]
      · exact ih x
      · rintro ⟨k, -, hk⟩
        rw [hv] at hk
        cases hk
  refine ⟨⟨v.bank.put (.chr 8) 0 1, v.tex, v.col⟩, ?_, by unfold dot Bank.put; simp, ?_⟩
  · unfold refresh
    rw [loop]
    show (if _ then _ else _) = _
    rw [if_neg]
    rw [hv]; exact Bool.false_ne_true
  · have := hf 0 (by decide) 0 (by decide) 0 (by decide)
    refine Eq.trans this ?_
    rw [hv]; rfl

/-- C84 fails for names without a bank on page 1: `CHRSET "BGU"` changes the upper screen's memory and asks for the lower screen's redraw. -/
theorem C84_no_bank_violated (junk : Nat → Nat) : ∃ v, Started junk v ∧ ∃ (b' : Bank) (w : Video),
    chrset ⟨1, 0, 0⟩ v.bank ⟨false, [66, 71, 85]⟩ 0 ⟨false, List.replicate 64 49⟩ = .ok b' ∧
    refresh junk b' v.tex v.col = .ok (w.bank, w.tex, w.col) ∧ dot w.bank 8 0 0 0 = 1 ∧ texel (w.tex 2) (texHeight 2) 0 0 = 0 := by
  obtain ⟨v, hv, h0⟩ := C84_starts junk ⟨fun _ _ => 0, fun _ => false, false⟩
  have ht := h0.tracked
  have hf : ChrFresh v.tex v.bank 2 := by
    rcases ht.chr 2 (by decide) with h | ⟨k, -, h⟩
    · exact h
    · rw [hv] at h; cases h
  refine ⟨v, h0, ?_⟩
  have e : ∃ b', chrset ⟨1, 0, 0⟩ v.bank ⟨false, [66, 71, 85]⟩ 0 ⟨false, List.replicate 64 49⟩ = .ok b' ∧
      (b'.regenChr = fun j => if j = 30 then true else false) ∧ b'.regenCol = false ∧ dot b' 8 0 0 0 = 1 ∧ ∀ i, i ≠ 8 → b'.bytes (.chr i) = v.bank.bytes (.chr i) := by
    obtain ⟨l, b', g1, g2, g3, g4, -⟩ := C39_set (pg := ⟨1, 0, 0⟩) (by decide) v.bank (res := ⟨false, [66, 71, 85]⟩) (by decide) (.letters .bgu) (k := .bgu) rfl rfl
      (x := 0) (id := 0) (by decide) (by decide) (data := ⟨false, (List.replicate 64 1).map Num.hexChar⟩) (ds := List.replicate 64 1) (by decide) (by decide)
      (spells_narrow _)
    have hl : l = .chr 8 := by
      have : resourcePtr ⟨1, 0, 0⟩ (cstr ⟨false, [66, 71, 85]⟩) = .ok (.chr 8) := rfl
      rw [this] at g1; injection g1 with g1; exact g1.symm
    subst hl
    obtain ⟨l, r, a, d, k1, k2, k3⟩ := chrset_inv g2
    have hr : r = (30 : Nat) := by
      have : chrIndex ⟨1, 0, 0⟩ (cstr ⟨false, [66, 71, 85]⟩) = .ok 30 := rfl
      rw [this] at k2; injection k2 with k2; exact k2.symm
    subst hr
    obtain ⟨m1, m2, m3⟩ := redraw_inv k3
    refine ⟨b', g2, ?_, ?_, ?_, ?_⟩
    · rw [m2]
      show (fun j => if j = 30 then true else v.bank.regenChr j) = _
      rw [hv]
    · rw [m3]; show v.bank.regenCol = _; rw [hv]
    · have := g3 0 (by decide)
      unfold dot
      show b'.bytes (.chr 8) 0 / _ % 16 = 1
      rw [show (0 : Nat) = 32 * 0 + 0 from rfl, this]
      rfl
    · intro i hi
      funext j
      exact g4 _ _ (fun hh => hi (by injection hh.1))
  obtain ⟨b', e1, e2, e3, e4, e5⟩ := e
  refine ⟨b', ?_⟩
  have skip : ∀ x, refreshTex junk b' x 2 = .ok (b', x) := by
    intro x
    unfold refreshTex
    dsimp only
    rw [if_neg]
    rintro ⟨k, hk, h⟩
    rw [e2] at h
    have : k < 4 := List.mem_range.mp hk
    simp only [ite_eq_left_iff, Bool.false_eq_true, imp_false, Decidable.not_not] at h
    have : (texBanks 2).1 = 8 := rfl
    omega
  have hd : dot b' 8 0 0 0 = 1 := e4
  obtain ⟨b2, x2, col2, r1, r2, r3⟩ : ∃ b2 x2 col2, refresh junk b' v.tex v.col = .ok (b2, x2, col2) ∧ b2.bytes = b'.bytes ∧ x2 2 = v.tex 2 := by
    have one : ∀ (t : Nat) (b : Bank) (x : Nat → Nat → Nat), t ≠ 2 → t < 10 → ∃ b1 x1, refreshTex junk b x t = .ok (b1, x1) ∧ b1.bytes = b.bytes ∧
        (∀ j, b1.regenChr j = true → b.regenChr j = true) ∧ x1 2 = x 2 ∧ b1.regenCol = b.regenCol := by
      intro t b x h2 h10
      unfold refreshTex
      dsimp only
      split
      · obtain ⟨a, ha, -⟩ := texel_fresh junk b x h10
        rw [ha]
        refine ⟨_, _, rfl, rfl, ?_, upd_other _ _ (Ne.symm h2), rfl⟩
        intro j hj
        dsimp only at hj
        split at hj
        · cases hj
        · exact hj
      · exact ⟨b, x, rfl, rfl, fun _ h => h, rfl, rfl⟩
    have two : ∀ (b : Bank) (x : Nat → Nat → Nat), (∀ j, b.regenChr j = true → j = 30) → refreshTex junk b x 2 = .ok (b, x) := by
      intro b x h
      unfold refreshTex
      dsimp only
      rw [if_neg]
      rintro ⟨k, hk, h'⟩
      have h1 := h _ h'
      have h2 : k < 4 := List.mem_range.mp hk
      have : (texBanks 2).1 = 8 := rfl
      omega
    have loop : ∀ (l : List Nat) (b : Bank) (x : Nat → Nat → Nat), (∀ t ∈ l, t < 10) → (∀ j, b.regenChr j = true → j = 30) →
        ∃ b1 x1, refreshLoop junk l (b, x) = .ok (b1, x1) ∧ b1.bytes = b.bytes ∧ x1 2 = x 2 ∧ b1.regenCol = b.regenCol := by
      intro l
      induction l with
      | nil => intro b x _ _; exact ⟨b, x, rfl, rfl, rfl, rfl⟩
      | cons t l ih =>
        intro b x hl hb
        rw [refreshLoop]
        by_cases e : t = 2
        · subst e
          rw [two b x hb]
          exact ih b x (fun t ht => hl t (List.mem_cons_of_mem _ ht)) hb
        · obtain ⟨b1, x1, q1, q2, q3, q4, q5⟩ := one t b x e (hl t (by simp))
          rw [q1]
          obtain ⟨b2, x2, p1, p2, p3, p4⟩ := ih b1 x1 (fun t ht => hl t (List.mem_cons_of_mem _ ht)) (fun j hj => hb j (q3 j hj))
          exact ⟨b2, x2, p1, p2.trans q2, p3.trans q4, p4.trans q5⟩
    obtain ⟨b1, x1, p1, p2, p3, p4⟩ := loop (List.range 10) b' v.tex (by simp) (fun j hj => by
      rw [e2] at hj
      simpa using hj)
    refine ⟨b1, x1, v.col, ?_, p2, p3⟩
    unfold refresh
    rw [p1]
    show (if _ then _ else _) = _
    rw [if_neg]
    rw [p4, e3]; exact Bool.false_ne_true
  refine ⟨⟨b2, x2, col2⟩, e1, r1, ?_, ?_⟩
  · show b2.bytes _ _ / _ % 16 = 1
    rw [r2]; exact hd
  · have := hf 0 (by decide) 0 (by decide) 0 (by decide)
    show texel (x2 2) (texHeight 2) 0 0 = 0
    rw [r3]
    refine Eq.trans this ?_
    rw [hv]; rfl

example : BankName (cstr ⟨false, [66, 71, 85, 48, 76]⟩) := ⟨.bgu, 0, [76], rfl, by decide, Or.inr ⟨76, by decide, rfl⟩, rfl⟩
example : ∃ v0 v, Started (fun _ => 7) v0 ∧ Steps (fun _ => 7) v0 v ∧ v.bank.word (.col 0) 1 = 0x7fff + 0x8000 := by
  obtain ⟨v, -, h0⟩ := C84_starts (fun _ => 7) ⟨fun _ _ => 0, fun _ => false, false⟩
  obtain ⟨b', e1, e2, -, -⟩ := C40_set (pg := ⟨0, 0, 0⟩) v.bank (res := ⟨false, [66, 71]⟩) (l := .col 0) rfl (x := 4096) (col := 1) (by decide) (by decide)
    (r := 255) (g := 255) (bl := 255) (by decide) (by decide) (by decide)
  exact ⟨v, _, h0, .next (.none v) (.colset (pg := ⟨0, 0, 0⟩) (by decide) e1), e2⟩

end Sbc.Display
