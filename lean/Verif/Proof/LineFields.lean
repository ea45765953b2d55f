import Verif.Proof.LineInput
import Verif.Proof.Num
import Mathlib.Data.List.Forall2
set_option autoImplicit false
/-!
# Proofs about the fields of INPUT
-/
namespace Sbc.LineInput
open Sbc Sbc.Strs Sbc.Strs.Spec Sbc.Console Sbc.LineInput.Spec

/-- Character `i` of the row. -/
theorem text_at {u : List Nat} {c : Con} (h : RowShows u c) {i : Nat} (hi : i < 32) (hu : u.length ≤ 32) :
    c.text c.y i = if i < u.length then toWide (u.getD i 0) else 0 := by
  have h1 : (row c)[i]? = some (c.text c.y i) := by
    unfold row
    rw [List.getElem?_map, List.getElem?_range (show i < width from hi)]
    rfl
  rw [h] at h1
  by_cases hl : i < u.length
  · rw [if_pos hl]
    rw [List.getElem?_append_left (by simpa using hl), List.getElem?_map, List.getElem?_eq_getElem hl] at h1
    rw [List.getD_eq_getElem?_getD, List.getElem?_eq_getElem hl]
    exact (Option.some.inj h1).symm
  · rw [if_neg hl]
    rw [List.getElem?_append_right (by simpa using hl), List.getElem?_replicate, if_pos (by simp; omega)] at h1
    exact (Option.some.inj h1).symm

theorem byte_at {u : List Nat} {c : Con} (h : RowShows u c) (hb : ∀ x ∈ u, x < 256) {i : Nat} (hi : i < 32) (hu : u.length ≤ 32) :
    byteAt c i = u.getD i 0 := by
  unfold byteAt
  rw [text_at h hi hu]
  by_cases hl : i < u.length
  · rw [if_pos hl, roundtrip_all ⟨u.getD i 0, ?_⟩]
    · unfold toU8
      have : u.getD i 0 < 256 := by
        rw [List.getD_eq_getElem?_getD, List.getElem?_eq_getElem hl]; exact hb _ (List.getElem_mem hl)
      dsimp only
      omega
    · rw [List.getD_eq_getElem?_getD, List.getElem?_eq_getElem hl]; exact hb _ (List.getElem_mem hl)
  · rw [if_neg hl, List.getD_eq_getElem?_getD, List.getElem?_eq_none (by omega)]
    rfl

theorem char_at {u : List Nat} {c : Con} (h : RowShows u c) (hb : ∀ x ∈ u, x < 256) {i : Nat} (hi : i < 32) (hu : u.length ≤ 32) :
    toChar (c.text c.y i) ≠ -1 := by
  rw [text_at h hi hu]
  by_cases hl : i < u.length
  · rw [if_pos hl]
    have hlt : u.getD i 0 < 256 := by
      rw [List.getD_eq_getElem?_getD, List.getElem?_eq_getElem hl]; exact hb _ (List.getElem_mem hl)
    have := roundtrip_all ⟨u.getD i 0, hlt⟩
    dsimp only at this
    rw [this]
    omega
  · rw [if_neg hl]; decide

theorem range_field (u : List Nat) (p : Nat) (f r : List Nat) (h : u.drop p = f ++ r) :
    (List.range f.length).map (fun j => u.getD (p + j) 0) = f := by
  apply List.ext_getElem?
  intro i
  rw [List.getElem?_map]
  by_cases hi : i < f.length
  · rw [List.getElem?_range hi]
    have : u[p + i]? = f[i]? := by
      rw [← List.getElem?_drop, h, List.getElem?_append_left hi]
    show some (u.getD (p + i) 0) = _
    rw [List.getD_eq_getElem?_getD, this, List.getElem?_eq_getElem hi]
    rfl
  · rw [List.getElem?_eq_none (by simp; omega), List.getElem?_eq_none (by omega)]
    rfl

theorem field_bytes {u : List Nat} {c : Con} (h : RowShows u c) (hb : ∀ x ∈ u, x < 256) (hu : u.length ≤ 32) {p : Nat} {f r : List Nat}
    (hf : u.drop p = f ++ r) : (List.range f.length).map (fun j => byteAt c (p + j)) = f := by
  have hlen : f.length + r.length = u.length - p := by rw [← List.length_drop, hf, List.length_append]
  refine Eq.trans (List.map_congr_left fun j hj => ?_) (range_field u p f r hf)
  have := List.mem_range.mp hj
  exact byte_at h hb (by omega) hu

theorem field_str {u : List Nat} {c : Con} (h : RowShows u c) (hb : ∀ x ∈ u, x < 256) (hu : u.length ≤ 31) {p : Nat} {f r : List Nat}
    (hp : p ≤ u.length) (hf : u.drop p = f ++ r) : fieldStr c p (p + f.length) = ⟨false, f⟩ := by
  have hlen : f.length + r.length = u.length - p := by rw [← List.length_drop, hf, List.length_append]
  unfold fieldStr
  rw [if_neg, show p + f.length - p = f.length by omega, field_bytes h hb (by omega) hf]
  intro hany
  rw [List.any_eq_true] at hany
  obtain ⟨w, hw, hx⟩ := hany
  rw [List.mem_map] at hw
  obtain ⟨j, hj, rfl⟩ := hw
  have := List.mem_range.mp hj
  exact char_at h hb (i := p + j) (by omega) (by omega) (by simpa using hx)

theorem field_num {u : List Nat} {c : Con} (h : RowShows u c) (hb : ∀ x ∈ u, x < 256) (hu : u.length ≤ 32) {p : Nat} {f r : List Nat}
    (hf : u.drop p = f ++ r) (hacc : Accepts .num f) : fieldNum c p (p + f.length) = .ok (Num.Spec.value f) := by
  unfold fieldNum
  have hmem : ∀ x ∈ f, x < 256 := fun x hx => hb x (List.mem_of_mem_drop (by rw [hf]; simp [hx]))
  have e : ((List.range (p + f.length - p)).map fun j => toWide (byteAt c (p + j))) = f.map toWide := by
    rw [show p + f.length - p = f.length by omega]
    have h2 := congrArg (List.map toWide) (field_bytes h hb hu hf)
    rw [List.map_map] at h2
    exact h2
  have hfr : Num.Spec.decVal (Num.Spec.fracs f) < 1048576 := by
    have h1 := Num.decVal_lt _ (Num.fracs_digits f)
    have h2 : 10 ^ (Num.Spec.fracs f).length ≤ 10 ^ 6 := Nat.pow_le_pow_right (by decide) hacc.2.2.2
    omega
  rw [e, Num.strToNumber_eq f hmem hacc.2.2.1 hfr (by have := hacc.2.2.2; omega)]
  show Out.ok (wrap32 _) = _
  rw [wrap32_of_i32 (Num.value_i32 f hacc.2.2.1)]

/-- A separator stands at position `o`: a comma or the end. -/
def SepAt (u : List Nat) (o : Nat) : Prop := u[o]? = some 44 ∨ o = u.length

theorem numeric_iff (ch : Nat) : (isNumber ch || ch == 46 || ch == 45) = true ↔ Numeric ch := by
  unfold isNumber Numeric
  simp
  omega

theorem scan_num {u : List Nat} {c : Con} (h : RowShows u c) (hb : ∀ x ∈ u, x < 256) (hu : u.length ≤ 31) (pool : Bool) (ks : List Kind)
    (p : Nat) (g : List Got) (fuel : Nat) : (f r : List Nat) → (o : Nat) → u.drop o = f ++ r → (∀ x ∈ f, Numeric x) →
    fieldLoop pool c (fuel + f.length) (.num :: ks) p o g = fieldLoop pool c fuel (.num :: ks) p (o + f.length) g
  | [], _, _, _, _ => rfl
  | x :: f, r, o, hd, hn => by
    have hlen : (x :: f).length + r.length = u.length - o := by rw [← List.length_drop, hd, List.length_append]
    simp only [List.length_cons] at hlen
    have hx : u.getD o 0 = x := by
      rw [List.getD_eq_getElem?_getD, show u[o]? = (u.drop o)[0]? by rw [List.getElem?_drop]; simp, hd]; rfl
    have ih := scan_num h hb hu pool ks p g fuel f r (o + 1) (by rw [← List.drop_drop, hd]; rfl) (fun y hy => hn y (by simp [hy]))
    show fieldLoop pool c (fuel + f.length + 1) _ _ _ _ = _
    rw [fieldLoop, if_neg (by show ¬ ¬ o < 32; omega), byte_at h hb (by omega) (by omega), hx]
    dsimp only
    rw [if_pos ((numeric_iff x).mpr (hn x (by simp))), ih]
    rw [show o + (x :: f).length = o + 1 + f.length by simp only [List.length_cons]; omega]

theorem scan_str {u : List Nat} {c : Con} (h : RowShows u c) (hb : ∀ x ∈ u, x < 256) (h0 : 0 ∉ u) (hu : u.length ≤ 31) (pool : Bool) (ks : List Kind)
    (p : Nat) (g : List Got) (fuel : Nat) : (f r : List Nat) → (o : Nat) → u.drop o = f ++ r → 44 ∉ f →
    fieldLoop pool c (fuel + f.length) (.str :: ks) p o g = fieldLoop pool c fuel (.str :: ks) p (o + f.length) g
  | [], _, _, _, _ => rfl
  | x :: f, r, o, hd, hn => by
    have hlen : (x :: f).length + r.length = u.length - o := by rw [← List.length_drop, hd, List.length_append]
    simp only [List.length_cons] at hlen
    have hx : u.getD o 0 = x := by
      rw [List.getD_eq_getElem?_getD, show u[o]? = (u.drop o)[0]? by rw [List.getElem?_drop]; simp, hd]; rfl
    have hx0 : x ≠ 0 := fun e => h0 (List.mem_of_mem_drop (by rw [hd, e]; simp))
    have ih := scan_str h hb h0 hu pool ks p g fuel f r (o + 1) (by rw [← List.drop_drop, hd]; rfl) (fun y => hn (by simp [y]))
    show fieldLoop pool c (fuel + f.length + 1) _ _ _ _ = _
    rw [fieldLoop, if_neg (by show ¬ ¬ o < 32; omega), byte_at h hb (by omega) (by omega), hx]
    dsimp only
    rw [if_neg (by
      rintro (e | e | e)
      · exact hn (by simp [e])
      · exact hx0 e
      · have : o + 1 ≥ 32 := e
        omega), ih]
    rw [show o + (x :: f).length = o + 1 + f.length by simp only [List.length_cons]; omega]

theorem sep_byte {u : List Nat} {o : Nat} (h : SepAt u o) : u.getD o 0 = 44 ∨ u.getD o 0 = 0 := by
  rcases h with h | h
  · left; rw [List.getD_eq_getElem?_getD, h]; rfl
  · right; rw [List.getD_eq_getElem?_getD, List.getElem?_eq_none (by omega)]; rfl

/-- One field. -/
theorem one_field {u : List Nat} {c : Con} (h : RowShows u c) (hb : ∀ x ∈ u, x < 256) (h0 : 0 ∉ u) (hu : u.length ≤ 31) (k : Kind) (ks : List Kind)
    (g : List Got) (fuel o : Nat) (f r : List Nat) (ho : o ≤ u.length) (hd : u.drop o = f ++ r) (hs : SepAt u (o + f.length)) (hacc : Accepts k f) :
    ∃ v, Means k f v ∧ fieldLoop true c (fuel + 1 + f.length) (k :: ks) o o g = fieldLoop true c fuel ks (o + f.length + 1) (o + f.length + 1) (g ++ [v]) := by
  have hlen : f.length + r.length = u.length - o := by rw [← List.length_drop, hd, List.length_append]
  have hsep := sep_byte hs
  cases k with
  | other => cases hacc
  | num =>
    refine ⟨.num (Num.Spec.value f), rfl, ?_⟩
    rw [scan_num h hb hu true ks o g (fuel + 1) f r o hd hacc.2.1]
    rw [fieldLoop, if_neg (by show ¬ ¬ o + f.length < 32; omega), byte_at h hb (by omega) (by omega)]
    dsimp only
    have hne : f.length ≠ 0 := fun e => hacc.1 (List.eq_nil_of_length_eq_zero e)
    rw [if_neg (by rw [numeric_iff]; unfold Numeric; omega), if_pos (by rcases hsep with e | e; exact .inl e; exact .inr (.inl e)), if_neg (by omega),
      field_num h hb (by omega) hd hacc]
    rfl
  | str =>
    refine ⟨.str ⟨false, f⟩, rfl, ?_⟩
    rw [scan_str h hb h0 hu true ks o g (fuel + 1) f r o hd hacc]
    rw [fieldLoop, if_neg (by show ¬ ¬ o + f.length < 32; omega), byte_at h hb (by omega) (by omega)]
    dsimp only
    rw [if_pos (by rcases hsep with e | e; exact .inl e; exact .inr (.inl e)), if_pos rfl, field_str h hb hu ho hd]

/-- A text of fields. -/
theorem comma_cons (f : List Nat) (fs : List (List Nat)) : ∃ r, commaText (f :: fs) = f ++ r ∧ (fs = [] → r = []) ∧ (fs ≠ [] → r = 44 :: commaText fs) := by
  cases fs with
  | nil => exact ⟨[], by simp [commaText], fun _ => rfl, fun h => absurd rfl h⟩
  | cons g r => exact ⟨44 :: commaText (g :: r), rfl, (fun h => by cases h), fun _ => rfl⟩

/-- All fields. -/
theorem all_fields {u : List Nat} {c : Con} (h : RowShows u c) (hb : ∀ x ∈ u, x < 256) (h0 : 0 ∉ u) (hu : u.length ≤ 31) :
    (ks : List Kind) → (fs : List (List Nat)) → List.Forall₂ Accepts ks fs → (o fuel : Nat) → (g : List Got) → (fs ≠ [] → o ≤ u.length) →
      (fs ≠ [] → u.drop o = commaText fs) → 33 ≤ o + fuel →
      ∃ vs, MeansAll ks fs vs ∧ fieldLoop true c fuel ks o o g = .ok (g ++ vs, .accept)
  | _, _, .nil, o, fuel, g, _, _, _ => ⟨[], .nil, by cases fuel <;> simp [fieldLoop]⟩
  | k :: ks, f :: fs, .cons h1 h2, o, fuel, g, ho, hd, hfuel => by
    have ho := ho (by simp)
    obtain ⟨r, e1, e2, e3⟩ := comma_cons f fs
    have hd := hd (by simp)
    rw [e1] at hd
    have hlen : f.length + r.length = u.length - o := by rw [← List.length_drop, hd, List.length_append]
    have hs : SepAt u (o + f.length) := by
      by_cases hn : fs = []
      · right; rw [e2 hn] at hlen; simp at hlen; omega
      · left
        rw [← List.getElem?_drop, hd, List.getElem?_append_right (by omega), Nat.sub_self, e3 hn]
        rfl
    obtain ⟨v, hv, hstep⟩ := one_field h hb h0 hu k ks g (fuel - 1 - f.length) o f r ho hd hs h1
    obtain ⟨vs, hvs, hrest⟩ := all_fields h hb h0 hu ks fs h2 (o + f.length + 1) (fuel - 1 - f.length) (g ++ [v])
      (fun hn => by rw [e3 hn] at hlen; simp at hlen; omega)
      (fun hn => by
        rw [Nat.add_assoc, ← List.drop_drop, hd, e3 hn, ← List.drop_drop, List.drop_left]
        rfl) (by omega)
    refine ⟨v :: vs, .cons hv hvs, ?_⟩
    rw [show fuel - 1 - f.length + 1 + f.length = fuel by omega] at hstep
    rw [hstep, hrest]
    simp

/-- Fields before a bad one. -/
theorem bad_field {u : List Nat} {c : Con} (h : RowShows u c) (hb : ∀ x ∈ u, x < 256) (h0 : 0 ∉ u) (hu : u.length ≤ 31) (ks' : List Kind) (a : List Nat)
    (rest : List Nat) (ha : ∀ x ∈ a, Numeric x) (hbad : (a = [] ∧ (rest = [] ∨ rest.head? = some 44)) ∨ ∃ x, rest.head? = some x ∧ ¬ Numeric x ∧ x ≠ 44 ∧ x ≠ 32) :
    (ks : List Kind) → (fs : List (List Nat)) → List.Forall₂ Accepts ks fs → (o fuel : Nat) → (g : List Got) → o ≤ u.length →
      u.drop o = fs.flatMap (· ++ [44]) ++ (a ++ rest) → 33 ≤ o + fuel →
      ∃ vs, MeansAll ks fs vs ∧ fieldLoop true c fuel (ks ++ .num :: ks') o o g = .ok (g ++ vs, .reject)
  | _, _, .nil, o, fuel, g, ho, hd, hfuel => by
    refine ⟨[], .nil, ?_⟩
    have hd : u.drop o = a ++ rest := hd
    have hlen : a.length + rest.length = u.length - o := by rw [← List.length_drop, hd, List.length_append]
    rw [List.append_nil, List.nil_append]
    have hsc := scan_num h hb hu true ks' o g (fuel - a.length) a rest o hd ha
    rw [show fuel - a.length + a.length = fuel by omega] at hsc
    rw [hsc, show fuel - a.length = (fuel - a.length - 1) + 1 by omega]
    rw [fieldLoop, if_neg (by show ¬ ¬ o + a.length < 32; omega), byte_at h hb (by omega) (by omega)]
    have hch : u.getD (o + a.length) 0 = rest.head?.getD 0 := by
      rw [List.getD_eq_getElem?_getD, ← List.getElem?_drop, hd, List.getElem?_append_right (by omega), Nat.sub_self, List.head?_eq_getElem?]
    rw [hch]
    dsimp only
    rcases hbad with ⟨ea, hr⟩ | ⟨x, hx, hnum, h44, h32⟩
    · have hz : rest.head?.getD 0 = 44 ∨ rest.head?.getD 0 = 0 := by
        rcases hr with hr | hr
        · right; rw [hr]; rfl
        · left; rw [hr]; rfl
      rw [if_neg (by rw [numeric_iff]; unfold Numeric; omega), if_pos (by rcases hz with e | e; exact .inl e; exact .inr (.inl e)),
        if_pos (by rw [ea]; simp)]
    · rw [hx]
      have hx0 : x ≠ 0 := by
        rintro rfl
        refine h0 (List.mem_of_mem_drop (i := o) ?_)
        rw [hd, List.mem_append]
        right
        exact List.mem_of_mem_head? hx
      rw [if_neg (by rw [numeric_iff]; exact hnum), if_neg]
      have hr1 : 0 < rest.length := by cases rest <;> simp at hx ⊢
      show ¬ (x = 44 ∨ x = 0 ∨ x = 32 ∨ o + a.length + 1 ≥ 32)
      omega
  | k :: ks, f :: fs, .cons h1 h2, o, fuel, g, ho, hd, hfuel => by
    have hd : u.drop o = (f ++ [44] ++ fs.flatMap (· ++ [44])) ++ (a ++ rest) := hd
    have hd' : u.drop o = f ++ (44 :: (fs.flatMap (· ++ [44]) ++ (a ++ rest))) := by rw [hd]; simp
    have hlen := congrArg List.length hd'
    rw [List.length_drop, List.length_append, List.length_cons] at hlen
    have hs : SepAt u (o + f.length) := by
      left
      rw [← List.getElem?_drop, hd', List.getElem?_append_right (by omega), Nat.sub_self]
      rfl
    obtain ⟨v, hv, hstep⟩ := one_field h hb h0 hu k (ks ++ .num :: ks') g (fuel - 1 - f.length) o f _ ho hd' hs h1
    obtain ⟨vs, hvs, hrest⟩ := bad_field h hb h0 hu ks' a rest ha hbad ks fs h2 (o + f.length + 1) (fuel - 1 - f.length) (g ++ [v])
      (by omega) (by rw [Nat.add_assoc, ← List.drop_drop, hd', ← List.drop_drop, List.drop_left]; rfl) (by omega)
    refine ⟨v :: vs, .cons hv hvs, ?_⟩
    rw [show fuel - 1 - f.length + 1 + f.length = fuel by omega] at hstep
    show fieldLoop true c fuel (k :: (ks ++ .num :: ks')) o o g = _
    rw [hstep, hrest]
    simp

theorem numeric_no_comma {f : List Nat} (h : ∀ c ∈ f, Numeric c) : 44 ∉ f := fun hm => by
  have := h 44 hm
  unfold Numeric at this
  omega

theorem accepts_no_comma {k : Kind} {f : List Nat} (h : Accepts k f) : 44 ∉ f := by
  cases k with
  | num => exact numeric_no_comma h.2.1
  | str => exact h
  | other => cases h

theorem commas_row {u : List Nat} {c : Con} (h : RowShows u c) (hb : ∀ x ∈ u, x < 256) : commas c = u.count 44 := by
  unfold commas
  rw [h, List.filter_append, List.length_append]
  have e1 : (List.filter (· == toWide 44) (List.replicate (32 - u.length) 0)).length = 0 := by
    rw [List.filter_eq_nil_iff.mpr]
    · rfl
    · intro x hx
      rw [List.eq_of_mem_replicate hx]
      decide
  rw [e1, Nat.add_zero, List.count_eq_countP, List.countP_eq_length_filter]
  clear e1 h
  induction u with
  | nil => rfl
  | cons a u ih =>
    have hi := ih (fun x hx => hb x (by simp [hx]))
    rw [List.map_cons, List.filter_cons, List.filter_cons]
    by_cases ha : a = 44
    · subst ha
      rw [if_pos (by decide), if_pos (by decide), List.length_cons, List.length_cons, hi]
    · rw [if_neg, if_neg, hi]
      · simpa using ha
      · simp only [beq_iff_eq]
        exact fun e => ha (Num.toWide_inj (hb a (by simp)) (by decide) e)

theorem count_commaText : (fs : List (List Nat)) → fs ≠ [] → (∀ f ∈ fs, 44 ∉ f) → (commaText fs).count 44 + 1 = fs.length
  | [], h, _ => absurd rfl h
  | [f], _, h => by
    show List.count 44 f + 1 = 1
    rw [List.count_eq_zero.mpr (h f (by simp))]
  | f :: g :: r, _, h => by
    show List.count 44 (f ++ 44 :: commaText (g :: r)) + 1 = _
    rw [List.count_append, List.count_cons_self, List.count_eq_zero.mpr (h f (by simp))]
    have := count_commaText (g :: r) (by simp) (fun x hx => h x (by simp [hx]))
    simp only [List.length_cons] at this ⊢
    omega

end Sbc.LineInput
