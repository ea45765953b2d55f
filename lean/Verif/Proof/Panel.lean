import Verif.Spec.Panel
import Verif.Props.Input
set_option autoImplicit false
/-!
# Proofs about the touch keyboard
-/
namespace Sbc.Panel
open Sbc Sbc.Strs Sbc.Input Sbc.Panel.Spec

/-- The code of a key. -/
def code : Area → Nat
  | .func n => 101 + n
  | .exit => 106
  | .esc => 1
  | .face r i => [2, 16, 33, 48].getD r 0 + i
  | .backspace => 15
  | .tab => 32
  | .shift => 47
  | .enter => 60
  | .caps => 61
  | .layout n => 60 + n
  | .space => 65
  | .insert => 66
  | .delete => 67
  | .search => 68
  | .help => 70
  | .run => 71
  | .edit => 72
  | .page false => 80
  | .page true => 81
  | .icon n => 90 + n

/-- The characters of a key in the tables of the program. -/
def tableChars (m k : Nat) : List Nat :=
  let s := keyboardChr.getD m []
  if m = 5 then
    let c := s.getD (2 * k) 0
    let d := s.getD (2 * k + 1) 0
    if c = 0 then [] else if d = 0 then [c] else [c, d]
  else
    let c := s.getD k 0
    if c = 0 then [] else [c]

/-- What the tables say about a square. -/
def squareOk (x y : Nat) : Bool :=
  let c := (keyMap.getD y []).getD x 255
  match areaSquare x y with
  | none => c == 255
  | some a =>
    c != 255 && keyCodes[c]? == some (code a) && decide (c = 89 ↔ a = .page false) &&
      (match a with
        | .face r i => decide (2 ≤ code (.face r i)) && decide (code (.face r i) ≤ 60) && decide (code (.face r i) ≠ 47)
        | .func n => decide (n < 5)
        | .layout n => decide (2 ≤ n ∧ n ≤ 4)
        | .icon n => decide (n < 4)
        | .page b => !b
        | _ => true) &&
      [2, 3, 4].all fun t => [false, true].all fun u =>
        !(decide (code a ≤ 60) || decide (code a = 65)) || tableChars (2 * (t - 2) + u.toNat) (code a) == typed t u a

theorem squares_ok : (List.range 24).all (fun y => (List.range 32).all fun x => squareOk x y) = true := by decide +kernel

theorem square_ok {x y : Nat} (hx : x < 32) (hy : y < 24) : squareOk x y = true := by
  have h := List.all_eq_true.mp squares_ok y (List.mem_range.mpr hy)
  exact List.all_eq_true.mp h x (List.mem_range.mpr hx)

theorem map_none {d : Nat × Nat} (hx : d.1 < 256) (hy : d.2 < 192) (h : areaAt d = none) : mapAt d.1 d.2 = 255 := by
  have := square_ok (x := d.1 / 8) (y := d.2 / 8) (by omega) (by omega)
  unfold areaAt at h
  unfold squareOk at this
  rw [h] at this
  simpa [mapAt] using this

/-- Facts about a key on the panel. -/
structure KeyOk (a : Area) : Prop where
  face : ∀ r i, a = .face r i → 2 ≤ code a ∧ code a ≤ 60 ∧ code a ≠ 47
  func : ∀ n, a = .func n → n < 5
  layout : ∀ n, a = .layout n → 2 ≤ n ∧ n ≤ 4
  icon : ∀ n, a = .icon n → n < 4
  chars : ∀ t u, 2 ≤ t → t ≤ 4 → (code a ≤ 60 ∨ code a = 65) → tableChars (2 * (t - 2) + u.toNat) (code a) = typed t u a

theorem map_some {d : Nat × Nat} {a : Area} (hx : d.1 < 256) (hy : d.2 < 192) (h : areaAt d = some a) :
    mapAt d.1 d.2 ≠ 255 ∧ keyCodes[mapAt d.1 d.2]? = some (code a) ∧ (mapAt d.1 d.2 = 89 ↔ a = .page false) ∧ a ≠ .page true ∧ KeyOk a := by
  have := square_ok (x := d.1 / 8) (y := d.2 / 8) (by omega) (by omega)
  unfold areaAt at h
  unfold squareOk at this
  rw [h] at this
  simp only [Bool.and_eq_true, bne_iff_ne, beq_iff_eq, decide_eq_true_eq, List.all_eq_true] at this
  obtain ⟨⟨⟨⟨h1, h2⟩, h3⟩, h4⟩, h5⟩ := this
  refine ⟨h1, h2, h3, ?_, ⟨?_, ?_, ?_, ?_, ?_⟩⟩
  · rintro rfl; simp at h4
  · rintro r i rfl; simp only [Bool.and_eq_true, decide_eq_true_eq] at h4; exact ⟨h4.1.1, h4.1.2, h4.2⟩
  · rintro n rfl; simpa using h4
  · rintro n rfl; simpa using h4
  · rintro n rfl; simpa using h4
  · intro t u ht ht4 hc
    have h6 := h5 t (by simp; omega) u (by cases u <;> simp)
    rw [Bool.or_eq_true, Bool.not_eq_true', beq_iff_eq] at h6
    refine h6.resolve_left fun h7 => ?_
    rw [Bool.or_eq_false_iff, decide_eq_false_iff_not, decide_eq_false_iff_not] at h7
    omega

theorem page_ok : KeyOk (.page true) :=
  ⟨(fun _ _ h => by cases h), (fun _ h => by cases h), (fun _ h => by cases h), (fun _ h => by cases h), (fun _ _ _ _ h => absurd h (by decide))⟩

theorem Spec.Kept.refl (p : Panel) : Kept p p := ⟨rfl, rfl, rfl, rfl, rfl, rfl, rfl, rfl⟩
theorem Spec.Kept.trans {p q r : Panel} (h : Kept p q) (h2 : Kept q r) : Kept p r :=
  ⟨h2.puse.trans h.puse, h2.pmax.trans h.pmax, h2.active.trans h.active, h2.chr.trans h.chr, h2.func.trans h.func, h2.text.trans h.text,
    h2.keysText.trans h.keysText, h2.pic.trans h.pic⟩

/-- The touch is the same. -/
def SameTouch (p p' : Panel) : Prop := p'.key = p.key ∧ p'.id = p.id ∧ p'.time = p.time

theorem holds_take {r : Ring} {q : List Nat} (h : Holds r q) : q.take 256 = q := List.take_of_length_le h.cap

theorem set_take {r : Ring} {q : List Nat} (h : Holds r q) (c : Nat) : Holds (setInkey r c).1 ((q ++ [c]).take 256) := by
  by_cases hl : q.length < 256
  · rw [List.take_of_length_le (by simp; omega)]
    exact (holds_set h c hl).2
  · have hlen : q.length = 256 := by have := h.cap; omega
    rw [List.take_append_of_le_length (by omega), holds_take h]
    have := holds_full h c hl
    rw [this]
    exact h

theorem take_append_take (l m : List Nat) (n : Nat) : (l.take n ++ m).take n = (l ++ m).take n := by
  by_cases h : l.length ≤ n
  · rw [List.take_of_length_le h]
  · rw [List.take_append_of_le_length (by rw [List.length_take]; omega), List.take_take, Nat.min_self, List.take_append_of_le_length (by omega)]

theorem typeAll_take : (ws : List Nat) → {r : Ring} → {q : List Nat} → Holds r q → Holds (typeAll r ws) ((q ++ ws).take 256)
  | [], r, q, h => by rw [List.append_nil, holds_take h]; exact h
  | w :: ws, r, q, h => by
    have h1 := typeAll_take ws (set_take h w)
    have e : ((q ++ [w]).take 256 ++ ws).take 256 = (q ++ w :: ws).take 256 := by
      rw [List.append_cons q w ws, take_append_take]
    rw [e] at h1
    exact h1

theorem chr_lengths : ∀ m, m < 6 → (if m = 5 then 138 else 69) ≤ (keyboardChr.getD m []).length ∧ keyboardChr[m]? = some (keyboardChr.getD m []) := by decide +kernel

theorem getD_some {l : List Nat} {i : Nat} (h : i < l.length) : l[i]? = some (l.getD i 0) := by
  rw [List.getD_eq_getElem?_getD, List.getElem?_eq_getElem h]; rfl

/-- A key with characters. -/
theorem charKey_eq (p : Panel) (r : Ring) (k : Nat) (hk : k ≤ 68) (hm : 2 * (p.type - 2) + upperCase p.shift < 6) :
    charKey p r k = .ok ({ p with shift := if tableChars (2 * (p.type - 2) + upperCase p.shift) k = [] then p.shift else p.shift / 2 * 2 },
      typeAll r ((tableChars (2 * (p.type - 2) + upperCase p.shift) k).map toWide)) := by
  unfold charKey
  dsimp only
  generalize 2 * (p.type - 2) + upperCase p.shift = m at hm ⊢
  obtain ⟨h1, h2⟩ := chr_lengths m hm
  unfold tableChars
  generalize keyboardChr.getD m [] = s at h1 h2 ⊢
  rw [h2]
  dsimp only
  by_cases h5 : m = 5
  · rw [if_pos h5] at h1
    simp only [if_pos h5]
    rw [getD_some (show 2 * k < s.length by omega), getD_some (show 2 * k + 1 < s.length by omega)]
    dsimp only
    by_cases hc : s.getD (2 * k) 0 = 0
    · rw [if_pos hc, if_pos hc, if_pos rfl]; rfl
    · rw [if_neg hc, if_neg hc]
      by_cases hd : s.getD (2 * k + 1) 0 = 0
      · rw [if_pos hd, if_neg (fun x => x hd), if_neg (by simp)]; rfl
      · rw [if_neg hd, if_pos hd, if_neg (by simp)]; rfl
  · rw [if_neg h5] at h1
    simp only [if_neg h5]
    rw [getD_some (show k < s.length by omega)]
    dsimp only
    by_cases hc : s.getD k 0 = 0
    · rw [if_pos hc, if_pos hc, if_pos rfl]; rfl
    · rw [if_neg hc, if_neg hc, if_neg (by simp)]; rfl

theorem upper_eq (a b : Bool) : upperCase (a.toNat + 2 * b.toNat) = (a != b).toNat := by cases a <;> cases b <;> rfl
theorem clear_eq (a b : Bool) : (a.toNat + 2 * b.toNat) / 2 * 2 = (false).toNat + 2 * b.toNat := by cases a <;> cases b <;> rfl
theorem shift_eq (a b : Bool) : (a.toNat + 2 * b.toNat) / 2 * 2 + (1 - (a.toNat + 2 * b.toNat) % 2) = (!a).toNat + 2 * b.toNat := by cases a <;> cases b <;> rfl
theorem caps_eq (a b : Bool) : (a.toNat + 2 * b.toNat + 2) % 4 = a.toNat + 2 * (!b).toNat := by cases a <;> cases b <;> rfl
theorem insert_eq (a : Bool) : 1 - a.toNat = (!a).toNat := by cases a <;> rfl

/-- What a pressed key does. -/
def act (p : Panel) (r : Ring) : Out (Panel × Ring × Bool) :=
  (pageKeys p).bind fun p => if p.type < 2 then .ok (p, r, false) else keyAction p r (getPressed p)

theorem act_none {p : Panel} (r : Ring) (h : getPressed p = 0) : act p r = .ok (p, r, false) := by
  unfold act pageKeys
  rw [h]
  show (if p.type < 2 then _ else _) = _
  split
  · rfl
  · rw [h]; rfl

/-- A key with characters is pressed. -/
theorem act_char {p : Panel} {r : Ring} {q : List Nat} {s : Kb} {a : Area} (hp : Rep p s) (hr : Holds r q) (ha : KeyOk a) (hk : getPressed p = code a)
    (h0 : code a ≠ 0) (h1 : code a ≠ 1) (h47 : code a ≠ 47) (hc : code a ≤ 60 ∨ code a = 65) (ht : ¬ s.type < 2) :
    ∃ p' r', keyAction p r (code a) = .ok (p', r', false) ∧
      Rep p' (if typed s.type (s.shift != s.caps) a = [] then s else { s with shift := false }) ∧
      Holds r' ((q ++ (typed s.type (s.shift != s.caps) a).map toWide).take 256) ∧ Kept p p' ∧ SameTouch p p' := by
  have hle := hp.le
  have hu : upperCase p.shift = (s.shift != s.caps).toNat := by rw [hp.shift, upper_eq]
  have hub : (s.shift != s.caps).toNat < 2 := by cases (s.shift != s.caps) <;> decide
  have hck := charKey_eq p r (code a) (by omega) (by rw [hp.type, hu]; omega)
  rw [hp.type, hu, ha.chars s.type _ (by omega) hle hc] at hck
  unfold keyAction
  rw [if_neg h0, if_neg h1, if_neg h47, if_pos hc, hck]
  refine ⟨_, _, rfl, ?_, typeAll_take _ hr, ⟨rfl, rfl, rfl, rfl, rfl, rfl, rfl, rfl⟩, rfl, rfl, rfl⟩
  by_cases hn : typed s.type (s.shift != s.caps) a = []
  · rw [if_pos hn, if_pos hn]
    exact ⟨rfl, hp.le, hp.shift, hp.cursor, hp.page, hp.range⟩
  · rw [if_neg hn, if_neg hn]
    exact ⟨rfl, hp.le, by show p.shift / 2 * 2 = _; rw [hp.shift, clear_eq], hp.cursor, hp.page, hp.range⟩

/-- Any key is pressed. -/
theorem act_press {p : Panel} {r : Ring} {q : List Nat} {s : Kb} {a : Area} (hp : Rep p s) (hr : Holds r q) (ha : KeyOk a) (hk : getPressed p = code a)
    (hmax : p.pmax ≤ 2147479552) :
    ∃ p' r', act p r = .ok (p', r', (s.press p.func p.pmax a).2.2) ∧ Rep p' (s.press p.func p.pmax a).1 ∧
      Holds r' ((q ++ (s.press p.func p.pmax a).2.1).take 256) ∧ Kept p p' ∧ SameTouch p p' := by
  have hq : Holds r ((q ++ []).take 256) := by rw [List.append_nil, holds_take hr]; exact hr
  have hpg := hp.range
  unfold I32 at hpg
  have keep : ∀ (p' : Panel) (s' : Kb), Rep p' s' → Kept p p' → SameTouch p p' → ∃ p'' r', Out.ok (p', r, false) = .ok (p'', r', false) ∧ Rep p'' s' ∧
      Holds r' ((q ++ []).take 256) ∧ Kept p p'' ∧ SameTouch p p'' := fun p' s' h1 h2 h3 => ⟨p', r, rfl, h1, hq, h2, h3⟩
  by_cases hpage : ∃ b, a = .page b
  · obtain ⟨b, rfl⟩ := hpage
    -- the page buttons: nothing else is done for them
    have hrest : ∀ p' : Panel, getPressed p' = getPressed p → (if p'.type < 2 then .ok (p', r, false) else keyAction p' r (getPressed p')) = Out.ok (p', r, false) := by
      intro p' e
      split
      · rfl
      · rw [e, hk]
        cases b <;> rfl
    unfold act pageKeys
    rw [hk]
    cases b with
    | false =>
      show ∃ p' r', ((setPage p (p.page - if p.page > 0 then 4096 else 0)).bind _) = _ ∧ _
      have hI : I32 (p.page - if p.page > 0 then 4096 else 0) := by
        rw [hp.page]; unfold I32; split <;> omega
      unfold setPage
      rw [if_pos hI]
      show ∃ p' r', (if p.type < 2 then _ else keyAction _ r _) = _ ∧ _
      rw [hrest { p with page := p.page - if p.page > 0 then 4096 else 0 } rfl]
      refine keep _ _ ⟨hp.type, hp.le, hp.shift, hp.cursor, ?_, ?_⟩ ⟨rfl, rfl, rfl, rfl, rfl, rfl, rfl, rfl⟩ ⟨rfl, rfl, rfl⟩
      · show p.page - (if p.page > 0 then 4096 else 0) = if s.page > 0 then s.page - 4096 else s.page
        rw [hp.page]; split <;> omega
      · show I32 (if s.page > 0 then s.page - 4096 else s.page)
        unfold I32; split <;> omega
    | true =>
      show ∃ p' r', ((setPage p (p.page + if p.page < p.pmax then 4096 else 0)).bind _) = _ ∧ _
      have hI : I32 (p.page + if p.page < p.pmax then 4096 else 0) := by
        rw [hp.page]; unfold I32; split <;> omega
      unfold setPage
      rw [if_pos hI]
      show ∃ p' r', (if p.type < 2 then _ else keyAction _ r _) = _ ∧ _
      rw [hrest { p with page := p.page + if p.page < p.pmax then 4096 else 0 } rfl]
      refine keep _ _ ⟨hp.type, hp.le, hp.shift, hp.cursor, ?_, ?_⟩ ⟨rfl, rfl, rfl, rfl, rfl, rfl, rfl, rfl⟩ ⟨rfl, rfl, rfl⟩
      · show p.page + (if p.page < p.pmax then 4096 else 0) = if s.page < p.pmax then s.page + 4096 else s.page
        rw [hp.page]; split <;> omega
      · show I32 (if s.page < p.pmax then s.page + 4096 else s.page)
        unfold I32; split <;> omega
  · have hpg0 : pageKeys p = .ok p := by
      unfold pageKeys
      rw [hk]
      have : code a ≠ 80 ∧ code a ≠ 81 := by
        cases a with
        | page b => exact absurd ⟨b, rfl⟩ hpage
        | face x i => have := ha.face x i rfl; omega
        | func n => have := ha.func n rfl; simp only [code]; omega
        | layout n => have := ha.layout n rfl; simp only [code]; omega
        | icon n => have := ha.icon n rfl; simp only [code]; omega
        | _ => exact ⟨by decide, by decide⟩
      rw [if_neg this.1, if_neg this.2]
    have hact : act p r = if p.type < 2 then .ok (p, r, false) else keyAction p r (code a) := by
      unfold act
      rw [hpg0]
      show (if p.type < 2 then _ else keyAction p r (getPressed p)) = _
      rw [hk]
    rw [hact, hp.type]
    by_cases ht : s.type < 2
    · rw [if_pos ht]
      have e : s.press p.func p.pmax a = (s, [], false) := by
        cases a with
        | page b => exact absurd ⟨b, rfl⟩ hpage
        | _ => simp only [Kb.press, if_pos ht]
      rw [e]
      exact keep p s hp (Kept.refl p) ⟨rfl, rfl, rfl⟩
    · rw [if_neg ht]
      cases a with
      | page b => exact absurd ⟨b, rfl⟩ hpage
      | esc =>
        simp only [Kb.press, if_neg ht]
        exact ⟨p, r, rfl, hp, hq, Kept.refl p, rfl, rfl, rfl⟩
      | shift =>
        simp only [Kb.press, if_neg ht]
        exact keep _ _ ⟨hp.type, hp.le, by show _ = (!s.shift).toNat + 2 * s.caps.toNat; rw [← shift_eq, ← hp.shift], hp.cursor, hp.page, hp.range⟩
          ⟨rfl, rfl, rfl, rfl, rfl, rfl, rfl, rfl⟩ ⟨rfl, rfl, rfl⟩
      | caps =>
        simp only [Kb.press, if_neg ht]
        exact keep _ _ ⟨hp.type, hp.le, by show _ = s.shift.toNat + 2 * (!s.caps).toNat; rw [← caps_eq, ← hp.shift], hp.cursor, hp.page, hp.range⟩
          ⟨rfl, rfl, rfl, rfl, rfl, rfl, rfl, rfl⟩ ⟨rfl, rfl, rfl⟩
      | layout n =>
        simp only [Kb.press, if_neg ht]
        have hn := ha.layout n rfl
        have : n = 2 ∨ n = 3 ∨ n = 4 := by omega
        rcases this with rfl | rfl | rfl <;>
          exact keep _ _ ⟨rfl, Nat.le_of_ble_eq_true rfl, hp.shift, hp.cursor, hp.page, hp.range⟩ ⟨rfl, rfl, rfl, rfl, rfl, rfl, rfl, rfl⟩ ⟨rfl, rfl, rfl⟩
      | insert =>
        simp only [Kb.press, if_neg ht]
        exact keep _ _ ⟨hp.type, hp.le, hp.shift, by show _ = (!s.insert).toNat; rw [← insert_eq, ← hp.cursor], hp.page, hp.range⟩
          ⟨rfl, rfl, rfl, rfl, rfl, rfl, rfl, rfl⟩ ⟨rfl, rfl, rfl⟩
      | func n =>
        simp only [Kb.press, if_neg ht]
        have hn := ha.func n rfl
        refine ⟨p, typeAll r (p.func n), ?_, hp, typeAll_take _ hr, Kept.refl p, rfl, rfl, rfl⟩
        unfold keyAction
        rw [if_neg (by simp only [code]; omega), if_neg (by simp only [code]; omega), if_neg (by simp only [code]; omega), if_neg (by simp only [code]; omega),
          if_neg (by simp only [code]; omega), if_neg (by simp only [code]; omega), if_neg (by simp only [code]; omega), if_neg (by simp only [code]; omega),
          if_neg (by simp only [code]; omega), if_pos (by simp only [code]; omega)]
        show Out.ok (p, typeAll r (p.func (101 + n - 101)), false) = _
        rw [Nat.add_sub_cancel_left]
      | face x i =>
        simp only [Kb.press, if_neg ht]
        have := ha.face x i rfl
        exact act_char hp hr ha hk (by omega) (by omega) (by omega) (by omega) ht
      | tab => simp only [Kb.press, if_neg ht]; exact act_char hp hr ha hk (by decide) (by decide) (by decide) (by decide) ht
      | enter => simp only [Kb.press, if_neg ht]; exact act_char hp hr ha hk (by decide) (by decide) (by decide) (by decide) ht
      | space => simp only [Kb.press, if_neg ht]; exact act_char hp hr ha hk (by decide) (by decide) (by decide) (by decide) ht
      | backspace => simp only [Kb.press, if_neg ht]; exact act_char hp hr ha hk (by decide) (by decide) (by decide) (by decide) ht
      | icon n =>
        have hn := ha.icon n rfl
        have hki : keyAction p r (code (.icon n)) = .ok (p, r, false) := by
          unfold keyAction
          rw [if_neg (by simp only [code]; omega), if_neg (by simp only [code]; omega), if_neg (by simp only [code]; omega), if_neg (by simp only [code]; omega),
            if_neg (by simp only [code]; omega), if_neg (by simp only [code]; omega), if_neg (by simp only [code]; omega), if_neg (by simp only [code]; omega),
            if_neg (by simp only [code]; omega), if_neg (by simp only [code]; omega)]
        rw [hki]
        simp only [Kb.press, if_neg ht]
        exact keep p s hp (Kept.refl p) ⟨rfl, rfl, rfl⟩
      | _ =>
        simp only [Kb.press, if_neg ht]
        exact keep p s hp (Kept.refl p) ⟨rfl, rfl, rfl⟩

/-! ## Frames -/

theorem frames_append (fs gs : List (Option (Nat × Nat))) (p : Panel) (r : Ring) (b : Bool) :
    frames p r b (fs ++ gs) = (frames p r b fs).bind fun q => frames q.1 q.2.1 q.2.2 gs := by
  induction fs generalizing p r b with
  | nil => rfl
  | cons f fs ih =>
    show (frame p r f).bind _ = ((frame p r f).bind _).bind _
    cases frame p r f with
    | ok q => exact ih q.1 q.2.1 (b || q.2.2)
    | err e => rfl
    | ub => rfl

/-- After the touched key is known, the frame does what `act` says. -/
theorem frame_touch {p p1 : Panel} (r : Ring) {d : Nat × Nat}
    (h : (if p.key ≠ 0 then holdKey p d.1 d.2 else if p.time > 0 then .ok p else touchKey p d.1 d.2) = .ok p1) : frame p r (some d) = act p1 r := by
  show pressKey p r true d.1 d.2 = _
  unfold pressKey
  rw [if_neg (by decide), h]
  rfl

theorem code_pos {a : Area} (ha : KeyOk a) : code a ≠ 0 := by
  cases a with
  | face x i => have := ha.face x i rfl; omega
  | func n => simp only [code]; omega
  | layout n => simp only [code]; omega
  | icon n => simp only [code]; omega
  | page b => cases b <;> decide
  | _ => decide

theorem repeat_iff {t : Nat} (ht : 1 ≤ t) : checkRepeat t 30 4 = true ↔ t = 1 ∨ (31 ≤ t ∧ (t - 31) % 5 = 0) := by
  unfold checkRepeat
  by_cases h : (t : Int) > 30
  · rw [if_pos ⟨by decide, h⟩, decide_eq_true_iff, Int.tmod_eq_emod_of_nonneg (by omega)]; omega
  · rw [if_neg (fun x => h x.2), decide_eq_true_iff]; omega

theorem hits_step {a : Area} (ha : a ≠ .page true) {t : Nat} (ht : 1 ≤ t) :
    hits a (t + 1) = if checkRepeat ((t + 1 : Nat) : Int) 30 4 = true then hits a t + 1 else hits a t := by
  unfold hits
  by_cases h : checkRepeat ((t + 1 : Nat) : Int) 30 4 = true
  · rw [if_pos h]
    rw [repeat_iff (by omega)] at h
    simp only [ha, false_or]
    rw [if_neg (show ¬ t + 1 = 0 by omega), if_neg (show ¬ t = 0 by omega)]
    split <;> split <;> omega
  · rw [if_neg h]
    rw [repeat_iff (by omega)] at h
    simp only [ha, false_or]
    rw [if_neg (show ¬ t + 1 = 0 by omega), if_neg (show ¬ t = 0 by omega)]
    split <;> split <;> omega

/-- A key is held: state after `t` frames. -/
structure Held (func : Nat → List Nat) (pmax : Int) (p0 : Panel) (s0 : Kb) (q0 : List Nat) (b0 : Bool) (a : Area) (m : Nat) (p : Panel) (r : Ring) (b : Bool) : Prop where
  rep : Rep p (s0.presses func pmax a m).1
  ring : Holds r ((q0 ++ (s0.presses func pmax a m).2.1).take 256)
  brk : b = (b0 || (s0.presses func pmax a m).2.2)
  kept : Kept p0 p

/-- A press adds one to the number of presses. -/
theorem held_press {p0 : Panel} {s0 : Kb} {q0 : List Nat} {b0 : Bool} {a : Area} {m : Nat} {p : Panel} {r : Ring} {b : Bool}
    (h : Held p0.func p0.pmax p0 s0 q0 b0 a m p r b) (ha : KeyOk a) (hk : getPressed p = code a) (hmax : p0.pmax ≤ 2147479552) :
    ∃ p' r' b', act p r = .ok (p', r', b') ∧ Held p0.func p0.pmax p0 s0 q0 b0 a (m + 1) p' r' (b || b') ∧ SameTouch p p' := by
  obtain ⟨p', r', e, hrep, hring, hkept, ht⟩ := act_press h.rep h.ring ha hk (by rw [h.kept.pmax]; exact hmax)
  rw [h.kept.func, h.kept.pmax] at e hrep hring
  refine ⟨p', r', _, e, ⟨hrep, ?_, ?_, h.kept.trans hkept⟩, ht⟩
  · rw [take_append_take, List.append_assoc] at hring
    exact hring
  · show _ = (b0 || ((s0.presses p0.func p0.pmax a m).2.2 || _))
    rw [h.brk, Bool.or_assoc]

/-- Holding a key that repeats. -/
theorem hold_frames {p0 : Panel} {s0 : Kb} {q0 : List Nat} {b0 : Bool} {a : Area} (ha : KeyOk a) (hp : a ≠ .page true) (hmax : p0.pmax ≤ 2147479552) :
    (ds : List (Nat × Nat)) → (t : Nat) → 1 ≤ t → t + ds.length < 2147483648 → (p : Panel) → (r : Ring) → (b : Bool) →
    (∀ d ∈ ds, d.1 < 256 ∧ d.2 < 192 ∧ areaAt d = some a) →
    Held p0.func p0.pmax p0 s0 q0 b0 a (hits a t) p r b → p.key = code a → p.time = t →
    ∃ p' r' b', frames p r b (ds.map some) = .ok (p', r', b') ∧ Held p0.func p0.pmax p0 s0 q0 b0 a (hits a (t + ds.length)) p' r' b'
  | [], t, _, _, p, r, b, _, h, _, _ => ⟨p, r, b, rfl, h⟩
  | d :: ds, t, ht, hlen, p, r, b, hd, h, hk, htm => by
    rw [List.length_cons] at hlen
    obtain ⟨hx, hy, harea⟩ := hd d (List.mem_cons_self ..)
    obtain ⟨h1, h2, h3, h4, _⟩ := map_some hx hy harea
    have hf : (if p.key ≠ 0 then holdKey p d.1 d.2 else if p.time > 0 then .ok p else touchKey p d.1 d.2) = .ok { p with time := t + 1 } := by
      rw [if_pos (by rw [hk]; exact code_pos ha)]
      unfold holdKey codeOf
      rw [h2]
      show (if code a ≠ p.key then _ else _) = _
      rw [if_neg (fun x => x hk.symm), htm, if_pos (by omega)]
    have hff := frame_touch r hf
    have e1 : t + (d :: ds).length = t + 1 + ds.length := by rw [List.length_cons]; omega
    have h' : Held p0.func p0.pmax p0 s0 q0 b0 a (hits a t) { p with time := t + 1 } r b :=
      ⟨⟨h.rep.type, h.rep.le, h.rep.shift, h.rep.cursor, h.rep.page, h.rep.range⟩, h.ring, h.brk,
        ⟨h.kept.puse, h.kept.pmax, h.kept.active, h.kept.chr, h.kept.func, h.kept.text, h.kept.keysText, h.kept.pic⟩⟩
    have hstep := hits_step hp ht
    rw [List.map_cons, e1]
    unfold frames
    rw [hff]
    by_cases hc : checkRepeat ((t + 1 : Nat) : Int) 30 4 = true
    · have hg : getPressed { p with time := t + 1 } = code a := by
        unfold getPressed
        rw [if_neg (by
          rintro (x | x)
          · exact code_pos ha (hk.symm.trans x)
          · rw [show checkRepeat ((t + 1 : Nat) : Int) 30 4 = false from x] at hc; exact absurd hc (by decide))]
        exact hk
      obtain ⟨p', r', b', e, hh, hs⟩ := held_press h' ha hg hmax
      rw [e]
      rw [if_pos hc] at hstep
      rw [← hstep] at hh
      exact hold_frames ha hp hmax ds (t + 1) (by omega) (by omega) p' r' (b || b') (fun x hx => hd x (List.mem_cons_of_mem _ hx)) hh (hs.1.trans hk) hs.2.2
    · have hg : getPressed { p with time := t + 1 } = 0 := by
        unfold getPressed
        rw [if_pos (Or.inr (by simpa using hc))]
      rw [act_none r hg]
      rw [if_neg hc] at hstep
      rw [← hstep] at h'
      have := hold_frames ha hp hmax ds (t + 1) (by omega) (by omega) { p with time := t + 1 } r b (fun x hx => hd x (List.mem_cons_of_mem _ hx)) h' hk rfl
      show ∃ p' r' b', frames _ r (b || false) _ = _ ∧ _
      rw [Bool.or_false]
      exact this

/-- Nothing happens any more while the touch goes on. -/
theorem dead_frames : (ds : List (Nat × Nat)) → {p : Panel} → (r : Ring) → (b : Bool) → p.key = 0 → p.time > 0 → frames p r b (ds.map some) = .ok (p, r, b)
  | [], _, _, _, _, _ => rfl
  | d :: ds, p, r, b, hk, ht => by
    have hf : (if p.key ≠ 0 then holdKey p d.1 d.2 else if p.time > 0 then .ok p else touchKey p d.1 d.2) = .ok p := by
      rw [if_neg (fun x => x hk), if_pos ht]
    rw [List.map_cons]
    unfold frames
    rw [frame_touch r hf, act_none r (by unfold getPressed; rw [if_pos (Or.inl hk)])]
    show frames p r (b || false) _ = _
    rw [Bool.or_false]
    exact dead_frames ds r b hk ht

/-- A touch where no key is. -/
theorem void_frames : (ds : List (Nat × Nat)) → (p : Panel) → (r : Ring) → (b : Bool) → p.key = 0 → p.time = 0 →
    (∀ d ∈ ds, d.1 < 256 ∧ d.2 < 192 ∧ areaAt d = none) → frames p r b (ds.map some) = .ok (p, r, b)
  | [], _, _, _, _, _, _ => rfl
  | d :: ds, p, r, b, hk, ht, hd => by
    obtain ⟨hx, hy, harea⟩ := hd d (List.mem_cons_self ..)
    have hm := map_none hx hy harea
    have hf : (if p.key ≠ 0 then holdKey p d.1 d.2 else if p.time > 0 then .ok p else touchKey p d.1 d.2) = .ok p := by
      rw [if_neg (fun x => x hk), if_neg (by omega)]
      unfold touchKey
      rw [hm]
      show Out.ok { p with time := 0 } = _
      rw [← ht]
    rw [List.map_cons]
    unfold frames
    rw [frame_touch r hf, act_none r (by unfold getPressed; rw [if_pos (Or.inl hk)])]
    show frames p r (b || false) _ = _
    rw [Bool.or_false]
    exact void_frames ds p r b hk ht (fun x hx => hd x (List.mem_cons_of_mem _ hx))

/-- Frames without touch. -/
theorem gap_frames : (n : Nat) → (p : Panel) → (r : Ring) → (b : Bool) → frames p r b (List.replicate (n + 1) none) = .ok ({ p with key := 0, id := 255, time := 0 }, r, b)
  | 0, p, r, b => by
    show Out.ok (_, _, b || false) = _
    rw [Bool.or_false]
  | n + 1, p, r, b => by
    rw [List.replicate_succ]
    show frames { p with key := 0, id := 255, time := 0 } r (b || false) _ = _
    rw [Bool.or_false, gap_frames n]

/-- What is known after touches. -/
structure After (p0 : Panel) (s : Kb) (q : List Nat) (p : Panel) (r : Ring) : Prop where
  rep : Rep p s
  ring : Holds r (q.take 256)
  kept : Kept p0 p
  key : p.key = 0
  time : p.time = 0

theorem tap_frames {p : Panel} {r : Ring} {q : List Nat} {s : Kb} {b : Bool} {t : Tap} (hp : Rep p s) (hr : Holds r q) (hk : p.key = 0) (ht : p.time = 0)
    (hmax : p.pmax ≤ 2147479552) (hs : t.Steady) (hlen : t.rest.length < 2147483647) :
    ∃ p' r', frames p r b t.frames = .ok (p', r', b || (s.tap p.func p.pmax (p.puse ≠ 0) t).2.2) ∧
      After p (s.tap p.func p.pmax (p.puse ≠ 0) t).1 (q ++ (s.tap p.func p.pmax (p.puse ≠ 0) t).2.1) p' r' := by
  unfold Tap.frames
  rw [frames_append]
  -- the end, from the state after the touch
  have fin : ∀ (a : Option Area) (s' : Kb) (cs : List Nat) (b' : Bool) (p1 : Panel) (r1 : Ring),
      frames p r b ((t.first :: t.rest).map some) = .ok (p1, r1, b || b') → Rep p1 s' → Holds r1 ((q ++ cs).take 256) → Kept p p1 →
      ∃ p' r', ((frames p r b ((t.first :: t.rest).map some)).bind fun q => frames q.1 q.2.1 q.2.2 (List.replicate (t.gap + 1) none)) = .ok (p', r', b || b') ∧
        After p s' (q ++ cs) p' r' := by
    intro a s' cs b' p1 r1 e h1 h2 h3
    rw [e]
    refine ⟨_, _, gap_frames t.gap p1 r1 _, ⟨⟨h1.type, h1.le, h1.shift, h1.cursor, h1.page, h1.range⟩, h2,
      ⟨h3.puse, h3.pmax, h3.active, h3.chr, h3.func, h3.text, h3.keysText, h3.pic⟩, rfl, rfl⟩⟩
  obtain ⟨hx, hy, _⟩ := hs t.first (List.mem_cons_self ..)
  cases harea : areaAt t.first with
  | none =>
    have e : s.tap p.func p.pmax (p.puse ≠ 0) t = (s, [], false) := by
      unfold Kb.tap touched
      rw [harea]
      rfl
    rw [e]
    refine fin none s [] false p r ?_ hp (by rw [List.append_nil, holds_take hr]; exact hr) (Kept.refl p)
    rw [Bool.or_false]
    exact void_frames _ p r b hk ht fun d hd => ⟨(hs d hd).1, (hs d hd).2.1, (hs d hd).2.2.trans harea⟩
  | some a =>
    obtain ⟨h1, h2, h3, h4, hok⟩ := map_some hx hy harea
    -- the first frame
    have first : ∀ (a' : Area) (c : Nat), KeyOk a' → (if mapAt t.first.1 t.first.2 = 89 ∧ p.puse ≠ 0 ∧ t.first.2 ≥ 180 then 90 else mapAt t.first.1 t.first.2) = c →
        c ≠ 255 → keyCodes[c]? = some (code a') →
        ∃ p1 r1 b1, frame p r (some t.first) = .ok (p1, r1, b1) ∧ Held p.func p.pmax p s q b a' 1 p1 r1 (b || b1) ∧ p1.key = code a' ∧ p1.time = 1 := by
      intro a' c hka hc h255 hcode
      have hf : (if p.key ≠ 0 then holdKey p t.first.1 t.first.2 else if p.time > 0 then .ok p else touchKey p t.first.1 t.first.2) =
          .ok { p with id := c, key := code a', time := 1 } := by
        rw [if_neg (fun x => x hk), if_neg (by omega)]
        unfold touchKey
        dsimp only
        rw [hc, if_pos h255]
        unfold codeOf
        rw [hcode]
        rfl
      rw [frame_touch r hf]
      have h0 : Held p.func p.pmax p s q b a' 0 { p with id := c, key := code a', time := 1 } r b :=
        ⟨⟨hp.type, hp.le, hp.shift, hp.cursor, hp.page, hp.range⟩, by show Holds r ((q ++ []).take 256); rw [List.append_nil, holds_take hr]; exact hr,
          by show b = (b || false); rw [Bool.or_false], ⟨rfl, rfl, rfl, rfl, rfl, rfl, rfl, rfl⟩⟩
      have hg : getPressed { p with id := c, key := code a', time := 1 } = code a' := by
        unfold getPressed
        rw [if_neg (by
          rintro (x | x)
          · exact code_pos hka x
          · exact absurd (show checkRepeat 1 30 4 = false from x) (by decide))]
      obtain ⟨p', r', b', e, hh, hst⟩ := held_press h0 hka hg hmax
      exact ⟨p', r', b', e, hh, hst.1, hst.2.2⟩
    by_cases hpg : a = .page false ∧ p.puse ≠ 0 ∧ t.first.2 ≥ 180
    · -- the lower page button
      have e : s.tap p.func p.pmax (p.puse ≠ 0) t = s.presses p.func p.pmax (.page true) 1 := by
        have hto : touched (decide (p.puse ≠ 0)) t.first = some (.page true) := by
          unfold touched
          rw [if_pos ⟨by rw [harea, hpg.1], decide_eq_true hpg.2.1, hpg.2.2⟩]
        have hh : hits (.page true) (t.rest.length + 1) = 1 := by
          unfold hits
          rw [if_neg (by omega), if_pos (Or.inl rfl)]
        unfold Kb.tap
        rw [hto]
        show s.presses _ _ _ (hits (.page true) (t.rest.length + 1)) = _
        rw [hh]
      rw [e]
      obtain ⟨p1, r1, b1, e1, hh, hk1, ht1⟩ := first (.page true) 90 page_ok (by rw [if_pos ⟨h3.mpr hpg.1, hpg.2⟩]) (by decide) (by decide +kernel)
      have hrest : ∃ p2, frames p r b ((t.first :: t.rest).map some) = .ok (p2, r1, b || b1) ∧ Rep p2 (s.presses p.func p.pmax (.page true) 1).1 ∧ Kept p p2 := by
        rw [List.map_cons]
        unfold frames
        rw [e1]
        show ∃ p2, frames p1 r1 (b || b1) (t.rest.map some) = _ ∧ _
        cases hr2 : t.rest with
        | nil => exact ⟨p1, rfl, hh.rep, hh.kept⟩
        | cons d ds =>
          obtain ⟨hx2, hy2, ha2⟩ := hs d (by rw [hr2]; simp)
          rw [harea, hpg.1] at ha2
          obtain ⟨g1, g2, _⟩ := map_some hx2 hy2 ha2
          have hf : (if p1.key ≠ 0 then holdKey p1 d.1 d.2 else if p1.time > 0 then .ok p1 else touchKey p1 d.1 d.2) = .ok { p1 with key := 0, id := 255 } := by
            rw [if_pos (by rw [hk1]; decide)]
            unfold holdKey codeOf
            rw [g2]
            show (if code (.page false) ≠ p1.key then _ else _) = _
            rw [if_pos (by rw [hk1]; decide)]
          refine ⟨{ p1 with key := 0, id := 255 }, ?_, ⟨hh.rep.type, hh.rep.le, hh.rep.shift, hh.rep.cursor, hh.rep.page, hh.rep.range⟩,
            ⟨hh.kept.puse, hh.kept.pmax, hh.kept.active, hh.kept.chr, hh.kept.func, hh.kept.text, hh.kept.keysText, hh.kept.pic⟩⟩
          rw [List.map_cons]
          unfold frames
          rw [frame_touch r1 hf, act_none r1 (by unfold getPressed; rw [if_pos (Or.inl rfl)])]
          show frames { p1 with key := 0, id := 255 } r1 (b || b1 || false) (ds.map some) = _
          rw [Bool.or_false]
          exact dead_frames ds r1 (b || b1) rfl (by show p1.time > 0; omega)
      obtain ⟨p2, e2, hrep2, hkept2⟩ := hrest
      refine fin none _ _ _ p2 r1 ?_ hrep2 hh.ring hkept2
      rw [e2, hh.brk]
    · have e : s.tap p.func p.pmax (p.puse ≠ 0) t = s.presses p.func p.pmax a (hits a (t.rest.length + 1)) := by
        have hto : touched (decide (p.puse ≠ 0)) t.first = some a := by
          unfold touched
          rw [if_neg (by
            rintro ⟨x1, x2, x3⟩
            rw [harea] at x1
            exact hpg ⟨Option.some.inj x1, of_decide_eq_true x2, x3⟩), harea]
        unfold Kb.tap
        rw [hto]
      rw [e]
      obtain ⟨p1, r1, b1, e1, hh, hk1, ht1⟩ := first a _ hok (by rw [if_neg (by rintro ⟨x1, x2⟩; exact hpg ⟨h3.mp x1, x2⟩)]) h1 h2
      obtain ⟨p2, r2, b2, e2, hh2⟩ := hold_frames hok h4 hmax t.rest 1 (by omega) (by omega) p1 r1 (b || b1)
        (fun d hd => by
          have := hs d (List.mem_cons_of_mem _ hd)
          exact ⟨this.1, this.2.1, this.2.2.trans harea⟩) (by
            have : hits a 1 = 1 := by unfold hits; rw [if_neg (by decide), if_pos (Or.inr (by decide))]
            rw [this]; exact hh) hk1 ht1
      rw [show 1 + t.rest.length = t.rest.length + 1 from Nat.add_comm ..] at hh2
      refine fin none _ _ _ p2 r2 ?_ hh2.rep hh2.ring hh2.kept
      rw [List.map_cons]
      unfold frames
      rw [e1]
      show frames p1 r1 (b || b1) _ = _
      rw [e2, hh2.brk]

theorem taps_frames : (ts : List Tap) → {p : Panel} → {r : Ring} → {q : List Nat} → {s : Kb} → {b : Bool} → Rep p s → Holds r q → p.key = 0 → p.time = 0 →
    p.pmax ≤ 2147479552 → (∀ t ∈ ts, t.Steady ∧ t.rest.length < 2147483647) →
    ∃ p' r', frames p r b (ts.flatMap Tap.frames) = .ok (p', r', b || (s.taps p.func p.pmax (p.puse ≠ 0) ts).2.2) ∧
      After p (s.taps p.func p.pmax (p.puse ≠ 0) ts).1 (q ++ (s.taps p.func p.pmax (p.puse ≠ 0) ts).2.1) p' r'
  | [], p, r, q, s, b, hp, hr, hk, ht, _, _ =>
    ⟨p, r, by show Out.ok (p, r, b) = .ok (p, r, b || false); rw [Bool.or_false], hp, by show Holds r ((q ++ []).take 256); rw [List.append_nil, holds_take hr]; exact hr,
      Kept.refl p, hk, ht⟩
  | t :: ts, p, r, q, s, b, hp, hr, hk, ht, hmax, hts => by
    obtain ⟨p1, r1, e1, h1⟩ := tap_frames (b := b) hp hr hk ht hmax (hts t (List.mem_cons_self ..)).1 (hts t (List.mem_cons_self ..)).2
    obtain ⟨p2, r2, e2, h2⟩ := taps_frames ts (b := b || (s.tap p.func p.pmax (p.puse ≠ 0) t).2.2) h1.rep h1.ring h1.key h1.time (by rw [h1.kept.pmax]; exact hmax)
      (fun x hx => hts x (List.mem_cons_of_mem _ hx))
    rw [h1.kept.pmax, h1.kept.func, h1.kept.puse] at e2 h2
    refine ⟨p2, r2, ?_, ?_, ?_, h1.kept.trans h2.kept, h2.key, h2.time⟩
    · rw [List.flatMap_cons, frames_append, e1]
      show frames p1 r1 _ _ = _
      rw [e2, Bool.or_assoc]
      rfl
    · exact h2.rep
    · have := h2.ring
      rw [take_append_take, List.append_assoc] at this
      exact this

end Sbc.Panel
