import Verif.Proof.Resources
import Verif.Props.Strs
set_option autoImplicit false
/-!
# C41: resource names
-/
namespace Sbc.Res
open Sbc Sbc.Strs

/-- C41: LOAD, SAVE and APPEND accept a name exactly when it is a valid file name, possibly preceded by a valid type and a
colon. -/
theorem C41_names {n : List Nat} (h0 : 0 ∉ n) :
    verifyName n = true ↔ (58 ∉ n ∧ FileName n) ∨ ∃ t f, n = t ++ 58 :: f ∧ 58 ∉ t ∧ TypeName t ∧ FileName f := by
  unfold verifyName
  by_cases h : 58 ∈ n
  · obtain ⟨t, f, rfl, ht⟩ := List.eq_append_cons_of_mem h
    rw [findIdx_some ht]
    show (if verifyType (t ++ 58 :: f) = true then verifyFile ((t ++ 58 :: f).drop (t.length + 1)) else false) = true ↔ _
    have hd : (t ++ 58 :: f).drop (t.length + 1) = f := by simp
    have h0' : 0 ∉ t := fun h => h0 (by simp [h])
    have hv := verifyType_iff (tail := 58 :: f) ht h0' (Or.inr ⟨f, rfl⟩)
    have uniq : ∀ t' f', t ++ 58 :: f = t' ++ 58 :: f' → 58 ∉ t' → t = t' ∧ f = f' := by
      intro t' f' he ht'
      have h1 := findIdx_some (f := f) ht
      have h2 := findIdx_some (f := f') ht'
      rw [he, h2] at h1
      have hl : t.length = t'.length := by simpa using h1.symm
      have := List.append_inj he hl
      exact ⟨this.1, by simpa using this.2⟩
    constructor
    · intro hx
      by_cases hty : verifyType (t ++ 58 :: f) = true
      · rw [if_pos hty, hd, verifyFile_iff] at hx
        exact Or.inr ⟨t, f, rfl, ht, hv.1 hty, hx⟩
      · rw [if_neg hty] at hx; cases hx
    · rintro (⟨h1, _⟩ | ⟨t', f', he, h1, h2, h3⟩)
      · exact absurd h h1
      · obtain ⟨rfl, rfl⟩ := uniq t' f' he h1
        rw [if_pos (hv.2 h2), hd, verifyFile_iff]; exact h3
  · rw [findIdx_none h]
    show verifyFile n = true ↔ _
    rw [verifyFile_iff]
    constructor
    · exact fun hf => Or.inl ⟨h, hf⟩
    · rintro (⟨_, h2⟩ | ⟨t, f, rfl, _⟩)
      · exact h2
      · exact absurd (by simp) h

/-- Where the resources are: the element of the pointer array. -/
def locOf (k : Kind) (b p : Nat) : Loc :=
  let s := if p = 76 then 1 else 0
  match k with
  | .bgu => .chr (8 + 22 * s + b)
  | .bgd => .chr (4 + 22 * s + b)
  | .bgf => .chr (22 * s + b)
  | .spu => .chr (12 + b)
  | .sps => .chr (20 + 22 * s + b)
  | .spd => .chr (34 + b)
  | .col => .col (3 * s + b)
  | .scu => .scr (4 * s + 2 + b)
  | .grp => .grp b
  | .prg => .prg
  | .mem => .mem

theorem below8 {b : Nat} (h : b < 8) : b = 0 ∨ b = 1 ∨ b = 2 ∨ b = 3 ∨ b = 4 ∨ b = 5 ∨ b = 6 ∨ b = 7 := by omega

theorem ptr_full (pg : Pages) {k : Kind} {b p : Nat} (h : k.Has b p) : resourcePtr pg (k.name b p) = .ok (locOf k b p) := by
  obtain ⟨hb, hp⟩ := h
  have h8 : b < 8 := by cases k <;> simp [Kind.banks] at hb <;> omega
  cases k <;> simp [Kind.screens] at hp <;> simp [Kind.banks] at hb <;>
    rcases below8 h8 with rfl | rfl | rfl | rfl | rfl | rfl | rfl | rfl <;> (try omega) <;>
    (try rcases hp with rfl | rfl) <;> (try subst hp) <;> rfl

/-- C41: the resources are different: two full names denote the same memory only if they are the same kind, bank and
screen, whatever the current pages. -/
theorem C41_distinct (pg pg' : Pages) {k k' : Kind} {b p b' p' : Nat} (h : k.Has b p) (h' : k'.Has b' p')
    (he : resourcePtr pg (k.name b p) = resourcePtr pg' (k'.name b' p')) : k = k' ∧ b = b' ∧ p = p' := by
  rw [ptr_full pg h, ptr_full pg' h'] at he
  obtain ⟨hb, hp⟩ := h
  obtain ⟨hb', hp'⟩ := h'
  injection he with he
  cases k <;> cases k' <;> simp [Kind.banks, Kind.screens, locOf] at hb hp hb' hp' he ⊢ <;>
    (try rcases hp with rfl | rfl) <;> (try rcases hp' with rfl | rfl) <;> (try simp at he) <;> (try simp) <;> omega

theorem bankOf_4 (x y z b : Nat) (r : List Nat) (h : b < 8) : bankOf (x :: y :: z :: (48 + b) :: r) = b := by
  have : ch (x :: y :: z :: (48 + b) :: r) 3 = 48 + b := rfl
  unfold bankOf
  rw [this, if_neg (by unfold sepChar; omega)]; omega

theorem screenOf_4 (x y z b : Nat) (h : b < 8) : screenOf [x, y, z, 48 + b] = -1 := by
  have : ch [x, y, z, 48 + b] 3 = 48 + b := rfl
  have h4 : ch [x, y, z, 48 + b] 4 = 0 := rfl
  unfold screenOf
  rw [this, h4, if_neg (by unfold sepChar; omega), if_pos (Or.inl rfl)]

theorem screenOf_5 (x y z b p : Nat) (h : b < 8) (hp : p < 2) : screenOf [x, y, z, 48 + b, letter p] = p := by
  have h3 : ch [x, y, z, 48 + b, letter p] 3 = 48 + b := rfl
  have h4 : ch [x, y, z, 48 + b, letter p] 4 = letter p := rfl
  unfold screenOf
  rw [h3, h4, if_neg (by unfold sepChar; omega)]
  have : p = 0 ∨ p = 1 := by omega
  rcases this with rfl | rfl <;> rfl

theorem paged_none (p : Nat) : paged (-1) p = p := rfl

theorem paged_some (s p : Nat) : paged (s : Int) p = s := if_neg (by omega)

/-- C41: without a screen the resource on the current page of the kind's system is meant. -/
theorem C41_current {pg : Pages} (hpg : pg.WF) {k : Kind} {b : Nat} (hb : b < k.banks) (hs : k.screens ≠ []) :
    resourcePtr pg (k.letters ++ [48 + b]) = resourcePtr pg (k.name b (letter (k.page pg b))) ∧
      k.Has b (letter (k.page pg b)) := by
  obtain ⟨bg, sp, gr⟩ := pg
  obtain ⟨h1, h2, h3⟩ := hpg
  simp only at h1 h2 h3
  have hpage : k.page ⟨bg, sp, gr⟩ b < 2 := by
    cases k <;> simp only [Kind.page] <;> (repeat' split) <;> omega
  have h8 : b < 8 := by cases k <;> simp [Kind.banks] at hb <;> omega
  have hlet : ∀ p, letter p = 85 ∨ letter p = 76 := fun p => by unfold letter; split <;> simp
  have cellOf : ∀ (mk : Nat → Loc) (size : Nat) (i j : Int), i = j → cell mk size i = cell mk size j := fun _ _ _ _ h => by rw [h]
  cases k <;> simp [Kind.screens] at hs <;>
    refine ⟨?_, by simp [Kind.Has, Kind.banks, Kind.screens, hlet] at hb ⊢ <;> (try exact hb) <;> (try exact ⟨hb, rfl⟩)⟩
  · change cell .chr 44 (8 + 22 * paged (screenOf [66, 71, 85, 48 + b]) bg + bankOf [66, 71, 85, 48 + b])
      = cell .chr 44 (8 + 22 * paged (screenOf [66, 71, 85, 48 + b, letter bg]) bg + bankOf [66, 71, 85, 48 + b, letter bg])
    rw [bankOf_4 _ _ _ _ _ h8, bankOf_4 _ _ _ _ _ h8, screenOf_4 _ _ _ _ h8, screenOf_5 _ _ _ _ _ h8 h1, paged_none, paged_some]
  · change cell .chr 44 (4 + 22 * paged (screenOf [66, 71, 68, 48 + b]) bg + bankOf [66, 71, 68, 48 + b])
      = cell .chr 44 (4 + 22 * paged (screenOf [66, 71, 68, 48 + b, letter bg]) bg + bankOf [66, 71, 68, 48 + b, letter bg])
    rw [bankOf_4 _ _ _ _ _ h8, bankOf_4 _ _ _ _ _ h8, screenOf_4 _ _ _ _ h8, screenOf_5 _ _ _ _ _ h8 h1, paged_none, paged_some]
  · change cell .chr 44 (0 + 22 * paged (screenOf [66, 71, 70, 48 + b]) bg + bankOf [66, 71, 70, 48 + b])
      = cell .chr 44 (0 + 22 * paged (screenOf [66, 71, 70, 48 + b, letter bg]) bg + bankOf [66, 71, 70, 48 + b, letter bg])
    rw [bankOf_4 _ _ _ _ _ h8, bankOf_4 _ _ _ _ _ h8, screenOf_4 _ _ _ _ h8, screenOf_5 _ _ _ _ _ h8 h1, paged_none, paged_some]
  · change cell .chr 44 (12 + bankOf [83, 80, 85, 48 + b]) = cell .chr 44 (12 + bankOf [83, 80, 85, 48 + b, letter 0])
    rw [bankOf_4 _ _ _ _ _ h8, bankOf_4 _ _ _ _ _ h8]
  · change cell .chr 44 (20 + 22 * paged (screenOf [83, 80, 83, 48 + b]) sp + bankOf [83, 80, 83, 48 + b])
      = cell .chr 44 (20 + 22 * paged (screenOf [83, 80, 83, 48 + b, letter sp]) sp + bankOf [83, 80, 83, 48 + b, letter sp])
    rw [bankOf_4 _ _ _ _ _ h8, bankOf_4 _ _ _ _ _ h8, screenOf_4 _ _ _ _ h8, screenOf_5 _ _ _ _ _ h8 h2, paged_none, paged_some]
  · change cell .chr 44 (12 + 22 + bankOf [83, 80, 68, 48 + b]) = cell .chr 44 (12 + 22 + bankOf [83, 80, 68, 48 + b, letter 1])
    rw [bankOf_4 _ _ _ _ _ h8, bankOf_4 _ _ _ _ _ h8]
  · generalize hq : (Kind.col).page ⟨bg, sp, gr⟩ b = q at hpage ⊢
    change cell .col 6 _ = cell .col 6 _
    dsimp only [resourcePtr]
    have hn : Kind.col.name b (letter q) = [67, 79, 76, 48 + b, letter q] := rfl
    have hm : Kind.col.letters ++ [48 + b] = [67, 79, 76, 48 + b] := rfl
    rw [hn, hm, bankOf_4 _ _ _ _ _ h8, bankOf_4 _ _ _ _ _ h8, screenOf_4 _ _ _ _ h8, screenOf_5 _ _ _ _ _ h8 hpage]
    apply cellOf
    simp only [paged_none, paged_some]
    simp [Kind.banks] at hb
    simp [Kind.page] at hq
    have : b = 0 ∨ b = 1 ∨ b = 2 := by omega
    rcases this with rfl | rfl | rfl <;> simp at hq ⊢ <;> subst hq <;> simp [paged_none, paged_some]
  · change cell .scr 8 (4 * paged (screenOf [83, 67, 85, 48 + b]) bg + 2 + bankOf [83, 67, 85, 48 + b])
      = cell .scr 8 (4 * paged (screenOf [83, 67, 85, 48 + b, letter bg]) bg + 2 + bankOf [83, 67, 85, 48 + b, letter bg])
    rw [bankOf_4 _ _ _ _ _ h8, bankOf_4 _ _ _ _ _ h8, screenOf_4 _ _ _ _ h8, screenOf_5 _ _ _ _ _ h8 h1, paged_none, paged_some]

/-- C41: whatever follows the bank of a GRP is ignored. -/
theorem C41_grp (pg : Pages) {b : Nat} (hb : b < 4) (p : Nat) :
    resourcePtr pg (Kind.grp.letters ++ [48 + b, p]) = resourcePtr pg (Kind.grp.name b 0) ∧ Kind.grp.Has b 0 := by
  refine ⟨?_, by simp [Kind.Has, Kind.banks, Kind.screens, hb]⟩
  have hn : ∀ r, resourcePtr pg (Kind.grp.letters ++ r) = cell .grp 4 (bankOf (Kind.grp.letters ++ r)) := fun r => rfl
  have hk : Kind.grp.name b 0 = Kind.grp.letters ++ [48 + b] := rfl
  rw [hk, hn, hn]
  rfl

/-- C41: whatever follows PRG and MEM is ignored. -/
theorem C41_rest (pg : Pages) {k : Kind} (h : k.banks = 0) (r : List Nat) :
    resourcePtr pg (k.letters ++ r) = resourcePtr pg (k.name 0 0) ∧ k.Has 0 0 := by
  cases k <;> simp [Kind.banks] at h
  · exact ⟨rfl, rfl, rfl⟩
  · exact ⟨rfl, rfl, rfl⟩

/-- C41: without a bank, bank 0 of the upper screen is meant (of the lower screen for SPD). -/
theorem C41_default (pg : Pages) (k : Kind) :
    let p := if k.screens = [] then 0 else if k = .spd then 76 else 85
    resourcePtr pg k.letters = resourcePtr pg (k.name 0 p) ∧ k.Has 0 p := by
  cases k <;> exact ⟨rfl, by simp [Kind.Has, Kind.banks, Kind.screens]⟩

/-- C41: every valid type denotes a resource, one of those with a full name. -/
theorem C41_resolves {pg : Pages} (hpg : pg.WF) {t : List Nat} (h : TypeName t) :
    ∃ k b p, k.Has b p ∧ t.take 3 = k.letters ∧ resourcePtr pg t = resourcePtr pg (k.name b p) ∧
      resourcePtr pg t = .ok (locOf k b p) := by
  cases h with
  | letters k =>
    have := C41_default pg k
    exact ⟨k, 0, _, this.2, by rw [← letters_3 k, List.take_length], this.1, this.1.trans (ptr_full pg this.2)⟩
  | bank k b hb =>
    have ht : (k.letters ++ [48 + b]).take 3 = k.letters := List.take_left' (letters_3 k)
    by_cases hs : k.screens = []
    · have hn : k.name b 0 = k.letters ++ [48 + b] := by
        unfold Kind.name; rw [if_neg (by omega), if_pos hs, List.append_nil]
      have hh : k.Has b 0 := by
        unfold Kind.Has; rw [if_neg (by omega), if_pos hs]; exact ⟨hb, rfl⟩
      exact ⟨k, b, 0, hh, ht, by rw [hn], by rw [← hn, ptr_full pg hh]⟩
    · have := C41_current hpg hb hs
      exact ⟨k, b, _, this.2, ht, this.1, this.1.trans (ptr_full pg this.2)⟩
  | screen k b p hb hp =>
    have ht : (k.letters ++ [48 + b, p]).take 3 = k.letters := List.take_left' (letters_3 k)
    have hs : k.screens ≠ [] := by intro h; rw [h] at hp; cases hp
    have hn : k.name b p = k.letters ++ [48 + b, p] := by
      unfold Kind.name; rw [if_neg (by omega), if_neg hs]; simp
    have hh : k.Has b p := by
      unfold Kind.Has; rw [if_neg (by omega), if_neg hs]; exact ⟨hb, hp⟩
    exact ⟨k, b, p, hh, ht, by rw [hn], by rw [← hn, ptr_full pg hh]⟩
  | grp b p hb =>
    have := C41_grp pg hb p
    exact ⟨.grp, b, 0, this.2, rfl, this.1, this.1.trans (ptr_full pg this.2)⟩
  | rest k r hb hr =>
    have := C41_rest pg hb r
    exact ⟨k, 0, 0, this.2, List.take_left' (letters_3 k), this.1, this.1.trans (ptr_full pg this.2)⟩

theorem toChar_range (w : Nat) : -1 ≤ toChar w ∧ toChar w < 292 := by
  have hk : ∀ i : Nat, kataChar.getD i 0 < 64 := by
    intro i
    by_cases h : i < 256
    · exact (by decide +kernel : ∀ i : Fin 256, kataChar.getD i.val 0 < 64) ⟨i, h⟩
    · rw [List.getD_eq_getElem?_getD, List.getElem?_eq_none (by
        have : kataChar.length = 256 := by decide +kernel
        omega)]; decide
  have := hk (w % 256)
  unfold toChar
  simp only
  repeat' split
  all_goals omega

/-- A letter read through `get_resource_type` is the one copied by `str_char_copy`. -/
theorem type_char {s : Str} {i c : Nat} (hi : (copyBuf s.wide false s.data)[i]? = some c) (hc : 40 ≤ c ∧ c < 128) :
    toChar (strAtWide s i) = c := by
  unfold strAtWide
  by_cases hw : s.wide = true
  · rw [if_pos hw]
    rw [hw] at hi
    change (s.data.map (fun w => toU8 (toChar w)))[i]? = some c at hi
    rw [List.getElem?_map] at hi
    cases hx : s.data[i]? with
    | none => rw [hx] at hi; simp at hi
    | some w =>
      rw [hx] at hi
      simp at hi
      rw [List.getD_eq_getElem?_getD, hx]
      have := toChar_range w
      unfold toU8 at hi
      simp only [Option.getD_some]
      omega
  · have hw' : s.wide = false := by simpa using hw
    rw [if_neg hw]
    rw [hw'] at hi
    change s.data[i]? = some c at hi
    rw [List.getD_eq_getElem?_getD, hi]
    exact Sbc.Strs.roundtrip_all ⟨c, by omega⟩

theorem takeWhile_getElem? {α : Type} (p : α → Bool) : ∀ (l : List α) (i : Nat), i < (l.takeWhile p).length →
    l[i]? = (l.takeWhile p)[i]? := by
  intro l
  induction l with
  | nil => intro i h; simp at h
  | cons a l ih =>
    intro i h
    by_cases ha : p a = true
    · rw [List.takeWhile_cons_of_pos ha] at h ⊢
      cases i with
      | zero => rfl
      | succ i => simpa using ih i (by simpa using h)
    · rw [List.takeWhile_cons_of_neg ha] at h; simp at h

theorem cstr_nonzero (s : Str) : 0 ∉ cstr s := by
  unfold cstr
  generalize copyBuf s.wide false s.data = l
  induction l with
  | nil => simp
  | cons a l ih =>
    by_cases ha : a = 0
    · subst ha; simp
    · rw [List.takeWhile_cons_of_pos (by simpa using ha)]
      simp only [List.mem_cons, not_or]
      exact ⟨fun h => ha h.symm, ih⟩

/-- The type `get_resource_type` finds for a name starting with the letters of a kind. -/
theorem resourceType_kind {s : Str} {k : Kind} (h : (cstr s).take 3 = k.letters) : resourceType s = some k.ty := by
  have hl : 3 ≤ (cstr s).length := by
    have := congrArg List.length h; rw [letters_3, List.length_take] at this; omega
  have hlen : 3 ≤ strLen s := by
    have h1 : (cstr s).length ≤ (copyBuf s.wide false s.data).length := (List.takeWhile_sublist _).length_le
    have h2 : (copyBuf s.wide false s.data).length = s.data.length := by unfold copyBuf; split <;> simp_all
    unfold strLen; omega
  have at_ : ∀ i c : Nat, i < 3 → k.letters[i]? = some c → 40 ≤ c ∧ c < 128 → toChar (strAtWide s i) = c := by
    intro i c hi hc hr
    apply type_char _ hr
    rw [takeWhile_getElem? (· ≠ 0) _ i (by unfold cstr at hl; omega)]
    have := congrArg (fun l => l[i]?) h
    rw [List.getElem?_take_of_lt hi, hc] at this
    exact this
  unfold resourceType
  rw [if_neg (by omega)]
  dsimp only
  cases k <;>
    rw [at_ 0 _ (by omega) rfl (by omega), at_ 1 _ (by omega) rfl (by omega)] <;> rfl

/-- C41 (LOAD, SAVE, APPEND): a name with a valid type and a valid file name is taken apart and resolved. -/
theorem C41_typed {pg : Pages} (hpg : pg.WF) {s : Str} (hs : strLen s ≤ 14) {t f : List Nat} (he : cstr s = t ++ 58 :: f)
    (h58 : 58 ∉ t) (ht : TypeName t) (hf : FileName f) :
    ∃ k b p, k.Has b p ∧ t.take 3 = k.letters ∧ resourcePtr pg t = .ok (locOf k b p) ∧
      verified pg s = .ok ⟨t, f, k.ty, locOf k b p⟩ := by
  obtain ⟨k, b, p, h1, h2, _, h4⟩ := C41_resolves hpg ht
  refine ⟨k, b, p, h1, h2, h4, ?_⟩
  have h0 : 0 ∉ cstr s := by
    intro h
    exact absurd h (cstr_nonzero s)
  have hv : verifyName (cstr s) = true := (C41_names h0).2 (Or.inr ⟨t, f, he, h58, ht, hf⟩)
  have hty : resourceType s = some k.ty := by
    apply resourceType_kind
    rw [he, List.take_append_of_le_length ht.length.1, h2]
  unfold verified
  rw [if_neg (by omega)]
  dsimp only
  rw [hv, if_neg (by simp), he, findIdx_some h58, hty]
  have e1 : (t ++ 58 :: f).take t.length = t := by simp
  have e2 : (t ++ 58 :: f).drop (t.length + 1) = f := by simp
  simp only [e1, e2, h4, Out.bind]

/-- C41: a name without a type is a program. -/
theorem C41_untyped (pg : Pages) {s : Str} (hs : strLen s ≤ 14) (h58 : 58 ∉ cstr s) (hf : FileName (cstr s)) :
    verified pg s = .ok ⟨[80, 82, 71], cstr s, .prg, .prg⟩ := by
  have h0 : 0 ∉ cstr s := by
    intro h
    exact absurd h (cstr_nonzero s)
  have hv : verifyName (cstr s) = true := (C41_names h0).2 (Or.inl ⟨h58, hf⟩)
  unfold verified
  rw [if_neg (by omega)]
  dsimp only
  rw [hv, if_neg (by simp), findIdx_none h58]
  rfl

/-- C41: every other name is refused. -/
theorem C41_refused (pg : Pages) {s : Str}
    (h : ¬ (58 ∉ cstr s ∧ FileName (cstr s) ∨ ∃ t f, cstr s = t ++ 58 :: f ∧ 58 ∉ t ∧ TypeName t ∧ FileName f)) :
    verified pg s = .err .illegalFunctionCall := by
  have h0 : 0 ∉ cstr s := by
    intro h
    exact absurd h (cstr_nonzero s)
  have hv : ¬ verifyName (cstr s) = true := fun hv => h ((C41_names h0).1 hv)
  unfold verified
  by_cases hl : strLen s > 14
  · rw [if_pos hl]
  · rw [if_neg hl]; dsimp only; rw [if_pos (by simpa using hv)]

/-- The index in the table of banks. -/
def Loc.idx : Loc → Nat
  | .chr i | .scr i | .col i | .grp i => i
  | _ => 0

/-- C41: the bank marked for redrawing is the bank that was changed, for names with a bank. -/
theorem C41_redraw_partial {pg : Pages} (hpg : pg.WF) {k : Kind} (hk : k.ty = .chr) {b : Nat} (hb : b < k.banks) {r : List Nat}
    (hr : r = [] ∨ ∃ p, p ∈ k.screens ∧ r = [p]) :
    ∃ i : Nat, i < 44 ∧ resourcePtr pg (k.letters ++ (48 + b) :: r) = .ok (.chr i) ∧
      chrIndex pg (k.letters ++ (48 + b) :: r) = .ok i := by
  have hs : k.screens ≠ [] := by cases k <;> simp [Kind.ty] at hk <;> simp [Kind.screens]
  obtain ⟨h1, h2, h3⟩ := hpg
  rcases hr with rfl | ⟨p, hp, rfl⟩
  · have hc := C41_current ⟨h1, h2, h3⟩ hb hs
    have hf := ptr_full pg hc.2
    rw [hc.1, hf]
    have e1 : pg.bg = 0 ∨ pg.bg = 1 := by omega
    have e2 : pg.sp = 0 ∨ pg.sp = 1 := by omega
    refine ⟨(locOf k b (letter (k.page pg b))).idx, ?_⟩
    cases k <;> simp [Kind.ty] at hk <;> simp [Kind.banks] at hb <;>
      rcases e1 with e1 | e1 <;> rcases e2 with e2 | e2 <;>
      simp [Loc.idx, locOf, chrIndex, Kind.letters, ch, Kind.page, e1, e2, letter] <;> omega
  · have hn : k.letters ++ [48 + b, p] = k.name b p := by
      unfold Kind.name; rw [if_neg (by omega), if_neg hs]; simp
    have hh : k.Has b p := by
      unfold Kind.Has; rw [if_neg (by omega), if_neg hs]; exact ⟨hb, hp⟩
    rw [hn, ptr_full pg hh, ← hn]
    refine ⟨(locOf k b p).idx, ?_⟩
    cases k <;> simp [Kind.ty] at hk <;> simp [Kind.banks] at hb <;> simp [Kind.screens] at hp <;>
      (try rcases hp with rfl | rfl) <;> simp [Loc.idx, locOf, chrIndex, Kind.letters, ch] <;> omega

/-- C41 fails for names without a bank: on page 1, `BGU` is the memory of the upper screen, while `BGU0` is that of the lower
screen, and the bank marked for redrawing is the one of the lower screen. -/
theorem C41_no_bank_violated : ∃ pg : Pages, pg.WF ∧ resourcePtr pg [66, 71, 85] = .ok (.chr 8) ∧
    resourcePtr pg [66, 71, 85, 48] = .ok (.chr 30) ∧ chrIndex pg [66, 71, 85] = .ok 30 :=
  ⟨⟨1, 0, 0⟩, by decide, rfl, rfl, rfl⟩

/-- C41 fails for the commands that take a type only (CHRINIT, CHRREAD, CHRSET, GPUTCHR): invalid types are not refused.
`BAD` aborts the interpreter, `SPUz` reads outside the table of banks, `SPU9` is the bank of `SPS1U`. -/
theorem C41_unchecked_violated (pg : Pages) :
    (¬ TypeName [66, 65, 68] ∧ verifiedType pg ⟨false, [66, 65, 68]⟩ = .ub) ∧
    (¬ TypeName [83, 80, 85, 122] ∧ verifiedType pg ⟨false, [83, 80, 85, 122]⟩ = .ub) ∧
    (¬ TypeName [83, 80, 85, 57] ∧ verifiedType pg ⟨false, [83, 80, 85, 57]⟩ = .ok ⟨[83, 80, 85, 57], [], .chr, .chr 21⟩ ∧
      resourcePtr pg (Kind.sps.name 1 85) = .ok (.chr 21)) := by
  have no : ∀ t : List Nat, 58 ∉ t → 0 ∉ t → verifyType t = false → ¬ TypeName t := by
    intro t h1 h2 h3 h4
    have := (verifyType_iff (tail := []) h1 h2 (Or.inl rfl)).2 h4
    rw [List.append_nil, h3] at this; cases this
  refine ⟨⟨no _ (by decide) (by decide) (by decide), rfl⟩, ⟨no _ (by decide) (by decide) (by decide), rfl⟩,
    no _ (by decide) (by decide) (by decide), rfl, rfl⟩

/-- A type that is valid is accepted by these commands. -/
theorem C41_type_only {pg : Pages} (hpg : pg.WF) {s : Str} (hl : strLen s ≤ 5) (ht : TypeName (cstr s)) :
    ∃ k b p, k.Has b p ∧ (cstr s).take 3 = k.letters ∧ resourcePtr pg (cstr s) = .ok (locOf k b p) ∧
      verifiedType pg s = .ok ⟨cstr s, [], k.ty, locOf k b p⟩ := by
  obtain ⟨k, b, p, h1, h2, _, h4⟩ := C41_resolves hpg ht
  refine ⟨k, b, p, h1, h2, h4, ?_⟩
  unfold verifiedType
  rw [if_neg (by omega), resourceType_kind h2]
  simp only [h4, Out.bind]

example : verified ⟨0, 0, 0⟩ ⟨false, [71, 82, 80, 50, 58, 77, 89, 95, 49]⟩ = .ok ⟨[71, 82, 80, 50], [77, 89, 95, 49], .grp, .grp 2⟩ := rfl
example : Kind.sps.Has 1 76 := by decide
example : TypeName (Kind.bgu.letters ++ [48 + 3, 76]) := .screen .bgu 3 76 (by decide) (by decide)
example : verified ⟨0, 0, 0⟩ ⟨false, [46, 46, 47, 88]⟩ = .err .illegalFunctionCall := rfl

end Sbc.Res
