import Verif.Model.Files
import Verif.Props.Chars
set_option autoImplicit false
/-!
# C45: SAVE and LOAD — C65: which files are touched — C66: LOAD is all or nothing — C67: programs with packages —
C68: APPEND — C69: PACKAGE$
-/
namespace Sbc.Files
open Sbc Sbc.Strs Sbc.Res

theorem typeStr_len (ty : Ty) : (typeStr ty).length = 12 := by cases ty <;> rfl

theorem typeStr_magic (ty : Ty) (r : List Nat) : (typeStr ty ++ r).take 4 = [80, 69, 84, 67] := by cases ty <;> rfl

theorem typeStr_drop (ty : Ty) (r : List Nat) : (typeStr ty ++ r).drop 12 = r := List.drop_left' (typeStr_len ty)

theorem content_len (b : Bank) (l : Loc) (n : Nat) : (content b l n).length = n := by simp [content]

theorem content_get (b : Bank) (l : Loc) (n i : Nat) (h : i < n) : (content b l n).getD i 0 = b.bytes l i := by
  unfold content
  rw [List.getD_eq_getElem?_getD, List.getElem?_map, List.getElem?_range h]
  rfl

theorem path_ok {f : List Nat} (hf : FileName f) : createPath searchPath f ext = some (searchPath ++ f ++ ext) := by
  unfold createPath
  have h1 := hf.1
  have h2 := hf.2.1
  rw [if_neg]
  show ¬ (9 + f.length + 4 > 255)
  omega

/-- The bytes a write leaves. -/
theorem write_at (b : Bank) (l : Loc) (a : Nat) (d : List Nat) (l' : Loc) (i : Nat) :
    (b.write l a d).bytes l' i = if l' = l ∧ a ≤ i ∧ i < a + d.length then d.getD (i - a) 0 else b.bytes l' i := rfl

/-- Marking for redrawing succeeds for every valid type and changes no byte. -/
theorem refresh_ok {pg : Pages} (hpg : pg.WF) (b : Bank) {t : List Nat} (ht : TypeName t) {k : Kind} (hk : t.take 3 = k.letters) :
    ∃ b', refresh pg b k.ty t = .ok b' ∧ b'.bytes = b.bytes := by
  cases hty : k.ty with
  | chr =>
    obtain ⟨i, hi, h⟩ := chrIndex_ok hpg ht hk hty
    refine ⟨{ b with regenChr := fun j => if j = (i : Int).toNat then true else b.regenChr j }, ?_, rfl⟩
    unfold refresh
    simp only [h, Out.bind]
    unfold Bank.redraw
    rw [if_pos (by omega)]
  | col => exact ⟨{ b with regenCol := true }, rfl, rfl⟩
  | prg => exact ⟨b, rfl, rfl⟩
  | scr => exact ⟨b, rfl, rfl⟩
  | grp => exact ⟨b, rfl, rfl⟩
  | mem => exact ⟨b, rfl, rfl⟩

/-- A kind is determined by its letters. -/
theorem kind_inj {k k' : Kind} (h : k.letters = k'.letters) : k = k' := by
  cases k <;> cases k' <;> first | rfl | (simp [Kind.letters] at h)

/-- The state after a successful LOAD of a resource other than a program, from a file in the format SAVE writes. -/
theorem load_saved {pg : Pages} (hpg : pg.WF) (st : St) (fs : FS) {res : Str} (hs : strLen res ≤ 14) {t f : List Nat}
    (he : cstr res = t ++ 58 :: f) (h58 : 58 ∉ t) (ht : TypeName t) (hf : FileName f) {k : Kind} (hk : t.take 3 = k.letters)
    (hp : k.ty ≠ .prg) {data : List Nat} (hd : data.length = Ty.size k.ty)
    (hfile : fs (searchPath ++ f ++ ext) = some (typeStr k.ty ++ data)) :
    ∃ l st', resourcePtr pg t = .ok l ∧ load pg st fs res = .ok st' ∧ st'.result = 1 ∧
      (∀ i : Nat, i < Ty.size k.ty → st'.bank.bytes l i = data.getD i 0) ∧
      (∀ l' i, ¬ (l' = l ∧ i < Ty.size k.ty) → st'.bank.bytes l' i = st.bank.bytes l' i) ∧
      st'.prgSize = st.prgSize ∧ st'.memLen = if k.ty = .mem then u32At (content st'.bank .mem 516) 512 else st.memLen := by
  obtain ⟨k', b, p, h1, h2, h3, h4⟩ := C41_typed hpg hs he h58 ht hf
  have := kind_inj (h2.symm.trans hk)
  subst this
  let b1 := st.bank.write (locOf k' b p) 0 data
  obtain ⟨b2, hr1, hr2⟩ := refresh_ok hpg b1 ht h2
  have hload : loadFile st.bank (locOf k' b p) (Ty.size k'.ty) (typeStr k'.ty ++ data) = some (b1, Ty.size k'.ty) := by
    unfold loadFile
    dsimp only
    rw [typeStr_magic, if_neg (by decide), if_pos rfl]
    unfold readInto
    dsimp only
    rw [typeStr_drop, ← hd, List.take_length]
  have hsize : Ty.size k'.ty ≠ 0 := by cases hx : k'.ty <;> simp [Ty.size] <;> exact hp hx
  refine ⟨locOf k' b p, { st with bank := b2, result := 1, memLen := if k'.ty = .mem then u32At (content b2 .mem 516) 512 else st.memLen },
    h3, ?_, rfl, ?_, ?_, rfl, rfl⟩
  · unfold load
    rw [h4]
    simp only [Out.bind]
    rw [path_ok hf]
    simp only [Option.bind, hfile]
    cases hx : k'.ty with
    | prg => exact absurd hx hp
    | chr | scr | grp | mem | col =>
      rw [hx] at hload hr1 hsize
      rw [hload]
      simp only
      rw [hr1]
      simp only [Out.bind]
      rw [if_pos hsize]
  · intro i hi
    show b2.bytes _ _ = _
    rw [hr2]
    show (b1.bytes _ _) = _
    rw [write_at, if_pos ⟨rfl, by omega, by omega⟩]
    rfl
  · intro l' i hi
    show b2.bytes _ _ = _
    rw [hr2]
    show (b1.bytes _ _) = _
    rw [write_at, if_neg]
    rintro ⟨a1, _, a2⟩
    exact hi ⟨a1, by omega⟩

/-- C45: SAVE of a resource other than a program under any name succeeds, and a LOAD of the file at any later time into a
resource of the same type gives the resource the saved bytes and changes no other resource. -/
theorem C45_save_load_partial {pg pg' : Pages} (hpg : pg.WF) (hpg' : pg'.WF) (st : St) (fs : FS) {res res' : Str}
    (hs : strLen res ≤ 14) (hs' : strLen res' ≤ 14) {t t' f : List Nat}
    (he : cstr res = t ++ 58 :: f) (h58 : 58 ∉ t) (ht : TypeName t)
    (he' : cstr res' = t' ++ 58 :: f) (h58' : 58 ∉ t') (ht' : TypeName t') (hf : FileName f)
    {k k' : Kind} (hk : t.take 3 = k.letters) (hk' : t'.take 3 = k'.letters) (hkk : k.ty = k'.ty) (hp : k.ty ≠ .prg) :
    ∃ l l' st1 fs1, resourcePtr pg t = .ok l ∧ resourcePtr pg' t' = .ok l' ∧
      save pg st fs res = .ok (st1, fs1) ∧ st1.result = 1 ∧ st1.bank = st.bank ∧ st1.prgSize = st.prgSize ∧
      ∀ st2 : St, ∃ st3, load pg' st2 fs1 res' = .ok st3 ∧ st3.result = 1 ∧
        (∀ i : Nat, i < Ty.size k.ty → st3.bank.bytes l' i = st.bank.bytes l i) ∧
        (∀ x i, ¬ (x = l' ∧ i < Ty.size k.ty) → st3.bank.bytes x i = st2.bank.bytes x i) := by
  obtain ⟨k1, b, p, h1, h2, h3, h4⟩ := C41_typed hpg hs he h58 ht hf
  have := kind_inj (h2.symm.trans hk)
  subst this
  obtain ⟨k2, b', p', h1', h2', h3', h4'⟩ := C41_typed hpg' hs' he' h58' ht' hf
  have := kind_inj (h2'.symm.trans hk')
  subst this
  have hsize : Ty.size k1.ty ≠ 0 := by cases hx : k1.ty <;> simp [Ty.size] <;> exact hp hx
  have hsave : saveFile st.bank (locOf k1 b p) k1.ty =
      .ok (typeStr k1.ty ++ content st.bank (locOf k1 b p) (Ty.size k1.ty), Ty.size k1.ty) := by
    unfold saveFile
    cases hx : k1.ty with
    | prg => exact absurd hx hp
    | chr | scr | grp | mem | col => rfl
  refine ⟨_, _, { st with result := 1 }, (fun q => if q = searchPath ++ f ++ ext then
      some (typeStr k1.ty ++ content st.bank (locOf k1 b p) (Ty.size k1.ty)) else fs q), h3, h3', ?_, rfl, rfl, rfl, ?_⟩
  · unfold save
    rw [h4]
    simp only [Out.bind]
    rw [path_ok hf]
    simp only
    rw [hsave]
    simp only [Out.bind]
    rw [if_pos hsize]
  · intro st2
    obtain ⟨l, st3, e1, e2, e3, e4, e5, _⟩ := load_saved hpg' st2
      (fun q => if q = searchPath ++ f ++ ext then some (typeStr k1.ty ++ content st.bank (locOf k1 b p) (Ty.size k1.ty)) else fs q)
      hs' he' h58' ht' hf h2' (by rw [← hkk]; exact hp) (data := content st.bank (locOf k1 b p) (Ty.size k1.ty))
      (by rw [content_len, hkk]) (by rw [if_pos rfl, hkk])
    rw [h3'] at e1
    injection e1 with e1
    subst e1
    refine ⟨st3, e2, e3, ?_, ?_⟩
    · intro i hi
      rw [e4 i (by rw [← hkk]; exact hi), content_get _ _ _ _ hi]
    · intro x i hx
      exact e5 x i (by rw [← hkk]; exact hx)

/-- The name of a program is its own C string. -/
theorem takeWhile_all {p : Nat → Bool} {l : List Nat} (h : ∀ c ∈ l, p c = true) : l.takeWhile p = l := by
  induction l with
  | nil => rfl
  | cons a l ih =>
    rw [List.takeWhile_cons, if_pos (h a (List.mem_cons_self ..)), ih fun c hc => h c (List.mem_cons_of_mem _ hc)]

theorem cstr_name {f : List Nat} (hf : FileName f) : cstr ⟨false, f⟩ = f := by
  show f.takeWhile (· ≠ 0) = f
  refine takeWhile_all fun c hc => ?_
  have := hf.2.2 c hc
  simp; omega

/-- C45 fails for programs: SAVE takes the text of the program for the record describing it and follows a wild pointer, for
every program text whose first byte is not NUL. -/
theorem C45_program_violated (pg : Pages) (st : St) (fs : FS) (h : st.bank.bytes .prg 0 ≠ 0) {f : List Nat} (hf : FileName f) :
    save pg st fs ⟨false, f⟩ = .ub := by
  have hc := cstr_name hf
  have h58 : 58 ∉ f := by
    intro h
    have := hf.2.2 58 h
    omega
  have hv := C41_untyped pg (s := ⟨false, f⟩) (by show f.length ≤ 14; have := hf.2.1; omega) (by rw [hc]; exact h58) (by rw [hc]; exact hf)
  unfold save
  rw [hv]
  simp only [Out.bind]
  rw [hc, path_ok hf]
  simp only
  unfold saveFile
  rw [if_neg (by rintro ⟨h', _⟩; exact h h')]

end Sbc.Files
