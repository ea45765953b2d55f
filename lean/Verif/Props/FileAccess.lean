import Verif.Props.Files
set_option autoImplicit false
/-!
# C65: which files are touched — C66: LOAD is all or nothing — C68: APPEND — C69: PACKAGE$
-/
namespace Sbc.Files
open Sbc Sbc.Strs Sbc.Res

/-- The file a name stands for: `programs/`, a valid file name, `.PTC`. -/
def FileOf (res : Str) (path : List Nat) : Prop :=
  ∃ f, FileName f ∧ (cstr res = f ∨ ∃ t, cstr res = t ++ 58 :: f ∧ 58 ∉ t) ∧ path = searchPath ++ f ++ ext

/-- What a verified name gives. -/
theorem verified_file {pg : Pages} {res : Str} {info : Info} (h : verified pg res = .ok info) :
    FileName info.name ∧ FileOf res (searchPath ++ info.name ++ ext) := by
  by_cases hc : 58 ∉ cstr res ∧ FileName (cstr res) ∨ ∃ t f, cstr res = t ++ 58 :: f ∧ 58 ∉ t ∧ TypeName t ∧ FileName f
  · have hl : strLen res ≤ 14 := by
      apply Decidable.byContradiction
      intro hl
      unfold verified at h
      rw [if_pos (by omega)] at h
      cases h
    have hr : verifyName (cstr res) = true := (C41_names (cstr_nonzero res)).2 hc
    unfold verified at h
    rw [if_neg (by omega)] at h
    dsimp only at h
    rw [if_neg (by simp [hr])] at h
    rcases hc with ⟨h1, h2⟩ | ⟨t, f, h1, h2, h3, h4⟩
    · rw [findIdx_none h1] at h
      injection h with h
      subst h
      exact ⟨h2, _, h2, Or.inl rfl, rfl⟩
    · rw [h1, findIdx_some h2] at h
      have e2 : (t ++ 58 :: f).drop (t.length + 1) = f := by simp
      simp only [e2] at h
      cases hty : resourceType res with
      | none => rw [hty] at h; cases h
      | some ty =>
        rw [hty] at h
        simp only at h
        cases hp : resourcePtr pg ((t ++ 58 :: f).take t.length) with
        | ok l =>
          rw [hp] at h
          simp only [Out.bind] at h
          injection h with h
          subst h
          exact ⟨h4, f, h4, Or.inr ⟨t, h1, h2⟩, rfl⟩
        | err e => rw [hp] at h; cases h
        | ub => rw [hp] at h; cases h
  · rw [C41_refused pg hc] at h
    cases h

/-- C65 (SAVE): no other file is created, changed or removed. -/
theorem C65_save {pg : Pages} {st st' : St} {fs fs' : FS} {res : Str} (h : save pg st fs res = .ok (st', fs')) :
    ∃ path, FileOf res path ∧ ∀ q, q ≠ path → fs' q = fs q := by
  unfold save at h
  cases hv : verified pg res with
  | err e => rw [hv] at h; cases h
  | ub => rw [hv] at h; cases h
  | ok info =>
    obtain ⟨h1, h2⟩ := verified_file hv
    rw [hv] at h
    simp only [Out.bind] at h
    rw [path_ok h1] at h
    simp only at h
    refine ⟨_, h2, ?_⟩
    cases hs : saveFile st.bank info.data info.ty with
    | err e => rw [hs] at h; cases h
    | ub => rw [hs] at h; cases h
    | ok x =>
      rw [hs] at h
      simp only [Out.bind] at h
      injection h with h
      injection h with _ h
      subst h
      intro q hq
      exact if_neg hq

/-- C65 (LOAD): what LOAD does depends on the contents of one file only. -/
theorem C65_load (pg : Pages) (st : St) (fs fs' : FS) (res : Str) (h : ∀ path, FileOf res path → fs path = fs' path) :
    load pg st fs res = load pg st fs' res := by
  unfold load
  cases hv : verified pg res with
  | err e => rfl
  | ub => rfl
  | ok info =>
    obtain ⟨h1, h2⟩ := verified_file hv
    simp only [Out.bind]
    rw [path_ok h1]
    simp only [Option.bind, h _ h2]

/-- C65 (APPEND). -/
theorem C65_append (pg : Pages) (st : St) (fs fs' : FS) (res : Str) (h : ∀ path, FileOf res path → fs path = fs' path) :
    append pg st fs res = append pg st fs' res := by
  unfold append
  cases hv : verified pg res with
  | err e => rfl
  | ub => rfl
  | ok info =>
    obtain ⟨h1, h2⟩ := verified_file hv
    simp only [Out.bind]
    rw [path_ok h1]
    simp only [Option.bind, h _ h2]

/-- C65: one name stands for one file. -/
theorem C65_one_file {res : Str} {p p' : List Nat} (h : FileOf res p) (h' : FileOf res p') : p = p' := by
  have no58 : ∀ f : List Nat, FileName f → 58 ∉ f := by
    intro f hf hm
    have := hf.2.2 58 hm
    omega
  obtain ⟨f, hf, h1, rfl⟩ := h
  obtain ⟨f', hf', h1', rfl⟩ := h'
  suffices hff : f = f' by rw [hff]
  rcases h1 with h1 | ⟨t, h1, ht⟩ <;> rcases h1' with h1' | ⟨t', h1', ht'⟩
  · exact h1.symm.trans h1'
  · exact absurd (by rw [← h1, h1']; simp) (no58 f hf)
  · exact absurd (by rw [← h1', h1]; simp) (no58 f' hf')
  · have a1 := findIdx_some (f := f) ht
    have a2 := findIdx_some (f := f') ht'
    rw [← h1] at a1
    rw [← h1'] at a2
    rw [a1] at a2
    injection a2 with hl
    exact (List.cons.inj (List.append_inj (h1.symm.trans h1') hl).2).2

/-- C65 fails for EXEC, which does not verify the name: `EXEC "../X"` opens a file outside the program directory, and
`EXEC "PRG:X"` does not open the file `LOAD "PRG:X"` does. -/
theorem C65_exec_violated (pg : Pages) (st : St) (file : List Nat) (hn : loadProgram pg st file = .ok (st, 1)) :
    (exec pg st (fun p => if p = searchPath ++ [46, 46, 47, 88] ++ ext then some file else none) ⟨false, [46, 46, 47, 88]⟩ =
      .ok (some { st with result := 1 }) ∧ ∀ p, ¬ FileOf ⟨false, [46, 46, 47, 88]⟩ p) ∧
    (exec pg st (fun p => if p = searchPath ++ [88] ++ ext then some file else none) ⟨false, [80, 82, 71, 58, 88]⟩ = .ok none ∧
      FileOf ⟨false, [80, 82, 71, 58, 88]⟩ (searchPath ++ [88] ++ ext)) := by
  refine ⟨⟨?_, ?_⟩, ?_, ?_⟩
  · unfold exec
    rw [show cstr ⟨false, [46, 46, 47, 88]⟩ = [46, 46, 47, 88] by decide,
      show createPath searchPath [46, 46, 47, 88] ext = some (searchPath ++ [46, 46, 47, 88] ++ ext) by decide]
    simp only [Option.bind, if_true]
    rw [hn]
    rfl
  · rintro p ⟨f, hf, h | ⟨t, h, _⟩, rfl⟩
    · rw [show cstr ⟨false, [46, 46, 47, 88]⟩ = [46, 46, 47, 88] by decide] at h
      subst h
      have := hf.2.2 46 (by decide)
      omega
    · rw [show cstr ⟨false, [46, 46, 47, 88]⟩ = [46, 46, 47, 88] by decide] at h
      have : 58 ∈ ([46, 46, 47, 88] : List Nat) := by rw [h]; simp
      exact absurd this (by decide)
  · unfold exec
    rw [show cstr ⟨false, [80, 82, 71, 58, 88]⟩ = [80, 82, 71, 58, 88] by decide,
      show createPath searchPath [80, 82, 71, 58, 88] ext = some (searchPath ++ [80, 82, 71, 58, 88] ++ ext) by decide]
    simp only [Option.bind]
    rw [if_neg (by decide)]
  · refine ⟨[88], ⟨by decide, by decide, ?_⟩, Or.inr ⟨[80, 82, 71], by decide, by decide⟩, rfl⟩
    intro c hc
    simp at hc
    omega

/-! ## C66 -/

/-- C66: when there is no file of that name, RESULT is 0 and no resource, nor the size of the program, changes. -/
theorem C66_missing {pg : Pages} (hpg : pg.WF) (st : St) (fs : FS) {res : Str} (hs : strLen res ≤ 14) {t f : List Nat}
    (he : cstr res = t ++ 58 :: f) (h58 : 58 ∉ t) (ht : TypeName t) (hf : FileName f) (hn : fs (searchPath ++ f ++ ext) = none) :
    ∃ st', load pg st fs res = .ok st' ∧ st'.result = 0 ∧ st'.bank.bytes = st.bank.bytes ∧ st'.prgSize = st.prgSize := by
  obtain ⟨k, b, p, h1, h2, h3, h4⟩ := C41_typed hpg hs he h58 ht hf
  obtain ⟨b', e1, e2⟩ := refresh_ok hpg st.bank ht h2
  refine ⟨{ st with bank := b', result := 0, memLen := if k.ty = .mem then u32At (content b' .mem 516) 512 else st.memLen },
    ?_, rfl, e2, rfl⟩
  unfold load
  rw [h4]
  simp only [Out.bind]
  rw [path_ok hf]
  simp only [Option.bind, hn]
  rw [e1]

/-- C66 for the untyped names. -/
theorem C66_missing_program (pg : Pages) (st : St) (fs : FS) {res : Str} (hs : strLen res ≤ 14)
    (h58 : 58 ∉ cstr res) (hf : FileName (cstr res)) (hn : fs (searchPath ++ cstr res ++ ext) = none) :
    load pg st fs res = .ok { st with result := 0 } := by
  unfold load
  rw [C41_untyped pg hs h58 hf]
  simp only [Out.bind]
  rw [path_ok hf]
  simp only [Option.bind, hn]
  rfl

/-- C66 fails when the file holds another type: `LOAD "GRP0:X"` of a saved palette overwrites the first 512 bytes of the
graphics page, leaves the rest, and reports success. -/
theorem C66_type_violated {pg : Pages} (st : St) (fs : FS) (data : List Nat) (hd : data.length = 512)
    (hfile : fs (searchPath ++ [88] ++ ext) = some (typeStr .col ++ data)) :
    ∃ st', load pg st fs ⟨false, [71, 82, 80, 48, 58, 88]⟩ = .ok st' ∧ st'.result = 1 ∧
      (∀ i : Nat, i < 512 → st'.bank.bytes (.grp 0) i = data.getD i 0) ∧
      (∀ i : Nat, 512 ≤ i → st'.bank.bytes (.grp 0) i = st.bank.bytes (.grp 0) i) := by
  have hload : loadFile st.bank (.grp 0) (Ty.size .grp) (typeStr .col ++ data) = some (st.bank.write (.grp 0) 0 data, 512) := by
    unfold loadFile
    dsimp only
    rw [typeStr_magic, if_neg (by decide), if_pos rfl]
    unfold readInto
    dsimp only
    rw [typeStr_drop, List.take_of_length_le (by rw [hd]; decide), hd]
  refine ⟨{ st with bank := st.bank.write (.grp 0) 0 data, result := 1 }, ?_, rfl, ?_, ?_⟩
  · unfold load
    rw [show verified pg ⟨false, [71, 82, 80, 48, 58, 88]⟩ = .ok ⟨[71, 82, 80, 48], [88], .grp, .grp 0⟩ from rfl]
    simp only [Out.bind]
    rw [show createPath searchPath [88] ext = some (searchPath ++ [88] ++ ext) by decide]
    simp only [Option.bind, hfile, hload]
    rfl
  · intro i hi
    show (st.bank.write (.grp 0) 0 data).bytes _ _ = _
    rw [write_at, if_pos ⟨rfl, by omega, by omega⟩]
    rfl
  · intro i hi
    show (st.bank.write (.grp 0) 0 data).bytes _ _ = _
    rw [write_at, if_neg]
    rintro ⟨_, _, _⟩
    omega

/-- Four bytes, least significant first. -/
def le32 (n : Nat) : List Nat := [n % 256, n / 256 % 256, n / 65536 % 256, n / 16777216 % 256]

theorem le32_u32 {n : Nat} (h : n < 2 ^ 32) (r : List Nat) : u32At (le32 n ++ r) 0 = n := by
  show n % 256 + 256 * (n / 256 % 256) + 65536 * (n / 65536 % 256) + 16777216 * (n / 16777216 % 256) = n
  omega

theorem u32At_drop (l : List Nat) (i : Nat) : u32At l i = u32At (l.drop i) 0 := by
  unfold u32At
  simp only [List.getD_eq_getElem?_getD, List.getElem?_drop, Nat.add_zero, Nat.zero_add]

/-- The start of a program file: the type alone (internal format), or the 36 bytes of the SD format before it. -/
def Head (h : List Nat) : Prop :=
  h = typeStr .prg ∨ ∃ x : List Nat, x.length = 32 ∧ h = [80, 88, 48, 49] ++ x ++ typeStr .prg

/-- A program file without packages: the start, the package bits, the size of the text. -/
def header (h : List Nat) (size : Nat) : List Nat := h ++ List.replicate 8 0 ++ le32 size

theorem Head.take4 {h : List Nat} (hh : Head h) (r : List Nat) :
    (h ++ r).take 4 = [80, 69, 84, 67] ∧ h.length = 12 ∨ (h ++ r).take 4 = [80, 88, 48, 49] ∧ h.length = 48 := by
  rcases hh with rfl | ⟨x, hx, rfl⟩
  · exact Or.inl ⟨rfl, rfl⟩
  · refine Or.inr ⟨rfl, ?_⟩
    simp [typeStr_len, hx]

theorem Head.isProgram {h : List Nat} (hh : Head h) {r : List Nat} (hr : 12 ≤ r.length) : isProgram (h ++ r) = true := by
  rcases hh with rfl | ⟨x, hx, rfl⟩
  · unfold Files.isProgram
    rw [show (typeStr .prg ++ r).take 4 = [80, 69, 84, 67] from rfl, if_neg (by decide), if_pos rfl]
    rw [show (typeStr .prg ++ r).take 12 = typeStr .prg from rfl]
    simp only [decide_eq_true_eq]
    exact ⟨by rw [List.length_append, typeStr_len]; omega, trivial⟩
  · unfold Files.isProgram
    rw [show ([80, 88, 48, 49] ++ x ++ typeStr .prg ++ r : List Nat).take 4 = [80, 88, 48, 49] from rfl, if_pos rfl]
    rw [show ([80, 88, 48, 49] ++ x ++ typeStr .prg ++ r : List Nat).drop 36 = typeStr .prg ++ r by
      rw [List.append_assoc]; exact List.drop_left' (by simp [hx])]
    rw [show (typeStr .prg ++ r).take 12 = typeStr .prg from rfl]
    simp only [decide_eq_true_eq]
    exact ⟨by simp [typeStr_len, hx]; omega, trivial⟩

/-- C66 fails for program files that are cut short: the text is overwritten although RESULT is 0. -/
theorem C66_truncated_violated (pg : Pages) (st : St) (fs : FS) {h : List Nat} (hh : Head h) (text : List Nat) (size : Nat) (hsize : size < 2 ^ 32)
    (hl : text.length < size) (hm : text.length ≤ maxSource) (hfile : fs (searchPath ++ [88] ++ ext) = some (header h size ++ text)) :
    ∃ st', load pg st fs ⟨false, [88]⟩ = .ok st' ∧ st'.result = 0 ∧ st'.prgSize = st.prgSize ∧
      ∀ i : Nat, i < text.length → st'.bank.bytes .prg i = text.getD i 0 := by
  have hd : (header h size ++ text).drop (h.length + 12) = text := by
    unfold header le32
    exact List.drop_left' (by simp)
  have hu : u32At (header h size ++ text) (h.length + 8) = size := by
    rw [u32At_drop, show (header h size ++ text).drop (h.length + 8) = le32 size ++ text by
      unfold header
      rw [List.append_assoc]
      exact List.drop_left' (by simp)]
    exact le32_u32 hsize _
  have hlen : (header h size ++ text).length = h.length + 12 + text.length := by simp [header, le32]; omega
  have hprog : loadProgram pg st (header h size ++ text) = .ok ({ st with bank := st.bank.write .prg 0 text }, 0) := by
    unfold loadProgram
    dsimp only
    have ht : header h size ++ text = h ++ (List.replicate 8 0 ++ le32 size ++ text) := by simp [header]
    rw [show (if (header h size ++ text).take 4 = [80, 88, 48, 49] then some 48
      else if (header h size ++ text).take 4 = [80, 69, 84, 67] then some 12 else none) = some h.length by
        rw [ht]
        rcases hh.take4 (List.replicate 8 0 ++ le32 size ++ text) with ⟨e1, e2⟩ | ⟨e1, e2⟩
        · rw [e1, e2, if_neg (by decide), if_pos rfl]
        · rw [e1, e2, if_pos rfl]]
    simp only
    rw [if_neg (by rw [hlen]; omega), hu, hd, List.take_of_length_le (by omega)]
    rw [if_neg (by omega), if_pos hl]
  refine ⟨{ st with bank := st.bank.write .prg 0 text, result := 0 }, ?_, rfl, rfl, ?_⟩
  · unfold load
    rw [show verified pg ⟨false, [88]⟩ = .ok ⟨[80, 82, 71], [88], .prg, .prg⟩ from rfl]
    simp only [Out.bind]
    rw [show createPath searchPath [88] ext = some (searchPath ++ [88] ++ ext) by decide]
    simp only [Option.bind, hfile, hprog]
    rfl
  · intro i hi
    show (st.bank.write .prg 0 text).bytes _ _ = _
    rw [write_at, if_pos ⟨rfl, by omega, by omega⟩]
    rfl

/-- C66 fails for MEM files: the length stored in the file is taken without a check, so `MEM$` gets a length beyond its
256 characters. -/
theorem C66_mem_violated (pg : Pages) (st : St) (fs : FS) (chars : List Nat) (hc : chars.length = 512) (n : Nat) (hn : n < 2 ^ 32)
    (hfile : fs (searchPath ++ [88] ++ ext) = some (typeStr .mem ++ (chars ++ le32 n))) :
    ∃ st', load pg st fs ⟨false, [77, 69, 77, 58, 88]⟩ = .ok st' ∧ st'.result = 1 ∧ st'.memLen = n := by
  have hdl : (chars ++ le32 n).length = 516 := by simp [hc, le32]
  have hload : loadFile st.bank .mem (Ty.size .mem) (typeStr .mem ++ (chars ++ le32 n)) =
      some (st.bank.write .mem 0 (chars ++ le32 n), 516) := by
    unfold loadFile
    dsimp only
    rw [typeStr_magic, if_neg (by decide), if_pos rfl]
    unfold readInto
    dsimp only
    rw [typeStr_drop, List.take_of_length_le (by rw [hdl]; decide), hdl]
  have hcont : content (st.bank.write .mem 0 (chars ++ le32 n)) .mem 516 = chars ++ le32 n := by
    apply List.ext_getElem?
    intro i
    by_cases hi : i < 516
    · unfold content
      rw [List.getElem?_map, List.getElem?_range hi]
      show some ((st.bank.write .mem 0 (chars ++ le32 n)).bytes .mem i) = _
      rw [write_at, if_pos ⟨rfl, by omega, by rw [hdl]; omega⟩, List.getElem?_eq_getElem (by rw [hdl]; exact hi),
        List.getD_eq_getElem?_getD, Nat.sub_zero, List.getElem?_eq_getElem (by rw [hdl]; exact hi)]
      rfl
    · rw [List.getElem?_eq_none (by rw [content_len]; omega), List.getElem?_eq_none (by rw [hdl]; omega)]
  refine ⟨{ st with bank := st.bank.write .mem 0 (chars ++ le32 n), result := 1, memLen := n }, ?_, rfl, rfl⟩
  unfold load
  rw [show verified pg ⟨false, [77, 69, 77, 58, 88]⟩ = .ok ⟨[77, 69, 77], [88], .mem, .mem⟩ from rfl]
  simp only [Out.bind]
  rw [show createPath searchPath [88] ext = some (searchPath ++ [88] ++ ext) by decide]
  simp only [Option.bind, hfile, hload]
  show Out.ok _ = _
  rw [hcont, if_pos trivial, u32At_drop, show (chars ++ le32 n).drop 512 = le32 n from List.drop_left' hc]
  have := le32_u32 hn []
  rw [List.append_nil] at this
  rw [this]
  rfl

/-! ## C68 -/

/-- C68: APPEND of a program file adds the text of the file, cut at the space left, after the program,
changes no earlier byte and nothing else. -/
theorem C68_append (pg : Pages) (st : St) (fs : FS) {res : Str} (hs : strLen res ≤ 14) (h58 : 58 ∉ cstr res)
    (hf : FileName (cstr res)) (hp : st.prgSize ≤ maxSource) {h : List Nat} (hh : Head h) (text rest : List Nat) (ht : text.length < 2 ^ 32)
    (hfile : fs (searchPath ++ cstr res ++ ext) = some (header h text.length ++ (text ++ rest))) :
    ∃ st', append pg st fs res = .ok st' ∧ st'.result = 1 ∧
      st'.prgSize = min (st.prgSize + text.length) maxSource ∧
      (∀ i : Nat, i < st.prgSize → st'.bank.bytes .prg i = st.bank.bytes .prg i) ∧
      (∀ i : Nat, st.prgSize + i < st'.prgSize → st'.bank.bytes .prg (st.prgSize + i) = text.getD i 0) ∧
      (∀ i : Nat, st'.prgSize ≤ i → st'.bank.bytes .prg i = st.bank.bytes .prg i) ∧
      (∀ l i, l ≠ .prg → st'.bank.bytes l i = st.bank.bytes l i) := by
  have hd : (header h text.length ++ (text ++ rest)).drop (h.length + 12) = text ++ rest := by
    unfold header le32
    exact List.drop_left' (by simp)
  have hu : u32At (header h text.length ++ (text ++ rest)) (h.length + 8) = text.length := by
    rw [u32At_drop, show (header h text.length ++ (text ++ rest)).drop (h.length + 8) = le32 text.length ++ (text ++ rest) by
      unfold header
      rw [List.append_assoc]
      exact List.drop_left' (by simp)]
    exact le32_u32 ht _
  have hlen : (header h text.length ++ (text ++ rest)).length = h.length + 12 + (text.length + rest.length) := by
    simp [header, le32]; omega
  have heq : header h text.length ++ (text ++ rest) = h ++ (List.replicate 8 0 ++ le32 text.length ++ (text ++ rest)) := by
    simp [header]
  have hprog : isProgram (header h text.length ++ (text ++ rest)) = true := by
    rw [heq]
    exact hh.isProgram (by simp [le32])
  have hskip : (if (header h text.length ++ (text ++ rest)).take 4 = [80, 69, 84, 67] then 20 else 56) = h.length + 8 := by
    rw [heq]
    rcases hh.take4 (List.replicate 8 0 ++ le32 text.length ++ (text ++ rest)) with ⟨e1, e2⟩ | ⟨e1, e2⟩
    · rw [e1, e2, if_pos rfl]
    · rw [e1, e2, if_neg (by decide)]
  have hrem : (maxSource + 2 ^ 32 - st.prgSize) % 2 ^ 32 = maxSource - st.prgSize := by
    unfold maxSource at *
    omega
  let n := if maxSource - st.prgSize < text.length then maxSource - st.prgSize else text.length
  have hn1 : n ≤ text.length := by show (if _ then _ else _) ≤ _; split <;> omega
  have hn2 : st.prgSize + n ≤ maxSource := by
    show st.prgSize + (if maxSource - st.prgSize < text.length then maxSource - st.prgSize else text.length) ≤ _
    split <;> omega
  have hn3 : st.prgSize + n = min (st.prgSize + text.length) maxSource := by
    show st.prgSize + (if maxSource - st.prgSize < text.length then maxSource - st.prgSize else text.length) = _
    split <;> omega
  have htake : (text ++ rest).take n = text.take n := List.take_append_of_le_length hn1
  have hdl : (text.take n).length = n := by rw [List.length_take]; omega
  refine ⟨{ st with bank := st.bank.write .prg st.prgSize (text.take n), prgSize := st.prgSize + n, result := 1 }, ?_, rfl, hn3, ?_, ?_, ?_, ?_⟩
  · unfold append
    dsimp only
    rw [C41_untyped pg hs h58 hf]
    simp only [Out.bind]
    rw [if_neg (by simp), path_ok hf]
    simp only [Option.bind, hfile]
    rw [if_neg (by simp [hprog])]
    rw [hskip, if_neg (by rw [hlen]; omega)]
    rw [show h.length + 8 + 4 = h.length + 12 from rfl, hd, hu, hrem]
    show (if st.prgSize + ((text ++ rest).take n).length > maxSource then Out.ub
      else if ((text ++ rest).take n).length ≠ n then Out.err Err.fileLoad
      else Out.ok _) = _
    rw [htake, hdl, if_neg (by omega), if_neg (by simp)]
  · intro i hi
    show (st.bank.write .prg st.prgSize (text.take n)).bytes _ _ = _
    rw [write_at, if_neg]
    rintro ⟨_, _, _⟩
    omega
  · intro i hi
    have hi : st.prgSize + i < st.prgSize + n := hi
    show (st.bank.write .prg st.prgSize (text.take n)).bytes _ _ = _
    rw [write_at, if_pos ⟨rfl, by omega, by rw [hdl]; omega⟩, Nat.add_sub_cancel_left,
      List.getD_eq_getElem?_getD, List.getElem?_take_of_lt (by omega), List.getD_eq_getElem?_getD]
  · intro i hi
    have hi : st.prgSize + n ≤ i := hi
    show (st.bank.write .prg st.prgSize (text.take n)).bytes _ _ = _
    rw [write_at, if_neg]
    rintro ⟨_, _, h⟩
    rw [hdl] at h
    omega
  · intro l i hl
    show (st.bank.write .prg st.prgSize (text.take n)).bytes _ _ = _
    rw [write_at, if_neg]
    rintro ⟨h, _⟩
    exact hl h

/-- C68: whatever the file holds, APPEND never writes beyond the program memory, and on failure the program keeps its size. -/
theorem C68_safe (pg : Pages) (hpg : pg.WF) (st : St) (fs : FS) (res : Str) (hp : st.prgSize ≤ maxSource) :
    (∃ e, append pg st fs res = .err e) ∨
    ∃ st', append pg st fs res = .ok st' ∧ st.prgSize ≤ st'.prgSize ∧ st'.prgSize ≤ maxSource ∧
      (∀ l i, (l ≠ .prg ∨ i < st.prgSize) → st'.bank.bytes l i = st.bank.bytes l i) ∧
      (st'.result = 0 → st'.bank = st.bank ∧ st'.prgSize = st.prgSize) := by
  have hrem : (maxSource + 2 ^ 32 - st.prgSize) % 2 ^ 32 = maxSource - st.prgSize := by
    unfold maxSource at *
    omega
  have hv : (∃ e, verified pg res = .err e) ∨ ∃ info, verified pg res = .ok info := by
    by_cases hc : 58 ∉ cstr res ∧ FileName (cstr res) ∨ ∃ t f, cstr res = t ++ 58 :: f ∧ 58 ∉ t ∧ TypeName t ∧ FileName f
    · by_cases hl : strLen res > 14
      · exact Or.inl ⟨_, if_pos hl⟩
      · rcases hc with ⟨h1, h2⟩ | ⟨t, f, h1, h2, h3, h4⟩
        · exact Or.inr ⟨_, C41_untyped pg (by omega) h1 h2⟩
        · obtain ⟨_, _, _, _, _, _, h⟩ := C41_typed hpg (by omega) h1 h2 h3 h4
          exact Or.inr ⟨_, h⟩
    · exact Or.inl ⟨_, C41_refused pg hc⟩
  rcases hv with ⟨e, hv⟩ | ⟨info, hv⟩
  · left
    refine ⟨e, ?_⟩
    unfold append
    rw [hv]
    rfl
  · unfold append
    rw [hv]
    simp only [Out.bind]
    by_cases h1 : info.ty = .prg
    case neg => rw [if_pos h1]; exact Or.inl ⟨_, rfl⟩
    rw [if_neg (by simpa using h1)]
    cases (createPath searchPath info.name ext).bind fs with
    | none => exact Or.inr ⟨_, rfl, Nat.le_refl _, hp, fun _ _ _ => rfl, fun _ => ⟨rfl, rfl⟩⟩
    | some file =>
      simp only
      by_cases h2 : isProgram file = true
      case neg => rw [if_pos h2]; exact Or.inr ⟨_, rfl, Nat.le_refl _, hp, fun _ _ _ => rfl, fun _ => ⟨rfl, rfl⟩⟩
      rw [if_neg (by simpa using h2), hrem]
      generalize (if file.take 4 = [80, 69, 84, 67] then 20 else 56) = skip
      by_cases h3 : file.length < skip + 4
      · rw [if_pos h3]; exact Or.inl ⟨_, rfl⟩
      rw [if_neg h3]
      generalize u32At file skip = psz
      generalize hn : (if maxSource - st.prgSize < psz then maxSource - st.prgSize else psz) = n
      have hn2 : st.prgSize + n ≤ maxSource := by rw [← hn]; split <;> omega
      have hdl : ((file.drop (skip + 4)).take n).length ≤ n := by rw [List.length_take]; omega
      rw [if_neg (by omega)]
      by_cases h4 : ((file.drop (skip + 4)).take n).length ≠ n
      · rw [if_pos h4]; exact Or.inl ⟨_, rfl⟩
      rw [if_neg h4]
      refine Or.inr ⟨_, rfl, Nat.le_add_right _ _, hn2, ?_, fun h => by cases h⟩
      intro l i hli
      show (st.bank.write .prg st.prgSize _).bytes _ _ = _
      rw [write_at, if_neg]
      rintro ⟨e1, e2, _⟩
      rcases hli with h | h
      · exact h e1
      · omega

example : FileName [88] := ⟨by decide, by decide, fun c hc => by simp at hc; omega⟩

/-! ## C69 -/

/-- `w` hexadecimal digits. -/
def fixed (w n : Nat) : List Nat := (List.range w).map fun i => Num.hexChar (n / 16 ^ (w - 1 - i) % 16)

theorem fixed_len (w n : Nat) : (fixed w n).length = w := by simp [fixed]

theorem hexChar_pos (d : Nat) : Num.hexChar d ≠ 0 := by unfold Num.hexChar; split <;> omega

theorem fixed_pos {w n c : Nat} (h : c ∈ fixed w n) : c ≠ 0 := by
  unfold fixed at h
  rw [List.mem_map] at h
  obtain ⟨i, _, rfl⟩ := h
  exact hexChar_pos _

theorem fixed_snoc (w n : Nat) : fixed (w + 1) n = fixed w (n / 16) ++ [Num.hexChar (n % 16)] := by
  unfold fixed
  rw [List.range_succ, List.map_append]
  congr 1
  · apply List.map_congr_left
    intro i hi
    rw [List.mem_range] at hi
    rw [Nat.div_div_eq_div_mul, show w + 1 - 1 - i = (w - 1 - i) + 1 by omega, Nat.pow_succ, Nat.mul_comm (16 ^ _) 16]
  · simp

theorem strip_zeros (k c : Nat) (hc : c ≠ 0) : sysPackage (List.replicate k 48 ++ [c]) = [c] := by
  unfold sysPackage
  have ht : (List.replicate k 48 ++ [c]).takeWhile (fun x : Nat => decide (x = 48)) = List.replicate k 48 ++ [c].takeWhile (fun x : Nat => decide (x = 48)) := by
    induction k with
    | zero => rfl
    | succ k ih => rw [List.replicate_succ, List.cons_append, List.takeWhile_cons, if_pos (by simp), ih, List.cons_append]
  dsimp only
  rw [ht]
  by_cases h : c = 48
  · subst h
    rw [show [48].takeWhile (fun x : Nat => decide (x = 48)) = [48] by decide]
    rw [if_pos]
    · rw [List.length_append, List.length_replicate, List.length_singleton, Nat.add_sub_cancel]
      exact List.drop_left' (by simp)
    · rw [List.getD_eq_getElem?_getD, List.getElem?_eq_none (by simp)]; rfl
  · rw [show [c].takeWhile (fun x : Nat => decide (x = 48)) = [] by simp [h], List.append_nil, List.length_replicate, if_neg]
    · exact List.drop_left' (by simp)
    · rw [List.getD_eq_getElem?_getD, List.getElem?_append_right (by simp)]
      simpa using hc

theorem takeWhile_snoc {l : List Nat} (hl : ∃ x ∈ l, x ≠ 48) (c : Nat) :
    (l ++ [c]).takeWhile (fun x : Nat => decide (x = 48)) = l.takeWhile (fun x : Nat => decide (x = 48)) ∧
    (l.takeWhile (fun x : Nat => decide (x = 48))).length < l.length := by
  induction l with
  | nil => obtain ⟨x, hx, _⟩ := hl; cases hx
  | cons a l ih =>
    rw [List.cons_append, List.takeWhile_cons, List.takeWhile_cons]
    by_cases ha : a = 48
    · rw [if_pos (by simpa using ha), if_pos (by simpa using ha)]
      obtain ⟨x, hx, hx'⟩ := hl
      have := ih ⟨x, by cases hx with
        | head => exact absurd ha hx'
        | tail _ h => exact h, hx'⟩
      rw [this.1]
      exact ⟨rfl, by simpa using this.2⟩
    · rw [if_neg (by simpa using ha), if_neg (by simpa using ha)]
      exact ⟨rfl, by simp⟩

theorem strip_snoc {l : List Nat} (hl : ∃ x ∈ l, x ≠ 48) (hp : ∀ x ∈ l, x ≠ 0) (c : Nat) :
    sysPackage (l ++ [c]) = sysPackage l ++ [c] := by
  obtain ⟨h1, h2⟩ := takeWhile_snoc hl c
  unfold sysPackage
  dsimp only
  rw [h1]
  generalize (l.takeWhile (fun x : Nat => decide (x = 48))).length = z at h2
  have e1 : (l ++ [c]).getD z 0 = l.getD z 0 := by
    rw [List.getD_eq_getElem?_getD, List.getElem?_append_left h2, List.getD_eq_getElem?_getD]
  have e2 : l.getD z 0 ≠ 0 := by
    rw [List.getD_eq_getElem?_getD, List.getElem?_eq_getElem h2]
    exact hp _ (List.getElem_mem h2)
  rw [e1, if_neg e2, List.drop_append_of_le_length (by omega)]

theorem fixed_zero {w n : Nat} (hn : n < 16 ^ w) (h : ∀ x ∈ fixed w n, x = 48) : n = 0 := by
  induction w generalizing n with
  | zero => simpa using hn
  | succ w ih =>
    rw [fixed_snoc] at h
    have h1 := ih (n := n / 16) (by rw [Nat.pow_succ] at hn; exact Nat.div_lt_of_lt_mul (by omega))
      fun x hx => h x (List.mem_append_left _ hx)
    have h2 := h _ (List.mem_append_right _ (List.mem_singleton_self _))
    unfold Num.hexChar at h2
    split at h2 <;> omega

theorem fixed_of_zero (w : Nat) : fixed w 0 = List.replicate w 48 := by
  apply List.eq_replicate_iff.2
  refine ⟨fixed_len _ _, ?_⟩
  intro x hx
  unfold fixed at hx
  rw [List.mem_map] at hx
  obtain ⟨i, _, rfl⟩ := hx
  rw [Nat.zero_div]
  rfl

theorem strip_fixed (w : Nat) : ∀ n, n < 16 ^ (w + 1) → sysPackage (fixed (w + 1) n) = Num.hexMin n := by
  induction w with
  | zero =>
    intro n hn
    rw [fixed_snoc, show fixed 0 (n / 16) = List.replicate 0 48 from rfl, strip_zeros _ _ (hexChar_pos _)]
    rw [Num.hexMin, if_pos (by omega), Nat.mod_eq_of_lt (by omega)]
  | succ w ih =>
    intro n hn
    rw [fixed_snoc]
    by_cases h : n < 16
    · rw [show n / 16 = 0 by omega, fixed_of_zero, strip_zeros _ _ (hexChar_pos _), Num.hexMin, if_pos h, Nat.mod_eq_of_lt h]
    · have hlt : n / 16 < 16 ^ (w + 1) := by rw [Nat.pow_succ] at hn; exact Nat.div_lt_of_lt_mul (by omega)
      rw [strip_snoc, ih _ hlt]
      · conv => rhs; rw [Num.hexMin, if_neg h]
      · apply Decidable.byContradiction
        intro hc
        have : n / 16 = 0 := fixed_zero hlt fun x hx => Decidable.byContradiction fun hx' => hc ⟨x, hx, hx'⟩
        omega
      · exact fun x hx => fixed_pos hx

/-- C69: PACKAGE$ is the hexadecimal numeral of the package bits of the program loaded last, without leading zeros, as `HEX$`
writes it. -/
theorem C69_package {package : Nat} (h : package < 2 ^ 48) : sysPackage (packageStr package) = Num.hexMin package :=
  strip_fixed 11 package h

example : sysPackage (packageStr 0) = [48] := by decide
example : sysPackage (packageStr 0x41000) = [52, 49, 48, 48, 48] := by decide

end Sbc.Files
