import Verif.Props.FileAccess
set_option autoImplicit false
/-!
# C67: program files with packages
-/
namespace Sbc.Files
open Sbc Sbc.Strs Sbc.Res

/-- The resources a program file can carry, in the order of their bits (the order of Petit Computer's package string): kind,
bank, screen. -/
def packed : List (Kind × Nat × Nat) :=
  (List.range 8).map (fun b => (.spu, b, 85)) ++ (List.range 4).map (fun b => (.bgu, b, 85)) ++ [(.bgf, 0, 85)] ++
  (List.range 3).map (fun b => (.col, b, 85)) ++ (List.range 2).map (fun b => (.scu, b, 85)) ++
  (List.range 4).map (fun b => (.grp, b, 0)) ++ [(.mem, 0, 0)] ++ (List.range 4).map (fun b => (.spd, b, 76)) ++
  (List.range 4).map (fun b => (.bgu, b, 76)) ++ [(.bgf, 0, 76)] ++ (List.range 3).map (fun b => (.col, b, 76)) ++
  (List.range 2).map (fun b => (.scu, b, 76)) ++ (List.range 2).map (fun b => (.sps, b, 85)) ++
  (List.range 2).map (fun b => (.bgd, b, 85)) ++ (List.range 2).map (fun b => (.sps, b, 76)) ++
  (List.range 2).map (fun b => (.bgd, b, 76))

/-- Every one of them exists, and no two are the same. -/
theorem packed_ok : (∀ r ∈ packed, r.1.Has r.2.1 r.2.2) ∧ packed.Nodup := by decide

/-- The part of a program file after the text: type and data of every resource whose bit is set. -/
def packData (package : Nat) (data : Nat → List Nat) : List (Kind × Nat × Nat) → Nat → List Nat
  | [], _ => []
  | r :: rs, i =>
    (if package / 2 ^ i % 2 = 0 then [] else typeStr r.1.ty ++ data i) ++ packData package data rs (i + 1)

/-- A program file: start, package bits, size, text, padding to four bytes, packed resources, anything. -/
def programFile (h : List Nat) (package : Nat) (text : List Nat) (data : Nat → List Nat) (rest : List Nat) : List Nat :=
  h ++ (le32 (package / 2 ^ 32) ++ (le32 (package % 2 ^ 32) ++ (le32 text.length ++ (text ++
    (List.replicate ((4 - text.length % 4) % 4) 0 ++ (packData package data packed 0 ++ rest))))))

def locOf3 (r : Kind × Nat × Nat) : Loc := locOf r.1 r.2.1 r.2.2

/-- Resolution of the names in the table. -/
theorem pack_names_map (pg : Pages) : packageNames.map (fun t => verifiedType pg ⟨false, t⟩) =
    (packageNames.zip packed).map (fun x => .ok ⟨x.1, [], x.2.1.ty, locOf3 x.2⟩) := rfl

theorem zip_get {i : Nat} (hi : i < 45) :
    (packageNames.zip packed)[i]? = some (packageNames.getD i [], packed.getD i (.prg, 0, 0)) := by
  have h1 : i < packageNames.length := hi
  have h2 : i < packed.length := hi
  have e1 : packageNames[i]? = some (packageNames.getD i []) := by
    rw [List.getD_eq_getElem?_getD, List.getElem?_eq_getElem h1]; rfl
  have e2 : packed[i]? = some (packed.getD i (.prg, 0, 0)) := by
    rw [List.getD_eq_getElem?_getD, List.getElem?_eq_getElem h2]; rfl
  rw [List.getElem?_zip_eq_some]
  exact ⟨e1, e2⟩

theorem names_get {i : Nat} (hi : i < 45) : packageNames[i]? = some (packageNames.getD i []) := by
  have h1 : i < packageNames.length := hi
  rw [List.getD_eq_getElem?_getD, List.getElem?_eq_getElem h1]
  rfl

theorem pack_names {i : Nat} (hi : i < 45) (pg : Pages) : verifiedType pg ⟨false, packageNames.getD i []⟩ =
      .ok ⟨packageNames.getD i [], [], (packed.getD i (.prg, 0, 0)).1.ty, locOf3 (packed.getD i (.prg, 0, 0))⟩ := by
  have h := congrArg (fun l => l[i]?) (pack_names_map pg)
  simp only [List.getElem?_map, zip_get hi, names_get hi, Option.map] at h
  injection h

/-- The flags for the names in the table. -/
theorem pack_refresh_map (pg : Pages) (b : Bank) :
    (packageNames.zip packed).map (fun x => refresh pg b x.2.1.ty x.1) =
    (packageNames.zip packed).map (fun x => match x.2.1.ty with
      | .chr => .ok { b with regenChr := fun j => if j = (locOf3 x.2).idx then true else b.regenChr j }
      | .col => .ok { b with regenCol := true }
      | _ => .ok b) := rfl

theorem pack_refresh {i : Nat} (hi : i < 45) (pg : Pages) (b : Bank) :
    ∃ b', refresh pg b (packed.getD i (.prg, 0, 0)).1.ty (packageNames.getD i []) = .ok b' ∧ b'.bytes = b.bytes := by
  have h := congrArg (fun l => l[i]?) (pack_refresh_map pg b)
  simp only [List.getElem?_map, zip_get hi, Option.map] at h
  injection h with h
  rw [h]
  generalize (packed.getD i (.prg, 0, 0)).1.ty = ty
  cases ty <;> exact ⟨_, rfl, rfl⟩

theorem pack_locs : ∀ i j : Fin 45, locOf3 (packed.getD i.1 (.prg, 0, 0)) = locOf3 (packed.getD j.1 (.prg, 0, 0)) → i = j := by
  decide +kernel

theorem pack_prg : ∀ i : Fin 45, (packed.getD i.1 (.prg, 0, 0)).1.ty ≠ .prg ∧ locOf3 (packed.getD i.1 (.prg, 0, 0)) ≠ .prg := by
  decide +kernel

/-- The loop over the resources. -/
theorem packLoop_ok (pg : Pages) (package : Nat) (data : Nat → List Nat)
    (hd : ∀ i : Nat, i < 45 → (data i).length = Ty.size (packed.getD i (.prg, 0, 0)).1.ty) (rest : List Nat) :
    ∀ (n i : Nat) (pre : List Nat) (b : Bank), i + n = 45 →
      ∃ b', packLoop pg (pre ++ (packData package data (packed.drop i) i ++ rest)) package (packageNames.drop i) i pre.length b =
          .ok (b', true) ∧
        (∀ j : Nat, i ≤ j → j < 45 → package / 2 ^ j % 2 = 1 → ∀ k : Nat, k < (data j).length →
          b'.bytes (locOf3 (packed.getD j (.prg, 0, 0))) k = (data j).getD k 0) ∧
        (∀ l k, (∀ j : Nat, i ≤ j → j < 45 → package / 2 ^ j % 2 = 1 →
          ¬ (l = locOf3 (packed.getD j (.prg, 0, 0)) ∧ k < (data j).length)) → b'.bytes l k = b.bytes l k) := by
  intro n
  induction n with
  | zero =>
    intro i pre b hi
    obtain rfl : i = 45 := by omega
    refine ⟨b, rfl, ?_, fun _ _ _ => rfl⟩
    intro j h1 h2
    omega
  | succ n ih =>
    intro i pre b hi
    have hi45 : i < 45 := by omega
    have hpd : packed.drop i = packed.getD i (.prg, 0, 0) :: packed.drop (i + 1) := by
      have hl : i < packed.length := hi45
      rw [List.drop_eq_getElem_cons hl, List.getD_eq_getElem?_getD, List.getElem?_eq_getElem hl]; rfl
    have hnd : packageNames.drop i = packageNames.getD i [] :: packageNames.drop (i + 1) := by
      have hl : i < packageNames.length := hi45
      rw [List.drop_eq_getElem_cons hl, List.getD_eq_getElem?_getD, List.getElem?_eq_getElem hl]; rfl
    rw [hpd, hnd]
    by_cases hbit : package / 2 ^ i % 2 = 0
    · obtain ⟨b', e1, e2, e3⟩ := ih (i + 1) pre b (by omega)
      refine ⟨b', ?_, ?_, ?_⟩
      · unfold packLoop packData
        rw [if_pos hbit, if_pos hbit, List.nil_append]
        exact e1
      · intro j h1 h2 h3
        by_cases hj : j = i
        · subst hj; omega
        · exact e2 j (by omega) h2 h3
      · intro l k h
        exact e3 l k fun j h1 h2 h3 => h j (by omega) h2 h3
    · have hbit1 : package / 2 ^ i % 2 = 1 := by omega
      have hdi := hd i hi45
      have hname := pack_names hi45 pg
      generalize hr : packed.getD i (.prg, 0, 0) = r at *
      let b1 := b.write (locOf3 r) 0 (data i)
      obtain ⟨b2, f1, f2⟩ := pack_refresh hi45 pg b1
      rw [hr] at f1
      obtain ⟨b', e1, e2, e3⟩ := ih (i + 1) (pre ++ typeStr r.1.ty ++ data i) b2 (by omega)
      refine ⟨b', ?_, ?_, ?_⟩
      · unfold packLoop packData
        rw [if_neg hbit, if_neg hbit, hname]
        simp only [Out.bind]
        have hf : pre ++ (typeStr r.1.ty ++ data i ++ packData package data (packed.drop (i + 1)) (i + 1) ++ rest) =
            pre ++ (typeStr r.1.ty ++ (data i ++ (packData package data (packed.drop (i + 1)) (i + 1) ++ rest))) := by
          simp
        rw [hf]
        have hd1 : (pre ++ (typeStr r.1.ty ++ (data i ++ (packData package data (packed.drop (i + 1)) (i + 1) ++ rest)))).drop pre.length =
            typeStr r.1.ty ++ (data i ++ (packData package data (packed.drop (i + 1)) (i + 1) ++ rest)) := List.drop_left' rfl
        have hd2 : (pre ++ (typeStr r.1.ty ++ (data i ++ (packData package data (packed.drop (i + 1)) (i + 1) ++ rest)))).drop (pre.length + 12) =
            data i ++ (packData package data (packed.drop (i + 1)) (i + 1) ++ rest) := by
          rw [← List.drop_drop, hd1]
          exact List.drop_left' (typeStr_len _)
        have ht1 : (typeStr r.1.ty ++ (data i ++ (packData package data (packed.drop (i + 1)) (i + 1) ++ rest))).take 12 =
            typeStr r.1.ty := List.take_left' (typeStr_len _)
        rw [hd1, ht1, if_neg (by simp [typeStr_len]), if_neg (by simp)]
        unfold readInto
        dsimp only
        rw [hd2, ← hdi, List.take_left' rfl, if_neg (by simp), f1]
        simp only [Out.bind]
        have hl : (pre ++ typeStr r.1.ty ++ data i).length = pre.length + 12 + (data i).length := by simp [typeStr_len]; omega
        rw [hl] at e1
        rw [← e1]
        congr 1
        simp
      · intro j h1 h2 h3 k hk
        by_cases hj : j = i
        · subst hj
          rw [hr]
          rw [e3]
          · rw [f2, write_at, if_pos ⟨rfl, by omega, by omega⟩]; rfl
          · rintro j' g1 g2 g3 ⟨g4, _⟩
            have := pack_locs ⟨j, hi45⟩ ⟨j', g2⟩ (by simp only [hr]; exact g4)
            injection this
            omega
        · exact e2 j (by omega) h2 h3 k hk
      · intro l k h
        rw [e3 l k fun j h1 h2 h3 => h j (by omega) h2 h3, f2, write_at, if_neg]
        rintro ⟨g1, _, g2⟩
        exact h i (Nat.le_refl _) hi45 hbit1 ⟨by rw [hr]; exact g1, by omega⟩

/-- C67: loading a well-formed program file gives the program the text of the file, every packed resource its data, leaves every
other resource as it was, sets PACKAGE$ and succeeds (unless the text is empty). -/
theorem C67_program (pg : Pages) (st : St) {h : List Nat} (hh : Head h) {package : Nat} (hp : package < 2 ^ 45) (text rest : List Nat)
    (ht : text.length ≤ maxSource) (data : Nat → List Nat)
    (hd : ∀ i : Nat, i < 45 → (data i).length = Ty.size (packed.getD i (.prg, 0, 0)).1.ty) :
    ∃ st', loadProgram pg st (programFile h package text data rest) = .ok (st', text.length) ∧ st'.prgSize = text.length ∧
      (∀ k : Nat, k < text.length → st'.bank.bytes .prg k = text.getD k 0) ∧
      (∀ i : Nat, i < 45 → package / 2 ^ i % 2 = 1 → ∀ k : Nat, k < (data i).length →
        st'.bank.bytes (locOf3 (packed.getD i (.prg, 0, 0))) k = (data i).getD k 0) ∧
      (∀ l k, ¬ (l = .prg ∧ k < text.length) → (∀ i : Nat, i < 45 → package / 2 ^ i % 2 = 1 →
          ¬ (l = locOf3 (packed.getD i (.prg, 0, 0)) ∧ k < (data i).length)) → st'.bank.bytes l k = st.bank.bytes l k) ∧
      sysPackage st'.package = Num.hexMin package := by
  have hhl := hh.take4 (le32 (package / 2 ^ 32) ++ (le32 (package % 2 ^ 32) ++ (le32 text.length ++ (text ++
    (List.replicate ((4 - text.length % 4) % 4) 0 ++ (packData package data packed 0 ++ rest))))))
  let pre := h ++ le32 (package / 2 ^ 32) ++ le32 (package % 2 ^ 32) ++ le32 text.length ++ text ++
    List.replicate ((4 - text.length % 4) % 4) 0
  have hfile : programFile h package text data rest = pre ++ (packData package data packed 0 ++ rest) := by
    simp [programFile, pre]
  have hprel : pre.length = h.length + 12 + text.length + (4 - text.length % 4) % 4 := by simp [pre, le32]; omega
  have hmax : text.length < 2 ^ 32 := by unfold maxSource at ht; omega
  obtain ⟨b', e1, e2, e3⟩ := packLoop_ok pg package data hd rest 45 0 pre (st.bank.write .prg 0 text) rfl
  have hp0 : ∀ i : Nat, i < 45 → locOf3 (packed.getD i (.prg, 0, 0)) ≠ .prg := fun i hi => (pack_prg ⟨i, hi⟩).2
  refine ⟨{ st with bank := b', prgSize := text.length, package := packageStr package }, ?_, rfl, ?_, ?_, ?_, ?_⟩
  · unfold loadProgram
    dsimp only
    rw [show (if (programFile h package text data rest).take 4 = [80, 88, 48, 49] then some 48
      else if (programFile h package text data rest).take 4 = [80, 69, 84, 67] then some 12 else none) = some h.length by
        unfold programFile
        rcases hhl with ⟨e1, e2⟩ | ⟨e1, e2⟩
        · rw [e1, e2, if_neg (by decide), if_pos rfl]
        · rw [e1, e2, if_pos rfl]]
    simp only
    rw [if_neg (by rw [hfile, List.length_append, hprel]; omega)]
    have g1 : u32At (programFile h package text data rest) h.length = package / 2 ^ 32 := by
      unfold programFile
      rw [u32At_drop, List.drop_left' rfl]
      exact le32_u32 (by omega) _
    have g2 : u32At (programFile h package text data rest) (h.length + 4) = package % 2 ^ 32 := by
      unfold programFile
      rw [u32At_drop, ← List.append_assoc, List.drop_left' (by simp [le32])]
      exact le32_u32 (by omega) _
    have g3 : u32At (programFile h package text data rest) (h.length + 8) = text.length := by
      unfold programFile
      rw [u32At_drop, ← List.append_assoc, ← List.append_assoc, List.drop_left' (by simp [le32])]
      exact le32_u32 hmax _
    have g4 : ((programFile h package text data rest).drop (h.length + 12)).take text.length = text := by
      unfold programFile
      rw [← List.append_assoc, ← List.append_assoc, ← List.append_assoc, List.drop_left' (by simp [le32])]
      exact List.take_left' rfl
    rw [g1, g2, g3, g4, if_neg (by omega), if_neg (by omega)]
    rw [show package / 2 ^ 32 * 2 ^ 32 + package % 2 ^ 32 = package by omega, ← hprel, hfile]
    rw [show packData package data packed 0 = packData package data (packed.drop 0) 0 from rfl,
      show packageNames = packageNames.drop 0 from rfl, e1]
    rfl
  · intro k hk
    show b'.bytes _ _ = _
    rw [e3 .prg k fun j h1 h2 h3 h4 => hp0 j h2 h4.1.symm, write_at, if_pos ⟨rfl, by omega, by omega⟩]
    rfl
  · exact fun i hi hb k hk => e2 i (Nat.zero_le _) hi hb k hk
  · intro l k h1 h2
    show b'.bytes _ _ = _
    rw [e3 l k fun j g1 g2 g3 => h2 j g2 g3, write_at, if_neg]
    rintro ⟨g1, _, g2⟩
    exact h1 ⟨g1, by omega⟩
  · exact C69_package (by omega)

/-- C67 fails for files whose text exceeds the program memory: the size in the file is not checked, and the text is read past
the end of the memory. -/
theorem C67_size_violated (pg : Pages) (st : St) {h : List Nat} (hh : Head h) (text : List Nat) (ht : maxSource < text.length)
    (hm : text.length < 2 ^ 32) : loadProgram pg st (header h text.length ++ text) = .ub := by
  have hd : (header h text.length ++ text).drop (h.length + 12) = text := by
    unfold header le32
    exact List.drop_left' (by simp)
  have hu : u32At (header h text.length ++ text) (h.length + 8) = text.length := by
    rw [u32At_drop, show (header h text.length ++ text).drop (h.length + 8) = le32 text.length ++ text by
      unfold header
      rw [List.append_assoc]
      exact List.drop_left' (by simp)]
    exact le32_u32 hm _
  have hlen : (header h text.length ++ text).length = h.length + 12 + text.length := by simp [header, le32]; omega
  unfold loadProgram
  dsimp only
  have ht' : header h text.length ++ text = h ++ (List.replicate 8 0 ++ le32 text.length ++ text) := by simp [header]
  rw [show (if (header h text.length ++ text).take 4 = [80, 88, 48, 49] then some 48
    else if (header h text.length ++ text).take 4 = [80, 69, 84, 67] then some 12 else none) = some h.length by
      rw [ht']
      rcases hh.take4 (List.replicate 8 0 ++ le32 text.length ++ text) with ⟨e1, e2⟩ | ⟨e1, e2⟩
      · rw [e1, e2, if_neg (by decide), if_pos rfl]
      · rw [e1, e2, if_pos rfl]]
  simp only
  rw [if_neg (by rw [hlen]; omega), hu, hd, List.take_of_length_le (by omega), if_pos ht]

example : Head (typeStr .prg) := Or.inl rfl
example : packed.getD 13 (.prg, 0, 0) = (.col, 0, 85) := rfl
example : packed.getD 44 (.prg, 0, 0) = (.bgd, 1, 76) := rfl

end Sbc.Files
