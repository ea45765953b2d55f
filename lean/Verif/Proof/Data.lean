import Verif.Proof.Control
import Verif.Proof.Num
import Verif.Spec.Data
set_option autoImplicit false
/-!
# Lemmas about READ
-/
namespace Sbc.Machine
open Sbc Sbc.Tok Sbc.Tok.Spec

variable {σ : Type} {env : Env σ}

theorem Left.congr {p : List Instr} {x y : Exec} {its : List (List Nat)} (h : Left p x its) (h1 : y.dataIndex = x.dataIndex)
    (h2 : y.dataOffset = x.dataOffset) : Left p y its := by
  cases h with
  | finished h => exact .finished (h1.trans h)
  | «from» g1 g2 g3 g4 => exact .from g1 g2 (h1.trans g3) g4
  | within g1 g2 g3 g4 g5 g6 => exact .within g1 g2 g3 (h1.trans g4) (h2.trans g5) g6

theorem block_append (a b : List (List Nat)) : block (a ++ b) = block a ++ block b := List.flatMap_append

theorem block_cons (it : List Nat) (b : List (List Nat)) : block (it :: b) = it ++ 0 :: block b := by
  unfold block
  rw [List.flatMap_cons]
  simp

theorem readOne_str (it r : List Nat) (h0 : 0 ∉ it) (h13 : 13 ∉ it) : readOne (it ++ 0 :: r) true = .ok (some (it.length, .str it)) := by
  have : (it ++ 0 :: r).takeWhile (· ≠ 0) = it := by
    rw [List.takeWhile_append_of_pos (by intro c hc; simp only [ne_eq, decide_not, Bool.not_eq_eq_eq_not, Bool.not_true, decide_eq_false_iff_not]; rintro rfl; exact h0 hc)]
    simp
  unfold readOne
  rw [if_pos rfl]
  simp only [this]
  rw [if_neg (by simpa using h13)]

theorem readOne_str_bad (it r : List Nat) (h0 : 0 ∉ it) (h13 : 13 ∈ it) : readOne (it ++ 0 :: r) true = .ok none := by
  have : (it ++ 0 :: r).takeWhile (· ≠ 0) = it := by
    rw [List.takeWhile_append_of_pos (by intro c hc; simp only [ne_eq, decide_not, Bool.not_eq_eq_eq_not, Bool.not_true, decide_eq_false_iff_not]; rintro rfl; exact h0 hc)]
    simp
  unfold readOne
  rw [if_pos rfl]
  simp only [this]
  rw [if_pos (by simpa using h13)]

theorem numChar_iff (c : Nat) : dataNumChar c = true ↔ NumChar c := by
  unfold dataNumChar NumChar
  simp only [Bool.or_eq_true, Bool.and_eq_true, decide_eq_true_eq, beq_iff_eq]
  tauto

theorem readNumLoop_item (it r acc : List Nat) (n : Nat) (hn : it.length ≤ n) (h : ∀ c ∈ it, NumChar c) :
    readNumLoop n acc (it ++ 0 :: r) = some (acc ++ it) := by
  induction it generalizing n acc with
  | nil =>
    cases n with
    | zero => simp [readNumLoop]
    | succ n =>
      rw [List.nil_append, List.append_nil, readNumLoop]
      rw [if_neg (by decide), if_pos rfl]
  | cons c it ih =>
    cases n with
    | zero => simp at hn
    | succ n =>
      rw [List.cons_append, readNumLoop, if_pos ((numChar_iff c).mpr (h c (by simp)))]
      rw [ih _ _ (by simpa using hn) (fun x hx => h x (by simp [hx]))]
      simp

theorem readNumLoop_bad (it r acc : List Nat) (n : Nat) (h0 : 0 ∉ it) (h : ∃ c ∈ it.take n, ¬ NumChar c) :
    readNumLoop n acc (it ++ 0 :: r) = none := by
  induction it generalizing n acc with
  | nil => simp at h
  | cons c it ih =>
    cases n with
    | zero => simp at h
    | succ n =>
      rw [List.cons_append, readNumLoop]
      by_cases hc : NumChar c
      · rw [if_pos ((numChar_iff c).mpr hc)]
        refine ih _ _ (fun hm => h0 (by simp [hm])) ?_
        obtain ⟨x, hx, hn⟩ := h
        rw [List.take_succ_cons] at hx
        rcases List.mem_cons.mp hx with rfl | hx
        · exact absurd hc hn
        · exact ⟨x, hx, hn⟩
      · rw [if_neg (fun hh => hc ((numChar_iff c).mp hh)), if_neg (by rintro rfl; exact h0 (by simp))]

theorem noBlank (it r : List Nat) (h : it.head? ≠ some 32) : (it ++ 0 :: r).takeWhile (· == 32) = [] := by
  cases it with
  | nil => simp
  | cons c it =>
    rw [List.cons_append, List.takeWhile_cons_of_neg]
    simpa using h

theorem readOne_num (it r : List Nat) {v : Item} (hm : Means false it v) : readOne (it ++ 0 :: r) false = .ok (some (it.length, v)) := by
  cases hm with
  | num h16 hc hi hf =>
    have hb : (it ++ 0 :: r).takeWhile (· == 32) = [] := by
      refine noBlank it r ?_
      cases it with
      | nil => simp
      | cons c it =>
        have := hc c (by simp)
        unfold NumChar at this
        simp only [List.head?_cons, ne_eq, Option.some.injEq]
        omega
    unfold readOne
    rw [if_neg (by decide)]
    simp only [hb, List.length_nil, Nat.sub_zero, List.drop_zero]
    rw [if_neg (by simp), readNumLoop_item it r [] 16 h16 hc]
    simp only [List.nil_append, Nat.zero_min, List.replicate_zero, Nat.zero_add]
    have h256 : ∀ c ∈ it, c < 256 := by
      intro c hx
      have := hc c hx
      unfold NumChar at this
      omega
    have hlt := Num.decVal_lt _ (Num.fracs_digits it)
    have hle : 10 ^ (Num.Spec.fracs it).length ≤ 10 ^ 6 := Nat.pow_le_pow_right (by decide) hf
    rw [Num.strToNumber_eq it h256 hi (by omega) (by omega)]
    simp only [Out.bind]
    rw [wrap32_of_i32 (Num.value_i32 it hi)]

theorem readOne_num_bad (it r : List Nat) (h0 : 0 ∉ it) (h : Illegal false it) : readOne (it ++ 0 :: r) false = .ok none := by
  unfold Illegal at h
  rw [if_neg (by decide)] at h
  unfold readOne
  rw [if_neg (by decide)]
  simp only [noBlank it r h.1, List.length_nil, Nat.sub_zero, List.drop_zero]
  rw [if_neg (by simp), readNumLoop_bad it r [] 16 h0 h.2]

theorem readOne_means (it r : List Nat) {b : Bool} {v : Item} (h0 : 0 ∉ it) (hm : Means b it v) :
    readOne (it ++ 0 :: r) b = .ok (some (it.length, v)) := by
  cases b with
  | true => cases hm with | str h13 => exact readOne_str it r h0 h13
  | false => exact readOne_num it r hm

theorem readOne_illegal (it r : List Nat) {b : Bool} (h0 : 0 ∉ it) (h : Illegal b it) : readOne (it ++ 0 :: r) b = .ok none := by
  cases b with
  | true =>
    unfold Illegal at h
    rw [if_pos rfl] at h
    exact readOne_str_bad it r h0 h
  | false => exact readOne_num_bad it r h0 h

/-- The position of READ in a DATA instruction. -/
structure In (p : List Instr) (x : Exec) (a r : List Instr) (done its : List (List Nat)) : Prop where
  code : x.code = encode p
  split : p = a ++ .text bcData (block (done ++ its)) :: r
  index : x.dataIndex = some (posAfter a)
  ofs : x.dataOffset = (block done).length
  wf : ∀ i ∈ p, i.WF

theorem In.get {p : List Instr} {x : Exec} {a r : List Instr} {done its : List (List Nat)} (h : In p x a r done its) (k : Nat) :
    x.code[posAfter a + k]? = (bcData :: (block (done ++ its)).length :: (padText (block (done ++ its)) ++ encode r))[k]? := by
  rw [h.code, h.split, code_split]
  exact get_at _ _ k

theorem In.size {p : List Instr} {x : Exec} {a r : List Instr} {done its : List (List Nat)} (h : In p x a r done its) :
    byte x.code (posAfter a + 1) = .ok (block (done ++ its)).length := by
  unfold byte
  rw [h.get 1]
  rfl

theorem In.drop {p : List Instr} {x : Exec} {a r : List Instr} {done its : List (List Nat)} (h : In p x a r done its) :
    x.code.drop (posAfter a + 2) = padText (block (done ++ its)) ++ encode r := by
  rw [h.code, h.split, code_split, show posAfter a = (encode a).length from rfl, drop_code]
  rfl

theorem take_padText (s r : List Nat) : (padText s ++ r).take s.length = s := by
  unfold padText
  split
  · rw [List.append_assoc, List.take_left]
  · rw [List.take_left]

theorem In.src {p : List Instr} {x : Exec} {a r : List Instr} {done its : List (List Nat)} (h : In p x a r done its) :
    ((x.code.drop (posAfter a + 2)).take (block (done ++ its)).length).drop x.dataOffset = block its := by
  rw [h.drop, take_padText, block_append, h.ofs, List.drop_left]

theorem In.length {p : List Instr} {x : Exec} {a r : List Instr} {done its : List (List Nat)} (h : In p x a r done its) :
    ¬ (posAfter a + 2 + (block (done ++ its)).length > x.code.length ∨ x.dataOffset > (block (done ++ its)).length) := by
  have h1 := congrArg List.length h.drop
  rw [List.length_drop, List.length_append, Sbc.Tok.Spec.padText_length] at h1
  have h2 : x.code[posAfter a + 1]? ≠ none := by rw [h.get 1]; simp
  rw [ne_eq, List.getElem?_eq_none_iff, Nat.not_le] at h2
  rw [h.ofs, block_append, List.length_append] at *
  omega

/-- The byte after an item is zero. -/
theorem In.zero {p : List Instr} {x : Exec} {a r : List Instr} {done its : List (List Nat)} {it : List Nat} (h : In p x a r done (it :: its)) :
    skipZero x.code (posAfter a + 2) (x.dataOffset + it.length) = x.dataOffset + it.length + 1 := by
  unfold skipZero
  rw [if_pos]
  have h1 : x.code[posAfter a + 2 + (x.dataOffset + it.length)]? = (x.code.drop (posAfter a + 2))[x.dataOffset + it.length]? := by
    rw [List.getElem?_drop]
  rw [h1, h.drop, List.getElem?_append_left, h.ofs]
  · have : (padText (block (done ++ it :: its)))[(block done).length + it.length]? = (block (done ++ it :: its))[(block done).length + it.length]? := by
      unfold padText
      split
      · rw [List.getElem?_append_left]
        rw [block_append, List.length_append, block_cons, List.length_append, List.length_cons]; omega
      · rfl
    rw [this, block_append, get_at, block_cons, show it.length = it.length + 0 from rfl, get_at]
    rfl
  · rw [Sbc.Tok.Spec.padText_length, h.ofs, block_append, List.length_append, block_cons, List.length_append, List.length_cons]
    omega

theorem put_eq (c : Core σ) (p : Ptr) (v : Item) :
    (match v with | .num x => c.store p x | .str s => c.storeStr p s) = c.put p v := by cases v <;> rfl

theorem Items.scan {r : List Instr} {rest : List (List Nat)} (h : Items r rest) :
    match splitAt bcData r with
    | none => rest = []
    | some (c, i, d) => r = c ++ i :: d ∧ ∃ its rest', i = .text bcData (block its) ∧ its ≠ [] ∧ (∀ it ∈ its, 0 ∉ it) ∧ Items d rest' ∧ rest = its ++ rest' := by
  induction h with
  | nil => rfl
  | @data its rest r h1 h2 h3 _ =>
    unfold splitAt
    rw [if_pos (show Instr.op (.text bcData (block its)) = bcData from rfl)]
    exact ⟨rfl, its, rest, rfl, h1, h2, h3, rfl⟩
  | @other i rest r hi h ih =>
    unfold splitAt
    rw [if_neg hi]
    cases hs : splitAt bcData r with
    | none => rw [hs] at ih; exact ih
    | some x =>
      obtain ⟨c, j, d⟩ := x
      rw [hs] at ih
      exact ⟨by rw [ih.1]; rfl, ih.2⟩

/-- Scanning for the next DATA instruction. -/
theorem scan_left {p a r : List Instr} {rest : List (List Nat)} (x : Exec) (hw : ∀ i ∈ p, i.WF) (hp : p = a ++ r) (hc : x.code = encode p)
    (h : Items r rest) : ∃ d, bcScan x.code (posAfter a) bcData = .ok d ∧ Left p { x with dataIndex := d, dataOffset := 0 } rest ∧
      (d = none ∧ rest = [] ∨ ∃ c r' its rest', d = some (posAfter (a ++ c)) ∧ r = c ++ .text bcData (block its) :: r' ∧ its ≠ [] ∧
        (∀ it ∈ its, 0 ∉ it) ∧ Items r' rest' ∧ rest = its ++ rest') := by
  have hs := h.scan
  rw [hc, hp, bcScan_eq a r bcData (fun i hi => hw i (by rw [hp]; simp [hi]))]
  cases hsp : splitAt bcData r with
  | none =>
    rw [hsp] at hs
    dsimp only at hs ⊢
    subst hs
    exact ⟨none, rfl, .finished rfl, Or.inl ⟨rfl, rfl⟩⟩
  | some y =>
    obtain ⟨c, i, d⟩ := y
    rw [hsp] at hs
    obtain ⟨h1, its, rest', h2, h3, h4, h5, h6⟩ := hs
    dsimp only
    subst h2
    refine ⟨some (posAfter (a ++ c)), rfl, ?_, Or.inr ⟨c, d, its, rest', rfl, h1, h3, h4, h5, h6⟩⟩
    rw [h6]
    refine .within (a := a ++ c) (r := d) (done := []) (by rw [h1]; simp) h3 h4 rfl rfl h5

/-- One variable. -/
theorem readVar_item {p : List Instr} {m : Mach σ} {a r : List Instr} {done its rest : List (List Nat)} {it : List Nat} {b : Bool} {q : Ptr} {v : Item}
    (h : In p m.exec a r done (it :: its)) (h0 : ∀ x ∈ it :: its, 0 ∉ x) (hr : Items r rest) (hm : Means b it v) :
    ∃ x, readVar m (.var b false q) = .ok { m with core := m.core.put q v, exec := x } ∧ x.code = m.exec.code ∧ x.index = m.exec.index ∧
      x.main = m.exec.main ∧ x.argc = m.exec.argc ∧ Left p x (its ++ rest) ∧
      (its ++ rest = [] → x.dataIndex = none) ∧
      (its ++ rest ≠ [] → ∃ a' r' done' its' rest', In p x a' r' done' its' ∧ its' ≠ [] ∧ (∀ i ∈ its', 0 ∉ i) ∧ Items r' rest' ∧ its ++ rest = its' ++ rest') := by
  unfold readVar
  rw [h.index]
  dsimp only
  rw [h.size]
  simp only [Out.bind]
  rw [if_neg h.length, h.src, block_cons, readOne_means it _ (h0 it (by simp)) hm]
  simp only [put_eq]
  rw [h.zero]
  have hlen : (block (done ++ it :: its)).length = m.exec.dataOffset + it.length + 1 + (block its).length := by
    rw [h.ofs, block_append, List.length_append, block_cons, List.length_append, List.length_cons]; omega
  have hofs : m.exec.dataOffset + it.length + 1 = (block (done ++ [it])).length := by
    rw [h.ofs, block_append, List.length_append, block_cons, List.length_append, List.length_cons]; rfl
  cases its with
  | cons it2 its =>
    rw [if_neg (by rw [hlen, block_cons, List.length_append, List.length_cons]; omega)]
    have hin : In p { m.exec with dataOffset := m.exec.dataOffset + it.length + 1 } a r (done ++ [it]) (it2 :: its) :=
      ⟨h.code, by rw [h.split]; simp, h.index, hofs, h.wf⟩
    refine ⟨_, rfl, rfl, rfl, rfl, rfl, ?_, by simp, fun _ => ?_⟩
    · refine .within (a := a) (r := r) (done := done ++ [it]) hin.split (by simp) (fun x hx => h0 x (by simp only [List.mem_cons] at hx ⊢; tauto)) h.index hofs hr
    · exact ⟨a, r, done ++ [it], it2 :: its, rest, hin, by simp, fun x hx => h0 x (by simp only [List.mem_cons] at hx ⊢; tauto), hr, rfl⟩
  | nil =>
    rw [if_pos (by rw [hlen]; exact Nat.le_of_eq rfl)]
    unfold findData
    dsimp only
    rw [h.index]
    dsimp only
    have hpos : posAfter a + 2 + (m.exec.dataOffset + it.length + 1) + (m.exec.dataOffset + it.length + 1) % 2 =
        posAfter (a ++ [.text bcData (block (done ++ [it]))]) := by
      rw [posAfter_snoc, hofs]
      show _ = posAfter a + 2 + (padText (block (done ++ [it]))).length
      rw [Sbc.Tok.Spec.padText_length]
      omega
    rw [hpos]
    obtain ⟨d, h1, h2, h3⟩ := scan_left (p := p) (a := a ++ [.text bcData (block (done ++ [it]))]) (r := r) { m.exec with dataOffset := m.exec.dataOffset + it.length + 1 }
      h.wf (by rw [h.split]; simp) h.code hr
    rw [h1]
    refine ⟨_, rfl, rfl, rfl, rfl, rfl, h2, ?_, ?_⟩
    · intro hrest
      rw [List.nil_append] at hrest
      rcases h3 with ⟨rfl, _⟩ | ⟨c, r', its, rest', _, _, hne, _, _, he⟩
      · rfl
      · rw [hrest] at he
        exact absurd (List.append_eq_nil_iff.mp he.symm).1 hne
    · intro hrest
      rw [List.nil_append] at hrest
      rcases h3 with ⟨rfl, he⟩ | ⟨c, r', its, rest', hd, hsp, hne, hz, hi, he⟩
      · exact absurd he hrest
      · subst hd
        exact ⟨_, r', [], its, rest', ⟨h.code, by rw [h.split, hsp]; simp, rfl, rfl, h.wf⟩, hne, hz, hi, by rw [List.nil_append, he]⟩

theorem readVar_illegal {p : List Instr} {m : Mach σ} {a r : List Instr} {done its : List (List Nat)} {it : List Nat} {b : Bool} {q : Ptr}
    (h : In p m.exec a r done (it :: its)) (h0 : 0 ∉ it) (hm : Illegal b it) : readVar m (.var b false q) = .ok (m.fail eReadFailure) := by
  unfold readVar
  rw [h.index]
  dsimp only
  rw [h.size]
  simp only [Out.bind]
  rw [if_neg h.length, h.src, block_cons, readOne_illegal it _ h0 hm]

/-- Something READ has not reached yet. -/
structure Cursor (p : List Instr) (x : Exec) (its : List (List Nat)) : Prop where
  left : Left p x its
  code : x.code = encode p
  wf : ∀ i ∈ p, i.WF
  done : its = [] → x.dataIndex = none
  inside : its ≠ [] → ∃ a r done now rest, In p x a r done now ∧ now ≠ [] ∧ (∀ i ∈ now, 0 ∉ i) ∧ Items r rest ∧ its = now ++ rest

theorem Cursor.next {p : List Instr} {m : Mach σ} {its : List (List Nat)} {it : List Nat} {b : Bool} {q : Ptr} {v : Item}
    (h : Cursor p m.exec (it :: its)) (hm : Means b it v) :
    ∃ x, readVar m (.var b false q) = .ok { m with core := m.core.put q v, exec := x } ∧ x.code = m.exec.code ∧ x.index = m.exec.index ∧
      x.main = m.exec.main ∧ x.argc = m.exec.argc ∧ Cursor p x its := by
  obtain ⟨a, r, done, now, rest, hin, hne, hz, hi, he⟩ := h.inside (by simp)
  cases now with
  | nil => exact absurd rfl hne
  | cons j now =>
    rw [List.cons_append, List.cons.injEq] at he
    obtain ⟨rfl, rfl⟩ := he
    obtain ⟨x, h1, h2, h3, h4, h5, h6, h7, h8⟩ := readVar_item (q := q) hin hz hi hm
    exact ⟨x, h1, h2, h3, h4, h5, h6, by rw [h2]; exact h.code, h.wf, h7, h8⟩

theorem put_error (c : Core σ) (q : Ptr) (v : Item) : (c.put q v).error = c.error := by cases v <;> rfl

/-- The variables are filled one after the other. -/
theorem readVars_items {p : List Instr} {es : List Entry} {now : List (List Nat)} (its : List (List Nat)) (m : Mach σ) {c0 c' : Core σ}
    (ha : Assigned es now c0 c') (h0 : m.core = c0) (he : m.core.error = 0) (h : Cursor p m.exec (now ++ its)) :
    ∃ x, readVars es m = .ok { m with core := c', exec := x } ∧ x.code = m.exec.code ∧ x.index = m.exec.index ∧ x.main = m.exec.main ∧
      x.argc = m.exec.argc ∧ Cursor p x its ∧ c'.error = 0 := by
  induction ha generalizing m with
  | nil => subst h0; exact ⟨m.exec, rfl, rfl, rfl, rfl, rfl, h, he⟩
  | @cons b q it v es now c c' hm ha ih =>
    subst h0
    obtain ⟨x, h1, h2, h3, h4, h5, h6⟩ := h.next (q := q) hm
    have he1 : (m.core.put q v).error = 0 := by rw [put_error, he]
    obtain ⟨y, g1, g2, g3, g4, g5, g6, g7⟩ := ih { m with core := m.core.put q v, exec := x } rfl he1 h6
    refine ⟨y, ?_, g2.trans h2, g3.trans h3, g4.trans h4, g5.trans h5, g6, g7⟩
    rw [readVars, h1]
    simp only [Out.bind]
    rw [if_neg (by rw [he1]; simp), g1]

theorem readVars_append (es fs : List Entry) (m m' : Mach σ) (h : readVars es m = .ok m') (he : m'.core.error = 0) :
    readVars (es ++ fs) m = readVars fs m' := by
  induction es generalizing m with
  | nil => cases h; rfl
  | cons e es ih =>
    rw [readVars] at h
    rw [List.cons_append, readVars]
    obtain ⟨x, h1, h⟩ := bind_inv h
    rw [h1]
    simp only [Out.bind]
    by_cases hx : x.core.error ≠ 0
    · rw [if_pos hx] at h
      cases h
      exact absurd he hx
    · rw [if_neg hx] at h ⊢
      exact ih x h

/-- READ finds the first item. -/
theorem read_start {p : List Instr} {m : Mach σ} {its : List (List Nat)} (hw : ∀ i ∈ p, i.WF) (hc : m.exec.code = encode p)
    (h : Left p m.exec its) :
    if its = [] then ∃ x, cmdReadM m = .ok ({ m with exec := x }.fail eOutOfData) ∧ x.index = m.exec.index ∧ x.dataIndex = none ∧ x.code = m.exec.code
    else ∃ x, cmdReadM m = readVars m.core.stack { m with exec := x } ∧ Cursor p x its ∧ x.code = m.exec.code ∧
      x.index = m.exec.index ∧ x.main = m.exec.main ∧ x.argc = m.exec.argc := by
  cases h with
  | finished h =>
    rw [if_pos rfl]
    refine ⟨m.exec, ?_, rfl, h, rfl⟩
    unfold cmdReadM
    rw [h]
  | @«from» a r i rest hp hi hd hr =>
    have hb : byte m.exec.code (posAfter a) = .ok i.op := by
      unfold byte
      rw [hc, hp, code_split, show posAfter a = (encode a).length + 0 from rfl, get_at]
      rfl
    obtain ⟨d, h1, h2, h3⟩ := scan_left (p := p) (a := a) (r := i :: r) m.exec hw hp hc (.other hi hr)
    have hcmd : cmdReadM m = (match d with
        | none => .ok ({ m with exec := { m.exec with dataIndex := d, dataOffset := 0 } }.fail eOutOfData)
        | some _ => readVars m.core.stack { m with exec := { m.exec with dataIndex := d, dataOffset := 0 } }) := by
      unfold cmdReadM
      rw [hd]
      dsimp only
      rw [hb]
      show (if i.op = bcData then _ else _) = _
      rw [if_neg hi]
      refine (congrArg (fun z => Out.bind z _) h1).trans ?_
      cases d <;> rfl
    rcases h3 with ⟨rfl, rfl⟩ | ⟨c, r', now, rest', rfl, hsp, hne, hz, hi', he⟩
    · rw [if_pos rfl]
      exact ⟨_, hcmd, rfl, rfl, rfl⟩
    · rw [if_neg (by rw [he]; simp [hne])]
      refine ⟨_, hcmd, ⟨h2, hc, hw, ?_, ?_⟩, rfl, rfl, rfl, rfl⟩
      · intro h; rw [h] at he; exact absurd (List.append_eq_nil_iff.mp he.symm).1 hne
      · intro _
        exact ⟨a ++ c, r', [], now, rest', ⟨hc, by rw [hp, hsp]; simp, rfl, rfl, hw⟩, hne, hz, hi', he⟩
  | @within a r done now rest hp hne hz hd ho hr =>
    rw [if_neg (by simp [hne])]
    have hin : In p m.exec a r done now := ⟨hc, hp, hd, ho, hw⟩
    refine ⟨m.exec, ?_, ⟨.within hp hne hz hd ho hr, hc, hw, ?_, fun _ => ⟨a, r, done, now, rest, hin, hne, hz, hr, rfl⟩⟩, rfl, rfl, rfl, rfl⟩
    · unfold cmdReadM
      rw [hd]
      dsimp only
      have hb : byte m.exec.code (posAfter a) = .ok bcData := by
        have := hin.get 0
        unfold byte
        rw [Nat.add_zero] at this
        rw [this]
        rfl
      rw [hb]
      simp only [Out.bind]
      rw [if_pos trivial]
    · intro h; exact absurd (List.append_eq_nil_iff.mp h).1 hne

/-- READ, as a step. -/
theorem step_read {m : Mach σ} {a b : List Instr} {j : Instr} (hj : isCmd cmdRead j) (h : At m a (j :: b)) :
    step env m = (cmdReadM (m.skip 2)).bind fun x => .ok { x with core := { x.core with stack := [] }, exec := { x.exec with argc := 0 } } := by
  rw [h.step]
  have hop : j.op ≠ bcArgcount := by rcases hj with rfl | rfl <;> simp [Instr.op, bcCommand, bcCommandFirst, bcArgcount]
  have : execInstr env j.op (arg j) (m.skip 2) = (cmdReadM (m.skip 2)).bind fun m' => .ok { m' with core := { m'.core with stack := [] } } := by
    rcases hj with rfl | rfl <;> rfl
  rw [this]
  cases cmdReadM (m.skip 2) with
  | ok x => show Out.ok (clearArgc j.op _) = _; rw [clearArgc_ne hop]; rfl
  | err e => rfl
  | ub => rfl

/-- RESTORE, as a step. -/
theorem step_restore {m : Mach σ} {a b : List Instr} {j : Instr} (hj : isCmd cmdRestore j) (h : At m a (j :: b)) :
    step env m = (cmdRestoreM (m.skip 2)).bind fun x => .ok { x with core := { x.core with stack := [] }, exec := { x.exec with argc := 0 } } := by
  rw [h.step]
  have hop : j.op ≠ bcArgcount := by rcases hj with rfl | rfl <;> simp [Instr.op, bcCommand, bcCommandFirst, bcArgcount]
  have : execInstr env j.op (arg j) (m.skip 2) = (cmdRestoreM (m.skip 2)).bind fun m' => .ok { m' with core := { m'.core with stack := [] } } := by
    rcases hj with rfl | rfl <;> rfl
  rw [this]
  cases cmdRestoreM (m.skip 2) with
  | ok x => show Out.ok (clearArgc j.op _) = _; rw [clearArgc_ne hop]; rfl
  | err e => rfl
  | ub => rfl

end Sbc.Machine
