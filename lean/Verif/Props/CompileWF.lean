import Verif.Proof.CompileFit
import Verif.Props.Compile
import Verif.Props.Code
import Verif.Spec.Control
set_option autoImplicit false
/-!
# C35 for whole programs: every source text compiles to well-formed code with labels at instructions
-/
namespace Sbc.Tok.Spec
open Sbc Sbc.Tok Sbc.Machine

theorem dataLoop_le : ∀ (s : DataSt) (l : List Nat), (dataLoop s l).length ≤ l.length
  | _, [] => by simp [dataLoop]
  | s, c :: l => by
    unfold dataLoop
    have := dataLoop_le (dataStep s c).1 l
    split
    · simp only [List.length_cons]; omega
    · simp only [List.length_cons]; omega

theorem made_fits {a u : List Nat} {t : Tk} (h13 : 13 ∉ a) (hs : ShortWords a) (hu : u <:+ a ++ [13]) (hm : Made u t) : tokFits t := by
  unfold Made at hm
  unfold tokFits
  cases ht : t.ty with
  | name =>
    rw [ht] at hm
    obtain ⟨-, ⟨c, r, e, hc⟩, hv, v, hv'⟩ := hm
    refine ⟨?_, c, r, e, ?_⟩
    · obtain ⟨x, hx⟩ := hu
      -- the word lies inside the line
      have hx' : a ++ [13] = x ++ (t.text ++ v) := by rw [hv', hx]
      have hve : v ≠ [] := by
        rintro rfl
        rw [List.append_nil] at hx'
        have hm : (13 : Nat) ∈ t.text := by
          have h1 := congrArg List.getLast? hx'
          rw [List.getLast?_append, List.getLast?_append, e] at h1
          simp only [List.getLast?_singleton, Option.some_or, List.getLast?_cons_cons] at h1
          have h2 : t.text.getLast? = some 13 := by
            rw [e]
            cases hl : (c :: r).getLast? with
            | none => simp at hl
            | some y => rw [hl] at h1; simpa using h1.symm
          exact List.mem_of_getLast? h2
        have := hv 13 hm
        revert this; decide
      obtain ⟨v', z, rfl⟩ : ∃ v' z, v = v' ++ [z] := ⟨v.dropLast, v.getLast hve, (List.dropLast_append_getLast hve).symm⟩
      have : a ++ [13] = (x ++ (t.text ++ v')) ++ [z] := by rw [hx']; simp
      have ha : a = x ++ (t.text ++ v') := (List.append_inj' this rfl).1
      exact hs x t.text v' ha hv
    · simp only [isNameStart, isUpper, isLower, Bool.or_eq_true, Bool.and_eq_true, decide_eq_true_eq, beq_iff_eq] at hc
      omega
  | command =>
    rw [ht] at hm
    exact fun e => Nat.le_trans (dataLoop_le _ _) (hm e)
  | label =>
    rw [ht] at hm
    exact Nat.le_trans hm.2.1 (by omega)
  | string => rw [ht] at hm; exact hm
  | arrayName => rw [ht] at hm; exact hm.elim
  | arrayActual => rw [ht] at hm; exact hm.elim
  | dimArr => rw [ht] at hm; exact hm.elim
  | firstCommand => rw [ht] at hm; exact hm.elim
  | labelString => rw [ht] at hm; exact hm.elim
  | number => trivial
  | operation => trivial
  | function => trivial
  | comment => trivial
  | newline => trivial
  | argCount => trivial
  | loopBegin => trivial
  | sysvar => trivial
  | baseNumber => trivial

theorem lineScan_fits {a : List Nat} {toks : List Tk} (h : lineScan a = .ok (.ok toks)) (hc : Contained a) (hs : ShortWords a) :
    ∀ t ∈ toks, tokFits t := by
  intro t ht
  rcases scan_made _ _ _ h (by have := hc.len; simp; omega) t ht with h' | ⟨u, hu, hm⟩
  · cases h'
  · exact made_fits hc.noEnd hs hu hm

/-- The labels in the table point at instructions. -/
def EntriesOk (p : List Instr) (t : Labels.Table) : Prop :=
  0 < t.count ∧ ∀ j < t.count, Labels.unused (t.entry j) = false → Boundary p (t.entry j).index

theorem boundary_append {p q : List Instr} {i : Nat} (h : Boundary p i) : Boundary (p ++ q) i := by
  obtain ⟨a, b, e, hi⟩ := h
  exact ⟨a, b ++ q, by rw [e, List.append_assoc], hi⟩

theorem entries_append {p q : List Instr} {t : Labels.Table} (h : EntriesOk p t) : EntriesOk (p ++ q) t :=
  ⟨h.1, fun j hj hu => boundary_append (h.2 j hj hu)⟩

theorem findLoop_spec (t : Labels.Table) (name : List Nat) (hc : 0 < t.count) : ∀ (fuel hash step i : Nat),
    Labels.findLoop t name fuel hash step = some i → i < t.count ∧ Labels.unused (t.entry i) = false
  | 0, _, _, _, h => by cases h
  | fuel + 1, hash, step, i, h => by
    unfold Labels.findLoop at h
    dsimp only at h
    split at h
    · cases h
    · rename_i hu
      split at h
      · cases h
      · split at h
        · cases h
          exact ⟨Nat.mod_lt _ hc, by simpa using hu⟩
        · exact findLoop_spec t name hc fuel _ _ i h

theorem entries_labels {p : List Instr} {t : Labels.Table} (h : EntriesOk p t) : LabelsOk p t := by
  intro name i hi
  unfold Labels.labelIndex at hi
  cases hf : Labels.find t name with
  | none => rw [hf] at hi; cases hi
  | some j =>
    rw [hf] at hi
    cases hi
    obtain ⟨h1, h2⟩ := findLoop_spec t name h.1 _ _ _ j hf
    exact h.2 j h1 h2

theorem entries_add {p : List Instr} {t : Labels.Table} (h : EntriesOk p t) (name : List Nat) {i : Nat} (hi : Boundary p i) :
    EntriesOk p (Labels.add t name i).1 := by
  unfold Labels.add
  split
  · exact h
  · rename_i k hk
    refine ⟨h.1, fun j hj hu => ?_⟩
    dsimp only at hj hu ⊢
    split
    · exact hi
    · rename_i hne
      rw [if_neg hne] at hu
      exact h.2 j hj hu

/-- The invariant of the compiler between two lines. -/
structure ObjOk (p : List Instr) (o : Obj) : Prop where
  buf : o.buf = encode p
  wf : ∀ i ∈ p, i.WF
  labels : EntriesOk p o.labels

theorem ObjOk.even {p : List Instr} {o : Obj} (h : ObjOk p o) : o.buf.length % 2 = 0 := by rw [h.buf]; exact encode_even p

theorem error_ok {p : List Instr} {o : Obj} (h : ObjOk p o) (e : Nat) : ObjOk (p ++ [.simple bcError e]) (o.error e) := by
  refine ⟨?_, ?_, entries_append h.labels⟩
  · show o.buf ++ [bcError, e] = _
    rw [h.buf, encode_append]; rfl
  · intro i hi
    rcases List.mem_append.mp hi with hi | hi
    · exact h.wf i hi
    · rw [List.mem_singleton] at hi; rw [hi]; exact simple_WF _ _ (by decide)

theorem convertCode_ok {p : List Instr} {o : Obj} (h : ObjOk p o) {ids : Bool} {pre : Tk} {toks : List Tk} (hf : ∀ t ∈ toks, tokFits t)
    {r : Obj × Option Nat} (he : convertCode ids pre toks o = .ok r) : ∃ q, ObjOk (p ++ q) r.1 := by
  unfold convertCode at he
  obtain ⟨ks, hks, he⟩ := bind_inv he
  obtain ⟨e, h1, he⟩ := bind_inv he
  obtain ⟨hadj, hfit⟩ := tokPrio_inv pre hf
  have hk := tokEval_fits hfit hadj hks
  split at he
  · cases he
    exact ⟨[], by simpa using h⟩
  · obtain ⟨⟨b', v', c⟩, h2, he⟩ := bind_inv he
    obtain ⟨js, vs, -, -, w, -, hb, -⟩ := C35_line_partial ids ks o.buf b' o.vars v' c h.even hk h2
    have key : ∀ o' : Obj, o'.buf = b' → o'.labels = o.labels → ObjOk (p ++ (js ++ vs)) o' := by
      intro o' e1 e2
      refine ⟨by rw [e1, hb, h.buf, encode_append p], ?_, by rw [e2]; exact entries_append h.labels⟩
      intro i hi
      rcases List.mem_append.mp hi with hi | hi
      · exact h.wf i hi
      · exact (w i hi).1
    cases c with
    | some c => cases he; exact ⟨_, key _ rfl rfl⟩
    | none =>
      simp only at he
      split at he
      · cases he; exact ⟨_, key _ rfl rfl⟩
      · cases he

theorem tokConvert_ok {p : List Instr} {o : Obj} (h : ObjOk p o) {opts : Opts} {pre : Tk} {toks : List Tk} (hf : ∀ t ∈ toks, tokFits t)
    {r : Obj × Option Nat} (he : tokConvert opts pre toks o = .ok r) : ∃ q, ObjOk (p ++ q) r.1 := by
  unfold tokConvert at he
  split at he
  · cases he
  · rename_i t ts
    split at he
    · dsimp only at he
      have hb : Boundary p o.buf.length := ⟨p, [], by simp, by rw [h.buf]; rfl⟩
      have h' : ObjOk p { o with labels := (Labels.add o.labels t.text o.buf.length).1 } :=
        ⟨h.buf, h.wf, entries_add h.labels _ hb⟩
      split at he
      · cases he; exact ⟨[], by simpa using h⟩
      · split at he
        · cases he; exact ⟨[], by simpa using h'⟩
        · exact convertCode_ok h' hf he
    · exact convertCode_ok h hf he

theorem lineEffect_ok {p : List Instr} {o : Obj} (h : ObjOk p o) {opts : Opts} {pre : Tk} {x : Except Nat (List Tk)}
    (hf : ∀ toks, x = .ok toks → ∀ t ∈ toks, tokFits t) {r : Obj × Option Nat} (he : lineEffect opts pre x o = .ok r) :
    ∃ q, ObjOk (p ++ q) r.1 := by
  unfold lineEffect at he
  cases x with
  | error e =>
    dsimp only at he
    split at he
    · cases he; exact ⟨[], by simpa using h⟩
    · cases he; exact ⟨_, error_ok h e⟩
  | ok toks =>
    dsimp only at he
    obtain ⟨y, hy, he⟩ := bind_inv he
    obtain ⟨q, hq⟩ := tokConvert_ok h (hf toks rfl) hy
    split at he
    · cases he; exact ⟨q, hq⟩
    · rename_i e _
      split at he
      · cases he; exact ⟨q, hq⟩
      · cases he
        exact ⟨q ++ [.simple bcError e], by rw [← List.append_assoc]; exact error_ok hq e⟩

theorem compileLines_ok (opts : Opts) (pre : Tk) : ∀ (ls : List (List Nat)), (∀ a ∈ ls, Contained a ∧ ShortWords a) →
    ∀ {p : List Instr} {o : Obj} {r : Obj × Option Nat}, ObjOk p o → compileLines opts pre ls o = .ok r → ∃ q, ObjOk (p ++ q) r.1
  | [], _, p, o, r, h, he => by cases he; exact ⟨[], by simpa using h⟩
  | a :: ls, hl, p, o, r, h, he => by
    unfold compileLines at he
    obtain ⟨x, hx, he⟩ := bind_inv he
    obtain ⟨y, hy, he⟩ := bind_inv he
    obtain ⟨q, hq⟩ := lineEffect_ok h (fun toks e t ht => lineScan_fits (e ▸ hx) (hl a (by simp)).1 (hl a (by simp)).2 t ht) hy
    split at he
    · cases he; exact ⟨q, hq⟩
    · obtain ⟨q', hq'⟩ := compileLines_ok opts pre ls (fun b hb => hl b (List.mem_cons_of_mem _ hb)) hq he
      exact ⟨q ++ q', by rw [← List.append_assoc]; exact hq'⟩

theorem unused_reset {n : Nat} {t : Labels.Table} (ht : TableFrom n t) : EntriesOk [] (Labels.reset t) := by
  obtain ⟨s0, -, hrel⟩ := ht.rel
  refine ⟨hrel.inv.pos, fun j hj hu => ?_⟩
  exfalso
  have hl := hrel.inv.len j hj
  have hj' : j < t.count := hj
  have : Labels.unused ((Labels.reset t).entry j) = true := by
    unfold Labels.reset Labels.unused
    simp only [if_pos hj']
    match hn : (t.entry j).name, hl with
    | c :: r, _ => simp
  rw [this] at hu
  cases hu

/-- **C35** for whole programs, from the source text: whatever the lines contain (errors included), whatever the
options, the compiled program is a sequence of well-formed instructions and every label points at the beginning of one
of them (or at the end).  Lines are as in C79 (`Contained`), words of at most 64 characters; C35_long_name_violated shows
what happens beyond. -/
theorem C35_program (opts : Opts) (pre : Tk) (n : Nat) (o o' : Obj) (e : Option Nat) (ht : TableFrom n o.labels)
    (ls : List (List Nat)) (hl : ∀ a ∈ ls, Contained a ∧ ShortWords a) (h : tokenize opts pre (programText ls) o = .ok (o', e)) :
    ∃ p, o'.buf = encode p ∧ (∀ i ∈ p, i.WF) ∧ LabelsOk p o'.labels := by
  rw [tokenize_lines opts pre ls o fun a ha => (hl a ha).1] at h
  have h0 : ObjOk [] (Obj.fresh o) := ⟨rfl, by simp, unused_reset ht⟩
  obtain ⟨q, hq⟩ := compileLines_ok opts pre ls hl h0 h
  rw [List.nil_append] at hq
  exact ⟨q, hq.buf, hq.wf, entries_labels hq.labels⟩

theorem short_of_len {a : List Nat} (h : a.length ≤ 64) : ShortWords a := by
  intro u w v e _
  rw [e, List.length_append, List.length_append] at h
  omega

/-- The program of C79 satisfies the hypotheses. -/
example : ∀ a ∈ sampleLines, Contained a ∧ ShortWords a := by
  have h : ∀ a ∈ sampleLines, Contained a ∧ a.length ≤ 64 := by decide +kernel
  exact fun a ha => ⟨(h a ha).1, short_of_len (h a ha).2⟩

end Sbc.Tok.Spec
