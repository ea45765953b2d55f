import Verif.Proof.CompileJoin
import Verif.Props.Lexer
set_option autoImplicit false
/-!
# C78, C79: compiling a program of several lines
-/
namespace Sbc.Tok.Spec
open Sbc Sbc.Tok

/-- **C78.** Compiling ends for every source text: the main loop runs at most once for each character.  (More
iterations than `src.length + 1` make no difference to the result, and running out of iterations is not among the
results.) -/
theorem C78_terminates (p : Opts) (pre : Tk) (src : List Nat) (o : Obj) (n : Nat) (h : src.length < n) :
    tokenizeLoop p pre n ⟨src, [], false⟩ { o with buf := [], labels := Labels.reset o.labels, lines := 0 } = tokenize p pre src o :=
  loop_fuel p pre _ _ _ _ h (by show src.length < _; omega)

/-- One iteration of the main loop either moves the cursor forward or, on an error, does not move it back. -/
theorem C78_progress (s s' : Lx) (c : LxCtl) (h : tokNone s = .ok (s', c)) :
    s'.rest <:+ s.rest ∧ ((∃ e, c = .fail e) ∨ s'.rest.length < s.rest.length) :=
  ⟨(tokNone_stepped h).1, (tokNone_stepped h).2.1⟩

theorem scan_short : ∀ (k : Nat) (a : List Nat), a.length ≤ k → Contained a → ∀ (toks : List Tk) (com : Bool) (m : Nat), a.length < m →
    toks.length + a.length ≤ 99 → (∃ r, scanLine m ⟨a ++ [13], toks, com⟩ = .ok r) := by
  intro k
  induction k with
  | zero =>
    intro a ha hc toks com m hm ht
    have : a = [] := List.length_eq_zero_iff.mp (by omega)
    subst this
    obtain ⟨m, rfl⟩ : ∃ m', m = m' + 1 := ⟨m - 1, by omega⟩
    unfold scanLine
    simp only [List.nil_append]
    rw [tokNone_end, if_pos (by simp at ht; omega)]
    exact ⟨_, rfl⟩
  | succ k ih =>
    intro a ha hc toks com m hm ht
    cases a with
    | nil => exact ih [] (by simp) hc toks com m hm ht
    | cons c r =>
      obtain ⟨m, rfl⟩ : ∃ m', m = m' + 1 := ⟨m - 1, by omega⟩
      unfold scanLine
      rcases local_tokNone hc toks com with ⟨-, h100⟩ | ⟨a', toks', com', ctl, hl, hsuf, hnc, -, hnext, hcount⟩
      · simp only [List.length_cons] at ht; omega
      have e2 := hl []
      simp only at e2
      rw [e2, ok_bind]
      cases ctl with
      | convert => exact absurd rfl hnc
      | fail e => exact ⟨_, rfl⟩
      | next =>
        have h1 := hnext rfl
        simp only [List.length_cons] at ha h1 ht hm
        exact ih a' (by omega) (hc.suffix hsuf) toks' com' m (by omega) (by omega)

theorem scan_lexes : ∀ (m : Nat) (s : Lx) (toks : List Tk), scanLine m s = .ok (.ok toks) → ∃ rest, Lexes s toks rest
  | 0, s, toks, h => by cases h
  | m + 1, s, toks, h => by
    unfold scanLine at h
    obtain ⟨⟨s', ctl⟩, hx, h⟩ := bind_inv h
    cases ctl with
    | fail e => cases h
    | next =>
      obtain ⟨rest, hr⟩ := scan_lexes m s' toks h
      exact ⟨rest, Lexes.step hx hr⟩
    | convert =>
      cases h
      have hc : s'.comment = false := (tokNone_stepped hx).2.2.1 rfl
      refine ⟨s'.rest, Lexes.done ?_⟩
      rw [hx, ← hc]

/-- **C78.** Reading a program whose lines have at most 99 characters stays inside the text and the tables of the
compiler: if anything can go wrong at all, it is in the passes over the tokens of some line. -/
theorem C78_inside (p : Opts) (pre : Tk) (ls : List (List Nat)) (o : Obj) (h : ∀ a ∈ ls, Contained a ∧ a.length ≤ 99)
    (hub : tokenize p pre (programText ls) o = .ub) :
    ∃ a ∈ ls, ∃ toks rest o1, Lexes ⟨a ++ [13], [], false⟩ toks rest ∧ tokConvert p pre toks o1 = .ub := by
  rw [tokenize_lines p pre ls o fun a ha => (h a ha).1] at hub
  generalize Obj.fresh o = o1 at hub
  induction ls generalizing o1 with
  | nil => cases hub
  | cons a ls ih =>
    obtain ⟨r, hr⟩ := scan_short a.length a (Nat.le_refl _) (h a (by simp)).1 [] false (a.length + 1) (by omega)
      (by simpa using (h a (by simp)).2)
    unfold compileLines lineScan at hub
    rw [hr, ok_bind] at hub
    have hstep : ∀ y : Obj × Option Nat, (match y.2 with
        | some e => (Out.ok (y.1, some e) : Out (Obj × Option Nat))
        | none => compileLines p pre ls y.1) = .ub →
        ∃ b ∈ ls, ∃ toks rest o1, Lexes ⟨b ++ [13], [], false⟩ toks rest ∧ tokConvert p pre toks o1 = .ub := by
      intro y hy
      cases hy2 : y.2 with
      | some e => rw [hy2] at hy; cases hy
      | none =>
        rw [hy2] at hy
        exact ih (fun b hb => h b (List.mem_cons_of_mem _ hb)) _ hy
    have hrest : ∀ x : Out (Obj × Option Nat), x = lineEffect p pre r o1 → x ≠ .ub →
        ∃ b ∈ a :: ls, ∃ toks rest o1, Lexes ⟨b ++ [13], [], false⟩ toks rest ∧ tokConvert p pre toks o1 = .ub := by
      intro x hx hne
      rw [← hx] at hub
      cases x with
      | ub => exact absurd rfl hne
      | err e => cases hub
      | ok y =>
        rw [ok_bind] at hub
        obtain ⟨b, hb, rest⟩ := hstep y hub
        exact ⟨b, List.mem_cons_of_mem _ hb, rest⟩
    cases r with
    | error e =>
      refine hrest _ rfl ?_
      unfold lineEffect
      dsimp only
      split <;> simp
    | ok toks =>
      by_cases hc : tokConvert p pre toks o1 = .ub
      · obtain ⟨rest, hl⟩ := scan_lexes _ _ _ hr
        exact ⟨a, by simp, toks, rest, o1, hl, hc⟩
      · refine hrest _ rfl ?_
        unfold lineEffect
        dsimp only
        cases hy : tokConvert p pre toks o1 with
        | ub => exact absurd hy hc
        | err e => simp [Out.bind]
        | ok y =>
          rw [ok_bind]
          cases y.2 with
          | none => simp
          | some e => dsimp only; split <;> simp

/-- **C79.** A program is its lines put together.  If every line, compiled as a program of one line, gives some code and
possibly defines a label, then the whole program compiles, its code is the code of the lines one after the other, and a
label means the place where the code of its line begins.  A line that is in error (alone: an error instruction) changes
nothing in the code of the other lines; a line that repeats a label is replaced by an error instruction. -/
theorem C79_lines_joined (p : Opts) (pre : Tk) (n : Nat) (o : Obj) (hi : p.ids = false) (hs : p.strict = false)
    (ht : TableFrom n o.labels) (ls : List (List Nat)) (parts : List (Option (List Nat) × List Nat))
    (hcap : ls.length ≤ o.cap) (hl : ∀ a ∈ ls, Contained a ∧ 0 ∉ a)
    (hp : List.Forall₂ (fun a x => Alone p pre o a x.1 x.2) ls parts) :
    ∃ o', tokenize p pre (programText ls) o = .ok (o', none) ∧ o'.buf = (joined (2 ^ n) [] [] parts).2 ∧
      ∀ name, Names.GoodName name → Labels.labelIndex o'.labels name = (joined (2 ^ n) [] [] parts).1.lookup name := by
  rw [tokenize_lines p pre ls o fun a ha => (hl a ha).1]
  have key : ∀ (o1 : Obj) (defs : List (List Nat × Nat)), o1.buf.length % 2 = 0 → o1.lines + ls.length ≤ o1.cap →
      Labels.Rel o1.labels ⟨2 ^ n, defs⟩ → ∃ o', compileLines p pre ls o1 = .ok (o', none) ∧
        o'.buf = (joined (2 ^ n) defs o1.buf parts).2 ∧ Labels.Rel o'.labels ⟨2 ^ n, (joined (2 ^ n) defs o1.buf parts).1⟩ := by
    induction hp with
    | nil => intro o1 defs h1 h2 h3; exact ⟨o1, rfl, rfl, h3⟩
    | @cons a x ls parts hax hrest ih =>
      intro o1 defs h1 h2 h3
      obtain ⟨lab, code⟩ := x
      simp only [List.length_cons] at h2 hcap
      obtain ⟨hev, r, o2, hr, he, c1, c2, hm⟩ := line_joined hi hs (hl a (by simp)).1 (hl a (by simp)).2 ht (by omega) hax h1 (by omega) h3
      have ih' := ih (by omega) (fun b hb => hl b (List.mem_cons_of_mem _ hb)) o2
      have fin : ∀ defs', o2.buf.length % 2 = 0 → Labels.Rel o2.labels ⟨2 ^ n, defs'⟩ →
          ∃ o', compileLines p pre (a :: ls) o1 = .ok (o', none) ∧
            o'.buf = (joined (2 ^ n) defs' o2.buf parts).2 ∧ Labels.Rel o'.labels ⟨2 ^ n, (joined (2 ^ n) defs' o2.buf parts).1⟩ := by
        intro defs' hb hrel
        obtain ⟨o', k1, k2⟩ := ih' defs' hb (by omega) hrel
        refine ⟨o', ?_, k2⟩
        unfold compileLines
        rw [hr, ok_bind, he, ok_bind]
        exact k1
      cases lab with
      | none =>
        obtain ⟨m1, m2⟩ := hm
        simp only at m1 hev
        simp only [joined]
        rw [← m1]
        exact fin defs (by rw [m1, List.length_append]; omega) m2
      | some nm =>
        dsimp only at hm hev
        simp only [joined]
        by_cases hd : (defs.lookup nm).isSome ∨ defs.length = 2 ^ n
        · rw [if_pos hd] at hm ⊢
          obtain ⟨m1, m2⟩ := hm
          rw [← m1]
          exact fin defs (by rw [m1, List.length_append]; simp only [List.length_cons, List.length_nil]; omega) m2
        · rw [if_neg hd] at hm ⊢
          obtain ⟨m1, m2⟩ := hm
          rw [← m1]
          exact fin _ (by rw [m1, List.length_append]; omega) m2
  obtain ⟨s0, hs0, hrel0⟩ := ht.rel
  have hrel : Labels.Rel (Obj.fresh o).labels ⟨2 ^ n, []⟩ := by
    have := reset_rel hrel0
    rw [hs0] at this
    exact this
  obtain ⟨o', k1, k2, k3⟩ := key (Obj.fresh o) [] rfl (by show 0 + ls.length ≤ o.cap; omega) hrel
  exact ⟨o', k1, k2, fun name hn => labelIndex_rel k3 hn⟩

theorem convert_labels {ids : Bool} {pre : Tk} {toks : List Tk} {o : Obj} {r : Obj × Option Nat}
    (h : convertCode ids pre toks o = .ok r) : r.1.labels = o.labels := by
  unfold convertCode at h
  obtain ⟨ks, hks, h⟩ := bind_inv h
  obtain ⟨e, he, h⟩ := bind_inv h
  split at h
  · cases h; rfl
  · obtain ⟨x, hx, h⟩ := bind_inv h
    split at h
    · cases h; rfl
    · split at h
      · cases h; rfl
      · cases h

/-- Every line that compiles at all has a label or none: the hypothesis of `C79_lines_joined` can be met for every
program whose lines compile alone. -/
theorem C79_alone (p : Opts) (pre : Tk) (n : Nat) (o oa : Obj) (hs : p.strict = false) (ht : TableFrom n o.labels) (a : List Nat)
    (hc : Contained a) (h0 : 0 ∉ a) (h : tokenize p pre (a ++ [13]) o = .ok (oa, none)) : ∃ lab, Alone p pre o a lab oa.buf := by
  have h' := h
  rw [alone_eq p pre a o hc] at h'
  obtain ⟨r, hscan, heff⟩ := bind_inv h'
  obtain ⟨s0, hs0, hrel0⟩ := ht.rel
  have hf : Labels.Rel (Obj.fresh o).labels ⟨2 ^ n, []⟩ := by
    have := reset_rel hrel0
    rw [hs0] at this
    exact this
  have none' : Labels.Rel oa.labels ⟨2 ^ n, []⟩ → ∃ lab, Alone p pre o a lab oa.buf := by
    intro hr
    refine ⟨none, ⟨oa, h, rfl, fun name hn => ?_⟩, by simp⟩
    rw [labelIndex_rel hr hn]
    simp
  unfold lineEffect at heff
  cases r with
  | error e =>
    dsimp only at heff
    rw [if_neg (by simp [hs])] at heff
    cases heff
    exact none' hf
  | ok toks =>
    dsimp only at heff
    obtain ⟨y, hy, heff⟩ := bind_inv heff
    have hoa : oa.labels = y.1.labels := by
      cases hy2 : y.2 with
      | none => rw [hy2] at heff; cases heff; rfl
      | some e =>
        rw [hy2] at heff
        dsimp only at heff
        rw [if_neg (by simp [hs])] at heff
        cases heff; rfl
    cases htk : toks with
    | nil => rw [htk] at hy; cases hy
    | cons t ts =>
      have hgt : t.ty = .label → Names.GoodName t.text :=
        fun h => lineScan_good hscan hc.len h0 t (by rw [htk]; simp) h
      unfold tokConvert at hy
      rw [htk] at hy
      dsimp only at hy
      by_cases hty : t.ty = .label
      · have hn := hgt hty
        have hadd0 := add_rel hf hn (Obj.fresh o).buf.length
        rw [if_neg (by have : 0 < 2 ^ n := Nat.two_pow_pos n
                       simp; omega)] at hadd0
        obtain ⟨a1, a2⟩ := hadd0
        rw [if_pos hty, if_neg (by rw [a1]; simp)] at hy
        have hl : oa.labels = (Labels.add (Obj.fresh o).labels t.text (Obj.fresh o).buf.length).1 := by
          rw [hoa]
          split at hy
          · cases hy; rfl
          · exact convert_labels hy
        refine ⟨some t.text, ⟨oa, h, rfl, fun name hname => ?_⟩, by rintro m h; cases h; exact hn⟩
        rw [hl, labelIndex_rel a2 hname]
        show List.lookup name [(t.text, 0)] = _
        by_cases he : t.text = name
        · subst he; simp [List.lookup]
        · have : (name == t.text) = false := by simp; exact fun e => he e.symm
          simp [List.lookup, this, he]
      · rw [if_neg hty] at hy
        refine none' ?_
        rw [hoa, convert_labels hy]
        exact hf

/-! ### A concrete program -/

/-- The options of a user's program. -/
def plainOpts : Opts := ⟨false, false, false⟩

/-- An empty compiler output with room for four labels and 100 lines. -/
def emptyObj : Obj := ⟨[], Labels.init (2 ^ 2), Vars.init 4 true, 0, 100⟩

/-- Memory before the token array. -/
def preTok : Tk := ⟨.newline, [], 0, 0⟩

/-- A program with a label, an error (`#` is no operator), a repeated label. -/
def sampleLines : List (List Nat) := [chars "@A", chars "X=#", chars "?X", chars "@A", chars "@B", chars "GOTO @A"]

example : (tokenize plainOpts preTok (programText sampleLines) emptyObj).bind (fun r => .ok (r.1.buf, r.2)) =
    .ok ([76, 1, 65, 0,  69, 61,  86, 88, 99, 0,  69, 52,  76, 1, 66, 0,  108, 1, 65, 0, 99, 12], none) := by decide +kernel

example : (tokenize plainOpts preTok (programText sampleLines) emptyObj).bind (fun r => .ok (Labels.labelIndex r.1.labels [65],
    Labels.labelIndex r.1.labels [66], Labels.labelIndex r.1.labels [67])) = .ok (some 0, some 12, none) := by decide +kernel

instance (a : List Nat) : Decidable (Contained a) :=
  decidable_of_iff (13 ∉ a ∧ a.length ≤ 255 ∧ (∀ i < a.length, a[i]? = some 38 → 2 ≤ (a.drop (i + 1)).length) ∧
    (∀ i < a.length, a[i]? = some 64 → a.drop (i + 1) ≠ []) ∧ (∀ i < a.length + 1, (a.drop i).map upper ≠ chars "LABEL")) (by
  have hsplit : ∀ (i : Nat) (c : Nat), a[i]? = some c → a = a.take i ++ c :: a.drop (i + 1) := by
    intro i c h
    obtain ⟨hi, rfl⟩ := List.getElem?_eq_some_iff.mp h
    rw [List.cons_getElem_drop_succ, List.take_append_drop]
  have hat : ∀ (u v : List Nat) (c : Nat), a = u ++ c :: v → u.length < a.length ∧ a[u.length]? = some c ∧ a.drop (u.length + 1) = v := by
    intro u v c h
    subst h
    refine ⟨by simp, by simp, ?_⟩
    rw [← List.drop_drop, List.drop_left]; rfl
  constructor
  · rintro ⟨h1, h2, h3, h4, h5⟩
    refine ⟨h1, h2, fun u v e => ?_, fun u v e => ?_, fun u v e hs => ?_⟩
    · obtain ⟨k1, k2, k3⟩ := hat u v 38 e
      have := h3 _ k1 k2
      rwa [k3] at this
    · obtain ⟨k1, k2, k3⟩ := hat u v 64 e
      have := h4 _ k1 k2
      rwa [k3] at this
    · refine h5 u.length (by rw [e, List.length_append]; omega) ?_
      rw [e, List.drop_left]
      exact hs
  · rintro ⟨h1, h2, h3, h4, h5⟩
    refine ⟨h1, h2, fun i hi e => ?_, fun i hi e => ?_, fun i hi e => ?_⟩
    · exact h3 _ _ (hsplit i 38 e)
    · exact h4 _ _ (hsplit i 64 e)
    · exact h5 (a.take i) (a.drop i) (List.take_append_drop i a).symm e)

example : ∀ a ∈ sampleLines, (Contained a ∧ 0 ∉ a) ∧ a.length ≤ 99 := by decide +kernel

example : TableFrom 2 emptyObj.labels := ⟨[], by simp, rfl⟩

/-- Its lines compile alone. -/
example : ∀ a ∈ sampleLines, (tokenize plainOpts preTok (a ++ [13]) emptyObj).bind (fun r => .ok r.2) = .ok none := by decide +kernel

/-! ### What is excluded -/

/-- **C79** fails for lines that end with `&H`, `@` or the word LABEL: they swallow the line that follows; and a last
line without its end is not compiled at all. -/
theorem C79_lines_run_on_violated :
    (tokenize plainOpts preTok (programText [chars "A=1"]) emptyObj).bind (fun r => .ok r.1.buf) = .ok [86, 65, 110, 1, 79, 6] ∧
    (tokenize plainOpts preTok (programText [chars "?&H", chars "A=1"]) emptyObj).bind (fun r => .ok r.1.buf) = .ok [69, 46] ∧
    (tokenize plainOpts preTok (programText [chars "GOTO @", chars "A=1"]) emptyObj).bind (fun r => .ok r.1.buf) = .ok [69, 46] ∧
    (tokenize plainOpts preTok (programText [chars "LABEL", chars "A=1"]) emptyObj).bind (fun r => .ok r.1.buf) = .ok [69, 31] ∧
    (tokenize plainOpts preTok (programText [chars "A=1"] ++ chars "?\"A\"") emptyObj).bind (fun r => .ok (r.1.buf, r.2)) =
      .ok ([86, 65, 110, 1, 79, 6], none) := by
  decide +kernel

end Sbc.Tok.Spec
