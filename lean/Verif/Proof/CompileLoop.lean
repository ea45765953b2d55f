import Verif.Proof.LexerStep
set_option autoImplicit false
/-!
# The main loop of the compiler, line by line
-/
namespace Sbc.Tok.Spec
open Sbc Sbc.Tok

/-! ## Every iteration consumes a character -/

theorem skipLine_lt {l r : List Nat} (h : skipLine l = .ok r) : r.length < l.length := by
  unfold skipLine at h
  have hs : l.dropWhile (· != 13) <:+ l := List.dropWhile_suffix _
  split at h
  · cases h
  · rename_i c q e
    cases h
    have := hs.length_le
    rw [e] at this
    simp only [List.length_cons] at this
    omega

theorem loop_fuel (p : Opts) (pre : Tk) : ∀ (n m : Nat) (s : Lx) (o : Obj), s.rest.length < n → s.rest.length < m →
    tokenizeLoop p pre n s o = tokenizeLoop p pre m s o
  | 0, _, _, _, h, _ => absurd h (by omega)
  | _ + 1, 0, _, _, _, h => absurd h (by omega)
  | n + 1, m + 1, s, o, hn, hm => by
    unfold tokenizeLoop
    by_cases hr : s.rest = []
    · rw [if_pos hr, if_pos hr]
    rw [if_neg hr, if_neg hr]
    cases hx : tokNone s with
    | ub => rfl
    | err e => rfl
    | ok x =>
      obtain ⟨s', ctl⟩ := x
      obtain ⟨h1, h2, -⟩ := tokNone_stepped hx
      have hle := h1.length_le
      rw [ok_bind, ok_bind]
      cases ctl with
      | next =>
        have hlt : s'.rest.length < s.rest.length := by rcases h2 with ⟨e, h2⟩ | h2; · cases h2
                                                        · exact h2
        exact loop_fuel p pre n m s' o (by omega) (by omega)
      | convert =>
        have hlt : s'.rest.length < s.rest.length := by rcases h2 with ⟨e, h2⟩ | h2; · cases h2
                                                        · exact h2
        show (tokConvert p pre s'.toks o).bind _ = (tokConvert p pre s'.toks o).bind _
        congr 1
        funext y
        cases y.2 with
        | none => exact loop_fuel p pre n m _ _ (by show s'.rest.length < n; omega) (by show s'.rest.length < m; omega)
        | some e =>
          dsimp only
          split
          · rfl
          · exact loop_fuel p pre n m _ _ (by show s'.rest.length < n; omega) (by show s'.rest.length < m; omega)
      | fail e =>
        show (if p.strict then _ else _) = (if p.strict then _ else _)
        by_cases hp : p.strict = true
        · rw [if_pos hp, if_pos hp]
        · rw [if_neg hp, if_neg hp]
          cases hk : skipLine s'.rest with
          | ub => rfl
          | err e => rfl
          | ok r =>
            have := skipLine_lt hk
            rw [ok_bind, ok_bind]
            exact loop_fuel p pre n m _ _ (by show r.length < n; omega) (by show r.length < m; omega)

/-! ## The tokens of a line -/

/-- Read a line: its tokens, or the error of the lexer. -/
def scanLine : Nat → Lx → Out (Except Nat (List Tk))
  | 0, _ => .ub
  | n + 1, s => (tokNone s).bind fun x => match x.2 with
    | .next => scanLine n x.1
    | .fail e => .ok (.error e)
    | .convert => .ok (.ok x.1.toks)

/-- What a line does to the program compiled so far. -/
def lineEffect (p : Opts) (pre : Tk) (r : Except Nat (List Tk)) (o : Obj) : Out (Obj × Option Nat) :=
  match r with
  | .error e => if p.strict then .ok (o, some e) else .ok (o.error e, none)
  | .ok toks => (tokConvert p pre toks o).bind fun y => match y.2 with
    | none => .ok (y.1, none)
    | some e => if p.strict then .ok (y.1, some e) else .ok (y.1.error e, none)

/-- Go on behind a line. -/
def thenLoop (p : Opts) (pre : Tk) (rest : List Nat) (y : Obj × Option Nat) : Out (Obj × Option Nat) :=
  match y.2 with
  | some e => .ok (y.1, some e)
  | none => tokenizeLoop p pre (rest.length + 1) ⟨rest, [], false⟩ y.1

theorem skipLine_line {a rest : List Nat} (h : 13 ∉ a) : skipLine (a ++ 13 :: rest) = .ok rest := by
  unfold skipLine
  have ha : ∀ x ∈ a, (x != 13) = true := by
    intro x hx
    simp only [bne_iff_ne]
    rintro rfl
    exact h hx
  rw [List.dropWhile_append_of_pos ha, List.dropWhile_cons_of_neg (by simp)]

theorem line_split (p : Opts) (pre : Tk) (rest : List Nat) : ∀ (k : Nat) (a : List Nat), a.length ≤ k → Contained a →
    ∀ (toks : List Tk) (com : Bool) (o : Obj) (n m : Nat), (a ++ 13 :: rest).length < n → a.length < m →
    tokenizeLoop p pre n ⟨a ++ 13 :: rest, toks, com⟩ o =
      (scanLine m ⟨a ++ [13], toks, com⟩).bind fun r => (lineEffect p pre r o).bind (thenLoop p pre rest) := by
  intro k
  induction k with
  | zero =>
    intro a ha hc toks com o n m hn hm
    have : a = [] := List.length_eq_zero_iff.mp (by omega)
    subst this
    obtain ⟨n, rfl⟩ : ∃ n', n = n' + 1 := ⟨n - 1, by omega⟩
    obtain ⟨m, rfl⟩ : ∃ m', m = m' + 1 := ⟨m - 1, by omega⟩
    simp only [List.nil_append, List.length_cons] at hn ⊢
    unfold tokenizeLoop scanLine
    rw [if_neg (by simp), tokNone_end, tokNone_end]
    by_cases ht : toks.length < 100
    · rw [if_pos ht, if_pos ht, ok_bind, ok_bind, ok_bind]
      show (tokConvert p pre (toks ++ [⟨.newline, [13], 0, 0⟩]) o).bind _ = (lineEffect p pre (.ok (toks ++ [⟨.newline, [13], 0, 0⟩])) o).bind _
      unfold lineEffect
      dsimp only
      cases hy : tokConvert p pre (toks ++ [⟨.newline, [13], 0, 0⟩]) o with
      | ub => rfl
      | err e => rfl
      | ok y =>
        obtain ⟨o', e⟩ := y
        rw [ok_bind, ok_bind]
        cases e with
        | none =>
          show tokenizeLoop p pre n ⟨rest, [], false⟩ o' = tokenizeLoop p pre (rest.length + 1) ⟨rest, [], false⟩ o'
          exact loop_fuel p pre _ _ _ _ (by show rest.length < n; omega) (by show rest.length < _; omega)
        | some e =>
          dsimp only
          by_cases hp : p.strict = true
          · rw [if_pos hp, if_pos hp]; rfl
          · rw [if_neg hp, if_neg hp]
            show tokenizeLoop p pre n ⟨rest, [], false⟩ (o'.error e) = tokenizeLoop p pre (rest.length + 1) ⟨rest, [], false⟩ (o'.error e)
            exact loop_fuel p pre _ _ _ _ (by show rest.length < n; omega) (by show rest.length < _; omega)
    · rw [if_neg ht, if_neg ht]; rfl
  | succ k ih =>
    intro a ha hc toks com o n m hn hm
    cases a with
    | nil => exact ih [] (by simp) hc toks com o n m hn hm
    | cons c r =>
      obtain ⟨n, rfl⟩ : ∃ n', n = n' + 1 := ⟨n - 1, by omega⟩
      obtain ⟨m, rfl⟩ : ∃ m', m = m' + 1 := ⟨m - 1, by omega⟩
      unfold tokenizeLoop scanLine
      rw [if_neg (by simp)]
      rcases local_tokNone hc toks com with ⟨hl, -⟩ | ⟨a', toks', com', ctl, hl, hsuf, hnc, hfail, hnext, -⟩
      · have e1 := hl rest
        have e2 := hl []
        simp only at e1 e2
        rw [e1, e2]; rfl
      · have e1 := hl rest
        have e2 := hl []
        simp only at e1 e2
        rw [e1, e2, ok_bind, ok_bind]
        have hc' := hc.suffix hsuf
        have hle := hsuf.length_le
        cases ctl with
        | convert => exact absurd rfl hnc
        | next =>
          have hlt := hnext rfl
          simp only [List.length_cons] at ha hlt
          refine ih a' (by omega) hc' toks' com' o n m ?_ (by simp only [List.length_cons] at hm; omega)
          simp only [List.length_append, List.length_cons] at hn ⊢
          omega
        | fail e =>
          have hcom := hfail e rfl
          subst hcom
          show (if p.strict then _ else _) = Out.bind (Out.ok (Except.error e)) _
          rw [ok_bind]
          unfold lineEffect
          dsimp only
          by_cases hp : p.strict = true
          · rw [if_pos hp, if_pos hp]; rfl
          · rw [if_neg hp, if_neg hp, skipLine_line hc'.noEnd, ok_bind, ok_bind]
            show tokenizeLoop p pre n ⟨rest, [], false⟩ (o.error e) = tokenizeLoop p pre (rest.length + 1) ⟨rest, [], false⟩ (o.error e)
            refine loop_fuel p pre _ _ _ _ ?_ (by show rest.length < _; omega)
            simp only [List.length_append, List.length_cons] at hn
            show rest.length < n
            omega

/-- The words of a line. -/
def lineScan (a : List Nat) : Out (Except Nat (List Tk)) := scanLine (a.length + 1) ⟨a ++ [13], [], false⟩

/-- The lines one after the other. -/
def compileLines (p : Opts) (pre : Tk) : List (List Nat) → Obj → Out (Obj × Option Nat)
  | [], o => .ok (o, none)
  | a :: ls, o => (lineScan a).bind fun r => (lineEffect p pre r o).bind fun y => match y.2 with
    | some e => .ok (y.1, some e)
    | none => compileLines p pre ls y.1

theorem loop_lines (p : Opts) (pre : Tk) : ∀ (ls : List (List Nat)) (o : Obj), (∀ a ∈ ls, Contained a) →
    tokenizeLoop p pre ((programText ls).length + 1) ⟨programText ls, [], false⟩ o = compileLines p pre ls o
  | [], o, _ => by
    show tokenizeLoop p pre 1 ⟨[], [], false⟩ o = _
    unfold tokenizeLoop
    rw [if_pos rfl]; rfl
  | a :: ls, o, h => by
    have e : programText (a :: ls) = a ++ 13 :: programText ls := by simp [programText]
    rw [e, line_split p pre (programText ls) a.length a (Nat.le_refl _) (h a (by simp)) [] false o _ (a.length + 1) (by omega) (by omega)]
    unfold compileLines lineScan
    congr 1
    funext r
    congr 1
    funext y
    obtain ⟨o', e⟩ := y
    cases e with
    | some e => rfl
    | none => exact loop_lines p pre ls o' fun b hb => h b (List.mem_cons_of_mem _ hb)

/-- The empty program the compiler starts with. -/
def Obj.fresh (o : Obj) : Obj := { o with buf := [], labels := Labels.reset o.labels, lines := 0 }

theorem tokenize_lines (p : Opts) (pre : Tk) (ls : List (List Nat)) (o : Obj) (h : ∀ a ∈ ls, Contained a) :
    tokenize p pre (programText ls) o = compileLines p pre ls (Obj.fresh o) := loop_lines p pre ls _ h

end Sbc.Tok.Spec
