import Verif.Proof.LoopSkip
import Verif.Proof.SourceBase
import Verif.Proof.SourceInstr
set_option autoImplicit false
/-!
# The search for the end of a loop that does not run
-/
namespace Sbc.Source
open Sbc Sbc.Tok Sbc.Tok.Spec Sbc.Machine

variable {σ : Type} {env : Env σ}

/-- The instruction before does not name a variable. -/
def Generic (p : Option Instr) : Prop := ∀ q, p = some q → isVarOp q = false

/-- The search for the NEXT of a loop over `w` that does not run, `n` loops deep, after the instruction `p`: what comes after it, if
there is one. -/
inductive EndsAt (U : List (List Nat)) (w : List Nat) : Nat → Option Instr → List Instr → Option (List Instr) → Prop
  | nil (n : Nat) (p : Option Instr) : EndsAt U w n p [] none
  | skip (n : Nat) (p : Option Instr) (i : Instr) (r : List Instr) (o : Option (List Instr)) : i ≠ forI → i ≠ nextI →
      EndsAt U w n (some i) r o → EndsAt U w n p (i :: r) o
  | deeper (n : Nat) (p : Option Instr) (r : List Instr) (o : Option (List Instr)) : EndsAt U w (n + 1) (some forI) r o → EndsAt U w n p (forI :: r) o
  | found (p : Option Instr) (r : List Instr) : Generic p → EndsAt U w 0 p (nextI :: r) (some r)
  | up (n : Nat) (p : Option Instr) (r : List Instr) (o : Option (List Instr)) : Generic p → EndsAt U w n (some nextI) r o → EndsAt U w (n + 1) p (nextI :: r) o
  | mine (n : Nat) (r : List Instr) : EndsAt U w n (some (nameInstr w)) (nextI :: r) (some r)
  | other (n : Nat) (x : List Nat) (r : List Instr) (o : Option (List Instr)) : x ≠ w → x ∈ U → VarName x → EndsAt U w n (some nextI) r o →
      EndsAt U w n (some (nameInstr x)) (nextI :: r) o

/-- Only whether the instruction before names a variable matters. -/
theorem EndsAt.gen {U : List (List Nat)} {w : List Nat} {n : Nat} {p q : Option Instr} {r : List Instr} {o : Option (List Instr)}
    (h : EndsAt U w n p r o) (hp : Generic p) (hq : Generic q) : EndsAt U w n q r o := by
  have hname : ∀ x, ¬ Generic (some (nameInstr x)) := by
    intro x hx
    have := hx _ rfl
    unfold nameInstr at this
    split at this <;> simp [isVarOp, Instr.op] at this
  cases h with
  | nil => exact .nil _ _
  | skip _ _ i r o h1 h2 h3 => exact .skip _ _ _ _ _ h1 h2 h3
  | deeper _ _ r o h => exact .deeper _ _ _ _ h
  | found _ r h => exact .found _ _ hq
  | up n _ r o h1 h2 => exact .up _ _ _ _ hq h2
  | mine n r => exact absurd hp (hname _)
  | other n x r o h1 h2 h3 h4 => exact absurd hp (hname _)

/-- Code without FOR and NEXT that does not end with a variable. -/
theorem EndsAt.pass {U : List (List Nat)} {w : List Nat} {n : Nat} {r : List Instr} {o : Option (List Instr)} (h : EndsAt U w n none r o) :
    (c : List Instr) → (p : Option Instr) → (∀ i ∈ c, i ≠ forI ∧ i ≠ nextI) → Generic ((c.getLast?).or p) → EndsAt U w n p (c ++ r) o
  | [], p, _, hl => h.gen (by intro q hq; cases hq) hl
  | i :: c, p, hc, hl => by
    refine .skip _ _ _ _ _ (hc i (by simp)).1 (hc i (by simp)).2 (EndsAt.pass h c (some i) (fun j hj => hc j (by simp [hj])) ?_)
    cases c with
    | nil => exact hl
    | cons j c =>
      rw [show (i :: j :: c).getLast? = (j :: c).getLast? from rfl] at hl
      intro q hq
      apply hl q
      rw [← hq]
      cases hgl : (j :: c).getLast? with
      | none => simp at hgl
      | some z => rfl

theorem nameInstr_opcode (x : List Nat) : (nameInstr x).op = bcVariableName := by
  unfold nameInstr; split <;> rfl

/-- A NEXT preceded by a variable. -/
theorem skipKind_name {U : List (List Nat)} {st : Store} {c : Core σ} {w x : List Nat} {i : Nat} (a d : List Instr) (hh : Holds U st c)
    (hx : VarName x) (hU : x ∈ U) (hi : i < c.vars.max) (hkey : Vars.HasKey c.vars i (w, .num)) :
    ∃ c', skipKind c (encode (a ++ nameInstr x :: d)) (some (posAfter a)) (.slot i) = .ok (c', if x = w then .mine else .otherVar) ∧
      Holds U st c' ∧ Grow c c' ∧ c'.stack = c.stack := by
  obtain ⟨c1, j, hl, hst, hh1, hg, hj, hk⟩ := lookup_var hh (keyOf_num hx.2.1 hx.1.2.2) hx.1 hU (Or.inl rfl)
  refine ⟨c1, ?_, hh1, hg, hst⟩
  have hsame : (Ptr.slot i = Ptr.slot j) ↔ x = w := by
    have hk' := hg.keys i hi _ hkey
    obtain ⟨s, hr, _⟩ := hh1.table
    constructor
    · intro h
      injection h with h
      subst h
      have := hk.2.symm.trans hk'.2
      exact this
    · intro h
      subst h
      rw [Vars.hasKey_unique hr.inv (by rw [hg.max]; exact hi) hj hk' hk]
  have hne : x ≠ [] := by
    intro e; have := hx.1.1; rw [e] at this; simp at this
  have hread : readName (encode (a ++ nameInstr x :: d)) (posAfter a) (arg (nameInstr x)) = .ok (x, false, x.length + x.length % 2) ∨
      readName (encode (a ++ nameInstr x :: d)) (posAfter a) (arg (nameInstr x)) = .ok (x, false, 0) := by
    by_cases h1 : ∃ c, x = [c]
    · obtain ⟨c, rfl⟩ := h1
      have h65 : 65 ≤ c := hx.2.2 c rfl
      refine Or.inr ?_
      unfold readName
      rw [if_neg (show ¬ arg (nameInstr [c]) < 65 by show ¬ c < 65; omega)]
      rfl
    · have e : nameInstr x = .named bcVariableName x := by
        match x, hne, h1 with
        | [c], _, h1 => exact absurd ⟨c, rfl⟩ h1
        | x :: y :: r, _, _ => rfl
      refine Or.inl ?_
      rw [e]
      have hl16 := hx.1.2.1
      have hd : (encode (a ++ .named bcVariableName x :: d)).drop (posAfter a + 2) = padText x ++ encode d := by
        rw [code_split]
        exact drop_code (encode a) _ 2
      unfold readName
      rw [if_pos (show arg (.named bcVariableName x) < 65 by show x.length < 65; omega), hd]
      dsimp only
      rw [show arg (.named bcVariableName x) = x.length from rfl, Machine.take_pad, if_neg (by
        have : x.length ≠ 0 := fun e => hne (List.length_eq_zero_iff.mp e)
        omega), if_neg hx.2.1]
  unfold skipKind
  dsimp only
  rw [byte_op, byte_arg]
  simp only [Out.bind]
  rw [if_pos (nameInstr_opcode x)]
  have hres : (c.lookup x (tyOf false false)) = .ok (c1, some j) := hl
  rcases hread with h | h <;> rw [h] <;> simp only [] <;> rw [hres] <;> simp only [hsame] <;> (by_cases hxw : x = w <;> simp [hxw])

/-- The interpreter finds the end of the loop. -/
theorem skipLoop_ends {U : List (List Nat)} {st : Store} {w : List Nat} {n i : Nat} {p : Option Instr} {t : List Instr} {o : Option (List Instr)}
    (h : EndsAt U w n p t o) (hwn : VarName w) (hwU : w ∈ U) : ∀ (a u : List Instr) (fuel : Nat) (c : Core σ), (∀ j ∈ u ++ t, j.WF) → (∀ j ∈ u, j.op ≠ bcCommandFirst) →
      (u = [] → Generic p) → (∀ x q, u = x ++ [q] → p = some q) → t.length + 1 ≤ fuel → Holds U st c → i < c.vars.max →
      Vars.HasKey c.vars i (w, .num) →
      ∃ c' res, skipLoop (encode (a ++ (u ++ t))) (.slot i) fuel (n + 1) (posAfter a) c = .ok (c', res) ∧ Holds U st c' ∧ Grow c c' ∧
        c'.stack = c.stack ∧ match o with
          | none => res = none
          | some r => ∃ v, t = v ++ r ∧ res = some (posAfter (a ++ (u ++ v))) := by
  -- one round of the search
  have round : ∀ (a u r : List Instr) (x n fuel : Nat) (c : Core σ), (∀ j ∈ u ++ .simple bcCommandFirst x :: r, j.WF) → (∀ j ∈ u, j.op ≠ bcCommandFirst) →
      skipLoop (encode (a ++ (u ++ .simple bcCommandFirst x :: r))) (.slot i) (fuel + 1) (n + 1) (posAfter a) c =
        if x = cmdNext then
          (skipKind c (encode (a ++ (u ++ .simple bcCommandFirst x :: r))) (lastPos a u none) (.slot i)).bind fun k =>
            match k.2 with
            | .generic => skipLoop (encode (a ++ (u ++ .simple bcCommandFirst x :: r))) (.slot i) fuel n (posAfter (a ++ u) + 2) k.1
            | .mine => .ok (k.1, some (posAfter (a ++ u) + 2))
            | .otherVar => skipLoop (encode (a ++ (u ++ .simple bcCommandFirst x :: r))) (.slot i) fuel (n + 1) (posAfter (a ++ u) + 2) k.1
        else if x = cmdFor then skipLoop (encode (a ++ (u ++ .simple bcCommandFirst x :: r))) (.slot i) fuel (n + 2) (posAfter (a ++ u) + 2) c
        else skipLoop (encode (a ++ (u ++ .simple bcCommandFirst x :: r))) (.slot i) fuel (n + 1) (posAfter (a ++ u) + 2) c := by
    intro a u r x n fuel c hw hu
    have hbyte : byte (encode (a ++ (u ++ .simple bcCommandFirst x :: r))) (posAfter (a ++ u) + 1) = .ok x := by
      rw [← List.append_assoc]; exact byte_arg (a ++ u) r (.simple bcCommandFirst x)
    simp only [skipLoop]
    rw [scanPair_mid a u r (.simple bcCommandFirst x) bcCommandFirst hw hu rfl]
    simp only [Out.bind]
    rw [hbyte]
    rfl
  have shift : ∀ (a u r : List Instr) (x : Nat), posAfter (a ++ u) + 2 = posAfter (a ++ u ++ [.simple bcCommandFirst x]) ∧
      a ++ (u ++ .simple bcCommandFirst x :: r) = (a ++ u ++ [.simple bcCommandFirst x]) ++ ([] ++ r) := by
    intro a u r x
    exact ⟨by rw [posAfter_snoc]; rfl, by simp⟩
  have last : ∀ (a u : List Instr) (p : Option Instr), (u = [] → Generic p) → (∀ x q, u = x ++ [q] → p = some q) → Generic p → ∀ x q, u = x ++ [q] → isVarOp q = false :=
    fun a u p _ h2 hg x q hu => hg q (h2 x q hu)
  have named : ∀ (u : List Instr) (x : List Nat), (u = [] → Generic (some (nameInstr x))) → (∀ y q, u = y ++ [q] → some (nameInstr x) = some q) →
      ∃ y, u = y ++ [nameInstr x] := by
    intro u x h1 h2
    rcases List.eq_nil_or_concat u with hu | ⟨y, q, hu⟩
    · have := h1 hu _ rfl
      unfold isVarOp at this
      rw [nameInstr_opcode] at this
      simp at this
    · rw [List.concat_eq_append] at hu
      have := h2 y q hu
      injection this with this
      exact ⟨y, by rw [this]; exact hu⟩
  have lastPos_snoc : ∀ (a y : List Instr) (q : Instr), lastPos a (y ++ [q]) none = some (posAfter (a ++ y)) := by
    intro a y q
    unfold lastPos
    rw [if_neg (by simp), List.dropLast_concat]
  induction h with
  | nil n p =>
    intro a u fuel c hw hu _ _ hf hh _ _
    obtain ⟨f, rfl⟩ : ∃ f, fuel = f + 1 := ⟨fuel - 1, by simp at hf; omega⟩
    refine ⟨c, none, ?_, hh, Grow.refl c, rfl, rfl⟩
    rw [List.append_nil] at hw ⊢
    simp only [skipLoop]
    unfold bcScanPair
    rw [scanPair_spec bcCommandFirst u a _ none hw (by rw [encode_append, List.length_append]; omega), splitAt_none' bcCommandFirst u hu]
    rfl
  | skip n p j r o h1 h2 _ ih =>
    intro a u fuel c hw hu hp1 hp2 hf hh hi hkey
    have hw' : ∀ z ∈ r, z.WF := fun z hz => hw z (by simp [hz])
    by_cases hop : j.op = bcCommandFirst
    · obtain ⟨x, rfl⟩ := simpleOp bcCommandFirst cmdFirstOp j (hw j (by simp)) hop
      have hx1 : x ≠ cmdFor := fun e => h1 (by rw [e]; rfl)
      have hx2 : x ≠ cmdNext := fun e => h2 (by rw [e]; rfl)
      obtain ⟨f, rfl⟩ : ∃ f, fuel = f + 1 := ⟨fuel - 1, by omega⟩
      obtain ⟨c', res, e1, e2, e3, e4, e5⟩ := ih (a ++ u ++ [.simple bcCommandFirst x]) [] f c hw' (by simp) (by intro _ q hq; cases hq; rfl) (by simp)
        (by simp only [List.length_cons] at hf; omega) hh hi hkey
      refine ⟨c', res, ?_, e2, e3, e4, ?_⟩
      · rw [round a u r x n f c hw hu, if_neg hx2, if_neg hx1, (shift a u r x).1, (shift a u r x).2]
        exact e1
      · cases o with
        | none => exact e5
        | some q =>
          obtain ⟨v, rfl, hv⟩ := e5
          exact ⟨.simple bcCommandFirst x :: v, rfl, by rw [hv]; simp⟩
    · obtain ⟨c', res, e1, e2, e3, e4, e5⟩ := ih a (u ++ [j]) fuel c (by simpa using hw) (by
        intro z hz
        rcases List.mem_append.mp hz with h | h
        · exact hu z h
        · simp only [List.mem_singleton] at h; subst h; exact hop) (by simp) (by
        intro x q hq
        have := (List.append_inj' hq rfl).2
        injection this with h _
        rw [h]) (by simp only [List.length_cons] at hf; omega) hh hi hkey
      have e : a ++ (u ++ j :: r) = a ++ (u ++ [j] ++ r) := by simp
      rw [e]
      refine ⟨c', res, e1, e2, e3, e4, ?_⟩
      cases o with
      | none => exact e5
      | some q =>
        obtain ⟨v, rfl, hv⟩ := e5
        exact ⟨j :: v, rfl, by rw [hv]; simp⟩
  | deeper n p r o _ ih =>
    intro a u fuel c hw hu hp1 hp2 hf hh hi hkey
    have hw' : ∀ z ∈ r, z.WF := fun z hz => hw z (by simp [hz])
    obtain ⟨f, rfl⟩ : ∃ f, fuel = f + 1 := ⟨fuel - 1, by omega⟩
    obtain ⟨c', res, e1, e2, e3, e4, e5⟩ := ih (a ++ u ++ [.simple bcCommandFirst cmdFor]) [] f c hw' (by simp) (by intro _ q hq; cases hq; rfl) (by simp)
      (by simp only [List.length_cons] at hf; omega) hh hi hkey
    refine ⟨c', res, ?_, e2, e3, e4, ?_⟩
    · unfold forI at hw ⊢
      rw [round a u r cmdFor n f c hw hu, if_neg (by decide), if_pos rfl, (shift a u r cmdFor).1, (shift a u r cmdFor).2]
      exact e1
    · cases o with
      | none => exact e5
      | some q =>
        obtain ⟨v, rfl, hv⟩ := e5
        exact ⟨forI :: v, rfl, by rw [hv]; simp [forI]⟩
  | found p r hp =>
    intro a u fuel c hw hu hp1 hp2 hf hh hi hkey
    obtain ⟨f, rfl⟩ : ∃ f, fuel = f + 2 := ⟨fuel - 2, by simp only [List.length_cons] at hf; omega⟩
    refine ⟨c, some (posAfter (a ++ (u ++ [nextI]))), ?_, hh, Grow.refl c, rfl, [nextI], rfl, rfl⟩
    unfold nextI at hw ⊢
    rw [round a u r cmdNext 0 (f + 1) c hw hu, if_pos rfl, skipKind_generic c a u _ _ (last a u p hp1 hp2 hp)]
    show Out.ok (c, some (posAfter (a ++ u) + 2)) = _
    rw [(shift a u r cmdNext).1, List.append_assoc]
  | up n p r o hp _ ih =>
    intro a u fuel c hw hu hp1 hp2 hf hh hi hkey
    have hw' : ∀ z ∈ r, z.WF := fun z hz => hw z (by simp [hz])
    obtain ⟨f, rfl⟩ : ∃ f, fuel = f + 1 := ⟨fuel - 1, by omega⟩
    obtain ⟨c', res, e1, e2, e3, e4, e5⟩ := ih (a ++ u ++ [.simple bcCommandFirst cmdNext]) [] f c hw' (by simp) (by intro _ q hq; cases hq; rfl) (by simp)
      (by simp only [List.length_cons] at hf; omega) hh hi hkey
    refine ⟨c', res, ?_, e2, e3, e4, ?_⟩
    · unfold nextI at hw ⊢
      rw [round a u r cmdNext (n + 1) f c hw hu, if_pos rfl, skipKind_generic c a u _ _ (last a u p hp1 hp2 hp), (shift a u r cmdNext).1, (shift a u r cmdNext).2]
      exact e1
    · cases o with
      | none => exact e5
      | some q =>
        obtain ⟨v, rfl, hv⟩ := e5
        exact ⟨nextI :: v, rfl, by rw [hv]; simp [nextI]⟩
  | mine n r =>
    intro a u fuel c hw hu hp1 hp2 hf hh hi hkey
    obtain ⟨y, rfl⟩ := named u w hp1 hp2
    obtain ⟨f, rfl⟩ : ∃ f, fuel = f + 1 := ⟨fuel - 1, by omega⟩
    have hwname : VarName w := hwn
    obtain ⟨c', k1, k2, k3, k4⟩ := skipKind_name (a ++ y) (nextI :: r) hh hwname hwU hi hkey
    rw [if_pos rfl] at k1
    refine ⟨c', some (posAfter (a ++ (y ++ [nameInstr w] ++ [nextI]))), ?_, k2, k3, k4, [nextI], rfl, rfl⟩
    have e : a ++ (y ++ [nameInstr w] ++ nextI :: r) = a ++ y ++ nameInstr w :: nextI :: r := by simp
    rw [← e] at k1
    unfold nextI at hw k1 ⊢
    rw [round a _ r cmdNext n f c hw hu, if_pos rfl, lastPos_snoc, k1]
    show Out.ok (c', some (posAfter (a ++ (y ++ [nameInstr w])) + 2)) = _
    rw [(shift a _ r cmdNext).1, List.append_assoc a]
  | other n x r o hxw hxU hxv _ ih =>
    intro a u fuel c hw hu hp1 hp2 hf hh hi hkey
    obtain ⟨y, rfl⟩ := named u x hp1 hp2
    have hw' : ∀ z ∈ r, z.WF := fun z hz => hw z (by simp [hz])
    obtain ⟨f, rfl⟩ : ∃ f, fuel = f + 1 := ⟨fuel - 1, by omega⟩
    obtain ⟨c1, k1, k2, k3, k4⟩ := skipKind_name (a ++ y) (nextI :: r) hh hxv hxU hi hkey
    rw [if_neg hxw] at k1
    obtain ⟨c', res, e1, e2, e3, e4, e5⟩ := ih (a ++ (y ++ [nameInstr x]) ++ [.simple bcCommandFirst cmdNext]) [] f c1 hw' (by simp) (by intro _ q hq; cases hq; rfl) (by simp)
      (by simp only [List.length_cons] at hf; omega) k2 (by rw [k3.max]; exact hi) (k3.keys i hi _ hkey)
    refine ⟨c', res, ?_, e2, k3.trans e3, e4.trans k4, ?_⟩
    · have e : a ++ (y ++ [nameInstr x] ++ nextI :: r) = a ++ y ++ nameInstr x :: nextI :: r := by simp
      rw [← e] at k1
      unfold nextI at hw k1 ⊢
      rw [round a _ r cmdNext n f c hw hu, if_pos rfl, lastPos_snoc, k1]
      show skipLoop _ _ f (n + 1) (posAfter (a ++ (y ++ [nameInstr x])) + 2) c1 = _
      rw [(shift a _ r cmdNext).1, (shift a _ r cmdNext).2]
      exact e1
    · cases o with
      | none => exact e5
      | some q =>
        obtain ⟨v, rfl, hv⟩ := e5
        exact ⟨nextI :: v, rfl, by rw [hv]; simp [nextI]⟩

/-! ## The code of a program -/

/-- Instructions that are neither FOR nor NEXT. -/
def NoLoop (i : Instr) : Prop := i ≠ forI ∧ i ≠ nextI

theorem Inert.noLoop {i : Instr} (h : Inert i) : NoLoop i :=
  ⟨fun e => h.2.2.2.1 (by rw [e]; rfl), fun e => h.2.2.2.1 (by rw [e]; rfl)⟩

theorem still_cmd {k c : Nat} (h1 : c ≠ cmdFor) (h2 : c ≠ cmdNext) : NoLoop (.simple k c) :=
  ⟨fun e => h1 (Instr.simple.inj e).2, fun e => h2 (Instr.simple.inj e).2⟩

theorem still_text {op : Nat} {l : List Nat} : NoLoop (.text op l) := ⟨(fun e => by cases e), (fun e => by cases e)⟩

theorem still_op {i : Instr} {k c : Nat} (hi : i = .simple k c) (hk : k ≠ bcCommandFirst) : NoLoop i := by
  subst hi
  exact ⟨fun e => hk (Instr.simple.inj e).1, fun e => hk (Instr.simple.inj e).1⟩

theorem still_e (e : E) (h : e.Leaves) : ∀ i ∈ e.code, NoLoop i := fun i hi => Inert.noLoop (inert_e e h i hi)

theorem still_name (w : List Nat) : NoLoop (nameInstr w) :=
  ⟨(fun e => by have := nameInstr_opcode w; rw [e] at this; cases this), (fun e => by have := nameInstr_opcode w; rw [e] at this; cases this)⟩

theorem still_dim (w : List Nat) : NoLoop (dimInstr w) := by
  unfold dimInstr
  split
  · exact ⟨(fun e => by cases e), (fun e => by cases e)⟩
  · exact ⟨(fun e => by cases e), (fun e => by cases e)⟩

/-- A list ends with an instruction that does not name a variable. -/
theorem last_concat {c x : List Instr} {i : Instr} {p : Option Instr} (h : c = x ++ [i]) (hi : isVarOp i = false) : Generic ((c.getLast?).or p) := by
  subst h
  intro q hq
  simp at hq
  subst hq
  exact hi

/-- Statements without FOR and NEXT. -/
theorem still_s {s : S} (hs : s.WF) (hl : s.isLoop = false) (k : Nat) (hk : CmdOp k) : (∀ i ∈ s.code k, NoLoop i) ∧ ∃ x i, s.code k = x ++ [i] ∧ isVarOp i = false := by
  have hop : ∀ c, isVarOp (.simple k c) = false := by
    intro c; rcases hk with rfl | rfl <;> rfl
  have hA : ∀ o, NoLoop (.simple bcOperator o) := fun o => still_op rfl (by decide)
  cases s with
  | assign w e =>
    have hgood : e.Leaves := (assign_good hs).leaves
    refine ⟨?_, nameInstr w :: e.code, _, rfl, rfl⟩
    intro i hi
    simp only [S.code, List.mem_cons, List.mem_append, List.mem_singleton, List.not_mem_nil, or_false] at hi
    rcases hi with rfl | hi | rfl
    · exact still_name _
    · exact still_e _ hgood _ hi
    · exact hA _
  | cmd c args =>
    refine ⟨?_, args.flatMap E.code, _, rfl, hop _⟩
    have hx := hs.1.passedOn.2.1
    intro i hi
    simp only [S.code, List.mem_append, List.mem_flatMap, List.mem_singleton] at hi
    rcases hi with ⟨a, ha, hi⟩ | rfl
    · exact Inert.noLoop (inert_arg (hs.2.1 a ha) i hi)
    · refine still_cmd (fun e => hx ?_) (fun e => hx ?_)
      · rw [e]; simp
      · rw [e]; simp
  | print items last =>
    refine ⟨?_, itemCode items ++ optCode last, .simple k cmdPrint, by simp [S.code], hop _⟩
    intro i hi
    simp only [S.code, List.mem_append, List.mem_singleton] at hi
    rcases hi with hi | hi | rfl
    · exact Inert.noLoop (inert_items items (fun x hx => (hs.1 x hx).1) i hi)
    · exact Inert.noLoop (inert_opt hs.2.1 i hi)
    · exact still_cmd (by decide) (by decide)
  | goto l =>
    refine ⟨?_, [.text bcLabelString l], _, rfl, hop _⟩
    intro i hi
    simp only [S.code, List.mem_cons, List.not_mem_nil, or_false] at hi
    rcases hi with rfl | rfl
    · exact still_text
    · exact still_cmd (by decide) (by decide)
  | gosub l =>
    refine ⟨?_, [.text bcLabelString l], _, rfl, hop _⟩
    intro i hi
    simp only [S.code, List.mem_cons, List.not_mem_nil, or_false] at hi
    rcases hi with rfl | rfl
    · exact still_text
    · exact still_cmd (by decide) (by decide)
  | restore l =>
    refine ⟨?_, [.text bcLabelString l], _, rfl, hop _⟩
    intro i hi
    simp only [S.code, List.mem_cons, List.not_mem_nil, or_false] at hi
    rcases hi with rfl | rfl
    · exact still_text
    · exact still_cmd (by decide) (by decide)
  | ret =>
    refine ⟨?_, [], _, rfl, hop _⟩
    intro i hi
    simp only [S.code, List.mem_singleton] at hi
    subst hi
    exact still_cmd (by decide) (by decide)
  | fin =>
    refine ⟨?_, [], _, rfl, hop _⟩
    intro i hi
    simp only [S.code, List.mem_singleton] at hi
    subst hi
    exact still_cmd (by decide) (by decide)
  | stop =>
    refine ⟨?_, [], _, rfl, hop _⟩
    intro i hi
    simp only [S.code, List.mem_singleton] at hi
    subst hi
    exact still_cmd (by decide) (by decide)
  | for' w a b st => cases hl
  | next o => cases hl
  | on e sub ls =>
    refine ⟨?_, e.code ++ .simple k cmdOn :: ls.map (Instr.text bcLabelString), .simple bcCommand (jumpWord sub), by simp [S.code], rfl⟩
    intro i hi
    simp only [S.code, List.mem_append, List.mem_cons, List.mem_map, List.not_mem_nil, or_false] at hi
    rcases hi with hi | rfl | ⟨l, _, rfl⟩ | rfl
    · exact still_e _ hs.1.1.leaves _ hi
    · exact still_cmd (by decide) (by decide)
    · exact still_text
    · exact still_op rfl (by decide)
  | read ls =>
    refine ⟨?_, ls.flatMap E.code, _, rfl, hop _⟩
    intro i hi
    simp only [S.code, List.mem_append, List.mem_flatMap, List.mem_singleton] at hi
    rcases hi with ⟨a, ha, hi⟩ | rfl
    · exact Inert.noLoop (inert_arg (hs.2.1 a ha).2 i hi)
    · exact still_cmd (by decide) (by decide)
  | dim l0 r0 =>
    have hlast : ∃ x y, (l0 :: r0).flatMap E.dimCode = x ++ [dimInstr y] := by
      obtain ⟨z, u, hz⟩ : ∃ z u, l0 :: r0 = z ++ [u] := ⟨_, _, (List.dropLast_append_getLast (by simp)).symm⟩
      rw [hz]
      exact ⟨z.flatMap E.dimCode ++ u.subs E.code, u.arrName, by simp [E.dimCode]⟩
    obtain ⟨x, y, hxy⟩ := hlast
    refine ⟨?_, x, _, hxy, ?_⟩
    · intro i hi
      obtain ⟨l, hl0, hi⟩ := List.mem_flatMap.mp hi
      have hl := (hs l hl0).2.1.leaves
      simp only [E.dimCode, List.mem_append, List.mem_singleton] at hi
      rcases hi with hi | rfl
      · cases l with
        | arr1 sq w a =>
          simp only [E.subs, List.mem_append, List.mem_singleton] at hi
          rcases hi with hi | rfl
          · refine Inert.noLoop (inert_e (.arr1 sq w a) hl i ?_)
            simp only [E.code, List.mem_append]
            exact Or.inl hi
          · exact still_op rfl (by decide)
        | arr2 sq w a b =>
          simp only [E.subs, List.mem_append, List.mem_singleton] at hi
          rcases hi with hi | rfl
          · refine Inert.noLoop (inert_e (.arr2 sq w a b) hl i ?_)
            simp only [E.code, List.mem_append]
            exact Or.inl hi
          · exact still_op rfl (by decide)
        | _ => simp [E.subs] at hi
      · exact still_dim _
    · unfold dimInstr
      split <;> rfl
  | put l e =>
    have h1 : l.Leaves ∧ e.Leaves := by
      rcases hs.2.1 with h | h
      · exact ⟨h.1.leaves, h.2.leaves⟩
      · exact ⟨h.1.leaves, h.2.leaves⟩
    refine ⟨?_, l.code ++ e.code, .simple bcOperator opAssign, by simp [S.code], rfl⟩
    intro i hi
    simp only [S.code, List.mem_append, List.mem_singleton] at hi
    rcases hi with hi | hi | rfl
    · exact still_e _ h1.1 _ hi
    · exact still_e _ h1.2 _ hi
    · exact hA _

theorem still_join (ss : List S) (hw : ∀ s ∈ ss, s.WF) (hl : ss.any S.isLoop = false) (k : Nat) (hk : CmdOp k) : ∀ i ∈ codeJoin k ss, NoLoop i := by
  induction ss generalizing k with
  | nil => intro i hi; cases hi
  | cons s ss ih =>
    simp only [List.any_cons, Bool.or_eq_false_iff] at hl
    intro i hi
    simp only [codeJoin, List.mem_append] at hi
    rcases hi with hi | hi
    · exact (still_s (hw s (by simp)) hl.1 k hk).1 i hi
    · exact ih (fun s hs => hw s (by simp [hs])) hl.2 _ (Or.inr rfl) i hi

theorem still_branch {b : Branch} (hw : b.WF) (hl : b.hasLoop = false) : ∀ i ∈ b.code, NoLoop i := by
  cases b with
  | jump l =>
    intro i hi
    simp only [Branch.code, List.mem_singleton] at hi
    subst hi
    exact still_text
  | run ss => exact still_join ss hw.2.1 hl _ (Or.inl rfl)

/-- An IF without loops. -/
theorem ends_if {U : List (List Nat)} {w : List Nat} {n : Nat} {r : List Instr} {o : Option (List Instr)} (i : Option If) (hw : ∀ x, i = some x → x.WF)
    (hl : i.any If.hasLoop = false) (h : EndsAt U w n none r o) : EndsAt U w n none (ifCode i ++ r) o := by
  cases i with
  | none => exact h
  | some i =>
    have hwi := hw i rfl
    simp only [Option.any_some, If.hasLoop, Bool.or_eq_false_iff] at hl
    refine h.pass _ none ?_ (last_concat (x := i.cond.code ++ (.simple bcCommandFirst cmdIf :: (i.yes.code ++ elseCode i.no))) (i := .simple bcCommand cmdEndif)
      (by simp [ifCode]) rfl)
    intro j hj
    simp only [ifCode, List.mem_append, List.mem_cons, List.not_mem_nil, or_false] at hj
    rcases hj with hj | rfl | hj | hj | rfl
    · exact still_e _ hwi.cond.leaves _ hj
    · exact still_cmd (by decide) (by decide)
    · exact still_branch hwi.yes hl.1 _ hj
    · cases hno : i.no with
      | none => rw [hno] at hj; cases hj
      | some b =>
        rw [hno] at hj hl
        simp only [elseCode, List.mem_cons] at hj
        rcases hj with rfl | hj
        · exact still_op rfl (by decide)
        · exact still_branch (hwi.no b hno) (by simpa using hl.2) _ hj
    · exact still_op rfl (by decide)

/-- Statements. -/
theorem ends_join {U : List (List Nat)} {C : Nat → Prop} {w : List Nat} : (ss : List S) → (n : Nat) → (∀ s ∈ ss, FitsS U C s) →
    match seek w n ss with
    | .inl q => (∀ s ∈ q, s ∈ ss) ∧ ∀ r, EndsAt U w n none (codeJoin bcCommandFirst ss ++ r) (some (codeJoin bcCommandFirst q ++ r))
    | .inr n' => ∀ r o, EndsAt U w n' none r o → EndsAt U w n none (codeJoin bcCommandFirst ss ++ r) o
  | [], n, _ => by
    simp only [seek]
    exact fun r o h => h
  | s :: ss, n, hf => by
    have hs := hf s (by simp)
    have ih := fun n => ends_join (w := w) ss n (fun s hs => hf s (by simp [hs]))
    have gen0 : ∀ i : Instr, isVarOp i = false → Generic (some i) := fun i hi q hq => by cases hq; exact hi
    have gnone : Generic none := by intro q hq; cases hq
    -- what follows a statement
    have go : ∀ n n' : Nat, seek w n (s :: ss) = seek w n' ss →
        (∀ r o, EndsAt U w n' none r o → EndsAt U w n none (s.code bcCommandFirst ++ r) o) →
        match seek w n (s :: ss) with
        | .inl q => (∀ x ∈ q, x ∈ s :: ss) ∧ ∀ r, EndsAt U w n none (codeJoin bcCommandFirst (s :: ss) ++ r) (some (codeJoin bcCommandFirst q ++ r))
        | .inr n' => ∀ r o, EndsAt U w n' none r o → EndsAt U w n none (codeJoin bcCommandFirst (s :: ss) ++ r) o := by
      intro n n' he hstep
      rw [he]
      have hi := ih n'
      generalize seek w n' ss = z at hi
      cases z with
      | inl q =>
        refine ⟨fun x hx => List.mem_cons_of_mem _ (hi.1 x hx), fun r => ?_⟩
        show EndsAt U w n none ((s.code bcCommandFirst ++ codeJoin bcCommandFirst ss) ++ r) _
        rw [List.append_assoc]
        exact hstep _ _ (hi.2 r)
      | inr m =>
        intro r o h
        show EndsAt U w n none ((s.code bcCommandFirst ++ codeJoin bcCommandFirst ss) ++ r) _
        rw [List.append_assoc]
        exact hstep _ _ (hi r o h)
    by_cases hl : s.isLoop = false
    · refine go n n ?_ ?_
      · cases s <;> first | rfl | cases hl
      · intro r o h
        obtain ⟨h1, x, i, h2, h3⟩ := still_s hs.1 hl bcCommandFirst (Or.inr rfl)
        exact h.pass _ none h1 (last_concat h2 h3)
    · cases s with
      | for' v a b st =>
        refine go n (n + 1) (by simp only [seek]) ?_
        intro r o h
        obtain ⟨⟨hw, ⟨ha, hal⟩, ⟨hb, hbl⟩, hst, hshort⟩, hv, _⟩ := hs
        show EndsAt U w n none (nameInstr v :: (forI :: (a.code ++ .simple bcOperator opAssign :: (ctlCode b st ++ [.simple bcBeginLoop 0]))) ++ r) o
        refine .skip _ _ _ _ _ (still_name v).1 (still_name v).2 (.deeper _ _ _ _ (h.pass _ _ ?_ (last_concat
          (x := a.code ++ .simple bcOperator opAssign :: ctlCode b st) (i := .simple bcBeginLoop 0) (by simp) rfl)))
        intro i hi
        simp only [ctlCode, List.mem_append, List.mem_cons, List.not_mem_nil, or_false] at hi
        rcases hi with hi | rfl | (hi | rfl | hi) | rfl
        · exact still_e _ ha.leaves _ hi
        · exact still_op rfl (by decide)
        · exact still_e _ hb.leaves _ hi
        · exact still_op rfl (by decide)
        · cases hs' : st with
          | none => rw [hs'] at hi; cases hi
          | some e =>
            rw [hs'] at hi
            simp only [stepCode, List.mem_append, List.mem_singleton] at hi
            rcases hi with hi | rfl
            · exact still_e _ (hst e hs').1.leaves _ hi
            · exact still_op rfl (by decide)
        · exact still_op rfl (by decide)
      | next o =>
        cases o with
        | none =>
          cases n with
          | zero =>
            simp only [seek]
            exact ⟨fun x hx => List.mem_cons_of_mem _ hx, fun r => .found _ _ gnone⟩
          | succ n =>
            refine go (n + 1) n (by simp only [seek]) ?_
            intro r o h
            exact .up _ _ _ _ gnone (h.gen gnone (gen0 _ rfl))
        | some x =>
          have hx : VarName x := hs.1 x rfl
          have hU : x ∈ U := hs.2.1 x (by simp [S.vars])
          by_cases hxw : x = w
          · subst hxw
            have e : seek x n (.next (some x) :: ss) = .inl ss := by cases n <;> simp [seek]
            rw [e]
            exact ⟨fun y hy => List.mem_cons_of_mem _ hy, fun r => .skip _ _ _ _ _ (still_name x).1 (still_name x).2 (.mine _ _)⟩
          · refine go n n (by cases n <;> simp [seek, hxw]) ?_
            intro r o h
            exact .skip _ _ _ _ _ (still_name x).1 (still_name x).2 (.other _ _ _ _ hxw hU hx (h.gen gnone (gen0 _ rfl)))
      | _ => exact absurd rfl hl

/-- Lines. -/
theorem ends_lines {U : List (List Nat)} {C : Nat → Prop} {w : List Nat} {prog : List Line} (hprog : FitsProg U C prog) : (ls : List Line) → (n k : Nat) →
    prog.drop k = ls → match seekLines w n k ls with
    | .at t n' => ∃ sk, EndsAt U w n none (progCode ls) (some (codeJoin bcCommandFirst t.stmts ++ (ifCode t.last ++ (sk ++ progCode (prog.drop n'))))) ∧
        Over sk ∧ (sk ≠ [] → t.last = none) ∧ Fits U C t ∧ (t.last.isSome = true ∨ .simple bcCommand cmdEndif ∈ sk → HasIf prog n')
    | .missing => EndsAt U w n none (progCode ls) none
    | .unknown => True
  | [], n, k, hd => .nil _ _
  | l :: ls, n, k, hd => by
    have hk : prog[k]? = some l := by
      have : (prog.drop k)[0]? = some l := by rw [hd]; rfl
      rwa [List.getElem?_drop, Nat.add_zero] at this
    have hd' : prog.drop (k + 1) = ls := by
      rw [← List.drop_drop, hd]; rfl
    have hl := hprog l (List.mem_of_getElem? hk)
    have hcode : progCode (l :: ls) = labelCode l.label ++ (codeJoin bcCommandFirst l.stmts ++ (ifCode l.last ++ (dataCode l.data ++ progCode ls))) := by
      unfold progCode
      rw [List.flatMap_cons]
      unfold Line.code
      simp only [List.append_assoc]
    -- the label
    have hlab : ∀ {m : Nat} {r : List Instr} {o : Option (List Instr)}, EndsAt U w m none r o → EndsAt U w m none (labelCode l.label ++ r) o := by
      intro m r o h
      cases hlb : l.label with
      | none => exact h
      | some x => exact .skip _ _ _ _ _ still_text.1 still_text.2 (h.gen (by intro q hq; cases hq) (by intro q hq; cases hq; rfl))
    have hdat : ∀ {m : Nat} {r : List Instr} {o : Option (List Instr)}, EndsAt U w m none r o → EndsAt U w m none (dataCode l.data ++ r) o := by
      intro m r o h
      cases hlb : l.data with
      | none => exact h
      | some x => exact .skip _ _ _ _ _ still_text.1 still_text.2 (h.gen (by intro q hq; cases hq) (by intro q hq; cases hq; rfl))
    have hj := ends_join (w := w) l.stmts n hl.2.stmts
    rw [hcode]
    unfold seekLines
    generalize seek w n l.stmts = z at hj
    cases z with
    | inl q =>
      refine ⟨dataCode l.data, ?_, ?_, ?_, ⟨fun s hs => hl.2.stmts s (hj.1 s hs), hl.2.last⟩, ?_⟩
      · dsimp only
        rw [hd']
        exact hlab (hj.2 _)
      · cases l.data with
        | none => exact .none
        | some d => exact .data _
      · intro hne
        cases hd : l.data with
        | none => rw [hd] at hne; exact absurd rfl hne
        | some d => exact (hl.1.data d hd).2.2
      · intro h
        refine ⟨l, hk, ?_⟩
        rcases h with h | h
        · exact h
        · cases hd : l.data with
          | none => rw [hd] at h; cases h
          | some d => rw [hd] at h; simp [dataCode] at h
    | inr n' =>
      dsimp only
      by_cases hif : l.last.any If.hasLoop = true
      · rw [if_pos hif]; trivial
      · rw [if_neg hif]
        have ih := ends_lines (w := w) hprog ls n' (k + 1) hd'
        generalize seekLines w n' (k + 1) ls = z at ih
        have hall : ∀ {o : Option (List Instr)}, EndsAt U w n' none (progCode ls) o →
            EndsAt U w n none (labelCode l.label ++ (codeJoin bcCommandFirst l.stmts ++ (ifCode l.last ++ (dataCode l.data ++ progCode ls)))) o :=
          fun h => hlab (hj _ _ (ends_if _ hl.1.last (by simpa using hif) (hdat h)))
        cases z with
        | «at» t m =>
          obtain ⟨sk, h1, h2⟩ := ih
          exact ⟨sk, hall h1, h2⟩
        | missing => exact hall ih
        | unknown => trivial

/-- The search in what is left of a program. -/
theorem ends_rest {U : List (List Nat)} {C : Nat → Prop} {w : List Nat} {prog : List Line} (hprog : FitsProg U C prog) {cfg : Cfg σ} {a t : List Instr}
    (hbody : Body prog U C cfg.todo cfg.next a) (ht : progCode prog = a ++ t) : match cfg.nextOf prog w with
    | .at td n => ∃ r, EndsAt U w 0 none t (some r) ∧ ∀ v, t = v ++ r → Place prog U C td n (posAfter (a ++ v))
    | .missing => EndsAt U w 0 none t none
    | .unknown => True := by
  obtain ⟨sk, hp, ho, hl, hf, hI⟩ := hbody
  have htt : t = codeJoin bcCommandFirst cfg.todo.stmts ++ (ifCode cfg.todo.last ++ (sk ++ progCode (prog.drop cfg.next))) :=
    List.append_cancel_left (ht.symm.trans hp)
  have hj := ends_join (w := w) cfg.todo.stmts 0 hf.stmts
  unfold Cfg.nextOf
  generalize seek w 0 cfg.todo.stmts = z at hj
  cases z with
  | inl q =>
    refine ⟨_, by rw [htt]; exact hj.2 _, fun v hv => ⟨_, bcCommandFirst, Or.inr rfl, rfl, sk, ?_, ho, hl, ⟨fun s hs => hf.stmts s (hj.1 s hs), hf.last⟩, hI⟩⟩
    rw [ht, hv, List.append_assoc]
  | inr n =>
    dsimp only
    by_cases hun : (cfg.todo.last.any If.hasLoop || inBranch prog cfg) = true
    · rw [if_pos hun]; trivial
    · rw [if_neg hun]
      simp only [Bool.or_eq_true, not_or, Bool.not_eq_true] at hun
      -- what is passed over
      have hsk : sk = [] ∨ ∃ x, sk = [.text bcData x] := by
        cases ho with
        | none => exact Or.inl rfl
        | data x => exact Or.inr ⟨x, rfl⟩
        | endif =>
          exfalso
          have h1 := hl (by simp)
          obtain ⟨l, h2, h3⟩ := hI (Or.inr (by simp))
          have := hun.2
          unfold inBranch at this
          rw [h1, h2] at this
          simp [h3] at this
        | else' e he =>
          exfalso
          have h1 := hl (by simp)
          obtain ⟨l, h2, h3⟩ := hI (Or.inr (by simp))
          have := hun.2
          unfold inBranch at this
          rw [h1, h2] at this
          simp [h3] at this
      have hover : ∀ {o : Option (List Instr)}, EndsAt U w n none (progCode (prog.drop cfg.next)) o → EndsAt U w 0 none t o := by
        intro o h
        rw [htt]
        refine hj _ _ (ends_if _ (fun x hx => (hf.last x hx).1) hun.1 ?_)
        rcases hsk with rfl | ⟨x, rfl⟩
        · exact h
        · exact .skip _ _ _ _ _ still_text.1 still_text.2 (h.gen (by intro q hq; cases hq) (by intro q hq; cases hq; rfl))
      have hlines := ends_lines (w := w) hprog (prog.drop cfg.next) n cfg.next rfl
      generalize seekLines w n cfg.next (prog.drop cfg.next) = z at hlines
      cases z with
      | «at» td m =>
        obtain ⟨sk', h1, h2⟩ := hlines
        exact ⟨_, hover h1, fun v hv => ⟨_, bcCommandFirst, Or.inr rfl, rfl, sk', by rw [ht, hv, List.append_assoc], h2⟩⟩
      | missing => exact hover hlines
      | unknown => trivial

end Sbc.Source
