import Verif.Spec.Compile
import Verif.Proof.Lexer
set_option autoImplicit false
/-!
# Proofs about the compiler's main loop
-/
namespace Sbc.Tok.Spec
open Sbc Sbc.Tok

theorem ok_bind {α β : Type} (a : α) (f : α → Out β) : (Out.ok a).bind f = f a := rfl

/-! ## The lexer stays inside a line -/

theorem Contained.suffix {a b : List Nat} (h : Contained a) (hs : b <:+ a) : Contained b := by
  obtain ⟨x, rfl⟩ := hs
  refine ⟨fun hm => h.noEnd (List.mem_append_right _ hm), by have := h.len; simp at this; omega,
    fun u v e => h.amp (x ++ u) v (by rw [e, List.append_assoc]), fun u v e => h.lab (x ++ u) v (by rw [e, List.append_assoc]),
    fun u v e => h.word (x ++ u) v (by rw [e, List.append_assoc])⟩

/-- A step of the lexer that depends on the line only, and leaves the cursor in the line. -/
def Local (f : List Nat → Out (Lx × LxCtl)) (a : List Nat) (toks : List Tk) : Prop :=
  ((∀ rest, f rest = .ub) ∧ 100 ≤ toks.length) ∨ ∃ a' toks' com' ctl, (∀ rest, f rest = .ok (⟨a' ++ 13 :: rest, toks', com'⟩, ctl)) ∧ a' <:+ a ∧
    ctl ≠ .convert ∧ (∀ e, ctl = .fail e → com' = false) ∧ (ctl = .next → a'.length < a.length) ∧ toks'.length ≤ toks.length + 1

theorem local_add {a' a : List Nat} (hs : a' <:+ a) (hl : a'.length < a.length) (toks : List Tk) (com : Bool) (t : Tk) :
    Local (fun rest => (Lx.add ⟨a' ++ 13 :: rest, toks, com⟩ t).bind fun s => .ok (s, .next)) a toks := by
  by_cases h : toks.length < 100
  · refine Or.inr ⟨a', toks ++ [t], com, .next, ?_, hs, by simp, by simp, fun _ => hl, by simp⟩
    intro rest
    show (Lx.add ⟨a' ++ 13 :: rest, toks, com⟩ t).bind _ = _
    rw [add_eq h]
    rfl
  · refine Or.inl ⟨fun rest => ?_, by omega⟩
    have : Lx.add ⟨a' ++ 13 :: rest, toks, com⟩ t = .ub := if_neg h
    simp only [this, Out.bind]

theorem local_fail {a' a : List Nat} (hs : a' <:+ a) (toks : List Tk) (e : Nat) :
    Local (fun rest => .ok (⟨a' ++ 13 :: rest, toks, false⟩, .fail e)) a toks :=
  Or.inr ⟨a', toks, false, .fail e, fun _ => rfl, hs, by simp, by simp, by simp, by simp⟩

theorem local_congr {f g : List Nat → Out (Lx × LxCtl)} {a : List Nat} {toks : List Tk} (h : ∀ rest, f rest = g rest) (hg : Local g a toks) : Local f a toks := by
  have : f = g := funext h
  rw [this]; exact hg

theorem takeWhile_line {p : Nat → Bool} (hp : p 13 = false) (rest : List Nat) :
    ∀ r : List Nat, (r ++ 13 :: rest).takeWhile p = r.takeWhile p ∧ (r ++ 13 :: rest).dropWhile p = r.dropWhile p ++ 13 :: rest
  | [] => by simp [List.takeWhile, List.dropWhile, hp]
  | c :: r => by
    obtain ⟨h1, h2⟩ := takeWhile_line hp rest r
    by_cases hc : p c = true
    · rw [List.cons_append, List.takeWhile_cons_of_pos hc, List.takeWhile_cons_of_pos hc, List.dropWhile_cons_of_pos hc,
        List.dropWhile_cons_of_pos hc, h1, h2]
      exact ⟨rfl, rfl⟩
    · rw [List.cons_append, List.takeWhile_cons_of_neg hc, List.takeWhile_cons_of_neg hc, List.dropWhile_cons_of_neg hc,
        List.dropWhile_cons_of_neg hc]
      exact ⟨rfl, rfl⟩

theorem spanOf_line {p : Nat → Bool} (hp : p 13 = false) (r rest : List Nat) :
    spanOf p (r ++ 13 :: rest) = .ok (r.takeWhile p, r.dropWhile p ++ 13 :: rest) := by
  obtain ⟨h1, h2⟩ := takeWhile_line hp rest r
  unfold spanOf
  rw [h1, h2, if_neg (by simp)]

theorem spanOne_line {p : Nat → Bool} (hp : p 13 = false) (c : Nat) (r rest : List Nat) :
    spanOne p (c :: r ++ 13 :: rest) = .ok (c :: r.takeWhile p, r.dropWhile p ++ 13 :: rest) := by
  unfold spanOne
  simp only [List.cons_append]
  rw [spanOf_line hp]
  rfl

theorem dropWhile_suffix' (p : Nat → Bool) (r : List Nat) : r.dropWhile p <:+ r := List.dropWhile_suffix p

theorem cons_suffix {a r : List Nat} {c : Nat} (h : a <:+ r) : a <:+ c :: r ∧ a.length < (c :: r).length :=
  ⟨h.trans (List.suffix_cons c r), by have := h.length_le; simp; omega⟩

theorem cut_short {w a : List Nat} (h : a.length ≤ 255) (hw : w.length ≤ a.length) : cut w = w := cut_eq (by omega)

theorem takeWhile_len (p : Nat → Bool) (r : List Nat) : (r.takeWhile p).length ≤ r.length :=
  (List.takeWhile_prefix p).length_le

theorem label_spelled {w : List Nat} (hw : ∀ c ∈ w, isVarname c = true) (h : (inTable labelTable w).isSome = true) : Spelled "LABEL" w := by
  apply Decidable.byContradiction
  intro hn
  have hn' : w.map upper ≠ chars "LABEL" := hn
  rw [labelTable_eq, inTable_none labelOk.1 (no_blank hw)] at h
  · cases h
  · intro n hm
    have : n = chars "LABEL" := by simpa [codes] using hm
    rw [this]; exact hn'
  · intro n hm h8
    have : n = chars "LABEL" := by simpa [codes] using hm
    rw [this] at h8
    exact absurd h8 (by decide +kernel)

theorem local_tokLabel {d a : List Nat} (hd : d ≠ []) (hs : d <:+ a) (hl : a.length ≤ 255) (toks : List Tk) :
    Local (fun rest => tokLabel ⟨d ++ 13 :: rest, toks, false⟩) a toks := by
  cases d with
  | nil => exact absurd rfl hd
  | cons x d =>
    have hs' : d <:+ a := (List.suffix_cons x d).trans hs
    by_cases hx : x = 32
    · subst hx
      have hdw : ∀ rest, (d ++ 13 :: rest).dropWhile (· == 32) = d.dropWhile (· == 32) ++ 13 :: rest := fun rest => (takeWhile_line (by decide) rest d).2
      have hsd : d.dropWhile (· == 32) <:+ d := List.dropWhile_suffix _
      cases hq : d.dropWhile (· == 32) with
      | nil =>
        refine local_congr (fun rest => ?_) (local_fail (a' := []) (List.nil_suffix) toks 31)
        unfold tokLabel
        simp only [List.cons_append]
        rw [if_neg (by simp), hdw, hq]
        simp only [List.nil_append]
        rw [if_pos (by decide)]
      | cons y q =>
        have hsq : q <:+ d := (List.suffix_cons y q).trans (hq ▸ hsd)
        by_cases hy : isName y = true
        · have hlen : (y :: q.takeWhile isName).length ≤ a.length := by
            have h1 := takeWhile_len isName q
            have h2 : (y :: q).length ≤ a.length := (hq ▸ hsd.trans hs').length_le
            simp only [List.length_cons] at h2 ⊢
            omega
          have hcut := cut_short hl hlen
          have hsw : q.dropWhile isName <:+ a := ((List.dropWhile_suffix _).trans hsq).trans hs'
          by_cases h16 : (y :: q.takeWhile isName).length > 16
          · refine local_congr (fun rest => ?_) (local_fail hsw toks 57)
            unfold tokLabel
            simp only [List.cons_append]
            rw [if_neg (by simp), hdw, hq]
            simp only [List.cons_append]
            rw [if_neg (by simp [hy]), ← List.cons_append, spanOne_line (by decide)]
            simp only [Out.bind, hcut]
            rw [if_pos h16]
          · refine local_congr (fun rest => ?_) (local_add hsw ?_ toks false ⟨.label, y :: q.takeWhile isName, 0, 0⟩)
            · unfold tokLabel
              simp only [List.cons_append]
              rw [if_neg (by simp), hdw, hq]
              simp only [List.cons_append]
              rw [if_neg (by simp [hy]), ← List.cons_append, spanOne_line (by decide)]
              simp only [Out.bind, hcut]
              rw [if_neg h16]
            · have h1 : (q.dropWhile isName).length ≤ q.length := (List.dropWhile_suffix _).length_le
              have h2 : (y :: q).length ≤ a.length := (hq ▸ hsd.trans hs').length_le
              simp only [List.length_cons] at h2
              omega
        · have hy' : isName y = false := by simpa using hy
          refine local_congr (fun rest => ?_) (local_fail (a' := y :: q) (hq ▸ hsd.trans hs') toks 31)
          unfold tokLabel
          simp only [List.cons_append]
          rw [if_neg (by simp), hdw, hq]
          simp only [List.cons_append]
          rw [if_pos hy']
    · refine local_congr (fun rest => ?_) (local_fail hs' toks 31)
      unfold tokLabel
      simp only [List.cons_append]
      rw [if_pos hx]

theorem local_tokName {c : Nat} {r : List Nat} (h : Contained (c :: r)) (hc : isNameStart c = true) (toks : List Tk) :
    Local (fun rest => tokName ⟨c :: r ++ 13 :: rest, toks, false⟩) (c :: r) toks := by
  by_cases ht : toks.length ≥ 100
  · refine Or.inl ⟨fun rest => ?_, by omega⟩
    show tokName ⟨c :: r ++ 13 :: rest, toks, false⟩ = .ub
    unfold tokName
    rw [if_pos ht]
  · have hwl : (c :: r.takeWhile isVarname).length ≤ (c :: r).length := by
      have := takeWhile_len isVarname r
      simp only [List.length_cons]; omega
    have hcut : cut (c :: r.takeWhile isVarname) = c :: r.takeWhile isVarname := cut_short h.len hwl
    obtain ⟨s1, s2⟩ := cons_suffix (c := c) (List.dropWhile_suffix (l := r) isVarname)
    have hte : ∀ rest, toLineEnd (r.dropWhile isVarname ++ 13 :: rest) = r.dropWhile isVarname ++ [13] := by
      intro rest
      have hno : ∀ x ∈ r.dropWhile isVarname, x ≠ 13 := by
        rintro x hx rfl
        exact h.noEnd (List.mem_cons_of_mem _ ((List.dropWhile_suffix _).subset hx))
      unfold toLineEnd
      rw [List.takeWhile_append_of_pos (by simpa using hno), List.dropWhile_append_of_pos (by simpa using hno),
        List.takeWhile_cons_of_neg (by simp), List.dropWhile_cons_of_neg (by simp)]
      simp
    have hun : ∀ rest, tokName ⟨c :: r ++ 13 :: rest, toks, false⟩ =
        (let w := c :: r.takeWhile isVarname
        let s : Lx := ⟨r.dropWhile isVarname ++ 13 :: rest, toks, false⟩
        match inTable commandTable w with
        | some i =>
          if i = cmdData then
            ({ s with comment := true }.add ⟨.command, r.dropWhile isVarname ++ [13], i, 0⟩).bind fun s => .ok (s, .next)
          else (s.add ⟨.command, [], i, 0⟩).bind fun s => .ok (s, .next)
        | none => match inTable functionTable w with
          | some i => (s.add ⟨.function, [], i, 0⟩).bind fun s => .ok (s, .next)
          | none => match inTable operationTable w with
            | some i => (s.add ⟨.operation, [], i, 0⟩).bind fun s => .ok (s, .next)
            | none =>
              if (inTable labelTable w).isSome then tokLabel s
              else if (inTable commentTable w).isSome then
                ({ s with comment := true }.add ⟨.comment, w, 0, 0⟩).bind fun s => .ok (s, .next)
              else match inTable sysvarTable w with
                | some i => (s.add ⟨.sysvar, [], i, 0⟩).bind fun s => .ok (s, .next)
                | none => (s.add ⟨.name, w, 0, 0⟩).bind fun s => .ok (s, .next)) := by
      intro rest
      unfold tokName
      rw [if_neg ht]
      simp only
      rw [spanOne_line (by decide)]
      simp only [ok_bind, hcut, hte]
      cases inTable commandTable (c :: r.takeWhile isVarname) with
      | some i => rfl
      | none =>
        cases inTable functionTable (c :: r.takeWhile isVarname) with
        | some i => rfl
        | none =>
          cases inTable operationTable (c :: r.takeWhile isVarname) with
          | some i => rfl
          | none =>
            cases inTable sysvarTable (c :: r.takeWhile isVarname) with
            | some i => rfl
            | none => rfl
    refine local_congr hun ?_
    simp only
    cases inTable commandTable (c :: r.takeWhile isVarname) with
    | some i =>
      simp only
      by_cases hi : i = cmdData
      · simp only [if_pos hi]; exact local_add s1 s2 ..
      · simp only [if_neg hi]; exact local_add s1 s2 ..
    | none =>
      cases inTable functionTable (c :: r.takeWhile isVarname) with
      | some i => exact local_add s1 s2 ..
      | none =>
        cases inTable operationTable (c :: r.takeWhile isVarname) with
        | some i => exact local_add s1 s2 ..
        | none =>
          by_cases hlab : (inTable labelTable (c :: r.takeWhile isVarname)).isSome = true
          · simp only [if_pos hlab]
            refine local_tokLabel ?_ s1 h.len toks
            intro hd
            have hw : r.takeWhile isVarname = r := by
              have := List.takeWhile_append_dropWhile (p := isVarname) (l := r)
              rw [hd, List.append_nil] at this
              exact this
            have hv : ∀ x ∈ c :: r.takeWhile isVarname, isVarname x = true := by
              intro x hx
              rcases List.mem_cons.mp hx with rfl | hx
              · exact (nameStart_ne hc).2
              · exact List.all_eq_true.mp (List.all_takeWhile (p := isVarname) (l := r)) x hx
            refine h.word [] (c :: r) rfl ?_
            have := label_spelled hv hlab
            rwa [hw] at this
          · simp only [if_neg hlab]
            by_cases hrem : (inTable commentTable (c :: r.takeWhile isVarname)).isSome = true
            · simp only [if_pos hrem]; exact local_add s1 s2 ..
            · simp only [if_neg hrem]
              cases inTable sysvarTable (c :: r.takeWhile isVarname) with
              | some i => exact local_add s1 s2 ..
              | none => exact local_add s1 s2 ..

/-- A step of the lexer inside a line. -/
theorem local_tokNone {c : Nat} {r : List Nat} (h : Contained (c :: r)) (toks : List Tk) (com : Bool) :
    Local (fun rest => tokNone ⟨c :: r ++ 13 :: rest, toks, com⟩) (c :: r) toks := by
  have hc13 : c ≠ 13 := fun e => h.noEnd (by simp [e])
  obtain ⟨t1, t2⟩ := cons_suffix (c := c) (List.suffix_refl r)
  cases com with
  | true =>
    refine Or.inr ⟨r, toks, true, .next, fun rest => ?_, t1, by simp, by simp, fun _ => t2, by simp⟩
    show tokNone ⟨c :: (r ++ 13 :: rest), toks, true⟩ = _
    unfold tokNone
    simp only
    rw [if_neg hc13, if_pos trivial]
  | false =>
    by_cases k1 : isNameStart c = true
    · refine local_congr (fun rest => ?_) (local_tokName h k1 toks)
      show tokNone ⟨c :: (r ++ 13 :: rest), toks, false⟩ = _
      unfold tokNone
      simp only
      rw [if_neg hc13, if_neg (by simp), if_pos k1]
      rfl
    by_cases k2 : c = 63
    · refine local_congr (fun rest => ?_) (local_add t1 t2 toks false ⟨.command, [], cmdPrint, 0⟩)
      show tokNone ⟨c :: (r ++ 13 :: rest), toks, false⟩ = _
      unfold tokNone
      simp only
      rw [if_neg hc13, if_neg (by simp), if_neg k1, if_pos k2]
    by_cases k3 : c = 58
    · refine local_congr (fun rest => ?_) (local_add t1 t2 toks false ⟨.newline, [58], 0, 0⟩)
      show tokNone ⟨c :: (r ++ 13 :: rest), toks, false⟩ = _
      unfold tokNone
      simp only
      rw [if_neg hc13, if_neg (by simp), if_neg k1, if_neg k2, if_pos k3]
    by_cases k4 : c = 32
    · refine Or.inr ⟨r, toks, false, .next, fun rest => ?_, t1, by simp, by simp, fun _ => t2, by simp⟩
      show tokNone ⟨c :: (r ++ 13 :: rest), toks, false⟩ = _
      unfold tokNone
      simp only
      rw [if_neg hc13, if_neg (by simp), if_neg k1, if_neg k2, if_neg k3, if_pos k4]
    by_cases k5 : c = 34
    · have hwl := takeWhile_len (fun c => c != 34 && c != 13) r
      have hlen := h.len
      simp only [List.length_cons] at hlen
      have hcut : cut (r.takeWhile (fun c => c != 34 && c != 13)) = r.takeWhile (fun c => c != 34 && c != 13) := cut_eq (by omega)
      obtain ⟨s1, s2⟩ := cons_suffix (c := c) (List.dropWhile_suffix (l := r) (fun c => c != 34 && c != 13))
      have hun : ∀ rest, tokNone ⟨c :: r ++ 13 :: rest, toks, false⟩ =
          (let q := match r.dropWhile (fun c => c != 34 && c != 13) with | 34 :: t => t | t => t
          (Lx.add ⟨q ++ 13 :: rest, toks, false⟩ ⟨.string, r.takeWhile (fun c => c != 34 && c != 13), 0, 0⟩).bind fun s => .ok (s, .next)) := by
        intro rest
        show tokNone ⟨c :: (r ++ 13 :: rest), toks, false⟩ = _
        unfold tokNone
        simp only
        rw [if_neg hc13, if_neg (by simp), if_neg k1, if_neg k2, if_neg k3, if_neg k4, if_pos k5]
        unfold tokString
        rw [spanOf_line (by decide)]
        simp only [ok_bind, hcut]
        cases hq : r.dropWhile (fun c => c != 34 && c != 13) with
        | nil => rfl
        | cons x q =>
          by_cases hx : x = 34
          · subst hx; rfl
          · simp only [List.cons_append]
            split
            · rename_i heq
              simp only [List.cons.injEq] at heq
              exact absurd heq.1 hx
            · split
              · rename_i heq
                simp only [List.cons.injEq] at heq
                exact absurd heq.1 hx
              · rfl
      refine local_congr hun ?_
      simp only
      cases hq : r.dropWhile (fun c => c != 34 && c != 13) with
      | nil => exact local_add (List.nil_suffix) (by simp) ..
      | cons x q =>
        rw [hq] at s1 s2
        have hq1 : q <:+ c :: r := (List.suffix_cons x q).trans s1
        have hq2 : q.length < (c :: r).length := by simp only [List.length_cons] at s2 ⊢; omega
        split
        · rename_i heq
          simp only [List.cons.injEq] at heq
          rw [← heq.2]
          exact local_add hq1 hq2 ..
        · exact local_add s1 s2 ..
    by_cases k6 : c = 38
    · subst k6
      have h2 := h.amp [] r rfl
      match r, h2 with
      | a :: b :: q, _ =>
        have hlen := h.len
        simp only [List.length_cons] at hlen
        have hwl := takeWhile_len isBaseDigit q
        have hcut : cut (38 :: a :: b :: q.takeWhile isBaseDigit) = 38 :: a :: b :: q.takeWhile isBaseDigit :=
          cut_eq (by simp only [List.length_cons]; omega)
        have hds : q.dropWhile isBaseDigit <:+ q := List.dropWhile_suffix _
        have s1 : q.dropWhile isBaseDigit <:+ 38 :: a :: b :: q :=
          hds.trans ((List.suffix_cons b q).trans ((List.suffix_cons a _).trans (List.suffix_cons 38 _)))
        have s2 : (q.dropWhile isBaseDigit).length < (38 :: a :: b :: q).length := by
          have := hds.length_le
          simp only [List.length_cons]; omega
        refine local_congr (fun rest => ?_) (local_add s1 s2 toks false ⟨.baseNumber, 38 :: a :: b :: q.takeWhile isBaseDigit, 0, 0⟩)
        show tokNone ⟨38 :: (a :: b :: q ++ 13 :: rest), toks, false⟩ = _
        unfold tokNone
        simp only
        rw [if_neg hc13, if_neg (by simp), if_neg k1, if_neg k2, if_neg k3, if_neg k4, if_neg k5, if_pos trivial]
        unfold tokBaseNumber
        simp only [List.cons_append]
        rw [spanOf_line (by decide)]
        simp only [ok_bind, hcut]
    by_cases k7 : (isDigit c || c == 46) = true
    · have hwl := takeWhile_len (fun c => isDigit c || c == 46) r
      have hlen := h.len
      simp only [List.length_cons] at hlen
      have hcut : cut (c :: r.takeWhile (fun c => isDigit c || c == 46)) = c :: r.takeWhile (fun c => isDigit c || c == 46) :=
        cut_eq (by simp only [List.length_cons]; omega)
      obtain ⟨s1, s2⟩ := cons_suffix (c := c) (List.dropWhile_suffix (l := r) (fun c => isDigit c || c == 46))
      refine local_congr (fun rest => ?_) (local_add s1 s2 toks false ⟨.number, c :: r.takeWhile (fun c => isDigit c || c == 46), 0, 0⟩)
      show tokNone ⟨c :: (r ++ 13 :: rest), toks, false⟩ = _
      unfold tokNone
      simp only
      rw [if_neg hc13, if_neg (by simp), if_neg k1, if_neg k2, if_neg k3, if_neg k4, if_neg k5, if_neg k6, if_pos k7]
      unfold tokNumberLex
      simp only
      rw [← List.cons_append, spanOne_line (by decide)]
      simp only [ok_bind, hcut]
    by_cases k8 : isSingleOp c = true
    · refine local_congr (fun rest => ?_) (local_add t1 t2 toks false ⟨.operation, [], opIndex [c], 0⟩)
      show tokNone ⟨c :: (r ++ 13 :: rest), toks, false⟩ = _
      unfold tokNone
      simp only
      rw [if_neg hc13, if_neg (by simp), if_neg k1, if_neg k2, if_neg k3, if_neg k4, if_neg k5, if_neg k6, if_neg k7, if_pos k8]
    by_cases k9 : c = 60 ∨ c = 61 ∨ c = 62 ∨ c = 33
    · by_cases hq : ∃ q, r = 61 :: q
      · obtain ⟨q, rfl⟩ := hq
        have q1 : q <:+ c :: 61 :: q := (List.suffix_cons 61 q).trans (List.suffix_cons c _)
        refine local_congr (fun rest => ?_) (local_add q1 (by simp only [List.length_cons]; omega) toks false ⟨.operation, [], opIndex [c, 61], 0⟩)
        show tokNone ⟨c :: (61 :: q ++ 13 :: rest), toks, false⟩ = _
        unfold tokNone
        simp only [List.cons_append]
        rw [if_neg hc13, if_neg (by simp), if_neg k1, if_neg k2, if_neg k3, if_neg k4, if_neg k5, if_neg k6, if_neg k7, if_neg k8, if_pos k9]
      · refine local_congr (fun rest => ?_) (local_add t1 t2 toks false ⟨.operation, [], opIndex [c], 0⟩)
        show tokNone ⟨c :: (r ++ 13 :: rest), toks, false⟩ = _
        unfold tokNone
        simp only
        rw [if_neg hc13, if_neg (by simp), if_neg k1, if_neg k2, if_neg k3, if_neg k4, if_neg k5, if_neg k6, if_neg k7, if_neg k8, if_pos k9]
        cases r with
        | nil => rfl
        | cons x q =>
          have hx : x ≠ 61 := fun e => hq ⟨q, by rw [e]⟩
          simp only [List.cons_append]
          split
          · rename_i heq; cases heq
          · rename_i heq
            simp only [List.cons.injEq] at heq
            exact absurd heq.1 hx
          · rfl
    by_cases k10 : c = 64
    · subst k10
      have h2 := h.lab [] r rfl
      match r, h2 with
      | a :: q, _ =>
        have hun : ∀ rest, tokNone ⟨64 :: (a :: q) ++ 13 :: rest, toks, false⟩ =
            if toks.length ≥ 100 then .ub
            else if (a :: q.takeWhile isName).length > 16 then .ok (⟨q.dropWhile isName ++ 13 :: rest, toks, false⟩, .fail 57)
            else (Lx.add ⟨q.dropWhile isName ++ 13 :: rest, toks, false⟩ ⟨.label, a :: q.takeWhile isName, 0, 0⟩).bind fun s => .ok (s, .next) := by
          intro rest
          have hlen := h.len
          simp only [List.length_cons] at hlen
          have hwl := takeWhile_len isName q
          have hcut : cut (a :: q.takeWhile isName) = a :: q.takeWhile isName := cut_eq (by simp only [List.length_cons]; omega)
          show tokNone ⟨64 :: (a :: q ++ 13 :: rest), toks, false⟩ = _
          unfold tokNone
          simp only
          rw [if_neg hc13, if_neg (by simp), if_neg k1, if_neg k2, if_neg k3, if_neg k4, if_neg k5, if_neg k6, if_neg k7, if_neg k8,
            if_neg k9, if_pos trivial]
          by_cases ht : toks.length ≥ 100
          · rw [if_pos ht, if_pos ht]
          · rw [if_neg ht, if_neg ht, spanOne_line (by decide)]
            simp only [ok_bind, hcut]
        refine local_congr hun ?_
        have hds : q.dropWhile isName <:+ q := List.dropWhile_suffix _
        have s1 : q.dropWhile isName <:+ 64 :: a :: q := hds.trans ((List.suffix_cons a q).trans (List.suffix_cons 64 _))
        have s2 : (q.dropWhile isName).length < (64 :: a :: q).length := by
          have := hds.length_le
          simp only [List.length_cons]; omega
        by_cases ht : toks.length ≥ 100
        · exact Or.inl ⟨fun rest => by simp only [if_pos ht], ht⟩
        · simp only [if_neg ht]
          by_cases h16 : (a :: q.takeWhile isName).length > 16
          · simp only [if_pos h16]; exact local_fail s1 ..
          · simp only [if_neg h16]; exact local_add s1 s2 ..
    by_cases k11 : c = 39
    · refine Or.inr ⟨r, toks, true, .next, fun rest => ?_, t1, by simp, by simp, fun _ => t2, by simp⟩
      show tokNone ⟨c :: (r ++ 13 :: rest), toks, false⟩ = _
      unfold tokNone
      simp only
      rw [if_neg hc13, if_neg (by simp), if_neg k1, if_neg k2, if_neg k3, if_neg k4, if_neg k5, if_neg k6, if_neg k7, if_neg k8, if_neg k9,
        if_neg k10, if_pos k11]
    · refine local_congr (fun rest => ?_) (local_fail (a' := c :: r) (List.suffix_refl _) toks 61)
      show tokNone ⟨c :: (r ++ 13 :: rest), toks, false⟩ = _
      unfold tokNone
      simp only
      rw [if_neg hc13, if_neg (by simp), if_neg k1, if_neg k2, if_neg k3, if_neg k4, if_neg k5, if_neg k6, if_neg k7, if_neg k8, if_neg k9,
        if_neg k10, if_neg k11]
      rfl

/-- At the end of a line. -/
theorem tokNone_end (toks : List Tk) (com : Bool) (rest : List Nat) :
    tokNone ⟨13 :: rest, toks, com⟩ =
      if toks.length < 100 then .ok (⟨rest, toks ++ [⟨.newline, [13], 0, 0⟩], false⟩, .convert) else .ub := by
  unfold tokNone
  simp only
  rw [if_pos trivial]
  unfold Lx.add
  by_cases h : toks.length < 100
  · rw [if_pos h, if_pos h]; rfl
  · rw [if_neg h, if_neg h]; rfl

end Sbc.Tok.Spec
