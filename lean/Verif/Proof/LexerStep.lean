import Verif.Proof.Compile
import Verif.Proof.Code
set_option autoImplicit false
/-!
# What a step of the lexer consumes and produces
-/
namespace Sbc.Tok.Spec
open Sbc Sbc.Tok

/-- Tokens as the lexer makes them from the text `rest`. -/
def Made (rest : List Nat) (t : Tk) : Prop :=
  match t.ty with
  | .label => 1 ≤ t.text.length ∧ t.text.length ≤ 16 ∧ ∀ c ∈ t.text, c ∈ rest
  | .name => t.text.length ≤ 255 ∧ (∃ c r, t.text = c :: r ∧ isNameStart c = true) ∧ (∀ c ∈ t.text, isVarname c = true) ∧ ∃ r, t.text ++ r = rest
  | .string => t.text.length ≤ 255
  | .command => t.cmd = cmdData → t.text.length ≤ 255
  | .arrayName | .arrayActual | .dimArr | .firstCommand | .argCount | .loopBegin | .labelString => False
  | _ => True

/-- A step from `s` to `s'`. -/
def Stepped (s s' : Lx) (ctl : LxCtl) : Prop :=
  s'.rest <:+ s.rest ∧ ((∃ e, ctl = .fail e) ∨ s'.rest.length < s.rest.length) ∧ (ctl = .convert → s'.comment = false) ∧
    ∃ new, s'.toks = s.toks ++ new ∧ (s.rest.length ≤ 256 → ∀ t ∈ new, Made s.rest t)

theorem stepped_add {s s' : Lx} {ctl : LxCtl} {r : List Nat} {com : Bool} {t : Tk}
    (h : (Lx.add ⟨r, s.toks, com⟩ t).bind (fun s => .ok (s, .next)) = .ok (s', ctl))
    (h1 : r <:+ s.rest) (h2 : r.length < s.rest.length) (h3 : s.rest.length ≤ 256 → Made s.rest t) : Stepped s s' ctl := by
  obtain ⟨x, hx, h⟩ := bind_inv h
  unfold Lx.add at hx
  split at hx
  · cases hx; cases h
    exact ⟨h1, Or.inr h2, by simp, [t], rfl, fun hl u hu => by rw [List.mem_singleton] at hu; rw [hu]; exact h3 hl⟩
  · cases hx

theorem stepped_fail {s s' : Lx} {ctl : LxCtl} {r : List Nat} {com : Bool} {e : Nat}
    (h : (Out.ok ((⟨r, s.toks, com⟩ : Lx), LxCtl.fail e)) = .ok (s', ctl)) (h1 : r <:+ s.rest) : Stepped s s' ctl := by
  cases h
  exact ⟨h1, Or.inl ⟨e, rfl⟩, by simp, [], by simp, fun _ t ht => by cases ht⟩

theorem stepped_skip {s s' : Lx} {ctl : LxCtl} {r : List Nat} {com : Bool}
    (h : (Out.ok ((⟨r, s.toks, com⟩ : Lx), LxCtl.next)) = .ok (s', ctl)) (h1 : r <:+ s.rest) (h2 : r.length < s.rest.length) : Stepped s s' ctl := by
  cases h
  exact ⟨h1, Or.inr h2, by simp, [], by simp, fun _ t ht => by cases ht⟩

theorem spanOf_inv {p : Nat → Bool} {l : List Nat} {x : List Nat × List Nat} (h : spanOf p l = .ok x) :
    x.1 ++ x.2 = l ∧ x.1.length < l.length ∧ x.2 <:+ l ∧ ∀ c ∈ x.1, p c = true := by
  unfold spanOf at h
  split at h
  · cases h
  · rename_i hne
    cases h
    have he := List.takeWhile_append_dropWhile (p := p) (l := l)
    refine ⟨he, ?_, List.dropWhile_suffix p, fun c hc => List.all_eq_true.mp (List.all_takeWhile (p := p) (l := l)) c hc⟩
    have : 0 < (l.dropWhile p).length := List.length_pos_iff.mpr hne
    have h2 : (l.takeWhile p ++ l.dropWhile p).length = l.length := by rw [he]
    rw [List.length_append] at h2
    show (l.takeWhile p).length < l.length
    omega

theorem spanOne_inv {p : Nat → Bool} {c : Nat} {r : List Nat} {x : List Nat × List Nat} (h : spanOne p (c :: r) = .ok x) :
    x.1 ++ x.2 = c :: r ∧ (∃ w, x.1 = c :: w ∧ ∀ d ∈ w, p d = true) ∧ x.1.length < (c :: r).length ∧ x.2 <:+ c :: r ∧ x.2.length < (c :: r).length := by
  simp only [spanOne] at h
  obtain ⟨y, hy, h⟩ := bind_inv h
  cases h
  obtain ⟨h1, h2, h3, h4⟩ := spanOf_inv hy
  refine ⟨by simp [h1], ⟨y.1, rfl, h4⟩, by simp only [List.length_cons]; omega, h3.trans (List.suffix_cons c r), ?_⟩
  have := h3.length_le
  simp only [List.length_cons]; omega

theorem mem_of_append {w r l : List Nat} (h : w ++ r = l) : ∀ c ∈ w, c ∈ l := by
  intro c hc; rw [← h]; exact List.mem_append_left _ hc

theorem toLineEnd_le (l : List Nat) : (toLineEnd l).length ≤ l.length := by
  unfold toLineEnd
  have h := List.takeWhile_append_dropWhile (p := (· != 13)) (l := l)
  have h2 := congrArg List.length h
  rw [List.length_append] at h2
  rw [List.length_append, List.length_take]
  omega

theorem suffix_of_cons {c : Nat} {r l : List Nat} (h : l = c :: r) : r <:+ l ∧ r.length < l.length := by
  subst h; exact ⟨List.suffix_cons c r, by simp⟩

theorem tokLabel_stepped {s s0 s' : Lx} {ctl : LxCtl} (hs : s.rest <:+ s0.rest) (ht : s.toks = s0.toks)
    (h : tokLabel s = .ok (s', ctl)) : Stepped s0 s' ctl := by
  obtain ⟨rest, toks, com⟩ := s
  simp only at hs ht
  subst ht
  cases rest with
  | nil => simp [tokLabel] at h
  | cons c r =>
    simp only [tokLabel] at h
    have hr : r <:+ s0.rest := (List.suffix_cons c r).trans hs
    split at h
    · exact stepped_fail h hr
    · have hd : r.dropWhile (· == 32) <:+ s0.rest := (List.dropWhile_suffix _).trans hr
      have hdl : (r.dropWhile (· == 32)).length < s0.rest.length := by
        have h1 : (r.dropWhile (· == 32)).length ≤ r.length := (List.dropWhile_suffix _).length_le
        have h2 := hs.length_le
        simp only [List.length_cons] at h2
        omega
      generalize r.dropWhile (· == 32) = q at h hd hdl
      cases q with
      | nil => cases h
      | cons d q =>
        simp only at h
        split at h
        · exact stepped_fail h hd
        · obtain ⟨x, hx, h⟩ := bind_inv h
          obtain ⟨x1, ⟨w, x2, xw⟩, x3, x4, x5⟩ := spanOne_inv hx
          split at h
          · exact stepped_fail h (x4.trans hd)
          · rename_i h16
            refine stepped_add h (x4.trans hd) (by omega) fun hl => ?_
            have hlen : x.1.length ≤ 255 := by omega
            have hc : cut x.1 = x.1 := cut_eq (by omega)
            show 1 ≤ (cut x.1).length ∧ (cut x.1).length ≤ 16 ∧ ∀ c ∈ cut x.1, c ∈ s0.rest
            rw [hc] at h16 ⊢
            refine ⟨by rw [x2]; simp, by omega, fun c hc => hd.subset (mem_of_append x1 c hc)⟩

theorem tokName_stepped {s s' : Lx} {ctl : LxCtl} {c : Nat} {r : List Nat} (hs : s.rest = c :: r) (hc : isNameStart c = true)
    (h : tokName s = .ok (s', ctl)) : Stepped s s' ctl := by
  unfold tokName at h
  split at h
  · cases h
  · rw [hs] at h
    obtain ⟨x, hx, h⟩ := bind_inv h
    obtain ⟨x1, ⟨w, x2, xw⟩, x3, x4, x5⟩ := spanOne_inv hx
    rw [← hs] at x1 x3 x4 x5
    dsimp only at h
    split at h
    · rename_i i hi
      split at h
      · refine stepped_add h x4 x5 fun hl _ => ?_
        have := toLineEnd_le x.2
        show (toLineEnd x.2).length ≤ 255
        omega
      · rename_i hne
        exact stepped_add h x4 x5 fun hl e => absurd e hne
    · split at h
      · exact stepped_add h x4 x5 fun hl => trivial
      · split at h
        · exact stepped_add h x4 x5 fun hl => trivial
        · split at h
          · exact tokLabel_stepped (s := { rest := x.2, toks := s.toks, comment := s.comment }) x4 rfl h
          · split at h
            · exact stepped_add h x4 x5 fun hl => trivial
            · split at h
              · exact stepped_add h x4 x5 fun hl => trivial
              · refine stepped_add h x4 x5 fun hl => ?_
                have hcut : cut x.1 = x.1 := cut_eq (by omega)
                show (cut x.1).length ≤ 255 ∧ (∃ c r, cut x.1 = c :: r ∧ isNameStart c = true) ∧ (∀ c ∈ cut x.1, isVarname c = true) ∧ ∃ r, cut x.1 ++ r = s.rest
                rw [hcut]
                refine ⟨by omega, ⟨c, w, x2, hc⟩, fun d hd => ?_, x.2, x1⟩
                rw [x2] at hd
                rcases List.mem_cons.mp hd with rfl | hd
                · exact (nameStart_ne hc).2
                · exact xw d hd

theorem tokNone_stepped {s s' : Lx} {ctl : LxCtl} (h : tokNone s = .ok (s', ctl)) : Stepped s s' ctl := by
  cases hs : s.rest with
  | nil => simp [tokNone, hs] at h
  | cons c r =>
    obtain ⟨q1, q2⟩ := suffix_of_cons hs
    unfold tokNone at h
    rw [hs] at h
    simp only at h
    by_cases k0 : c = 13
    · rw [if_pos k0] at h
      obtain ⟨x, hx, h⟩ := bind_inv h
      unfold Lx.add at hx
      split at hx
      · cases hx; cases h
        refine ⟨q1, Or.inr q2, fun _ => rfl, _, rfl, fun hl u hu => ?_⟩
        rw [List.mem_singleton] at hu; rw [hu]; exact trivial
      · cases hx
    rw [if_neg k0] at h
    by_cases kc : s.comment = true
    · rw [if_pos kc] at h
      exact stepped_skip h q1 q2
    rw [if_neg kc] at h
    by_cases k1 : isNameStart c = true
    · rw [if_pos k1] at h
      exact tokName_stepped hs k1 h
    rw [if_neg k1] at h
    by_cases k2 : c = 63
    · rw [if_pos k2] at h
      exact stepped_add h q1 q2 fun _ e => by simp [cmdData, cmdPrint] at e
    rw [if_neg k2] at h
    by_cases k3 : c = 58
    · rw [if_pos k3] at h
      exact stepped_add h q1 q2 fun _ => trivial
    rw [if_neg k3] at h
    by_cases k4 : c = 32
    · rw [if_pos k4] at h
      exact stepped_skip h q1 q2
    rw [if_neg k4] at h
    by_cases k5 : c = 34
    · rw [if_pos k5] at h
      unfold tokString at h
      obtain ⟨x, hx, h⟩ := bind_inv h
      obtain ⟨x1, x2, x3, -⟩ := spanOf_inv hx
      have hr : (match x.2 with | 34 :: t => t | t => t) <:+ x.2 := by
        split
        · rename_i t e; rw [e]; exact List.suffix_cons _ _
        · exact List.suffix_refl _
      have h1 := (hr.trans x3).length_le
      refine stepped_add h ((hr.trans x3).trans q1) (Nat.lt_of_le_of_lt h1 q2) fun hl => ?_
      show (cut x.1).length ≤ 255
      rw [cut_eq (by omega)]; omega
    rw [if_neg k5] at h
    by_cases k6 : c = 38
    · rw [if_pos k6] at h
      unfold tokBaseNumber at h
      split at h
      · rename_i a b d q e
        obtain ⟨x, hx, h⟩ := bind_inv h
        obtain ⟨x1, x2, x3, -⟩ := spanOf_inv hx
        have hq : q <:+ s.rest := by
          rw [e]
          exact (List.suffix_cons d q).trans ((List.suffix_cons b _).trans (List.suffix_cons a _))
        refine stepped_add h (x3.trans hq) ?_ fun _ => trivial
        have := x3.length_le
        rw [e]; simp only [List.length_cons]; omega
      · cases h
    rw [if_neg k6] at h
    by_cases k7 : (isDigit c || c == 46) = true
    · rw [if_pos k7] at h
      unfold tokNumberLex at h
      rw [hs] at h
      obtain ⟨x, hx, h⟩ := bind_inv h
      obtain ⟨x1, x2, x3, x4, x5⟩ := spanOne_inv hx
      rw [← hs] at x4 x5
      exact stepped_add h x4 x5 fun _ => trivial
    rw [if_neg k7] at h
    by_cases k8 : isSingleOp c = true
    · rw [if_pos k8] at h
      exact stepped_add h q1 q2 fun _ => trivial
    rw [if_neg k8] at h
    by_cases k9 : c = 60 ∨ c = 61 ∨ c = 62 ∨ c = 33
    · rw [if_pos k9] at h
      split at h
      · cases h
      · rename_i r' 
        have hq : r' <:+ s.rest := (List.suffix_cons 61 r').trans q1
        refine stepped_add h hq ?_ fun _ => trivial
        simp only [List.length_cons] at q2; omega
      · exact stepped_add h q1 q2 fun _ => trivial
    rw [if_neg k9] at h
    by_cases k10 : c = 64
    · rw [if_pos k10] at h
      split at h
      · cases h
      · cases r with
        | nil => cases h
        | cons d q =>
          obtain ⟨x, hx, h⟩ := bind_inv h
          obtain ⟨x1, ⟨w, x2, xw⟩, x3, x4, x5⟩ := spanOne_inv hx
          split at h
          · exact stepped_fail h (x4.trans q1)
          · rename_i h16
            refine stepped_add h (x4.trans q1) (by omega) fun hl => ?_
            have hc : cut x.1 = x.1 := cut_eq (by omega)
            show 1 ≤ (cut x.1).length ∧ (cut x.1).length ≤ 16 ∧ ∀ c ∈ cut x.1, c ∈ s.rest
            rw [hc] at h16 ⊢
            exact ⟨by rw [x2]; simp, by omega, fun c hc => q1.subset (mem_of_append x1 c hc)⟩
    rw [if_neg k10] at h
    by_cases k11 : c = 39
    · rw [if_pos k11] at h
      exact stepped_skip h q1 q2
    rw [if_neg k11] at h
    exact stepped_fail (r := s.rest) h (List.suffix_refl _)

end Sbc.Tok.Spec
