import Verif.Proof.Labels
set_option autoImplicit false
/-!
# C03: labels resolve to their unique definition
-/
namespace Sbc.Labels
open Sbc Sbc.Names

/-- **C03.** For every power-of-two table size and every history of label definitions, lookups and
resets, the observable results are those of a bounded list of first definitions. -/
theorem C03_refines_definitions (n : Nat) (ops : List Op) (h : ∀ op ∈ ops, op.WF) :
    (run (init (2 ^ n)) ops).2 = (Spec.run { cap := 2 ^ n, m := [] } ops).2 :=
  (rel_run (rel_init n) ops h).1

/-- Definitions in program order. -/
def defs (l : List (List Nat × Nat)) : List Op := l.map fun d => .define d.1 d.2

/-- **C03.** If a program's label definitions have distinct names and there are at most `2^n` of them,
all are accepted, and looking up a name gives exactly the position where it was defined, or "not
found" if it was never defined. -/
theorem C03_lookup_after_definitions (n : Nat) (l : List (List Nat × Nat))
    (hg : ∀ d ∈ l, GoodName d.1) (hnd : (l.map Prod.fst).Nodup) (hl : l.length ≤ 2 ^ n)
    (name : List Nat) (hn : GoodName name) :
    (run (init (2 ^ n)) (defs l)).2 = l.map (fun _ => Res.added true) ∧
    labelIndex (run (init (2 ^ n)) (defs l)).1 name = l.lookup name := by
  have key : ∀ (l pre : List (List Nat × Nat)), (∀ d ∈ l, GoodName d.1) →
      ((pre ++ l).map Prod.fst).Nodup → (pre ++ l).length ≤ 2 ^ n →
      (Spec.run { cap := 2 ^ n, m := pre } (defs l)).2 = l.map (fun _ => Res.added true) ∧
      (Spec.run { cap := 2 ^ n, m := pre } (defs l)).1.m = pre ++ l := by
    intro l
    induction l with
    | nil => intro pre _ _ _; simp [defs, Spec.run]
    | cons d l ih =>
      intro pre h1 h2 h3
      obtain ⟨nm, ix⟩ := d
      have hnone : pre.lookup nm = none := by
        apply lookup_none_iff.2
        intro v hv
        rw [List.map_append, List.nodup_append] at h2
        exact h2.2.2 nm (List.mem_map_of_mem (f := Prod.fst) hv) nm (by simp) rfl
      have hlen : pre.length ≠ 2 ^ n := by
        rw [List.length_append, List.length_cons] at h3; omega
      have := ih (pre ++ [(nm, ix)]) (fun d hd => h1 d (by simp [hd]))
        (by rw [List.append_assoc]; exact h2) (by rw [List.append_assoc]; exact h3)
      simp only [defs, List.map_cons, Spec.run, Spec.step]
      rw [if_neg (by simp [hnone, hlen])]
      simp only [defs] at this
      rw [this.1, this.2]
      simp
  have hw : ∀ op ∈ defs l, op.WF := by
    intro op hop
    obtain ⟨d, hd, rfl⟩ := List.mem_map.1 hop
    exact hg d hd
  obtain ⟨h1, h2⟩ := rel_run (rel_init n) (defs l) hw
  obtain ⟨k1, k2⟩ := key l [] hg (by simpa using hnd) (by simpa using hl)
  refine ⟨by rw [h1, k1], ?_⟩
  have h3 := (rel_step h2 (.lookup name) hn).1
  simp only [step, Spec.step, Res.at.injEq] at h3
  rw [h3, k2]; rfl

/-- **C03.** Defining a name again is rejected and does not change where it points. -/
theorem C03_duplicate_rejected (n : Nat) (ops : List Op) (h : ∀ op ∈ ops, op.WF) (name : List Nat)
    (hn : GoodName name) (i j : Nat)
    (hdef : labelIndex (run (init (2 ^ n)) ops).1 name = some i) :
    add (run (init (2 ^ n)) ops).1 name j = ((run (init (2 ^ n)) ops).1, false) := by
  have r := (rel_run (rel_init n) ops h).2
  unfold add
  rcases probe r.inv hn with ⟨_, _, _, _, h2⟩ | ⟨_, _, _, _, _, h1, _⟩ | ⟨_, h1, _⟩
  · rw [h2]
  · unfold labelIndex at hdef; rw [h1] at hdef; cases hdef
  · unfold labelIndex at hdef; rw [h1] at hdef; cases hdef

-- Non-vacuity: colliding labels A (65) and C (67) in a table of two, duplicate, full, missing.
example : (run (init 2) [.define [65] 10, .define [67] 20, .define [65] 30, .define [66] 40,
    .lookup [65], .lookup [67], .lookup [66]]).2 =
    [.added true, .added true, .added false, .added false, .at (some 10), .at (some 20), .at none] := by
  decide
example : GoodName [65, 66, 49] := by decide

end Sbc.Labels
