import Verif.Proof.LoopSkip
import Verif.Spec.Sample
import Mathlib.Tactic.Ring
import Mathlib.Tactic.Linarith
set_option autoImplicit false
/-!
# C32 FOR/NEXT iterates the documented values
-/
namespace Sbc.Machine
open Sbc Sbc.Tok Sbc.Tok.Spec

variable {σ γ : Type} {env : Env σ} {g0 : γ} {f : Int → γ → γ}

theorem Passes.head {P : Int → Mach σ → Prop} {vs : List Int} {m m1 m' : Mach σ} (h : Reaches env m m1) (hp : Passes env P vs m1 m') :
    Passes env P vs m m' := by
  cases hp with
  | done h1 => exact .done (h.trans h1)
  | next h1 h2 h3 => exact .next (h.trans h1) h2 h3

theorem values_succ (a s : Int) (k : Nat) : values a s (k + 1) = a :: values (a + s) s k := by
  unfold values
  rw [List.range_succ_eq_map, List.map_cons, List.map_map]
  refine congrArg₂ _ (by simp) (List.map_congr_left fun i _ => ?_)
  simp only [Function.comp, Nat.succ_eq_add_one]
  push_cast
  ring

theorem between (a s : Int) (k i : Nat) (hi : i ≤ k) (lo hi' : Int) (h1 : lo ≤ a) (h2 : a ≤ hi') (h3 : lo ≤ a + k * s) (h4 : a + k * s ≤ hi') :
    lo ≤ a + i * s ∧ a + i * s ≤ hi' := by
  have hik : (i : Int) ≤ k := by exact_mod_cast hi
  have hi0 : (0 : Int) ≤ i := by omega
  by_cases hs : 0 ≤ s
  · have e1 : (0 : Int) ≤ i * s := Int.mul_nonneg hi0 hs
    have e2 : (i : Int) * s ≤ k * s := Int.mul_le_mul_of_nonneg_right hik hs
    omega
  · have e1 : (i : Int) * s ≤ 0 := Int.mul_nonpos_of_nonneg_of_nonpos hi0 (by omega)
    have e2 : (k : Int) * s ≤ i * s := Int.mul_le_mul_of_nonpos_right hik (by omega)
    omega

/-- Rounds that are followed by another one. -/
theorem rounds {Pre Inv0 : Core σ → Prop} {Inv : γ → Core σ → Prop} {p : Ptr} {a b s : Int} {l : Loop}
    (hl : l.Over env Pre Inv0 Inv g0 f p a b s) {pre post : List Instr} {cs : List Call} (hw : posAfter (pre ++ l.head) < 16777216) :
    (k : Nat) → (g : γ) → (v : Int) → (m : Mach σ) → Ready (Inv g) m (pre ++ l.head) (l.ctl ++ l.beginI :: (l.tail ++ post)) →
    m.core.mem p = v → m.calls = ⟨false, posAfter l.ctl * 16777216 + posAfter (pre ++ l.head), p⟩ :: cs →
    (∀ i : Nat, i ≤ k → ¬ Past s (v + i * s) b) → (∀ i : Nat, i ≤ k → -2147483648 ≤ v + i * s ∧ v + i * s ≤ 2147483647) →
    ∃ m', Passes env (AtBody p l pre post) (values v s k) m m' ∧
      Ready (Inv (effect f g (values v s k))) m' (pre ++ l.head) (l.ctl ++ l.beginI :: (l.tail ++ post)) ∧ m'.core.mem p = v + k * s ∧
      m'.calls = m.calls ∧ m'.frames = m.frames ∧ m'.labels = m.labels
  | 0, g, v, m, h, hv, hc, hp, hr => ⟨m, .done (Reaches.refl m), h, by rw [hv]; simp, rfl, rfl, rfl⟩
  | k + 1, g, v, m, h, hv, hc, hp, hr => by
    have hp0 := hp 0 (by omega)
    simp only [Nat.cast_zero, Int.zero_mul, Int.add_zero] at hp0
    have hp1 := hp 1 (by omega)
    have hr1 := hr 1 (by omega)
    simp only [Nat.cast_one, Int.one_mul] at hp1 hr1
    obtain ⟨m1, m2, r1, b1, r2, f2, l2, h2⟩ := iteration hl h hw hc (by rw [hv]; exact hp0)
    rw [hv] at b1 h2
    rw [if_neg (by omega), if_neg hp1] at h2
    obtain ⟨v2, h2, c2⟩ := h2
    have shift : ∀ i : Nat, v + s + (i : Int) * s = v + ((i + 1 : Nat) : Int) * s := by intro i; push_cast; ring
    obtain ⟨m3, r3, h3, v3, c3, f3, l3⟩ := rounds hl hw k _ (v + s) m2 h2 v2 (by rw [c2, hc])
      (fun i hi => by rw [shift]; exact hp (i + 1) (by omega)) (fun i hi => by rw [shift]; exact hr (i + 1) (by omega))
    rw [values_succ]
    exact ⟨m3, .next r1 b1 (r3.head r2), h3, by rw [v3, shift], by rw [c3, c2], by rw [f3, f2], by rw [l3, l2]⟩

theorem values_snoc (a s : Int) (k : Nat) : values a s (k + 1) = values a s k ++ [a + k * s] := by
  unfold values
  rw [List.range_succ, List.map_append]
  rfl

theorem Passes.snoc {P : Int → Mach σ → Prop} {vs : List Int} {v : Int} {m m1 m2 m' : Mach σ} (h : Passes env P vs m m1)
    (h1 : Reaches env m1 m2) (h2 : P v m2) (h3 : Reaches env m2 m') : Passes env P (vs ++ [v]) m m' := by
  induction h with
  | done h => exact .next (h.trans h1) h2 (.done h3)
  | next g1 g2 _ ih => exact .next g1 g2 (ih h1)

theorem effect_snoc (f : Int → γ → γ) (g : γ) (vs : List Int) (v : Int) : effect f g (vs ++ [v]) = f v (effect f g vs) := by
  unfold effect; rw [List.foldl_append]; rfl

/-- The loop up to and including its `k + 1`st round, whatever happens after. -/
theorem through {Pre Inv0 : Core σ → Prop} {Inv : γ → Core σ → Prop} {p : Ptr} {a b s : Int} {l : Loop}
    (hl : l.Over env Pre Inv0 Inv g0 f p a b s) {m : Mach σ} {pre post : List Instr} (h : Ready Pre m pre (l.code ++ post))
    (hwf : ∀ i ∈ post, i.WF) (hw : posAfter (pre ++ l.head) < 16777216) (hd : m.calls.length < 255) (k : Nat)
    (hp : ∀ i : Nat, i ≤ k → ¬ Past s (a + i * s) b) (hr : ∀ i : Nat, i ≤ k → -2147483648 ≤ a + i * s ∧ a + i * s ≤ 2147483647) :
    ∃ m', Passes env (AtBody p l pre post) (values a s (k + 1)) m m' ∧ m'.frames = m.frames ∧ m'.labels = m.labels ∧
      if a + (k + 1 : Nat) * s > 2147483647 ∨ a + (k + 1 : Nat) * s < -2147483648 then m'.core.error = eOverflow
      else m'.core.mem p = a + (k + 1 : Nat) * s ∧
        (Past s (a + (k + 1 : Nat) * s) b →
          Ready (Inv (effect f g0 (values a s (k + 1)))) m' (pre ++ l.code) post ∧ m'.calls = m.calls) := by
  obtain ⟨m1, r1, h1, v1, c1, f1, l1⟩ := for_runs hl h hwf hw hd
  obtain ⟨m2, r2, h2, v2, c2, f2, l2⟩ := rounds hl hw k g0 a m1 h1 v1 c1 hp hr
  obtain ⟨m3, m4, r3, b3, r4, f4, l4, h4⟩ := iteration hl h2 hw (c2.trans c1) (by rw [v2]; exact hp k (Nat.le_refl k))
  have e1 : a + ((k + 1 : Nat) : Int) * s = a + k * s + s := by push_cast; ring
  rw [v2] at b3 h4
  refine ⟨m4, ?_, by rw [f4, f2, f1], by rw [l4, l2, l1], ?_⟩
  · rw [values_snoc]
    exact (r2.snoc r3 b3 r4).head r1
  · rw [e1]
    split at h4
    · rename_i ho; rw [if_pos ho]; exact h4
    · rename_i ho
      rw [if_neg ho]
      refine ⟨h4.1, fun hp => ?_⟩
      have h5 := h4.2
      rw [if_pos hp] at h5
      rw [values_snoc, effect_snoc]
      exact h5

/-! ## Theorems -/

/-- A loop whose start has not passed the limit runs its body with exactly the values `a`, `a + s`, …, the last one that has
not passed the limit; after it the variable holds the first value past the limit and execution continues behind the
NEXT with the call stack as before. -/
theorem C32_values {Pre Inv0 : Core σ → Prop} {Inv : γ → Core σ → Prop} {p : Ptr} {a b s : Int} {l : Loop}
    (hl : l.Over env Pre Inv0 Inv g0 f p a b s) {m : Mach σ} {pre post : List Instr} (h : Ready Pre m pre (l.code ++ post))
    (hwf : ∀ i ∈ post, i.WF) (hw : posAfter (pre ++ l.head) < 16777216) (hd : m.calls.length < 255)
    (ha : -2147483648 ≤ a ∧ a ≤ 2147483647) {k : Nat} (hk : 1 ≤ k)
    (hp : ∀ i : Nat, i < k → ¬ Past s (a + i * s) b) (hpk : Past s (a + k * s) b)
    (hrk : -2147483648 ≤ a + k * s ∧ a + k * s ≤ 2147483647) :
    ∃ m', Passes env (AtBody p l pre post) (values a s k) m m' ∧
      Ready (Inv (effect f g0 (values a s k))) m' (pre ++ l.code) post ∧ m'.core.mem p = a + k * s ∧
      m'.calls = m.calls ∧ m'.frames = m.frames ∧ m'.labels = m.labels := by
  obtain ⟨k, rfl⟩ : ∃ j, k = j + 1 := ⟨k - 1, by omega⟩
  obtain ⟨m', r, f', l', h'⟩ := through hl h hwf hw hd k (fun i hi => hp i (by omega))
    (fun i hi => between a s (k + 1) i (by omega) _ _ ha.1 ha.2 hrk.1 hrk.2)
  rw [if_neg (by omega)] at h'
  obtain ⟨h1, h2⟩ := h'
  obtain ⟨h2, h3⟩ := h2 hpk
  exact ⟨m', r, h2, h1, h3, f', l'⟩

/-- If the next value does not fit a number, Overflow is reported after the body has run with the values before it. -/
theorem C32_overflow {Pre Inv0 : Core σ → Prop} {Inv : γ → Core σ → Prop} {p : Ptr} {a b s : Int} {l : Loop}
    (hl : l.Over env Pre Inv0 Inv g0 f p a b s) {m : Mach σ} {pre post : List Instr} (h : Ready Pre m pre (l.code ++ post))
    (hwf : ∀ i ∈ post, i.WF) (hw : posAfter (pre ++ l.head) < 16777216) (hd : m.calls.length < 255) {k : Nat} (hk : 1 ≤ k)
    (hp : ∀ i : Nat, i < k → ¬ Past s (a + i * s) b)
    (hr : ∀ i : Nat, i < k → -2147483648 ≤ a + i * s ∧ a + i * s ≤ 2147483647)
    (ho : 2147483647 < a + k * s ∨ a + k * s < -2147483648) :
    ∃ m', Passes env (AtBody p l pre post) (values a s k) m m' ∧ m'.core.error = eOverflow := by
  obtain ⟨k, rfl⟩ : ∃ j, k = j + 1 := ⟨k - 1, by omega⟩
  obtain ⟨m', r, _, _, h'⟩ := through hl h hwf hw hd k (fun i hi => hp i (by omega)) (fun i hi => hr i (by omega))
  rw [if_pos (by omega)] at h'
  exact ⟨m', r, h'⟩

/-- With a step of zero the loop goes on for ever. -/
theorem C32_forever {Pre Inv0 : Core σ → Prop} {Inv : γ → Core σ → Prop} {p : Ptr} {a b : Int} {l : Loop}
    (hl : l.Over env Pre Inv0 Inv g0 f p a b 0) {m : Mach σ} {pre post : List Instr} (h : Ready Pre m pre (l.code ++ post))
    (hwf : ∀ i ∈ post, i.WF) (hw : posAfter (pre ++ l.head) < 16777216) (hd : m.calls.length < 255)
    (ha : -2147483648 ≤ a ∧ a ≤ 2147483647) (hab : a ≤ b) (k : Nat) :
    ∃ m', Passes env (AtBody p l pre post) (List.replicate k a) m m' := by
  have e0 : ∀ i : Nat, a + (i : Int) * 0 = a := by intro i; simp
  obtain ⟨m', r, _⟩ := through hl h hwf hw hd k (fun i _ => by rw [e0]; unfold Past; omega) (fun i _ => by rw [e0]; exact ha)
  have e1 : values a 0 (k + 1) = List.replicate (k + 1) a := by
    unfold values
    rw [List.eq_replicate_iff]
    refine ⟨by simp, fun x hx => ?_⟩
    obtain ⟨i, _, rfl⟩ := List.mem_map.mp hx
    exact e0 i
  rw [e1, List.replicate_succ'] at r
  obtain ⟨x, hx⟩ : ∃ x, Passes env (AtBody p l pre post) (List.replicate k a) m x := by
    have gen : ∀ (vs : List Int) (v : Int) (m m' : Mach σ), Passes env (AtBody p l pre post) (vs ++ [v]) m m' →
        ∃ x, Passes env (AtBody p l pre post) vs m x := by
      intro vs
      induction vs with
      | nil => intro v m m' _; exact ⟨m, .done (Reaches.refl m)⟩
      | cons w vs ih =>
        intro v m m' h
        cases h with
        | next h1 h2 h3 =>
          obtain ⟨x, hx⟩ := ih v _ _ h3
          exact ⟨x, .next h1 h2 hx⟩
    exact gen _ _ _ _ r
  exact ⟨x, hx⟩

/-- With any other step the loop ends, or Overflow is reported. -/
theorem C32_terminates {Pre Inv0 : Core σ → Prop} {Inv : γ → Core σ → Prop} {p : Ptr} {a b s : Int} {l : Loop}
    (hl : l.Over env Pre Inv0 Inv g0 f p a b s) {m : Mach σ} {pre post : List Instr} (h : Ready Pre m pre (l.code ++ post))
    (hwf : ∀ i ∈ post, i.WF) (hw : posAfter (pre ++ l.head) < 16777216) (hd : m.calls.length < 255)
    (ha : -2147483648 ≤ a ∧ a ≤ 2147483647) (hs : s ≠ 0) (hp : ¬ Past s a b) :
    ∃ (k : Nat) (m' : Mach σ), Passes env (AtBody p l pre post) (values a s k) m m' ∧
      (m'.core.error = eOverflow ∨
        (Ready (Inv (effect f g0 (values a s k))) m' (pre ++ l.code) post ∧ Past s (m'.core.mem p) b ∧ m'.calls = m.calls)) := by
  have hex : ∃ k : Nat, Past s (a + k * s) b ∨ ¬ (-2147483648 ≤ a + k * s ∧ a + k * s ≤ 2147483647) := by
    refine ⟨4294967296, Or.inr ?_⟩
    push_cast
    omega
  have hmin : ∃ k : Nat, (Past s (a + k * s) b ∨ ¬ (-2147483648 ≤ a + k * s ∧ a + k * s ≤ 2147483647)) ∧
      ∀ i : Nat, i < k → ¬ (Past s (a + i * s) b ∨ ¬ (-2147483648 ≤ a + i * s ∧ a + i * s ≤ 2147483647)) := by
    classical
    exact ⟨Nat.find hex, Nat.find_spec hex, fun i hi => Nat.find_min hex hi⟩
  obtain ⟨k, hk, hmin⟩ := hmin
  have hk1 : 1 ≤ k := by
    by_contra hn
    have : k = 0 := by omega
    subst this
    simp only [Nat.cast_zero, Int.zero_mul, Int.add_zero] at hk
    rcases hk with hk | hk
    · exact hp hk
    · exact hk ha
  have hp' : ∀ i : Nat, i < k → ¬ Past s (a + i * s) b := fun i hi hn => hmin i hi (Or.inl hn)
  have hr' : ∀ i : Nat, i < k → -2147483648 ≤ a + i * s ∧ a + i * s ≤ 2147483647 := fun i hi => by
    by_contra hn; exact hmin i hi (Or.inr hn)
  by_cases hr : -2147483648 ≤ a + k * s ∧ a + k * s ≤ 2147483647
  · have hpk : Past s (a + k * s) b := by
      rcases hk with hk | hk
      · exact hk
      · exact absurd hr hk
    obtain ⟨m', r1, r2, r3, r4, _, _⟩ := C32_values hl h hwf hw hd ha hk1 hp' hpk hr
    exact ⟨k, m', r1, Or.inr ⟨r2, by rw [r3]; exact hpk, r4⟩⟩
  · obtain ⟨m', r1, r2⟩ := C32_overflow hl h hwf hw hd hk1 hp' hr' (by omega)
    exact ⟨k, m', r1, Or.inl r2⟩

/-- A loop whose start has passed the limit does not run: execution continues behind the matching NEXT with the variable
holding the start value.  (If NEXTs name no variable; the loop remains on the call stack, see
`C32_leak_violated`.) -/
theorem C32_skip_partial {Pre Inv0 : Core σ → Prop} {Inv : γ → Core σ → Prop} {p : Ptr} {a b s : Int} {l : Loop}
    (hl : l.Over env Pre Inv0 Inv g0 f p a b s) {m : Mach σ} {pre post : List Instr} (h : Ready Pre m pre (l.code ++ post))
    (hwf : ∀ i ∈ post, i.WF) (hw : posAfter (pre ++ l.head) < 16777216) (hd : m.calls.length < 255)
    (hp : Past s a b) (hm : afterMatch 0 l.tail = some []) (han : Anonymous l.tail) :
    ∃ m', Reaches env m m' ∧ Ready (Inv g0) m' (pre ++ l.code) post ∧ m'.core.mem p = a ∧
      m'.calls = ⟨false, posAfter l.ctl * 16777216 + posAfter (pre ++ l.head), p⟩ :: m.calls := by
  obtain ⟨m1, r1, ⟨hat, hargc, hmain, hstack, hinv⟩, v1, c1, f1, l1⟩ := for_runs hl h hwf hw hd
  obtain ⟨c2, r2, q1, q2, q3, q4, q5⟩ := ctl_runs hl g0 m1 _ _ hat hargc hstack hinv
  have hat2 := hat.after (c := c2) q1
  have hwt : ∀ i ∈ l.tail, i.WF := fun i hi => hl.wf i (by
    unfold Loop.code
    exact List.mem_append_right _ (List.mem_append_right _ (List.mem_cons_of_mem _ hi)))
  have hlen : l.tail.length + 1 < (encode ((pre ++ l.head) ++ (l.ctl ++ l.beginI :: (l.tail ++ post)))).length + 2 := by
    have e := length_le_encode ((pre ++ l.head) ++ (l.ctl ++ l.beginI :: (l.tail ++ post)))
    simp only [List.length_append, List.length_cons] at e ⊢
    omega
  have eskip := skipLoop_anonymous p { c2 with stack := [] } post hwf
    ((encode ((pre ++ l.head) ++ (l.ctl ++ l.beginI :: (l.tail ++ post)))).length + 2) 0 l.tail (pre ++ (l.head ++ (l.ctl ++ [l.beginI]))) hwt han hlen hm
  have ecode : pre ++ (l.head ++ (l.ctl ++ [l.beginI])) ++ (l.tail ++ post) = (pre ++ l.head) ++ (l.ctl ++ l.beginI :: (l.tail ++ post)) := by simp
  have eend : pre ++ (l.head ++ (l.ctl ++ [l.beginI])) ++ l.tail = pre ++ l.code := by simp [Loop.code]
  rw [ecode, eend] at eskip
  generalize hM : after m1 (pre ++ l.head) l.ctl c2 = M at r2 hat2
  have hMc : M.calls = ⟨false, posAfter l.ctl * 16777216 + posAfter (pre ++ l.head), p⟩ :: m.calls := by rw [← hM]; exact c1
  have hMcore : M.core = c2 := by rw [← hM]; rfl
  have hMcode : M.exec.code = encode ((pre ++ l.head) ++ (l.ctl ++ l.beginI :: (l.tail ++ post))) := by
    rw [← hM]; exact hat.code
  have hMidx : M.exec.index + 2 = posAfter (pre ++ (l.head ++ (l.ctl ++ [l.beginI]))) := by
    have : pre ++ (l.head ++ (l.ctl ++ [l.beginI])) = (pre ++ l.head ++ l.ctl) ++ [l.beginI] := by simp
    rw [this, posAfter_snoc, hat2.index]; rfl
  have hexec : execInstr env bcBeginLoop l.begin' (M.skip 2) = .ok { M.skip 2 with
      core := { c2 with stack := [] }, exec := { (M.skip 2).exec with index := posAfter (pre ++ l.code) } } := by
    rw [exec_begin, execBegin_eq (m := M.skip 2) (b := b) (s := s) hMc (by rw [show (M.skip 2).core = M.core from rfl, hMcore]; exact q4)
      (by rw [show (M.skip 2).core = M.core from rfl, hMcore]; exact q5)]
    rw [if_pos (show passed s ((M.skip 2).core.mem p) b = true by
      rw [passed_iff, show (M.skip 2).core = M.core from rfl, hMcore, q2, v1]; exact hp)]
    rw [show (M.skip 2).exec.code = M.exec.code from rfl, hMcode, show (M.skip 2).exec.index = M.exec.index + 2 from rfl, hMidx,
      show (M.skip 2).core = M.core from rfl, hMcore, eskip]
    rfl
  have hstep : step env M = .ok (clearArgc bcBeginLoop { M.skip 2 with
      core := { c2 with stack := [] }, exec := { (M.skip 2).exec with index := posAfter (pre ++ l.code) } }) := by
    rw [hat2.step]
    show (execInstr env bcBeginLoop l.begin' (M.skip 2)).bind _ = _
    rw [hexec]
    rfl
  rw [clearArgc_ne (by decide)] at hstep
  refine ⟨_, (r1.trans r2).trans (Reaches.one hstep), ⟨⟨?_, rfl, q1⟩, rfl, ?_, rfl, hl.stack _ _ _ q3⟩, ?_, hMc⟩
  · show M.exec.code = _
    rw [hMcode]; simp [Loop.code]
  · show M.exec.main = true
    rw [← hM]; exact hmain
  · show c2.mem p = a
    rw [q2, v1]

/-! ## What goes wrong with loops that do not run -/
namespace Sample

/-- `FOR I=0 TO 1:FOR J=1 TO 0:NEXT:NEXT` -/
def skipped : List Instr :=
  [v 73, c cmdFor, n 0, o opAssign, n 1, k cmdTo, begin', v 74, c cmdFor, n 1, o opAssign, n 0, k cmdTo, begin', c cmdNext, c cmdNext]

/-- `FOR I=1 TO 0:FOR J=0 TO 0:NEXT J:NEXT` -/
def named : List Instr :=
  [v 73, c cmdFor, n 1, o opAssign, n 0, k cmdTo, begin', v 74, c cmdFor, n 0, o opAssign, n 0, k cmdTo, begin', v 74, c cmdNext, c cmdNext]

/-- `FOR I=0 TO 1:FOR J=5 TO 9:NEXT I` -/
def inner : List Instr :=
  [v 73, c cmdFor, n 0, o opAssign, n 1, k cmdTo, begin', v 74, c cmdFor, n 5, o opAssign, n 9, k cmdTo, begin', v 73, c cmdNext]

end Sample

/-- A skipped loop stays on the call stack and the next NEXT is taken for its own: the outer loop ends after one
round (state 18 is the end of the program) with 0 in `I` (slot 1) instead of 2. -/
theorem C32_leak_violated :
    (∀ j : Fin 18, Sample.stuck (step Sample.env (Sample.st (Sample.boot Sample.skipped Sample.none') j)) = false) ∧
    (Sample.st (Sample.boot Sample.skipped Sample.none') 18).ended = true ∧
    (Sample.st (Sample.boot Sample.skipped Sample.none') 18).frames = [] ∧
    (Sample.st (Sample.boot Sample.skipped Sample.none') 18).core.error = 0 ∧
    (Sample.st (Sample.boot Sample.skipped Sample.none') 18).core.mem (.slot 1) = 0 ∧
    (Sample.st (Sample.boot Sample.skipped Sample.none') 18).calls.length = 1 := by decide +kernel

/-- While a loop is skipped, an inner NEXT that names its variable closes nothing: the end of the loop is not found. -/
theorem C32_named_violated :
    (Sample.st (Sample.boot Sample.named Sample.none') 7).core.error = eForWithoutNext := by decide +kernel

/-- NEXT that names an outer loop's variable while an inner loop is still open: `I` is advanced to 1, which is within
its limit of 1, but what is compared with that limit is the *inner* loop's variable (5), so the loop is taken for one
that does not run and its end is not found. -/
theorem C32_inner_violated :
    (∀ j : Fin 22, Sample.stuck (step Sample.env (Sample.st (Sample.boot Sample.inner Sample.none') j)) = false) ∧
    (Sample.st (Sample.boot Sample.inner Sample.none') 21).core.mem (.slot 1) = 4096 ∧
    (Sample.st (Sample.boot Sample.inner Sample.none') 21).core.error = 0 ∧
    (Sample.st (Sample.boot Sample.inner Sample.none') 22).core.error = eForWithoutNext := by decide +kernel

/-! ## A loop that satisfies the hypotheses -/

/-- An assignment runs through. -/
theorem runs_assign (Pre Post : Core σ → Prop) (p q : Ptr) (v w : Int) (x e : List Instr) (hne : q ≠ p)
    (hx : PushesVar env (fun c => Pre c ∧ c.mem p = v) (fun c => Pre c ∧ c.mem p = v) q x)
    (he : Evals env (fun c => Pre c ∧ c.mem p = v) p e w) (hlen : e.length ≤ 99)
    (hpost : ∀ c, Pre c → c.mem p = v → Post { c.store q w with stack := [] }) :
    RunsThrough env Pre Post p v (x ++ (e ++ [assign])) := by
  intro m a b h hargc hmain hst hv hpre
  have h1 : At m a (x ++ (e ++ (assign :: b))) := h.regroup rfl (by simp)
  obtain ⟨c1, r1, s1, e1, i1⟩ := hx m a _ h1 hargc (by rw [hst]; decide) ⟨hpre, hv⟩
  rw [hst, List.nil_append] at s1
  have h2 := h1.after (c := c1) e1
  obtain ⟨c2, en, r2, s2, n2, v2, e2, p2, k2, i2⟩ := he _ _ _ h2 hargc
    (by show c1.stack.length + _ ≤ 100; rw [s1]; simp only [List.length_singleton]; omega) i1
  change c2.stack = c1.stack ++ [en] at s2
  rw [s1] at s2
  have h3 := h2.after (c := c2) e2
  have r3 : Reaches env (after (after m a x c1) (a ++ x) e c2)
      (after (after (after m a x c1) (a ++ x) e c2) (a ++ x ++ e) [assign] { c2.store q w with stack := [] }) := by
    refine At.simple h3 (by decide) _ hargc ?_
    rw [exec_op]
    refine congrArg _ ?_
    show execOp env opAssign m.exec.argc c2 = _
    exact execOp_assign (rest := []) s2 n2 v2
  refine ⟨_, (r1.trans r2).trans r3, ⟨?_, ?_, e2⟩, hargc, hmain, rfl, rfl, rfl, rfl, ?_, hpost _ i2.1 i2.2⟩
  · show m.exec.code = _
    rw [h.code]; simp
  · show posAfter _ = posAfter _
    simp
  · show (if p = q then w else c2.mem p) = v
    rw [if_neg (fun h => hne h.symm)]
    exact i2.2

namespace Sample

/-- Variables 1 and 2 are number variables. -/
def two (c : Core Unit) : Prop := 2 < c.vars.max ∧ (c.vars.slots 1).ty = some .num ∧ (c.vars.slots 2).ty = some .num

/-- `FOR I=0 TO 9 STEP 2:S=I:NEXT`, variables by number. -/
def copy : Loop :=
  { var := [.simple bcVariableIdSmall 1], for' := c cmdFor, start := [n 0], limit := [n 9], step := some [n 2], begin' := 0
    body := [.simple bcVariableIdSmall 2, .simple bcVariableIdSmall 1, assign], nextVar := [], next := c cmdNext }

/-- It satisfies the hypotheses: each round copies the loop variable (`g` is the last value copied). -/
theorem copy_over : copy.Over Sample.env two two (fun g c => two c ∧ ∀ x, g = some x → c.mem (.slot 2) = x) none (fun v _ => some v) (.slot 1) 0 36864 8192 := by
  have hst : ∀ (g : Option Int) (c : Core Unit) (st : List Entry), (two c ∧ ∀ x, g = some x → c.mem (.slot 2) = x) →
      two { c with stack := st } ∧ ∀ x, g = some x → ({ c with stack := st } : Core Unit).mem (.slot 2) = x := fun _ _ _ h => h
  refine ⟨fun c h => ⟨h, by intro x hx; cases hx⟩, hst, ?_, ?_, Or.inr rfl, Or.inr rfl, ?_, ?_, by decide, by decide, ?_, by decide, ?_, ?_, by decide +kernel, ?_, Or.inl rfl⟩
  · intro g c v h
    exact ⟨h.1, fun x hx => h.2 x hx⟩
  · intro i hi
    simp only [copy, Loop.code, Loop.head, Loop.ctl, Loop.stepCode, Loop.beginI, Loop.tail, List.nil_append, List.cons_append, List.mem_cons,
      List.not_mem_nil, or_false] at hi
    rcases hi with rfl | rfl | rfl | rfl | rfl | rfl | rfl | rfl | rfl | rfl | rfl | rfl | rfl <;>
      simp [c, n, assign, Instr.WF, hasText, hasName, bcLabelString, bcString, bcLabel, bcData, bcCommandFirst,
        bcWideString, bcNumber, bcVariableId, bcDim, bcVariableName, bcArrayName, bcSmallNumber, bcOperator, bcCommand, bcBeginLoop, bcVariableIdSmall]
  · exact pushesVar_id two (fun _ _ h => h) 1 (fun c h => ⟨by have := h.1; omega, h.2.1⟩)
  · exact evals_small two (fun _ _ h => h) _ 0 (by decide)
  · intro g; exact evals_small _ (hst g) _ 9 (by decide)
  · refine ⟨fun g => evals_small _ (hst g) _ 2 (by decide), by decide⟩
  · intro i hi
    simp only [copy, Loop.ctl, Loop.stepCode, List.nil_append, List.cons_append, List.mem_cons, List.not_mem_nil, or_false] at hi
    rcases hi with rfl | rfl | rfl | rfl
    · exact ⟨by decide, by decide, fun h => absurd h (by decide)⟩
    · exact ⟨by decide, by decide, fun _ => Or.inl rfl⟩
    · exact ⟨by decide, by decide, fun h => absurd h (by decide)⟩
    · exact ⟨by decide, by decide, fun _ => Or.inr rfl⟩
  · intro g v
    refine runs_assign _ _ (.slot 1) (.slot 2) v v [.simple bcVariableIdSmall 2] [.simple bcVariableIdSmall 1] (by decide) ?_ ?_ (by decide) ?_
    · exact pushesVar_id _ (fun _ _ h => h) 2 (fun c h => ⟨h.1.1.1, h.1.1.2.2⟩)
    · exact evals_id _ (fun _ _ h => h) _ 1 v (fun c h => ⟨by have := h.1.1.1; omega, h.1.1.2.1, h.2⟩)
    · intro c h _
      exact ⟨h.1, fun x hx => by cases hx; rfl⟩

/-- Its values are 0, 2, 4, 6, 8; 10 is the first past the limit. -/
example : (∀ i : Fin 5, ¬ Past 8192 (0 + (i : Nat) * 8192) 36864) ∧ Past 8192 (0 + (5 : Nat) * 8192) 36864 := by decide
/-- A state in which it can start: `I` and `J` exist. -/
def copyStart : Mach Unit :=
  start (encode copy.code) none' { core with vars := (Vars.getVar (Vars.getVar core.vars [73] .num).1 [74] .num).1 }

/-- Run from there the last value copied is 8. -/
example : ∃ m', Passes Sample.env (AtBody (.slot 1) copy [] []) [0, 8192, 16384, 24576, 32768] copyStart m' ∧
    m'.core.mem (.slot 2) = 32768 ∧ m'.core.mem (.slot 1) = 40960 := by
  have hr : Ready two copyStart [] (copy.code ++ []) := by
    refine ⟨⟨?_, rfl, rfl⟩, rfl, rfl, rfl, ?_⟩
    · rw [List.append_nil]; rfl
    · exact ⟨by decide +kernel, by decide +kernel, by decide +kernel⟩
  obtain ⟨m', h1, h2, h3, _⟩ := C32_values copy_over hr (by intro i hi; cases hi) (by decide +kernel) (by decide) (by decide) (k := 5) (by decide)
    (by
      intro i hi
      have : ∀ i : Fin 5, ¬ Past 8192 (0 + (i : Nat) * 8192) 36864 := by decide
      exact this ⟨i, hi⟩) (by decide) (by decide)
  refine ⟨m', h1, h2.inv.2 _ ?_, h3⟩
  decide +kernel

/-- Its end is found by the brackets. -/
example : afterMatch 0 copy.tail = some [] := by decide +kernel

end Sample

end Sbc.Machine
