import Verif.Proof.Control
set_option autoImplicit false
/-!
# Invariants of the part of the state that expressions work on
-/
namespace Sbc.Machine
open Sbc Sbc.Tok Sbc.Tok.Spec

variable {σ : Type} {env : Env σ}

/-- `K` is kept by every change the interpreter makes to the core. -/
structure CoreInv (env : Env σ) (K : Core σ → Prop) : Prop where
  stack : ∀ c st, K c → K { c with stack := st }
  store : ∀ c p v, K c → K (c.store p v)
  storeStr : ∀ c p v, K c → K (c.storeStr p v)
  vars : ∀ c t, K c → K { c with vars := t }
  error : ∀ c e, K c → K { c with error := e }
  varsErr : ∀ c e, e ≠ 0 → K c → K { c with varsErr := e }
  other : ∀ op d argc c c', env.other op d argc c = .ok c' → K c → K c'
  arrays : ∀ c n m s, K c → K { c with arrNext := n, mem := m, smem := s }

namespace CoreInv
variable {K : Core σ → Prop}

theorem push (H : CoreInv env K) {c c' : Core σ} {e : Entry} (h : c.push e = .ok c') (hk : K c) : K c' := by
  unfold Core.push at h
  split at h
  · cases h
  · cases h; exact H.stack _ _ hk

theorem result (H : CoreInv env K) {c c' : Core σ} {st : List Entry} {o : Out Int} (h : c.result st o = .ok c') (hk : K c) : K c' := by
  unfold Core.result at h
  cases o with
  | ok n => exact H.push h (H.stack _ _ hk)
  | err e => cases h; exact H.error _ _ (H.stack _ _ hk)
  | ub => cases h

theorem execOp (H : CoreInv env K) {op argc : Nat} {c c' : Core σ} (h : execOp env op argc c = .ok c') (hk : K c) : K c' := by
  unfold Machine.execOp at h
  split at h
  · cases h; exact H.error _ _ hk
  split at h
  · exact H.push h hk
  split at h
  · split at h
    · split at h
      · obtain ⟨x, _, h⟩ := bind_inv h
        split at h
        · exact H.result h hk
        · cases h
      · exact H.other _ _ _ _ _ h hk
    · cases h
  · split at h
    · split at h
      · split at h
        · split at h
          · unfold opAssignNum at h
            obtain ⟨n, _, h⟩ := bind_inv h
            cases h
            exact H.stack _ _ (H.store _ _ _ hk)
          · cases h
        · obtain ⟨x, _, h⟩ := bind_inv h
          obtain ⟨y, _, h⟩ := bind_inv h
          split at h
          · exact H.result h hk
          · cases h
      · exact H.other _ _ _ _ _ h hk
    · cases h

theorem lookup (H : CoreInv env K) {c : Core σ} {n : List Nat} {ty : Vars.Ty} {r : Core σ × Option Nat} (h : c.lookup n ty = .ok r) (hk : K c) : K r.1 := by
  unfold Core.lookup at h
  split at h
  · cases h
  · cases h; exact H.error _ eOutOfMemory (H.varsErr _ eOutOfMemory (by decide) (H.vars _ _ hk))
  · split at h
    · cases h; exact H.storeStr _ _ _ (H.store _ _ _ (H.vars _ _ hk))
    · cases h; exact H.vars _ _ hk

theorem subscripts (H : CoreInv env K) {c : Core σ} {argc : Nat} {r : Core σ × Int × Option Int} (h : c.subscripts argc = .ok r) (hk : K c) : K r.1 := by
  unfold Core.subscripts at h
  split at h
  · cases h
  · dsimp only at h
    split at h
    · obtain ⟨x, _, h⟩ := bind_inv h
      obtain ⟨y, _, h⟩ := bind_inv h
      cases h; exact H.stack _ _ hk
    · obtain ⟨x, _, h⟩ := bind_inv h
      cases h; exact H.stack _ _ hk

theorem newArr (H : CoreInv env K) (c : Core σ) (s1 s2 : Nat) (hk : K c) : K (c.newArr s1 s2).1 := by
  unfold Core.newArr
  dsimp only
  split
  · exact H.arrays _ _ _ _ hk
  · exact hk

theorem findElem {c : Core σ} {p : Nat} {x : Int} {y : Option Int} {r : Core σ × Except Nat Ptr} (h : c.findElem p x y = .ok r) :
    r.1 = c ∧ ∀ e, r.2 = .error e → e ≠ 0 := by
  unfold Core.findElem at h
  split at h
  · cases h; exact ⟨rfl, fun e he => by cases he⟩
  · cases h; exact ⟨rfl, fun e he => by cases he; decide⟩
  · cases h; exact ⟨rfl, fun e he => by cases he; decide⟩
  · cases h

theorem elem (H : CoreInv env K) {c : Core σ} {i : Nat} {x : Int} {y : Option Int} {r : Core σ × Except Nat Ptr} (h : c.elem i x y = .ok r) (hk : K c) :
    K r.1 ∧ ∀ e, r.2 = .error e → e ≠ 0 := by
  unfold Core.elem at h
  split at h
  · obtain ⟨e1, e2⟩ := findElem h
    exact ⟨by rw [e1]; exact hk, e2⟩
  · split at h
    · rename_i c' p heq
      obtain ⟨e1, e2⟩ := findElem h
      have := H.newArr c 10 (if Arrays.dim2 y = Arrays.unused then Arrays.unused else 10) hk
      rw [heq] at this
      exact ⟨by rw [e1]; exact H.vars _ _ this, e2⟩
    · rename_i c' heq
      have := H.newArr c 10 (if Arrays.dim2 y = Arrays.unused then Arrays.unused else 10) hk
      rw [heq] at this
      cases h
      exact ⟨this, fun e he => by cases he; decide⟩
    · cases h
  · cases h

theorem elemPush (H : CoreInv env K) {i : Nat} {s2 arr : Bool} {x : Int} {y : Option Int} {c c' : Core σ}
    (h : ((c.elem i x y).bind fun q =>
      match q.2 with
      | .ok p => q.1.push (.var s2 arr p)
      | .error e => .ok { q.1 with error := e, varsErr := e }) = .ok c') (hk : K c) : K c' := by
  obtain ⟨q, h1, h⟩ := bind_inv h
  have hq := H.elem h1 hk
  cases h2 : q.2 with
  | ok p => rw [h2] at h; exact H.push h hq.1
  | error e =>
    rw [h2] at h; cases h
    exact H.varsErr { q.1 with error := e } e (hq.2 e h2) (H.error _ _ hq.1)

theorem execId (H : CoreInv env K) {id argc : Nat} {c c' : Core σ} (h : execId id argc c = .ok c') (hk : K c) : K c' := by
  unfold Machine.execId at h
  split at h
  · cases h
  · split at h
    · cases h
    · unfold pushSlot at h
      split at h
      · exact H.push h hk
      · obtain ⟨r, h1, h⟩ := bind_inv h
        exact H.elemPush h (H.subscripts h1 hk)

theorem execName (H : CoreInv env K) {arr : Bool} {n : List Nat} {s : Bool} {argc : Nat} {c c' : Core σ}
    (h : execName arr n s argc c = .ok c') (hk : K c) : K c' := by
  unfold Machine.execName at h
  split at h
  · obtain ⟨r, h1, h⟩ := bind_inv h
    have hr := H.lookup h1 hk
    cases h2 : r.2 with
    | none => rw [h2] at h; cases h; exact hr
    | some i => rw [h2] at h; exact H.push h hr
  · obtain ⟨sb, h1, h⟩ := bind_inv h
    obtain ⟨r, h3, h⟩ := bind_inv h
    have hr := H.lookup h3 (H.subscripts h1 hk)
    cases h2 : r.2 with
    | none => rw [h2] at h; cases h; exact hr
    | some i => rw [h2] at h; exact H.elemPush h hr

theorem execDim (H : CoreInv env K) {n : List Nat} {s : Bool} {argc : Nat} {c c' : Core σ}
    (h : execDim n s argc c = .ok c') (hk : K c) : K c' := by
  unfold Machine.execDim at h
  obtain ⟨sb, h1, h⟩ := bind_inv h
  have hs := H.subscripts h1 hk
  dsimp only at h
  split at h
  · cases h
  · cases h; exact H.error _ eOutOfMemory (H.varsErr _ eOutOfMemory (by decide) hs)
  · cases h; exact H.error _ eDuplicateDim (H.varsErr _ eDuplicateDim (by decide) hs)
  · rename_i v _ _
    split at h
    · cases h
      exact H.error { (sb.1.newArr (Arrays.toU32 sb.2.1) (Arrays.dim2 sb.2.2)).1 with vars := v } _ (H.vars _ v (H.newArr _ _ _ hs))
    · cases h

theorem searchLabel (H : CoreInv env K) {m : Mach σ} {l : Bool} {s : List Nat} {r : Mach σ × Nat} (h : searchLabel m l s = .ok r) (hk : K m.core) :
    K r.1.core := by
  unfold Machine.searchLabel at h
  split at h
  · cases h
  split at h
  · cases h
  split at h
  · cases h
  split at h
  · cases h; exact hk
  · cases h; exact H.error _ _ hk

theorem jump (H : CoreInv env K) {b : Bool} {m m' : Mach σ} {l : Bool} {s : List Nat} (h : jump b m l s = .ok m') (hk : K m.core) : K m'.core := by
  unfold Machine.jump at h
  obtain ⟨r, h1, h⟩ := bind_inv h
  have hr := H.searchLabel h1 hk
  split at h
  · split at h
    · cases h; exact H.error _ _ hr
    · cases h; exact hr
  · cases h; exact hr

theorem ifTarget (H : CoreInv env K) {m : Mach σ} {i : Nat} {r : Mach σ × Nat} (h : ifTarget m i = .ok r) (hk : K m.core) : K r.1.core := by
  unfold Machine.ifTarget at h
  split at h
  · cases h; exact hk
  · split at h
    · obtain ⟨len, _, h⟩ := bind_inv h
      split at h
      · cases h; exact hk
      · exact H.searchLabel h hk
    · cases h; exact hk

theorem readVar (H : CoreInv env K) {m m' : Mach σ} {e : Entry} (h : readVar m e = .ok m') (hk : K m.core) : K m'.core := by
  unfold Machine.readVar at h
  split at h
  · cases h
  · obtain ⟨size, _, h⟩ := bind_inv h
    split at h
    · cases h
    · dsimp only at h
      split at h
      · obtain ⟨r, _, h⟩ := bind_inv h
        cases r with
        | none => cases h; exact H.error _ _ hk
        | some nv =>
          obtain ⟨n, v⟩ := nv
          dsimp only at h
          cases v with
          | num x =>
            dsimp only at h
            split at h
            · obtain ⟨y, h1, h⟩ := bind_inv h
              cases h; exact H.store _ _ _ hk
            · cases h; exact H.store _ _ _ hk
          | str x =>
            dsimp only at h
            split at h
            · obtain ⟨y, h1, h⟩ := bind_inv h
              cases h; exact H.storeStr _ _ _ hk
            · cases h; exact H.storeStr _ _ _ hk
      · cases h; exact H.error _ _ hk

theorem readVars (H : CoreInv env K) : (es : List Entry) → (m m' : Mach σ) → readVars es m = .ok m' → K m.core → K m'.core
  | [], m, m', h, hk => by cases h; exact hk
  | e :: es, m, m', h, hk => by
    simp only [Machine.readVars] at h
    obtain ⟨m1, h1, h⟩ := bind_inv h
    have q := H.readVar h1 hk
    split at h
    · cases h; exact q
    · exact readVars H es m1 m' h q

theorem skipLoop (H : CoreInv env K) (code : List Nat) (cur : Ptr) : (fuel nest k : Nat) → (c : Core σ) → (r : Core σ × Option Nat) →
    skipLoop code cur fuel nest k c = .ok r → K c → K r.1
  | 0, _, _, _, _, h, _ => by cases h
  | fuel + 1, 0, k, c, r, h, hk => by
    simp only [Machine.skipLoop] at h
    cases h; exact hk
  | fuel + 1, nest + 1, k, c, r, h, hk => by
    simp only [Machine.skipLoop] at h
    obtain ⟨pr, h1, h⟩ := bind_inv h
    cases hpr : pr.2 with
    | none => rw [hpr] at h; cases h; exact hk
    | some i =>
      rw [hpr] at h
      obtain ⟨d, _, h⟩ := bind_inv h
      by_cases hn : d = cmdNext
      · rw [if_pos hn] at h
        obtain ⟨kk, h2, h⟩ := bind_inv h
        have hkk : K kk.1 := by
          unfold skipKind at h2
          split at h2
          · cases h2; exact hk
          · obtain ⟨b, _, h2⟩ := bind_inv h2
            obtain ⟨d', _, h2⟩ := bind_inv h2
            split at h2
            · obtain ⟨n, _, h2⟩ := bind_inv h2
              obtain ⟨r', h3, h2⟩ := bind_inv h2
              have := H.lookup h3 hk
              cases h4 : r'.2 with
              | none => rw [h4] at h2; cases h2
              | some i => rw [h4] at h2; cases h2; exact this
            · split at h2
              · cases h2; exact hk
              · split at h2
                · obtain ⟨x, _, h2⟩ := bind_inv h2
                  obtain ⟨y, _, h2⟩ := bind_inv h2
                  cases h2; exact hk
                · cases h2; exact hk
        cases hk2 : kk.2 with
        | generic => rw [hk2] at h; exact skipLoop H code cur fuel _ _ _ r h hkk
        | mine => rw [hk2] at h; cases h; exact hkk
        | otherVar => rw [hk2] at h; exact skipLoop H code cur fuel _ _ _ r h hkk
      · rw [if_neg hn] at h
        split at h
        · exact skipLoop H code cur fuel _ _ _ r h hk
        · exact skipLoop H code cur fuel _ _ _ r h hk

theorem execBegin (H : CoreInv env K) {m m' : Mach σ} (e : execBegin m = .ok m') (hk : K m.core) : K m'.core := by
  unfold Machine.execBegin at e
  split at e
  · cases e; exact H.error _ _ hk
  · split at e
    · cases e; exact H.error _ _ hk
    · dsimp only at e
      obtain ⟨step, _, e⟩ := bind_inv e
      obtain ⟨end', _, e⟩ := bind_inv e
      split at e
      · obtain ⟨r, h1, e⟩ := bind_inv e
        have hr := H.skipLoop _ _ _ _ _ _ r h1 (H.stack _ _ hk)
        cases h2 : r.2 with
        | none => rw [h2] at e; cases e; exact H.error _ _ hr
        | some j => rw [h2] at e; cases e; exact hr
      · cases e; exact H.stack _ _ hk

theorem cmdFor (H : CoreInv env K) {m m' : Mach σ} (e : cmdForM m = .ok m') (hk : K m.core) : K m'.core := by
  unfold cmdForM at e
  obtain ⟨r, _, e⟩ := bind_inv e
  cases r with
  | none => cases e; exact H.error _ _ hk
  | some i =>
    dsimp only at e
    split at e
    · cases e; exact H.error _ _ hk
    · obtain ⟨x, _, e⟩ := bind_inv e
      cases x with
      | none => cases e; exact H.error _ _ hk
      | some x =>
        dsimp only at e
        split at e
        · cases e; exact hk
        · cases e

theorem cmdNext (H : CoreInv env K) {m m' : Mach σ} (e : cmdNextM m = .ok m') (hk : K m.core) : K m'.core := by
  have go : ∀ v : Option Ptr, (match findFor v m.calls with
      | none => Out.ok (m.fail eNextWithoutFor)
      | some k =>
        match m.calls[k]? with
        | none => .ub
        | some c =>
          if c.addr % 16777216 + c.addr / 16777216 > m.exec.code.length then .ub
          else .ok { m with
            frames := ⟨{ m.exec with argc := 0 }, m.core.error, m.calls.length - 1 - k⟩ :: m.frames
            exec := ⟨(m.exec.code.drop (c.addr % 16777216)).take (c.addr / 16777216), 0, some 0, 0, m.exec.argc, false⟩
            core := { m.core with stack := [] } }) = .ok m' → K m'.core := by
    intro v e
    split at e
    · cases e; exact H.error _ _ hk
    · split at e
      · cases e
      · split at e
        · cases e
        · cases e; exact H.stack _ _ hk
  unfold cmdNextM at e
  dsimp only at e
  split at e
  · exact go none e
  · exact go (some _) e
  · cases e

theorem finishNext (H : CoreInv env K) {f : Frame} {fs : List Frame} {m m' : Mach σ} (e : finishNext f fs m = .ok m') (hk : K m.core) : K m'.core := by
  unfold Machine.finishNext at e
  split at e
  · cases e
  dsimp only at e
  split at e
  · cases e
  obtain ⟨end', _, e⟩ := bind_inv e
  obtain ⟨step, _, e⟩ := bind_inv e
  have base := H.stack _ [] (H.error _ f.savedErr hk)
  split at e
  · cases e; exact H.error _ _ base
  · split at e
    · cases e; exact H.store _ _ _ base
    · cases e; exact H.store _ _ _ base

theorem cmdIf (H : CoreInv env K) {m m' : Mach σ} (e : cmdIfM m = .ok m') (hk : K m.core) : K m'.core := by
  unfold cmdIfM at e
  obtain ⟨v, _, e⟩ := bind_inv e
  split at e
  · obtain ⟨r, h, e⟩ := bind_inv e
    cases e; exact H.ifTarget h hk
  · obtain ⟨r, _, e⟩ := bind_inv e
    cases r with
    | none => cases e; exact H.error _ _ hk
    | some i =>
      obtain ⟨d, _, e⟩ := bind_inv e
      split at e
      · obtain ⟨r, h, e⟩ := bind_inv e
        cases e; exact H.ifTarget h hk
      · cases e; exact hk

theorem execCmd (H : CoreInv env K) {d : Nat} {m m' : Mach σ} (e : execCmd env d m = .ok m') (hk : K m.core) : K m'.core := by
  unfold Machine.execCmd at e
  by_cases h1 : d = Tok.cmdFor
  · rw [if_pos h1] at e; exact H.cmdFor e hk
  rw [if_neg h1] at e
  by_cases h2 : d = cmdTo ∨ d = cmdStep ∨ d = cmdOn ∨ d = cmdEndif
  · rw [if_pos h2] at e; cases e; exact hk
  rw [if_neg h2] at e
  by_cases h3 : d = Tok.cmdNext
  · rw [if_pos h3] at e; exact H.cmdNext e hk
  rw [if_neg h3] at e
  by_cases h4 : d = Tok.cmdIf
  · rw [if_pos h4] at e; exact H.cmdIf e hk
  rw [if_neg h4] at e
  by_cases h5 : d = cmdThen
  · rw [if_pos h5] at e; cases e; exact H.error _ _ hk
  rw [if_neg h5] at e
  by_cases h6 : d = cmdElse
  · rw [if_pos h6] at e
    unfold cmdElseM at e
    obtain ⟨r, _, e⟩ := bind_inv e
    cases r with
    | none => cases e; exact H.error _ _ hk
    | some i => cases e; exact hk
  rw [if_neg h6] at e
  have jmp : ∀ b, cmdJumpM b m = .ok m' → K m'.core := by
    intro b e
    unfold cmdJumpM at e
    split at e
    · cases e
    · split at e
      · obtain ⟨v, _, e⟩ := bind_inv e
        dsimp only at e
        split at e
        · cases e; exact hk
        · split at e
          · cases e; exact H.error _ _ hk
          · exact H.jump e hk
          · cases e
      · obtain ⟨t, _, e⟩ := bind_inv e
        exact H.jump e hk
  by_cases h7 : d = cmdGoto
  · rw [if_pos h7] at e; exact jmp _ e
  rw [if_neg h7] at e
  by_cases h8 : d = cmdGosub
  · rw [if_pos h8] at e; exact jmp _ e
  rw [if_neg h8] at e
  by_cases h9 : d = cmdReturn
  · rw [if_pos h9] at e
    unfold cmdReturnM at e
    split at e
    · cases e; exact H.error _ _ hk
    · split at e
      · cases e
      · cases e; exact hk
  rw [if_neg h9] at e
  by_cases h10 : d = cmdEnd
  · rw [if_pos h10] at e; cases e; exact hk
  rw [if_neg h10] at e
  by_cases h11 : d = cmdStop
  · rw [if_pos h11] at e; cases e; exact H.error _ _ hk
  rw [if_neg h11] at e
  by_cases h12 : d = cmdRead
  · rw [if_pos h12] at e
    unfold cmdReadM at e
    split at e
    · cases e; exact H.error _ _ hk
    · obtain ⟨b, _, e⟩ := bind_inv e
      split at e
      · exact H.readVars _ _ _ e hk
      · obtain ⟨r, _, e⟩ := bind_inv e
        cases r with
        | none => cases e; exact H.error _ _ hk
        | some i => exact H.readVars _ _ _ e hk
  rw [if_neg h12] at e
  by_cases h13 : d = cmdRestore
  · rw [if_pos h13] at e
    unfold cmdRestoreM at e
    split at e
    · cases e
    · obtain ⟨t, _, e⟩ := bind_inv e
      obtain ⟨r, h1, e⟩ := bind_inv e
      obtain ⟨d, _, e⟩ := bind_inv e
      cases e
      exact H.searchLabel h1 hk
  rw [if_neg h13] at e
  split at e
  · cases e
  · obtain ⟨c, h, e⟩ := bind_inv e
    cases e
    exact H.other _ _ _ _ _ h hk

theorem onCore {m m' : Mach σ} {r : Out (Core σ)} (h : onCore m r = .ok m') (hr : ∀ c, r = .ok c → K c) : K m'.core := by
  unfold Machine.onCore at h
  obtain ⟨c, h1, h⟩ := bind_inv h
  cases h; exact hr c h1

theorem execInstr (H : CoreInv env K) {op d : Nat} {m m' : Mach σ} (h : execInstr env op d m = .ok m') (hk : K m.core) : K m'.core := by
  rw [execInstr_eq] at h
  by_cases h1 : op = bcSmallNumber
  · rw [if_pos h1] at h
    split at h
    · exact onCore h fun c hc => H.push hc hk
    · cases h; exact H.error _ _ hk
  rw [if_neg h1] at h
  by_cases h2 : op = bcString ∨ op = bcLabelString
  · rw [if_pos h2] at h
    split at h
    · cases h
    · exact onCore h fun c hc => H.push hc hk
  rw [if_neg h2] at h
  by_cases h3 : op = bcCommand ∨ op = bcCommandFirst
  · rw [if_pos h3] at h
    split at h
    · cases h; exact H.error _ _ hk
    · obtain ⟨x, hx, h⟩ := bind_inv h
      have := H.execCmd hx hk
      cases h
      split
      · exact this
      · exact H.stack _ _ this
  rw [if_neg h3] at h
  by_cases h4 : op = bcOperator
  · rw [if_pos h4] at h
    exact onCore h fun c hc => H.execOp hc hk
  rw [if_neg h4] at h
  by_cases h5 : op = bcFunction ∨ op = bcSysvar ∨ op = bcSysvarValidate
  · rw [if_pos h5] at h
    exact onCore h fun c hc => H.other _ _ _ _ _ hc hk
  rw [if_neg h5] at h
  by_cases h6 : op = bcNumber
  · rw [if_pos h6] at h
    split at h
    · exact onCore h fun c hc => H.push hc hk
    · cases h
  rw [if_neg h6] at h
  by_cases h7 : op = bcVariableIdSmall
  · rw [if_pos h7] at h
    exact onCore h fun c hc => H.execId hc hk
  rw [if_neg h7] at h
  by_cases h8 : op = bcVariableId
  · rw [if_pos h8] at h
    split at h
    · exact onCore h fun c hc => H.execId hc hk
    · cases h
  rw [if_neg h8] at h
  by_cases h9 : op = bcArrayName ∨ op = bcVariableName
  · rw [if_pos h9] at h
    obtain ⟨n, _, h⟩ := bind_inv h
    exact onCore h fun c hc => H.execName hc hk
  rw [if_neg h9] at h
  by_cases h10 : op = bcDim
  · rw [if_pos h10] at h
    obtain ⟨n, _, h⟩ := bind_inv h
    exact onCore h fun c hc => H.execDim hc hk
  rw [if_neg h10] at h
  by_cases h11 : op = bcArgcount
  · rw [if_pos h11] at h; cases h; exact hk
  rw [if_neg h11] at h
  by_cases h12 : op = bcBeginLoop
  · rw [if_pos h12] at h; exact H.execBegin h hk
  rw [if_neg h12] at h
  by_cases h13 : op = bcData ∨ op = bcLabel
  · rw [if_pos h13] at h; cases h; exact hk
  rw [if_neg h13] at h
  by_cases h14 : op = bcError
  · rw [if_pos h14] at h; cases h; exact H.error _ _ hk
  rw [if_neg h14] at h
  cases h; exact H.error _ _ hk

/-- A step keeps `K`. -/
theorem step (H : CoreInv env K) {m m' : Mach σ} (h : step env m = .ok m') (hk : K m.core) : K m'.core := by
  unfold Machine.step at h
  split at h
  · split at h
    · cases h; exact hk
    · exact H.finishNext h hk
  · split at h
    · obtain ⟨x, hx, h⟩ := bind_inv h
      have := H.execInstr hx hk
      cases h
      unfold clearArgc
      split <;> exact this
    · cases h

theorem reaches (H : CoreInv env K) {m m' : Mach σ} (h : Reaches env m m') (hk : K m.core) : K m'.core := by
  obtain ⟨n, h⟩ := h
  induction n generalizing m with
  | zero => cases h; exact hk
  | succ n ih =>
    obtain ⟨x, h1, h⟩ := bind_inv h
    exact ih (H.step h1 hk) h

end CoreInv
end Sbc.Machine
