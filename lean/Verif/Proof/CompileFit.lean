import Verif.Proof.CompileJoin
set_option autoImplicit false
/-!
# The tokens of a line stay well-formed in the passes of the compiler
-/
namespace Sbc.Tok.Spec
open Sbc Sbc.Tok

/-- An opening bracket. -/
def opens (t : Tk) : Prop := t.ty = .operation ∧ (t.cmd = opOpenBracket ∨ t.cmd = opOpenParen)

/-- A name before an opening bracket has a priority. -/
def Adj (l : List Tk) : Prop := ∀ a x y b, l = a ++ x :: y :: b → x.ty = .name → opens y → 0 < x.prio

/-- The same for the reversed list. -/
def RAdj (l : List Tk) : Prop := ∀ b y x a, l = b ++ y :: x :: a → x.ty = .name → opens y → 0 < x.prio

theorem adj_reverse {l : List Tk} (h : RAdj l) : Adj l.reverse := by
  intro a x y b e
  have e' := congrArg List.reverse e
  rw [List.reverse_reverse] at e'
  refine h b.reverse y x a.reverse ?_
  rw [e']; simp

theorem radj_cons {l : List Tk} {y : Tk} (h : RAdj l) (hy : ∀ x a, l = x :: a → x.ty = .name → opens y → 0 < x.prio) : RAdj (y :: l) := by
  intro b y' x a e h1 h2
  cases b with
  | nil =>
    simp only [List.nil_append, List.cons.injEq] at e
    obtain ⟨rfl, e⟩ := e
    exact hy x a e h1 h2
  | cons z b =>
    simp only [List.cons_append, List.cons.injEq] at e
    exact h b y' x a e.2 h1 h2

theorem fits_prio {t : Tk} (p : Nat) (h : tokFits t) : tokFits { t with prio := p } := h

theorem fits_other {t : Tk} (h1 : t.ty = .operation ∨ t.ty = .argCount) : tokFits t := by
  unfold tokFits
  rcases h1 with h1 | h1 <;> rw [h1] <;> trivial

theorem markName_inv (prio : Nat) (hp : 0 < prio) {l : List Tk} (h : RAdj l) (hf : ∀ t ∈ l, tokFits t) :
    RAdj (markName prio l) ∧ (∀ t ∈ markName prio l, tokFits t) ∧ ∀ x a, markName prio l = x :: a → x.ty = .name → 0 < x.prio := by
  cases l with
  | nil => exact ⟨h, hf, by simp [markName]⟩
  | cons p r =>
    unfold markName
    dsimp only
    split
    · rename_i hn
      refine ⟨?_, ?_, ?_⟩
      · have hr : RAdj r := fun b y x a e => h (p :: b) y x a (by rw [e]; rfl)
        refine radj_cons hr fun x a e h1 h2 => ?_
        have : (TT.operation : TT) = .name := by rw [← h2.1]; exact hn
        cases this
      · intro t ht
        rcases List.mem_cons.mp ht with rfl | ht
        · exact fits_prio _ (hf p (by simp))
        · exact hf t (List.mem_cons_of_mem _ ht)
      · intro x a e _
        simp only [List.cons.injEq] at e
        rw [← e.1]; exact hp
    · rename_i hn
      refine ⟨h, hf, ?_⟩
      intro x a e h1
      simp only [List.cons.injEq] at e
      rw [← e.1] at h1
      exact absurd h1 hn

theorem u16_pos (nest : Int) (h : nest % 8 = 0) : 0 < u16 (nest + 7) := by
  unfold u16; omega

/-- The invariant of the priority pass. -/
def PrioOk (x : List Tk × Int) : Prop := RAdj x.1 ∧ (∀ t ∈ x.1, tokFits t) ∧ x.2 % 8 = 0

/-- A step of the priority pass. -/
theorem prioStep_inv (pre : Tk) (done : List Tk) (nest : Int) (t : Tk) (h : RAdj done) (hf : ∀ t ∈ done, tokFits t) (ht : tokFits t)
    (hn : nest % 8 = 0) : PrioOk (prioStep pre done nest t) := by
  have simple : ∀ t' : Tk, tokFits t' → ¬ opens t' → ∀ k : Int, k % 8 = 0 → PrioOk (t' :: done, k) := by
    intro t' h1 h2 k hk
    refine ⟨radj_cons h fun _ _ _ _ h3 => absurd h3 h2, ?_, hk⟩
    intro u hu
    rcases List.mem_cons.mp hu with rfl | hu
    · exact h1
    · exact hf u hu
  unfold prioStep
  by_cases hop : t.ty = .operation
  · rw [if_pos hop]
    by_cases hsub : t.cmd = opSubtract
    · rw [if_pos hsub]
      have hno : t.cmd ≠ opOpenBracket ∧ t.cmd ≠ opOpenParen := by rw [hsub]; decide
      split
      · exact simple { t with prio := u16 (nest + 4) } ht (fun ho => ho.2.elim hno.1 hno.2) _ hn
      · refine simple { t with cmd := opNegate, prio := u16 (nest + 6) } (fits_other (Or.inl hop)) (fun ho => ?_) _ hn
        have h2 := ho.2
        simp [opNegate, opOpenBracket, opOpenParen] at h2
    · rw [if_neg hsub]
      by_cases hb : t.cmd = opOpenBracket ∨ t.cmd = opOpenParen
      · rw [if_pos hb]
        obtain ⟨m1, m2, m3⟩ := markName_inv (u16 (nest + 7)) (u16_pos nest hn) h hf
        refine ⟨radj_cons m1 fun x a e h1 _ => m3 x a e h1, ?_, by show (nest + 8) % 8 = 0; omega⟩
        intro u hu
        rcases List.mem_cons.mp hu with rfl | hu
        · exact ht
        · exact m2 u hu
      · rw [if_neg hb]
        split
        · exact simple { t with prio := u16 nest } ht (fun ho => hb ho.2) _ (by omega)
        · split
          · rename_i k _
            exact simple { t with prio := u16 (nest + k) } ht (fun ho => hb ho.2) _ hn
          · exact simple _ ht (fun ho => hb ho.2) _ hn
  · rw [if_neg hop]
    split
    · exact simple { t with prio := u16 (nest + 7) } ht (fun ho => hop ho.1) _ hn
    · exact simple { t with prio := 0 } ht (fun ho => hop ho.1) _ hn

theorem prioLoop_inv (pre : Tk) : ∀ (ts done : List Tk) (nest : Int), RAdj done → (∀ t ∈ done, tokFits t) → (∀ t ∈ ts, tokFits t) →
    nest % 8 = 0 → Adj (prioLoop pre done nest ts) ∧ ∀ t ∈ prioLoop pre done nest ts, tokFits t
  | [], done, nest, h, hf, _, _ => by
    unfold prioLoop
    exact ⟨adj_reverse h, fun t ht => hf t (List.mem_reverse.mp ht)⟩
  | t :: ts, done, nest, h, hf, ht, hn => by
    unfold prioLoop
    obtain ⟨k1, k2, k3⟩ := prioStep_inv pre done nest t h hf (ht t (by simp)) hn
    exact prioLoop_inv pre ts _ _ k1 k2 (fun u hu => ht u (List.mem_cons_of_mem _ hu)) k3

theorem tokPrio_inv (pre : Tk) {ts : List Tk} (h : ∀ t ∈ ts, tokFits t) : Adj (tokPrio pre ts) ∧ ∀ t ∈ tokPrio pre ts, tokFits t :=
  prioLoop_inv pre ts [] 0 (fun b y x a e => by simp at e) (by simp) h rfl

/-! ## The reordering pass -/

/-- All tokens on the stack and in the result are well-formed. -/
def EvFits (e : Ev) : Prop := (∀ t ∈ e.ops, tokFits t) ∧ ∀ t ∈ e.res, tokFits t

theorem out_fits {e e' : Ev} {t : Tk} (h : EvFits e) (ht : tokFits t) (he : e.out t = .ok e') : EvFits e' ∧ e'.ops = e.ops := by
  unfold Ev.out at he
  split at he
  · cases he
    refine ⟨⟨h.1, fun u hu => ?_⟩, rfl⟩
    rcases List.mem_append.mp hu with hu | hu
    · exact h.2 u hu
    · rw [List.mem_singleton] at hu; rw [hu]; exact ht
  · cases he

theorem push_fits {e e' : Ev} {t : Tk} (h : EvFits e) (ht : tokFits t) (he : e.push t = .ok e') : EvFits e' ∧ e'.ops = t :: e.ops := by
  unfold Ev.push at he
  split at he
  · cases he
    refine ⟨⟨fun u hu => ?_, h.2⟩, rfl⟩
    rcases List.mem_cons.mp hu with rfl | hu
    · exact ht
    · exact h.1 u hu
  · cases he

theorem cleanLoop_fits (p : Nat) : ∀ (ops res : List Tk), (∀ t ∈ ops, tokFits t) → (∀ t ∈ res, tokFits t) →
    (∀ t ∈ (cleanLoop p ops res).1, tokFits t) ∧ ∀ t ∈ (cleanLoop p ops res).2, tokFits t
  | [], res, h1, h2 => ⟨h1, h2⟩
  | t :: ops, res, h1, h2 => by
    unfold cleanLoop
    split
    · refine cleanLoop_fits p ops _ (fun u hu => h1 u (List.mem_cons_of_mem _ hu)) fun u hu => ?_
      rcases List.mem_append.mp hu with hu | hu
      · exact h2 u hu
      · rw [List.mem_singleton] at hu; rw [hu]; exact h1 t (by simp)
    · exact ⟨h1, h2⟩

theorem clean_fits {e e' : Ev} {p : Nat} (h : EvFits e) (he : e.clean p = .ok e') : EvFits e' := by
  unfold Ev.clean at he
  dsimp only at he
  split at he
  · cases he
    exact cleanLoop_fits p e.ops e.res h.1 h.2
  · cases he

theorem incArg_fits {e e' : Ev} (h : EvFits e) (he : e.incArg = .ok e') : EvFits e' := by
  unfold Ev.incArg at he
  split at he
  · cases he; exact h
  · cases he

theorem evPush_fits {e e' : Ev} {t : Tk} (h : EvFits e) (ht : tokFits t) (he : evPush e t = .ok e') :
    EvFits e' ∧ (t.ty ≠ .operation → ∃ r, e'.ops = t :: r) := by
  unfold evPush at he
  obtain ⟨e1, h1, he⟩ := bind_inv he
  have hf1 : EvFits e1 := by
    split at h1
    · cases h1; exact h
    · exact clean_fits h h1
  split at he
  · obtain ⟨k1, k2⟩ := push_fits hf1 ht he
    exact ⟨k1, fun _ => ⟨_, k2⟩⟩
  · rename_i hc
    refine ⟨incArg_fits hf1 he, fun ho => absurd (Or.inl ho) hc⟩

theorem evFlags_fits {e e' : Ev} {t : Tk} (h : EvFits e) (he : evFlags e t = .ok e') : EvFits e' := by
  unfold evFlags at he
  split at he
  · cases he; exact h
  split at he
  · cases he; exact h
  split at he
  · cases he; exact h
  split at he
  · cases he; exact h
  dsimp only at he
  split at he
  · obtain ⟨e1, h1, he⟩ := bind_inv he
    cases he
    have h' : EvFits { e with isDim := false } := h
    exact (out_fits h' (by unfold tokFits loopTok; trivial) h1).1
  · cases he; exact h

theorem evComma_fits {e e' : Ev} {prev next : Option Tk} {t : Tk} (h : EvFits e) (ht : tokFits t)
    (he : evComma e prev next t = .ok e') : EvFits e' := by
  unfold evComma at he
  obtain ⟨e1, h1, he⟩ := bind_inv he
  obtain ⟨e2, h2, he⟩ := bind_inv he
  have hf := clean_fits (incArg_fits h h1) h2
  split at he
  · split at he
    · exact (out_fits hf ht he).1
    · split at he
      · exact (out_fits hf ht he).1
      · split at he
        · cases he
        · split at he
          · exact (out_fits hf ht he).1
          · split at he
            · split at he
              · exact (out_fits hf ht he).1
              · cases he; exact hf
            · cases he; exact hf
  · exact (out_fits hf ht he).1

theorem fits_name {t : Tk} (ht : tokFits t) (hn : t.ty = .name) {k : TT} (hk : k = .arrayName ∨ k = .dimArr ∨ k = .arrayActual) :
    tokFits { t with ty := k } := by
  unfold tokFits at ht ⊢
  rw [hn] at ht
  rcases hk with rfl | rfl | rfl <;> exact ht

/-- What `prev` guarantees: a name in front of an opening bracket is on top of the stack. -/
def PrevOk (e : Ev) (prev : Option Tk) (next : Option Tk) : Prop :=
  ∀ p y, prev = some p → p.ty = .name → next = some y → opens y → ∃ r, e.ops = p :: r

theorem evOpen_fits {e e' : Ev} {prev : Option Tk} {y : Tk} (h : EvFits e) (hp : PrevOk e prev (some y)) (hy : opens y)
    (he : evOpen e prev = .ok e') : EvFits e' := by
  unfold evOpen at he
  split at he
  · cases he
  · split at he
    · cases he; exact h
    · rename_i p
      split at he
      · rename_i hn
        obtain ⟨r, hr⟩ := hp p y rfl hn rfl hy
        rw [hr] at he
        cases he
        refine ⟨fun u hu => ?_, h.2⟩
        rcases List.mem_cons.mp hu with rfl | hu
        · exact fits_name (h.1 p (by rw [hr]; simp)) hn (Or.inl rfl)
        · exact h.1 u (by rw [hr]; exact List.mem_cons_of_mem _ hu)
      · split at he
        · cases he; exact h
        · cases he; exact h

theorem evClose_fits {e : Ev} {prev : Option Tk} {t : Tk} {r : Ev × Tk} (h : EvFits e) (ht : t.ty = .operation)
    (he : evClose e prev t = .ok r) : EvFits r.1 ∧ r.2.ty ≠ .name := by
  unfold evClose at he
  split at he
  · rename_i p a rr hargc
    dsimp only at he
    generalize (if p.ty = .operation ∧ p.cmd = opOpenParen then 0 else a) = a' at he
    split at he
    · obtain ⟨e1, h1, he⟩ := bind_inv he
      obtain ⟨e2, h2, he⟩ := bind_inv he
      cases he
      have h' : EvFits { e with argc := rr } := h
      exact ⟨(push_fits (clean_fits h' h1) (by unfold tokFits; trivial) h2).1, by simp⟩
    · cases he
      exact ⟨h, by rw [ht]; simp⟩
  · cases he

/-- A step of the reordering pass. -/
theorem evStep_fits {e : Ev} {prev next : Option Tk} {t : Tk} {r : Ev × Tk × Bool} (h : EvFits e) (ht : tokFits t)
    (hp : PrevOk e prev (some t)) (hadj : t.ty = .name → ∀ y, next = some y → opens y → 0 < t.prio)
    (he : evStep e prev next t = .ok r) : EvFits r.1 ∧ PrevOk r.1 (some r.2.1) next := by
  have notname : ∀ (e' : Ev) (t' : Tk), EvFits e' → t'.ty ≠ .name → EvFits (e', t', true).1 ∧ PrevOk (e', t', true).1 (some (e', t', true).2.1) next := by
    intro e' t' h1 h2
    refine ⟨h1, fun p y hp hn => ?_⟩
    cases hp
    exact absurd hn h2
  unfold evStep at he
  by_cases c1 : t.ty = .operation ∧ t.prio % 8 = 0
  · rw [if_pos c1] at he
    have hne : t.ty ≠ .name := by rw [c1.1]; simp
    split at he
    · obtain ⟨e1, h1, he⟩ := bind_inv he
      obtain ⟨e2, h2, he⟩ := bind_inv he
      cases he
      exact notname _ _ (push_fits (clean_fits h h1) ht h2).1 hne
    · split at he
      · rename_i ho
        obtain ⟨e1, h1, he⟩ := bind_inv he
        cases he
        exact notname _ _ (evOpen_fits h hp ⟨c1.1, ho⟩ h1) hne
      · obtain ⟨e1, h1, he⟩ := bind_inv he
        cases he
        obtain ⟨k1, k2⟩ := evClose_fits h c1.1 h1
        exact notname _ _ k1 k2
  rw [if_neg c1] at he
  by_cases c2 : t.ty = .operation ∧ t.prio = 1
  · rw [if_pos c2] at he
    obtain ⟨e1, h1, he⟩ := bind_inv he
    cases he
    exact notname _ _ (evComma_fits h ht h1) (by rw [c2.1]; simp)
  rw [if_neg c2] at he
  by_cases c3 : t.ty = .command
  · rw [if_pos c3] at he
    have hne : t.ty ≠ .name := by rw [c3]; simp
    split at he
    · cases he; exact notname _ _ h hne
    split at he
    · obtain ⟨e1, h1, he⟩ := bind_inv he
      cases he
      exact notname _ _ (clean_fits h h1) hne
    split at he
    · obtain ⟨e1, h1, he⟩ := bind_inv he
      obtain ⟨e2, h2, he⟩ := bind_inv he
      cases he
      exact notname _ _ (out_fits (clean_fits h h1) ht h2).1 hne
    split at he
    · obtain ⟨e1, h1, he⟩ := bind_inv he
      obtain ⟨e2, h2, he⟩ := bind_inv he
      cases he
      refine ⟨(out_fits (clean_fits h h1) ht h2).1, fun p y hp hn => ?_⟩
      cases hp
      exact absurd hn hne
    · obtain ⟨e1, h1, he⟩ := bind_inv he
      obtain ⟨e2, h2, he⟩ := bind_inv he
      cases he
      have ht' : ∀ b : Bool, tokFits (if b then { t with ty := .firstCommand } else t) ∧ (if b then { t with ty := .firstCommand } else t).ty ≠ .name := by
        intro b
        cases b with
        | false => exact ⟨ht, hne⟩
        | true =>
          refine ⟨?_, by simp⟩
          unfold tokFits at ht ⊢
          rw [c3] at ht
          exact ht
      obtain ⟨k1, -⟩ := evPush_fits (evFlags_fits h h1) (ht' _).1 h2
      exact notname _ _ k1 (ht' _).2
  rw [if_neg c3] at he
  by_cases c4 : t.prio > 0
  · rw [if_pos c4] at he
    dsimp only at he
    obtain ⟨e1, h1, he⟩ := bind_inv he
    cases he
    by_cases cd : t.ty = .name ∧ t.prio = 7 ∧ e.isDim
    · rw [if_pos cd] at h1 ⊢
      exact notname _ _ (evPush_fits h (fits_name ht cd.1 (Or.inr (Or.inl rfl))) h1).1 (by simp)
    · rw [if_neg cd] at h1 ⊢
      obtain ⟨k1, k2⟩ := evPush_fits h ht h1
      refine ⟨k1, fun p y hp hn _ _ => ?_⟩
      cases hp
      exact k2 (by simp only at hn; rw [hn]; simp)
  rw [if_neg c4] at he
  have hnp : ∀ e', PrevOk e' (some t) next := by
    intro e' p y hp hn hy ho
    cases hp
    exact absurd (hadj hn y hy ho) c4
  by_cases c5 : t.ty = .newline
  · rw [if_pos c5] at he
    obtain ⟨e1, h1, he⟩ := bind_inv he
    dsimp only at he
    have hf := clean_fits h h1
    split at he
    · obtain ⟨e2, h2, he⟩ := bind_inv he
      cases he
      have h' : EvFits { e1 with isDim := false, implicitCommas := true } := hf
      exact ⟨(out_fits h' (by unfold tokFits loopTok; trivial) h2).1, hnp _⟩
    · cases he
      exact ⟨hf, hnp _⟩
  rw [if_neg c5] at he
  by_cases c6 : t.ty = .label
  · rw [if_pos c6] at he
    dsimp only at he
    obtain ⟨e1, h1, he⟩ := bind_inv he
    cases he
    cases prev with
    | none => exact notname _ _ (out_fits h ht h1).1 (by rw [c6]; simp)
    | some p =>
      have ht' : tokFits { t with ty := .labelString } := by
        unfold tokFits at ht ⊢
        rw [c6] at ht
        exact ht
      exact notname _ _ (out_fits h ht' h1).1 (by simp)
  rw [if_neg c6] at he
  split at he
  · rename_i c7
    dsimp only at he
    obtain ⟨e1, h1, he⟩ := bind_inv he
    cases he
    exact notname _ _ (out_fits h (fits_name ht c7.1 (Or.inr (Or.inr rfl))) h1).1 (by simp)
  · obtain ⟨e1, h1, he⟩ := bind_inv he
    cases he
    exact ⟨(out_fits h ht h1).1, hnp _⟩

theorem evLoop_fits : ∀ (ts : List Tk) {e : Ev} {prev : Option Tk} {e' : Ev}, EvFits e → (∀ t ∈ ts, tokFits t) → Adj ts →
    PrevOk e prev ts.head? → evLoop e prev ts = .ok e' → EvFits e'
  | [], e, prev, e', h, _, _, _, he => by cases he; exact h
  | t :: ts, e, prev, e', h, ht, ha, hp, he => by
    unfold evLoop at he
    obtain ⟨r, h1, he⟩ := bind_inv he
    have hadj : t.ty = .name → ∀ y, ts.head? = some y → opens y → 0 < t.prio := by
      intro hn y hy ho
      match ts, hy with
      | z :: ts', hy => cases hy; exact ha [] t _ ts' rfl hn ho
    obtain ⟨k1, k2⟩ := evStep_fits h (ht t (by simp)) hp hadj h1
    split at he
    · exact evLoop_fits ts k1 (fun u hu => ht u (List.mem_cons_of_mem _ hu)) (fun a x y b e => ha (t :: a) x y b (by rw [e]; rfl)) k2 he
    · cases he; exact k1

theorem tokEval_fits {ts ks : List Tk} (h : ∀ t ∈ ts, tokFits t) (ha : Adj ts) (he : tokEval ts = .ok ks) : ∀ k ∈ ks, tokFits k := by
  unfold tokEval at he
  obtain ⟨e1, h1, he⟩ := bind_inv he
  obtain ⟨e2, h2, he⟩ := bind_inv he
  have hinit : EvFits Ev.init := ⟨by simp [Ev.init], by simp [Ev.init]⟩
  have hf := clean_fits (evLoop_fits ts hinit h ha (fun p y hp => by cases hp) h1) h2
  split at he
  · obtain ⟨e3, h3, he⟩ := bind_inv he
    cases he
    exact (out_fits hf (by intro h; revert h; decide) h3).1.2
  · cases he
    exact hf.2

end Sbc.Tok.Spec
