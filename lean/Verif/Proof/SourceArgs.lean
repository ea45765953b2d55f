import Verif.Proof.SourceArr
import Verif.Spec.SourceMachine
set_option autoImplicit false
/-!
# Values of source programs on the stack of the machine
-/
namespace Sbc.Source
open Sbc Sbc.Tok Sbc.Tok.Spec Sbc.Machine

variable {σ : Type} {env : Env σ} {K : Look}

/-- The machine gets to an end with the error `er`, the variables `st` and the rest of the system `w`. -/
def Ends (env : Env σ) (U : List (List Nat)) (st : Store) (w : σ) (er : Nat) (m : Mach σ) : Prop :=
  ∃ m', Reaches env m m' ∧ m'.ended = true ∧ m'.frames = m.frames ∧ m'.core.error = er ∧ Holds U st.closed m'.core ∧ m'.core.ext = w

theorem Ends.after' {U : List (List Nat)} {st : Store} {w : σ} {er : Nat} {m m' : Mach σ} (h : Reaches env m m')
    (hf : m'.frames = m.frames) (e : Ends env U st w er m') : Ends env U st w er m := by
  obtain ⟨x, h1, h2, h3, h4, h5, h6⟩ := e
  exact ⟨x, h.trans h1, h2, h3.trans hf, h4, h5, h6⟩

theorem ended_error {m : Mach σ} (h : m.core.error ≠ 0) : m.ended = true := by
  unfold Mach.ended
  simp [h]

/-- The code pushes the values, or ends with the error. -/
def Pushes (env : Env σ) (U : List (List Nat)) (st : Store) (m : Mach σ) (a code : List Instr) : Out (List Val) → Prop
  | .ok vs => vs.length ≤ code.length ∧ ∃ c' ens, Reaches env m (Machine.after m a code c') ∧ c'.stack = m.core.stack ++ ens ∧
      List.Forall₂ (Stands st c') ens vs ∧ Holds U st c' ∧ Grow m.core c'
  | .err er => Ends env U st m.core.ext (errNum er) m
  | .ub => True

/-- Functions, system variables and operators are as `K` says when the rest of the system is `x`. -/
structure Sees (env : Env σ) (K : Look) (x : σ) : Prop where
  functions : ∀ f (c : Core σ) (rest args : List Entry) (vs : List Val), c.ext = x → c.error = 0 → rest.length < 100 → c.stack = rest ++ args →
    args.map (entryVal c) = vs.map some → Answers (K.fn f vs) c rest (env.other bcFunction f vs.length c)
  sysvars : ∀ v (c : Core σ), c.ext = x → c.error = 0 → c.stack.length < 100 → Answers (K.sys v) c c.stack (env.other bcSysvar v 0 c)
  operators : ∀ op (c : Core σ) (rest : List Entry) (a b : Entry) (x y : Val), c.error = 0 → rest.length < 100 → c.stack = rest ++ [a, b] →
    entryVal c a = some x → entryVal c b = some y → Answers (textual op x y) c rest (env.other bcOperator op 0 c)

theorem Performs.sees {W : World σ} {C : Nat → Prop} (h : Performs env W C) (x : σ) : Sees env (W.look x) x :=
  ⟨fun f c rest args vs hx => by subst hx; exact h.functions f c rest args vs, fun v c hx => by subst hx; exact h.sysvars v c, h.operators⟩

/-- The code computes values. -/
def Computes (env : Env σ) (K : Look) (U : List (List Nat)) (st : Store) (code : List Instr) (o : Out (List Val)) : Prop :=
  ∀ (m : Mach σ) (a b : List Instr), At m a (code ++ b) → m.exec.argc = 0 → m.core.stack.length + code.length ≤ 100 →
    Holds U st m.core → Sees env K m.core.ext → Pushes env U st m a code o

theorem forall₂_length {α β : Type} {R : α → β → Prop} {l : List α} {k : List β} (h : List.Forall₂ R l k) : l.length = k.length := by
  induction h with
  | nil => rfl
  | cons _ _ ih => simp [ih]

theorem Stands.all_grow {st : Store} {c c' : Core σ} {ens : List Entry} {vs : List Val} (h : List.Forall₂ (Stands st c) ens vs)
    (g : Grow c c') : List.Forall₂ (Stands st c') ens vs := by
  induction h with
  | nil => exact .nil
  | cons h _ ih => exact .cons (h.grow g) ih

theorem forall₂_append {α β : Type} {R : α → β → Prop} {l l' : List α} {k k' : List β} (h : List.Forall₂ R l k) (h' : List.Forall₂ R l' k') :
    List.Forall₂ R (l ++ l') (k ++ k') := by
  induction h with
  | nil => exact h'
  | cons h _ ih => exact .cons h ih

theorem Computes.nil {U : List (List Nat)} {st : Store} : Computes env K U st [] (.ok []) := by
  intro m a b h _ _ hh hK
  refine ⟨Nat.le_refl _, m.core, [], ?_, by simp, .nil, hh, Grow.refl _⟩
  have : Machine.after m a [] m.core = m := by
    unfold Machine.after
    rw [List.append_nil, ← h.index]
  rw [this]
  exact Reaches.refl m

theorem Computes.append {U : List (List Nat)} {st : Store} {c1 c2 : List Instr} {o1 o2 : Out (List Val)}
    (h1 : Computes env K U st c1 o1) (h2 : Computes env K U st c2 o2) :
    Computes env K U st (c1 ++ c2) (o1.bind fun v => o2.bind fun w => .ok (v ++ w)) := by
  intro m a b h hargc hl hh hK
  rw [List.append_assoc] at h
  rw [List.length_append] at hl
  have k1 := h1 m a (c2 ++ b) h hargc (by omega) hh hK
  cases o1 with
  | ub => trivial
  | err er => exact k1
  | ok v =>
    obtain ⟨hlen, c', ens, hr, hst, hs, hh', hg⟩ := k1
    have herr : c'.error = 0 := hg.error.trans h.error
    have hel := forall₂_length hs
    have hat := h.after herr
    have k2 := h2 (Machine.after m a c1 c') (a ++ c1) b hat hargc (by
      show c'.stack.length + _ ≤ _
      rw [hst, List.length_append]; omega) hh' (by
      show Sees env K c'.ext
      rw [hg.ext]; exact hK)
    cases o2 with
    | ub => trivial
    | err er =>
      refine Ends.after' (m' := Machine.after m a c1 c') hr rfl ?_
      have hk : Ends env U st c'.ext (errNum er) (Machine.after m a c1 c') := k2
      rw [hg.ext] at hk
      exact hk
    | ok w =>
      obtain ⟨hlen2, c2', ens2, hr2, hst2, hs2, hh2, hg2⟩ := k2
      have hg2 : Grow c' c2' := hg2
      refine ⟨by simp only [List.length_append]; omega, c2', ens ++ ens2, ?_, ?_, forall₂_append (Stands.all_grow hs hg2) hs2, hh2, hg.trans hg2⟩
      · have := hr.trans hr2
        rw [after_after] at this
        exact this
      · rw [hst2]
        show c'.stack ++ ens2 = _
        rw [hst, List.append_assoc]

theorem Computes.num {U : List (List Nat)} {st : Store} {v : Int} (hv : I32 v) :
    Computes env K U st [numInstr v] (.ok [.num v]) := by
  intro m a b h hargc hl hh hK
  simp only [List.length_singleton] at hl
  exact ⟨Nat.le_refl _, _, [.num v], push_num h hargc (by omega) hv, rfl, .cons (.num v) .nil, hh.stack _, (Grow.refl _).stack _⟩

theorem Computes.var {U : List (List Nat)} {st : Store} {w : List Nat} (hw : VarName w ∨ StrName w) (hU : w ∈ U) :
    Computes env K U st [nameInstr w] (.ok [st.get w]) := by
  intro m a b h hargc hl hh hK
  simp only [List.length_singleton] at hl
  rcases hw with hw | hw
  · obtain ⟨c', i, hr, hs, hh', hg, hi, hk⟩ := push_name (env := env) h hargc (by omega) hw hU hh
    rw [show st.get w = .num (st.num w) from if_neg hw.2.1]
    exact ⟨Nat.le_refl _, c', _, hr, hs, .cons (.var w i hi hk) .nil, hh', hg⟩
  · obtain ⟨c', i, hr, hs, hh', hg, hi, hk⟩ := push_strName (env := env) h hargc (by omega) hw hU hh
    rw [show st.get w = .str (st.str w) from if_pos hw.1]
    have ht := Stands.text (st := st) w.dropLast i hi hk
    rw [dollar hw.1] at ht
    exact ⟨Nat.le_refl _, c', _, hr, hs, .cons ht .nil, hh', hg⟩

theorem Computes.str {U : List (List Nat)} {st : Store} (s : List Nat) :
    Computes env K U st [.text bcString s] (.ok [.str s]) := by
  intro m a b h hargc hl hh hK
  simp only [List.length_singleton] at hl
  exact ⟨Nat.le_refl _, _, [.str false s], push_str h hargc (by omega), rfl, .cons (.str s) .nil, hh.stack _, (Grow.refl _).stack _⟩

theorem Computes.sep {U : List (List Nat)} {st : Store} {op : Nat} (hop : op = opComma ∨ op = opSemicolon) :
    Computes env K U st [.simple bcOperator op] (.ok [.sep op]) := by
  intro m a b h hargc hl hh hK
  simp only [List.length_singleton] at hl
  refine ⟨Nat.le_refl _, { m.core with stack := m.core.stack ++ [.sep op] }, [.sep op], ?_, rfl, .cons (.sep op) .nil, hh.stack _, (Grow.refl _).stack _⟩
  refine At.simple h (by decide) _ hargc ?_
  rw [exec_op]
  refine congrArg _ ?_
  show execOp env op m.exec.argc m.core = _
  have h15 : op = 1 ∨ op = 5 := hop
  unfold execOp
  rw [if_neg (by omega), if_pos h15]
  exact push_ok _ _ (by omega)

theorem Stands.val {U : List (List Nat)} {st : Store} {c : Core σ} {en : Entry} {v : Val} (h : Stands st c en v) (hh : Holds U st c) :
    entryVal c en = some v := by
  cases h with
  | num v => rfl
  | var n i h1 h2 => show some (Val.num (c.mem (.slot i))) = _; rw [hh.value n i h1 h2]
  | text n i h1 h2 => show some (Val.str (c.smem (.slot i))) = _; rw [hh.text n i h1 h2]
  | cell w => rfl
  | cellStr w => rfl
  | str s => rfl
  | sep op => rfl

theorem Stands.vals {U : List (List Nat)} {st : Store} {c : Core σ} {ens : List Entry} {vs : List Val} (h : List.Forall₂ (Stands st c) ens vs)
    (hh : Holds U st c) : ens.map (entryVal c) = vs.map some := by
  induction h with
  | nil => rfl
  | cons h _ ih => rw [List.map_cons, List.map_cons, h.val hh, ih]

theorem Stands.entry {st : Store} {c : Core σ} (v : Val) : Stands st c v.entry v := by
  cases v with
  | num v => exact .num v
  | str s => exact .str s
  | sep op => exact .sep op

theorem errNum_eq (er : Err) : errNum er = errorNumber er := by cases er <;> rfl

/-- A system variable. -/
theorem Computes.sys {U : List (List Nat)} {st : Store} (v : Nat) :
    Computes env K U st [.simple bcSysvar v] ((K.sys v).bind fun x => .ok [x]) := by
  intro m a b h hargc hl hh hK
  simp only [List.length_singleton] at hl
  have ha := hK.sysvars v m.core rfl h.error (by omega)
  have hx : execInstr env bcSysvar v (m.skip 2) = onCore (m.skip 2) (env.other bcSysvar v 0 m.core) := by
    show onCore (m.skip 2) (env.other bcSysvar v m.exec.argc m.core) = _
    rw [hargc]
  cases hv : K.sys v with
  | ub => trivial
  | err er =>
    rw [hv] at ha
    obtain ⟨s', hs⟩ := ha
    have hstep := h.step (env := env)
    rw [show (Instr.simple bcSysvar v).op = bcSysvar from rfl, show arg (.simple bcSysvar v) = v from rfl, hx, hs] at hstep
    refine ⟨_, Reaches.one hstep, ?_, rfl, ?_, ?_, ?_⟩
    · apply ended_error
      show errorNumber er ≠ 0
      cases er <;> decide
    · exact (errNum_eq er).symm
    · exact hh.closed
    · rfl
  | ok x =>
    rw [hv] at ha
    refine ⟨by simp, { m.core with stack := m.core.stack ++ [x.entry] }, [x.entry], ?_, rfl, .cons (Stands.entry x) .nil, hh.stack _, (Grow.refl _).stack _⟩
    refine At.simple h (by decide) _ hargc ?_
    rw [hx]
    exact congrArg _ ha

/-- A function with the arguments on the stack. -/
theorem fn_done {U : List (List Nat)} {st : Store} {m : Mach σ} {a b code : List Instr} {f : Nat} {c' : Core σ} {ens : List Entry} {vs : List Val}
    (h : At m a ((code ++ [.simple bcArgcount vs.length, .simple bcFunction f]) ++ b)) (hargc : m.exec.argc = 0) (hne : m.core.stack.length < 100)
    (hr : Reaches env m (Machine.after m a code c')) (hst : c'.stack = m.core.stack ++ ens) (hs : List.Forall₂ (Stands st c') ens vs)
    (hh : Holds U st c') (hg : Grow m.core c') (hK : Sees env K m.core.ext) :
    Pushes env U st m a (code ++ [.simple bcArgcount vs.length, .simple bcFunction f]) ((K.fn f vs).bind fun v => .ok [v]) := by
  have herr : c'.error = 0 := hg.error.trans h.error
  have hat : At (Machine.after m a code c') (a ++ code) (.simple bcArgcount vs.length :: .simple bcFunction f :: b) := by
    have : At m a (code ++ (.simple bcArgcount vs.length :: .simple bcFunction f :: b)) := by
      rw [List.append_assoc] at h; exact h
    exact this.after herr
  have ha := hK.functions f c' m.core.stack ens vs hg.ext herr hne hst (Stands.vals hs hh)
  have hs1 := hat.step (env := env)
  rw [show (Instr.simple bcArgcount vs.length).op = bcArgcount from rfl, show arg (.simple bcArgcount vs.length) = vs.length from rfl,
    show execInstr env bcArgcount vs.length ((Machine.after m a code c').skip 2) =
      .ok { (Machine.after m a code c').skip 2 with exec := { ((Machine.after m a code c').skip 2).exec with argc := vs.length } } from rfl] at hs1
  simp only [Out.bind] at hs1
  rw [show clearArgc (σ := σ) bcArgcount = id from by funext m; simp [clearArgc]] at hs1
  simp only [id] at hs1
  generalize hM : ({ (Machine.after m a code c').skip 2 with exec := { ((Machine.after m a code c').skip 2).exec with argc := vs.length } } : Mach σ) = M at hs1
  have hr1 := hr.trans (Reaches.one hs1)
  have hMc : M.core = c' := by rw [← hM]; rfl
  have hMa : M.exec.argc = vs.length := by rw [← hM]
  have hMf : M.frames = m.frames := by rw [← hM]; rfl
  have hMat : At M (a ++ code ++ [.simple bcArgcount vs.length]) (.simple bcFunction f :: b) := by
    refine ⟨?_, ?_, by rw [hMc]; exact herr⟩
    · rw [← hM]
      show m.exec.code = _
      rw [h.code]; simp
    · rw [← hM]
      show posAfter (a ++ code) + 2 = _
      rw [posAfter_snoc]; rfl
  have hs2 := hMat.step (env := env)
  rw [show (Instr.simple bcFunction f).op = bcFunction from rfl, show arg (.simple bcFunction f) = f from rfl,
    show execInstr env bcFunction f (M.skip 2) = onCore (M.skip 2) (env.other bcFunction f M.exec.argc M.core) from rfl, hMa, hMc] at hs2
  cases hv : K.fn f vs with
  | ub => trivial
  | err er =>
    rw [hv] at ha
    obtain ⟨s', hs⟩ := ha
    rw [hs] at hs2
    refine ⟨_, hr1.trans (Reaches.one hs2), ?_, hMf, ?_, ?_, ?_⟩
    · apply ended_error
      show errorNumber er ≠ 0
      cases er <;> decide
    · exact (errNum_eq er).symm
    · exact hh.closed
    · exact hg.ext
  | ok v =>
    rw [hv] at ha
    have ha : env.other bcFunction f vs.length c' = .ok { c' with stack := m.core.stack ++ [v.entry] } := ha
    rw [ha] at hs2
    refine ⟨by simp, { c' with stack := m.core.stack ++ [v.entry] }, [v.entry], ?_, rfl, .cons (Stands.entry v) .nil, hh.stack _, hg.stack _⟩
    refine hr1.trans ?_
    have e : Machine.after m a (code ++ [.simple bcArgcount vs.length, .simple bcFunction f]) { c' with stack := m.core.stack ++ [v.entry] } =
        clearArgc bcFunction { M.skip 2 with core := { c' with stack := m.core.stack ++ [v.entry] } } := by
      rw [clearArgc_ne (by decide), ← hM]
      simp only [Machine.after, Mach.skip]
      rw [show a ++ (code ++ [Instr.simple bcArgcount vs.length, .simple bcFunction f]) = (a ++ code ++ [.simple bcArgcount vs.length]) ++ [.simple bcFunction f] by simp,
        posAfter_snoc, posAfter_snoc, hargc]
      rfl
    rw [e]
    exact Reaches.one hs2

/-- An operator that is not only given numbers. -/
theorem op_ans {U : List (List Nat)} {st : Store} {m : Mach σ} {a b code : List Instr} {op : Nat} {c' : Core σ} {o : Out Val}
    (h : At m a ((code ++ [.simple bcOperator op]) ++ b)) (hargc : m.exec.argc = 0) (hr : Reaches env m (Machine.after m a code c'))
    (hh : Holds U st c') (hg : Grow m.core c') (hx : Answers o c' m.core.stack (execOp env op 0 c')) :
    Pushes env U st m a (code ++ [.simple bcOperator op]) (o.bind fun v => .ok [v]) := by
  have herr : c'.error = 0 := hg.error.trans h.error
  have hat : At (Machine.after m a code c') (a ++ code) (.simple bcOperator op :: b) := by
    have : At m a (code ++ (.simple bcOperator op :: b)) := by
      rw [List.append_assoc] at h; exact h
    exact this.after herr
  cases o with
  | ub => trivial
  | err er =>
    obtain ⟨s', hs'⟩ := hx
    refine Ends.after' (m' := Machine.after m a code c') hr rfl ?_
    have hs := At.op_err (env := env) (c := { c' with stack := s', error := errorNumber er }) hat (by
      show execOp env op m.exec.argc c' = _
      rw [hargc, hs'])
    refine ⟨_, Reaches.one hs, ?_, rfl, ?_, ?_, ?_⟩
    · apply ended_error
      show errorNumber er ≠ 0
      cases er <;> decide
    · exact (errNum_eq er).symm
    · exact hh.closed
    · exact hg.ext
  | ok v =>
    refine ⟨by simp, { c' with stack := m.core.stack ++ [v.entry] }, [v.entry], ?_, rfl, .cons (Stands.entry v) .nil, hh.stack _, hg.stack _⟩
    rw [← after_after m a code [.simple bcOperator op] c']
    refine hr.trans (At.simple hat (by decide) _ hargc ?_)
    rw [exec_op]
    refine congrArg _ ?_
    show execOp env op m.exec.argc c' = _
    rw [hargc]
    exact hx

/-- An operator with the operands on the stack. -/
theorem op_done {U : List (List Nat)} {st : Store} {m : Mach σ} {a b code : List Instr} {op : Nat} {c' : Core σ} {o : Out Int}
    (h : At m a ((code ++ [.simple bcOperator op]) ++ b)) (hargc : m.exec.argc = 0) (hne : m.core.stack.length < 100) (hr : Reaches env m (Machine.after m a code c'))
    (hh : Holds U st c') (hg : Grow m.core c') (hx : execOp env op 0 c' = c'.result m.core.stack o) :
    Pushes env U st m a (code ++ [.simple bcOperator op]) (o.bind fun v => .ok [.num v]) := by
  have herr : c'.error = 0 := hg.error.trans h.error
  have hat : At (Machine.after m a code c') (a ++ code) (.simple bcOperator op :: b) := by
    have : At m a (code ++ (.simple bcOperator op :: b)) := by
      rw [List.append_assoc] at h; exact h
    exact this.after herr
  cases o with
  | ub => trivial
  | err er =>
    refine Ends.after' (m' := Machine.after m a code c') hr rfl ?_
    have hs := At.op_err (env := env) (c := ({ c' with stack := m.core.stack }.fail (errNum er))) hat (by
      show execOp env op m.exec.argc c' = _
      rw [hargc, hx]
      rfl)
    refine ⟨_, Reaches.one hs, ?_, rfl, ?_, ?_, ?_⟩
    · apply ended_error
      show errNum er ≠ 0
      cases er <;> decide
    · rfl
    · exact hh.closed
    · exact hg.ext
  | ok v =>
    refine ⟨by simp, { c' with stack := m.core.stack ++ [.num v] }, [.num v], ?_, rfl, .cons (.num v) .nil, hh.stack _, hg.stack _⟩
    rw [← after_after m a code [.simple bcOperator op] c']
    refine hr.trans (At.simple hat (by decide) _ hargc ?_)
    rw [exec_op]
    refine congrArg _ ?_
    show execOp env op m.exec.argc c' = _
    rw [hargc, hx]
    exact push_ok { c' with stack := m.core.stack } _ hne

theorem Stands.numb {st : Store} {c : Core σ} {en : Entry} {v : Val} (h : Stands st c en v) : Machine.isNum en = true → ∃ n, v = .num n := by
  cases h with
  | num v => exact fun _ => ⟨v, rfl⟩
  | var n i _ _ => exact fun _ => ⟨_, rfl⟩
  | text n i _ _ => intro h; cases h
  | cell w => exact fun _ => ⟨_, rfl⟩
  | cellStr w => intro h; cases h
  | str s => intro h; cases h
  | sep op => intro h; cases h

/-- An element of an array, with the subscripts on the stack. -/
theorem arr_done {U : List (List Nat)} {st : Store} {m : Mach σ} {a b code : List Instr} {w : List Nat} {c' : Core σ} {ens : List Entry} {vs : List Val}
    {x : Int} {y : Option Int} (hw : VarName w ∨ StrName w) (hsub : subsOf vs = some (x, y))
    (h : At m a ((code ++ [.simple bcArgcount vs.length, nameInstr w]) ++ b)) (hargc : m.exec.argc = 0) (hne : m.core.stack.length < 100)
    (hr : Reaches env m (Machine.after m a code c')) (hst : c'.stack = m.core.stack ++ ens) (hs : List.Forall₂ (Stands st c') ens vs)
    (hh : Holds U st c') (hg : Grow m.core c') :
    Pushes env U st m a (code ++ [.simple bcArgcount vs.length, nameInstr w]) ((st.cell w x y).bind fun v => .ok [v]) := by
  have herr : c'.error = 0 := hg.error.trans h.error
  obtain ⟨n, isStr, hn⟩ := name_cases hw
  unfold Store.cell
  cases hgr : st.grid w with
  | none => trivial
  | some g =>
    have he := name_elem hst hne hs hh hsub hn hgr
    dsimp only
    cases hat : g.at x y with
    | ub => trivial
    | err e =>
      rw [hat] at he
      obtain ⟨h0, he⟩ := he
      have hx := name_step (env := env) h hargc hr herr hn (nameIns hn) (by decide) ((if_neg (by decide)).trans he)
      exact ⟨_, hx, ended_error h0, rfl, rfl, hh.closed, hg.ext⟩
    | ok q =>
      rw [hat] at he
      obtain ⟨hin, i, p, ha, he⟩ := he
      have hx := name_step (env := env) h hargc hr herr hn (nameIns hn) (by decide) ((if_neg (by decide)).trans he)
      refine ⟨by simp, _, _, hx, rfl, .cons ?_ .nil, hh.stack _, hg.stack _⟩
      cases isStr with
      | true =>
        rw [if_pos (hn.last.mpr rfl), ← ha.laid.str q.1 q.2 hin]
        exact Stands.cellStr (c := { c' with stack := _ }) _
      | false =>
        rw [if_neg (fun e => by have := hn.last.mp e; cases this), ← ha.laid.num q.1 q.2 hin]
        exact Stands.cell (c := { c' with stack := _ }) _

/-- Expressions. -/
theorem computes_e {U : List (List Nat)} {st : Store} (e : E) (hw : e.tree.WF) (hl : e.Leaves) (hU : ∀ x ∈ e.vars, x ∈ U) :
    Computes env K U st e.code ((e.value K st).bind fun v => .ok [v]) := by
  induction e with
  | num w => exact Computes.num (Num.value_i32 w hl.2.1)
  | str w => exact Computes.str w
  | var w => exact Computes.var hl (hU w (by simp [E.vars]))
  | paren e ih => exact ih hw hl hU
  | un op e ih =>
    obtain ⟨hop, hwe⟩ : unary op = true ∧ e.tree.WF := ⟨hw.1, hw.2.2⟩
    have ih := ih hwe hl hU
    intro m a b h hargc hlen hh hK
    have hc : (E.un op e).code = e.code ++ [.simple bcOperator op] := rfl
    rw [hc] at h hlen ⊢
    rw [List.length_append, List.length_singleton] at hlen
    have k := ih m a ([.simple bcOperator op] ++ b) (by rw [← List.append_assoc]; exact h) hargc (by omega) hh hK
    show Pushes env U st m a _ (((e.value K st).bind fun x => x.number.bind fun n => (unary' op n).bind fun v => .ok (Val.num v)).bind fun v => .ok [v])
    cases hv : e.value K st with
    | ub => trivial
    | err er => rw [hv] at k; exact k
    | ok x =>
      cases x with
      | str t => trivial
      | sep o => trivial
      | num x =>
        rw [hv] at k
        obtain ⟨_, c', ens, hr, hst, hs, hh', hg⟩ := k
        obtain ⟨en, rfl⟩ : ∃ en, ens = [en] := by
          cases hs with | cons h1 h2 => cases h2; exact ⟨_, rfl⟩
        obtain ⟨hn, hx⟩ := (by cases hs with | cons h1 h2 => exact h1 : Stands st c' en (.num x)).number hh'
        have hd := op_done h hargc (by omega) hr hh' hg (op_one hop hst hn hx)
        show Pushes env U st m a _ (((unary' op x).bind fun v => .ok (Val.num v)).bind fun v => .ok [v])
        cases hu : unary' op x with
        | ok v => rw [hu] at hd; exact hd
        | err er => rw [hu] at hd; exact hd
        | ub => trivial
  | bin op l r ihl ihr =>
    obtain ⟨k, hop, _, _, hwl⟩ := hw
    have i1 := ihl hwl.1 hl.1 (fun x hx => hU x (by simp [E.vars, hx]))
    have i2 := ihr hwl.2 hl.2 (fun x hx => hU x (by simp [E.vars, hx]))
    have i := i1.append i2
    intro m a b h hargc hlen hh hK
    have hc : (E.bin op l r).code = (l.code ++ r.code) ++ [.simple bcOperator op] := by
      show l.code ++ (r.code ++ _) = _
      rw [List.append_assoc]
    rw [hc] at h hlen ⊢
    rw [List.length_append, List.length_singleton] at hlen
    have k := i m a ([.simple bcOperator op] ++ b) (by rw [← List.append_assoc]; exact h) hargc (by omega) hh hK
    show Pushes env U st m a _ (((l.value K st).bind fun x => (r.value K st).bind fun y => operate op x y).bind fun v => .ok [v])
    cases hv : l.value K st with
    | ub => trivial
    | err er => rw [hv] at k; exact k
    | ok x =>
      rw [hv] at k
      cases hv2 : r.value K st with
      | ub => trivial
      | err er => rw [hv2] at k; exact k
      | ok y =>
        rw [hv2] at k
        obtain ⟨_, c', ens, hr, hst, hs, hh', hg⟩ := k
        have hs : List.Forall₂ (Stands st c') ens [x, y] := hs
        obtain ⟨e1, e2, rfl, s1, s2⟩ : ∃ e1 e2, ens = [e1, e2] ∧ Stands st c' e1 x ∧ Stands st c' e2 y := by
          cases hs with
          | cons h1 h2 => cases h2 with
            | cons h3 h4 => cases h4; exact ⟨_, _, rfl, h1, h3⟩
        show Pushes env U st m a _ ((operate op x y).bind fun v => .ok [v])
        cases hn : Machine.isNum e1 && Machine.isNum e2 with
        | false =>
          have herr : c'.error = 0 := hg.error.trans h.error
          have ho := hK.operators op c' m.core.stack e1 e2 x y herr (by omega) hst (s1.val hh') (s2.val hh')
          rw [← op_text (env := env) (argc := 0) hop hst hn] at ho
          have hd := op_ans h hargc hr hh' hg ho
          have heq : operate op x y = textual op x y := by
            cases x with
            | num u => cases y with
              | num v =>
                exfalso
                rw [(s1.number hh').1, (s2.number hh').1] at hn
                cases hn
              | str t => rfl
              | sep o => rfl
            | str t => rfl
            | sep o => rfl
          rw [heq]
          exact hd
        | true =>
          rw [Bool.and_eq_true] at hn
          obtain ⟨u, rfl⟩ := s1.numb hn.1
          obtain ⟨v, rfl⟩ := s2.numb hn.2
          obtain ⟨n1, x1⟩ := s1.number hh'
          obtain ⟨n2, x2⟩ := s2.number hh'
          have hd := op_done h hargc (by omega) hr hh' hg (op_two hop hst n1 n2 x1 x2)
          show Pushes env U st m a _ (((binary op u v).bind fun v => .ok (Val.num v)).bind fun v => .ok [v])
          cases hu : binary op u v with
          | ok v => rw [hu] at hd; exact hd
          | err er => rw [hu] at hd; exact hd
          | ub => trivial
  | sys v => exact Computes.sys v
  | fn0 f =>
    intro m a b h hargc hlen hh hK
    have hc : (E.fn0 f).code = [] ++ [.simple bcArgcount ([] : List Val).length, .simple bcFunction f] := rfl
    rw [hc] at h hlen ⊢
    simp only [List.nil_append, List.length_cons, List.length_nil] at hlen
    refine fn_done (c' := m.core) (ens := []) h hargc (by omega) ?_ (by simp) .nil hh (Grow.refl _) hK
    have : Machine.after m a [] m.core = m := by
      unfold Machine.after
      rw [List.append_nil, ← h.index]
    rw [this]
    exact Reaches.refl m
  | fn1 f x ih =>
    have ih := ih hw.2 hl.2 hU
    intro m a b h hargc hlen hh hK
    have hc : (E.fn1 f x).code = x.code ++ [.simple bcArgcount 1, .simple bcFunction f] := rfl
    rw [hc] at h hlen ⊢
    simp only [List.length_append, List.length_cons, List.length_nil] at hlen
    have k := ih m a ([.simple bcArgcount 1, .simple bcFunction f] ++ b) (by rw [← List.append_assoc]; exact h) hargc (by omega) hh hK
    show Pushes env U st m a _ (((x.value K st).bind fun x => K.fn f [x]).bind fun v => .ok [v])
    cases hv : x.value K st with
    | ub => trivial
    | err er => rw [hv] at k; exact k
    | ok y =>
      rw [hv] at k
      obtain ⟨_, c', ens, hr, hst, hs, hh', hg⟩ := k
      exact fn_done (vs := [y]) h hargc (by omega) hr hst hs hh' hg hK
  | fn2 f x y ihx ihy =>
    have i1 := ihx hw.2.1 hl.2.1 (fun z hz => hU z (by simp [E.vars, hz]))
    have i2 := ihy hw.2.2 hl.2.2 (fun z hz => hU z (by simp [E.vars, hz]))
    have i := i1.append i2
    intro m a b h hargc hlen hh hK
    have hc : (E.fn2 f x y).code = (x.code ++ y.code) ++ [.simple bcArgcount 2, .simple bcFunction f] := rfl
    rw [hc] at h hlen ⊢
    simp only [List.length_append, List.length_cons, List.length_nil] at hlen
    have k := i m a ([.simple bcArgcount 2, .simple bcFunction f] ++ b) (by rw [← List.append_assoc]; exact h) hargc
      (by rw [List.length_append]; omega) hh hK
    show Pushes env U st m a _ (((x.value K st).bind fun u => (y.value K st).bind fun v => K.fn f [u, v]).bind fun v => .ok [v])
    cases hv : x.value K st with
    | ub => trivial
    | err er => rw [hv] at k; exact k
    | ok u =>
      rw [hv] at k
      cases hv2 : y.value K st with
      | ub => trivial
      | err er => rw [hv2] at k; exact k
      | ok v =>
        rw [hv2] at k
        obtain ⟨_, c', ens, hr, hst, hs, hh', hg⟩ := k
        exact fn_done (vs := [u, v]) h hargc (by omega) hr hst hs hh' hg hK
  | fn3 f x y z ihx ihy ihz =>
    have i1 := ihx hw.2.1 hl.2.1 (fun z hz => hU z (by simp [E.vars, hz]))
    have i2 := ihy hw.2.2.1 hl.2.2.1 (fun z hz => hU z (by simp [E.vars, hz]))
    have i3 := ihz hw.2.2.2 hl.2.2.2 (fun z hz => hU z (by simp [E.vars, hz]))
    have i := i1.append (i2.append i3)
    intro m a b h hargc hlen hh hK
    have hc : (E.fn3 f x y z).code = (x.code ++ (y.code ++ z.code)) ++ [.simple bcArgcount 3, .simple bcFunction f] := rfl
    rw [hc] at h hlen ⊢
    simp only [List.length_append, List.length_cons, List.length_nil] at hlen
    have k := i m a ([.simple bcArgcount 3, .simple bcFunction f] ++ b) (by rw [← List.append_assoc]; exact h) hargc
      (by rw [List.length_append, List.length_append]; omega) hh hK
    show Pushes env U st m a _ (((x.value K st).bind fun u => (y.value K st).bind fun v => (z.value K st).bind fun w => K.fn f [u, v, w]).bind fun v => .ok [v])
    cases hv : x.value K st with
    | ub => trivial
    | err er => rw [hv] at k; exact k
    | ok u =>
      rw [hv] at k
      cases hv2 : y.value K st with
      | ub => trivial
      | err er => rw [hv2] at k; exact k
      | ok v =>
        rw [hv2] at k
        cases hv3 : z.value K st with
        | ub => trivial
        | err er => rw [hv3] at k; exact k
        | ok w =>
          rw [hv3] at k
          obtain ⟨_, c', ens, hr, hst, hs, hh', hg⟩ := k
          exact fn_done (vs := [u, v, w]) h hargc (by omega) hr hst hs hh' hg hK
  | arr1 sq w x ih =>
    have ih := ih hw.2 hl.2 (fun z hz => hU z (by simp [E.vars, hz]))
    intro m a b h hargc hlen hh hK
    have hc : (E.arr1 sq w x).code = x.code ++ [.simple bcArgcount 1, nameInstr w] := rfl
    rw [hc] at h hlen ⊢
    simp only [List.length_append, List.length_cons, List.length_nil] at hlen
    have k := ih m a ([.simple bcArgcount 1, nameInstr w] ++ b) (by rw [← List.append_assoc]; exact h) hargc (by omega) hh hK
    show Pushes env U st m a _ (((x.value K st).bind fun x => x.number.bind fun n => st.cell w (n / 4096) none).bind fun v => .ok [v])
    cases hv : x.value K st with
    | ub => trivial
    | err er => rw [hv] at k; exact k
    | ok y =>
      rw [hv] at k
      obtain ⟨_, c', ens, hr, hst, hs, hh', hg⟩ := k
      cases y with
      | str s => trivial
      | sep o => trivial
      | num n => exact arr_done (vs := [.num n]) hl.1.1 rfl h hargc (by omega) hr hst hs hh' hg
  | arr2 sq w x y ihx ihy =>
    have i1 := ihx hw.2.1 hl.2.1 (fun z hz => hU z (by simp [E.vars, hz]))
    have i2 := ihy hw.2.2 hl.2.2 (fun z hz => hU z (by simp [E.vars, hz]))
    have i := i1.append i2
    intro m a b h hargc hlen hh hK
    have hc : (E.arr2 sq w x y).code = (x.code ++ y.code) ++ [.simple bcArgcount 2, nameInstr w] := rfl
    rw [hc] at h hlen ⊢
    simp only [List.length_append, List.length_cons, List.length_nil] at hlen
    have k := i m a ([.simple bcArgcount 2, nameInstr w] ++ b) (by rw [← List.append_assoc]; exact h) hargc
      (by rw [List.length_append]; omega) hh hK
    show Pushes env U st m a _ (((x.value K st).bind fun u => (y.value K st).bind fun v => u.number.bind fun n => v.number.bind fun k =>
      st.cell w (n / 4096) (some (k / 4096))).bind fun v => .ok [v])
    cases hv : x.value K st with
    | ub => trivial
    | err er => rw [hv] at k; exact k
    | ok u =>
      rw [hv] at k
      cases hv2 : y.value K st with
      | ub => trivial
      | err er => rw [hv2] at k; exact k
      | ok v =>
        rw [hv2] at k
        obtain ⟨_, c', ens, hr, hst, hs, hh', hg⟩ := k
        cases u with
        | str s => trivial
        | sep o => trivial
        | num n => cases v with
          | str s => trivial
          | sep o => trivial
          | num k => exact arr_done (vs := [.num n, .num k]) hl.1.1 rfl h hargc (by omega) hr hst hs hh' hg

/-- Arguments. -/
theorem computes_arg {U : List (List Nat)} {st : Store} (x : E) (hw : x.Good) (hU : ∀ y ∈ x.vars, y ∈ U) :
    Computes env K U st x.code ((x.value K st).bind fun v => .ok [v]) := computes_e x hw.tree hw.leaves hU

/-- Numbers. -/
theorem computes_number {U : List (List Nat)} {st : Store} (e : E) (hw : e.Good) (hU : ∀ x ∈ e.vars, x ∈ U) :
    Computes env K U st e.code ((e.number K st).bind fun v => .ok [.num v]) := by
  have h := computes_arg (env := env) (K := K) (st := st) e hw hU
  unfold E.number
  cases hv : e.value K st with
  | err er => rw [hv] at h; exact h
  | ub => intro _ _ _ _ _ _ _ _; trivial
  | ok v =>
    rw [hv] at h
    cases v with
    | num n => exact h
    | str s => intro _ _ _ _ _ _ _ _; trivial
    | sep o => intro _ _ _ _ _ _ _ _; trivial

theorem computes_args {U : List (List Nat)} {st : Store} (l : List E) (hw : ∀ x ∈ l, x.Good) (hU : ∀ y ∈ l.flatMap E.vars, y ∈ U) :
    Computes env K U st (l.flatMap E.code) (argValues K st l) := by
  induction l with
  | nil => exact Computes.nil
  | cons x r ih =>
    have i1 := computes_arg (env := env) (K := K) (st := st) (U := U) x (hw x (by simp)) (fun y hy => hU y (by simp [hy]))
    have i2 := ih (fun x hx => hw x (by simp [hx])) (fun y hy => hU y (by rw [List.flatMap_cons]; simp only [List.mem_append]; exact Or.inr hy))
    have i := i1.append i2
    rw [List.flatMap_cons]
    show Computes env K U st _ ((x.value K st).bind fun v => (argValues K st r).bind fun vs => .ok (v :: vs))
    cases hv : x.value K st with
    | ok v =>
      rw [hv] at i
      exact i
    | err er => rw [hv] at i; exact i
    | ub => rw [hv] at i; exact i

theorem computes_opt {U : List (List Nat)} {st : Store} (x : Option E) (hw : ∀ a, x = some a → a.Good) (hU : ∀ y ∈ optVars x, y ∈ U) :
    Computes env K U st (optCode x) (optValues K st x) := by
  cases x with
  | none => exact Computes.nil
  | some a => exact computes_arg a (hw a rfl) hU

theorem computes_items {U : List (List Nat)} {st : Store} (l : List (Option E × Nat))
    (hw : ∀ x ∈ l, (∀ a, x.1 = some a → a.Good) ∧ (x.2 = opComma ∨ x.2 = opSemicolon))
    (hU : ∀ y ∈ l.flatMap (fun x => optVars x.1), y ∈ U) :
    Computes env K U st (itemCode l) (itemValues K st l) := by
  induction l with
  | nil => exact Computes.nil
  | cons x r ih =>
    have i1 := computes_opt (env := env) (K := K) (st := st) (U := U) x.1 (hw x (by simp)).1 (fun y hy => hU y (by rw [List.flatMap_cons]; simp only [List.mem_append]; exact Or.inl hy))
    have i0 := Computes.sep (env := env) (K := K) (st := st) (U := U) (hw x (by simp)).2
    have i2 := ih (fun x hx => hw x (by simp [hx])) (fun y hy => hU y (by rw [List.flatMap_cons]; simp only [List.mem_append]; exact Or.inr hy))
    have i := i1.append (i0.append i2)
    show Computes env K U st (optCode x.1 ++ (.simple bcOperator x.2 :: itemCode r)) ((optValues K st x.1).bind fun v => (itemValues K st r).bind fun vs => .ok (v ++ .sep x.2 :: vs))
    cases hv : optValues K st x.1 with
    | ub => intro _ _ _ _ _ _ _ _; trivial
    | err er => rw [hv] at i; exact i
    | ok v =>
      rw [hv] at i
      cases hv2 : itemValues K st r with
      | ok vs => rw [hv2] at i; exact i
      | err er => rw [hv2] at i; exact i
      | ub => rw [hv2] at i; exact i

end Sbc.Source
