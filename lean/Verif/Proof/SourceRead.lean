import Verif.Proof.SourceDim
set_option autoImplicit false
/-!
# Source programs in the machine: DATA, READ and RESTORE
-/
namespace Sbc.Source
open Sbc Sbc.Tok Sbc.Tok.Spec Sbc.Machine

variable {σ : Type} {env : Env σ}
variable {prog : List Line} {U : List (List Nat)} {C : Nat → Prop} {L : Labels.Table} {W : World σ}

/-! ## The items of a program -/

theorem items_other (c : List Instr) {r : List Instr} {its : List (List Nat)} (h : ∀ i ∈ c, i.op ≠ bcData) (hr : Items r its) : Items (c ++ r) its := by
  induction c with
  | nil => exact hr
  | cons i c ih => exact .other (h i (by simp)) (ih fun j hj => h j (by simp [hj]))

theorem nameInstr_op (w : List Nat) : (nameInstr w).op ≠ bcData := by
  unfold nameInstr; split <;> simp [Instr.op] <;> decide

theorem dimInstr_op (w : List Nat) : (dimInstr w).op ≠ bcData := by
  unfold dimInstr; split <;> simp [Instr.op] <;> decide

theorem numInstr_op (v : Int) : (numInstr v).op ≠ bcData := by
  unfold numInstr; split <;> simp [Instr.op] <;> decide

theorem e_op (e : E) : ∀ i ∈ e.code, i.op ≠ bcData := by
  induction e with
  | num => intro i hi; simp only [E.code, List.mem_singleton] at hi; subst hi; exact numInstr_op _
  | var w => intro i hi; simp only [E.code, List.mem_singleton] at hi; subst hi; exact nameInstr_op _
  | arr1 sq w a =>
    intro i hi
    simp only [E.code, List.mem_append, List.mem_cons, List.not_mem_nil, or_false] at hi
    have := nameInstr_op w
    grind [Instr.op, bcData, bcArgcount]
  | arr2 sq w a b =>
    intro i hi
    simp only [E.code, List.mem_append, List.mem_cons, List.not_mem_nil, or_false] at hi
    have := nameInstr_op w
    grind [Instr.op, bcData, bcArgcount]
  | _ =>
    intro i hi
    simp only [E.code, List.mem_append, List.mem_cons, List.not_mem_nil, or_false] at hi
    grind [Instr.op, bcData, bcOperator, bcSysvar, bcArgcount, bcFunction, bcString]

theorem opt_op (o : Option E) : ∀ i ∈ optCode o, i.op ≠ bcData := by
  cases o with
  | none => intro i hi; cases hi
  | some e => exact e_op e

theorem items_op (l : List (Option E × Nat)) : ∀ i ∈ itemCode l, i.op ≠ bcData := by
  induction l with
  | nil => intro i hi; cases hi
  | cons x r ih =>
    intro i hi
    simp only [itemCode, List.mem_append, List.mem_cons] at hi
    rcases hi with hi | rfl | hi
    · exact opt_op _ i hi
    · simp [Instr.op]; decide
    · exact ih i hi

theorem step_op (o : Option E) : ∀ i ∈ stepCode o, i.op ≠ bcData := by
  cases o with
  | none => intro i hi; cases hi
  | some e =>
    intro i hi
    simp only [stepCode, List.mem_append, List.mem_cons, List.not_mem_nil, or_false] at hi
    rcases hi with hi | rfl
    · exact e_op e i hi
    · simp [Instr.op]; decide

theorem s_op (s : S) {k : Nat} (hk : CmdOp k) : ∀ i ∈ s.code k, i.op ≠ bcData := by
  have hc : ∀ c, Instr.op (.simple k c) ≠ bcData := by
    intro c; rcases hk with rfl | rfl <;> simp [Instr.op] <;> decide
  have hb : ∀ c, Instr.op (.simple bcCommand c) ≠ bcData := by intro c; simp [Instr.op]; decide
  have ho : ∀ c, Instr.op (.simple bcOperator c) ≠ bcData := by intro c; simp [Instr.op]; decide
  have hl : ∀ c, Instr.op (.text bcLabelString c) ≠ bcData := by intro c; simp [Instr.op]; decide
  intro i hi
  cases s with
  | assign w e =>
    simp only [S.code, List.mem_append, List.mem_cons, List.not_mem_nil, or_false] at hi
    rcases hi with rfl | hi | rfl
    · exact nameInstr_op _
    · exact e_op e i hi
    · exact ho _
  | cmd c args =>
    simp only [S.code, List.mem_append, List.mem_flatMap, List.mem_singleton] at hi
    rcases hi with ⟨e, _, hi⟩ | rfl
    · exact e_op e i hi
    · exact hc _
  | print items last =>
    simp only [S.code, List.mem_append, List.mem_singleton] at hi
    rcases hi with hi | hi | rfl
    · exact items_op _ i hi
    · exact opt_op _ i hi
    · exact hc _
  | goto l =>
    simp only [S.code, List.mem_cons, List.not_mem_nil, or_false] at hi
    rcases hi with rfl | rfl
    · exact hl _
    · exact hc _
  | gosub l =>
    simp only [S.code, List.mem_cons, List.not_mem_nil, or_false] at hi
    rcases hi with rfl | rfl
    · exact hl _
    · exact hc _
  | ret => simp only [S.code, List.mem_singleton] at hi; subst hi; exact hc _
  | fin => simp only [S.code, List.mem_singleton] at hi; subst hi; exact hc _
  | stop => simp only [S.code, List.mem_singleton] at hi; subst hi; exact hc _
  | for' w a b st =>
    simp only [S.code, ctlCode, List.mem_append, List.mem_cons, List.not_mem_nil, or_false] at hi
    rcases hi with rfl | rfl | hi | rfl | h | rfl
    · exact nameInstr_op _
    · exact hc _
    · exact e_op a i hi
    · exact ho _
    · rcases h with hi | rfl | hi
      · exact e_op b i hi
      · exact hb _
      · exact step_op st i hi
    · simp [Instr.op]; decide
  | dim l r =>
    obtain ⟨l, _, hi⟩ := List.mem_flatMap.mp hi
    simp only [E.dimCode, List.mem_append, List.mem_singleton] at hi
    rcases hi with hi | rfl
    · have ha : ∀ c, Instr.op (.simple bcArgcount c) ≠ bcData := by intro c; simp [Instr.op]; decide
      cases l with
      | arr1 sq w a =>
        simp only [E.subs, List.mem_append, List.mem_singleton] at hi
        rcases hi with hi | rfl
        · exact e_op a i hi
        · exact ha _
      | arr2 sq w a b =>
        simp only [E.subs, List.mem_append, List.mem_singleton] at hi
        rcases hi with (hi | hi) | rfl
        · exact e_op a i hi
        · exact e_op b i hi
        · exact ha _
      | _ => cases hi
    · exact dimInstr_op _
  | put l e =>
    simp only [S.code, List.mem_append, List.mem_singleton] at hi
    rcases hi with hi | hi | rfl
    · exact e_op l i hi
    · exact e_op e i hi
    · exact ho _
  | next w =>
    cases w with
    | none => simp only [S.code, optName, List.nil_append, List.mem_singleton] at hi; subst hi; exact hc _
    | some w =>
      simp only [S.code, optName, List.mem_append, List.mem_singleton] at hi
      rcases hi with rfl | rfl
      · exact nameInstr_op _
      · exact hc _
  | on e sub ls =>
    simp only [S.code, List.mem_append, List.mem_cons, List.mem_map, List.not_mem_nil, or_false] at hi
    rcases hi with hi | rfl | ⟨l, _, rfl⟩ | rfl
    · exact e_op e i hi
    · exact hc _
    · exact hl _
    · exact hb _
  | read ls =>
    simp only [S.code, List.mem_append, List.mem_flatMap, List.mem_singleton] at hi
    rcases hi with ⟨e, _, hi⟩ | rfl
    · exact e_op e i hi
    · exact hc _
  | restore l =>
    simp only [S.code, List.mem_cons, List.not_mem_nil, or_false] at hi
    rcases hi with rfl | rfl
    · exact hl _
    · exact hc _

theorem join_op (ss : List S) {k : Nat} (hk : CmdOp k) : ∀ i ∈ codeJoin k ss, i.op ≠ bcData := by
  induction ss generalizing k with
  | nil => intro i hi; cases hi
  | cons s r ih =>
    intro i hi
    rcases List.mem_append.mp hi with hi | hi
    · exact s_op s hk i hi
    · exact ih (Or.inr rfl) i hi

theorem branch_op (b : Branch) : ∀ i ∈ b.code, i.op ≠ bcData := by
  cases b with
  | jump l => intro i hi; simp only [Branch.code, List.mem_singleton] at hi; subst hi; simp [Instr.op]; decide
  | run ss => exact join_op ss (Or.inl rfl)

theorem if_op (o : Option If) : ∀ i ∈ ifCode o, i.op ≠ bcData := by
  cases o with
  | none => intro i hi; cases hi
  | some x =>
    intro i hi
    simp only [ifCode, List.mem_append, List.mem_cons, List.not_mem_nil, or_false] at hi
    rcases hi with hi | rfl | hi | hi | rfl
    · exact e_op _ i hi
    · simp [Instr.op]; decide
    · exact branch_op _ i hi
    · cases hn : x.no with
      | none => rw [hn] at hi; cases hi
      | some b =>
        rw [hn] at hi
        rcases List.mem_cons.mp hi with rfl | hi
        · simp [Instr.op]; decide
        · exact branch_op b i hi
    · simp [Instr.op]; decide

theorem label_op (o : Option (List Nat)) : ∀ i ∈ labelCode o, i.op ≠ bcData := by
  cases o with
  | none => intro i hi; cases hi
  | some w => intro i hi; simp only [labelCode, List.mem_singleton] at hi; subst hi; simp [Instr.op]; decide

theorem line_ne {l : List Nat} {its : List (List Nat)} (h : Machine.Line l its) : its ≠ [] := by cases h <;> simp

/-- The items of the code of a program are those written. -/
theorem items_prog (prog : List Line) (h : ∀ l ∈ prog, l.WF) : Items (progCode prog) (items prog) := by
  induction prog with
  | nil => exact .nil
  | cons l r ih =>
    have ih := ih fun x hx => h x (by simp [hx])
    have hw := h l (by simp)
    have e1 : progCode (l :: r) = labelCode l.label ++ (codeJoin bcCommandFirst l.stmts ++ (ifCode l.last ++ (dataCode l.data ++ progCode r))) := by
      unfold progCode; rw [List.flatMap_cons]; unfold Line.code; simp
    have e2 : items (l :: r) = l.items ++ items r := by unfold items; rw [List.flatMap_cons]
    rw [e1, e2]
    refine items_other _ (label_op _) (items_other _ (join_op _ (Or.inr rfl)) (items_other _ (if_op _) ?_))
    unfold Line.items
    cases hd : l.data with
    | none => exact ih
    | some d =>
      have hdw := (hw.data d hd).1
      exact .data (line_ne hdw.line) hdw.zero ih

theorem items_take (prog : List Line) (k : Nat) : (items prog).drop (items (prog.take k)).length = items (prog.drop k) := by
  have : items prog = items (prog.take k) ++ items (prog.drop k) := by
    unfold items; rw [← List.flatMap_append, List.take_append_drop]
  rw [this, List.drop_left]

theorem items_text (h : ∀ l ∈ prog, l.WF) : ∀ it ∈ items prog, 13 ∉ it := by
  have hw : ∀ {w it : List Nat}, Machine.Written w it → 13 ∉ it := by
    intro w it h
    cases h with
    | word _ h => exact fun hm => (h _ hm).2.2 rfl
    | quoted h => exact fun hm => (h _ hm).2 rfl
    | empty => simp
  have hl : ∀ {w : List Nat} {its : List (List Nat)}, Machine.Line w its → ∀ it ∈ its, 13 ∉ it := by
    intro w its h
    induction h with
    | last h => intro it hi; rw [List.mem_singleton.mp hi]; exact hw h
    | more h _ ih =>
      intro it hi
      rcases List.mem_cons.mp hi with rfl | hi
      · exact hw h
      · exact ih it hi
  intro it hit
  obtain ⟨l, hlp, hi⟩ := List.mem_flatMap.mp hit
  unfold Line.items at hi
  cases hd : l.data with
  | none => rw [hd] at hi; cases hi
  | some d => rw [hd] at hi; exact hl ((h l hlp).data d hd).1.line it hi

/-! ## READ -/

/-- The entry of the stack for a variable or an element of an array. -/
inductive DestOf (st : Store) (T : Vars.Table) : Dest → Entry → Prop
  | var {w : List Nat} {i : Nat} (hi : i < T.max) (hk : Vars.HasKey T i (keyOf w)) (hw : VarName w ∨ StrName w) :
      DestOf st T (.var w) (.var (decide (w.getLast? = some 36)) false (.slot i))
  | cell {w n : List Nat} {isStr : Bool} {g : Grid} {i p x y : Nat} (hn : IsName w n isStr) (hi : i < T.max)
      (hk : Vars.HasKey T i (n, tyOf isStr true)) (hv : (T.slots i).val = .arr (some p)) (hg : st.grid w = some g) (hin : g.In x y) :
      DestOf st T (.cell w (x, y)) (.var isStr false (.elem (p + 2 + (x + y * g.d1))))

theorem DestOf.grow {st : Store} {c c' : Core σ} {d : Dest} {en : Entry} (h : DestOf st c.vars d en) (g : Grow c c') : DestOf st c'.vars d en := by
  cases h with
  | var hi hk hw => exact .var (by rw [g.max]; exact hi) (g.keys _ hi _ hk) hw
  | cell hn hi hk hv hg hin => exact .cell hn (by rw [g.max]; exact hi) (g.keys _ hi _ hk) ((g.vals _ hi _ hk).trans hv) hg hin

theorem dests_grow {st : Store} {c c' : Core σ} {ds : List Dest} {ens : List Entry} (h : List.Forall₂ (DestOf st c.vars) ds ens) (g : Grow c c') :
    List.Forall₂ (DestOf st c'.vars) ds ens := h.imp fun _ _ h => h.grow g

/-- Arrays keep their dimensions. -/
def SameShape (st st' : Store) : Prop := ∀ w g, st.grid w = some g → ∃ g', st'.grid w = some g' ∧ g'.d1 = g.d1 ∧ g'.d2 = g.d2

theorem DestOf.shape {st st' : Store} {T : Vars.Table} {d : Dest} {en : Entry} (h : DestOf st T d en) (hs : SameShape st st') : DestOf st' T d en := by
  cases h with
  | var hi hk hw => exact .var hi hk hw
  | @cell w n isStr g i p x y hn hi hk hv hg hin =>
    obtain ⟨g', h1, h2, h3⟩ := hs w g hg
    rw [← h2]
    exact .cell hn hi hk hv h1 (by unfold Grid.In at hin ⊢; rw [h2, h3]; exact hin)

theorem shape_fill (st : Store) (v : Int) (d : Dest) : SameShape st (st.fill v d) := by
  intro u g hu
  cases d with
  | var w => exact ⟨g, hu, rfl, rfl⟩
  | cell w p =>
    simp only [Store.fill]
    cases hw : st.grid w with
    | none => exact ⟨g, hu, rfl, rfl⟩
    | some g1 =>
      dsimp only
      by_cases he : u = w
      · subst he
        rw [hu] at hw; cases hw
        exact ⟨_, if_pos rfl, rfl, rfl⟩
      · exact ⟨g, (if_neg he).trans hu, rfl, rfl⟩

theorem shape_fillStr (st : Store) (s : List Nat) (d : Dest) : SameShape st (st.fillStr s d) := by
  intro u g hu
  cases d with
  | var w => exact ⟨g, hu, rfl, rfl⟩
  | cell w p =>
    simp only [Store.fillStr]
    cases hw : st.grid w with
    | none => exact ⟨g, hu, rfl, rfl⟩
    | some g1 =>
      dsimp only
      by_cases he : u = w
      · subst he
        rw [hu] at hw; cases hw
        exact ⟨_, if_pos rfl, rfl, rfl⟩
      · exact ⟨g, (if_neg he).trans hu, rfl, rfl⟩

theorem Holds.array {st : Store} {c : Core σ} (hh : Holds U st c) {w n : List Nat} {isStr : Bool} {g : Grid} {i p : Nat} (hn : IsName w n isStr)
    (hi : i < c.vars.max) (hk : Vars.HasKey c.vars i (n, tyOf isStr true)) (hv : (c.vars.slots i).val = .arr (some p)) (hg : st.grid w = some g) :
    Array' st c w n isStr g i p := by
  obtain ⟨g', p', h1, h2, h3⟩ := hh.stored.arr n isStr i hi hk
  rw [← hn.eq, hg] at h1; cases h1
  rw [hv] at h2; cases h2
  exact ⟨hg, hi, hk, hv, h3⟩

/-- A number is put there. -/
theorem DestOf.fill {st : Store} {c : Core σ} {d : Dest} {en : Entry} (h : DestOf st c.vars d en) (hh : Holds U st c) (hd : d.name.getLast? ≠ some 36) (v : Int) :
    ∃ q, en = .var false false q ∧ Holds U (st.fill v d) (c.store q v) := by
  cases h with
  | @var w i hi hk hw =>
    have hd : w.getLast? ≠ some 36 := hd
    rw [keyOf_num hd (hw.elim (fun h => h.1.2.2) fun h => absurd h.1 hd)] at hk
    exact ⟨.slot i, by rw [decide_eq_false hd], hh.assign hi hk _⟩
  | @cell w n isStr g i p x y hn hi hk hv hg hin =>
    obtain rfl : isStr = false := by
      cases isStr with
      | false => rfl
      | true => exact absurd (hn.last.mpr rfl) hd
    refine ⟨_, rfl, ?_⟩
    simp only [Store.fill, hg]
    exact hh.putNum hn (hh.array hn hi hk hv hg) hin v

/-- A string is put there. -/
theorem DestOf.fillStr {st : Store} {c : Core σ} {d : Dest} {en : Entry} (h : DestOf st c.vars d en) (hh : Holds U st c) (hd : d.name.getLast? = some 36)
    (s : List Nat) : ∃ q, en = .var true false q ∧ Holds U (st.fillStr s d) (c.storeStr q s) := by
  cases h with
  | @var w i hi hk hw =>
    have hd : w.getLast? = some 36 := hd
    rw [keyOf_str hd] at hk
    refine ⟨.slot i, by rw [decide_eq_true hd], ?_⟩
    have := hh.assignStr hi hk s
    rw [dollar hd] at this
    exact this
  | @cell w n isStr g i p x y hn hi hk hv hg hin =>
    obtain rfl : isStr = true := hn.last.mp hd
    refine ⟨_, rfl, ?_⟩
    simp only [Store.fillStr, hg]
    exact hh.putStr hn (hh.array hn hi hk hv hg) hin s

/-- One variable or element of an array. -/
theorem dest_one {K : Look} {st : Store} {m : Mach σ} {a b : List Instr} {l : E} (hpl : l.isPlace = true) (hg : l.Good) (hU : ∀ x ∈ l.vars, x ∈ U)
    (hat : At m a (l.code ++ b)) (hargc : m.exec.argc = 0) (hs : m.core.stack.length + l.code.length ≤ 100) (hh : Holds U st m.core)
    (hsee : Sees env K m.core.ext) :
    match l.dest K st with
    | .ok d => ∃ c' en, Reaches env m (Machine.after m a l.code c') ∧ c'.stack = m.core.stack ++ [en] ∧ Holds U st c' ∧ Grow m.core c' ∧
        DestOf st c'.vars d en
    | .err er => Ends env U st m.core.ext (errNum er) m
    | .ub => True := by
  have key : l.isCell = true → match l.dest K st with
      | .ok d => ∃ c' en, Reaches env m (Machine.after m a l.code c') ∧ c'.stack = m.core.stack ++ [en] ∧ Holds U st c' ∧ Grow m.core c' ∧
          DestOf st c'.vars d en
      | .err er => Ends env U st m.core.ext (errNum er) m
      | .ub => True := by
    intro hc
    obtain ⟨w, n, isStr, code, kk, o, hn, hUw, hcode, _, hcomp, hvals, hdest, _⟩ :=
      cell_view (env := env) (U := U) (W := (⟨fun _ _ s => (s, 0), fun _ => K, fun _ _ _ => true⟩ : World σ)) (prog := []) (K := K) (st := st) hc hg.tree hg.leaves hU
    rw [hdest]
    rw [hcode] at hat hs ⊢
    simp only [List.length_append, List.length_cons, List.length_nil] at hs
    have hat' : At m a (code ++ ([.simple bcArgcount kk, nameInstr w] ++ b)) := hat.regroup rfl (by simp)
    have hp := hcomp m a _ hat' hargc (by omega) hh hsee
    cases ho : o with
    | ub => trivial
    | err er => rw [ho] at hp; exact hp
    | ok vs =>
      rw [ho] at hp
      obtain ⟨hk, x, y, hsub⟩ := hvals vs ho
      subst hk
      obtain ⟨_, c', ens, hr, hst, hs', hh', hgr⟩ := hp
      have herr : c'.error = 0 := hgr.error.trans hat.error
      show (match (match subsOf vs with | some (x, y) => st.place w x y | none => .ub) with
        | .ok d => _ | .err er => _ | .ub => _)
      rw [hsub]
      dsimp only
      unfold Store.place
      cases hgw : st.grid w with
      | none => trivial
      | some g =>
        dsimp only
        have hel := name_elem hst (by omega) hs' hh' hsub hn hgw
        have hstep : ∀ c'', (execName false n isStr vs.length c' = .ok c'') →
            Reaches env m (Machine.after m a (code ++ [.simple bcArgcount vs.length, nameInstr w]) c'') := fun c'' hx =>
          name_step (env := env) hat hargc hr herr hn (nameIns hn) (by decide) ((if_neg (by decide)).trans hx)
        cases hq : g.at x y with
        | ub => trivial
        | err er =>
          rw [hq] at hel
          obtain ⟨h0, hx⟩ := hel
          exact ⟨_, hstep _ hx, ended_error h0, rfl, rfl, hh'.closed, hgr.ext⟩
        | ok q =>
          rw [hq] at hel
          obtain ⟨hin, i, p, ha, hx⟩ := hel
          exact ⟨_, _, hstep _ hx, rfl, hh'.stack _, hgr.stack _, .cell (p := p) hn ha.lt ha.key ha.val ha.grid hin⟩
  cases l with
  | var w =>
    obtain ⟨c1, i, r1, hst1, hh1, hg1, hi, hkey⟩ := push_any (env := env) (b := b) hat hargc (by simp only [E.code, List.length_singleton] at hs; omega) hg.leaves
      (hU w (by simp [E.vars])) hh
    exact ⟨c1, _, r1, hst1, hh1, hg1, .var hi hkey hg.leaves⟩
  | arr1 => exact key rfl
  | arr2 => exact key rfl
  | _ => cases hpl

/-- Several of them. -/
theorem dests_all {K : Look} {st : Store} : (ls : List E) → (m : Mach σ) → (a b : List Instr) → (∀ l ∈ ls, l.isPlace = true ∧ l.Good) →
    (∀ x ∈ ls.flatMap E.vars, x ∈ U) → At m a (ls.flatMap E.code ++ b) → m.exec.argc = 0 →
    m.core.stack.length + (ls.flatMap E.code).length ≤ 100 → Holds U st m.core → Sees env K m.core.ext →
    match dests K st ls with
    | .ok ds => ∃ c' ens, Reaches env m (Machine.after m a (ls.flatMap E.code) c') ∧ c'.stack = m.core.stack ++ ens ∧ Holds U st c' ∧
        Grow m.core c' ∧ List.Forall₂ (DestOf st c'.vars) ds ens
    | .err er => Ends env U st m.core.ext (errNum er) m
    | .ub => True
  | [], m, a, b, _, _, hat, _, _, hh, _ => by
    refine ⟨m.core, [], ?_, by simp, hh, Grow.refl _, .nil⟩
    have : Machine.after m a [] m.core = m := by
      unfold Machine.after
      rw [List.append_nil, ← hat.index]
    rw [List.flatMap_nil, this]
    exact Reaches.refl m
  | l :: r, m, a, b, hw, hU, hat, hargc, hs, hh, hsee => by
    rw [List.flatMap_cons, List.append_assoc] at hat
    rw [List.flatMap_cons, List.length_append] at hs
    have hlen : 1 ≤ l.code.length := by
      have := (hw l (by simp)).1
      cases l <;> first | (cases this; done) | (simp only [E.code, List.length_append, List.length_cons]; omega)
    have one := dest_one (env := env) (K := K) (b := r.flatMap E.code ++ b) (hw l (by simp)).1 (hw l (by simp)).2 (fun x hx => hU x (by simp [hx])) hat hargc
      (by omega) hh hsee
    unfold dests
    cases hd : l.dest K st with
    | ub => trivial
    | err er => rw [hd] at one; exact one
    | ok d =>
      rw [hd] at one
      obtain ⟨c1, en, r1, hst1, hh1, hg1, hd1⟩ := one
      have hat1 := At.after (m := m) (a := a) (e := l.code) (b := r.flatMap E.code ++ b) (c := c1) hat (hg1.error.trans hat.error)
      have ih := dests_all r (Machine.after m a l.code c1) (a ++ l.code) b (fun x hx => hw x (by simp [hx]))
        (fun x hx => hU x (by rw [List.flatMap_cons, List.mem_append]; exact Or.inr hx)) hat1 hargc (by
          show c1.stack.length + _ ≤ _
          rw [hst1, List.length_append, List.length_singleton]; omega) hh1 (by
          show Sees env K c1.ext
          rw [hg1.ext]; exact hsee)
      show (match (dests K st r).bind fun ds => .ok (d :: ds) with | .ok ds => _ | .err er => _ | .ub => _)
      cases hds : dests K st r with
      | ub => trivial
      | err er =>
        rw [hds] at ih
        have ih : Ends env U st c1.ext (errNum er) (Machine.after m a l.code c1) := ih
        rw [hg1.ext] at ih
        exact Ends.after' r1 rfl ih
      | ok ds =>
        rw [hds] at ih
        obtain ⟨c2, ens, r2, hst2, hh2, hg2, hd2⟩ := ih
        have hg2 : Grow c1 c2 := hg2
        rw [after_after] at r2
        refine ⟨c2, en :: ens, ?_, ?_, hh2, hg1.trans hg2, .cons (hd1.grow hg2) hd2⟩
        · rw [List.flatMap_cons]; exact r1.trans r2
        · rw [hst2]
          show c1.stack ++ _ = _
          rw [hst1]
          simp

/-- The variables and elements are filled as the program says. -/
theorem read_vars (h13 : ∀ it ∈ items prog, 13 ∉ it) (ds : List Dest) (ens : List Entry) (cfg : Cfg σ) (m : Mach σ)
    (hcur : Cursor (progCode prog) m.exec ((items prog).drop cfg.data)) (he : m.core.error = 0) (hh : Holds U cfg.store m.core)
    (hds : List.Forall₂ (DestOf cfg.store m.core.vars) ds ens) :
    match cfg.read prog ds with
    | .run c => ∃ x core', readVars ens m = .ok { m with core := core', exec := x } ∧ x.code = m.exec.code ∧
        x.index = m.exec.index ∧ x.main = m.exec.main ∧ Cursor (progCode prog) x ((items prog).drop c.data) ∧ core'.error = 0 ∧
        Holds U c.store core' ∧ core'.vars = m.core.vars ∧ core'.ext = m.core.ext ∧ c = { cfg with store := c.store, data := c.data }
    | .done er st w => er ≠ 0 ∧ w = cfg.world ∧ ∃ m', readVars ens m = .ok m' ∧ m'.frames = m.frames ∧
        m'.core.error = er ∧ Holds U st m'.core ∧ m'.core.ext = m.core.ext
    | .undefined => True := by
  induction ds generalizing ens cfg m with
  | nil =>
    cases hds
    exact ⟨m.exec, m.core, rfl, rfl, rfl, rfl, hcur, he, hh, rfl, rfl, rfl⟩
  | cons d r ih =>
    obtain _ | @⟨_, en, _, ens, hone, hds⟩ := hds
    rw [Cfg.read]
    cases hit : (items prog)[cfg.data]? with
    | none => trivial
    | some it =>
      dsimp only
      have hd : (items prog).drop cfg.data = it :: (items prog).drop (cfg.data + 1) := by
        obtain ⟨h1, h2⟩ := List.getElem?_eq_some_iff.mp hit
        rw [← h2]
        exact List.drop_eq_getElem_cons h1
      rw [hd] at hcur
      have hmem := List.mem_of_getElem? hit
      have go : ∀ (isStr : Bool) (q : Ptr) (v : Item) (st' : Store), en = .var isStr false q → Means isStr it v → SameShape cfg.store st' →
          Holds U st' (m.core.put q v) →
          match Cfg.read prog { cfg with store := st', data := cfg.data + 1 } r with
          | .run c => ∃ x core', readVars (en :: ens) m = .ok { m with core := core', exec := x } ∧ x.code = m.exec.code ∧
              x.index = m.exec.index ∧ x.main = m.exec.main ∧ Cursor (progCode prog) x ((items prog).drop c.data) ∧ core'.error = 0 ∧
              Holds U c.store core' ∧ core'.vars = m.core.vars ∧ core'.ext = m.core.ext ∧ c = { cfg with store := c.store, data := c.data }
          | .done er st w' => er ≠ 0 ∧ w' = cfg.world ∧ ∃ m', readVars (en :: ens) m = .ok m' ∧ m'.frames = m.frames ∧
              m'.core.error = er ∧ Holds U st m'.core ∧ m'.core.ext = m.core.ext
          | .undefined => True := by
        intro isStr q v st' hen hm hsh hh'
        obtain ⟨x, h1, h2, h3, h4, h5, h6⟩ := hcur.next (q := q) hm
        have hv : (m.core.put q v).vars = m.core.vars := by cases v <;> rfl
        have hx : (m.core.put q v).ext = m.core.ext := by cases v <;> rfl
        have he' : (m.core.put q v).error = 0 := by rw [put_error, he]
        have hstep : readVars (en :: ens) m = readVars ens { m with core := m.core.put q v, exec := x } := by
          rw [readVars, hen, h1]
          simp only [Out.bind]
          rw [if_neg (by rw [he']; simp)]
        have := ih ens { cfg with store := st', data := cfg.data + 1 } { m with core := m.core.put q v, exec := x } h6 he' hh' (by
          show List.Forall₂ (DestOf st' (m.core.put q v).vars) r ens
          rw [hv]; exact hds.imp fun _ _ h => h.shape hsh)
        rw [hstep]
        cases hr : Cfg.read prog { cfg with store := st', data := cfg.data + 1 } r with
        | undefined => trivial
        | done er st w' => rw [hr] at this; obtain ⟨a1, a2, m', a3, a4, a5, a6, a7⟩ := this; exact ⟨a1, a2, m', a3, a4, a5, a6, a7.trans hx⟩
        | run c =>
          rw [hr] at this
          obtain ⟨y, core', b1, b2, b3, b4, b5, b6, b7, b8, b9, b10⟩ := this
          exact ⟨y, core', b1, b2.trans h2, b3.trans h3, b4.trans h4, b5, b6, b7, b8.trans hv, b9.trans hx, b10⟩
      by_cases hdol : d.name.getLast? = some 36
      · rw [if_pos hdol]
        obtain ⟨q, hq, hh'⟩ := hone.fillStr hh hdol it
        exact go true q (.str it) _ hq (.str (h13 it hmem)) (shape_fillStr _ _ _) hh'
      · rw [if_neg hdol]
        by_cases hnum : NumItem it
        · rw [if_pos hnum]
          obtain ⟨q, hq, hh'⟩ := hone.fill hh hdol (Num.Spec.value it)
          exact go false q (.num (Num.Spec.value it)) _ hq (.num hnum.1 hnum.2.1 hnum.2.2.1 hnum.2.2.2) (shape_fill _ _ _) hh'
        · rw [if_neg hnum]
          by_cases hbad : BadItem it
          · rw [if_pos hbad]
            obtain ⟨q, hq, _⟩ := hone.fill hh hdol 0
            refine ⟨by decide, rfl, m.fail eReadFailure, ?_, rfl, rfl, hh.congr rfl rfl rfl, rfl⟩
            obtain ⟨a', r', done, cur, rest', hin, hne', hz, hi', he'⟩ := hcur.inside (by simp)
            cases cur with
            | nil => exact absurd rfl hne'
            | cons z cur =>
              rw [List.cons_append, List.cons.injEq] at he'
              obtain ⟨rfl, _⟩ := he'
              have hv := readVar_illegal (q := q) (m := m) hin (hz it (by simp)) (b := false) hbad
              rw [readVars, hq, hv]
              rfl
          · rw [if_neg hbad]; trivial

/-- READ. -/
theorem sim_read (hperf : Performs env W C) (hprog : ∀ l ∈ prog, l.WF) {cfg : Cfg σ} {m : Mach σ} {a b : List Instr} {k : Nat} {ls : List E} (hk : CmdOp k)
    (hs : FitsS U C (.read ls)) (hm : Base prog U C L cfg.calls cfg.data cfg.store cfg.world m) (hp : progCode prog = a ++ ((S.read ls).code k ++ b))
    (hidx : m.exec.index = posAfter a) (hplace : Place prog U C cfg.todo cfg.next (posAfter (a ++ (S.read ls).code k))) :
    Sim env prog U C L m (S.exec W prog cfg (.read ls)) := by
  obtain ⟨⟨hne, hw, hlen⟩, hv, _⟩ := hs
  have hp' : progCode prog = a ++ (ls.flatMap E.code ++ (.simple k cmdRead :: b)) := by rw [hp]; simp [S.code]
  have hat := hm.at hp' hidx
  have hl : (ls.flatMap E.code).length ≤ 40 := by
    cases ls with
    | nil => simp
    | cons l r =>
      rw [len_args]
      simp only [S.simple, Stmt.post, List.length_append, List.length_cons, List.length_nil] at hlen
      omega
  have hp := dests_all (env := env) (K := W.look cfg.world) ls m a _ hw hv hat hm.argc (by rw [hm.stack]; simp only [List.length_nil]; omega) hm.holds
    (by rw [hm.ext]; exact hperf.sees _)
  show Sim env prog U C L m (Res.with' cfg (dests (W.look cfg.world) cfg.store ls) fun ds =>
    if (items prog).length ≤ cfg.data then .done 29 cfg.store cfg.world else cfg.read prog ds)
  cases hds : dests (W.look cfg.world) cfg.store ls with
  | ub => trivial
  | err er =>
    rw [hds] at hp
    have hp : Ends env U cfg.store m.core.ext (errNum er) m := hp
    rw [hm.ext] at hp
    cases er <;> exact hp
  | ok ds =>
  rw [hds] at hp
  obtain ⟨c1, ens, r1, hst, hh, hg, hsl⟩ := hp
  rw [hm.stack, List.nil_append] at hst
  have hat' := hat.after (hg.error.trans hm.error : c1.error = 0)
  have hj : isCmd cmdRead (.simple k cmdRead) := by rcases hk with rfl | rfl <;> simp [isCmd]
  have hstep := step_read (env := env) hj hat'
  have hleft : Left (progCode prog) ((Machine.after m a (ls.flatMap E.code) c1).skip 2).exec ((items prog).drop cfg.data) :=
    (hm.main.2 (by rw [hp']; simp)).congr rfl rfl
  have hst1 := read_start (m := (Machine.after m a (ls.flatMap E.code) c1).skip 2) (wf_prog hprog) (by show m.exec.code = _; exact hm.code) hleft
  show Sim env prog U C L m (if (items prog).length ≤ cfg.data then .done 29 cfg.store cfg.world else cfg.read prog ds)
  by_cases hout : (items prog).length ≤ cfg.data
  · rw [if_pos hout]
    rw [if_pos (List.drop_eq_nil_iff.mpr hout)] at hst1
    obtain ⟨x, h1, _, _, _⟩ := hst1
    rw [h1] at hstep
    exact ⟨_, r1.trans (Reaches.one hstep), ended_error (show eOutOfData ≠ 0 by decide), rfl, rfl, hh.closed, hg.ext.trans hm.ext⟩
  · rw [if_neg hout]
    rw [if_neg (fun h => hout (List.drop_eq_nil_iff.mp h))] at hst1
    obtain ⟨x, h1, hcur, hx1, hx2, hx3, hx4⟩ := hst1
    rw [h1, show ((Machine.after m a (ls.flatMap E.code) c1).skip 2).core.stack = ens from hst] at hstep
    have hv := read_vars (U := U) (items_text hprog) ds ens cfg { (Machine.after m a (ls.flatMap E.code) c1).skip 2 with exec := x } hcur
      (hg.error.trans hm.error : c1.error = 0) hh hsl
    cases hr : cfg.read prog ds with
    | undefined => trivial
    | done er st w =>
      rw [hr] at hv
      obtain ⟨h0, rfl, m', h2, h3, h4, h5, h6⟩ := hv
      rw [h2] at hstep
      refine ⟨_, r1.trans (Reaches.one hstep), ended_error (by show m'.core.error ≠ 0; rw [h4]; exact h0), h3, h4, h5.closed, h6.trans (hg.ext.trans hm.ext)⟩
    | run c =>
      rw [hr] at hv
      obtain ⟨y, core', h2, h3, h4, h5, h6, h7, h8, h9, h10, h11⟩ := hv
      rw [h2] at hstep
      rw [h11]
      refine ⟨_, Goes.last r1 hstep, ?_, ?_⟩
      · show Place prog U C cfg.todo cfg.next y.index
        rw [h4, show ({ (Machine.after m a (ls.flatMap E.code) c1).skip 2 with exec := x } : Mach σ).exec.index = x.index from rfl, hx2]
        show Place prog U C cfg.todo cfg.next (posAfter (a ++ ls.flatMap E.code) + 2)
        rw [show posAfter (a ++ ls.flatMap E.code) + 2 = posAfter (a ++ (S.read ls).code k) by
          simp only [S.code]; rw [← List.append_assoc, posAfter_snoc]; rfl]
        exact hplace
      · exact { code := (h3.trans hx1).trans hm.code
                main := ⟨(h5.trans hx3).trans hm.main.1, fun _ => h6.left.congr rfl rfl⟩
                argc := rfl, frames := hm.frames
                calls := (show Links prog U C core'.vars cfg.calls m.calls from h9 ▸ hm.calls.grow hg), labels := hm.labels, error := h7, stack := rfl
                holds := h8.congr rfl rfl rfl, ext := h10.trans (hg.ext.trans hm.ext) }

/-! ## RESTORE -/

/-- RESTORE. -/
theorem sim_restore (hprog : ∀ l ∈ prog, l.WF) (hL : KnowsLabels prog L) {cfg : Cfg σ} {m : Mach σ} {a b : List Instr} {k : Nat} {l : List Nat} (hk : CmdOp k)
    (hl : Names.GoodName l) (hm : Base prog U C L cfg.calls cfg.data cfg.store cfg.world m) (hp : progCode prog = a ++ ((S.restore l).code k ++ b))
    (hidx : m.exec.index = posAfter a) (hplace : Place prog U C cfg.todo cfg.next (posAfter (a ++ (S.restore l).code k))) :
    Sim env prog U C L m (S.exec W prog cfg (.restore l)) := by
  have hp' : progCode prog = a ++ ([.text bcLabelString l] ++ (.simple k cmdRestore :: b)) := by rw [hp]; simp [S.code]
  have hat := hm.at hp' hidx
  have r1 := At.label (env := env) (b := .simple k cmdRestore :: b) hat hm.argc (by rw [hm.stack]; simp)
  have hat' := At.after (m := m) (a := a) (e := [.text bcLabelString l]) (b := .simple k cmdRestore :: b)
    (c := { m.core with stack := m.core.stack ++ [.str true l] }) hat hm.error
  rw [hm.stack, List.nil_append] at r1 hat'
  have hj : isCmd cmdRestore (.simple k cmdRestore) := by rcases hk with rfl | rfl <;> simp [isCmd]
  have hstep := step_restore (env := env) hj hat'
  generalize hM : Machine.after m a [.text bcLabelString l] { m.core with stack := [.str true l] } = M at r1 hat' hstep
  have hMm : Reading prog cfg.data M.exec := by rw [← hM]; exact hm.main
  have hMl : M.labels = L := by rw [← hM]; exact hm.labels
  have hMs : M.core.stack = [.str true l] := by rw [← hM]; rfl
  have hMf : M.frames = m.frames := by rw [← hM]; rfl
  have hMc : M.calls = m.calls := by rw [← hM]; rfl
  have hMco : M.exec.code = encode (progCode prog) := by rw [← hM]; exact hm.code
  have hMh : Holds U cfg.store M.core := by rw [← hM]; exact hm.holds.congr rfl rfl rfl
  have hMx : M.core.ext = cfg.world := by rw [← hM]; exact hm.ext
  have hMv : M.core.vars = m.core.vars := by rw [← hM]; rfl
  have hMi : M.exec.index = posAfter (a ++ [.text bcLabelString l]) := hat'.index
  have hsl := search_good (m := M.skip 2) hL hl hMm.1 hMl
  unfold cmdRestoreM at hstep
  rw [show (M.skip 2).core = M.core from rfl, hMs] at hstep
  simp only [List.getElem?_cons_zero, Core.text, Out.bind] at hstep
  rw [hsl] at hstep
  show Sim env prog U C L m (match target prog l with
      | some k => .run { cfg with data := (items (prog.take k)).length }
      | none => .done 25 cfg.store cfg.world)
  cases ht : target prog l with
  | none =>
    rw [ht] at hstep
    have hsc : bcScan M.exec.code M.exec.code.length bcData = .ok none := by
      have := bcScan_eq (progCode prog) [] bcData (by simp)
      rw [List.append_nil] at this
      rw [hMco]
      exact this
    dsimp only at hstep
    rw [show ((M.skip 2).fail eLabelNotFound).exec.code = M.exec.code from rfl] at hstep
    simp only [show (M.skip 2).exec.code = M.exec.code from rfl, hsc] at hstep
    exact ⟨_, r1.trans (Reaches.one hstep), ended_error (show eLabelNotFound ≠ 0 by decide), hMf, rfl, hMh.closed, hMx⟩
  | some t =>
    rw [ht] at hstep
    dsimp only at hstep
    have hpt : progCode prog = progCode (prog.take t) ++ progCode (prog.drop t) := by
      unfold progCode; rw [← List.flatMap_append, List.take_append_drop]
    obtain ⟨d, h1, h2, _⟩ := scan_left (p := progCode prog) (a := progCode (prog.take t)) (r := progCode (prog.drop t)) (M.skip 2).exec (wf_prog hprog) hpt
      hMco (items_prog (prog.drop t) fun x hx => hprog x (List.mem_of_mem_drop hx))
    rw [h1] at hstep
    dsimp only at hstep
    refine ⟨_, Goes.last r1 hstep, ?_, ?_⟩
    · show Place prog U C cfg.todo cfg.next (M.exec.index + 2)
      rw [hMi, show posAfter (a ++ [.text bcLabelString l]) + 2 = posAfter (a ++ (S.restore l).code k) by
          simp only [S.code]
          rw [show a ++ [Instr.text bcLabelString l, .simple k cmdRestore] = (a ++ [.text bcLabelString l]) ++ [.simple k cmdRestore] by simp]
          generalize a ++ [Instr.text bcLabelString l] = z
          rw [posAfter_snoc]; rfl]
      exact hplace
    · exact { code := hMco, main := ⟨hMm.1, fun _ => by rw [items_take]; exact h2.congr rfl rfl⟩
              argc := rfl, frames := hMf.trans hm.frames
              calls := (show Links prog U C M.core.vars cfg.calls M.calls by rw [hMv, hMc]; exact hm.calls), labels := hMl, error := hat'.error, stack := rfl
              holds := hMh.congr rfl rfl rfl, ext := hMx }

end Sbc.Source
