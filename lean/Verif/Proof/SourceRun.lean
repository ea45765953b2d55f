import Verif.Proof.SourceLoop
import Verif.Proof.SourceRead
import Verif.Proof.SourceDim
set_option autoImplicit false
/-!
# Source programs in the machine
-/
namespace Sbc.Source
open Sbc Sbc.Tok Sbc.Tok.Spec Sbc.Machine

variable {σ : Type} {env : Env σ}
variable {prog : List Line} {U : List (List Nat)} {C : Nat → Prop} {L : Labels.Table} {W : World σ}

/-- Statements. -/
theorem sim_s (hperf : Performs env W C) (hL : KnowsLabels prog L) {cfg : Cfg σ} {m : Mach σ} {a b : List Instr} {k : Nat} {s : S}
    (hk : CmdOp k) (hs : FitsS U C s) (hm : Base prog U C L cfg.calls cfg.data cfg.store cfg.world m) (hp : progCode prog = a ++ (s.code k ++ b))
    (hidx : m.exec.index = posAfter a) (hprog : ∀ l ∈ prog, l.WF) (hsize : posAfter (progCode prog) < 16777216)
    (hbody : Body prog U C cfg.todo cfg.next (a ++ s.code k)) (hprogU : FitsProg U C prog) :
    Sim env prog U C L m (s.exec W prog cfg) := by
  have hplace := hbody.place
  have hat := hm.at hp hidx
  cases s with
  | assign w e => exact sim_assign hperf hs hm hat hplace
  | cmd c args =>
    obtain ⟨⟨hx, hw, _, hlen⟩, hv, hc⟩ := hs
    refine sim_values (code := args.flatMap E.code) hperf hx.passedOn (hc c rfl) hk hm hat (computes_args args hw hv) ?_ hplace
    cases args with
    | nil => simp
    | cons x r =>
      rw [len_args]
      have : (S.cmd c (x :: r)).simple.post.length = (argTrees x r).post.length + 1 := by simp [S.simple, Stmt.post]
      omega
  | print items last =>
    obtain ⟨⟨hi, hl, hlen⟩, hv, hc⟩ := hs
    have hlen' : (S.print items last).simple.post.length = (itemCode items).length + (optCode last).length + 1 := by
      simp [S.simple, Stmt.post, len_items, len_opt]
      omega
    have h1 := computes_items (env := env) (K := W.look cfg.world) (U := U) (st := cfg.store) items hi (fun y hy => hv y (List.mem_append.mpr (Or.inl hy)))
    have h2 := computes_opt (env := env) (K := W.look cfg.world) (U := U) (st := cfg.store) last hl (fun y hy => hv y (List.mem_append.mpr (Or.inr hy)))
    have e : (S.print items last).code k = (itemCode items ++ optCode last) ++ [.simple k cmdPrint] := by simp [S.code]
    rw [e] at hat hplace
    have := sim_values (o := (itemValues (W.look cfg.world) cfg.store items).bind fun v => (optValues (W.look cfg.world) cfg.store last).bind fun w => .ok (v ++ w)) hperf
      (c := cmdPrint) ⟨by decide, by decide, by decide⟩ (hc _ rfl) hk hm hat (h1.append h2)
      (by rw [List.length_append]; omega) hplace
    show Sim env prog U C L m (Res.with' cfg (itemValues (W.look cfg.world) cfg.store items) fun vs =>
      Res.with' cfg (optValues (W.look cfg.world) cfg.store last) fun ws => cfg.command W cmdPrint (vs ++ ws))
    cases h3 : itemValues (W.look cfg.world) cfg.store items with
    | ub => trivial
    | err er => rw [h3] at this; cases er <;> exact this
    | ok v =>
      rw [h3] at this
      cases h4 : optValues (W.look cfg.world) cfg.store last with
      | ub => trivial
      | err er => rw [h4] at this; cases er <;> exact this
      | ok v => rw [h4] at this; exact this
  | goto l => exact sim_jump hL false hk hs.1 hm hat hplace
  | gosub l => exact sim_jump hL true hk hs.1 hm hat hplace
  | ret => exact sim_return hk hm hat
  | fin => exact sim_end hk hm hat
  | stop => exact sim_stop hk hm hat
  | for' w x y st => exact sim_for hperf hk hs hm hp hidx (wf_prog hprog) hsize hbody hprogU
  | on e sub ls => exact sim_on hperf hL hk hs hm hat hplace
  | next w => exact sim_next hperf hk hs hm hp hidx hsize hplace hprogU
  | read ls => exact sim_read hperf hprog hk hs hm hp hidx hplace
  | restore l => exact sim_restore hprog hL hk hs.1 hm hp hidx hplace
  | dim l r => exact sim_dim hperf hs hm hat hplace
  | put l e => exact sim_put hperf hs hm hat hplace


/-! ## IF -/

/-- A label after THEN or ELSE. -/
theorem ifTarget_label {m : Mach σ} {a b : List Instr} {l : List Nat} {d : Nat} (hd : d ≠ cmdGoto ∧ d ≠ cmdGosub)
    (hc : m.exec.code = encode (a ++ (.text bcLabelString l :: .simple bcCommand d :: b))) :
    ifTarget m (posAfter a) = searchLabel m true l := by
  unfold ifTarget
  have g0 : m.exec.code[posAfter a]? = some bcLabelString := by
    rw [hc]
    have := get_op a (.simple bcCommand d :: b) (.text bcLabelString l) 0
    rw [Nat.add_zero] at this
    rw [this]; rfl
  have hb : byte m.exec.code (posAfter a + 1) = .ok l.length := by rw [hc]; exact byte_arg _ _ _
  have e1 : posAfter a + 2 + l.length + l.length % 2 = posAfter (a ++ [.text bcLabelString l]) := by
    rw [posAfter_snoc, tail_text, Machine.padText_length]; omega
  have hj : jumpFollows m.exec.code (posAfter a + 2 + l.length + l.length % 2) = false := by
    have g0 := get_op (a ++ [.text bcLabelString l]) b (.simple bcCommand d) 0
    have g1 := get_op (a ++ [.text bcLabelString l]) b (.simple bcCommand d) 1
    rw [Nat.add_zero] at g0
    unfold jumpFollows
    rw [hc, e1, show a ++ (Instr.text bcLabelString l :: .simple bcCommand d :: b) = (a ++ [.text bcLabelString l]) ++ .simple bcCommand d :: b by simp,
      g0, g1]
    simp [Instr.op, arg, hd.1, hd.2]
  have ht : (m.exec.code.drop (posAfter a + 2)).take l.length = l := by
    rw [hc, code_split]
    rw [show encode a ++ (Instr.op (.text bcLabelString l) :: arg (.text bcLabelString l) :: (tail (.text bcLabelString l) ++ encode (.simple bcCommand d :: b))) =
      encode a ++ (Instr.op (.text bcLabelString l) :: arg (.text bcLabelString l) :: (padText l ++ encode (.simple bcCommand d :: b))) from rfl]
    rw [show posAfter a + 2 = (encode a).length + 2 from rfl, drop_code]
    show (padText l ++ _).take l.length = l
    exact take_pad _ _
  rw [g0]
  dsimp only
  rw [if_pos rfl, hb]
  simp only [Out.bind, hj]
  rw [ht]
  simp

/-- A branch of an IF. -/
theorem sim_branch (hL : KnowsLabels prog L) {cfg : Cfg σ} {m M : Mach σ} {y z : List Instr} {b : Branch} {d : Nat} (hb : b.WF)
    (hd : d ≠ cmdGoto ∧ d ≠ cmdGosub) (hr : Reaches env m M)
    (hmain : Reading prog cfg.data M.exec) (hMl : M.labels = L) (hMf : M.frames = m.frames) (hmf : m.frames = []) (hMe : M.core.error = 0)
    (hMh : Holds U cfg.store M.core) (hMx : M.core.ext = cfg.world) (hMco : M.exec.code = encode (progCode prog))
    (hcalls : Links prog U C M.core.vars cfg.calls M.calls)
    (hcode : progCode prog = y ++ (b.code ++ .simple bcCommand d :: z))
    (hstep : Machine.step env M = ((ifTarget (M.skip 2) (posAfter y)).bind fun r => .ok { r.1 with exec := { r.1.exec with index := r.2 } }).bind
      fun x => .ok { x with core := { x.core with stack := [] }, exec := { x.exec with argc := 0 } })
    (hplace : ∀ ss, b = .run ss → Place prog U C ⟨ss, none⟩ cfg.next (posAfter y)) :
    Sim env prog U C L m (b.exec prog cfg) := by
  have hcode' : (M.skip 2).exec.code = encode (y ++ (b.code ++ .simple bcCommand d :: z)) := by
    rw [← hcode]; exact hMco
  cases b with
  | run ss =>
    rw [ifTarget_proper (i := .simple bcCommand d) (proper_join hb.2.1 hb.2.2) (show bcCommand ≠ bcLabelString by decide) hcode'] at hstep
    simp only [Out.bind] at hstep
    exact ⟨_, Goes.last hr hstep, hplace ss rfl,
      Base.landed (m := M) (i := posAfter y) hMco hmain (hMf.trans hmf) hMl hMe hMh hMx hcalls⟩
  | jump l =>
    rw [ifTarget_label hd hcode', search_good (m := M.skip 2) hL hb hmain.1 hMl] at hstep
    show Sim env prog U C L m (cfg.goto prog l)
    unfold Cfg.goto
    cases ht : target prog l with
    | some t =>
      rw [ht] at hstep
      simp only [Out.bind] at hstep
      exact ⟨_, Goes.last hr hstep, Place.line t,
        Base.landed (m := M) (i := posAfter (progCode (prog.take t))) hMco hmain (hMf.trans hmf) hMl hMe hMh hMx hcalls⟩
    | none =>
      rw [ht] at hstep
      simp only [Out.bind] at hstep
      exact ⟨_, hr.trans (Reaches.one hstep), ended_error (show eLabelNotFound ≠ 0 by decide), hMf, rfl, hMh.closed, hMx⟩

theorem sim_if (hperf : Performs env W C) (hL : KnowsLabels prog L) (hprog : ∀ l ∈ prog, l.WF) {cfg : Cfg σ} {m : Mach σ} {i : If} {a : List Instr}
    (hi : i.WF ∧ (∀ x ∈ i.cond.vars, x ∈ U) ∧ ∀ s ∈ i.stmts, FitsS U C s)
    (hm : Base prog U C L cfg.calls cfg.data cfg.store cfg.world m) (hp : progCode prog = a ++ (ifCode (some i) ++ progCode (prog.drop cfg.next)))
    (hidx : m.exec.index = posAfter a) (hI : HasIf prog cfg.next) :
    Sim env prog U C L m (Res.with' cfg (i.cond.number (W.look cfg.world) cfg.store) fun v =>
      if v ≠ 0 then i.yes.exec prog { cfg with todo := ⟨[], none⟩ }
      else match i.no with
        | some b => b.exec prog { cfg with todo := ⟨[], none⟩ }
        | none => .run { cfg with todo := ⟨[], none⟩ }) := by
  obtain ⟨hw, hv, hst⟩ := hi
  have hwf := wf_prog hprog
  have hp1 : progCode prog = a ++ (i.cond.code ++ (.simple bcCommandFirst cmdIf :: (i.yes.code ++ (elseCode i.no ++ [.simple bcCommand cmdEndif]))
      ++ progCode (prog.drop cfg.next))) := by
    rw [hp]; simp [ifCode]
  have hat := hm.at hp1 hidx
  have hcomp := computes_number (env := env) (K := W.look cfg.world) (U := U) (st := cfg.store) i.cond hw.cond.toGood hv
  have hpush := hcomp m a _ hat hm.argc (by rw [hm.stack, len_e]; simp only [List.length_nil]; have := hw.short; omega) hm.holds (by rw [hm.ext]; exact hperf.sees _)
  cases hval : i.cond.number (W.look cfg.world) cfg.store with
  | ub => trivial
  | err er =>
    rw [hval] at hpush
    have hpush : Ends env U cfg.store m.core.ext (errNum er) m := hpush
    rw [hm.ext] at hpush
    cases er <;> exact hpush
  | ok v =>
    rw [hval] at hpush
    obtain ⟨_, c', ens, hr, hst', hs, hh, hg⟩ := hpush
    obtain ⟨en, rfl⟩ : ∃ en, ens = [en] := by
      cases hs with | cons h1 h2 => cases h2; exact ⟨_, rfl⟩
    obtain ⟨hn, hx⟩ := (by cases hs with | cons h1 h2 => exact h1 : Stands cfg.store c' en (.num v)).number hh
    rw [hm.stack, List.nil_append] at hst'
    have herr : c'.error = 0 := hg.error.trans hm.error
    have hat' := hat.after herr
    generalize hMd : Machine.after m a i.cond.code c' = M at hr hat'
    have hMc : M.calls = m.calls := by rw [← hMd]; rfl
    have hMf : M.frames = m.frames := by rw [← hMd]; rfl
    have hMl : M.labels = L := by rw [← hMd]; exact hm.labels
    have hMm : Reading prog cfg.data M.exec := by rw [← hMd]; exact hm.main
    have hMco : M.exec.code = encode (progCode prog) := by rw [← hMd]; exact hm.code
    have hMe : M.core.error = 0 := by rw [← hMd]; exact herr
    have hMx : M.core.ext = cfg.world := by rw [← hMd]; exact hg.ext.trans hm.ext
    have hMh : Holds U cfg.store M.core := by rw [← hMd]; exact hh
    have hMcalls : Links prog U C M.core.vars cfg.calls M.calls := by
      rw [hMc, ← hMd]; exact hm.calls.grow hg
    have harg : M.core.argNum 0 = .ok v := by
      rw [← hMd]
      show c'.argNum 0 = _
      unfold Core.argNum
      rw [hst']
      exact hx
    have hstep := step_if (env := env) hat'
    unfold cmdIfM at hstep
    rw [show (M.skip 2).core = M.core from rfl, harg] at hstep
    have hX : M.exec.index + 2 = posAfter (a ++ i.cond.code ++ [.simple bcCommandFirst cmdIf]) := by
      rw [posAfter_snoc, hat'.index]; rfl
    have hp2 : progCode prog = (a ++ i.cond.code ++ [.simple bcCommandFirst cmdIf]) ++ (i.yes.code ++ (elseCode i.no ++ .simple bcCommand cmdEndif ::
        progCode (prog.drop cfg.next))) := by
      rw [hp1]; simp
    generalize a ++ i.cond.code ++ [.simple bcCommandFirst cmdIf] = X at hX hp2
    show Sim env prog U C L m (if v ≠ 0 then _ else _)
    by_cases hv0 : v ≠ 0
    · rw [if_pos hv0]
      simp only [Out.bind] at hstep
      rw [if_pos hv0, show (M.skip 2).exec.index = M.exec.index + 2 from rfl, hX] at hstep
      obtain ⟨d, z, hdz, hd⟩ : ∃ d z, elseCode i.no ++ .simple bcCommand cmdEndif :: progCode (prog.drop cfg.next) = .simple bcCommand d :: z ∧
          (d ≠ cmdGoto ∧ d ≠ cmdGosub) := by
        cases i.no with
        | none => exact ⟨_, _, rfl, by decide⟩
        | some b => exact ⟨_, _, rfl, by decide⟩
      refine sim_branch hL (cfg := { cfg with todo := ⟨[], none⟩ }) hw.yes hd hr hMm hMl hMf hm.frames hMe hMh hMx hMco hMcalls
        (by rw [hp2, hdz]) hstep ?_
      intro ss hss
      refine ⟨X, bcCommand, Or.inl rfl, rfl, elseCode i.no ++ [.simple bcCommand cmdEndif], ?_, ?_, fun _ => rfl, ⟨?_, by simp⟩, fun _ => hI⟩
      · rw [hp2, hss]; simp [Branch.code, ifCode]
      · cases hno : i.no with
        | none => exact .endif
        | some b => exact .else' b.code (fine_branch (hw.no b hno))
      · intro s hs
        exact hst s (by unfold If.stmts; rw [hss]; exact List.mem_append.mpr (Or.inl hs))
    · rw [if_neg hv0]
      simp only [Out.bind] at hstep
      rw [if_neg hv0, show (M.skip 2).exec.index = M.exec.index + 2 from rfl, hX] at hstep
      have hnoE := noElse_branch hw.yes
      have hscan : ∀ d z, elseCode i.no ++ .simple bcCommand cmdEndif :: progCode (prog.drop cfg.next) = .simple bcCommand d :: z →
          (d == cmdElse || d == cmdEndif) = true →
          (M.skip 2).exec.scanFor bcCommand (fun d => d == cmdElse || d == cmdEndif) (posAfter X) = .ok (some (posAfter (X ++ i.yes.code))) := by
        intro d z hdz hd
        refine execScan_mid bcCommand _ cmdOp i.yes.code z d (by
          show M.exec.code = _
          rw [hMco, hp2, hdz]) hd ?_ ?_
        · intro j hj
          apply hwf
          rw [hp2, hdz]
          exact List.mem_append.mpr (Or.inr hj)
        · intro y hy
          by_contra hne
          simp only [Bool.not_eq_false, Bool.or_eq_true, beq_iff_eq] at hne
          rcases hne with rfl | rfl
          · exact hnoE.1 hy
          · exact hnoE.2 hy
      have hbyte : ∀ d z, elseCode i.no ++ .simple bcCommand cmdEndif :: progCode (prog.drop cfg.next) = .simple bcCommand d :: z →
          byte (M.skip 2).exec.code (posAfter (X ++ i.yes.code) + 1) = .ok d := by
        intro d z hdz
        rw [show (M.skip 2).exec.code = M.exec.code from rfl, hMco, hp2, hdz, ← List.append_assoc]
        exact byte_arg _ _ (.simple bcCommand d)
      cases hno : i.no with
      | none =>
        have hdz : elseCode i.no ++ .simple bcCommand cmdEndif :: progCode (prog.drop cfg.next) =
            .simple bcCommand cmdEndif :: progCode (prog.drop cfg.next) := by rw [hno]; rfl
        rw [hscan _ _ hdz (by decide)] at hstep
        dsimp only at hstep
        rw [hbyte _ _ hdz] at hstep
        dsimp only at hstep
        rw [if_neg (by decide)] at hstep
        dsimp only at hstep
        refine ⟨_, Goes.last hr hstep, ?_, Base.landed (m := M) (i := posAfter (X ++ i.yes.code) + 2) hMco hMm (hMf.trans hm.frames) hMl hMe hMh hMx hMcalls⟩
        have e : posAfter (X ++ i.yes.code) + 2 = posAfter (X ++ i.yes.code ++ [.simple bcCommand cmdEndif]) := by rw [posAfter_snoc]; rfl
        show Place prog U C ⟨[], none⟩ cfg.next (posAfter (X ++ i.yes.code) + 2)
        rw [e]
        refine ⟨_, bcCommand, Or.inl rfl, rfl, [], ?_, .none, fun h => absurd rfl h, ⟨by simp, by simp⟩, by simp⟩
        rw [hp2, hdz]; simp [codeJoin, ifCode]
      | some b =>
        have hdz : elseCode i.no ++ .simple bcCommand cmdEndif :: progCode (prog.drop cfg.next) =
            .simple bcCommand cmdElse :: (b.code ++ .simple bcCommand cmdEndif :: progCode (prog.drop cfg.next)) := by rw [hno]; rfl
        rw [hscan _ _ hdz (by decide)] at hstep
        dsimp only at hstep
        rw [hbyte _ _ hdz] at hstep
        dsimp only at hstep
        rw [if_pos rfl] at hstep
        have e : posAfter (X ++ i.yes.code) + 2 = posAfter (X ++ i.yes.code ++ [.simple bcCommand cmdElse]) := by rw [posAfter_snoc]; rfl
        rw [e] at hstep
        have hcode : progCode prog = (X ++ i.yes.code ++ [.simple bcCommand cmdElse]) ++ (b.code ++ .simple bcCommand cmdEndif :: progCode (prog.drop cfg.next)) := by
          rw [hp2, hdz]; simp
        refine sim_branch hL (cfg := { cfg with todo := ⟨[], none⟩ }) (hw.no b hno) (by decide) hr hMm hMl hMf hm.frames hMe hMh hMx hMco hMcalls
          hcode hstep ?_
        intro ss hss
        refine ⟨_, bcCommand, Or.inl rfl, rfl, [.simple bcCommand cmdEndif], ?_, .endif, fun _ => rfl, ⟨?_, by simp⟩, fun _ => hI⟩
        · rw [hcode, hss]; simp [Branch.code, ifCode]
        · intro s hs
          exact hst s (by unfold If.stmts; rw [hno, hss]; exact List.mem_append.mpr (Or.inr hs))

/-! ## The next line -/

/-- Code at the end of a line is passed over. -/
theorem pass_over (hprog : ∀ l ∈ prog, l.WF) {calls : List Pending} {data : Nat} {store : Store} {world : σ} {m : Mach σ} {a sk r : List Instr} (ho : Over sk)
    (hm : Base prog U C L calls data store world m) (hp : progCode prog = a ++ (sk ++ r)) (hidx : m.exec.index = posAfter a) :
    ∃ M, Reaches env m M ∧ M.exec.index = posAfter (a ++ sk) ∧ Base prog U C L calls data store world M := by
  cases ho with
  | none => exact ⟨m, Reaches.refl m, by rw [List.append_nil]; exact hidx, hm⟩
  | data w =>
    have hat : At m a (.text bcData w :: r) := hm.at hp hidx
    have hstep : Machine.step env m = _ := hat.step
    rw [show (Instr.text bcData w).op = bcData from rfl, show arg (.text bcData w) = w.length from rfl,
      show execInstr env bcData w.length (m.skip 2) = .ok ((m.skip 2).skip (w.length + w.length % 2)) from rfl] at hstep
    simp only [Out.bind] at hstep
    rw [clearArgc_ne (by decide)] at hstep
    refine ⟨_, Reaches.one hstep, ?_, { code := hm.code, main := hm.main, argc := rfl, frames := hm.frames, calls := hm.calls, labels := hm.labels, error := hm.error, stack := hm.stack, holds := hm.holds.congr rfl rfl rfl, ext := hm.ext }⟩
    show m.exec.index + 2 + (w.length + w.length % 2) = posAfter (a ++ [_])
    rw [posAfter_snoc, hidx, tail_text, Machine.padText_length]
  | endif =>
    have hat := hm.at hp hidx
    have hstep := step_cmd (env := env) (Or.inl rfl) (show cmdEndif < 110 by decide) (by decide) hat
    rw [show execCmd env cmdEndif (m.skip 2) = .ok (m.skip 2) from rfl] at hstep
    simp only [Out.bind] at hstep
    refine ⟨_, Reaches.one hstep, ?_, Base.landed (m := m) (cs := m.calls) (i := m.exec.index + 2) hm.code hm.main hm.frames hm.labels hm.error hm.holds hm.ext hm.calls⟩
    show m.exec.index + 2 = _
    rw [posAfter_snoc, hidx]; rfl
  | else' e he =>
    have hp' : progCode prog = (a ++ [.simple bcCommand cmdElse]) ++ (e ++ .simple bcCommand cmdEndif :: r) := by rw [hp]; simp
    have hat := hm.at (a := a) (b := .simple bcCommand cmdElse :: (e ++ .simple bcCommand cmdEndif :: r)) (by rw [hp']; simp) hidx
    have hstep := step_cmd (env := env) (Or.inl rfl) (show cmdElse < 110 by decide) (by decide) hat
    have hX : m.exec.index + 2 = posAfter (a ++ [.simple bcCommand cmdElse]) := by rw [posAfter_snoc, hidx]; rfl
    have hscan : (m.skip 2).exec.scanFor bcCommand (· == cmdEndif) (m.skip 2).exec.index =
        .ok (some (posAfter (a ++ [.simple bcCommand cmdElse] ++ e))) := by
      rw [show (m.skip 2).exec.index = m.exec.index + 2 from rfl, hX]
      refine execScan_mid bcCommand _ cmdOp e r cmdEndif (by show m.exec.code = _; rw [hm.code, hp']) (by decide) ?_ ?_
      · intro j hj
        apply wf_prog hprog
        rw [hp']
        exact List.mem_append.mpr (Or.inr hj)
      · intro y hy
        by_contra hne
        simp only [Bool.not_eq_false, beq_iff_eq] at hne
        subst hne
        exact (he _ hy).2.2 rfl
    rw [show execCmd env cmdElse (m.skip 2) = cmdElseM (m.skip 2) from rfl] at hstep
    unfold cmdElseM at hstep
    rw [hscan] at hstep
    simp only [Out.bind] at hstep
    refine ⟨_, Reaches.one hstep, ?_, Base.landed (m := m) (cs := m.calls) (i := posAfter (a ++ [Instr.simple bcCommand cmdElse] ++ e) + 2) hm.code hm.main hm.frames hm.labels hm.error hm.holds hm.ext hm.calls⟩
    show posAfter (a ++ [.simple bcCommand cmdElse] ++ e) + 2 = _
    rw [show a ++ (Instr.simple bcCommand cmdElse :: (e ++ [Instr.simple bcCommand cmdEndif])) = (a ++ [.simple bcCommand cmdElse] ++ e) ++ [.simple bcCommand cmdEndif] by simp,
      posAfter_snoc]
    rfl

/-- A label is passed over. -/
theorem pass_label {calls : List Pending} {data : Nat} {store : Store} {world : σ} {m : Mach σ} {a r : List Instr} (o : Option (List Nat))
    (hm : Base prog U C L calls data store world m) (hp : progCode prog = a ++ (labelCode o ++ r)) (hidx : m.exec.index = posAfter a) :
    ∃ M, Reaches env m M ∧ M.exec.index = posAfter (a ++ labelCode o) ∧ Base prog U C L calls data store world M := by
  cases o with
  | none => exact ⟨m, Reaches.refl m, by show _ = posAfter (a ++ []); rw [List.append_nil]; exact hidx, hm⟩
  | some w =>
    have hat : At m a (.text bcLabel w :: r) := hm.at hp hidx
    have hstep : Machine.step env m = _ := hat.step
    rw [show (Instr.text bcLabel w).op = bcLabel from rfl, show arg (.text bcLabel w) = w.length from rfl,
      show execInstr env bcLabel w.length (m.skip 2) = .ok ((m.skip 2).skip (w.length + w.length % 2)) from rfl] at hstep
    simp only [Out.bind] at hstep
    rw [clearArgc_ne (by decide)] at hstep
    refine ⟨_, Reaches.one hstep, ?_, { code := hm.code, main := hm.main, argc := rfl, frames := hm.frames, calls := hm.calls, labels := hm.labels, error := hm.error, stack := hm.stack, holds := hm.holds.congr rfl rfl rfl, ext := hm.ext }⟩
    show m.exec.index + 2 + (w.length + w.length % 2) = posAfter (a ++ [_])
    rw [posAfter_snoc, hidx, tail_text, Machine.padText_length]

/-! ## Steps -/

/-- Whether nothing is left of the line. -/
def Todo.empty : Todo → Bool
  | ⟨[], none⟩ => true
  | _ => false

/-- Each step of the program is some steps of the machine; at least one, except for the step to the next line. -/
theorem sim_step (hperf : Performs env W C) (hL : KnowsLabels prog L) (hprog : FitsProg U C prog)
    (hsize : posAfter (progCode prog) < 16777216) {cfg : Cfg σ} {m : Mach σ} (hm : Match prog U C L cfg m) :
    match step W prog cfg with
    | .run c => ∃ m', Match prog U C L c m' ∧ (Goes env m m' ∨ Reaches env m m' ∧ cfg.todo.empty = true ∧ c.next = cfg.next + 1 ∧ c.next ≤ prog.length)
    | .done er st w => Ends env U st w er m
    | .undefined => True := by
  have hwf : ∀ l ∈ prog, l.WF := fun l hl => (hprog l hl).1
  have conv : ∀ r : Res σ, Sim env prog U C L m r → match r with
    | .run c => ∃ m', Match prog U C L c m' ∧ (Goes env m m' ∨ Reaches env m m' ∧ cfg.todo.empty = true ∧ c.next = cfg.next + 1 ∧ c.next ≤ prog.length)
    | .done er st w => Ends env U st w er m
    | .undefined => True := by
    intro r hr
    cases r with
    | run c => obtain ⟨m', h1, h2⟩ := hr; exact ⟨m', h2, Or.inl h1⟩
    | done er st w => exact hr
    | undefined => trivial
  obtain ⟨⟨stmts, last⟩, next, store, calls, world, data⟩ := cfg
  obtain ⟨hplace, hbase⟩ := hm
  dsimp only at hplace hbase
  cases stmts with
  | cons s ss =>
    obtain ⟨a, k, r, hk, hp, hi, hs, hpl⟩ := hplace.rest
    exact conv _ (sim_s (cfg := ⟨⟨ss, last⟩, next, store, calls, world, data⟩) hperf hL hk hs hbase hp hi hwf hsize hpl hprog)
  | nil =>
    obtain ⟨a, k, hk, hi, sk, hp, ho, hl, hf, hI⟩ := hplace
    cases last with
    | some i =>
      have hsk : sk = [] := by
        by_contra hne
        cases hl hne
      subst hsk
      exact conv _ (sim_if (cfg := ⟨⟨[], some i⟩, next, store, calls, world, data⟩) hperf hL hwf (hf.last i rfl) hbase hp hi (hI (Or.inl rfl)))
    | none =>
      have hp : progCode prog = a ++ (sk ++ progCode (prog.drop next)) := hp
      obtain ⟨M, r1, hi1, hb1⟩ := pass_over (env := env) hwf ho hbase hp hi
      unfold step
      dsimp only
      cases hn : prog[next]? with
      | none =>
        refine ⟨M, r1, ?_, hb1.frames.trans hbase.frames.symm, hb1.error, hb1.holds.closed, hb1.ext⟩
        have : prog.drop next = [] := by
          rw [List.drop_eq_nil_iff]
          exact List.getElem?_eq_none_iff.mp hn
        rw [this] at hp
        unfold Mach.ended
        rw [hb1.code, hi1, hp]
        simp [progCode, posAfter]
      | some l =>
        have hd : prog.drop next = l :: prog.drop (next + 1) := by
          obtain ⟨h1, h2⟩ := List.getElem?_eq_some_iff.mp hn
          rw [← h2]
          exact List.drop_eq_getElem_cons h1
        have hlt : next < prog.length := (List.getElem?_eq_some_iff.mp hn).1
        have hp2 : progCode prog = (a ++ sk) ++ (labelCode l.label ++ (codeJoin bcCommandFirst l.stmts ++ ifCode l.last ++ (dataCode l.data ++ progCode (prog.drop (next + 1))))) := by
          rw [hp, hd]
          have e : progCode (l :: prog.drop (next + 1)) = l.code ++ progCode (prog.drop (next + 1)) := by
            unfold progCode; rw [List.flatMap_cons]
          rw [e]
          unfold Line.code
          simp only [List.append_assoc]
        obtain ⟨M2, r2, hi2, hb2⟩ := pass_label (env := env) l.label hb1 hp2 hi1
        refine ⟨M2, ⟨?_, hb2⟩, Or.inr ⟨r1.trans r2, rfl, rfl, hlt⟩⟩
        refine ⟨_, bcCommandFirst, Or.inr rfl, hi2, dataCode l.data, ?_, ?_, ?_, ?_, ?_⟩
        · rw [hp2]; simp
        · cases l.data with
          | none => exact .none
          | some d => exact .data _
        · intro hne
          cases hd : l.data with
          | none => rw [hd] at hne; exact absurd rfl hne
          | some d => exact ((hwf l (List.mem_of_getElem? hn)).data d hd).2.2
        · exact (hprog l (List.mem_of_getElem? hn)).2
        · intro h
          refine ⟨l, hn, ?_⟩
          rcases h with h | h
          · exact h
          · cases hd : l.data with
            | none => rw [hd] at h; cases h
            | some d => rw [hd] at h; simp [dataCode] at h

end Sbc.Source
