import Verif.Proof.SourceInstr
import Verif.Spec.SourceMachine
set_option autoImplicit false
/-!
# Source programs in the machine: the state, commands, jumps and assignments
-/
namespace Sbc.Source
open Sbc Sbc.Tok Sbc.Tok.Spec Sbc.Machine

variable {σ : Type} {env : Env σ}

/-- The statement is correct, uses the variables `U` and the commands `C`. -/
def FitsS (U : List (List Nat)) (C : Nat → Prop) (s : S) : Prop := s.WF ∧ (∀ x ∈ s.vars, x ∈ U) ∧ ∀ d, s.command = some d → C d

/-- The same for what is left of a line. -/
structure Fits (U : List (List Nat)) (C : Nat → Prop) (t : Todo) : Prop where
  stmts : ∀ s ∈ t.stmts, FitsS U C s
  last : ∀ i, t.last = some i → i.WF ∧ (∀ x ∈ i.cond.vars, x ∈ U) ∧ ∀ s ∈ i.stmts, FitsS U C s

/-- Code that is passed over at the end of a line. -/
inductive Over : List Instr → Prop
  | none : Over []
  | data (s : List Nat) : Over [.text bcData s]
  | endif : Over [.simple bcCommand cmdEndif]
  | else' (e : List Instr) : (∀ i ∈ e, Fine i) → Over (.simple bcCommand cmdElse :: (e ++ [.simple bcCommand cmdEndif]))

/-- The line before line `n` ends with an IF. -/
def HasIf (prog : List Line) (n : Nat) : Prop := ∃ l, prog[n - 1]? = some l ∧ l.last.isSome = true

/-- The code after `a` is that of the rest of the line `t`, the first command with the code `k`, and of the lines from `n`. -/
def From (prog : List Line) (U : List (List Nat)) (C : Nat → Prop) (k : Nat) (t : Todo) (n : Nat) (a : List Instr) : Prop :=
  ∃ sk, progCode prog = a ++ (codeJoin k t.stmts ++ (ifCode t.last ++ (sk ++ progCode (prog.drop n)))) ∧ Over sk ∧ (sk ≠ [] → t.last = none) ∧ Fits U C t ∧
    (t.last.isSome = true ∨ .simple bcCommand cmdEndif ∈ sk → HasIf prog n)

/-- The rest of the line `t` and the lines from `n` are at position `i` of the code. -/
def Place (prog : List Line) (U : List (List Nat)) (C : Nat → Prop) (t : Todo) (n i : Nat) : Prop :=
  ∃ a k, CmdOp k ∧ i = posAfter a ∧ From prog U C k t n a

/-- The same with all commands at the beginning of statements. -/
def Body (prog : List Line) (U : List (List Nat)) (C : Nat → Prop) (t : Todo) (n : Nat) (a : List Instr) : Prop := From prog U C bcCommandFirst t n a

theorem Body.place {prog : List Line} {U : List (List Nat)} {C : Nat → Prop} {t : Todo} {n : Nat} {a : List Instr} (h : Body prog U C t n a) :
    Place prog U C t n (posAfter a) := ⟨a, bcCommandFirst, Or.inr rfl, rfl, h⟩

/-- All lines use only the variables `U` and the commands `C`. -/
def FitsProg (U : List (List Nat)) (C : Nat → Prop) (prog : List Line) : Prop :=
  ∀ l ∈ prog, l.WF ∧ Fits U C ⟨l.stmts, l.last⟩

/-- Limit and step of a loop are correct and use the variables `U`. -/
structure CtlOk (U : List (List Nat)) (b : E) (s : Option E) : Prop where
  limit : b.WF ∧ b.tree.post.length ≤ 38 ∧ ∀ x ∈ b.vars, x ∈ U
  step : ∀ e, s = some e → e.WF ∧ b.tree.post.length + e.tree.post.length ≤ 36 ∧ ∀ x ∈ e.vars, x ∈ U
  short : b.bytes + 2 + stepBytes s ≤ 255

/-- The entry of the call stack for a subroutine or a loop. -/
inductive Link (prog : List Line) (U : List (List Nat)) (C : Nat → Prop) (T : Vars.Table) : Pending → Call → Prop
  | call (t : Todo) (n addr : Nat) (v : Ptr) : Place prog U C t n addr → Link prog U C T (.call t n) ⟨true, addr, v⟩
  | loop (w : List Nat) (b : E) (s : Option E) (t : Todo) (n i : Nat) (a r : List Instr) : VarName w → w ∈ U → CtlOk U b s →
      i < T.max → Vars.HasKey T i (w, .num) → progCode prog = a ++ (ctlCode b s ++ .simple bcBeginLoop 0 :: r) →
      Body prog U C t n (a ++ (ctlCode b s ++ [.simple bcBeginLoop 0])) →
      Link prog U C T (.loop w b s t n) ⟨false, posAfter (ctlCode b s) * 16777216 + posAfter a, .slot i⟩
  | outer (c : Call) : Link prog U C T (.outer c) c

/-- The call stack. -/
def Links (prog : List Line) (U : List (List Nat)) (C : Nat → Prop) (T : Vars.Table) (ps : List Pending) (cs : List Call) : Prop :=
  List.Forall₂ (Link prog U C T) ps cs

theorem Links.keep {prog : List Line} {U : List (List Nat)} {C : Nat → Prop} {c c' : Core σ} {ps : List Pending} {cs : List Call}
    (h : Links prog U C c.vars ps cs) (g : Keeps c c') : Links prog U C c'.vars ps cs := by
  unfold Links at h ⊢
  induction h with
  | nil => exact .nil
  | cons h _ ih =>
    refine .cons ?_ ih
    cases h with
    | outer => exact .outer _
    | call t n addr v h => exact .call t n addr v h
    | loop w b s t n i a r h1 h2 h3 h4 h5 h6 h7 => exact .loop w b s t n i a r h1 h2 h3 (by rw [g.max]; exact h4) (g.keys i h4 _ h5) h6 h7

theorem Links.grow {prog : List Line} {U : List (List Nat)} {C : Nat → Prop} {c c' : Core σ} {ps : List Pending} {cs : List Call}
    (h : Links prog U C c.vars ps cs) (g : Grow c c') : Links prog U C c'.vars ps cs := h.keep g.toKeeps

/-- READ goes on with item number `data`. -/
def Rd (prog : List Line) (data : Nat) (main : Bool) (di : Option Nat) (ofs : Nat) : Prop :=
  main = true ∧ (progCode prog ≠ [] → Left (progCode prog) ⟨[], 0, di, ofs, 0, true⟩ ((items prog).drop data))

/-- The main program runs, and READ goes on with item number `data`. -/
def Reading (prog : List Line) (data : Nat) (x : Exec) : Prop := Rd prog data x.main x.dataIndex x.dataOffset

/-- The machine runs the program with these places to return to, variables and rest of the system. -/
structure Base (prog : List Line) (U : List (List Nat)) (C : Nat → Prop) (L : Labels.Table) (calls : List Pending) (data : Nat) (store : Store)
    (world : σ) (m : Mach σ) : Prop where
  code : m.exec.code = encode (progCode prog)
  main : Reading prog data m.exec
  argc : m.exec.argc = 0
  frames : m.frames = []
  calls : Links prog U C m.core.vars calls m.calls
  labels : m.labels = L
  error : m.core.error = 0
  stack : m.core.stack = []
  holds : Holds U store m.core
  ext : m.core.ext = world

/-- The machine is in the state that corresponds to the configuration. -/
structure Match (prog : List Line) (U : List (List Nat)) (C : Nat → Prop) (L : Labels.Table) (cfg : Cfg σ) (m : Mach σ) : Prop where
  place : Place prog U C cfg.todo cfg.next m.exec.index
  base : Base prog U C L cfg.calls cfg.data cfg.store cfg.world m

/-- The machine does what the outcome of a step says. -/
def Sim (env : Env σ) (prog : List Line) (U : List (List Nat)) (C : Nat → Prop) (L : Labels.Table) (m : Mach σ) : Res σ → Prop
  | .run c => ∃ m', Goes env m m' ∧ Match prog U C L c m'
  | .done er st w => Ends env U st w er m
  | .undefined => True

/-- The labels are known. -/
def KnowsLabels (prog : List Line) (L : Labels.Table) : Prop :=
  ∀ name, Names.GoodName name → Labels.labelIndex L name = (target prog name).map fun k => posAfter (progCode (prog.take k))

variable {prog : List Line} {U : List (List Nat)} {C : Nat → Prop} {L : Labels.Table} {W : World σ}

theorem Place.rest {s : S} {ss : List S} {i : Option If} {n idx : Nat} (h : Place prog U C ⟨s :: ss, i⟩ n idx) :
    ∃ a k r, CmdOp k ∧ progCode prog = a ++ (s.code k ++ r) ∧ idx = posAfter a ∧ FitsS U C s ∧
      Body prog U C ⟨ss, i⟩ n (a ++ s.code k) := by
  obtain ⟨a, k, hk, hi, sk, hp, ho, hl, hf, hI⟩ := h
  have hp' : progCode prog = a ++ (s.code k ++ (codeJoin bcCommandFirst ss ++ (ifCode i ++ (sk ++ progCode (prog.drop n))))) := by
    rw [hp]
    show a ++ ((s.code k ++ codeJoin bcCommandFirst ss) ++ _) = _
    rw [List.append_assoc]
  refine ⟨a, k, _, hk, hp', hi, hf.stmts s (by simp), ?_⟩
  exact ⟨sk, by rw [hp', List.append_assoc], ho, hl, ⟨fun s hs => hf.stmts s (by simp [hs]), hf.last⟩, hI⟩

/-- The beginning of a line. -/
theorem Place.line (n : Nat) : Place prog U C ⟨[], none⟩ n (posAfter (progCode (prog.take n))) := by
  refine ⟨progCode (prog.take n), bcCommand, Or.inl rfl, rfl, [], ?_, .none, fun h => absurd rfl h, ⟨by simp, by simp⟩, by simp⟩
  show progCode prog = progCode (prog.take n) ++ progCode (prog.drop n)
  unfold progCode
  rw [← List.flatMap_append, List.take_append_drop]

theorem Base.at {calls : List Pending} {data : Nat} {store : Store} {world : σ} {m : Mach σ} (h : Base prog U C L calls data store world m) {a b : List Instr} (hp : progCode prog = a ++ b)
    (hi : m.exec.index = posAfter a) : At m a b := ⟨by rw [h.code, hp], hi, h.error⟩

/-! ## Steps of commands -/

/-- The commands that the interpreter passes on. -/
def passedOn (c : Nat) : Prop :=
  c < 110 ∧ c ∉ [cmdFor, cmdTo, cmdStep, cmdOn, cmdEndif, cmdNext, cmdIf, cmdThen, cmdElse, cmdGoto, cmdGosub, cmdReturn, cmdEnd, cmdStop,
    cmdRead, cmdRestore] ∧ outside c = false

theorem external.passedOn {c : Nat} (h : external c) : passedOn c := by
  obtain ⟨h1, h2, h3⟩ := h
  unfold ordinary at h2
  refine ⟨h1, ?_, ?_⟩
  · simp only [List.mem_cons, List.not_mem_nil, or_false, not_or] at h2 h3 ⊢
    refine ⟨h2.2.1, h3.1, h3.2.1, h3.2.2.1, h3.2.2.2.1, h3.2.2.2.2.1, h2.2.2.1, h2.2.2.2.1, h2.2.2.2.2.1, h3.2.2.2.2.2.1,
      h3.2.2.2.2.2.2.1, h3.2.2.2.2.2.2.2.1, h3.2.2.2.2.2.2.2.2.1, h3.2.2.2.2.2.2.2.2.2.1, h3.2.2.2.2.2.2.2.2.2.2.1,
      h3.2.2.2.2.2.2.2.2.2.2.2.1⟩
  · unfold outside
    simp only [List.mem_cons, List.not_mem_nil, or_false, not_or] at h3
    simp only [List.contains_eq_mem, List.mem_cons, List.not_mem_nil, or_false, decide_eq_false_iff_not, not_or]
    omega

theorem step_cmd {m : Mach σ} {a b : List Instr} {k d : Nat} (hk : CmdOp k) (hd : d < 110) (hks : keepsStack d = false)
    (h : At m a (.simple k d :: b)) :
    Machine.step env m = (execCmd env d (m.skip 2)).bind fun x =>
      .ok { x with core := { x.core with stack := [] }, exec := { x.exec with argc := 0 } } := by
  rw [h.step]
  have hop : k ≠ bcArgcount := by rcases hk with rfl | rfl <;> decide
  have e : execInstr env k d (m.skip 2) = (execCmd env d (m.skip 2)).bind fun m' => .ok { m' with core := { m'.core with stack := [] } } := by
    rcases hk with rfl | rfl
    · rw [exec_cmd _ _ hd, hks]; rfl
    · rw [exec_cmdFirst _ _ hd, hks]; rfl
  show (execInstr env k d (m.skip 2)).bind _ = _
  rw [e]
  cases execCmd env d (m.skip 2) with
  | ok x => show Out.ok (clearArgc k _) = _; rw [clearArgc_ne hop]; rfl
  | err e => rfl
  | ub => rfl

theorem execCmd_passed {d : Nat} (h : passedOn d) (m : Mach σ) :
    execCmd env d m = (env.other bcCommand d m.exec.argc m.core).bind fun c => .ok { m with core := c } := by
  obtain ⟨_, h, ho⟩ := h
  simp only [List.mem_cons, List.not_mem_nil, or_false, not_or] at h
  obtain ⟨h1, h2, h3, h4, h5, h6, h7, h8, h9, h10, h11, h12, h13, h14, h15, h16⟩ := h
  unfold execCmd
  rw [if_neg h1, if_neg (by rintro (h | h | h | h) <;> contradiction), if_neg h6, if_neg h7, if_neg h8, if_neg h9, if_neg h10, if_neg h11,
    if_neg h12, if_neg h13, if_neg h14, if_neg h15, if_neg h16, ho]
  rfl

theorem keeps_passed {d : Nat} (h : passedOn d) : keepsStack d = false := by
  obtain ⟨_, h, _⟩ := h
  simp only [List.mem_cons, List.not_mem_nil, or_false, not_or] at h
  unfold keepsStack
  simp [h.1, h.2.1, h.2.2.1, h.2.2.2.1]

/-- A command with its values on the stack. -/
theorem sim_command (hperf : Performs env W C) {c : Nat} (hc : passedOn c) (hC : C c) {cfg : Cfg σ} {m M : Mach σ} {a b : List Instr}
    {k : Nat} {vs : List Val} (hk : CmdOp k) (hat : At M a (.simple k c :: b)) (hargc : M.exec.argc = 0) (hr : Reaches env m M)
    (hM : M.exec.code = encode (progCode prog) ∧ Reading prog cfg.data M.exec ∧ M.frames = m.frames ∧ m.frames = [] ∧ M.labels = L)
    (hcalls : Links prog U C M.core.vars cfg.calls M.calls)
    (hs : List.Forall₂ (Stands cfg.store M.core) M.core.stack vs) (hh : Holds U cfg.store M.core) (hext : M.core.ext = cfg.world)
    (hplace : Place prog U C cfg.todo cfg.next (posAfter (a ++ [.simple k c]))) :
    Sim env prog U C L m (cfg.command W c vs) := by
  unfold Cfg.command
  dsimp only
  by_cases hkn : W.known c vs cfg.world = false
  · rw [if_pos hkn]; trivial
  rw [if_neg hkn]
  have hkn : W.known c vs M.core.ext = true := by rw [hext]; simpa using hkn
  obtain ⟨s', he⟩ := hperf.commands c hC M.core vs hat.error (Stands.vals hs hh) hkn
  have hstep := step_cmd (env := env) hk hc.1 (keeps_passed hc) hat
  rw [execCmd_passed hc, show (M.skip 2).exec.argc = 0 from hargc, show (M.skip 2).core = M.core from rfl, he] at hstep
  simp only [Out.bind] at hstep
  have hidx : M.exec.index + 2 = posAfter (a ++ [.simple k c]) := by rw [posAfter_snoc, hat.index]; rfl
  rw [hext] at hstep
  split
  · rename_i h0
    refine ⟨_, Goes.last hr hstep, ?_⟩
    exact { place := by
              show Place prog U C cfg.todo cfg.next (M.exec.index + 2)
              rw [hidx]; exact hplace
            base := { code := hM.1, main := hM.2.1, argc := rfl, frames := hM.2.2.1.trans hM.2.2.2.1, calls := hcalls, labels := hM.2.2.2.2
                      error := h0, stack := rfl, holds := hh.congr rfl rfl rfl, ext := rfl } }
  · rename_i h0
    exact ⟨_, hr.trans (Reaches.one hstep), ended_error h0, hM.2.2.1, rfl, hh.closed, rfl⟩

/-- Commands with values. -/
theorem sim_values (hperf : Performs env W C) {c : Nat} (hc : passedOn c) (hC : C c) {cfg : Cfg σ} {m : Mach σ} {a b code : List Instr}
    {k : Nat} {o : Out (List Val)} (hk : CmdOp k) (hm : Base prog U C L cfg.calls cfg.data cfg.store cfg.world m)
    (hat : At m a ((code ++ [.simple k c]) ++ b)) (hcomp : Computes env (W.look cfg.world) U cfg.store code o) (hlen : code.length ≤ 100)
    (hplace : Place prog U C cfg.todo cfg.next (posAfter (a ++ (code ++ [.simple k c])))) :
    Sim env prog U C L m (Res.with' cfg o fun vs => cfg.command W c vs) := by
  rw [List.append_assoc] at hat
  have hp := hcomp m a _ hat hm.argc (by rw [hm.stack]; simpa using hlen) hm.holds (by rw [hm.ext]; exact hperf.sees _)
  cases o with
  | ub => trivial
  | err er =>
    have hp : Ends env U cfg.store m.core.ext (errNum er) m := hp
    rw [hm.ext] at hp
    cases er <;> exact hp
  | ok vs =>
    obtain ⟨_, c', ens, hr, hst, hs, hh, hg⟩ := hp
    rw [hm.stack, List.nil_append] at hst
    have herr : c'.error = 0 := hg.error.trans hm.error
    have hat' := hat.after herr
    refine sim_command hperf hc hC hk hat' hm.argc hr ⟨hm.code, hm.main, rfl, hm.frames, hm.labels⟩ (hm.calls.grow hg) ?_ hh (hg.ext.trans hm.ext) ?_
    · show List.Forall₂ (Stands cfg.store c') c'.stack vs
      rw [hst]; exact hs
    · rw [List.append_assoc]; exact hplace


/-! ## Jumps -/

/-- Going to a label. -/
theorem search_good (hL : KnowsLabels prog L) {l : List Nat} (hl : Names.GoodName l) {m : Mach σ} (hmain : m.exec.main = true) (hlab : m.labels = L) :
    searchLabel m true l = match target prog l with
      | some k => .ok (m, posAfter (progCode (prog.take k)))
      | none => .ok (m.fail eLabelNotFound, m.exec.code.length) := by
  unfold searchLabel
  have := hl.2.1
  rw [hmain]
  simp only [Bool.not_true, Bool.false_eq_true, if_false, Bool.true_and, decide_eq_true_eq, Bool.false_and, if_true]
  rw [if_neg (by omega), hlab, hL l hl]
  cases target prog l <;> rfl

/-- The state after a jump that clears the stack. -/
def landed (m : Mach σ) (calls : List Call) (i : Nat) : Mach σ :=
  { m with core := { m.core with stack := [] }, calls, exec := { m.exec with index := i, argc := 0 } }

theorem Base.landed {calls : List Pending} {data : Nat} {store : Store} {world : σ} {m : Mach σ} {cs : List Call} {i : Nat}
    (h1 : m.exec.code = encode (progCode prog)) (h2 : Reading prog data m.exec) (h3 : m.frames = []) (h4 : m.labels = L) (h5 : m.core.error = 0)
    (hh : Holds U store m.core) (hext : m.core.ext = world)
    (hc : Links prog U C m.core.vars calls cs) :
    Base prog U C L calls data store world (Source.landed m cs i) :=
  { code := h1, main := h2, argc := rfl, frames := h3, calls := hc, labels := h4, error := h5, stack := rfl, holds := hh.congr rfl rfl rfl, ext := hext }

/-- GOTO and GOSUB, from where the label is known. -/
theorem sim_jumpTo (hL : KnowsLabels prog L) {cfg : Cfg σ} {m M : Mach σ} {a b : List Instr} {k : Nat} {l : List Nat} (push : Bool) (hk : CmdOp k)
    (hl : Names.GoodName l) (hat' : At M a (.simple k (jumpWord push) :: b)) (r1 : Reaches env m M)
    (hcmd : cmdJumpM push (M.skip 2) = jump push (M.skip 2) true l)
    (hmf : m.frames = []) (hMf : M.frames = m.frames) (hMl : M.labels = L) (hMm : Reading prog cfg.data M.exec) (hMco : M.exec.code = encode (progCode prog))
    (hMx : M.core.ext = cfg.world) (hMh : Holds U cfg.store M.core) (hcalls : Links prog U C M.core.vars cfg.calls M.calls)
    (hplace : Place prog U C cfg.todo cfg.next (posAfter (a ++ [.simple k (jumpWord push)]))) :
    Sim env prog U C L m (if push then cfg.gosub prog l else cfg.goto prog l) := by
  have hMe : M.core.error = 0 := hat'.error
  have hstep := step_jump (env := env) (push := push) (by rcases hk with rfl | rfl <;> simp [isCmd, jumpWord]) hat'
  have hidx : M.exec.index + 2 = posAfter (a ++ [.simple k (jumpWord push)]) := by
    rw [posAfter_snoc, hat'.index]; rfl
  have hlen := forall₂_length hcalls
  rw [hcmd] at hstep
  unfold jump at hstep
  rw [search_good (m := M.skip 2) hL hl hMm.1 hMl] at hstep
  have hgood : ∀ (calls : List Pending) (cs : List Call) (k : Nat),
      Links prog U C M.core.vars calls cs →
      Machine.step env M = .ok (landed M cs (posAfter (progCode (prog.take k)))) →
      Sim env prog U C L m (.run { cfg with calls, todo := ⟨[], none⟩, next := k }) := by
    intro calls cs k hc hs
    exact ⟨_, Goes.last r1 hs, Place.line k, Base.landed hMco hMm (hMf.trans hmf) hMl hMe hMh hMx hc⟩
  have hbad : ∀ (er : Nat) (x : Mach σ), er ≠ 0 → Machine.step env M = .ok x → x.core.error = er → x.frames = M.frames → x.core.vars = M.core.vars →
      x.core.mem = M.core.mem → x.core.smem = M.core.smem → x.core.ext = M.core.ext → x.core.arrNext = M.core.arrNext →
      x.core.arrMax = M.core.arrMax → x.core.varsErr = M.core.varsErr → Ends env U cfg.store cfg.world er m := by
    intro er x h0 hs he hf hv hme hsm hx hn hmx hve
    exact ⟨x, r1.trans (Reaches.one hs), ended_error (by rw [he]; exact h0), hf.trans hMf, he, hMh.closed hv hme hsm hn hmx, hx.trans hMx⟩
  cases push with
  | false =>
    simp only [Bool.false_eq_true, if_false] at hstep ⊢
    unfold Cfg.goto
    cases ht : target prog l with
    | some t =>
      rw [ht] at hstep
      simp only [Out.bind] at hstep
      have := hgood cfg.calls M.calls t hcalls (by rw [hstep]; rfl)
      exact this
    | none =>
      rw [ht] at hstep
      simp only [Out.bind] at hstep
      exact hbad 25 _ (by decide) hstep rfl rfl rfl rfl rfl rfl rfl rfl rfl
  | true =>
    simp only [if_true] at hstep ⊢
    unfold Cfg.gosub
    by_cases h255 : cfg.calls.length = 255
    · rw [if_pos h255]
      have hc : M.calls.length = 255 := by rw [← hlen]; exact h255
      cases ht : target prog l with
      | some t =>
        rw [ht] at hstep
        simp only [Out.bind] at hstep
        rw [if_pos (show (M.skip 2).calls.length = 255 from hc)] at hstep
        exact hbad 42 _ (by decide) hstep rfl rfl rfl rfl rfl rfl rfl rfl rfl
      | none =>
        rw [ht] at hstep
        simp only [Out.bind] at hstep
        rw [if_pos (show ((M.skip 2).fail eLabelNotFound).calls.length = 255 from hc)] at hstep
        exact hbad 42 _ (by decide) hstep rfl rfl rfl rfl rfl rfl rfl rfl rfl
    · rw [if_neg h255]
      have hc : M.calls.length ≠ 255 := by rw [← hlen]; exact h255
      unfold Cfg.goto
      dsimp only
      cases ht : target prog l with
      | some t =>
        rw [ht] at hstep
        simp only [Out.bind] at hstep
        rw [if_neg (show ¬ (M.skip 2).calls.length = 255 from hc)] at hstep
        refine hgood (.call cfg.todo cfg.next :: cfg.calls) (⟨true, M.exec.index + 2, .slot 0⟩ :: M.calls) t (.cons (.call _ _ _ _ ?_) hcalls) ?_
        · show Place prog U C cfg.todo cfg.next (M.exec.index + 2)
          rw [hidx]; exact hplace
        · rw [hstep]; rfl
      | none =>
        rw [ht] at hstep
        simp only [Out.bind] at hstep
        rw [if_neg (show ¬ ((M.skip 2).fail eLabelNotFound).calls.length = 255 from hc)] at hstep
        exact hbad 25 _ (by decide) hstep rfl rfl rfl rfl rfl rfl rfl rfl rfl

/-- GOTO and GOSUB. -/
theorem sim_jump (hL : KnowsLabels prog L) {cfg : Cfg σ} {m : Mach σ} {a b : List Instr} {k : Nat} {l : List Nat} (push : Bool) (hk : CmdOp k)
    (hl : Names.GoodName l) (hm : Base prog U C L cfg.calls cfg.data cfg.store cfg.world m)
    (hat : At m a ([.text bcLabelString l, .simple k (jumpWord push)] ++ b))
    (hplace : Place prog U C cfg.todo cfg.next (posAfter (a ++ [.text bcLabelString l, .simple k (jumpWord push)]))) :
    Sim env prog U C L m (if push then cfg.gosub prog l else cfg.goto prog l) := by
  have r1 := At.label (env := env) (b := [.simple k (jumpWord push)] ++ b) hat hm.argc (by rw [hm.stack]; simp)
  have hat' := At.after (m := m) (a := a) (e := [.text bcLabelString l]) (b := [.simple k (jumpWord push)] ++ b)
    (c := { m.core with stack := m.core.stack ++ [.str true l] }) hat hm.error
  refine sim_jumpTo hL push hk hl hat' r1 ?_ hm.frames rfl hm.labels hm.main hm.code hm.ext (hm.holds.congr rfl rfl rfl) hm.calls ?_
  · unfold cmdJumpM
    show (match (m.core.stack ++ [Entry.str true l])[0]? with | _ => _) = _
    rw [hm.stack]
    rfl
  · rw [show a ++ [Instr.text bcLabelString l] ++ [.simple k (jumpWord push)] = a ++ [.text bcLabelString l, .simple k (jumpWord push)] by simp]
    exact hplace

/-- ON. -/
theorem sim_on (hperf : Performs env W C) (hL : KnowsLabels prog L) {cfg : Cfg σ} {m : Mach σ} {a b : List Instr} {k : Nat} {e : E} {sub : Bool}
    {ls : List (List Nat)} (hk : CmdOp k) (hs : FitsS U C (.on e sub ls)) (hm : Base prog U C L cfg.calls cfg.data cfg.store cfg.world m)
    (hat : At m a ((S.on e sub ls).code k ++ b))
    (hplace : Place prog U C cfg.todo cfg.next (posAfter (a ++ (S.on e sub ls).code k))) :
    Sim env prog U C L m (S.exec W prog cfg (.on e sub ls)) := by
  obtain ⟨⟨⟨he, hel⟩, ⟨_, hll⟩, hls⟩, hv, _⟩ := hs
  have h1 : At m a (e.code ++ (.simple k cmdOn :: (ls.map (Instr.text bcLabelString) ++ (.simple bcCommand (jumpWord sub) :: b)))) :=
    hat.regroup rfl (by simp [S.code])
  have hcomp := computes_number (env := env) (K := W.look cfg.world) (U := U) (st := cfg.store) e he.toGood hv
  have hpush := hcomp m a _ h1 hm.argc (by rw [hm.stack, len_e]; simp only [List.length_nil]; omega) hm.holds (by rw [hm.ext]; exact hperf.sees _)
  show Sim env prog U C L m (Res.with' cfg (e.number (W.look cfg.world) cfg.store) _)
  cases hval : e.number (W.look cfg.world) cfg.store with
  | ub => trivial
  | err er =>
    rw [hval] at hpush
    have hpush : Ends env U cfg.store m.core.ext (errNum er) m := hpush
    rw [hm.ext] at hpush
    cases er <;> exact hpush
  | ok v =>
    rw [hval] at hpush
    obtain ⟨_, c1, ens, hr, hst', hs, hh, hg⟩ := hpush
    obtain ⟨en, rfl⟩ : ∃ en, ens = [en] := by
      cases hs with | cons h1 h2 => cases h2; exact ⟨_, rfl⟩
    obtain ⟨hn, hx⟩ := (by cases hs with | cons h1 h2 => exact h1 : Stands cfg.store c1 en (.num v)).number hh
    rw [hm.stack, List.nil_append] at hst'
    have herr : c1.error = 0 := hg.error.trans hm.error
    have h2 := h1.after herr
    have r2 : Reaches env (Machine.after m a e.code c1) (Machine.after (Machine.after m a e.code c1) (a ++ e.code) [.simple k cmdOn] c1) := by
      rcases hk with rfl | rfl
      · exact At.simple h2 (by decide) c1 hm.argc rfl
      · exact At.simple h2 (by decide) c1 hm.argc rfl
    rw [after_after] at r2
    have h3 : At (Machine.after m a (e.code ++ [.simple k cmdOn]) c1) (a ++ (e.code ++ [.simple k cmdOn]))
        (ls.map (Instr.text bcLabelString) ++ (.simple bcCommand (jumpWord sub) :: b)) :=
      At.after (h1.regroup rfl (by simp)) herr
    have r3 := push_labels (env := env) ls _ _ _ h3 hm.argc (by show c1.stack.length + _ ≤ 100; rw [hst']; simp only [List.length_singleton]; omega)
    have h4 := h3.after (c := { c1 with stack := c1.stack ++ ls.map (Entry.str true) }) herr
    have reach := (hr.trans r2).trans r3
    rw [after_after] at reach
    rw [after_after] at h4
    change At (Machine.after m a (e.code ++ [.simple k cmdOn] ++ ls.map (Instr.text bcLabelString))
      { c1 with stack := c1.stack ++ ls.map (Entry.str true) }) _ _ at h4
    change Reaches env m (Machine.after m a (e.code ++ [.simple k cmdOn] ++ ls.map (Instr.text bcLabelString))
      { c1 with stack := c1.stack ++ ls.map (Entry.str true) }) at reach
    generalize hM : Machine.after m a (e.code ++ [.simple k cmdOn] ++ ls.map (Instr.text bcLabelString))
      { c1 with stack := c1.stack ++ ls.map (Entry.str true) } = M at h4 reach
    have hMs : M.core.stack = en :: ls.map (Entry.str true) := by
      rw [← hM]; show c1.stack ++ _ = _; rw [hst']; rfl
    have hMn : M.core.num en = .ok v := by rw [← hM]; exact (core_num_stack _ _ _).trans hx
    have hMf : M.frames = m.frames := by rw [← hM]; rfl
    have hMl : M.labels = L := by rw [← hM]; exact hm.labels
    have hMm : Reading prog cfg.data M.exec := by rw [← hM]; exact hm.main
    have hMco : M.exec.code = encode (progCode prog) := by rw [← hM]; exact hm.code
    have hMx : M.core.ext = cfg.world := by rw [← hM]; exact hg.ext.trans hm.ext
    have hMh : Holds U cfg.store M.core := by rw [← hM]; exact hh.congr rfl rfl rfl
    have hMcalls : Links prog U C M.core.vars cfg.calls M.calls := by
      rw [← hM]
      show Links prog U C c1.vars cfg.calls m.calls
      exact hm.calls.grow hg
    have e4 : a ++ (e.code ++ [.simple k cmdOn]) ++ ls.map (Instr.text bcLabelString) ++ [.simple bcCommand (jumpWord sub)] = a ++ (S.on e sub ls).code k := by
      simp [S.code]
    have hcmd : cmdJumpM sub (M.skip 2) = if v / 4096 < 0 ∨ v / 4096 + 1 ≥ ((ls.length + 1 : Nat) : Int) then .ok (M.skip 2)
        else match (en :: ls.map (Entry.str true))[(v / 4096).toNat + 1]? with
          | some (.sep _) => .ok ((M.skip 2).fail eSyntax)
          | some (.str l s) => jump sub (M.skip 2) l s
          | _ => .ub := by
      unfold cmdJumpM
      rw [show (M.skip 2).core = M.core from rfl, hMs]
      simp only [List.getElem?_cons_zero, hn, if_true, hMn, Out.bind, fpToInt, List.length_cons, List.length_map]
      rfl
    have hstay : v / 4096 < 0 ∨ (ls.length : Int) ≤ v / 4096 → Sim env prog U C L m (.run cfg) := by
      intro hr
      have hstep := step_jump (env := env) (push := sub) (by simp [isCmd, jumpWord]) h4
      rw [hcmd, if_pos (by omega)] at hstep
      refine ⟨_, Goes.last reach hstep, ?_, Base.landed (m := M) (cs := M.calls) (i := M.exec.index + 2) hMco hMm (hMf.trans hm.frames) hMl h4.error hMh hMx hMcalls⟩
      show Place prog U C cfg.todo cfg.next (M.exec.index + 2)
      have : M.exec.index + 2 = posAfter (a ++ (S.on e sub ls).code k) := by
        rw [← e4, posAfter_snoc, h4.index]; rfl
      rw [this]; exact hplace
    show Sim env prog U C L m (if v < 0 then .run cfg else match ls[(v / 4096).toNat]? with
      | none => .run cfg
      | some l => if sub then cfg.gosub prog l else cfg.goto prog l)
    by_cases hneg : v < 0
    · rw [if_pos hneg]; exact hstay (Or.inl (by omega))
    · rw [if_neg hneg]
      cases hl : ls[(v / 4096).toNat]? with
      | none =>
        have : ls.length ≤ (v / 4096).toNat := List.getElem?_eq_none_iff.mp hl
        exact hstay (Or.inr (by omega))
      | some l =>
        have hlt : (v / 4096).toNat < ls.length := by
          by_contra hc
          rw [List.getElem?_eq_none (by omega)] at hl; cases hl
        refine sim_jumpTo hL sub (Or.inl rfl) (hls l (List.mem_of_getElem? hl)) h4 reach ?_ hm.frames hMf hMl hMm hMco hMx hMh hMcalls ?_
        · rw [hcmd, if_neg (by omega), List.getElem?_cons_succ, List.getElem?_map, hl]
          rfl
        · rw [e4]; exact hplace

theorem Links.dropLoops {T : Vars.Table} {ps : List Pending} {cs : List Call} (h : Links prog U C T ps cs) {t : Todo} {n : Nat} {r : List Pending}
    (hd : ps.dropWhile Pending.isLoop = .call t n :: r) :
    Links prog U C T (.call t n :: r) (cs.dropWhile fun c => !c.gosub) := by
  unfold Links at h ⊢
  induction h with
  | nil => cases hd
  | cons h1 h2 ih =>
    cases h1 with
    | outer c => cases hd
    | call t n addr v hp => cases hd; exact .cons (.call t n addr v hp) h2
    | loop w b s t n i a r h1 h2 h3 h4 h5 h6 h7 => exact ih hd

/-- RETURN. -/
theorem sim_return {cfg : Cfg σ} {m : Mach σ} {a b : List Instr} {k : Nat} (hk : CmdOp k)
    (hm : Base prog U C L cfg.calls cfg.data cfg.store cfg.world m) (hat : At m a (.simple k cmdReturn :: b)) :
    Sim env prog U C L m (S.exec W prog cfg .ret) := by
  have hstep := step_cmd (env := env) hk (show cmdReturn < 110 by decide) (by decide) hat
  rw [show execCmd env cmdReturn (m.skip 2) = cmdReturnM (m.skip 2) from rfl] at hstep
  have hcalls := hm.calls
  unfold cmdReturnM at hstep
  rw [show (m.skip 2).calls = m.calls from rfl] at hstep
  unfold S.exec
  cases hc : cfg.calls with
  | nil =>
    rw [hc] at hcalls
    have hmc : m.calls = [] := by cases h : m.calls with
      | nil => rfl
      | cons x y => rw [h] at hcalls; cases hcalls
    rw [hmc, if_pos rfl] at hstep
    exact ⟨_, Reaches.one hstep, ended_error (show eReturnWithoutGosub ≠ 0 by decide), rfl, rfl, hm.holds.closed, hm.ext⟩
  | cons x r =>
    rw [hc] at hcalls
    have hmne : m.calls ≠ [] := by
      intro h; rw [h] at hcalls; cases hcalls
    rw [if_neg hmne] at hstep
    rw [if_neg (by simp)]
    cases hdrop : (x :: r).dropWhile Pending.isLoop with
    | nil => trivial
    | cons y ys =>
      cases y with
      | loop => trivial
      | outer => trivial
      | call t n =>
        have hd := hcalls.dropLoops hdrop
        generalize hcs : m.calls.dropWhile (fun c => !c.gosub) = cs at hd hstep
        obtain @⟨_, _⟩ | @⟨_, c0, _, cs, h1, h2⟩ := hd
        obtain ⟨_, _, addr, v, hpl⟩ := h1
        simp only [Out.bind] at hstep
        refine ⟨_, Goes.last (Reaches.refl m) hstep, hpl, ?_⟩
        exact Base.landed (m := m) (i := addr) hm.code hm.main hm.frames hm.labels hm.error hm.holds hm.ext h2

/-- END. -/
theorem sim_end {cfg : Cfg σ} {m : Mach σ} {a b : List Instr} {k : Nat} (hk : CmdOp k)
    (hm : Base prog U C L cfg.calls cfg.data cfg.store cfg.world m) (hat : At m a (.simple k cmdEnd :: b)) :
    Ends env U cfg.store cfg.world 0 m := by
  have hstep := step_cmd (env := env) hk (show cmdEnd < 110 by decide) (by decide) hat
  rw [show execCmd env cmdEnd (m.skip 2) = .ok { m.skip 2 with exec := { (m.skip 2).exec with index := (m.skip 2).exec.code.length } } from rfl] at hstep
  simp only [Out.bind] at hstep
  refine ⟨_, Reaches.one hstep, ?_, rfl, hm.error, hm.holds.closed, hm.ext⟩
  unfold Mach.ended
  simp [Mach.skip]

/-- STOP is the error 53. -/
theorem sim_stop {cfg : Cfg σ} {m : Mach σ} {a b : List Instr} {k : Nat} (hk : CmdOp k)
    (hm : Base prog U C L cfg.calls cfg.data cfg.store cfg.world m) (hat : At m a (.simple k cmdStop :: b)) :
    Ends env U cfg.store cfg.world 53 m := by
  have hstep := step_cmd (env := env) hk (show cmdStop < 110 by decide) (by decide) hat
  rw [show execCmd env cmdStop (m.skip 2) = .ok ((m.skip 2).fail eBreak) from rfl] at hstep
  simp only [Out.bind] at hstep
  exact ⟨_, Reaches.one hstep, ended_error (show eBreak ≠ 0 by decide), rfl, rfl, Holds.closed (c := m.core) hm.holds, hm.ext⟩

/-- A variable of either kind. -/
theorem push_any {st : Store} {m : Mach σ} {a b : List Instr} {w : List Nat} (h : At m a (nameInstr w :: b))
    (hargc : m.exec.argc = 0) (hs : m.core.stack.length < 100) (hw : VarName w ∨ StrName w) (hU : w ∈ U) (hh : Holds U st m.core) :
    ∃ c' i, Reaches env m (Machine.after m a [nameInstr w] c') ∧ c'.stack = m.core.stack ++ [.var (decide (w.getLast? = some 36)) false (.slot i)] ∧ Holds U st c' ∧
      Grow m.core c' ∧ i < c'.vars.max ∧ Vars.HasKey c'.vars i (keyOf w) := by
  rcases hw with hw | hw
  · rw [keyOf_num hw.2.1 hw.1.2.2, decide_eq_false hw.2.1]
    exact push_name h hargc hs hw hU hh
  · rw [keyOf_str hw.1, decide_eq_true hw.1]
    exact push_strName h hargc hs hw hU hh

/-- Assignments. -/
theorem sim_assign (hperf : Performs env W C) {cfg : Cfg σ} {m : Mach σ} {a b : List Instr} {k : Nat} {w : List Nat} {e : E} (hs : FitsS U C (.assign w e))
    (hm : Base prog U C L cfg.calls cfg.data cfg.store cfg.world m) (hat : At m a ((S.assign w e).code k ++ b))
    (hplace : Place prog U C cfg.todo cfg.next (posAfter (a ++ (S.assign w e).code k))) :
    Sim env prog U C L m (S.exec W prog cfg (.assign w e)) := by
  obtain ⟨hwf, hv, _⟩ := hs
  have hw := assign_name hwf
  have he := assign_good hwf
  have hlen := hwf.2
  have hcode : (S.assign w e).code k = [nameInstr w] ++ (e.code ++ [.simple bcOperator opAssign]) := rfl
  rw [hcode] at hat hplace
  rw [List.append_assoc] at hat
  obtain ⟨c1, i, r1, hst1, hh1, hg1, hi, hkey⟩ := push_any (env := env) (b := e.code ++ [.simple bcOperator opAssign] ++ b) hat hm.argc
    (by rw [hm.stack]; simp) hw (hv w (by simp [S.vars])) hm.holds
  rw [hm.stack, List.nil_append] at hst1
  have err1 : c1.error = 0 := hg1.error.trans hm.error
  have hat1 := hat.after err1
  rw [List.append_assoc] at hat1
  have hcomp := computes_e (env := env) (K := W.look cfg.world) (U := U) (st := cfg.store) e he.tree he.leaves (fun x hx => hv x (by simp [S.vars, hx]))
  have hp := hcomp (Machine.after m a [nameInstr w] c1) _ _ hat1 hm.argc (by
    show c1.stack.length + _ ≤ _
    rw [hst1, len_e]; simp only [List.length_singleton]; omega) hh1 (by
    show Sees env _ c1.ext
    rw [hg1.ext, hm.ext]; exact hperf.sees _)
  show Sim env prog U C L m (Res.with' cfg (e.value (W.look cfg.world) cfg.store) fun v => cfg.assign w v)
  cases hv : e.value (W.look cfg.world) cfg.store with
  | ub => trivial
  | err er =>
    rw [hv] at hp
    have hp : Ends env U cfg.store c1.ext (errNum er) (Machine.after m a [nameInstr w] c1) := hp
    rw [hg1.ext, hm.ext] at hp
    have hp := Ends.after' r1 rfl hp
    cases er <;> exact hp
  | ok v =>
    rw [hv] at hp
    obtain ⟨_, c2, ens, r2, hst2, hs2, hh2, hg2⟩ := hp
    have hg2 : Grow c1 c2 := hg2
    have hst2 : c2.stack = c1.stack ++ ens := hst2
    obtain ⟨en, rfl⟩ : ∃ en, ens = [en] := by
      cases hs2 with | cons h1 h2 => cases h2; exact ⟨_, rfl⟩
    have hstand : Stands cfg.store c2 en v := by cases hs2 with | cons h1 h2 => exact h1
    rw [hst1] at hst2
    have err2 : c2.error = 0 := hg2.error.trans err1
    have hat2 := hat1.after err2
    rw [after_after] at hat2 r2
    have hi2 : i < c2.vars.max := by rw [hg2.max]; exact hi
    have hk2 := hg2.keys i hi _ hkey
    have finish : ∀ (c3 : Core σ) (st' : Store), execOp env opAssign 0 c2 = .ok c3 → c3.stack = [] → c3.vars = c2.vars → c3.error = 0 → c3.ext = c2.ext →
        Holds U st' c3 → Sim env prog U C L m (.run { cfg with store := st' }) := by
      intro c3 st' hcore h1 h2 h3 h4 h5
      have r3 := At.simple (env := env) hat2 (by decide) c3 hm.argc (by
        rw [exec_op]
        refine congrArg _ ?_
        show execOp env opAssign m.exec.argc c2 = _
        rw [hm.argc, hcore])
      rw [List.append_assoc, after_after] at r3
      have hr := (r1.trans r2).trans r3
      obtain ⟨n, hn'⟩ := hr
      refine ⟨_, ⟨n, ?_, hn'⟩, ?_, ?_⟩
      · rcases Nat.eq_zero_or_pos n with h0 | h0
        · exfalso
          subst h0
          have e1 : m = _ := Out.ok.inj hn'
          have e2 := congrArg (fun x : Mach σ => x.exec.index) e1
          have e3 : m.exec.index = posAfter (a ++ ([nameInstr w] ++ e.code ++ [.simple bcOperator opAssign])) := e2
          rw [hat.index, ← List.append_assoc, posAfter_snoc, posAfter_append] at e3
          omega
        · exact h0
      · show Place prog U C cfg.todo cfg.next (posAfter (a ++ ([nameInstr w] ++ e.code ++ [.simple bcOperator opAssign])))
        rw [List.append_assoc [nameInstr w]]
        exact hplace
      · exact { code := hm.code, main := hm.main, argc := hm.argc, frames := hm.frames,
                calls := (show Links prog U C c3.vars cfg.calls m.calls from h2 ▸ (hm.calls.grow hg1).grow hg2), labels := hm.labels, error := h3,
                stack := h1, holds := h5, ext := h4.trans (hg2.ext.trans (hg1.ext.trans hm.ext)) }
    show Sim env prog U C L m (cfg.assign w v)
    cases v with
    | sep o => trivial
    | num v =>
      show Sim env prog U C L m (if w.getLast? = some 36 then .undefined else .run (cfg.set w v))
      by_cases hd : w.getLast? = some 36
      · rw [if_pos hd]; trivial
      · rw [if_neg hd]
        rw [decide_eq_false hd] at hst2
        rw [keyOf_num hd (hw.elim (fun h => h.1.2.2) fun h => absurd h.1 hd)] at hk2
        obtain ⟨hn, hx⟩ := hstand.number hh2
        exact finish { c2.store (.slot i) v with stack := [] } _ (execOp_assign (rest := []) hst2 hn hx) rfl rfl err2 rfl
          ((hh2.assign hi2 hk2 v).stack [])
    | str s =>
      show Sim env prog U C L m (if w.getLast? = some 36 then .run { cfg with store := cfg.store.setStr w s } else .undefined)
      by_cases hd : w.getLast? = some 36
      · rw [if_pos hd]
        rw [decide_eq_true hd] at hst2
        rw [keyOf_str hd] at hk2
        have hh3 := (hh2.assignStr hi2 hk2 s).stack []
        rw [dollar hd] at hh3
        refine finish { c2.storeStr (.slot i) s with stack := [] } _ ?_ rfl rfl err2 rfl hh3
        rw [op_assignStr (rest := []) hst2]
        exact hperf.assign c2 [] (.slot i) en s err2 hst2 (hstand.val hh2)
      · rw [if_neg hd]; trivial

end Sbc.Source
