import Verif.Proof.SourceBase
import Verif.Proof.SourceSkip
import Verif.Proof.Loop
set_option autoImplicit false
/-!
# FOR and NEXT of source programs in the machine
-/
namespace Sbc.Source
open Sbc Sbc.Tok Sbc.Tok.Spec Sbc.Machine

variable {σ : Type} {env : Env σ}
variable {K : Look} {prog : List Line} {U : List (List Nat)} {C : Nat → Prop} {L : Labels.Table} {W : World σ}

/-! ## The code of expressions -/

theorem posAfter_one (i : Instr) : posAfter [i] = 2 + (tail i).length := by
  have := posAfter_snoc [] i
  rw [List.nil_append] at this
  rw [this]
  show 0 + 2 + _ = _
  omega

theorem size_num (v : Int) : posAfter [numInstr v] ≤ 6 := by
  rw [posAfter_one]
  unfold numInstr
  split
  · show 2 + 0 ≤ 6; omega
  · show 2 + 4 ≤ 6; omega

theorem size_name (w : List Nat) : posAfter [nameInstr w] ≤ w.length + 3 := by
  rw [posAfter_one]
  match w with
  | [] => show 2 + (padText []).length ≤ _; rw [Machine.padText_length]; simp
  | [c] => show 2 + 0 ≤ _; omega
  | x :: y :: r => show 2 + (padText (x :: y :: r)).length ≤ _; rw [Machine.padText_length]; omega

theorem size_e (e : E) : posAfter e.code ≤ e.bytes := by
  induction e with
  | num w => exact size_num _
  | str w =>
    show posAfter [_] ≤ w.length + 3
    rw [posAfter_one]
    show 2 + (padText w).length ≤ _
    rw [Machine.padText_length]; omega
  | var w => exact size_name w
  | paren e ih => exact ih
  | un op e ih =>
    show posAfter (e.code ++ [_]) ≤ e.bytes + 2
    rw [posAfter_append, posAfter_one]
    show _ + (2 + 0) ≤ _
    omega
  | bin op l r ihl ihr =>
    show posAfter (l.code ++ (r.code ++ [_])) ≤ l.bytes + r.bytes + 2
    rw [posAfter_append, posAfter_append, posAfter_one]
    show _ + (_ + (2 + 0)) ≤ _
    omega
  | sys v => exact Nat.le_refl 2
  | fn0 f => exact Nat.le_refl 4
  | fn1 f x ih =>
    show posAfter (x.code ++ [_, _]) ≤ x.bytes + 4
    rw [posAfter_append]
    show _ + 4 ≤ _
    omega
  | fn2 f x y ihx ihy =>
    show posAfter ((x.code ++ y.code) ++ [_, _]) ≤ x.bytes + y.bytes + 4
    rw [posAfter_append, posAfter_append]
    show _ + _ + 4 ≤ _
    omega
  | fn3 f x y z ihx ihy ihz =>
    show posAfter ((x.code ++ (y.code ++ z.code)) ++ [_, _]) ≤ x.bytes + y.bytes + z.bytes + 4
    rw [posAfter_append, posAfter_append, posAfter_append]
    show _ + (_ + _) + 4 ≤ _
    omega
  | arr1 sq w x ih =>
    have hn := size_name w
    show posAfter (x.code ++ ([.simple bcArgcount 1] ++ [nameInstr w])) ≤ x.bytes + (w.length + 5)
    rw [posAfter_append, posAfter_append, posAfter_one]
    show _ + (2 + 0 + _) ≤ _
    omega
  | arr2 sq w x y ihx ihy =>
    have hn := size_name w
    show posAfter ((x.code ++ y.code) ++ ([.simple bcArgcount 2] ++ [nameInstr w])) ≤ x.bytes + y.bytes + (w.length + 5)
    rw [posAfter_append, posAfter_append, posAfter_append, posAfter_one]
    show _ + _ + (2 + 0 + _) ≤ _
    omega

theorem size_ctl (b : E) (s : Option E) : posAfter (ctlCode b s) ≤ b.bytes + 2 + stepBytes s := by
  unfold ctlCode
  rw [posAfter_append, show Instr.simple bcCommand cmdTo :: stepCode s = [.simple bcCommand cmdTo] ++ stepCode s from rfl, posAfter_append, posAfter_one]
  have h1 := size_e b
  cases s with
  | none => show _ + (2 + 0 + 0) ≤ b.bytes + 2 + 0; omega
  | some e =>
    show _ + (2 + 0 + posAfter (e.code ++ [_])) ≤ b.bytes + 2 + (e.bytes + 2)
    rw [posAfter_append, posAfter_one]
    have h2 := size_e e
    show _ + (2 + 0 + (_ + (2 + 0))) ≤ _
    omega

theorem noAssign_call (n f : Nat) : Instr.simple bcOperator opAssign ∉ [.simple bcArgcount n, .simple bcFunction f] := by
  intro h
  rcases List.mem_cons.mp h with h | h
  · exact absurd (Instr.simple.inj h).1 (by decide)
  · exact absurd (Instr.simple.inj (List.mem_singleton.mp h)).1 (by decide)

theorem noAssign_name (n : Nat) (w : List Nat) : Instr.simple bcOperator opAssign ∉ [.simple bcArgcount n, nameInstr w] := by
  intro h
  rcases List.mem_cons.mp h with h | h
  · exact absurd (Instr.simple.inj h).1 (by decide)
  · have h := List.mem_singleton.mp h
    match w with
    | [] => cases h
    | [c] => exact absurd (Instr.simple.inj h).1 (by decide)
    | x :: y :: r => cases h

theorem noAssign_e (e : E) (hw : e.tree.WF) (hl : e.Leaves) : Instr.simple bcOperator opAssign ∉ e.code := by
  induction e with
  | num w =>
    intro h
    have h := List.mem_singleton.mp h
    unfold numInstr at h
    split at h
    · exact absurd (Instr.simple.inj h).1 (by decide)
    · cases h
  | str w =>
    intro h
    cases List.mem_singleton.mp h
  | var w =>
    intro h
    have h := List.mem_singleton.mp h
    match w with
    | [] => cases h
    | [c] => exact absurd (Instr.simple.inj h).1 (by decide)
    | x :: y :: r => cases h
  | paren e ih => exact ih hw hl
  | un op e ih =>
    intro h
    rcases List.mem_append.mp h with h | h
    · exact ih hw.2.2 hl h
    · have := (Instr.simple.inj (List.mem_singleton.mp h)).2
      have h1 : unary op = true := hw.1
      rw [← this] at h1
      exact absurd h1 (by decide)
  | bin op l r ihl ihr =>
    obtain ⟨k, hop, _, _, hwl⟩ := hw
    intro h
    rcases List.mem_append.mp h with h | h
    · exact ihl hwl.1 hl.1 h
    · rcases List.mem_append.mp h with h | h
      · exact ihr hwl.2 hl.2 h
      · have := (Instr.simple.inj (List.mem_singleton.mp h)).2
        rw [← this] at hop
        rw [show prec opAssign = none by decide] at hop
        cases hop
  | sys v =>
    intro h
    exact absurd (Instr.simple.inj (List.mem_singleton.mp h)).1 (by decide)
  | fn0 f => exact noAssign_call 0 f
  | fn1 f x ih =>
    intro h
    rcases List.mem_append.mp h with h | h
    · exact ih hw.2 hl.2 h
    · exact noAssign_call 1 f h
  | fn2 f x y ihx ihy =>
    intro h
    rcases List.mem_append.mp h with h | h
    · rcases List.mem_append.mp h with h | h
      · exact ihx hw.2.1 hl.2.1 h
      · exact ihy hw.2.2 hl.2.2 h
    · exact noAssign_call 2 f h
  | fn3 f x y z ihx ihy ihz =>
    intro h
    rcases List.mem_append.mp h with h | h
    · rcases List.mem_append.mp h with h | h
      · exact ihx hw.2.1 hl.2.1 h
      · rcases List.mem_append.mp h with h | h
        · exact ihy hw.2.2.1 hl.2.2.1 h
        · exact ihz hw.2.2.2 hl.2.2.2 h
    · exact noAssign_call 3 f h
  | arr1 sq w x ih =>
    intro h
    rcases List.mem_append.mp h with h | h
    · exact ih hw.2 hl.2 h
    · exact noAssign_name 1 w h
  | arr2 sq w x y ihx ihy =>
    intro h
    rcases List.mem_append.mp h with h | h
    · rcases List.mem_append.mp h with h | h
      · exact ihx hw.2.1 hl.2.1 h
      · exact ihy hw.2.2 hl.2.2 h
    · exact noAssign_name 2 w h

theorem noBegin_ctl {b : E} {s : Option E} (h : CtlOk U b s) : ∀ i ∈ ctlCode b s, i.op ≠ bcBeginLoop := by
  intro i hi
  rcases List.mem_append.mp hi with hi | hi
  · exact (inert_e b h.limit.1.leaves i hi).2.2.2.2
  · rcases List.mem_cons.mp hi with rfl | hi
    · show bcCommand ≠ bcBeginLoop
      decide
    · cases s with
      | none => cases hi
      | some e =>
        rcases List.mem_append.mp hi with hi | hi
        · exact (inert_e e (h.step e rfl).1.leaves i hi).2.2.2.2
        · rw [List.mem_singleton.mp hi]
          show bcCommand ≠ bcBeginLoop
          decide

/-! ## Limit and step -/

/-- The values of limit and step on the stack. -/
def ctlVals (K : Look) (st : Store) (b : E) (s : Option E) : Out (List Val) :=
  (b.number K st).bind fun y => match s with
    | none => .ok [.num y]
    | some e => (e.number K st).bind fun d => .ok [.num y, .num d]

theorem Computes.noop {st : Store} {d : Nat} (hd : d = cmdTo ∨ d = cmdStep) :
    Computes env K U st [.simple bcCommand d] (.ok []) := by
  intro m a b h hargc hl hh hK
  exact ⟨Nat.zero_le _, m.core, [], to_step hd h hargc, by simp, .nil, hh, Grow.refl _⟩

theorem computes_ctl {st : Store} {b : E} {s : Option E} (h : CtlOk U b s) :
    Computes env K U st (ctlCode b s) (ctlVals K st b s) := by
  have h1 := computes_number (env := env) (K := K) (st := st) b h.limit.1.toGood h.limit.2.2
  have h2 := Computes.noop (env := env) (K := K) (U := U) (st := st) (d := cmdTo) (Or.inl rfl)
  unfold ctlVals
  cases s with
  | none =>
    have := h1.append h2
    show Computes env K U st (b.code ++ [.simple bcCommand cmdTo]) _
    cases hb  : b.number K st with
    | ok y => rw [hb] at this; exact this
    | err er => rw [hb] at this; exact this
    | ub => rw [hb] at this; exact this
  | some e =>
    obtain ⟨he, _, hu⟩ := h.step e rfl
    have h3 := computes_number (env := env) (K := K) (st := st) e he.toGood hu
    have h4 := Computes.noop (env := env) (K := K) (U := U) (st := st) (d := cmdStep) (Or.inr rfl)
    have := h1.append (h2.append (h3.append h4))
    show Computes env K U st (b.code ++ (.simple bcCommand cmdTo :: (e.code ++ [.simple bcCommand cmdStep]))) _
    cases hb  : b.number K st with
    | ok y =>
      rw [hb] at this
      show Computes env K U st _ ((e.number K st).bind fun d => .ok [.num y, .num d])
      cases hd : e.number K st with
      | ok d => rw [hd] at this; exact this
      | err er => rw [hd] at this; exact this
      | ub => rw [hd] at this; exact this
    | err er => rw [hb] at this; exact this
    | ub => rw [hb] at this; exact this

theorem len_ctl {b : E} {s : Option E} (h : CtlOk U b s) : (ctlCode b s).length ≤ 100 := by
  unfold ctlCode
  have h1 := h.limit.2.1
  cases s with
  | none => simp [stepCode, len_e]; omega
  | some e =>
    have h2 := (h.step e rfl).2.1
    simp [stepCode, len_e]; omega

/-- Limit and step with the values `y` and `d` are on the stack. -/
structure Ctl (U : List (List Nat)) (st : Store) (c c' : Core σ) (y d : Int) : Prop where
  holds : Holds U st c'
  grow : Grow c c'
  limit : c'.argNum 0 = .ok y
  step : (c'.stack.length = 1 ∧ d = 4096) ∨ (c'.stack.length = 2 ∧ c'.argNum 1 = .ok d)

theorem ctl_ok {st : Store} {b : E} {s : Option E} (h : CtlOk U b s) {y d : Int} (hb  : b.number K st = .ok y) (hd : stepValue K st s = .ok d)
    {m : Mach σ} {a r : List Instr} (hat : At m a (ctlCode b s ++ r)) (hargc : m.exec.argc = 0) (hst : m.core.stack = []) (hh : Holds U st m.core) (hK : Sees env K m.core.ext) :
    ∃ c', Reaches env m (Machine.after m a (ctlCode b s) c') ∧ Ctl U st m.core c' y d := by
  have hp := computes_ctl (env := env) (K := K) (st := st) h m a r hat hargc (by rw [hst]; have := len_ctl h; simp only [List.length_nil]; omega) hh hK
  unfold ctlVals at hp
  rw [hb] at hp
  cases s with
  | none =>
    obtain ⟨_, c', ens, hr, hs, hv, hh', hg⟩ := hp
    have hv : List.Forall₂ (Stands st c') ens [.num y] := hv
    obtain ⟨e1, rfl, s1⟩ : ∃ e1, ens = [e1] ∧ Stands st c' e1 (.num y) := by
      cases hv with | cons h1 h2 => cases h2; exact ⟨_, rfl, h1⟩
    rw [hst, List.nil_append] at hs
    refine ⟨c', hr, hh', hg, ?_, Or.inl ⟨by rw [hs]; rfl, (Out.ok.inj hd).symm⟩⟩
    unfold Core.argNum
    rw [hs]
    exact (s1.number hh').2
  | some e =>
    have hd : e.number K st = .ok d := hd
    dsimp only [Out.bind] at hp
    rw [hd] at hp
    obtain ⟨_, c', ens, hr, hs, hv, hh', hg⟩ := hp
    have hv : List.Forall₂ (Stands st c') ens [.num y, .num d] := hv
    obtain ⟨e1, e2, rfl, s1, s2⟩ : ∃ e1 e2, ens = [e1, e2] ∧ Stands st c' e1 (.num y) ∧ Stands st c' e2 (.num d) := by
      cases hv with
      | cons h1 h2 => cases h2 with
        | cons h3 h4 => cases h4; exact ⟨_, _, rfl, h1, h3⟩
    rw [hst, List.nil_append] at hs
    refine ⟨c', hr, hh', hg, ?_, Or.inr ⟨by rw [hs]; rfl, ?_⟩⟩
    · unfold Core.argNum
      rw [hs]
      exact (s1.number hh').2
    · unfold Core.argNum
      rw [hs]
      exact (s2.number hh').2

/-! ## The beginning of a round -/

/-- The machine does what the outcome says, possibly without a step. -/
def Sim' (env : Env σ) (prog : List Line) (U : List (List Nat)) (C : Nat → Prop) (L : Labels.Table) (m : Mach σ) : Res σ → Prop
  | .run c => ∃ m', Reaches env m m' ∧ Match prog U C L c m'
  | .done er st w => Ends env U st w er m
  | .undefined => True

theorem Sim'.sim {m m' : Mach σ} {r : Res σ} (hg : Goes env m m') (hf : m'.frames = m.frames) (h : Sim' env prog U C L m' r) : Sim env prog U C L m r := by
  cases r with
  | run c => obtain ⟨x, h1, h2⟩ := h; exact ⟨x, hg.then h1, h2⟩
  | done er st w => exact Ends.after' hg.reaches hf h
  | undefined => trivial

/-- A loop that does not run. -/
def roundSkip (prog : List Line) (cfg : Cfg σ) (w : List Nat) : Res σ :=
  match cfg.nextOf prog w with
  | .at t n => .run { cfg with todo := t, next := n }
  | .missing => .done 34 cfg.store cfg.world
  | .unknown => .undefined

/-- Each instruction has a byte at least. -/
theorem encode_length_le (r : List Instr) : r.length ≤ (encode r).length := by
  induction r with
  | nil => simp
  | cons i r ih =>
    obtain ⟨x, y, hb⟩ := bytes_two i
    rw [encode_cons, List.length_append, hb]
    simp only [List.length_cons]
    omega

/-- Limit and step are computed and the body is entered. -/
theorem round_sim (hperf : Performs env W C) {cfg : Cfg σ} {m : Mach σ} {w : List Nat} {b : E} {s : Option E} {t : Todo} {n i : Nat} {a r : List Instr} {rest : List Pending} {cs : List Call}
    (hcfg : cfg.calls = .loop w b s t n :: rest) (ht : cfg.todo = t) (hn : cfg.next = n)
    (hm : Base prog U C L cfg.calls cfg.data cfg.store cfg.world m) (hcalls : m.calls = ⟨false, posAfter (ctlCode b s) * 16777216 + posAfter a, .slot i⟩ :: cs)
    (hok : CtlOk U b s) (hi : i < m.core.vars.max) (hkey : Vars.HasKey m.core.vars i (w, .num))
    (hp : progCode prog = a ++ (ctlCode b s ++ .simple bcBeginLoop 0 :: r))
    (hbody : Body prog U C t n (a ++ (ctlCode b s ++ [.simple bcBeginLoop 0]))) (hidx : m.exec.index = posAfter a) (hw : VarName w) (hwU : w ∈ U)
    (hprog : FitsProg U C prog) :
    Sim' env prog U C L m (cfg.round W prog w b s) := by
  have hplace := hbody.place
  have hat := hm.at hp hidx
  have hpush := computes_ctl (env := env) (K := W.look cfg.world) (st := cfg.store) hok m a _ hat hm.argc (by
    rw [hm.stack]; have := len_ctl hok; simp only [List.length_nil]; omega) hm.holds (by rw [hm.ext]; exact hperf.sees _)
  unfold Cfg.round
  unfold ctlVals at hpush
  cases hb : b.number (W.look cfg.world) cfg.store with
  | ub => trivial
  | err er =>
    rw [hb] at hpush
    have hpush : Ends env U cfg.store m.core.ext (errNum er) m := hpush
    rw [hm.ext] at hpush
    cases er <;> exact hpush
  | ok y =>
    rw [hb] at hpush
    show Sim' env prog U C L m (Res.with' cfg (stepValue (W.look cfg.world) cfg.store s) fun d => if Past d (cfg.store.num w) y then roundSkip prog cfg w else .run cfg)
    cases hd : stepValue (W.look cfg.world) cfg.store s with
    | ub => trivial
    | err er =>
      cases s with
      | none => cases hd
      | some e =>
        have hd : e.number (W.look cfg.world) cfg.store = .err er := hd
        dsimp only [Out.bind] at hpush
        rw [hd] at hpush
        have hpush : Ends env U cfg.store m.core.ext (errNum er) m := hpush
        rw [hm.ext] at hpush
        cases er <;> exact hpush
    | ok d =>
      show Sim' env prog U C L m (if Past d (cfg.store.num w) y then roundSkip prog cfg w else .run cfg)
      obtain ⟨c', hr, hc⟩ := ctl_ok (env := env) hok hb hd hat hm.argc hm.stack hm.holds (by rw [hm.ext]; exact hperf.sees _)
      have herr : c'.error = 0 := hc.grow.error.trans hm.error
      have hat1 := hat.after herr
      have hi' : i < c'.vars.max := by rw [hc.grow.max]; exact hi
      have hkey' := hc.grow.keys i hi _ hkey
      have hval : c'.mem (.slot i) = cfg.store.num w := hc.holds.value w i hi' hkey'
      by_cases hpast : Past d (cfg.store.num w) y
      · rw [if_pos hpast]
        have hwf := wf_prog fun l hl => (hprog l hl).1
        have hp' : progCode prog = (a ++ (ctlCode b s ++ [.simple bcBeginLoop 0])) ++ r := by rw [hp]; simp
        have hidx' : (Machine.after m a (ctlCode b s) c').exec.index + 2 = posAfter (a ++ (ctlCode b s ++ [.simple bcBeginLoop 0])) := by
          rw [← List.append_assoc, posAfter_snoc]; rfl
        have hlen : r.length + 1 ≤ (encode (progCode prog)).length + 2 := by
          have h1 := encode_length_le r
          rw [hp', encode_append, List.length_append]
          omega
        -- the search
        have hsearch : ∀ {o : Option (List Instr)}, EndsAt U w 0 none r o →
            ∃ c2 res, Holds U cfg.store c2 ∧ Grow c' c2 ∧ c2.stack = [] ∧
              execBegin ((Machine.after m a (ctlCode b s) c').skip 2) = (match res with
                | none => .ok ({ (Machine.after m a (ctlCode b s) c').skip 2 with core := c2 }.fail eForWithoutNext)
                | some j => .ok { (Machine.after m a (ctlCode b s) c').skip 2 with core := c2, exec := { ((Machine.after m a (ctlCode b s) c').skip 2).exec with index := j } }) ∧
              match o with
              | none => res = none
              | some q => ∃ v, r = v ++ q ∧ res = some (posAfter (a ++ (ctlCode b s ++ [.simple bcBeginLoop 0]) ++ v)) := by
          intro o ho
          obtain ⟨c2, res, e1, e2, e3, e4, e5⟩ := skipLoop_ends ho hw hwU (a ++ (ctlCode b s ++ [.simple bcBeginLoop 0])) [] ((encode (progCode prog)).length + 2)
            { c' with stack := [] } (fun j hj => hwf j (by rw [hp']; exact List.mem_append.mpr (Or.inr (by simpa using hj)))) (by simp)
            (by intro _ q hq; cases hq) (by simp) hlen (hc.holds.stack []) hi' hkey'
          refine ⟨c2, res, e2, e3.of_stack, e4, ?_, by cases o <;> simpa using e5⟩
          rw [execBegin_eq (m := (Machine.after m a (ctlCode b s) c').skip 2) hcalls hc.limit hc.step]
          refine (if_pos ((passed_iff _ _ _).mpr (show Past d (c'.mem (.slot i)) y by rw [hval]; exact hpast))).trans ?_
          rw [show ((Machine.after m a (ctlCode b s) c').skip 2).exec.code = encode (progCode prog) from hm.code,
            show ((Machine.after m a (ctlCode b s) c').skip 2).exec.index = posAfter (a ++ (ctlCode b s ++ [.simple bcBeginLoop 0])) from hidx', hp']
          rw [hp'] at e1
          simp only [List.nil_append] at e1
          show (skipLoop (encode (a ++ (ctlCode b s ++ [Instr.simple bcBeginLoop 0]) ++ r)) (.slot i) _ _ _ { c' with stack := [] }).bind _ = _
          rw [e1]
          rfl
        have hstep1 : Machine.step env (Machine.after m a (ctlCode b s) c') = (execBegin ((Machine.after m a (ctlCode b s) c').skip 2)).bind fun x => .ok (clearArgc bcBeginLoop x) := hat1.step
        have hends := ends_rest (w := w) hprog (cfg := cfg) (by rw [ht, hn]; exact hbody) hp'
        show Sim' env prog U C L m (match cfg.nextOf prog w with
          | .at t n => .run { cfg with todo := t, next := n }
          | .missing => .done 34 cfg.store cfg.world
          | .unknown => .undefined)
        generalize cfg.nextOf prog w = z at hends
        cases z with
        | unknown => trivial
        | missing =>
          obtain ⟨c2, res, e1, e2, e3, e4, rfl⟩ := hsearch hends
          rw [e4] at hstep1
          exact ⟨_, hr.trans (Reaches.one hstep1), ended_error (show eForWithoutNext ≠ 0 by decide), rfl, rfl, Holds.closed e1, e2.ext.trans (hc.grow.ext.trans hm.ext)⟩
        | «at» t' n' =>
          obtain ⟨q, hq1, hq2⟩ := hends
          obtain ⟨c2, res, e1, e2, e3, e4, v, hv, rfl⟩ := hsearch hq1
          rw [e4] at hstep1
          refine ⟨_, hr.trans (Reaches.one hstep1), hq2 v hv, ?_⟩
          exact { code := hm.code, main := hm.main, argc := rfl, frames := hm.frames, calls := (show Links prog U C c2.vars cfg.calls m.calls from (hm.calls.grow hc.grow).grow e2),
                  labels := hm.labels, error := e2.error.trans herr, stack := e3, holds := e1, ext := e2.ext.trans (hc.grow.ext.trans hm.ext) }
      · rw [if_neg hpast]
        have r2 := begin_runs (env := env) hat1 hm.argc hcalls hc.limit hc.step (by show ¬ Past d (c'.mem (.slot i)) y; rw [hval]; exact hpast)
        rw [after_after] at r2
        refine ⟨_, hr.trans r2, ?_, ?_⟩
        · rw [ht, hn]; exact hplace
        · exact { code := hm.code, main := hm.main, argc := hm.argc, frames := hm.frames, calls := (show Links prog U C c'.vars cfg.calls m.calls from hm.calls.grow hc.grow), labels := hm.labels, error := herr,
                  stack := rfl, holds := hc.holds.stack [], ext := hc.grow.ext.trans hm.ext }

/-! ## FOR -/

/-- FOR. -/
theorem sim_for (hperf : Performs env W C) {cfg : Cfg σ} {m : Mach σ} {pre post : List Instr} {k : Nat} {w : List Nat} {a b : E} {s : Option E} (hk : CmdOp k)
    (hs : FitsS U C (.for' w a b s)) (hm : Base prog U C L cfg.calls cfg.data cfg.store cfg.world m)
    (hp : progCode prog = pre ++ ((S.for' w a b s).code k ++ post)) (hidx : m.exec.index = posAfter pre)
    (hwf : ∀ i ∈ progCode prog, i.WF) (hsize : posAfter (progCode prog) < 16777216)
    (hbody : Body prog U C cfg.todo cfg.next (pre ++ (S.for' w a b s).code k)) (hprog : FitsProg U C prog) :
    Sim env prog U C L m (S.exec W prog cfg (.for' w a b s)) := by
  obtain ⟨⟨hw, ⟨ha, hal⟩, ⟨hb, hbl⟩, hst, hshort⟩, hv, _⟩ := hs
  have hok : CtlOk U b s := by
    refine ⟨⟨hb, hbl, fun x hx => hv x (by simp [S.vars, hx])⟩, fun e he => ⟨(hst e he).1, (hst e he).2, fun x hx => hv x ?_⟩, hshort⟩
    subst he
    simp [S.vars, stepVars, hx]
  have hwU : w ∈ U := hv w (by simp [S.vars])
  have hlen := forall₂_length hm.calls
  -- the variable
  have hp1 : progCode prog = pre ++ (nameInstr w :: (.simple k cmdFor :: (a.code ++ .simple bcOperator opAssign ::
      (ctlCode b s ++ .simple bcBeginLoop 0 :: post)))) := by
    rw [hp]; simp [S.code]
  have hat := hm.at hp1 hidx
  obtain ⟨c1, i, r1, hst1, hh1, hg1, hi, hkey⟩ := push_name (env := env) hat hm.argc (by rw [hm.stack]; simp) hw hwU hm.holds
  rw [hm.stack, List.nil_append] at hst1
  have err1 : c1.error = 0 := hg1.error.trans hm.error
  have hat1 : At (Machine.after m pre [nameInstr w] c1) (pre ++ [nameInstr w]) (.simple k cmdFor :: (a.code ++ .simple bcOperator opAssign ::
      (ctlCode b s ++ .simple bcBeginLoop 0 :: post))) := At.after (e := [nameInstr w]) hat err1
  generalize hM1 : Machine.after m pre [nameInstr w] c1 = M1 at r1 hat1
  have hcore1 : M1.core = c1 := by rw [← hM1]; rfl
  have hcalls1 : M1.calls = m.calls := by rw [← hM1]; rfl
  have hcode1 : M1.exec.code = encode (progCode prog) := by rw [← hM1]; exact hm.code
  -- FOR
  have hX : M1.exec.index + 2 = posAfter (pre ++ [nameInstr w] ++ [.simple k cmdFor]) := by rw [posAfter_snoc, hat1.index]; rfl
  have hp2 : progCode prog = (pre ++ [nameInstr w] ++ [.simple k cmdFor]) ++ (a.code ++ .simple bcOperator opAssign ::
      (ctlCode b s ++ .simple bcBeginLoop 0 :: post)) := by
    rw [hp1]; simp
  generalize hXd : pre ++ [nameInstr w] ++ [.simple k cmdFor] = X at hX hp2
  have hp3 : progCode prog = (X ++ a.code ++ [.simple bcOperator opAssign]) ++ (ctlCode b s ++ .simple bcBeginLoop 0 :: post) := by
    rw [hp2]; simp
  have hscan : (M1.skip 2).exec.scanFor bcOperator (· == opAssign) (M1.skip 2).exec.index = .ok (some (posAfter (X ++ a.code))) := by
    rw [show (M1.skip 2).exec.index = M1.exec.index + 2 from rfl, hX]
    refine execScan_mid (m := M1.skip 2) bcOperator _ opOp a.code (ctlCode b s ++ .simple bcBeginLoop 0 :: post) opAssign ?_ (by simp) ?_ ?_
    · show M1.exec.code = _
      rw [hcode1, hp2]
    · intro j hj
      apply hwf
      rw [hp2]
      exact List.mem_append.mpr (Or.inr hj)
    · intro y hy
      by_contra hne
      have : y = opAssign := by simpa using hne
      rw [this] at hy
      exact noAssign_e a ha.tree ha.leaves hy
  have hstart : posAfter (X ++ a.code) + 2 = posAfter (X ++ a.code ++ [.simple bcOperator opAssign]) := by rw [posAfter_snoc]; rfl
  have hbegin : bcScan M1.exec.code (posAfter (X ++ a.code ++ [.simple bcOperator opAssign])) bcBeginLoop =
      .ok (some (posAfter (X ++ a.code ++ [.simple bcOperator opAssign] ++ ctlCode b s))) := by
    rw [hcode1, hp3]
    refine bcScan_mid _ _ _ _ _ (fun j hj => hwf j ?_) (noBegin_ctl hok) rfl
    rw [hp3]
    exact List.mem_append.mpr (Or.inr hj)
  have hstep : Machine.step env M1 = (cmdForM (M1.skip 2)).bind fun x => .ok { x with exec := { x.exec with argc := 0 } } := by
    rw [hat1.step]
    have hop : k ≠ bcArgcount := by rcases hk with rfl | rfl <;> decide
    have : execInstr env k cmdFor (M1.skip 2) = (cmdForM (M1.skip 2)).bind fun m' => .ok m' := by
      rcases hk with rfl | rfl <;> rfl
    show (execInstr env k cmdFor (M1.skip 2)).bind _ = _
    rw [this]
    cases cmdForM (M1.skip 2) with
    | ok x => show Out.ok (clearArgc k _) = _; rw [clearArgc_ne hop]; rfl
    | err e => rfl
    | ub => rfl
  unfold cmdForM at hstep
  rw [hscan] at hstep
  simp only [Out.bind] at hstep
  show Sim env prog U C L m (if cfg.calls.length = 255 then _ else _)
  by_cases h255 : cfg.calls.length = 255
  · rw [if_pos h255]
    rw [if_pos (show (M1.skip 2).calls.length = 255 by show M1.calls.length = 255; rw [hcalls1, ← hlen]; exact h255)] at hstep
    refine ⟨_, r1.trans (Reaches.one hstep), ended_error (show eOutOfMemory ≠ 0 by decide), ?_, rfl, ?_, ?_⟩
    · show M1.frames = _
      rw [← hM1]; rfl
    · exact Holds.closed (c := M1.core) (by rw [hcore1]; exact hh1)
    · show M1.core.ext = _
      rw [hcore1]; exact hg1.ext.trans hm.ext
  · rw [if_neg h255]
    rw [if_neg (show ¬ (M1.skip 2).calls.length = 255 by show ¬ M1.calls.length = 255; rw [hcalls1, ← hlen]; exact h255), hstart,
      show (M1.skip 2).exec.code = M1.exec.code from rfl, hbegin] at hstep
    simp only [show (M1.skip 2).core = M1.core from rfl, hcore1, hst1] at hstep
    have hY : posAfter (X ++ a.code ++ [.simple bcOperator opAssign]) < 16777216 := by
      rw [hp3, posAfter_append (X ++ a.code ++ [Instr.simple bcOperator opAssign])] at hsize
      omega
    rw [posAfter_append _ (ctlCode b s), Nat.add_sub_cancel_left, addr_eq _ _ hY (Nat.le_trans (size_ctl b s) hshort),
      show (M1.skip 2).calls = m.calls from hcalls1] at hstep
    generalize hM2 : ({ M1.skip 2 with
      calls := ⟨false, posAfter (ctlCode b s) * 16777216 + posAfter (X ++ a.code ++ [.simple bcOperator opAssign]), .slot i⟩ :: m.calls,
      exec := { (M1.skip 2).exec with argc := 0 } } : Mach σ) = M2
    have hstep : Machine.step env M1 = .ok M2 := by rw [hstep, ← hM2, ← hcore1]; rfl
    have hcore2 : M2.core = c1 := by rw [← hM2]; exact hcore1
    have hcode2 : M2.exec.code = encode (progCode prog) := by rw [← hM2]; exact hcode1
    have hargc2 : M2.exec.argc = 0 := by rw [← hM2]
    have hfr2 : M2.frames = m.frames := by rw [← hM2, ← hM1]; rfl
    have hlab2 : M2.labels = L := by rw [← hM2, ← hM1]; exact hm.labels
    have hmain2 : Reading prog cfg.data M2.exec := by rw [← hM2, ← hM1]; exact hm.main
    have hcalls2 : M2.calls = ⟨false, posAfter (ctlCode b s) * 16777216 + posAfter (X ++ a.code ++ [.simple bcOperator opAssign]), .slot i⟩ :: m.calls := by
      rw [← hM2]
    have hat2 : At M2 X (a.code ++ .simple bcOperator opAssign :: (ctlCode b s ++ .simple bcBeginLoop 0 :: post)) := by
      refine ⟨by rw [hcode2, hp2], ?_, by rw [hcore2]; exact err1⟩
      rw [← hM2]; exact hX
    have hgo := Goes.last r1 hstep
    -- the first value
    have hcomp := computes_number (env := env) (K := W.look cfg.world) (U := U) (st := cfg.store) a ha.toGood (fun x hx => hv x (by simp [S.vars, hx]))
    have hpush := hcomp M2 X _ hat2 hargc2 (by rw [hcore2, hst1, len_e]; simp only [List.length_singleton]; omega) (by rw [hcore2]; exact hh1)
      (by rw [hcore2, hg1.ext, hm.ext]; exact hperf.sees _)
    cases hval : a.number (W.look cfg.world) cfg.store with
    | ub => trivial
    | err er =>
      rw [hval] at hpush
      have hpush : Ends env U cfg.store M2.core.ext (errNum er) M2 := hpush
      rw [hcore2, hg1.ext, hm.ext] at hpush
      have hpush := Ends.after' hgo.reaches hfr2 hpush
      cases er <;> exact hpush
    | ok v =>
      rw [hval] at hpush
      obtain ⟨_, c2, ens, r2, hst2, hs2, hh2, hg2⟩ := hpush
      rw [hcore2] at hst2 hg2
      obtain ⟨en, rfl⟩ : ∃ en, ens = [en] := by
        cases hs2 with | cons h1 h2 => cases h2; exact ⟨_, rfl⟩
      obtain ⟨hn, hx⟩ := (by cases hs2 with | cons h1 h2 => exact h1 : Stands cfg.store c2 en (.num v)).number hh2
      rw [hst1] at hst2
      have err2 : c2.error = 0 := hg2.error.trans err1
      have hat3 := hat2.after err2
      have r3 := At.simple (env := env) hat3 (by decide) { c2.store (.slot i) v with stack := [] } hargc2 (by
        rw [exec_op]
        refine congrArg _ ?_
        show execOp env opAssign M2.exec.argc c2 = _
        rw [hargc2]
        exact execOp_assign (rest := []) hst2 hn hx)
      rw [after_after] at r3
      have hi2 : i < c2.vars.max := by rw [hg2.max]; exact hi
      have hk2 := hg2.keys i hi _ hkey
      have hpl : Body prog U C cfg.todo cfg.next (X ++ a.code ++ [.simple bcOperator opAssign] ++ (ctlCode b s ++ [.simple bcBeginLoop 0])) := by
        have e : X ++ a.code ++ [.simple bcOperator opAssign] ++ (ctlCode b s ++ [.simple bcBeginLoop 0]) = pre ++ (S.for' w a b s).code k := by
          rw [← hXd]; simp [S.code]
        rw [e]; exact hbody
      have hlink : Links prog U C c2.vars (.loop w b s cfg.todo cfg.next :: cfg.calls) M2.calls := by
        rw [hcalls2]
        exact .cons (.loop w b s _ _ i _ post hw hwU hok hi2 hk2 hp3 hpl) ((hm.calls.grow hg1).grow hg2)
      refine Sim'.sim (m' := Machine.after M2 X (a.code ++ [.simple bcOperator opAssign]) { c2.store (.slot i) v with stack := [] })
        (hgo.then (r2.trans r3)) hfr2 ?_
      refine round_sim hperf (a := X ++ a.code ++ [Instr.simple bcOperator opAssign]) (r := post) (i := i) (cs := m.calls) rfl rfl rfl ?_ hcalls2 hok hi2 hk2 hp3 hpl ?_ hw hwU hprog
      · exact { code := hcode2, main := hmain2, argc := hargc2, frames := hfr2.trans hm.frames, calls := hlink, labels := hlab2, error := err2
                stack := rfl, holds := (hh2.assign hi2 hk2 v).stack [], ext := hg2.ext.trans (hg1.ext.trans hm.ext) }
      · show posAfter _ = posAfter _
        rw [List.append_assoc]

/-! ## NEXT -/

/-- The variable of NEXT. -/
theorem next_name {st : Store} {m : Mach σ} {x : List Instr} {i : Instr} {post : List Instr} (o : Option (List Nat)) (hat : At m x (optName o ++ i :: post))
    (hargc : m.exec.argc = 0) (hst : m.core.stack = []) (ho : ∀ w, o = some w → VarName w ∧ w ∈ U) (hh : Holds U st m.core) :
    ∃ c1, Reaches env m (Machine.after m x (optName o) c1) ∧ Holds U st c1 ∧ Grow m.core c1 ∧
      (o = none ∧ c1.stack = [] ∨ ∃ w j, o = some w ∧ c1.stack = [.var false false (.slot j)] ∧ j < c1.vars.max ∧ Vars.HasKey c1.vars j (w, .num)) := by
  cases o with
  | none =>
    refine ⟨m.core, ?_, hh, Grow.refl _, Or.inl ⟨rfl, hst⟩⟩
    have : Machine.after m x [] m.core = m := by
      unfold Machine.after
      rw [List.append_nil, ← hat.index]
    show Reaches env m (Machine.after m x [] m.core)
    rw [this]
    exact Reaches.refl m
  | some w =>
    obtain ⟨c1, j, r1, h1, h2, h3, h4, h5⟩ := push_name (env := env) (b := i :: post) hat hargc (by rw [hst]; simp) (ho w rfl).1 (ho w rfl).2 hh
    rw [hst, List.nil_append] at h1
    exact ⟨c1, r1, h2, h3, Or.inr ⟨w, j, rfl, h1, h4, h5⟩⟩

theorem Vars.Rel_unique {U : List (List Nat)} {st : Store} {c : Core σ} (h : Holds U st c) {i j : Nat} {w : List Nat}
    (hi : i < c.vars.max) (hj : j < c.vars.max) (ki : Vars.HasKey c.vars i (w, .num)) (kj : Vars.HasKey c.vars j (w, .num)) : i = j := by
  obtain ⟨s, hr, _⟩ := h.table
  exact Vars.hasKey_unique hr.inv hi hj ki kj

/-- What NEXT finds on the call stack. -/
theorem which_finds {T : Vars.Table} (hu : ∀ (u : List Nat) (i j : Nat), i < T.max → j < T.max → Vars.HasKey T i (u, .num) → Vars.HasKey T j (u, .num) → i = j)
    {o : Option (List Nat)} {v : Option Ptr}
    (hv : o = none ∧ v = none ∨ ∃ u j, o = some u ∧ v = some (.slot j) ∧ j < T.max ∧ Vars.HasKey T j (u, .num)) :
    {ps : List Pending} → {cs : List Call} → Links prog U C T ps cs →
    match whichLoop o ps with
    | .missing => findFor v cs = none
    | .unknown => True
    | .found k w b s t n => (∃ c, ps[k]? = some (.loop w b s t n) ∧ cs[k]? = some c ∧ Link prog U C T (.loop w b s t n) c) ∧ findFor v cs = some k
  | _, _, .nil => rfl
  | _, _, .cons (a := p) (b := c) (l₁ := ps) (l₂ := cs) hl hr => by
    have ih := which_finds hu hv hr
    have later : findFor v (c :: cs) = (findFor v cs).map (· + 1) →
        match (whichLoop o ps).up with
        | .missing => findFor v (c :: cs) = none
        | .unknown => True
        | .found k w b s t n => (∃ c', (p :: ps)[k]? = some (.loop w b s t n) ∧ (c :: cs)[k]? = some c' ∧ Link prog U C T (.loop w b s t n) c') ∧
            findFor v (c :: cs) = some k := by
      intro e
      cases hw : whichLoop o ps with
      | missing => rw [hw] at ih; show findFor v (c :: cs) = none; rw [e, ih]; rfl
      | unknown => trivial
      | found k w b s t n =>
        rw [hw] at ih
        obtain ⟨h1, h2⟩ := ih
        exact ⟨h1, by rw [e, h2]; rfl⟩
    cases hl with
    | outer => trivial
    | call t n addr q hpl => exact later (by unfold findFor; rw [List.findIdx?_cons]; rfl)
    | loop w b s t n i a r hw hwU hok hi hkey hpc hpl =>
      unfold whichLoop
      by_cases h : o = none ∨ o = some w
      · rw [if_pos h]
        refine ⟨⟨_, rfl, rfl, .loop w b s t n i a r hw hwU hok hi hkey hpc hpl⟩, ?_⟩
        have : v = none ∨ v = some (.slot i) := by
          rcases hv with ⟨_, h1⟩ | ⟨u, j, h0, h1, h2, h3⟩
          · exact Or.inl h1
          · right
            have : u = w := by
              rcases h with h | h
              · rw [h] at h0; cases h0
              · rw [h] at h0; exact (Option.some.inj h0).symm
            subst this
            rw [h1, hu _ _ _ h2 hi h3 hkey]
        unfold findFor
        rw [List.findIdx?_cons]
        rcases this with h | h <;> simp [h]
      · rw [if_neg h]
        apply later
        rcases hv with ⟨h0, _⟩ | ⟨u, j, h0, h1, h2, h3⟩
        · exact absurd (Or.inl h0) h
        · have hne : i ≠ j := by
            rintro rfl
            have e := hkey.2.symm.trans h3.2
            dsimp only at e
            exact h (Or.inr (by rw [h0, e]))
          unfold findFor
          rw [List.findIdx?_cons]
          subst h1
          simp [hne]

theorem Links.erase {T : Vars.Table} : {ps : List Pending} → {cs : List Call} → (k : Nat) → Links prog U C T ps cs →
    Links prog U C T (ps.eraseIdx k) (cs.eraseIdx k)
  | _, _, _, .nil => .nil
  | _, _, 0, .cons _ hr => hr
  | _, _, k + 1, .cons hl hr => .cons hl (Links.erase k hr)

/-- NEXT. -/
theorem sim_next (hperf : Performs env W C) {cfg : Cfg σ} {m : Mach σ} {x post : List Instr} {k : Nat} {o : Option (List Nat)} (hk : CmdOp k)
    (hs : FitsS U C (.next o)) (hm : Base prog U C L cfg.calls cfg.data cfg.store cfg.world m)
    (hp : progCode prog = x ++ ((S.next o).code k ++ post)) (hidx : m.exec.index = posAfter x) (hsize : posAfter (progCode prog) < 16777216)
    (hplace : Place prog U C cfg.todo cfg.next (posAfter (x ++ (S.next o).code k))) (hprog : FitsProg U C prog) :
    Sim env prog U C L m (S.exec W prog cfg (.next o)) := by
  obtain ⟨hwo, hv, _⟩ := hs
  have ho : ∀ w, o = some w → VarName w ∧ w ∈ U := by
    rintro w rfl
    exact ⟨hwo w rfl, hv w (by simp [S.vars])⟩
  have hcode : (S.next o).code k = optName o ++ [.simple k cmdNext] := rfl
  rw [hcode] at hplace
  have hp1 : progCode prog = x ++ (optName o ++ .simple k cmdNext :: post) := by
    rw [hp, hcode, List.append_assoc]; rfl
  have hat := hm.at hp1 hidx
  obtain ⟨c1, r1, hh1, hg1, hname⟩ := next_name (env := env) o hat hm.argc hm.stack ho hm.holds
  have err1 : c1.error = 0 := hg1.error.trans hm.error
  have hat1 := hat.after err1
  have hisn : isCmd cmdNext (.simple k cmdNext) := by rcases hk with rfl | rfl <;> simp [isCmd]
  have hcalls := hm.calls
  unfold S.exec
  dsimp only
  have hlk : Links prog U C c1.vars cfg.calls m.calls := hm.calls.grow hg1
  obtain ⟨v, hv, hvst⟩ : ∃ v : Option Ptr, (o = none ∧ v = none ∨ ∃ u j, o = some u ∧ v = some (.slot j) ∧ j < c1.vars.max ∧ Vars.HasKey c1.vars j (u, .num)) ∧
      (v = none ∧ c1.stack = [] ∨ ∃ q, v = some q ∧ c1.stack = [.var false false q]) := by
    rcases hname with ⟨h0, h1⟩ | ⟨w, j, h0, h1, h2, h3⟩
    · exact ⟨none, Or.inl ⟨h0, rfl⟩, Or.inl ⟨rfl, h1⟩⟩
    · exact ⟨some (.slot j), Or.inr ⟨w, j, h0, rfl, h2, h3⟩, Or.inr ⟨_, rfl, h1⟩⟩
  have hwhich := which_finds (fun u i j a b c d => Vars.Rel_unique hh1 a b c d) hv hlk
  cases hc : whichLoop o cfg.calls with
  | missing =>
    rw [hc] at hwhich
    have hstep := step_cmd (env := env) hk (show cmdNext < 110 by decide) (by decide) hat1
    generalize hM1 : Machine.after m x (optName o) c1 = M1 at hstep r1
    have hcore1 : M1.core = c1 := by rw [← hM1]; rfl
    have hf : findFor v (M1.skip 2).calls = none := by
      show findFor v M1.calls = none
      rw [← hM1]
      exact hwhich
    have hx : execCmd env cmdNext (M1.skip 2) = .ok ((M1.skip 2).fail eNextWithoutFor) := by
      show cmdNextM (M1.skip 2) = _
      unfold cmdNextM
      rw [show (M1.skip 2).core = c1 from hcore1]
      rcases hvst with ⟨rfl, h1⟩ | ⟨q, rfl, h1⟩
      · rw [h1]
        simp only [List.reverse_nil, hf]
      · rw [h1]
        rw [show [Entry.var false false q].reverse = [Entry.var false false q] from rfl]
        simp only [hf]
    rw [hx] at hstep
    simp only [Out.bind] at hstep
    refine ⟨_, r1.trans (Reaches.one hstep), ended_error (show eNextWithoutFor ≠ 0 by decide), ?_, rfl, ?_, ?_⟩
    · show M1.frames = _
      rw [← hM1]; rfl
    · exact Holds.closed (c := M1.core) (by rw [hcore1]; exact hh1)
    · show M1.core.ext = _
      rw [hcore1]; exact hg1.ext.trans hm.ext
  | unknown => trivial
  | found j w b s t n =>
    rw [hc] at hwhich
    obtain ⟨⟨_, hps, hcs, hlink0⟩, hfind⟩ := hwhich
    cases hlink0 with
    | loop _ _ _ _ _ i a r hw hwU hok hi1 hk1 hpc hpl =>
      have hjlt : j < m.calls.length := by
        by_contra hno
        rw [List.getElem?_eq_none (by omega)] at hcs
        cases hcs
      have key : ∀ R : Res σ, (∀ y d, b.number (W.look cfg.world) cfg.store = .ok y → stepValue (W.look cfg.world) cfg.store s = .ok d →
          R = if I32 (cfg.store.num w + d) then
                (if Past d (cfg.store.num w + d) y then .run { cfg.set w (cfg.store.num w + d) with calls := cfg.calls.eraseIdx j }
                else if j = 0 then { cfg.set w (cfg.store.num w + d) with todo := t, next := n }.round W prog w b s else .undefined)
              else .done 39 cfg.store cfg.world) →
          ((∀ y d, ¬ (b.number (W.look cfg.world) cfg.store = .ok y ∧ stepValue (W.look cfg.world) cfg.store s = .ok d)) → R = .undefined) →
          Sim env prog U C L m R := by
        intro R hR hU'
        cases hb : b.number (W.look cfg.world) cfg.store with
        | ub => rw [hU' (fun y d h => by rw [hb] at h; cases h.1)]; trivial
        | err er => rw [hU' (fun y d h => by rw [hb] at h; cases h.1)]; trivial
        | ok y =>
          cases hd : stepValue (W.look cfg.world) cfg.store s with
          | ub => rw [hU' (fun y d h => by rw [hd] at h; cases h.2)]; trivial
          | err er => rw [hU' (fun y d h => by rw [hd] at h; cases h.2)]; trivial
          | ok d =>
            rw [hR y d hb hd]
            have hapos : posAfter a < 16777216 := by
              rw [hpc, posAfter_append a] at hsize
              omega
            have r2 := next_finds (env := env) (w := a) (ctl := ctlCode b s) (z := .simple bcBeginLoop 0 :: r) (p := .slot i) hisn hat1 hm.argc
              (by rw [← hpc, hp1, List.append_assoc]) hapos hvst hfind hcs
            rw [show (Machine.after m x (optName o) c1).calls.length = m.calls.length from rfl] at r2
            generalize hN : nested (Machine.after m x (optName o) c1) (ctlCode b s) (posAfter (x ++ optName o ++ [.simple k cmdNext])) (m.calls.length - 1 - j) = N at r2
            have hNcore : N.core = { c1 with stack := [] } := by rw [← hN]; rfl
            have hNat : At N [] (ctlCode b s ++ []) := by
              refine ⟨?_, ?_, ?_⟩
              · rw [← hN, List.append_nil]; rfl
              · rw [← hN]; rfl
              · rw [hNcore]; exact err1
            obtain ⟨c2, r3, hctl⟩ := ctl_ok (env := env) hok hb hd hNat (by rw [← hN]; rfl) (by rw [hNcore]) (by rw [hNcore]; exact hh1.stack [])
              (by rw [hNcore]; show Sees env _ c1.ext; rw [hg1.ext, hm.ext]; exact hperf.sees _)
            rw [hNcore] at hctl
            have hg2 : Grow c1 c2 := hctl.grow.of_stack
            have hh2 := hctl.holds
            have err2 : c2.error = 0 := hg2.error.trans err1
            have hreach := (Goes.last r1 r2).then r3
            generalize hM : Machine.after N [] (ctlCode b s) c2 = M at hreach
            have hMcore : M.core = c2 := by rw [← hM]; rfl
            have hend : M.ended = true := by
              rw [← hM, ← hN]
              unfold Mach.ended
              simp [Machine.after, nested, posAfter]
            have hst2 : (if M.core.stack.length = 1 then Out.ok 4096 else M.core.argNum 1) = .ok d := by
              rw [hMcore]
              rcases hctl.step with ⟨q5, rfl⟩ | ⟨q5, q6⟩
              · rw [if_pos q5]
              · rw [if_neg (by omega), q6]
            have hi2 : i < c2.vars.max := by rw [hg2.max]; exact hi1
            have hk2 := hg2.keys i hi1 _ hk1
            have hmem : c2.mem (.slot i) = cfg.store.num w := hh2.value w i hi2 hk2
            have hfin : Machine.step env M = (let m' : Mach σ := { m with
                  exec := { m.exec with index := posAfter (x ++ optName o ++ [.simple k cmdNext]), argc := 0 }
                  core := { c2 with error := 0, stack := [] } }
                if cfg.store.num w + d > 2147483647 ∨ cfg.store.num w + d < -2147483648 then .ok (m'.fail eOverflow)
                else
                  let m' := { m' with core := m'.core.store (.slot i) (cfg.store.num w + d) }
                  if passed d (cfg.store.num w + d) y then .ok { m' with calls := m.calls.eraseIdx j }
                  else .ok { m' with exec := { m'.exec with index := posAfter a } }) := by
              unfold Machine.step
              rw [if_pos hend]
              have hfr : M.frames = ⟨{ m.exec with index := posAfter (x ++ optName o ++ [.simple k cmdNext]), argc := 0 }, 0, m.calls.length - 1 - j⟩ :: m.frames := by
                rw [← hM, ← hN]
                simp only [Machine.after, nested, err1]
              have hcM : M.calls = m.calls := by rw [← hM, ← hN]; rfl
              rw [hfr]
              dsimp only
              unfold finishNext
              rw [hcM]
              dsimp only
              rw [show m.calls.length - 1 - (m.calls.length - 1 - j) = j by omega, hcs]
              dsimp only
              rw [if_neg (by omega), show M.core.argNum 0 = .ok y by rw [hMcore]; exact hctl.limit, hst2]
              simp only [Out.bind]
              have hlab : M.labels = m.labels := by rw [← hM, ← hN]; rfl
              simp only [hMcore, hlab, hmem, show (posAfter (ctlCode b s) * 16777216 + posAfter a) % 16777216 = posAfter a by omega]
            by_cases h32 : I32 (cfg.store.num w + d)
            · rw [if_pos h32]
              have hno : ¬ (cfg.store.num w + d > 2147483647 ∨ cfg.store.num w + d < -2147483648) := by unfold I32 at h32; omega
              dsimp only at hfin
              rw [if_neg hno] at hfin
              have hh3 := hh2.assign hi2 hk2 (cfg.store.num w + d)
              have hpos : posAfter (x ++ optName o ++ [.simple k cmdNext]) = posAfter (x ++ (optName o ++ [.simple k cmdNext])) := by rw [List.append_assoc]
              by_cases hpast : Past d (cfg.store.num w + d) y
              · rw [if_pos hpast]
                rw [if_pos ((passed_iff _ _ _).mpr hpast)] at hfin
                refine ⟨_, hreach.then (Reaches.one hfin), ?_, ?_⟩
                · show Place prog U C cfg.todo cfg.next _
                  rw [hpos]; exact hplace
                · exact { code := hm.code, main := hm.main, argc := rfl, frames := hm.frames
                          calls := (show Links prog U C c2.vars (cfg.calls.eraseIdx j) (m.calls.eraseIdx j) from Links.erase j (hlk.grow hg2)), labels := hm.labels, error := rfl
                          stack := rfl, holds := hh3.congr rfl rfl rfl, ext := hg2.ext.trans (hg1.ext.trans hm.ext) }
              · rw [if_neg hpast]
                by_cases hj0 : j = 0
                case neg => rw [if_neg hj0]; trivial
                rw [if_pos hj0]
                subst hj0
                obtain ⟨rest, hrest⟩ : ∃ rest, cfg.calls = .loop w b s t n :: rest := by
                  cases hcc : cfg.calls with
                  | nil => rw [hcc] at hps; cases hps
                  | cons p rest => rw [hcc] at hps; cases hps; exact ⟨_, rfl⟩
                obtain ⟨cs, hmc⟩ : ∃ cs, m.calls = ⟨false, posAfter (ctlCode b s) * 16777216 + posAfter a, .slot i⟩ :: cs := by
                  cases hcc : m.calls with
                  | nil => rw [hcc] at hcs; cases hcs
                  | cons p rest => rw [hcc] at hcs; cases hcs; exact ⟨_, rfl⟩
                rw [if_neg (fun h => hpast ((passed_iff _ _ _).mp h))] at hfin
                refine Sim'.sim (m' := _) (hreach.then (Reaches.one hfin)) rfl ?_
                have hlink : Links prog U C c2.vars cfg.calls m.calls := hlk.grow hg2
                refine round_sim hperf (a := a) (r := r) (i := i) (cs := cs) (t := t) (n := n) (rest := rest) hrest rfl rfl ?_ hmc hok hi2 hk2 hpc hpl rfl hw hwU hprog
                exact { code := hm.code, main := hm.main, argc := rfl, frames := hm.frames, calls := hlink, labels := hm.labels, error := rfl
                        stack := rfl, holds := hh3.congr rfl rfl rfl, ext := hg2.ext.trans (hg1.ext.trans hm.ext) }
            · rw [if_neg h32]
              have hyes : cfg.store.num w + d > 2147483647 ∨ cfg.store.num w + d < -2147483648 := by unfold I32 at h32; omega
              dsimp only at hfin
              rw [if_pos hyes] at hfin
              exact ⟨_, hreach.reaches.trans (Reaches.one hfin), ended_error (show eOverflow ≠ 0 by decide), rfl, rfl, hh2.closed,
                hg2.ext.trans (hg1.ext.trans hm.ext)⟩
      cases j with
      | zero =>
        apply key
        · intro y d hb hd
          show Cfg.again _ _ _ _ _ _ _ _ _ = _
          unfold Cfg.again
          rw [hb, hd, List.eraseIdx_zero]
          rfl
        · intro h
          show Cfg.again _ _ _ _ _ _ _ _ _ = _
          unfold Cfg.again
          split
          · rename_i y d hb hd; exact absurd ⟨hb, hd⟩ (h y d)
          · rfl
      | succ j =>
        apply key
        · intro y d hb hd
          show Cfg.close _ _ _ _ _ _ = _
          unfold Cfg.close
          rw [hb, hd, if_neg (Nat.succ_ne_zero j)]
        · intro h
          show Cfg.close _ _ _ _ _ _ = _
          unfold Cfg.close
          split
          · rename_i y d hb hd; exact absurd ⟨hb, hd⟩ (h y d)
          · rfl

end Sbc.Source
