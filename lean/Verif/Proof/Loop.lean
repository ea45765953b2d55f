import Verif.Spec.Loop
import Verif.Proof.Control
set_option autoImplicit false
/-!
# Execution of FOR loops
-/
namespace Sbc.Machine
open Sbc Sbc.Tok Sbc.Tok.Spec

variable {σ γ : Type} {env : Env σ} {g0 : γ} {f : Int → γ → γ}

theorem passed_iff (s v b : Int) : passed s v b = true ↔ Past s v b := by
  unfold passed Past
  simp only [Bool.or_eq_true, Bool.and_eq_true, decide_eq_true_eq]
  constructor
  · rintro (⟨h1, h2⟩ | ⟨h1, h2⟩)
    · exact Or.inr ⟨h1, h2⟩
    · exact Or.inl ⟨h1, h2⟩
  · rintro (⟨h1, h2⟩ | ⟨h1, h2⟩)
    · exact Or.inr ⟨h1, h2⟩
    · exact Or.inl ⟨h1, h2⟩

/-- Regrouping of the program around the current position. -/
theorem At.regroup {m : Mach σ} {a b a' b' : List Instr} (h : At m a b) (h1 : a = a') (h2 : b = b') : At m a' b' := by
  subst h1; subst h2; exact h

/-- TO and STEP do nothing. -/
theorem to_step {m : Mach σ} {a b : List Instr} {d : Nat} (hd : d = cmdTo ∨ d = cmdStep) (h : At m a (.simple bcCommand d :: b))
    (hargc : m.exec.argc = 0) : Reaches env m (after m a [.simple bcCommand d] m.core) := by
  refine At.simple h (by decide) _ hargc ?_
  rcases hd with rfl | rfl <;> rfl

/-- Limit and step. -/
theorem ctl_runs {Pre Inv0 : Core σ → Prop} {Inv : γ → Core σ → Prop} {p : Ptr} {a b s : Int} {l : Loop} (hl : l.Over env Pre Inv0 Inv g0 f p a b s)
    (g : γ) (m : Mach σ) (x y : List Instr) (h : At m x (l.ctl ++ y)) (hargc : m.exec.argc = 0) (hs : m.core.stack = []) (hi : Inv g m.core) :
    ∃ c', Reaches env m (after m x l.ctl c') ∧ c'.error = 0 ∧ c'.mem p = m.core.mem p ∧ Inv g c' ∧ c'.argNum 0 = .ok b ∧
      ((c'.stack.length = 1 ∧ s = 4096) ∨ (c'.stack.length = 2 ∧ c'.argNum 1 = .ok s)) := by
  unfold Loop.ctl at h ⊢
  have h1 : At m x (l.limit ++ (.simple bcCommand cmdTo :: l.stepCode ++ y)) := h.regroup rfl (by simp)
  obtain ⟨c1, e1, r1, r2, r3, r4, r5, r6, r7, r8⟩ := hl.limit g m x _ h1 hargc (by rw [hs]; have := hl.limitShort; simp only [List.length_nil]; omega) hi
  rw [hs, List.nil_append] at r2
  have h2 : At (after m x l.limit c1) (x ++ l.limit) (.simple bcCommand cmdTo :: (l.stepCode ++ y)) := (h1.after r5).regroup rfl rfl
  have r9 := to_step (env := env) (Or.inl rfl) h2 hargc
  rw [after_after] at r9
  have reach1 := r1.trans r9
  have h3 : At (after m x (l.limit ++ [.simple bcCommand cmdTo]) c1) (x ++ (l.limit ++ [.simple bcCommand cmdTo])) (l.stepCode ++ y) :=
    (At.after (h1.regroup rfl (by simp) : At m x ((l.limit ++ [.simple bcCommand cmdTo]) ++ (l.stepCode ++ y))) r5)
  have hst := hl.step
  unfold Loop.stepCode at h3 ⊢
  cases hstep : l.step with
  | none =>
    rw [hstep] at hst
    rw [hstep] at h3
    refine ⟨c1, reach1, r5, r6, r8, ?_, Or.inl ⟨by rw [r2]; rfl, hst⟩⟩
    unfold Core.argNum; rw [r2]; exact r4
  | some es =>
    rw [hstep] at hst h3
    obtain ⟨hes, hlen⟩ := hst
    have h4 : At (after m x (l.limit ++ [.simple bcCommand cmdTo]) c1) (x ++ (l.limit ++ [.simple bcCommand cmdTo]))
        (es ++ (.simple bcCommand cmdStep :: y)) := h3.regroup rfl (by simp)
    obtain ⟨c2, e2, q1, q2, q3, q4, q5, q6, q7, q8⟩ := hes g _ _ _ h4 hargc
      (by show c1.stack.length + _ ≤ 100; rw [r2]; simp only [List.length_singleton]; omega) r8
    change c2.stack = c1.stack ++ [e2] at q2
    rw [r2] at q2
    have h5 := (h4.after q5).regroup (a' := _) (b' := _) rfl rfl
    have q9 := to_step (env := env) (Or.inr rfl) h5 hargc
    rw [after_after] at q1 q9
    rw [List.append_assoc x, after_after] at q9
    have q7' := q7 e1 (by show e1 ∈ c1.stack; rw [r2]; simp)
    refine ⟨c2, ?_, q5, q6.trans r6, q8, ?_, Or.inr ⟨by rw [q2]; rfl, ?_⟩⟩
    · have : Reaches env m (after m x (l.limit ++ [.simple bcCommand cmdTo] ++ es ++ [.simple bcCommand cmdStep]) c2) :=
        (reach1.trans q1).trans q9
      simpa using this
    · unfold Core.argNum; rw [q2]; exact q7'.trans r4
    · unfold Core.argNum; rw [q2]; exact q4

/-- BEGIN_LOOP with limit and step on the stack. -/
theorem execBegin_eq {m : Mach σ} {c : Call} {cs : List Call} {b s : Int} (hc : m.calls = c :: cs)
    (h0 : m.core.argNum 0 = .ok b) (h1 : (m.core.stack.length = 1 ∧ s = 4096) ∨ (m.core.stack.length = 2 ∧ m.core.argNum 1 = .ok s)) :
    execBegin m = if passed s (m.core.mem c.var) b then
      (skipLoop m.exec.code c.var (m.exec.code.length + 2) 1 m.exec.index { m.core with stack := [] }).bind fun r =>
        match r.2 with
        | none => .ok ({ m with core := r.1 }.fail eForWithoutNext)
        | some i => .ok { m with core := r.1, exec := { m.exec with index := i } }
      else .ok { m with core := { m.core with stack := [] } } := by
  unfold execBegin
  split
  · rename_i hn; rw [hn] at hc; cases hc
  · rename_i c' tail hn
    rw [hn] at hc
    cases hc
    have hne : m.core.stack ≠ [] := by
      intro he
      rcases h1 with ⟨h1, _⟩ | ⟨h1, _⟩ <;> (rw [he] at h1; cases h1)
    rw [if_neg hne]
    rcases h1 with ⟨hl, rfl⟩ | ⟨hl, h1⟩
    · simp only [hl, if_true, h0, Out.bind]
      rfl
    · simp only [hl, Nat.sub_self, show (2 : Nat) ≠ 1 by decide, if_false, h0, show 2 - 1 = 1 from rfl, h1, Out.bind]
      rfl

/-- BEGIN_LOOP when the loop runs. -/
theorem begin_runs {m : Mach σ} {x y : List Instr} {d : Nat} {c : Call} {cs : List Call} {b s : Int}
    (h : At m x (.simple bcBeginLoop d :: y)) (hargc : m.exec.argc = 0) (hc : m.calls = c :: cs)
    (h0 : m.core.argNum 0 = .ok b) (h1 : (m.core.stack.length = 1 ∧ s = 4096) ∨ (m.core.stack.length = 2 ∧ m.core.argNum 1 = .ok s))
    (hp : ¬ Past s (m.core.mem c.var) b) :
    Reaches env m (after m x [.simple bcBeginLoop d] { m.core with stack := [] }) := by
  refine At.simple h (by decide) _ hargc ?_
  rw [exec_begin, execBegin_eq (m := m.skip 2) hc h0 h1, if_neg (show ¬ passed s ((m.skip 2).core.mem c.var) b = true from fun hn => hp ((passed_iff _ _ _).mp hn))]
  rfl

/-- State while NEXT evaluates limit and step. -/
def nested (m : Mach σ) (ctl : List Instr) (ret pos : Nat) : Mach σ :=
  { m with
    core := { m.core with stack := [] }
    exec := ⟨encode ctl, 0, some 0, 0, 0, false⟩
    frames := ⟨{ m.exec with index := ret, argc := 0 }, m.core.error, pos⟩ :: m.frames }

/-- NEXT up to the evaluation of limit and step, for the loop that is found. -/
theorem next_finds {m : Mach σ} {x w ctl z post : List Instr} {next : Instr} {p : Ptr} {v : Option Ptr} {k : Nat}
    (hn : isCmd cmdNext next) (h : At m x (next :: post)) (hargc : m.exec.argc = 0)
    (hcode : x ++ next :: post = w ++ (ctl ++ z)) (hw : posAfter w < 16777216)
    (hst : v = none ∧ m.core.stack = [] ∨ ∃ q, v = some q ∧ m.core.stack = [.var false false q])
    (hf : findFor v m.calls = some k) (hc : m.calls[k]? = some ⟨false, posAfter ctl * 16777216 + posAfter w, p⟩) :
    step env m = .ok (nested m ctl (posAfter (x ++ [next])) (m.calls.length - 1 - k)) := by
  have hpos : m.exec.index + 2 = posAfter (x ++ [next]) := by
    rw [posAfter_snoc, h.index]; rcases hn with rfl | rfl <;> rfl
  have hop : next.op ≠ bcArgcount := by rcases hn with rfl | rfl <;> exact (by decide)
  have hlen : posAfter w + posAfter ctl ≤ m.exec.code.length := by
    rw [h.code, hcode, encode_append w, encode_append ctl, List.length_append, List.length_append]
    unfold posAfter; omega
  have hslice : (m.exec.code.drop (posAfter w)).take (posAfter ctl) = encode ctl := by
    rw [h.code, hcode, encode_append w, show posAfter w = (encode w).length from rfl, List.drop_left, encode_append ctl,
      show posAfter ctl = (encode ctl).length from rfl, List.take_left]
  have e1 : (posAfter ctl * 16777216 + posAfter w) % 16777216 = posAfter w := by omega
  have e2 : (posAfter ctl * 16777216 + posAfter w) / 16777216 = posAfter ctl := by omega
  have hgo : (match findFor v (m.skip 2).calls with
      | none => Out.ok ((m.skip 2).fail eNextWithoutFor)
      | some k =>
        match (m.skip 2).calls[k]? with
        | none => .ub
        | some c =>
          if c.addr % 16777216 + c.addr / 16777216 > (m.skip 2).exec.code.length then .ub
          else .ok { m.skip 2 with
            frames := ⟨{ (m.skip 2).exec with argc := 0 }, (m.skip 2).core.error, (m.skip 2).calls.length - 1 - k⟩ :: (m.skip 2).frames
            exec := ⟨((m.skip 2).exec.code.drop (c.addr % 16777216)).take (c.addr / 16777216), 0, some 0, 0, (m.skip 2).exec.argc, false⟩
            core := { (m.skip 2).core with stack := [] } }) = .ok (nested m ctl (m.exec.index + 2) (m.calls.length - 1 - k)) := by
    rw [show (m.skip 2).calls = m.calls from rfl, hf]
    simp only [hc, e1, e2, Mach.skip]
    rw [if_neg (by omega), hslice]
    unfold nested
    simp only [hargc]
  have hcmd : cmdNextM (m.skip 2) = .ok (nested m ctl (m.exec.index + 2) (m.calls.length - 1 - k)) := by
    unfold cmdNextM
    rcases hst with ⟨rfl, hst⟩ | ⟨q, rfl, hst⟩
    · rw [show (m.skip 2).core.stack = [] from hst]
      exact hgo
    · rw [show (m.skip 2).core.stack = [.var false false q] from hst]
      exact hgo
  rw [h.step]
  have : execInstr env next.op (arg next) (m.skip 2) = (cmdNextM (m.skip 2)).bind fun m' =>
      .ok { m' with core := { m'.core with stack := [] } } := by
    rcases hn with rfl | rfl <;> rfl
  rw [this, hcmd]
  show Out.ok (clearArgc next.op _) = _
  rw [clearArgc_ne hop, hpos]
  rfl

/-- NEXT up to the evaluation of limit and step. -/
theorem next_starts {m : Mach σ} {x w ctl z post : List Instr} {next : Instr} {p : Ptr} {cs : List Call}
    (hn : isCmd cmdNext next) (h : At m x (next :: post)) (hargc : m.exec.argc = 0)
    (hcode : x ++ next :: post = w ++ (ctl ++ z)) (hw : posAfter w < 16777216)
    (hst : m.core.stack = [] ∨ m.core.stack = [.var false false p])
    (hc : m.calls = ⟨false, posAfter ctl * 16777216 + posAfter w, p⟩ :: cs) :
    step env m = .ok (nested m ctl (posAfter (x ++ [next])) cs.length) := by
  have hfind : ∀ v : Option Ptr, (v = none ∨ v = some p) → findFor v m.calls = some 0 := by
    intro v hv
    rw [hc]
    unfold findFor
    rw [List.findIdx?_cons]
    rcases hv with rfl | rfl <;> simp
  have hl : cs.length = m.calls.length - 1 - 0 := by rw [hc]; simp
  rw [hl]
  rcases hst with hst | hst
  · exact next_finds hn h hargc hcode hw (Or.inl ⟨rfl, hst⟩) (hfind _ (Or.inl rfl)) (by rw [hc]; rfl)
  · exact next_finds hn h hargc hcode hw (Or.inr ⟨p, rfl, hst⟩) (hfind _ (Or.inr rfl)) (by rw [hc]; rfl)

/-- The whole of NEXT. -/
theorem next_runs {Pre Inv0 : Core σ → Prop} {Inv : γ → Core σ → Prop} {p : Ptr} {a b s : Int} {l : Loop} (hl : l.Over env Pre Inv0 Inv g0 f p a b s)
    {g : γ} {m : Mach σ} {pre post : List Instr} {cs : List Call}
    (h : Ready (Inv g) m (pre ++ (l.head ++ (l.ctl ++ l.beginI :: l.body))) (l.nextVar ++ l.next :: post))
    (hw : posAfter (pre ++ l.head) < 16777216)
    (hc : m.calls = ⟨false, posAfter l.ctl * 16777216 + posAfter (pre ++ l.head), p⟩ :: cs) :
    ∃ m', Reaches env m m' ∧ m'.frames = m.frames ∧ m'.labels = m.labels ∧ 
      if m.core.mem p + s > 2147483647 ∨ m.core.mem p + s < -2147483648 then m'.core.error = eOverflow
      else m'.core.mem p = m.core.mem p + s ∧
        if Past s (m.core.mem p + s) b then
          Ready (Inv g) m' (pre ++ l.code) post ∧ m'.calls = cs
        else Ready (Inv g) m' (pre ++ l.head) (l.ctl ++ l.beginI :: (l.tail ++ post)) ∧ m'.calls = m.calls := by
  obtain ⟨hat, hargc, hmain, hstack, hinv⟩ := h
  -- the variable
  have hv : ∃ c1, Reaches env m (after m (pre ++ (l.head ++ (l.ctl ++ l.beginI :: l.body))) l.nextVar c1) ∧
      (c1.stack = [] ∨ c1.stack = [.var false false p]) ∧ c1.mem p = m.core.mem p ∧ Inv g { c1 with stack := [] } ∧ c1.error = 0 := by
    rcases hl.next with hn | hn
    · refine ⟨m.core, ?_, Or.inl hstack, rfl, hl.stack _ _ _ hinv, hat.error⟩
      rw [hn]
      have : after m (pre ++ (l.head ++ (l.ctl ++ l.beginI :: l.body))) [] m.core = m := by
        unfold after
        rw [List.append_nil, ← hat.index]
      rw [this]; exact Reaches.refl m
    · obtain ⟨c', g1, g2, g3, g4, g5⟩ := hn g (m.core.mem p) m _ _ hat hargc (by rw [hstack]; decide) ⟨hinv, rfl⟩
      refine ⟨c', g1, Or.inr ?_, g5, hl.stack _ _ _ g4, g3⟩
      rw [g2, hstack]; rfl
  obtain ⟨c1, r1, hs1, hm1, hi1, he1⟩ := hv
  have hat1 := hat.after (c := c1) he1
  -- the nested run
  have r2 := next_starts (env := env) (w := pre ++ l.head) (ctl := l.ctl) (z := l.beginI :: (l.body ++ (l.nextVar ++ l.next :: post)))
    (p := p) (cs := cs) hl.isNext hat1 hargc (by simp) hw hs1 hc
  obtain ⟨c2, r3, q1, q2, q3, q4, q5⟩ := ctl_runs hl g (nested (after m (pre ++ (l.head ++ (l.ctl ++ l.beginI :: l.body))) l.nextVar c1) l.ctl
    (posAfter (pre ++ (l.head ++ (l.ctl ++ l.beginI :: l.body)) ++ l.nextVar ++ [l.next])) cs.length) [] []
    ⟨by simp [nested], rfl, he1⟩ rfl rfl hi1
  have hreach := (r1.trans (Reaches.one r2)).trans r3
  -- its end
  generalize hM : after (nested (after m (pre ++ (l.head ++ (l.ctl ++ l.beginI :: l.body))) l.nextVar c1) l.ctl
    (posAfter (pre ++ (l.head ++ (l.ctl ++ l.beginI :: l.body)) ++ l.nextVar ++ [l.next])) cs.length) [] l.ctl c2 = M at hreach
  have hend : M.ended = true := by
    rw [← hM]
    unfold Mach.ended
    simp [after, nested, posAfter]
  have hst2 : (if M.core.stack.length = 1 then Out.ok 4096 else M.core.argNum 1) = .ok s := by
    rw [← hM]
    show (if c2.stack.length = 1 then Out.ok 4096 else c2.argNum 1) = .ok s
    rcases q5 with ⟨q5, rfl⟩ | ⟨q5, q6⟩
    · rw [if_pos q5]
    · rw [if_neg (by omega), q6]
  have hfin : step env M = (let m' : Mach σ := { m with
        exec := { m.exec with index := posAfter (pre ++ l.code), argc := 0 }
        core := { c2 with error := 0, stack := [] } }
      if c2.mem p + s > 2147483647 ∨ c2.mem p + s < -2147483648 then .ok (m'.fail eOverflow)
      else
        let m' := { m' with core := m'.core.store p (c2.mem p + s) }
        if passed s (c2.mem p + s) b then .ok { m' with calls := cs }
        else .ok { m' with exec := { m'.exec with index := posAfter (pre ++ l.head) } }) := by
    unfold step
    rw [if_pos hend]
    have hfr : M.frames = ⟨{ m.exec with index := posAfter (pre ++ l.code), argc := 0 }, 0, cs.length⟩ :: m.frames := by
      rw [← hM]
      simp only [after, nested, he1, Loop.code, Loop.tail]
      simp
    have hcalls : M.calls = ⟨false, posAfter l.ctl * 16777216 + posAfter (pre ++ l.head), p⟩ :: cs := by rw [← hM]; exact hc
    rw [hfr]
    dsimp only
    unfold finishNext
    rw [hcalls]
    simp only [List.length_cons, Nat.add_sub_cancel, Nat.sub_self, List.getElem?_cons_zero]
    rw [if_neg (by omega), show M.core.argNum 0 = .ok b by rw [← hM]; exact q4, hst2]
    simp only [Out.bind]
    have hcore : M.core = c2 := by rw [← hM]; rfl
    have hlab : M.labels = m.labels := by rw [← hM]; rfl
    simp only [hcore, hlab, List.eraseIdx_zero, List.tail_cons, show (posAfter l.ctl * 16777216 + posAfter (pre ++ l.head)) % 16777216 = posAfter (pre ++ l.head) by omega]
    rw [← hc]
  have q2' : c2.mem p = m.core.mem p := by
    rw [q2]; exact hm1
  rw [q2'] at hfin
  have hinv2 : ∀ v, Inv g ({ c2 with error := 0, stack := [] }.store p v) := by
    intro v
    have : ({ c2 with error := 0, stack := [] } : Core σ) = { c2 with stack := [] } := by rw [← q1]
    rw [this]
    exact hl.store _ _ _ (hl.stack _ _ _ q3)
  by_cases ho : m.core.mem p + s > 2147483647 ∨ m.core.mem p + s < -2147483648
  · dsimp only at hfin
    rw [if_pos ho] at hfin
    refine ⟨_, hreach.trans (Reaches.one hfin), rfl, rfl, ?_⟩
    rw [if_pos ho]
    rfl
  · dsimp only at hfin
    rw [if_neg ho] at hfin
    by_cases hp : Past s (m.core.mem p + s) b
    · rw [if_pos ((passed_iff _ _ _).mpr hp)] at hfin
      refine ⟨_, hreach.trans (Reaches.one hfin), rfl, rfl, ?_⟩
      rw [if_neg ho, if_pos hp]
      refine ⟨if_pos rfl, ⟨⟨?_, rfl, rfl⟩, rfl, hmain, rfl, hinv2 _⟩, rfl⟩
      show m.exec.code = _
      rw [hat.code]
      simp [Loop.code, Loop.tail]
    · rw [if_neg (fun h => hp ((passed_iff _ _ _).mp h))] at hfin
      refine ⟨_, hreach.trans (Reaches.one hfin), rfl, rfl, ?_⟩
      rw [if_neg ho, if_neg hp]
      refine ⟨if_pos rfl, ⟨⟨?_, rfl, rfl⟩, rfl, hmain, rfl, hinv2 _⟩, rfl⟩
      show m.exec.code = _
      rw [hat.code]
      simp [Loop.tail]

/-- FOR. -/
theorem for_runs {Pre Inv0 : Core σ → Prop} {Inv : γ → Core σ → Prop} {p : Ptr} {a b s : Int} {l : Loop} (hl : l.Over env Pre Inv0 Inv g0 f p a b s)
    {m : Mach σ} {pre post : List Instr} (h : Ready Pre m pre (l.code ++ post)) (hwf : ∀ i ∈ post, i.WF)
    (hw : posAfter (pre ++ l.head) < 16777216) (hd : m.calls.length < 255) :
    ∃ m', Reaches env m m' ∧ Ready (Inv g0) m' (pre ++ l.head) (l.ctl ++ l.beginI :: (l.tail ++ post)) ∧ m'.core.mem p = a ∧
      m'.calls = ⟨false, posAfter l.ctl * 16777216 + posAfter (pre ++ l.head), p⟩ :: m.calls ∧ m'.frames = m.frames ∧ m'.labels = m.labels := by
  obtain ⟨hat, hargc, hmain, hstack, hinv⟩ := h
  have e0 : l.code ++ post = l.var ++ (l.for' :: (l.start ++ assign :: (l.ctl ++ l.beginI :: (l.tail ++ post)))) := by
    simp [Loop.code, Loop.head]
  rw [e0] at hat
  obtain ⟨c0, r1, st0, er0, inv0⟩ := hl.var m pre _ hat hargc (by rw [hstack]; decide) hinv
  rw [hstack, List.nil_append] at st0
  have hat1 := hat.after (c := c0) er0
  -- FOR itself
  have hall : ∀ i ∈ l.for' :: (l.start ++ assign :: (l.ctl ++ l.beginI :: (l.tail ++ post))), i.WF := by
    intro i hi
    have : i ∈ l.code ++ post := by rw [e0]; exact List.mem_append_right _ hi
    rcases List.mem_append.mp this with h | h
    · exact hl.wf i h
    · exact hwf i h
  generalize hm1 : after m pre l.var c0 = m1 at r1 hat1
  have hstack1 : m1.core.stack = [.var false false p] := by rw [← hm1]; exact st0
  have hcalls1 : m1.calls = m.calls := by rw [← hm1]; rfl
  have hscan : (m1.skip 2).exec.scanFor bcOperator (· == opAssign) (posAfter (pre ++ l.var ++ [l.for'])) =
      .ok (some (posAfter (pre ++ l.var ++ [l.for'] ++ l.start))) := by
    refine execScan_mid (m := m1.skip 2) bcOperator _ opOp l.start (l.ctl ++ l.beginI :: (l.tail ++ post)) opAssign ?_ (by simp) (fun j hj => hall j (by simp only [List.mem_cons]; exact Or.inr hj)) ?_
    · show m1.exec.code = _
      rw [hat1.code]; simp [assign]
    · intro y hy
      by_contra hne
      have : y = opAssign := by simpa using hne
      rw [this] at hy
      exact hl.noAssign hy
  have hbegin : bcScan m1.exec.code (posAfter (pre ++ l.head)) bcBeginLoop = .ok (some (posAfter (pre ++ l.head ++ l.ctl))) := by
    have : m1.exec.code = encode (pre ++ l.head ++ (l.ctl ++ l.beginI :: (l.tail ++ post))) := by
      rw [hat1.code]; simp [Loop.head]
    rw [this]
    refine bcScan_mid _ _ _ _ _ (fun j hj => hall j ?_) (fun j hj => (hl.plain j hj).1) rfl
    simp only [List.mem_cons, List.mem_append] at hj ⊢
    tauto
  have hidx : m1.exec.index + 2 = posAfter (pre ++ l.var ++ [l.for']) := by
    rw [posAfter_snoc, hat1.index]; rcases hl.isFor with h | h <;> rw [h] <;> rfl
  have hstart : posAfter (pre ++ l.var ++ [l.for'] ++ l.start) + 2 = posAfter (pre ++ l.head) := by
    have : pre ++ l.head = (pre ++ l.var ++ [l.for'] ++ l.start) ++ [assign] := by simp [Loop.head]
    rw [this, posAfter_snoc]; rfl
  have hfor : cmdForM (m1.skip 2) = .ok { m1.skip 2 with
      calls := ⟨false, posAfter l.ctl * 16777216 + posAfter (pre ++ l.head), p⟩ :: m.calls } := by
    unfold cmdForM
    rw [show (m1.skip 2).exec.index = posAfter (pre ++ l.var ++ [l.for']) from hidx, hscan]
    simp only [Out.bind]
    rw [if_neg (show ¬ (m1.skip 2).calls.length = 255 by show ¬ m1.calls.length = 255; rw [hcalls1]; omega), hstart,
      show (m1.skip 2).exec.code = m1.exec.code from rfl, hbegin]
    simp only [show (m1.skip 2).core = m1.core from rfl, hstack1]
    have e1 : posAfter (pre ++ l.head ++ l.ctl) - posAfter (pre ++ l.head) = posAfter l.ctl := by
      rw [posAfter_append _ l.ctl]; omega
    rw [e1, addr_eq _ _ hw hl.short, show (m1.skip 2).calls = m.calls from hcalls1]
  have r2 : step env m1 = .ok (clearArgc l.for'.op { m1.skip 2 with
      calls := ⟨false, posAfter l.ctl * 16777216 + posAfter (pre ++ l.head), p⟩ :: m.calls }) := by
    rw [hat1.step]
    have : execInstr env l.for'.op (arg l.for') (m1.skip 2) = (cmdForM (m1.skip 2)).bind fun m' => .ok m' := by
      rcases hl.isFor with h | h <;> rw [h] <;> rfl
    rw [this, hfor]
    rfl
  rw [clearArgc_ne (by rcases hl.isFor with h | h <;> rw [h] <;> decide)] at r2
  generalize hm2 : ({ m1.skip 2 with
      calls := ⟨false, posAfter l.ctl * 16777216 + posAfter (pre ++ l.head), p⟩ :: m.calls } : Mach σ) = m2x at r2
  generalize hm2' : ({ m2x with exec := { m2x.exec with argc := 0 } } : Mach σ) = m2 at r2
  have hcore2 : m2.core = c0 := by rw [← hm2', ← hm2, ← hm1]; rfl
  have hcalls2 : m2.calls = ⟨false, posAfter l.ctl * 16777216 + posAfter (pre ++ l.head), p⟩ :: m.calls := by rw [← hm2', ← hm2]
  have hat2 : At m2 (pre ++ l.var ++ [l.for']) (l.start ++ (assign :: (l.ctl ++ l.beginI :: (l.tail ++ post)))) := by
    refine ⟨?_, ?_, ?_⟩
    · rw [← hm2', ← hm2]
      show m1.exec.code = _
      rw [hat1.code]; simp
    · rw [← hm2', ← hm2]; exact hidx
    · rw [hcore2]; exact er0
  have hargc2 : m2.exec.argc = 0 := by rw [← hm2']
  -- start value
  obtain ⟨c3, en, r3, s3, n3, v3, e3, p3, k3, i3⟩ := hl.start m2 _ _ hat2 hargc2
    (by rw [hcore2, st0]; have := hl.startShort; simp only [List.length_singleton]; omega) (by rw [hcore2]; exact inv0)
  rw [hcore2, st0] at s3
  have hat3 := hat2.after (c := c3) e3
  -- assignment
  have r4 : Reaches env (after m2 (pre ++ l.var ++ [l.for']) l.start c3)
      (after (after m2 (pre ++ l.var ++ [l.for']) l.start c3) (pre ++ l.var ++ [l.for'] ++ l.start) [assign] { c3.store p a with stack := [] }) := by
    refine At.simple hat3 (by decide) _ hargc2 ?_
    rw [exec_op]
    refine congrArg _ ?_
    show execOp env opAssign m2.exec.argc c3 = _
    exact execOp_assign (rest := []) s3 n3 v3
  refine ⟨_, (r1.trans (Reaches.one r2)).trans (r3.trans r4), ⟨⟨?_, ?_, ?_⟩, hargc2, ?_, rfl, ?_⟩, ?_, ?_, ?_, ?_⟩
  · show m2.exec.code = _
    rw [hat2.code]; simp [Loop.head]
  · show posAfter _ = posAfter _
    simp [Loop.head]
  · exact e3
  · show m2.exec.main = true
    rw [← hm2', ← hm2, ← hm1]; exact hmain
  · exact hl.stack _ _ _ (hl.store _ _ _ (hl.weaken _ i3))
  · exact if_pos rfl
  · exact hcalls2
  · show m2.frames = _
    rw [← hm2', ← hm2, ← hm1]; rfl
  · show m2.labels = _
    rw [← hm2', ← hm2, ← hm1]; rfl

/-- From the top of the loop into the body. -/
theorem top_runs {Pre Inv0 : Core σ → Prop} {Inv : γ → Core σ → Prop} {p : Ptr} {a b s : Int} {l : Loop} (hl : l.Over env Pre Inv0 Inv g0 f p a b s)
    {g : γ} {m : Mach σ} {pre post : List Instr} {cs : List Call} {addr : Nat}
    (h : Ready (Inv g) m (pre ++ l.head) (l.ctl ++ l.beginI :: (l.tail ++ post)))
    (hc : m.calls = ⟨false, addr, p⟩ :: cs) (hp : ¬ Past s (m.core.mem p) b) :
    ∃ m', Reaches env m m' ∧ Ready (Inv g) m' (pre ++ (l.head ++ (l.ctl ++ [l.beginI]))) (l.tail ++ post) ∧ m'.core.mem p = m.core.mem p ∧
      m'.calls = m.calls ∧ m'.frames = m.frames ∧ m'.labels = m.labels := by
  obtain ⟨hat, hargc, hmain, hstack, hinv⟩ := h
  obtain ⟨c1, r1, q1, q2, q3, q4, q5⟩ := ctl_runs hl g m _ _ hat hargc hstack hinv
  have hat1 := hat.after (c := c1) q1
  have r2 := begin_runs (env := env) hat1 hargc hc q4 q5 (by show ¬ Past s (c1.mem p) b; rw [q2]; exact hp)
  refine ⟨_, r1.trans r2, ⟨⟨?_, ?_, q1⟩, hargc, hmain, rfl, hl.stack _ _ _ q3⟩, q2, rfl, rfl, rfl⟩
  · show m.exec.code = _
    rw [hat.code]; simp
  · show posAfter _ = posAfter _
    simp [Loop.beginI]

/-- One iteration: from the top of the loop through the body to after NEXT. -/
theorem iteration {Pre Inv0 : Core σ → Prop} {Inv : γ → Core σ → Prop} {p : Ptr} {a b s : Int} {l : Loop} (hl : l.Over env Pre Inv0 Inv g0 f p a b s)
    {g : γ} {m : Mach σ} {pre post : List Instr} {cs : List Call}
    (h : Ready (Inv g) m (pre ++ l.head) (l.ctl ++ l.beginI :: (l.tail ++ post))) (hw : posAfter (pre ++ l.head) < 16777216)
    (hc : m.calls = ⟨false, posAfter l.ctl * 16777216 + posAfter (pre ++ l.head), p⟩ :: cs) (hp : ¬ Past s (m.core.mem p) b) :
    ∃ m1 m', Reaches env m m1 ∧ AtBody p l pre post (m.core.mem p) m1 ∧ Reaches env m1 m' ∧ m'.frames = m.frames ∧ m'.labels = m.labels ∧
      if m.core.mem p + s > 2147483647 ∨ m.core.mem p + s < -2147483648 then m'.core.error = eOverflow
      else m'.core.mem p = m.core.mem p + s ∧
        if Past s (m.core.mem p + s) b then
          Ready (Inv (f (m.core.mem p) g)) m' (pre ++ l.code) post ∧ m'.calls = cs
        else Ready (Inv (f (m.core.mem p) g)) m' (pre ++ l.head) (l.ctl ++ l.beginI :: (l.tail ++ post)) ∧ m'.calls = m.calls := by
  obtain ⟨m1, r1, h1, v1, c1, f1, l1⟩ := top_runs hl h hc hp
  have hb : At m1 (pre ++ (l.head ++ (l.ctl ++ [l.beginI]))) (l.body ++ (l.nextVar ++ l.next :: post)) :=
    h1.at'.regroup rfl (by simp [Loop.tail])
  obtain ⟨m2, r2, at2, argc2, main2, st2, c2, f2, l2, v2, i2⟩ := hl.body g _ m1 _ _ hb h1.argc h1.main h1.stack rfl h1.inv
  have at2' : At m2 (pre ++ (l.head ++ (l.ctl ++ l.beginI :: l.body))) (l.nextVar ++ l.next :: post) := at2.regroup (by simp) rfl
  obtain ⟨m3, r3, f3, l3, h3⟩ := next_runs hl (pre := pre) (post := post) (cs := cs) ⟨at2', argc2, main2, st2, i2⟩ hw (by rw [c2, c1, hc])
  rw [v2, v1] at h3
  rw [show m2.calls = m.calls by rw [c2, c1]] at h3
  exact ⟨m1, m3, r1, ⟨h1.at', v1⟩, r2.trans r3, by rw [f3, f2, f1], by rw [l3, l2, l1], h3⟩

end Sbc.Machine
