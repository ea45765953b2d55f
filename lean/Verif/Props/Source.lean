import Verif.Proof.SourceEnd
import Verif.Proof.SourceDecide
set_option autoImplicit false
/-!
# C85, C86, C87: programs do what they say
-/
namespace Sbc.Source
open Sbc Sbc.Tok Sbc.Tok.Spec Sbc.Machine

variable {σ : Type}

/-- What is known after compiling. -/
theorem compiled (pre : Tk) (n : Nat) (o : Obj) (ht : TableFrom n o.labels) {src : List (List Nat)} {prog : List Line}
    (h : Correct n o.cap src prog) :
    ∃ o', tokenize plainOpts pre (programText src) o = .ok (o', none) ∧ o'.buf = encode (progCode prog) ∧ KnowsLabels prog o'.labels :=
  compile_src pre n o ht src prog h.lines h.written h.wf h.cap h.labels h.room

theorem begin_match {prog : List Line} {U : List (List Nat)} {L : Labels.Table} {o : List Nat} {core : Core σ} {k r : Nat}
    (hwf : ∀ l ∈ prog, l.WF) (ho : o = encode (progCode prog)) (hf : Fresh k U core r) :
    Match prog U (Uses prog) L (begin (.empty r) core.ext) (start o L core) := by
  obtain ⟨cv, hv⟩ := hf.vars
  exact start_match hwf ho (holds_fresh core k cv hv hf.room hf.arrays)

theorem size_of {b : List Nat} {prog : List Line} (h : b = encode (progCode prog)) (hl : b.length ≤ maxCode) :
    posAfter (progCode prog) < 16777216 := by
  rw [h] at hl
  show (encode (progCode prog)).length < _
  unfold maxCode at hl
  omega

/-- **C85.** A correct program, compiled and run, does what its text says.  If by its meaning the program comes to an end
after some statements (normally, by END, or with an error) then the interpreter comes to an end with the same error
number, the same values of all variables and the same effects on the rest of the system; and at every point of its
meaning before that, the interpreter comes to a state with these variables and effects.  (If the compiled program has
room; the compiler does not check this.) -/
theorem C85_program (env : Env σ) (W : World σ) (pre : Tk) (n k r : Nat) (o : Obj) (core : Core σ)
    (src : List (List Nat)) (prog : List Line) (U : List (List Nat))
    (ht : TableFrom n o.labels) (hprog : Correct n o.cap src prog) (hU : AllVars prog U) (hfresh : Fresh k U core r)
    (hperf : Performs env W (Uses prog)) :
    ∃ o', tokenize plainOpts pre (programText src) o = .ok (o', none) ∧ (o'.buf.length ≤ maxCode →
      ∀ j, match steps W prog j (begin (.empty r) core.ext) with
        | .done er st w => ∃ m, Reaches env (start o'.buf o'.labels core) m ∧ Halted m ∧ m.core.error = er ∧
            Shows U m.core st ∧ m.core.ext = w
        | .run c => ∃ m, Reaches env (start o'.buf o'.labels core) m ∧ m.core.error = 0 ∧ Shows U m.core c.store ∧ m.core.ext = c.world
        | .undefined => True) := by
  obtain ⟨o', h1, h2, hL⟩ := compiled pre n o ht hprog
  refine ⟨o', h1, fun hfits j => ?_⟩
  have hsize := size_of h2 hfits
  have hm : Match prog U (Uses prog) o'.labels (begin (.empty r) core.ext) (start o'.buf o'.labels core) := begin_match hprog.wf h2 hfresh
  have hfit := fits_all hprog.wf hU
  cases hs : steps W prog j (begin (.empty r) core.ext) with
  | undefined => trivial
  | done er st w =>
    obtain ⟨m, hr, hh, he, hst, hw⟩ := sim_done hperf hL hfit hsize j _ _ er st w hm hs
    exact ⟨m, hr, hh, he, hst.shows, hw⟩
  | run c =>
    obtain ⟨m, hr, hm'⟩ := sim_run hperf hL hfit hsize j _ c _ hm hs
    exact ⟨m, hr, hm'.base.error, hm'.base.holds.shows, hm'.base.ext⟩

/-- **C86.** A correct program that by its meaning goes on forever runs forever: after any number of steps the
interpreter has met nothing undefined and has not come to its end. -/
theorem C86_forever (env : Env σ) (W : World σ) (pre : Tk) (n k r : Nat) (o : Obj) (core : Core σ)
    (src : List (List Nat)) (prog : List Line) (U : List (List Nat))
    (ht : TableFrom n o.labels) (hprog : Correct n o.cap src prog) (hU : AllVars prog U) (hfresh : Fresh k U core r)
    (hperf : Performs env W (Uses prog)) (hf : Forever W prog (begin (.empty r) core.ext)) :
    ∃ o', tokenize plainOpts pre (programText src) o = .ok (o', none) ∧ (o'.buf.length ≤ maxCode →
      ∀ i, ∃ m, Machine.steps env i (start o'.buf o'.labels core) = .ok m ∧ ¬ Halted m) := by
  obtain ⟨o', h1, h2, hL⟩ := compiled pre n o ht hprog
  refine ⟨o', h1, fun hfits i => ?_⟩
  exact never_halts hperf hL (fits_all hprog.wf hU) (size_of h2 hfits) (begin_match hprog.wf h2 hfresh) hf i

/-- Every program goes on forever, or ends, or becomes undefined. -/
theorem fate (W : World σ) (prog : List Line) (cfg : Cfg σ) :
    Forever W prog cfg ∨ (∃ j er st w, steps W prog j cfg = .done er st w) ∨ ∃ j, steps W prog j cfg = .undefined := by
  by_cases h : Forever W prog cfg
  · exact Or.inl h
  · obtain ⟨j, hj⟩ := Classical.not_forall.mp h
    refine Or.inr ?_
    cases hs : steps W prog j cfg with
    | run c => exact absurd ⟨c, hs⟩ hj
    | done er st w => exact Or.inl ⟨j, er, st, w, hs⟩
    | undefined => exact Or.inr ⟨j, hs⟩

/-- **C86.** Conversely: when the interpreter comes to its end, then by its meaning the program ends, with the error
number, variables and effects that the interpreter shows (provided nothing in the program is undefined). -/
theorem C86_ends (env : Env σ) (W : World σ) (pre : Tk) (n k r : Nat) (o : Obj) (core : Core σ)
    (src : List (List Nat)) (prog : List Line) (U : List (List Nat))
    (ht : TableFrom n o.labels) (hprog : Correct n o.cap src prog) (hU : AllVars prog U) (hfresh : Fresh k U core r)
    (hperf : Performs env W (Uses prog))
    (hdef : ∀ j, steps W prog j (begin (.empty r) core.ext) ≠ .undefined) :
    ∃ o', tokenize plainOpts pre (programText src) o = .ok (o', none) ∧ (o'.buf.length ≤ maxCode →
      ∀ m, Reaches env (start o'.buf o'.labels core) m → Halted m →
        ∃ j st, steps W prog j (begin (.empty r) core.ext) = .done m.core.error st m.core.ext ∧ Shows U m.core st) := by
  obtain ⟨o', h1, h2, hL⟩ := compiled pre n o ht hprog
  refine ⟨o', h1, fun hfits m hr hh => ?_⟩
  have hsize := size_of h2 hfits
  have hm : Match prog U (Uses prog) o'.labels (begin (.empty r) core.ext) (start o'.buf o'.labels core) := begin_match hprog.wf h2 hfresh
  have hfit := fits_all hprog.wf hU
  rcases fate W prog (begin (.empty r) core.ext) with hf | ⟨j, er, st, w, hs⟩ | ⟨j, hs⟩
  · obtain ⟨i, hi⟩ := hr
    obtain ⟨m', hm', hn⟩ := never_halts hperf hL hfit hsize hm hf i
    rw [hi] at hm'
    cases hm'
    exact absurd hh hn
  · obtain ⟨m', hr', hh', he, hst, hw⟩ := sim_done hperf hL hfit hsize j _ _ er st w hm hs
    have := halted_unique hr hr' hh hh'
    subst this
    exact ⟨j, st, by rw [hs, he, hw], hst.shows⟩
  · exact absurd hs (hdef j)

/-! ### A concrete program -/

/-- The text of the sample. -/
def sampleText : List (List Nat) :=
  [chars "A=3", chars "@LOOP:print A;\"X\"", chars "A=A-1:LOCATE A,2", chars "  IF A>0 THEN @LOOP ELSE GOSUB @S:END 'ready", chars "@S", chars "B=A/0"]

/-- What it means. -/
def sampleProg : List Line :=
  [⟨none, [.assign [65] (.num [51])], none, none⟩,
   ⟨some (chars "LOOP"), [.print [(some (.var [65]), opSemicolon)] (some (.str [88]))], none, none⟩,
   ⟨none, [.assign [65] (.bin opSubtract (.var [65]) (.num [49])), .cmd 1 [.var [65], .num [50]]], none, none⟩,
   ⟨none, [], some ⟨.bin 11 (.var [65]) (.num [48]), true, .jump (chars "LOOP"), some (.run [.gosub [83], .fin])⟩, none⟩,
   ⟨some [83], [], none, none⟩,
   ⟨none, [.assign [66] (.bin opDivide (.var [65]) (.num [48]))], none, none⟩]

/-- The words of its lines. -/
def sampleWords : List (Nat × List (Word × Nat) × Ending) :=
  [(0, [(.name [65], 0), (.signOp 6 [61], 0), (.number [51], 0)], .nothing),
   (0, [(.label (chars "LOOP"), 0), (.colon, 0), (.command 0 (chars "print"), 1), (.name [65], 0), (.signOp 5 [59], 0), (.string [88], 0)], .nothing),
   (0, [(.name [65], 0), (.signOp 6 [61], 0), (.name [65], 0), (.signOp 2 [45], 0), (.number [49], 0), (.colon, 0),
        (.command 1 (chars "LOCATE"), 1), (.name [65], 0), (.signOp 1 [44], 0), (.number [50], 0)], .nothing),
   (2, [(.command 8 (chars "IF"), 1), (.name [65], 0), (.signOp 11 [62], 0), (.number [48], 1), (.command 9 (chars "THEN"), 1),
        (.label (chars "LOOP"), 1), (.command 10 (chars "ELSE"), 1), (.command 13 (chars "GOSUB"), 1), (.label [83], 0), (.colon, 0),
        (.command 16 (chars "END"), 1)], .tick (chars "ready")),
   (0, [(.label [83], 0)], .nothing),
   (0, [(.name [66], 0), (.signOp 6 [61], 0), (.name [65], 0), (.signOp 4 [47], 0), (.number [48], 0)], .nothing)]

theorem written_list : (src : List (List Nat)) → (prog : List Line) → (ws : List (Nat × List (Word × Nat) × Ending)) →
    src.length = prog.length → src.length = ws.length →
    (∀ x ∈ src.zip (prog.zip ws), LineWF x.2.2.2.1 x.2.2.2.2 ∧ x.1 ++ [13] = List.replicate x.2.2.1 32 ++ lineText x.2.2.2.1 x.2.2.2.2 ∧
      lineTokens x.2.2.2.1 x.2.2.2.2 = x.2.1.toks) → List.Forall₂ Written src prog
  | [], [], _, _, _, _ => .nil
  | a :: src, l :: prog, w :: ws, h1, h2, h => by
    refine .cons ?_ (written_list src prog ws (by simpa using h1) (by simpa using h2) fun x hx => h x (by simp [hx]))
    have := h (a, l, w) (by simp)
    exact ⟨w.1, w.2.1, w.2.2, this⟩
  | [], _ :: _, _, h, _, _ => by cases h
  | _ :: _, [], _, h, _, _ => by cases h
  | _ :: _, _ :: _, [], _, h, _ => by cases h

theorem sample_correct : Correct 2 100 sampleText sampleProg where
  lines := by decide +kernel
  written := written_list _ _ sampleWords (by decide) (by decide) (by decide +kernel)
  wf := plain_all (by decide +kernel)
  cap := by decide
  labels := by decide +kernel
  room := by decide +kernel

/-- A number as a value. -/
def numeric (o : Out Int) : Out Val := o.bind fun v => .ok (.num v)

/-- What the expressions of the samples find: ABS, FLOOR, SGN and LOG (for arguments where it has no value) as in the model of
`mathptc.c`, the length of a string, its first characters, the constants TRUE, FALSE, CANCEL and VERSION, and as CSRX the number of commands
so far. -/
def recordLook (w : List (Nat × List Val)) : Look where
  fn := fun f vs => match vs with
    | [.num x] => if f = 0 then numeric (Arith.fnAbs x) else if f = 13 then numeric (Arith.fnFloor x) else if f = 28 then numeric (Arith.fnSgn x)
      else if f = 21 ∧ x ≤ 0 then .err .illegalFunctionCall else .ub
    | [.str s] => if f = 20 then .ok (.num (s.length * 4096)) else .ub
    | [.str s, .num n] => if f = 19 then .ok (.str (s.take (n / 4096).toNat)) else .ub
    | [.str s, .num a, .num n] => if f = 22 then .ok (.str ((s.drop (a / 4096).toNat).take (n / 4096).toNat)) else .ub
    | _ => .ub
  sys := fun v => if v = 0 then .ok (.num 4096) else if v = 1 then .ok (.num 0) else if v = 2 then .ok (.num (-4096)) else
    if v = 17 then .ok (.num (w.length * 4096)) else .ub

/-- The answer of a function, system variable or operator. -/
def answer {σ : Type} (o : Out Val) (c : Core σ) (rest : List Entry) : Out (Core σ) :=
  match o with
  | .ok v => .ok { c with stack := rest ++ [v.entry] }
  | .err e => .ok { c with stack := rest, error := errorNumber e }
  | .ub => .ub

/-- The operators with strings of the sample. -/
def operator {σ : Type} (op : Nat) (c : Core σ) : Out (Core σ) :=
  match c.stack.reverse with
  | b :: a :: rest =>
    if op = opAssign then
      match a, entryVal c b with
      | .var true false p, some (.str s) => .ok { c.storeStr p s with stack := rest.reverse }
      | _, _ => .ub
    else
      match entryVal c a, entryVal c b with
      | some x, some y => answer (textual op x y) c rest.reverse
      | _, _ => .ub
  | _ => .ub

/-- Surroundings that record what the commands are given. -/
def recorder : Env (List (Nat × List Val)) where
  other := fun op d argc c =>
    if op = bcFunction then
      answer ((recordLook c.ext).fn d ((c.stack.drop (c.stack.length - argc)).filterMap (entryVal c))) c (c.stack.take (c.stack.length - argc))
    else if op = bcSysvar then answer ((recordLook c.ext).sys d) c c.stack
    else if op = bcOperator then operator d c
    else .ok { c with stack := [], ext := c.ext ++ [(d, c.stack.filterMap (entryVal c))], error := 0 }

/-- What they do. -/
def record : World (List (Nat × List Val)) where
  perform := fun d vs w => (w ++ [(d, vs)], 0)
  look := recordLook

theorem answers {σ : Type} (o : Out Val) (c : Core σ) (rest : List Entry) : Answers o c rest (answer o c rest) := by
  cases o with
  | ok v => rfl
  | err e => exact ⟨_, rfl⟩
  | ub => trivial

theorem filterMap_of_map {α β : Type} (f : α → Option β) : (l : List α) → (r : List β) → l.map f = r.map some → l.filterMap f = r
  | [], [], _ => rfl
  | [], _ :: _, h => by cases h
  | _ :: _, [], h => by cases h
  | a :: l, b :: r, h => by
    simp only [List.map_cons, List.cons.injEq] at h
    rw [List.filterMap_cons, h.1]
    exact congrArg _ (filterMap_of_map f l r h.2)

theorem last_two {σ : Type} {c : Core σ} {rest : List Entry} {a b : Entry} (h : c.stack = rest ++ [a, b]) : c.stack.reverse = b :: a :: rest.reverse := by
  rw [h, List.reverse_append]; rfl

theorem recorder_performs (C : Nat → Prop) : Performs recorder record C where
  commands := by
    intro d _ c vs _ hv _
    refine ⟨[], ?_⟩
    show Out.ok { c with stack := [], ext := c.ext ++ [(d, c.stack.filterMap (entryVal c))], error := 0 } = _
    rw [filterMap_of_map _ _ _ hv]
    rfl
  functions := by
    intro f c rest args vs _ _ hs hv
    have hl : args.length = vs.length := by simpa using congrArg List.length hv
    have e1 : c.stack.drop (c.stack.length - vs.length) = args := by
      rw [hs, List.length_append, hl, Nat.add_sub_cancel]; exact List.drop_left
    have e2 : c.stack.take (c.stack.length - vs.length) = rest := by
      rw [hs, List.length_append, hl, Nat.add_sub_cancel]; exact List.take_left
    show Answers _ c rest (answer ((recordLook c.ext).fn f ((c.stack.drop (c.stack.length - vs.length)).filterMap (entryVal c))) c
      (c.stack.take (c.stack.length - vs.length)))
    rw [e1, e2, filterMap_of_map _ _ _ hv]
    exact answers _ c rest
  sysvars := fun v c _ _ => answers _ c c.stack
  operators := by
    intro op c rest a b x y _ _ hs ha hb
    show Answers _ c rest (operator op c)
    unfold operator
    rw [last_two hs]
    dsimp only
    by_cases h : op = opAssign
    · subst h
      cases x <;> cases y <;> trivial
    · rw [if_neg h, ha, hb, List.reverse_reverse]
      exact answers _ c rest
  assign := by
    intro c rest p b s _ hs hb
    show operator opAssign c = _
    unfold operator
    rw [last_two hs]
    dsimp only
    rw [if_pos rfl, hb, List.reverse_reverse]

/-- An empty core. -/
def recorderCore : Core (List (Nat × List Val)) :=
  { stack := [], mem := fun _ => 0, smem := fun _ => [], vars := Vars.init 4 true, varsErr := 0, arrMax := 100, arrNext := 0, ext := [], error := 0 }

example : Fresh 2 [[65], [66]] recorderCore := ⟨⟨true, rfl⟩, by decide, Or.inl rfl⟩

example : AllVars sampleProg [[65], [66]] := by unfold AllVars; decide +kernel

example : TableFrom 2 emptyObj.labels := ⟨[], by simp, rfl⟩

/-- Error number and effects. -/
def outcome : Res (List (Nat × List Val)) → Option (Nat × List (Nat × List Val))
  | .done er _ w => some (er, w)
  | _ => none

/-- By its meaning the sample prints three times, moves the cursor, and ends with a division by zero. -/
example : outcome (steps record sampleProg 30 (begin .empty [])) =
    some (38, [(0, [.num 12288, .sep 5, .str [88]]), (1, [.num 8192, .num 8192]), (0, [.num 8192, .sep 5, .str [88]]), (1, [.num 4096, .num 8192]),
      (0, [.num 4096, .sep 5, .str [88]]), (1, [.num 0, .num 8192])]) := by decide +kernel

/-- A program that goes on forever: `@L:A=A+0:GOTO @L`. -/
def endless : List Line := [⟨some [76], [.assign [65] (.bin opAdd (.var [65]) (.num [48])), .goto [76]], none, none⟩]

example : Correct 2 100 [chars "@L:A=A+0:GOTO @L"] endless where
  lines := by decide +kernel
  written := written_list _ _ [(0, [(.label [76], 0), (.colon, 0), (.name [65], 0), (.signOp 6 [61], 0), (.name [65], 0), (.signOp 0 [43], 0),
    (.number [48], 0), (.colon, 0), (.command 12 (chars "GOTO"), 1), (.label [76], 0)], .nothing)] (by decide) (by decide) (by decide +kernel)
  wf := plain_all (by decide +kernel)
  cap := by decide
  labels := by decide +kernel
  room := by decide +kernel

example : Forever record endless (begin .empty []) := by
  have s2 : ∀ (st : Store) (w : List (Nat × List Val)), st.num [65] = 0 →
      step record endless ⟨⟨[.assign [65] (.bin opAdd (.var [65]) (.num [48])), .goto [76]], none⟩, 1, st, [], w, 0⟩ =
        .run ⟨⟨[.goto [76]], none⟩, 1, st.set [65] 0, [], w, 0⟩ := by
    intro st w h
    have hv : (E.bin opAdd (.var [65]) (.num [48])).value (recordLook w) st = .ok (.num 0) := by
      show (binary opAdd (st.num [65]) (Num.Spec.value [48])).bind _ = _
      rw [h]; decide +kernel
    simp only [step, S.exec]
    show Res.with' _ ((E.bin opAdd (.var [65]) (.num [48])).value (recordLook w) st) _ = _
    rw [hv]
    rfl
  have key : ∀ n, ∀ (st : Store) (w : List (Nat × List Val)), st.num [65] = 0 →
      ∃ c, steps record endless n (begin st w) = .run c := by
    intro n
    induction n using Nat.strongRecOn with
    | _ n ih =>
      intro st w h
      match n with
      | 0 => exact ⟨_, rfl⟩
      | 1 => exact ⟨_, rfl⟩
      | k + 2 =>
        have e : steps record endless (k + 2) (begin st w) =
            steps record endless k ⟨⟨[.goto [76]], none⟩, 1, st.set [65] 0, [], w, 0⟩ := by
          have s1 : step record endless (begin st w) =
              .run ⟨⟨[.assign [65] (.bin opAdd (.var [65]) (.num [48])), .goto [76]], none⟩, 1, st, [], w, 0⟩ := rfl
          rw [steps, s1]
          dsimp only
          rw [steps, s2 st w h]
        rw [e]
        match k with
        | 0 => exact ⟨_, rfl⟩
        | k + 1 => exact ih k (by omega) (st.set [65] 0) w rfl
  exact fun n => key n _ _ rfl

/-! ### A program with functions and system variables -/

/-- Its text. -/
def callText : List (List Nat) :=
  [chars "A=ABS(-2.5)*TRUE", chars "FOR I=SGN(A) TO floor(A)+CSRX*0", chars "PRINT ABS(I+CANCEL),CSRX", chars "NEXT",
   chars "IF NOT FALSE THEN B=LOG(A-ABS(A)) ELSE PRINT 1"]

/-- What it means. -/
def callProg : List Line :=
  [⟨none, [.assign [65] (.bin opMultiply (.fn1 0 (.un opNegate (.num [50, 46, 53]))) (.sys 0))], none, none⟩,
   ⟨none, [.for' [73] (.fn1 28 (.var [65])) (.bin opAdd (.fn1 13 (.var [65])) (.bin opMultiply (.sys 17) (.num [48]))) none], none, none⟩,
   ⟨none, [.print [(some (.fn1 0 (.bin opAdd (.var [73]) (.sys 2))), opComma)] (some (.sys 17))], none, none⟩,
   ⟨none, [.next none], none, none⟩,
   ⟨none, [], some ⟨.un opNot (.sys 1), true, .run [.assign [66] (.fn1 21 (.bin opSubtract (.var [65]) (.fn1 0 (.var [65]))))],
      some (.run [.print [] (some (.num [49]))])⟩, none⟩]

/-- The words of its lines. -/
def callWords : List (Nat × List (Word × Nat) × Ending) :=
  [(0, [(.name [65], 0), (.signOp 6 [61], 0), (.function 0 (chars "ABS"), 0), (.signOp 20 [40], 0), (.signOp 2 [45], 0), (.number [50, 46, 53], 0),
        (.signOp 21 [41], 0), (.signOp 3 [42], 0), (.sysvar 0 (chars "TRUE"), 0)], .nothing),
   (0, [(.command 4 (chars "FOR"), 1), (.name [73], 0), (.signOp 6 [61], 0), (.function 28 (chars "SGN"), 0), (.signOp 20 [40], 0), (.name [65], 0),
        (.signOp 21 [41], 1), (.command 5 (chars "TO"), 1), (.function 13 (chars "floor"), 0), (.signOp 20 [40], 0), (.name [65], 0), (.signOp 21 [41], 0),
        (.signOp 0 [43], 0), (.sysvar 17 (chars "CSRX"), 0), (.signOp 3 [42], 0), (.number [48], 0)], .nothing),
   (0, [(.command 0 (chars "PRINT"), 1), (.function 0 (chars "ABS"), 0), (.signOp 20 [40], 0), (.name [73], 0), (.signOp 0 [43], 0),
        (.sysvar 2 (chars "CANCEL"), 0), (.signOp 21 [41], 0), (.signOp 1 [44], 0), (.sysvar 17 (chars "CSRX"), 0)], .nothing),
   (0, [(.command 7 (chars "NEXT"), 0)], .nothing),
   (0, [(.command 8 (chars "IF"), 1), (.wordOp 18 (chars "NOT"), 1), (.sysvar 1 (chars "FALSE"), 1), (.command 9 (chars "THEN"), 1), (.name [66], 0),
        (.signOp 6 [61], 0), (.function 21 (chars "LOG"), 0), (.signOp 20 [40], 0), (.name [65], 0), (.signOp 2 [45], 0), (.function 0 (chars "ABS"), 0),
        (.signOp 20 [40], 0), (.name [65], 0), (.signOp 21 [41], 0), (.signOp 21 [41], 1), (.command 10 (chars "ELSE"), 1),
        (.command 0 (chars "PRINT"), 1), (.number [49], 0)], .nothing)]

theorem call_correct : Correct 2 100 callText callProg where
  lines := by decide +kernel
  written := written_list _ _ callWords (by decide) (by decide) (by decide +kernel)
  wf := plain_all (by decide +kernel)
  cap := by decide
  labels := by decide +kernel
  room := by decide +kernel

/-- By its meaning it prints 0 and 0, then 1 and 1, and ends with the error of LOG of 0. -/
example : outcome (steps record callProg 30 (begin .empty [])) =
    some (54, [(0, [.num 0, .sep 1, .num 0]), (0, [.num 4096, .sep 1, .num 4096])]) := by decide +kernel

example : AllVars callProg [[65], [73], [66]] := by unfold AllVars; decide +kernel

/-! ### A program with strings -/

/-- Its text. -/
def textText : List (List Nat) :=
  [chars "A$=\"AB\":N=2", chars "@MORE:A$=A$+\"C\"*N", chars "IF LEN(A$)<7 THEN @MORE", chars "PRINT A$;A$>\"ABA\";LEFT$(A$,N)+\"!\"", chars "WORD$=A$*100"]

/-- What it means. -/
def textProg : List Line :=
  [⟨none, [.assign [65, 36] (.str [65, 66]), .assign [78] (.num [50])], none, none⟩,
   ⟨some (chars "MORE"), [.assign [65, 36] (.bin opAdd (.var [65, 36]) (.bin opMultiply (.str [67]) (.var [78])))], none, none⟩,
   ⟨none, [], some ⟨.bin 10 (.fn1 20 (.var [65, 36])) (.num [55]), true, .jump (chars "MORE"), none⟩, none⟩,
   ⟨none, [.print [(some (.var [65, 36]), opSemicolon), (some (.bin 11 (.var [65, 36]) (.str (chars "ABA"))), opSemicolon)]
      (some (.bin opAdd (.fn2 19 (.var [65, 36]) (.var [78])) (.str [33])))], none, none⟩,
   ⟨none, [.assign (chars "WORD$") (.bin opMultiply (.var [65, 36]) (.num (chars "100")))], none, none⟩]

/-- The words of its lines. -/
def textWords : List (Nat × List (Word × Nat) × Ending) :=
  [(0, [(.name [65, 36], 0), (.signOp 6 [61], 0), (.string [65, 66], 0), (.colon, 0), (.name [78], 0), (.signOp 6 [61], 0), (.number [50], 0)], .nothing),
   (0, [(.label (chars "MORE"), 0), (.colon, 0), (.name [65, 36], 0), (.signOp 6 [61], 0), (.name [65, 36], 0), (.signOp 0 [43], 0), (.string [67], 0),
        (.signOp 3 [42], 0), (.name [78], 0)], .nothing),
   (0, [(.command 8 (chars "IF"), 1), (.function 20 (chars "LEN"), 0), (.signOp 20 [40], 0), (.name [65, 36], 0), (.signOp 21 [41], 0), (.signOp 10 [60], 0),
        (.number [55], 1), (.command 9 (chars "THEN"), 1), (.label (chars "MORE"), 0)], .nothing),
   (0, [(.command 0 (chars "PRINT"), 1), (.name [65, 36], 0), (.signOp 5 [59], 0), (.name [65, 36], 0), (.signOp 11 [62], 0), (.string (chars "ABA"), 0),
        (.signOp 5 [59], 0), (.function 19 (chars "LEFT$"), 0), (.signOp 20 [40], 0), (.name [65, 36], 0), (.signOp 1 [44], 0), (.name [78], 0),
        (.signOp 21 [41], 0), (.signOp 0 [43], 0), (.string [33], 0)], .nothing),
   (0, [(.name (chars "WORD$"), 0), (.signOp 6 [61], 0), (.name [65, 36], 0), (.signOp 3 [42], 0), (.number (chars "100"), 0)], .nothing)]

theorem text_correct : Correct 2 100 textText textProg where
  lines := by decide +kernel
  written := written_list _ _ textWords (by decide) (by decide) (by decide +kernel)
  wf := plain_all (by decide +kernel)
  cap := by decide
  labels := by decide +kernel
  room := by decide +kernel

/-- By its meaning it prints `ABCCCCCC`, that this comes after `ABA`, and `AB!`, and ends with the error that a string is too long. -/
example : outcome (steps record textProg 30 (begin .empty [])) =
    some (23, [(0, [.str (chars "ABCCCCCC"), .sep 5, .num 4096, .sep 5, .str (chars "AB!")])]) := by decide +kernel

example : AllVars textProg [[65, 36], [78], chars "WORD$"] := by unfold AllVars; decide +kernel

example : Fresh 2 [[65, 36], [78], chars "WORD$"] recorderCore := ⟨⟨true, rfl⟩, by decide, Or.inl rfl⟩

/-! ### A program with ON -/

/-- Its text. -/
def onText : List (List Nat) :=
  [chars "A=-1", chars "@NEXT:ON A gosub @P,@Q", chars "A=A+0.5:IF A<3 THEN ON A GOTO @NEXT,@NEXT,@NO:PRINT A:GOTO @NEXT", chars "END",
   chars "@P:PRINT 1", chars "@Q:PRINT A", chars "RETURN"]

/-- What it means. -/
def onProg : List Line :=
  [⟨none, [.assign [65] (.un opNegate (.num [49]))], none, none⟩,
   ⟨some (chars "NEXT"), [.on (.var [65]) true [[80], [81]]], none, none⟩,
   ⟨none, [.assign [65] (.bin opAdd (.var [65]) (.num (chars "0.5")))],
      some ⟨.bin 10 (.var [65]) (.num [51]), true, .run [.on (.var [65]) false [chars "NEXT", chars "NEXT", chars "NO"], .print [] (some (.var [65])),
        .goto (chars "NEXT")], none⟩, none⟩,
   ⟨none, [.fin], none, none⟩,
   ⟨some [80], [.print [] (some (.num [49]))], none, none⟩,
   ⟨some [81], [.print [] (some (.var [65]))], none, none⟩,
   ⟨none, [.ret], none, none⟩]

/-- The words of its lines. -/
def onWords : List (Nat × List (Word × Nat) × Ending) :=
  [(0, [(.name [65], 0), (.signOp 6 [61], 0), (.signOp 2 [45], 0), (.number [49], 0)], .nothing),
   (0, [(.label (chars "NEXT"), 0), (.colon, 0), (.command 14 (chars "ON"), 1), (.name [65], 1), (.command 13 (chars "gosub"), 1), (.label [80], 0),
        (.signOp 1 [44], 0), (.label [81], 0)], .nothing),
   (0, [(.name [65], 0), (.signOp 6 [61], 0), (.name [65], 0), (.signOp 0 [43], 0), (.number (chars "0.5"), 0), (.colon, 0), (.command 8 (chars "IF"), 1),
        (.name [65], 0), (.signOp 10 [60], 0), (.number [51], 1), (.command 9 (chars "THEN"), 1), (.command 14 (chars "ON"), 1), (.name [65], 1),
        (.command 12 (chars "GOTO"), 1), (.label (chars "NEXT"), 0), (.signOp 1 [44], 0), (.label (chars "NEXT"), 0), (.signOp 1 [44], 0),
        (.label (chars "NO"), 0), (.colon, 0), (.command 0 (chars "PRINT"), 1), (.name [65], 0), (.colon, 0), (.command 12 (chars "GOTO"), 1),
        (.label (chars "NEXT"), 0)], .nothing),
   (0, [(.command 16 (chars "END"), 0)], .nothing),
   (0, [(.label [80], 0), (.colon, 0), (.command 0 (chars "PRINT"), 1), (.number [49], 0)], .nothing),
   (0, [(.label [81], 0), (.colon, 0), (.command 0 (chars "PRINT"), 1), (.name [65], 0)], .nothing),
   (0, [(.command 15 (chars "RETURN"), 0)], .nothing)]

theorem on_correct : Correct 2 100 onText onProg where
  lines := by decide +kernel
  written := written_list _ _ onWords (by decide) (by decide) (by decide +kernel)
  wf := plain_all (by decide +kernel)
  cap := by decide
  labels := by decide +kernel
  room := by decide +kernel

/-- By its meaning it passes over the ON with -1 and -0.5, then calls the first subroutine for 0 and 0.5, the second for 1 and 1.5, and ends
with label not found for 2. -/
example : outcome (steps record onProg 60 (begin .empty [])) =
    some (25, [(0, [.num (-2048)]), (0, [.num 4096]), (0, [.num 0]), (0, [.num 4096]), (0, [.num 2048]), (0, [.num 4096]), (0, [.num 6144])]) := by
  decide +kernel

example : AllVars onProg [[65]] := by unfold AllVars; decide +kernel

/-! ### STOP -/

/-- The text. -/
def stopText : List (List Nat) := [chars "A=A+1:IF A>1 THEN STOP:A=9", chars "PRINT A:stop:PRINT 2"]

/-- What it means. -/
def stopProg : List Line :=
  [⟨none, [.assign [65] (.bin opAdd (.var [65]) (.num [49]))],
      some ⟨.bin 11 (.var [65]) (.num [49]), true, .run [.stop, .assign [65] (.num [57])], none⟩, none⟩,
   ⟨none, [.print [] (some (.var [65])), .stop, .print [] (some (.num [50]))], none, none⟩]

/-- The words of its lines. -/
def stopWords : List (Nat × List (Word × Nat) × Ending) :=
  [(0, [(.name [65], 0), (.signOp 6 [61], 0), (.name [65], 0), (.signOp 0 [43], 0), (.number [49], 0), (.colon, 0), (.command 8 (chars "IF"), 1),
        (.name [65], 0), (.signOp 11 [62], 0), (.number [49], 1), (.command 9 (chars "THEN"), 1), (.command 17 (chars "STOP"), 0), (.colon, 0),
        (.name [65], 0), (.signOp 6 [61], 0), (.number [57], 0)], .nothing),
   (0, [(.command 0 (chars "PRINT"), 1), (.name [65], 0), (.colon, 0), (.command 17 (chars "stop"), 0), (.colon, 0),
        (.command 0 (chars "PRINT"), 1), (.number [50], 0)], .nothing)]

theorem stop_correct : Correct 2 100 stopText stopProg where
  lines := by decide +kernel
  written := written_list _ _ stopWords (by decide) (by decide) (by decide +kernel)
  wf := plain_all (by decide +kernel)
  cap := by decide
  labels := by decide +kernel
  room := by decide +kernel

/-- It prints 1 and stops; what follows STOP is not done. -/
example : outcome (steps record stopProg 20 (begin .empty [])) = some (53, [(0, [.num 4096])]) := by decide +kernel

/-! ### NEXT of an outer loop -/

/-- The text. -/
def crossText : List (List Nat) := [chars "FOR I=1 TO 1:FOR J=1 TO 5", chars "PRINT J:NEXT I:NEXT"]

/-- What it means. -/
def crossProg : List Line :=
  [⟨none, [.for' [73] (.num [49]) (.num [49]) none, .for' [74] (.num [49]) (.num [53]) none], none, none⟩,
   ⟨none, [.print [] (some (.var [74])), .next (some [73]), .next none], none, none⟩]

/-- The words of its lines. -/
def crossWords : List (Nat × List (Word × Nat) × Ending) :=
  [(0, [(.command 4 (chars "FOR"), 1), (.name [73], 0), (.signOp 6 [61], 0), (.number [49], 1), (.command 5 (chars "TO"), 1), (.number [49], 0), (.colon, 0),
        (.command 4 (chars "FOR"), 1), (.name [74], 0), (.signOp 6 [61], 0), (.number [49], 1), (.command 5 (chars "TO"), 1), (.number [53], 0)], .nothing),
   (0, [(.command 0 (chars "PRINT"), 1), (.name [74], 0), (.colon, 0), (.command 7 (chars "NEXT"), 1), (.name [73], 0), (.colon, 0),
        (.command 7 (chars "NEXT"), 0)], .nothing)]

theorem cross_correct : Correct 2 100 crossText crossProg where
  lines := by decide +kernel
  written := written_list _ _ crossWords (by decide) (by decide) (by decide +kernel)
  wf := plain_all (by decide +kernel)
  cap := by decide
  labels := by decide +kernel
  room := by decide +kernel

/-- The first NEXT ends the outer loop and leaves the inner one under way, the second goes on with that; the third finds no loop over `I`. -/
example : outcome (steps record crossProg 20 (begin .empty [])) = some (15, [(0, [.num 4096]), (0, [.num 8192])]) ∧
    outcome (steps record crossProg 7 (begin .empty [])) = none := by decide +kernel

/-! ### A program with DATA, READ and RESTORE -/

/-- A name followed by a bracket. -/
def nameAt (w : List Nat) (sq : Bool) : List (Word × Nat) := [(.name w, 0), (.signOp (if sq then 22 else 20) (if sq then [91] else [40]), 0)]

/-- Its text. -/
def dataText : List (List Nat) :=
  [chars "DIM M(3),M$[2]:READ A,M$[A]:PRINT A;M$[0]", chars "RESTORE @TWO", chars "FOR I=1 TO 3", chars "read M(I-1),B$:PRINT M(I-1);B$", chars "NEXT", chars "READ A", chars "DATA 9,SKIPPED",
   chars "@TWO:DATA 1.5,one, -2, \"a, b\" ", chars "DATA 3,"]

/-- The part without DATA of what it means. -/
def dataFront : List Line :=
  [⟨none, [.dim (.arr1 false [77] (.num [51])) [.arr1 true [77, 36] (.num [50])], .read [.var [65], .arr1 true [77, 36] (.var [65])],
      .print [(some (.var [65]), opSemicolon)] (some (.arr1 true [77, 36] (.num [48])))], none, none⟩,
   ⟨none, [.restore (chars "TWO")], none, none⟩,
   ⟨none, [.for' [73] (.num [49]) (.num [51]) none], none, none⟩,
   ⟨none, [.read [.arr1 false [77] (.bin opSubtract (.var [73]) (.num [49])), .var [66, 36]],
      .print [(some (.arr1 false [77] (.bin opSubtract (.var [73]) (.num [49]))), opSemicolon)] (some (.var [66, 36]))], none, none⟩,
   ⟨none, [.next none], none, none⟩,
   ⟨none, [.read [.var [65]]], none, none⟩]

/-- The lines with DATA. -/
def dataBack : List Line :=
  [⟨none, [], none, some ⟨chars " 9,SKIPPED", [chars "9", chars "SKIPPED"]⟩⟩,
   ⟨some (chars "TWO"), [], none, some ⟨chars " 1.5,one, -2, \"a, b\" ", [chars "1.5", chars "one", chars "-2", chars "a, b"]⟩⟩,
   ⟨none, [], none, some ⟨chars " 3,", [chars "3", []]⟩⟩]

/-- What it means. -/
def dataProg : List Line := dataFront ++ dataBack

/-- The words of its lines. -/
def dataWords : List (Nat × List (Word × Nat) × Ending) :=
  [(0, [(.command 3 (chars "DIM"), 1)] ++ nameAt [77] false ++ [(.number [51], 0), (.signOp 21 [41], 0), (.signOp 1 [44], 0)] ++ nameAt [77, 36] true ++
      [(.number [50], 0), (.signOp 23 [93], 0), (.colon, 0), (.command 78 (chars "READ"), 1), (.name [65], 0), (.signOp 1 [44], 0)] ++ nameAt [77, 36] true ++
      [(.name [65], 0), (.signOp 23 [93], 0), (.colon, 0), (.command 0 (chars "PRINT"), 1), (.name [65], 0), (.signOp 5 [59], 0)] ++ nameAt [77, 36] true ++
      [(.number [48], 0), (.signOp 23 [93], 0)], .nothing),
   (0, [(.command 82 (chars "RESTORE"), 1), (.label (chars "TWO"), 0)], .nothing),
   (0, [(.command 4 (chars "FOR"), 1), (.name [73], 0), (.signOp 6 [61], 0), (.number [49], 1), (.command 5 (chars "TO"), 1), (.number [51], 0)], .nothing),
   (0, [(.command 78 (chars "read"), 1)] ++ nameAt [77] false ++ [(.name [73], 0), (.signOp 2 [45], 0), (.number [49], 0), (.signOp 21 [41], 0),
      (.signOp 1 [44], 0), (.name [66, 36], 0), (.colon, 0), (.command 0 (chars "PRINT"), 1)] ++ nameAt [77] false ++ [(.name [73], 0), (.signOp 2 [45], 0),
      (.number [49], 0), (.signOp 21 [41], 0), (.signOp 5 [59], 0), (.name [66, 36], 0)], .nothing),
   (0, [(.command 7 (chars "NEXT"), 0)], .nothing),
   (0, [(.command 78 (chars "READ"), 1), (.name [65], 0)], .nothing),
   (0, [], .data (chars "DATA") (chars " 9,SKIPPED")),
   (0, [(.label (chars "TWO"), 0), (.colon, 0)], .data (chars "DATA") (chars " 1.5,one, -2, \"a, b\" ")),
   (0, [], .data (chars "DATA") (chars " 3,"))]

theorem data_line {lab : Option (List Nat)} {d : Data} (hd : d.WF) (hl : ∀ w, lab = some w → Names.GoodName w) :
    (⟨lab, [], none, some d⟩ : Line).WF where
  label := hl
  stmts := fun _ h => by cases h
  last := fun _ h => by cases h
  len := by cases lab <;> simp [Line.toks, Line.pieces, joinToks, Line.extra, extras]
  data := fun e he => by cases he; exact ⟨hd, rfl, rfl⟩

theorem data_wf : ∀ l ∈ dataProg, l.WF := by
  have h1 : ∀ l ∈ dataFront, l.WF := plain_all (by decide +kernel)
  have h2 : ∀ l ∈ dataBack, l.WF := by
    intro l hl
    simp only [dataBack, List.mem_cons, List.not_mem_nil, or_false] at hl
    rcases hl with rfl | rfl | rfl
    · exact data_line ⟨.more (j := 1) (k := 0) (w := chars "9") (.word (by decide) (by decide))
        (.last (j := 0) (k := 0) (w := chars "SKIPPED") (.word (by decide) (by decide))), by decide, by decide⟩ (fun _ h => by cases h)
    · exact data_line ⟨.more (j := 1) (k := 0) (w := chars "1.5") (.word (by decide) (by decide))
        (.more (j := 0) (k := 0) (w := chars "one") (.word (by decide) (by decide))
        (.more (j := 1) (k := 0) (w := chars "-2") (.word (by decide) (by decide))
        (.last (j := 1) (k := 1) (.quoted (w := chars "a, b") (by decide))))), by decide, by decide⟩ (fun _ h => by cases h; decide)
    · exact data_line ⟨.more (j := 1) (k := 0) (w := chars "3") (.word (by decide) (by decide))
        (.last (j := 0) (k := 0) (w := []) .empty), by decide, by decide⟩ (fun _ h => by cases h)
  intro l hl
  exact (List.mem_append.mp hl).elim (h1 l) (h2 l)

theorem data_correct : Correct 2 100 dataText dataProg where
  lines := by decide +kernel
  written := written_list _ _ dataWords (by decide) (by decide) (by decide +kernel)
  wf := data_wf
  cap := by decide
  labels := by decide +kernel
  room := by decide +kernel

/-- By its meaning it reads the first two items (the subscript is that of the old value of `A`), then the items after `@TWO` three times two at a
time, and ends with out of data. -/
example : outcome (steps record dataProg 60 (begin (.empty 20) [])) =
    some (29, [(0, [.num (9 * 4096), .sep 5, .str (chars "SKIPPED")]), (0, [.num 6144, .sep 5, .str (chars "one")]), (0, [.num (-8192), .sep 5, .str (chars "a, b")]), (0, [.num 12288, .sep 5, .str []])]) := by
  decide +kernel

example : AllVars dataProg [[65], [66, 36], [73], [77, 0], [77, 36, 0]] := by unfold AllVars; decide +kernel

/-! ### A program with arrays -/

/-- Its text. -/
def arrText : List (List Nat) :=
  [chars "DIM N(4):dim N$[N+2,3],M(N(0)+1)", chars "FOR N=0 TO 3:N(N)=N*N:NEXT", chars "N$[N(1),N(1)+1]=\"AB\"*N[2]",
   chars "PRINT N(2)+N(3);N$(1,2);N$(1.5,1);N", chars "IF N(0)==0 THEN DIM A(N(2)):A(N(1))=7 ELSE PRINT 1", chars "PRINT A(1)", chars "N(N)=1"]

/-- What it means. -/
def arrProg : List Line :=
  let n : E := .var [78]
  let at1 (e : E) : E := .arr1 false [78] e
  [⟨none, [.dim (at1 (.num [52])), .dim (.arr2 true [78, 36] (.bin opAdd n (.num [50])) (.num [51]))
      [.arr1 false [77] (.bin opAdd (at1 (.num [48])) (.num [49]))]], none, none⟩,
   ⟨none, [.for' [78] (.num [48]) (.num [51]) none, .put (at1 n) (.bin opMultiply n n), .next none], none, none⟩,
   ⟨none, [.put (.arr2 true [78, 36] (at1 (.num [49])) (.bin opAdd (at1 (.num [49])) (.num [49])))
      (.bin opMultiply (.str [65, 66]) (.arr1 true [78] (.num [50])))], none, none⟩,
   ⟨none, [.print [(some (.bin opAdd (at1 (.num [50])) (at1 (.num [51]))), opSemicolon), (some (.arr2 false [78, 36] (.num [49]) (.num [50])), opSemicolon),
      (some (.arr2 false [78, 36] (.num (chars "1.5")) (.num [49])), opSemicolon)] (some n)], none, none⟩,
   ⟨none, [], some ⟨.bin 8 (at1 (.num [48])) (.num [48]), true,
      .run [.dim (.arr1 false [65] (at1 (.num [50]))), .put (.arr1 false [65] (at1 (.num [49]))) (.num [55])],
      some (.run [.print [] (some (.num [49]))])⟩, none⟩,
   ⟨none, [.print [] (some (.arr1 false [65] (.num [49])))], none, none⟩,
   ⟨none, [.put (at1 n) (.num [49])], none, none⟩]

/-- The words of its lines. -/
def arrWords : List (Nat × List (Word × Nat) × Ending) :=
  [(0, [(.command 3 (chars "DIM"), 1)] ++ nameAt [78] false ++ [(.number [52], 0), (.signOp 21 [41], 0), (.colon, 0), (.command 3 (chars "dim"), 1)] ++
      nameAt [78, 36] true ++ [(.name [78], 0), (.signOp 0 [43], 0), (.number [50], 0), (.signOp 1 [44], 0), (.number [51], 0), (.signOp 23 [93], 0), (.signOp 1 [44], 0)] ++
      nameAt [77] false ++ nameAt [78] false ++ [(.number [48], 0), (.signOp 21 [41], 0), (.signOp 0 [43], 0), (.number [49], 0), (.signOp 21 [41], 0)], .nothing),
   (0, [(.command 4 (chars "FOR"), 1), (.name [78], 0), (.signOp 6 [61], 0), (.number [48], 1), (.command 5 (chars "TO"), 1), (.number [51], 0), (.colon, 0)] ++
      nameAt [78] false ++ [(.name [78], 0), (.signOp 21 [41], 0), (.signOp 6 [61], 0), (.name [78], 0), (.signOp 3 [42], 0), (.name [78], 0), (.colon, 0),
        (.command 7 (chars "NEXT"), 0)], .nothing),
   (0, nameAt [78, 36] true ++ nameAt [78] false ++ [(.number [49], 0), (.signOp 21 [41], 0), (.signOp 1 [44], 0)] ++ nameAt [78] false ++
      [(.number [49], 0), (.signOp 21 [41], 0), (.signOp 0 [43], 0), (.number [49], 0), (.signOp 23 [93], 0), (.signOp 6 [61], 0), (.string [65, 66], 0),
       (.signOp 3 [42], 0)] ++ nameAt [78] true ++ [(.number [50], 0), (.signOp 23 [93], 0)], .nothing),
   (0, [(.command 0 (chars "PRINT"), 1)] ++ nameAt [78] false ++ [(.number [50], 0), (.signOp 21 [41], 0), (.signOp 0 [43], 0)] ++ nameAt [78] false ++
      [(.number [51], 0), (.signOp 21 [41], 0), (.signOp 5 [59], 0)] ++ nameAt [78, 36] false ++ [(.number [49], 0), (.signOp 1 [44], 0), (.number [50], 0),
       (.signOp 21 [41], 0), (.signOp 5 [59], 0)] ++ nameAt [78, 36] false ++ [(.number (chars "1.5"), 0), (.signOp 1 [44], 0), (.number [49], 0),
       (.signOp 21 [41], 0), (.signOp 5 [59], 0), (.name [78], 0)], .nothing),
   (0, [(.command 8 (chars "IF"), 1)] ++ nameAt [78] false ++ [(.number [48], 0), (.signOp 21 [41], 0), (.signOp 8 [61, 61], 0), (.number [48], 1),
      (.command 9 (chars "THEN"), 1), (.command 3 (chars "DIM"), 1)] ++ nameAt [65] false ++ nameAt [78] false ++ [(.number [50], 0), (.signOp 21 [41], 0),
      (.signOp 21 [41], 0), (.colon, 0)] ++ nameAt [65] false ++ nameAt [78] false ++ [(.number [49], 0), (.signOp 21 [41], 0), (.signOp 21 [41], 0),
      (.signOp 6 [61], 0), (.number [55], 1), (.command 10 (chars "ELSE"), 1), (.command 0 (chars "PRINT"), 1), (.number [49], 0)], .nothing),
   (0, [(.command 0 (chars "PRINT"), 1)] ++ nameAt [65] false ++ [(.number [49], 0), (.signOp 21 [41], 0)], .nothing),
   (0, nameAt [78] false ++ [(.name [78], 0), (.signOp 21 [41], 0), (.signOp 6 [61], 0), (.number [49], 0)], .nothing)]

theorem arr_correct : Correct 2 100 arrText arrProg where
  lines := by decide +kernel
  written := written_list _ _ arrWords (by decide) (by decide) (by decide +kernel)
  wf := plain_all (by decide +kernel)
  cap := by decide
  labels := by decide +kernel
  room := by decide +kernel

/-- By its meaning it prints 4 + 9, the string that it has put at 1,2, an empty one, and 4; then the 7 that it has put into the third array; and
ends with error 43, because there is no element 4. -/
example : outcome (steps record arrProg 60 (begin (.empty 40) [])) =
    some (43, [(0, [.num (13 * 4096), .sep 5, .str (chars "ABABABAB"), .sep 5, .str [], .sep 5, .num (4 * 4096)]), (0, [.num (7 * 4096)])]) := by
  decide +kernel

example : AllVars arrProg [[78], [78, 0], [78, 36, 0], [77, 0], [65, 0]] := by unfold AllVars; decide +kernel

example : Fresh 3 [[78], [78, 0], [78, 36, 0], [77, 0], [65, 0]] { recorderCore with vars := Vars.init 8 true } 40 := ⟨⟨true, rfl⟩, by decide, Or.inr (by decide)⟩

/-- The code is small enough. -/
example : (tokenize plainOpts preTok (programText arrText) emptyObj).bind (fun r => .ok (r.2, decide (r.1.buf.length ≤ maxCode))) = .ok (none, true) := by
  decide +kernel

/-! ### What the compiler rejects -/

/-- **C87.** (Violated.)  PRINT before ELSE changes how the statement after ELSE is read.  `PRINT 1` and `LOCATE 1,2` are
statements, and either can stand after THEN or ELSE; but `IF A THEN PRINT 1 ELSE LOCATE 1,2` is replaced by the error
instruction 45, because the arguments of LOCATE are no longer separated: PRINT switches the treatment of commas, and only
the end of a line or a colon switches it back. -/
theorem C87_print_else_violated :
    (tokenize plainOpts preTok (programText [chars "IF A THEN PRINT 1"]) emptyObj).bind (fun r => .ok (r.1.buf, r.2)) =
      .ok ([86, 65, 99, 8, 110, 1, 67, 0, 67, 11], none) ∧
    (tokenize plainOpts preTok (programText [chars "IF A THEN CLS ELSE LOCATE 1,2"]) emptyObj).bind (fun r => .ok (r.2, r.1.buf.length)) =
      .ok (none, 16) ∧
    (tokenize plainOpts preTok (programText [chars "IF A THEN PRINT 1 ELSE LOCATE 1,2"]) emptyObj).bind (fun r => .ok (r.1.buf, r.2)) =
      .ok ([69, 45], none) := by decide +kernel

/-- **C87.** (Violated.)  The same with the labels of ON: the line is accepted, but the commas are compiled as if they were items of the list
(the words after the value are `@P`, a separator and `@Q`), so that the value 1 does not lead to `@Q`. -/
theorem C87_print_on_violated :
    (tokenize plainOpts preTok (programText [chars "IF A THEN CLS ELSE ON B GOTO @P,@Q"]) emptyObj).bind (fun r => .ok (r.1.buf, r.2)) =
      .ok ([86, 65, 99, 8, 67, 18, 67, 10, 86, 66, 67, 14, 108, 1, 80, 0, 108, 1, 81, 0, 67, 12, 67, 11], none) ∧
    (tokenize plainOpts preTok (programText [chars "IF A THEN PRINT 1 ELSE ON B GOTO @P,@Q"]) emptyObj).bind (fun r => .ok (r.1.buf, r.2)) =
      .ok ([86, 65, 99, 8, 110, 1, 67, 0, 67, 10, 86, 66, 67, 14, 108, 1, 80, 0, 79, 1, 108, 1, 81, 0, 67, 12, 67, 11], none) := by decide +kernel

/-- **C87.** (Violated.)  DIM before ELSE changes how the statement after ELSE is read: every element of an array in it becomes another DIM.
`IF A THEN DIM C(1) ELSE PRINT B(1)` is accepted, but `B(1)` is compiled as in `DIM B(1)` (an instruction 68), not as in `PRINT B(1)` (86); and
`IF A THEN DIM C(1) ELSE B(1)=2` is replaced by the error instruction 46. -/
theorem C87_dim_else_violated :
    (tokenize plainOpts preTok (programText [chars "IF A THEN CLS ELSE PRINT B(1)"]) emptyObj).bind (fun r => .ok (r.1.buf, r.2)) =
      .ok ([86, 65, 99, 8, 67, 18, 67, 10, 110, 1, 65, 1, 86, 66, 67, 0, 67, 11], none) ∧
    (tokenize plainOpts preTok (programText [chars "IF A THEN DIM C(1) ELSE PRINT B(1)"]) emptyObj).bind (fun r => .ok (r.1.buf, r.2)) =
      .ok ([86, 65, 99, 8, 110, 1, 65, 1, 68, 67, 67, 10, 110, 1, 65, 1, 68, 66, 67, 0, 67, 11], none) ∧
    (tokenize plainOpts preTok (programText [chars "IF A THEN CLS ELSE B(1)=2"]) emptyObj).bind (fun r => .ok (r.2, r.1.buf.length)) =
      .ok (none, 20) ∧
    (tokenize plainOpts preTok (programText [chars "IF A THEN DIM C(1) ELSE B(1)=2"]) emptyObj).bind (fun r => .ok (r.1.buf, r.2)) =
      .ok ([69, 46], none) := by decide +kernel

/-- The program compiles to this code, with the label `@D` at this place. -/
def compilesTo (src : List (List Nat)) (code : List Nat) (place : Nat) : Prop :=
  (tokenize plainOpts preTok (programText src) emptyObj).bind (fun r => .ok (r.1.buf, Labels.labelIndex r.1.labels [68], r.2)) = .ok (code, some place, none)

/-- The program gets to this place (without an error); it does not change where READ goes on. -/
def jumpsTo (env : Env σ) (m : Mach σ) (place : Nat) : Prop :=
  ∃ m', Reaches env m m' ∧ m'.exec.index = place ∧ m'.core.error = 0 ∧ m'.exec.dataIndex = m.exec.dataIndex ∧ m'.exec.dataOffset = m.exec.dataOffset

/-- A jump of IF, once the label is found. -/
theorem if_goes (env : Env σ) {m m' : Mach σ} {k i : Nat} (hs : Machine.step env m = .ok m')
    (hf : Machine.step env m' = ((((ifTarget (m'.skip 2) i).bind fun r => .ok { r.1 with exec := { r.1.exec with index := r.2 } }).bind fun m' =>
      .ok (if keepsStack 8 then m' else { m' with core := { m'.core with stack := [] } })).bind fun m' => .ok (clearArgc 99 m')))
    (ht : ifTarget (m'.skip 2) i = .ok (m'.skip 2, k)) (he : m'.core.error = 0) (hd : m'.exec.dataIndex = m.exec.dataIndex)
    (ho : m'.exec.dataOffset = m.exec.dataOffset) : jumpsTo env m k := by
  rw [ht] at hf
  have h2 : Machine.step env m' = .ok { m' with exec := { m'.exec with index := k, argc := 0 }, core := { m'.core with stack := [] } } := hf
  exact ⟨{ m' with exec := { m'.exec with index := k, argc := 0 }, core := { m'.core with stack := [] } }, ⟨2, by rw [Machine.steps, hs]; show Out.bind (Machine.step env m') _ = _; rw [h2]; rfl⟩, rfl, he, hd, ho⟩

/-- The label is found. -/
theorem if_label {m : Mach σ} {i k : Nat} (hL : Labels.labelIndex m.labels [68] = some k) (hm : m.exec.main = true)
    (h0 : m.exec.code[i]? = some 108) (h1 : m.exec.code[i + 1]? = some 1) (h2 : (m.exec.code.drop (i + 2)).take 1 = [68])
    (h3 : jumpFollows m.exec.code (i + 2 + 1 + 1) = false) : ifTarget m i = .ok (m, k) := by
  unfold ifTarget
  rw [h0]
  dsimp only
  rw [if_pos (by decide)]
  unfold byte
  rw [h1]
  show (if jumpFollows m.exec.code (i + 2 + 1 + 1) = true then _ else searchLabel m true ((m.exec.code.drop (i + 2)).take 1)) = _
  rw [h3, h2, if_neg (by decide)]
  unfold searchLabel
  rw [hm, if_neg (by decide), if_neg (by decide), if_neg (by decide), if_pos rfl, hL]

/-- **C87.** (Violated.)  RESTORE after THEN or ELSE is not done.  `IF 1 THEN RESTORE @D` and `IF 0 THEN CLS ELSE RESTORE @D` do not restore: the program goes on
at `@D` instead, as if GOTO had been written, and the place where READ goes on does not change. -/
theorem C87_then_restore_violated (env : Env σ) (core : Core σ) :
    (∃ code place, compilesTo [chars "IF 1 THEN RESTORE @D", chars "CLS", chars "@D", chars "DATA 1"] code place ∧
      ∀ L, Labels.labelIndex L [68] = some place → jumpsTo env (start code L core) place) ∧
    (∃ code place, compilesTo [chars "IF 0 THEN CLS ELSE RESTORE @D", chars "CLS", chars "@D", chars "DATA 1"] code place ∧
      ∀ L, Labels.labelIndex L [68] = some place → jumpsTo env (start code L core) place) := by
  refine ⟨⟨[110, 1, 99, 8, 108, 1, 68, 0, 67, 82, 67, 11, 99, 18, 76, 1, 68, 0, 100, 2, 49, 0], 14, by unfold compilesTo; decide +kernel, fun L hL => ?_⟩,
    [110, 0, 99, 8, 67, 18, 67, 10, 108, 1, 68, 0, 67, 82, 67, 11, 99, 18, 76, 1, 68, 0, 100, 2, 49, 0], 18, by unfold compilesTo; decide +kernel, fun L hL => ?_⟩
  · have hs : Machine.step env (start [110, 1, 99, 8, 108, 1, 68, 0, 67, 82, 67, 11, 99, 18, 76, 1, 68, 0, 100, 2, 49, 0] L core) =
        .ok ⟨{ core with stack := [.num (1 * 4096)], error := 0 }, ⟨[110, 1, 99, 8, 108, 1, 68, 0, 67, 82, 67, 11, 99, 18, 76, 1, 68, 0, 100, 2, 49, 0], 2, some 0, 0, 0, true⟩, [], [], L⟩ := rfl
    exact if_goes env (k := 14) (i := 4) hs rfl (if_label hL rfl rfl rfl rfl (by show jumpFollows [110, 1, 99, 8, 108, 1, 68, 0, 67, 82, 67, 11, 99, 18, 76, 1, 68, 0, 100, 2, 49, 0] (4 + 2 + 1 + 1) = false; decide)) rfl rfl rfl
  · have hs : Machine.step env (start [110, 0, 99, 8, 67, 18, 67, 10, 108, 1, 68, 0, 67, 82, 67, 11, 99, 18, 76, 1, 68, 0, 100, 2, 49, 0] L core) =
        .ok ⟨{ core with stack := [.num (0 * 4096)], error := 0 }, ⟨[110, 0, 99, 8, 67, 18, 67, 10, 108, 1, 68, 0, 67, 82, 67, 11, 99, 18, 76, 1, 68, 0, 100, 2, 49, 0], 2, some 0, 0, 0, true⟩, [], [], L⟩ := rfl
    exact if_goes env (k := 18) (i := 8) hs rfl (if_label hL rfl rfl rfl rfl (by show jumpFollows [110, 0, 99, 8, 67, 18, 67, 10, 108, 1, 68, 0, 67, 82, 67, 11, 99, 18, 76, 1, 68, 0, 100, 2, 49, 0] (8 + 2 + 1 + 1) = false; decide)) rfl rfl rfl

end Sbc.Source
