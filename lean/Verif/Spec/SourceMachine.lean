import Verif.Spec.Source
set_option autoImplicit false
/-!
# Specification: how running machines relate to source programs
-/
namespace Sbc.Source
open Sbc Sbc.Tok Sbc.Tok.Spec Sbc.Machine

variable {σ : Type}

/-- The command of a statement that is not executed by the interpreter itself. -/
def S.command : S → Option Nat
  | .cmd c _ => some c
  | .print _ _ => some cmdPrint
  | _ => none

/-- Statements of a branch. -/
def Branch.stmts : Branch → List S
  | .jump _ => []
  | .run ss => ss

/-- Statements of an IF. -/
def If.stmts (i : If) : List S := i.yes.stmts ++ (match i.no with | none => [] | some b => b.stmts)

/-- All statements of a line. -/
def Line.all (l : Line) : List S := l.stmts ++ (match l.last with | none => [] | some i => i.stmts)

/-- The program uses the command. -/
def Uses (prog : List Line) (d : Nat) : Prop := ∃ l ∈ prog, ∃ s ∈ l.all, s.command = some d

/-- The value that an entry of the stack stands for. -/
def entryVal (c : Core σ) : Entry → Option Val
  | .num v => some (.num v)
  | .var false false p => some (.num (c.mem p))
  | .var true false p => some (.str (c.smem p))
  | .str false s => some (.str s)
  | .sep op => some (.sep op)
  | _ => none

/-- The entry of the stack for a value. -/
def Val.entry : Val → Entry
  | .num v => .num v
  | .str s => .str false s
  | .sep op => .sep op

/-- The answer of a function, system variable or operator: a value takes the place of the arguments; an error is reported. -/
def Answers (o : Out Val) (c : Core σ) (rest : List Entry) (r : Out (Core σ)) : Prop :=
  match o with
  | .ok v => r = .ok { c with stack := rest ++ [v.entry] }
  | .err e => ∃ stack', r = .ok { c with stack := stack', error := errorNumber e }
  | .ub => True

/-- The rest of the system does what `W` says.  The commands in `C`, given the values on the stack, if their effect is known, change the rest of the system and
report an error or 0; they do not change variables.  Functions and system variables give the values that `W` says, or report the
error, and change nothing (as far as `W` describes them).  Operators with strings give the values of `textual`, and the assignment of a string
stores it. -/
structure Performs (env : Env σ) (W : World σ) (C : Nat → Prop) : Prop where
  commands : ∀ d, C d → ∀ (c : Core σ) (vs : List Val), c.error = 0 → c.stack.map (entryVal c) = vs.map some →
    W.known d vs c.ext = true → ∃ stack', env.other bcCommand d 0 c =
      .ok { c with stack := stack', ext := (W.perform d vs c.ext).1, error := (W.perform d vs c.ext).2 }
  functions : ∀ f (c : Core σ) (rest args : List Entry) (vs : List Val), c.error = 0 → rest.length < 100 → c.stack = rest ++ args →
    args.map (entryVal c) = vs.map some →
    Answers ((W.look c.ext).fn f vs) c rest (env.other bcFunction f vs.length c)
  sysvars : ∀ v (c : Core σ), c.error = 0 → c.stack.length < 100 → Answers ((W.look c.ext).sys v) c c.stack (env.other bcSysvar v 0 c)
  operators : ∀ op (c : Core σ) (rest : List Entry) (a b : Entry) (x y : Val), c.error = 0 → rest.length < 100 → c.stack = rest ++ [a, b] →
    entryVal c a = some x → entryVal c b = some y → Answers (textual op x y) c rest (env.other bcOperator op 0 c)
  assign : ∀ (c : Core σ) (rest : List Entry) (p : Ptr) (b : Entry) (s : List Nat), c.error = 0 → c.stack = rest ++ [.var true false p, b] →
    entryVal c b = some (.str s) → env.other bcOperator opAssign 0 c = .ok { c.storeStr p s with stack := rest }

/-- The variables have the values `st`: an access to the variable for numbers `n` finds `st.num n`, an access to the variable for strings
`n$` finds `st.str (n$)`.  (An access to a variable that the program does not use may fail for lack of room.)  An access to an element of an
array of `st` finds it. -/
def Shows (U : List (List Nat)) (c : Core σ) (st : Store) : Prop :=
  (∀ n isStr g, Names.GoodName n → st.grid (if isStr then n ++ [36] else n) = some g → (isStr = false → n.getLast? ≠ some 36) →
    ∃ i, c.lookup n (tyOf isStr true) = .ok (c, some i) ∧ ∀ x y, g.In x y → ∃ p,
      c.elem i x (g.d2.map fun _ => (y : Int)) = .ok (c, .ok p) ∧ c.mem p = g.num x y ∧ c.smem p = g.str x y) ∧
  ∀ n, Names.GoodName n →
    (n.getLast? ≠ some 36 → match c.lookup n .num with
      | .ok (c', some i) => c'.mem (.slot i) = st.num n
      | .ok (_, none) => n ∉ U
      | _ => False) ∧
    match c.lookup n .str with
    | .ok (c', some i) => c'.smem (.slot i) = st.str (n ++ [36])
    | .ok (_, none) => n ++ [36] ∉ U
    | _ => False

/-- The run has come to its end. -/
def Halted (m : Mach σ) : Prop := m.ended = true ∧ m.frames = []

/-- A list that contains all variables of the program. -/
def AllVars (prog : List Line) (U : List (List Nat)) : Prop := ∀ l ∈ prog, ∀ x ∈ l.vars, x ∈ U

/-- The text `src` (its lines) is a way to write the program `prog`, which is correct and small enough for the tables of
the compiler: at most `2 ^ n` different labels and `cap` lines. -/
structure Correct (n cap : Nat) (src : List (List Nat)) (prog : List Line) : Prop where
  lines : ∀ a ∈ src, Contained a ∧ 0 ∉ a
  written : List.Forall₂ Written src prog
  wf : ∀ l ∈ prog, l.WF
  cap : src.length ≤ cap
  labels : (prog.filterMap Line.label).Nodup
  room : (prog.filterMap Line.label).length ≤ 2 ^ n

/-- Room for compiled programs: `MAX_SOURCE_SIZE` bytes (`program.h:11`, `system.c:330`). -/
def maxCode : Nat := 524288

/-- The surroundings before a run: no variable is in use, there is room for `2 ^ k` of them, enough for those in `U`; there is room for `r`
words of arrays. -/
structure Fresh (k : Nat) (U : List (List Nat)) (core : Core σ) (r : Nat := 0) : Prop where
  vars : ∃ cv, core.vars = Vars.init (2 ^ k) cv
  room : U.length ≤ 2 ^ k
  arrays : r = 0 ∨ core.varsErr = 0 ∧ core.arrNext + r < core.arrMax ∧ core.arrMax ≤ 1073741824

/-- The program goes on forever. -/
def Forever (W : World σ) (prog : List Line) (cfg : Cfg σ) : Prop := ∀ n, ∃ c, steps W prog n cfg = .run c

end Sbc.Source
