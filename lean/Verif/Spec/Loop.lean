import Verif.Spec.Control
set_option autoImplicit false
/-!
# FOR loops
-/
namespace Sbc.Machine
open Sbc Sbc.Tok Sbc.Tok.Spec

variable {σ γ : Type}

/-- The pieces of `FOR v=start TO limit [STEP step] : body : NEXT [v]` as the compiler arranges them:
`v FOR start = limit TO [step STEP] BEGIN_LOOP body [v] NEXT`. -/
structure Loop where
  var : List Instr
  for' : Instr
  start : List Instr
  limit : List Instr
  step : Option (List Instr)
  begin' : Nat
  body : List Instr
  nextVar : List Instr
  next : Instr

namespace Loop

/-- `v FOR start =` -/
def head (l : Loop) : List Instr := l.var ++ l.for' :: (l.start ++ [assign])

/-- `step STEP` -/
def stepCode (l : Loop) : List Instr :=
  match l.step with
  | none => []
  | some es => es ++ [.simple bcCommand cmdStep]

/-- `limit TO [step STEP]` -/
def ctl (l : Loop) : List Instr := l.limit ++ .simple bcCommand cmdTo :: l.stepCode

/-- BEGIN_LOOP -/
def beginI (l : Loop) : Instr := .simple bcBeginLoop l.begin'

/-- `body [v] NEXT` -/
def tail (l : Loop) : List Instr := l.body ++ (l.nextVar ++ [l.next])

/-- The whole loop. -/
def code (l : Loop) : List Instr := l.head ++ (l.ctl ++ l.beginI :: l.tail)

end Loop

/-- A well-formed loop over the number variable at `p`, from `a` to `b` by `s`: naming the variable leads from states
satisfying `Pre` to states satisfying `Inv0` (it may create the variable); the start is evaluated in states
satisfying `Inv0`; in states satisfying `Inv g` limit and step have the values `b` and `s` whatever the value of the
variable.  `g` stands for what the program has done so far: it is `g0` at first, and the body, run with the value
`v` in the variable, turns `g` into `f v g`; nothing else changes it.  The body preserves the variable and the call
stack (it may contain loops and subroutine calls of its own).  NEXT names the variable or nothing. -/
structure Loop.Over (env : Env σ) (Pre Inv0 : Core σ → Prop) (Inv : γ → Core σ → Prop) (g0 : γ) (f : Int → γ → γ) (p : Ptr)
    (a b s : Int) (l : Loop) : Prop where
  weaken : ∀ c, Inv0 c → Inv g0 c
  stack : ∀ g c st, Inv g c → Inv g { c with stack := st }
  store : ∀ g c v, Inv g c → Inv g (c.store p v)
  wf : ∀ i ∈ l.code, i.WF
  isFor : isCmd cmdFor l.for'
  isNext : isCmd cmdNext l.next
  var : PushesVar env Pre Inv0 p l.var
  start : Evals env Inv0 p l.start a
  startShort : l.start.length ≤ 99
  noAssign : assign ∉ l.start
  limit : ∀ g, Evals env (Inv g) p l.limit b
  limitShort : l.limit.length ≤ 99
  step : match l.step with
    | none => s = 4096
    | some es => (∀ g, Evals env (Inv g) p es s) ∧ es.length ≤ 99
  plain : Plain l.ctl
  short : posAfter l.ctl ≤ 255
  body : ∀ g v, RunsThrough env (Inv g) (Inv (f v g)) p v l.body
  next : l.nextVar = [] ∨ ∀ g v, PushesVar env (fun c => Inv g c ∧ c.mem p = v) (fun c => Inv g c ∧ c.mem p = v) p l.nextVar

/-- At the beginning of the body, with the value `v` in the variable. -/
structure AtBody (p : Ptr) (l : Loop) (pre post : List Instr) (v : Int) (m : Mach σ) : Prop where
  at' : At m (pre ++ (l.head ++ (l.ctl ++ [l.beginI]))) (l.tail ++ post)
  value : m.core.mem p = v

/-- Ready to execute: between two statements of the main program. -/
structure Ready (Inv : Core σ → Prop) (m : Mach σ) (a b : List Instr) : Prop where
  at' : At m a b
  argc : m.exec.argc = 0
  main : m.exec.main = true
  stack : m.core.stack = []
  inv : Inv m.core

/-- The values `a`, `a + s`, `a + 2s`, …, `k` of them. -/
def values (a s : Int) (k : Nat) : List Int := (List.range k).map fun i : Nat => a + (i : Int) * s

/-- What the body does with these values in turn. -/
def effect {γ : Type} (f : Int → γ → γ) (g : γ) (vs : List Int) : γ := vs.foldl (fun g v => f v g) g

/-- NEXT as a statement. -/
def nextI : Instr := .simple bcCommandFirst cmdNext
/-- FOR as a statement. -/
def forI : Instr := .simple bcCommandFirst cmdFor

/-- What is left after the NEXT that matches `n` open loops (and the current one): FOR and NEXT as brackets. -/
def afterMatch : Nat → List Instr → Option (List Instr)
  | _, [] => none
  | n, i :: r =>
    if i = forI then afterMatch (n + 1) r
    else if i = nextI then
      match n with
      | 0 => some r
      | n + 1 => afterMatch n r
    else afterMatch n r

/-- The instruction names a variable. -/
def isVarOp (i : Instr) : Bool := i.op == bcVariableName || i.op == bcVariableIdSmall || i.op == bcVariableId

/-- No NEXT names a variable. -/
def Anonymous (r : List Instr) : Prop := ∀ x i y, r = x ++ i :: nextI :: y → isVarOp i = false

/-- The value has passed the limit. -/
def Past (s v b : Int) : Prop := (0 ≤ s ∧ b < v) ∨ (s < 0 ∧ v < b)

instance (s v b : Int) : Decidable (Past s v b) := by unfold Past; infer_instance

end Sbc.Machine
