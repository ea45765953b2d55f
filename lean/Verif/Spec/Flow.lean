import Verif.Model.Machine
import Verif.Spec.Bytecode
set_option autoImplicit false
/-!
# Vocabulary for statements about running programs
-/
namespace Sbc.Machine
open Sbc Sbc.Tok Sbc.Tok.Spec

variable {σ : Type}

/-- The machine runs the program `a ++ b` and is about to execute `b`. -/
structure At (m : Mach σ) (a b : List Instr) : Prop where
  code : m.exec.code = encode (a ++ b)
  index : m.exec.index = posAfter a
  error : m.core.error = 0

/-- The same machine, having executed `e` after `a`, with a new core. -/
def after (m : Mach σ) (a e : List Instr) (c : Core σ) : Mach σ :=
  { m with core := c, exec := { m.exec with index := posAfter (a ++ e) } }

/-- The code `e` evaluates to the number `v` in every state whose core satisfies `Inv`: it pushes an entry whose value is
`v`, changes neither the values already on the stack nor the variable `p`, and preserves `Inv`. -/
def Evals (env : Env σ) (Inv : Core σ → Prop) (p : Ptr) (e : List Instr) (v : Int) : Prop :=
  ∀ (m : Mach σ) (a b : List Instr), At m a (e ++ b) → m.exec.argc = 0 → m.core.stack.length + e.length ≤ 100 → Inv m.core →
    ∃ c' en, Reaches env m (after m a e c') ∧ c'.stack = m.core.stack ++ [en] ∧ isNum en = true ∧ c'.num en = .ok v ∧ c'.error = 0 ∧
      c'.mem p = m.core.mem p ∧ (∀ x ∈ m.core.stack, c'.num x = m.core.num x) ∧ Inv c'

/-- The code `e`, started in a state satisfying `Pre`, pushes the variable at `p` and ends in a state satisfying
`Post`. -/
def PushesVar (env : Env σ) (Pre Post : Core σ → Prop) (p : Ptr) (e : List Instr) : Prop :=
  ∀ (m : Mach σ) (a b : List Instr), At m a (e ++ b) → m.exec.argc = 0 → m.core.stack.length < 100 → Pre m.core →
    ∃ c', Reaches env m (after m a e c') ∧ c'.stack = m.core.stack ++ [.var false false p] ∧ c'.error = 0 ∧ Post c'

/-- The code `body`, started with an empty value stack, with `v` in the variable `p` and in a state satisfying `Pre`, runs
to its end, leaving the stack empty, the call stack as it was, the variable `p` unchanged, in a state satisfying
`Post`.  It may do anything else. -/
def RunsThrough (env : Env σ) (Pre Post : Core σ → Prop) (p : Ptr) (v : Int) (body : List Instr) : Prop :=
  ∀ (m : Mach σ) (a b : List Instr), At m a (body ++ b) → m.exec.argc = 0 → m.exec.main = true → m.core.stack = [] → m.core.mem p = v →
    Pre m.core →
    ∃ m', Reaches env m m' ∧ At m' (a ++ body) b ∧ m'.exec.argc = 0 ∧ m'.exec.main = true ∧ m'.core.stack = [] ∧
      m'.calls = m.calls ∧ m'.frames = m.frames ∧ m'.labels = m.labels ∧ m'.core.mem p = v ∧ Post m'.core

/-- The machine gets from one state to another, on the way passing through states in which `P` holds of each of the
given values in turn. -/
inductive Passes (env : Env σ) (P : Int → Mach σ → Prop) : List Int → Mach σ → Mach σ → Prop
  | done {m m' : Mach σ} : Reaches env m m' → Passes env P [] m m'
  | next {v : Int} {vs : List Int} {m m1 m' : Mach σ} : Reaches env m m1 → P v m1 → Passes env P vs m1 m' → Passes env P (v :: vs) m m'

end Sbc.Machine
