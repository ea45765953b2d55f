import Verif.Model.Common
import Verif.Model.Mem
import Verif.Model.Strs
set_option autoImplicit false
/-!
# The string pool (`source/interpreter/strs.c:118-154`, `stack.h:54-71`) and everything that counts uses of its buffers

String variables and elements of string arrays are numbered `0 … n-1`.  A use count is an unbounded number here
(`uint_fast16_t`, at least 32 bits on all targets, in the code; a count never exceeds the number of variables and stack
entries plus the number of leaks).  Not modelled: the `MEM$` string (`resources.c:1195-1215`), whose buffer is not
in the pool.
-/
namespace Sbc.StrPool
open Sbc Sbc.Strs

/-- `struct string` of the pool (`strs.h:34-48`): use count, and type (`wide`), length and characters. -/
structure Slot where
  uses : Nat
  str : Str

/-- What a string variable points to: the constant `empty_str` (`strs.c:28`, `vars.c:143`) or a pool entry. -/
inductive Ref where
  | empty
  | slot (i : Nat)
  deriving DecidableEq, Repr

/-- A string on the value stack: a constant of the program or of the interpreter (`BC_STRING`), a temporary result
(`VAR_STRING` pointing into the pool), or a variable (`VAR_VARIABLE | VAR_STRING`). -/
inductive Entry where
  | const (s : List Nat)
  | temp (i : Nat)
  | var (v : Nat)
  deriving DecidableEq, Repr

/-- Pool of `max` entries, `n` string variables, the strings on the value stack (top first). -/
structure St where
  max : Nat
  n : Nat
  slot : Nat → Slot
  vars : Nat → Ref
  stack : List Entry

/-- `init_mem_str` (`strs.c:91-116`, `calloc`) and fresh variables (`vars.c:143`). -/
def init (max n : Nat) : St :=
  { max, n, slot := fun _ => ⟨0, emptyStr⟩, vars := fun _ => .empty, stack := [] }

/-- The loop of `get_new_str` (`strs.c:134-140`) from index `i`, at most `fuel` iterations. -/
def newLoop (st : St) : Nat → Nat → Option Nat
  | 0, _ => none
  | fuel + 1, i =>
    if (st.slot i).uses > 0 then if i + 1 ≥ st.max then none else newLoop st fuel (i + 1) else some i

/-- `get_new_str` (`strs.c:132-154`); `none` is `NULL`. The pool must have at least one entry. -/
def getNewStr (st : St) : Option Nat := newLoop st (st.max + 1) 0

/-- Change a use count. -/
def St.setUses (st : St) (i u : Nat) : St := { st with slot := upd st.slot i { st.slot i with uses := u } }

/-- Store a string in a pool entry. -/
def St.setStr (st : St) (i : Nat) (s : Str) : St := { st with slot := upd st.slot i { st.slot i with str := s } }

/-- `--uses`, undefined (in practice huge) at 0. -/
def St.dec (st : St) (i : Nat) : Out St :=
  if (st.slot i).uses = 0 then .ub else .ok (st.setUses i ((st.slot i).uses - 1))

/-- `++uses`. -/
def St.inc (st : St) (i : Nat) : St := st.setUses i ((st.slot i).uses + 1)

/-- The string a reference stands for. -/
def St.deref (st : St) : Ref → Str
  | .empty => emptyStr
  | .slot i => (st.slot i).str

/-- `value_str` (`stack.h:57-71`): the string, with the count of a temporary reduced. -/
def St.valueStr (st : St) : Entry → Out (St × Str)
  | .const s => .ok (st, ⟨false, s⟩)
  | .temp i => (st.dec i).bind fun st' => .ok (st', (st.slot i).str)
  | .var v => if v < st.n then .ok (st, st.deref (st.vars v)) else .ub

/-- `value_str` of several entries in turn. -/
def St.valueStrs (st : St) : List Entry → Out (St × List Str)
  | [] => .ok (st, [])
  | e :: es => (st.valueStr e).bind fun r => (r.1.valueStrs es).bind fun q => .ok (q.1, r.2 :: q.2)

/-- What an operator or function does after reading its operands: a new string; a constant instead of the new
string (`strfuncs.c:38`, `217`); an error before or after the new string's use count was set. -/
inductive Outcome where
  | fresh (s : Str)
  | const (s : List Nat)
  | early (e : Err)
  | late (e : Err)
  deriving DecidableEq

/-- `op_add` on strings (`operators.c:31-45`): the use count is set (l.36) before the length is checked. -/
def addF : List Str → Outcome
  | [y, x] => match opAdd x y with
    | .ok z => .fresh z
    | .err e => .late e
    | .ub => .late .stringTooLong
  | _ => .early .invalidTypes

/-- `op_mult` on a string and the number `num` (`operators.c:74-93`). -/
def multF (num : Int) : List Str → Outcome
  | [x] => match opMult x num with
    | .ok z => .fresh z
    | .err e => .late e
    | .ub => .late .stringTooLong
  | _ => .early .invalidTypes

/-- The operations on strings of a program.  Numeric operands are part of the function `f`. -/
inductive Op where
  /-- a string constant (`runner.c:205-214`) -/
  | lit (s : List Nat)
  /-- a variable or array element (`runner.c:308-392`) -/
  | load (v : Nat)
  /-- an operator or function with `k` string operands (top of the stack first) and a string result: `get_new_str`,
  then `value_str` of the operands, then `f` (`operators.c:31-45`, `74-93`; `strfuncs.c:19-51`, `83-94`, `156-188`,
  `201-230`, `240-274`; `sysvars.c:40-92`) -/
  | fn (k : Nat) (f : List Str → Outcome)
  /-- an operator, function or command reading `k` string operands: comparisons, LEN, VAL, ASC, INSTR, PRINT, … -/
  | use (k : Nat)
  /-- assignment (`operators.c:145-184`) -/
  | assign
  /-- READ of the item `s` into a string variable (`data.c:13-39`) -/
  | read (v : Nat) (s : List Nat)
  /-- INPUT or LINPUT of `s` into a string variable (`console.c:379-409`, `441-462`) -/
  | input (v : Nat) (s : Str)
  /-- SWAP of two string variables (`variables.c:9-18`) -/
  | swap (u v : Nat)
  /-- CLEAR (`variables.c:3-7`) -/
  | clear
  /-- end of a statement: the value stack is emptied (`runner.c:233-235`) -/
  | done

/-- State and error after an operation; an error ends the program, whose value stack is then emptied (`runner.c:174`,
`184`) without looking at its entries. -/
abbrev Res := Out (St × Option Err)

/-- Normal end. -/
def fin (st : St) : Res := .ok (st, none)
/-- `ERROR(e)`. -/
def fail (st : St) (e : Err) : Res := .ok ({ st with stack := [] }, some e)

/-- Operators and functions with a string result; the new entry is used without a `NULL` check. -/
def opFn (st : St) (k : Nat) (f : List Str → Outcome) : Res :=
  if st.stack.length < k then .ub
  else match getNewStr st with
    | none => .ub
    | some z =>
      (({ st with stack := st.stack.drop k }).valueStrs (st.stack.take k)).bind fun r =>
        match f r.2 with
        | .fresh s => fin { ((r.1.setUses z 1).setStr z s) with stack := .temp z :: r.1.stack }
        | .const s => fin { r.1 with stack := .const s :: r.1.stack }
        | .early e => fail r.1 e
        | .late e => fail (r.1.setUses z 1) e

/-- Release what variable `v` refers to if it is in the pool (`operators.c:154-157`). -/
def release (st : St) (v : Nat) : Out St :=
  match st.vars v with
  | .empty => .ok st
  | .slot i => st.dec i

/-- `op_assign` on strings (`operators.c:145-184`), `b` to the variable `v`. -/
def assignTo (st : St) (v : Nat) (b : Entry) : Res :=
  let new := getNewStr st
  (st.valueStr b).bind fun r =>
    (release r.1 v).bind fun st' =>
      match (match b with | .const _ => Ref.empty | .temp i => .slot i | .var u => st.vars u) with
      | .slot i => fin { st'.inc i with vars := upd st'.vars v (.slot i) }
      | .empty =>
        match new with
        | none => fail st' .outOfMemory
        | some z => fin { (st'.setStr z r.2).inc z with vars := upd st'.vars v (.slot z) }

/-- INPUT and LINPUT release the old string only if its type is `STRING_CHAR` (`console.c:382-384`, `444-446`). -/
def inputRelease (st : St) (v : Nat) : Out St :=
  match st.vars v with
  | .slot i => if (st.slot i).str.wide = false then st.dec i else .ok st
  | .empty => .ok st

/-- One operation. -/
def step (st : St) : Op → Res
  | .lit s => fin { st with stack := .const s :: st.stack }
  | .load v => if v < st.n then fin { st with stack := .var v :: st.stack } else .ub
  | .fn k f => opFn st k f
  | .use k =>
    if st.stack.length < k then .ub
    else (({ st with stack := st.stack.drop k }).valueStrs (st.stack.take k)).bind fun r => fin r.1
  | .assign =>
    match st.stack with
    | b :: .var v :: rest => if v < st.n then assignTo { st with stack := rest } v b else .ub
    | _ => .ub
  | .read v s =>
    if v < st.n then
      match getNewStr st with
      | none => .ub
      | some z => fin { ((st.setStr z ⟨false, s⟩).setUses z 1) with vars := upd st.vars v (.slot z) }
    else .ub
  | .input v s =>
    if v < st.n then
      match getNewStr st with
      | none => .ub
      | some z =>
        (inputRelease st v).bind fun st' =>
            fin { ((st'.setStr z s).setUses z 1) with vars := upd st.vars v (.slot z) }
    else .ub
  | .swap u v =>
    if u < st.n ∧ v < st.n then fin { st with vars := upd (upd st.vars u (st.vars v)) v (st.vars u) } else .ub
  | .clear =>
    fin { st with slot := fun i => { st.slot i with uses := 0 }, vars := fun _ => .empty, stack := [] }
  | .done => fin { st with stack := [] }

/-- A history: the final state and the errors reported. -/
def run (st : St) : List Op → Out (St × List (Option Err))
  | [] => .ok (st, [])
  | op :: ops => (step st op).bind fun r => (run r.1 ops).bind fun q => .ok (q.1, r.2 :: q.2)

end Sbc.StrPool
