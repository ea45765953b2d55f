import Verif.Model.Machine
import Verif.Model.Console
import Verif.Model.Graphics
import Verif.Model.StrFuncs
import Verif.Model.Num
set_option autoImplicit false
/-!
# Console and graphics commands as the interpreter calls them (`runner.c:57-113`)

The tables `ptc_commands`, `ptc_functions` and `ptc_sysvars` for the commands, functions and system variables of `console.c`,
`graphics.c`, `mathptc.c`, `strfuncs.c` and `sysvars.c` listed here, with their arguments taken from the stack, and the operators on strings
(`operators.c`).  Other entries of the tables, and other numbers of arguments, are not described (`.ub`).

Strings are their characters: where they are kept, when they are shared and when the pool is exhausted (`get_new_str`) is not described here, see
`Model/StrPool`.  All of them are 8-bit strings, as the results of operators and functions are.
-/
namespace Sbc.Devices
open Sbc Sbc.Tok Sbc.Machine Sbc.Console Sbc.Graphics

/-- Text console and graphics (`struct ptc`, `system.h`). -/
structure Dev where
  con : Con
  gfx : Gfx

/-- What the loop of `cmd_print` makes of an entry (`console.c:114-138`). -/
def printEntry (c : Core Dev) : Entry → Out Console.Item
  | .num n => .ok (.num n)
  | .var false false p => .ok (.num (c.mem p))
  | .str false s => .ok (.str ⟨false, s⟩)
  | .var true false p => .ok (.str ⟨false, c.smem p⟩)
  | .sep op => if op = 1 then .ok .comma else if op = 5 then .ok .semicolon else .ub
  | _ => .ub

/-- Entries one after the other. -/
def each {α : Type} (f : Entry → Out α) : List Entry → Out (List α)
  | [] => .ok []
  | e :: r => (f e).bind fun a => (each f r).bind fun as => .ok (a :: as)

/-- A console command has no errors. -/
def Dev.text (d : Dev) (c : Con) : Out (Dev × Nat) := .ok ({ d with con := c }, 0)

/-- A graphics command. -/
def Dev.draw (d : Dev) (r : Graphics.Res) : Out (Dev × Nat) :=
  r.bind fun g => .ok ({ d with gfx := g.1 }, match g.2 with | none => 0 | some e => errNum e)

/-- The commands with numbers as arguments (`runner.c:57-82`). -/
def numeric (k : Nat) (args : List Int) (d : Dev) : Out (Dev × Nat) :=
  match k, args with
  | 1, [x, y] => d.text (cmdLocate d.con x y)
  | 2, [f] => d.text (cmdColor d.con f none)
  | 2, [f, b] => d.text (cmdColor d.con f (some b))
  | 18, [] => d.text (cmdCls d.con)
  | 57, [x, y, x', y'] => d.draw (cmdGbox d.gfx x y x' y' none)
  | 57, [x, y, x', y', c] => d.draw (cmdGbox d.gfx x y x' y' (some c))
  | 59, [] => d.draw (cmdGcls d.gfx none)
  | 59, [c] => d.draw (cmdGcls d.gfx (some c))
  | 60, [c] => d.draw (cmdGcolor d.gfx c)
  | 62, [m] => d.draw (cmdGdrawmd d.gfx m)
  | 63, [x, y, x', y'] => d.draw (cmdGfill d.gfx x y x' y' none)
  | 63, [x, y, x', y', c] => d.draw (cmdGfill d.gfx x y x' y' (some c))
  | 64, [x, y, x', y'] => d.draw (cmdGline d.gfx x y x' y' none)
  | 64, [x, y, x', y', c] => d.draw (cmdGline d.gfx x y x' y' (some c))
  | 65, [s] => d.draw (cmdGpage d.gfx s none)
  | 65, [s, p, w] => d.draw (cmdGpage d.gfx s (some (p, w)))
  | 67, [x, y] => d.draw (cmdGpset d.gfx x y none)
  | 67, [x, y, c] => d.draw (cmdGpset d.gfx x y (some c))
  | _, _ => .ub

/-- A command with its arguments on the stack (`runner.c:57-82`). -/
def command (k : Nat) (c : Core Dev) : Out (Dev × Nat) :=
  if k = 0 then (each (printEntry c) c.stack).bind fun is => (cmdPrint c.ext.con is).bind fun con => c.ext.text con
  else (each c.num c.stack).bind fun args => numeric k args c.ext

/-- An argument of a function or operator. -/
inductive Arg where
  | num (n : Int)
  | str (s : Strs.Str)

/-- `VALUE_NUM`, `value_str` of an entry (`stack.h:13-75`). -/
def arg (c : Core Dev) : Entry → Out Arg
  | .num n => .ok (.num n)
  | .var false false p => .ok (.num (c.mem p))
  | .str false s => .ok (.str ⟨false, s⟩)
  | .var true false p => .ok (.str ⟨false, c.smem p⟩)
  | _ => .ub

/-- The entry for a result (`STACK_RETURN_NUM`; `stack_push` with a string of the pool). -/
def Arg.entry : Arg → Entry
  | .num n => .num n
  | .str s => .str false s.data

/-- A number as a result. -/
def retNum (o : Out Int) : Out Arg := o.bind fun v => .ok (.num v)
/-- A string as a result. -/
def retStr (o : Out Strs.Str) : Out Arg := o.bind fun s => .ok (.str s)

/-- A function (`runner.c:92-100`).  VAL of the empty string and of `&` reads an uninitialised buffer (`strfuncs.c:57-66`). -/
def function (f : Nat) (args : List Arg) (d : Dev) : Out Arg :=
  match f, args with
  | 0, [.num x] => retNum (Arith.fnAbs x)
  | 1, [.str s] => retNum (Strs.funcAsc s)
  | 8, [.num x, .num y] => .ok (.num (funcChkchr d.con x y))
  | 9, [.num x] => retStr (Strs.funcChr x)
  | 13, [.num x] => retNum (Arith.fnFloor x)
  | 14, [.num x, .num y] => retNum (funcGspoit d.gfx none x y)
  | 18, [.str s, .str t] => retNum (Strs.funcInstr s t 0)
  | 18, [.str s, .str t, .num i] => retNum (Strs.funcInstr s t i)
  | 19, [.str s, .num n] => retStr (Strs.funcLeft s n)
  | 20, [.str s] => .ok (.num (Strs.funcLen s))
  | 22, [.str s, .num i, .num n] => retStr (Strs.funcMid s i n)
  | 23, [] => .ok (.num 12867)
  | 26, [.str s, .num n] => retStr (Strs.funcRight s n)
  | 28, [.num x] => retNum (Arith.fnSgn x)
  | 36, [.num n] => retStr (Num.funcStr n)
  | 39, [.str s] => if s.data = [] ∨ s.data = [38] then .ub else retNum (Num.funcVal 0 0 s)
  | _, _ => .ub

/-- A system variable (`runner.c:102-113`, `sysvars.c:12-30`, `console.c:487-497`). -/
def sysvar (v : Nat) (d : Dev) : Out Arg :=
  match v with
  | 0 => .ok (.num 4096)
  | 1 => .ok (.num 0)
  | 2 => .ok (.num (-4096))
  | 17 => .ok (.num (intToFp d.con.x))
  | 18 => .ok (.num (intToFp d.con.y))
  | _ => .ub

/-- The answer of a function, operator or system variable: the result is pushed, or an error is set. -/
def push (o : Out Arg) (c : Core Dev) (rest : List Entry) : Out (Core Dev) :=
  match o with
  | .ok v => .ok { c with stack := rest ++ [v.entry] }
  | .err e => .ok { c with stack := rest, error := errNum e }
  | .ub => .ub

/-- The operators with strings (`operators.c:31-45`, `74-93`, `195-280`). -/
def operator (op : Nat) (a b : Arg) : Out Arg :=
  match a, b with
  | .str s, .str t =>
    match op with
    | 0 => retStr (Strs.opAdd s t)
    | 8 => .ok (.num (Strs.opEqual false s t))
    | 9 => .ok (.num (Strs.opInequal false s t))
    | 10 => .ok (.num (Strs.opLess s t))
    | 11 => .ok (.num (Strs.opGreater s t))
    | 12 => .ok (.num (Strs.opLessEqual s t))
    | 13 => .ok (.num (Strs.opGreaterEqual s t))
    | _ => .ub
  | .str s, .num n => if op = 3 then retStr (Strs.opMult s n) else .ub
  | _, _ => .ub

/-- `op_assign` of a string (`operators.c:144-178`): afterwards the variable holds these characters. -/
def assign (c : Core Dev) (rest : List Entry) (p : Ptr) (b : Arg) : Out (Core Dev) :=
  match b with
  | .str s => .ok { c.storeStr p s.data with stack := rest }
  | .num _ => .ub

/-- The calls of the interpreter (`runner.c:252-300`). -/
def devices : Env Dev where
  other := fun op k argc c =>
    if op = bcFunction then
      (each (arg c) (c.stack.drop (c.stack.length - argc))).bind fun args => push (function k args c.ext) c (c.stack.take (c.stack.length - argc))
    else if op = bcSysvar then push (sysvar k c.ext) c c.stack
    else if op = bcCommand then (command k c).bind fun r => .ok { c with stack := [], ext := r.1, error := r.2 }
    else if op = bcOperator then
      match c.stack.drop (c.stack.length - 2) with
      | [a, b] =>
        let rest := c.stack.take (c.stack.length - 2)
        (arg c b).bind fun y =>
          if k = 6 then match a with | .var true false p => assign c rest p y | _ => .ub
          else (arg c a).bind fun x => push (operator k x y) c rest
      | _ => .ub
    else .ub

end Sbc.Devices
