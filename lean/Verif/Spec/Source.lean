import Verif.Spec.Types
import Verif.Spec.Compile
import Verif.Spec.Num
import Verif.Spec.Strs
import Verif.Spec.Flow
import Verif.Spec.Loop
import Verif.Spec.Data
set_option autoImplicit false
/-!
# Specification of programs as they are written

A part of the language with a meaning that does not mention tokens, code or the interpreter: expressions over numbers and strings with
functions and system variables,
assignments, commands and PRINT with their values, GOTO, GOSUB, RETURN, END, STOP, FOR, NEXT, ON with GOTO or GOSUB, IF with THEN and ELSE,
DATA, READ and RESTORE, arrays with DIM.
-/
namespace Sbc.Source
open Sbc Sbc.Tok Sbc.Tok.Spec

/-! ## Syntax -/

/-- Expressions over numbers and strings. -/
inductive E where
  /-- a decimal constant -/
  | num (w : List Nat)
  /-- a string constant -/
  | str (w : List Nat)
  /-- a variable; the name of a variable for strings ends in a dollar sign -/
  | var (w : List Nat)
  | un (op : Nat) (e : E)
  | bin (op : Nat) (l r : E)
  | paren (e : E)
  /-- a system variable -/
  | sys (v : Nat)
  /-- a function without arguments, with one, two or three arguments -/
  | fn0 (f : Nat)
  | fn1 (f : Nat) (a : E)
  | fn2 (f : Nat) (a b : E)
  | fn3 (f : Nat) (a b c : E)
  /-- an element of an array with one or two dimensions; with square brackets if `sq` -/
  | arr1 (sq : Bool) (w : List Nat) (a : E)
  | arr2 (sq : Bool) (w : List Nat) (a b : E)

/-- Statements. -/
inductive S where
  | assign (w : List Nat) (e : E)
  /-- any command that only has an effect on the rest of the system -/
  | cmd (c : Nat) (args : List E)
  /-- PRINT: items each followed by a comma or semicolon, then possibly a last item -/
  | print (items : List (Option E × Nat)) (last : Option E)
  | goto (l : List Nat)
  | gosub (l : List Nat)
  | ret
  | fin
  /-- STOP -/
  | stop
  /-- FOR: the variable, the first value, the limit and the step -/
  | for' (w : List Nat) (a b : E) (s : Option E)
  /-- NEXT, possibly with the name of the variable -/
  | next (w : Option (List Nat))
  /-- ON: the value, then GOTO (or GOSUB, if `sub`) with labels -/
  | on (e : E) (sub : Bool) (ls : List (List Nat))
  /-- READ: variables and elements of arrays -/
  | read (ls : List E)
  | restore (l : List Nat)
  /-- DIM: a name with the dimensions, written like an element; and more of them -/
  | dim (l : E) (r : List E := [])
  /-- assignment to an element of an array -/
  | put (l e : E)

/-- What follows THEN or ELSE: a label to go to, or statements. -/
inductive Branch where
  | jump (l : List Nat)
  | run (ss : List S)

/-- IF: the condition, whether the word THEN is written (it may be left out before GOTO and GOSUB), the branches. -/
structure If where
  cond : E
  then' : Bool
  yes : Branch
  no : Option Branch

/-- DATA: what is written after the word, and the items that this means. -/
structure Data where
  text : List Nat
  items : List (List Nat)

/-- A line: a label, statements, and possibly an IF as the last statement; or a label and DATA. -/
structure Line where
  label : Option (List Nat)
  stmts : List S
  last : Option If
  data : Option Data := none

/-! ## How a line is written -/

/-- The tree of an expression. -/
def E.tree : E → Expr
  | .num w => .atom ⟨.number, w, 0, 0⟩
  | .str w => .atom ⟨.string, w, 0, 0⟩
  | .var w => .atom ⟨.name, w, 0, 0⟩
  | .un op e => .un op e.tree
  | .bin op l r => .bin op l.tree r.tree
  | .paren e => .paren e.tree
  | .sys v => .atom ⟨.sysvar, [], v, 0⟩
  | .fn0 f => .call0 ⟨.function, [], f, 0⟩
  | .fn1 f a => .call ⟨.function, [], f, 0⟩ false (.one a.tree)
  | .fn2 f a b => .call ⟨.function, [], f, 0⟩ false (.more a.tree (.one b.tree))
  | .fn3 f a b c => .call ⟨.function, [], f, 0⟩ false (.more a.tree (.more b.tree (.one c.tree)))
  | .arr1 sq w a => .call ⟨.name, w, 0, 0⟩ sq (.one a.tree)
  | .arr2 sq w a b => .call ⟨.name, w, 0, 0⟩ sq (.more a.tree (.one b.tree))

/-- Arguments. -/
def argTrees : E → List E → Args
  | a, [] => .one a.tree
  | a, b :: r => .more a.tree (argTrees b r)

/-- The word `@` with a name. -/
def labelTk (l : List Nat) : Tk := ⟨.label, l, 0, 0⟩
/-- `:` -/
def colonTk : Tk := ⟨.newline, [58], 0, 0⟩
/-- The end of a line. -/
def endTk : Tk := ⟨.newline, [13], 0, 0⟩

/-- The statements without labels as statements of `Spec/Stmt`. -/
def S.simple : S → Stmt
  | .assign w e => .assign (.atom ⟨.name, w, 0, 0⟩) e.tree
  | .cmd c [] => .cmd0 c
  | .cmd c (a :: r) => .cmd c (argTrees a r)
  | .print items last => .print (items.map fun x => (x.1.map E.tree, x.2)) (last.map E.tree)
  | .ret => .cmd0 cmdReturn
  | .fin => .cmd0 cmdEnd
  | .stop => .cmd0 cmdStop
  | .next none => .cmd0 cmdNext
  | .next (some w) => .cmd cmdNext (.one (.atom ⟨.name, w, 0, 0⟩))
  | .read [] => .cmd0 cmdRead
  | .read (l :: r) => .cmd cmdRead (argTrees l r)
  | .put l e => .assign l.tree e.tree
  | .goto _ | .gosub _ | .for' .. | .on .. | .restore _ | .dim .. => .empty

/-- The words of the step of a loop. -/
def stepToks : Option E → List Tk
  | none => []
  | some e => cmdTk cmdStep :: e.tree.toks

/-- GOTO or GOSUB. -/
def jumpWord (sub : Bool) : Nat := if sub then cmdGosub else cmdGoto

/-- Labels separated by commas. -/
def labelToks : List (List Nat) → List Tk
  | [] => []
  | [l] => [labelTk l]
  | l :: m :: r => labelTk l :: opTk opComma :: labelToks (m :: r)

/-- Names with dimensions, separated by commas. -/
def dimToks : E → List E → List Tk
  | l, [] => l.tree.toks
  | l, m :: r => l.tree.toks ++ opTk opComma :: dimToks m r

/-- The words of a statement. -/
def S.toks : S → List Tk
  | .goto l => [cmdTk cmdGoto, labelTk l]
  | .gosub l => [cmdTk cmdGosub, labelTk l]
  | .for' w a b s => cmdTk cmdFor :: ⟨.name, w, 0, 0⟩ :: opTk opAssign :: (a.tree.toks ++ cmdTk cmdTo :: (b.tree.toks ++ stepToks s))
  | .on e sub ls => cmdTk cmdOn :: (e.tree.toks ++ cmdTk (jumpWord sub) :: labelToks ls)
  | .restore l => [cmdTk cmdRestore, labelTk l]
  | .dim l r => cmdTk cmdDim :: dimToks l r
  | s => s.simple.toks

/-- Pieces separated by colons. -/
def joinToks : List (List Tk) → List Tk
  | [] => []
  | [p] => p
  | p :: q :: r => p ++ colonTk :: joinToks (q :: r)

/-- The words of a branch. -/
def Branch.toks : Branch → List Tk
  | .jump l => [labelTk l]
  | .run ss => joinToks (ss.map S.toks)

/-- The words of an IF. -/
def If.toks (i : If) : List Tk :=
  cmdTk cmdIf :: i.cond.tree.toks ++ (if i.then' then [cmdTk cmdThen] else []) ++ i.yes.toks ++
    (match i.no with | none => [] | some b => cmdTk cmdElse :: b.toks)

/-- The word DATA with what follows it. -/
def Data.tk (d : Data) : Tk := ⟨.command, d.text ++ [13], cmdData, 0⟩

/-- The pieces of a line. -/
def Line.pieces (l : Line) : List (List Tk) :=
  (match l.label with | none => [] | some w => [[labelTk w]]) ++ l.stmts.map S.toks ++
    (match l.last with | none => [] | some i => [i.toks]) ++ (match l.data with | none => [] | some d => [[d.tk]])

/-- The words of a line. -/
def Line.toks (l : Line) : List Tk := joinToks l.pieces ++ [endTk]

/-- The text `a` is a way to write the line: its words in their spelling, with blanks before and between them, possibly
followed by a comment. -/
def Written (a : List Nat) (line : Line) : Prop :=
  ∃ lead ws t, LineWF ws t ∧ a ++ [13] = List.replicate lead 32 ++ lineText ws t ∧ lineTokens ws t = line.toks

/-! ## Restrictions -/

/-- A variable for numbers: 1 to 16 characters, the first at least `A`, the last not a dollar sign. -/
def VarName (w : List Nat) : Prop := Names.GoodName w ∧ w.getLast? ≠ some 36 ∧ ∀ c, w.head? = some c → 65 ≤ c

/-- A variable for strings: 1 to 16 characters and a dollar sign. -/
def StrName (w : List Nat) : Prop := w.getLast? = some 36 ∧ Names.GoodName w.dropLast

/-- Constants in the range of numbers with at most six decimals; string constants of at most 255 characters; variables; system
variables that need no check when the line ends; functions; elements of arrays (a square bracket must not be followed by a minus
sign). -/
def E.Leaves : E → Prop
  | .num w => (∀ c ∈ w, c < 256) ∧ Num.Spec.decVal (Num.Spec.ints w) < 524288 ∧ (Num.Spec.fracs w).length ≤ 6
  | .str w => w.length ≤ 255
  | .var w => VarName w ∨ StrName w
  | .un _ e => e.Leaves
  | .bin _ l r => l.Leaves ∧ r.Leaves
  | .paren e => e.Leaves
  | .sys v => v < 64 ∧ needsValidate v = false
  | .fn0 f => f < 46
  | .fn1 f a => f < 46 ∧ a.Leaves
  | .fn2 f a b => f < 46 ∧ a.Leaves ∧ b.Leaves
  | .fn3 f a b c => f < 46 ∧ a.Leaves ∧ b.Leaves ∧ c.Leaves
  | .arr1 sq w a => ((VarName w ∨ StrName w) ∧ (sq = true → leadMinus a.tree = false)) ∧ a.Leaves
  | .arr2 sq w a b => ((VarName w ∨ StrName w) ∧ (sq = true → leadMinus a.tree = false)) ∧ a.Leaves ∧ b.Leaves

/-- An element of an array. -/
def E.isCell : E → Bool
  | .arr1 .. | .arr2 .. => true
  | _ => false

/-- A variable or an element of an array. -/
def E.isPlace : E → Bool
  | .var _ | .arr1 .. | .arr2 .. => true
  | _ => false

/-- Correct expressions: they have a type. -/
structure E.Good (e : E) : Prop where
  tree : e.tree.WF
  depth : e.tree.depth ≤ 62
  leaves : e.Leaves
  typed : e.tree.type.isSome = true

/-- The expression is a number, is a string. -/
def E.isNumber (e : E) : Bool := e.tree.type.any isNum
def E.isText (e : E) : Bool := e.tree.type.any isStr

/-- Correct expressions that are numbers. -/
structure E.WF (e : E) : Prop extends E.Good e where
  number : e.isNumber = true

/-- Correct expressions that are strings. -/
structure E.Text (e : E) : Prop extends E.Good e where
  text : e.isText = true

/-- The commands that the interpreter does not treat itself. -/
def external (c : Nat) : Prop :=
  c < 110 ∧ ordinary c ∧ c ∉ [cmdTo, cmdStep, cmdOn, cmdEndif, cmdNext, cmdGoto, cmdGosub, cmdReturn, cmdEnd, cmdStop, cmdRead,
    cmdRestore, 23, 25, 47, 55, 74, 75, 84]

/-- A bound for the number of bytes that an expression needs when compiled. -/
def E.bytes : E → Nat
  | .num _ => 6
  | .str w => w.length + 3
  | .var w => w.length + 3
  | .un _ e => e.bytes + 2
  | .bin _ l r => l.bytes + r.bytes + 2
  | .paren e => e.bytes
  | .sys _ => 2
  | .fn0 _ => 4
  | .fn1 _ a => a.bytes + 4
  | .fn2 _ a b => a.bytes + b.bytes + 4
  | .fn3 _ a b c => a.bytes + b.bytes + c.bytes + 4
  | .arr1 _ w a => a.bytes + (w.length + 5)
  | .arr2 _ w a b => a.bytes + b.bytes + (w.length + 5)

/-- The same for the step of a loop. -/
def stepBytes : Option E → Nat
  | none => 0
  | some e => e.bytes + 2

/-- Correct statements: the arguments of a command have one of the shapes of its signature; at most 40 words in the
compiled form.  In a loop, limit and step need at most 255 bytes (the interpreter keeps this number in 8 bits). -/
def S.WF : S → Prop
  | .assign w e => (VarName w ∧ e.WF ∨ StrName w ∧ e.Text) ∧ e.tree.post.length ≤ 38
  | .cmd c args => external c ∧ (∀ a ∈ args, a.Good) ∧ (S.cmd c args).simple.acceptable ∧ (S.cmd c args).simple.post.length ≤ 40
  | .print items last =>
      (∀ x ∈ items, (∀ a, x.1 = some a → a.Good) ∧ (x.2 = opComma ∨ x.2 = opSemicolon)) ∧ (∀ a, last = some a → a.Good) ∧
        (S.print items last).simple.post.length ≤ 40
  | .goto l | .gosub l => Names.GoodName l
  | .ret | .fin | .stop => True
  | .for' w a b s => VarName w ∧ (a.WF ∧ a.tree.post.length ≤ 38) ∧ (b.WF ∧ b.tree.post.length ≤ 38) ∧
      (∀ e, s = some e → e.WF ∧ b.tree.post.length + e.tree.post.length ≤ 36) ∧ b.bytes + 2 + stepBytes s ≤ 255
  | .next w => ∀ x, w = some x → VarName x
  | .on e _ ls => (e.WF ∧ e.tree.post.length ≤ 40) ∧ (ls ≠ [] ∧ ls.length ≤ 40) ∧ ∀ l ∈ ls, Names.GoodName l
  | .read ls => ls ≠ [] ∧ (∀ l ∈ ls, l.isPlace = true ∧ l.Good) ∧ (S.read ls).simple.post.length ≤ 40
  | .restore l => Names.GoodName l
  | .dim l r => ∀ x ∈ l :: r, x.isCell = true ∧ x.Good ∧ x.tree.post.length ≤ 40
  | .put l e => l.isCell = true ∧ (l.WF ∧ e.WF ∨ l.Text ∧ e.Text) ∧ l.tree.post.length + e.tree.post.length ≤ 39

/-- RESTORE. -/
def S.isRestore : S → Bool
  | .restore _ => true
  | _ => false

/-- Correct branches.  A branch must not start with RESTORE, which the interpreter takes for a jump to the label (see the violation). -/
def Branch.WF : Branch → Prop
  | .jump l => Names.GoodName l
  | .run ss => ss ≠ [] ∧ (∀ s ∈ ss, s.WF) ∧ ∀ s, ss.head? = some s → s.isRestore = false

/-- GOTO or GOSUB. -/
def S.isJump : S → Bool
  | .goto _ | .gosub _ => true
  | _ => false

/-- PRINT. -/
def S.isPrint : S → Bool
  | .print _ _ => true
  | _ => false

/-- A command with several arguments, variables, arrays or labels. -/
def S.manyArgs : S → Bool
  | .cmd _ (_ :: _ :: _) => true
  | .on _ _ (_ :: _ :: _) => true
  | .read (_ :: _ :: _) => true
  | .dim _ (_ :: _) => true
  | _ => false

/-- FOR. -/
def S.isFor : S → Bool
  | .for' .. => true
  | _ => false

/-- DIM. -/
def S.isDim : S → Bool
  | .dim .. => true
  | _ => false

/-- The branch starts with a statement like that. -/
def Branch.starts (p : S → Bool) : Branch → Bool
  | .run (s :: _) => p s
  | _ => false

/-- The branch ends with a statement like that. -/
def Branch.ends (p : S → Bool) : Branch → Bool
  | .run ss => match ss.getLast? with | some s => p s | none => false
  | _ => false

/-- Correct IFs.  The last conditions exclude `IF a THEN PRINT b ELSE LOCATE c,d`, which the compiler rejects (see the
violation), and a FOR or DIM before ELSE. -/
structure If.WF (i : If) : Prop where
  cond : i.cond.WF
  short : i.cond.tree.post.length ≤ 40
  yes : i.yes.WF
  no : ∀ b, i.no = some b → b.WF
  without : i.then' = false → i.yes.starts S.isJump = true
  print : ∀ b, i.no = some b → i.yes.ends S.isPrint = true → b.starts S.manyArgs = false
  loop : ∀ b, i.no = some b → i.yes.ends S.isFor = false
  dim : ∀ b, i.no = some b → i.yes.ends S.isDim = false

/-- Number of FORs in a statement. -/
def S.extra : S → Nat
  | .for' .. => 1
  | _ => 0

/-- Number of FORs in a list of statements. -/
def extras (ss : List S) : Nat := (ss.map S.extra).sum

/-- Number of FORs in a branch. -/
def Branch.extra : Branch → Nat
  | .jump _ => 0
  | .run ss => extras ss

/-- Number of FORs in an IF. -/
def If.extra (i : If) : Nat := i.yes.extra + (match i.no with | none => 0 | some b => b.extra)

/-- Number of FORs in a line. -/
def Line.extra (l : Line) : Nat := extras l.stmts + (match l.last with | none => 0 | some i => i.extra)

/-- Correct DATA: the text is a list of the items, which need at most 255 bytes when compiled (each with a zero byte), and contain no
zero. -/
structure Data.WF (d : Data) : Prop where
  line : Machine.Line d.text d.items
  short : (Machine.block d.items).length ≤ 255
  zero : ∀ it ∈ d.items, 0 ∉ it

/-- Correct lines of at most 100 words, where FOR counts as two.  There is nothing before DATA but a label. -/
structure Line.WF (l : Line) : Prop where
  label : ∀ w, l.label = some w → Names.GoodName w
  stmts : ∀ s ∈ l.stmts, s.WF
  last : ∀ i, l.last = some i → i.WF
  len : l.toks.length + l.extra ≤ 100
  data : ∀ d, l.data = some d → d.WF ∧ l.stmts = [] ∧ l.last = none

/-! ## Variables used -/

/-- Variables of an expression; an array is its name followed by a zero. -/
def E.vars : E → List (List Nat)
  | .num _ => []
  | .str _ => []
  | .var w => [w]
  | .un _ e => e.vars
  | .bin _ l r => l.vars ++ r.vars
  | .paren e => e.vars
  | .sys _ => []
  | .fn0 _ => []
  | .fn1 _ a => a.vars
  | .fn2 _ a b => a.vars ++ b.vars
  | .fn3 _ a b c => a.vars ++ b.vars ++ c.vars
  | .arr1 _ w a => (w ++ [0]) :: a.vars
  | .arr2 _ w a b => (w ++ [0]) :: (a.vars ++ b.vars)

/-- Variables of an optional argument. -/
def optVars : Option E → List (List Nat)
  | some a => a.vars
  | none => []

/-- Variables of the step of a loop. -/
def stepVars : Option E → List (List Nat)
  | some e => e.vars
  | none => []

/-- Variables of a statement. -/
def S.vars : S → List (List Nat)
  | .assign w e => w :: e.vars
  | .cmd _ args => args.flatMap E.vars
  | .print items last => items.flatMap (fun x => optVars x.1) ++ optVars last
  | .for' w a b s => w :: (a.vars ++ (b.vars ++ stepVars s))
  | .next (some w) => [w]
  | .on e _ _ => e.vars
  | .read ls => ls.flatMap E.vars
  | .dim l r => (l :: r).flatMap E.vars
  | .put l e => l.vars ++ e.vars
  | _ => []

/-- Variables of a branch. -/
def Branch.vars : Branch → List (List Nat)
  | .jump _ => []
  | .run ss => ss.flatMap S.vars

/-- Variables of an IF. -/
def If.vars (i : If) : List (List Nat) := i.cond.vars ++ i.yes.vars ++ (match i.no with | none => [] | some b => b.vars)

/-- Variables of a line. -/
def Line.vars (l : Line) : List (List Nat) := l.stmts.flatMap S.vars ++ (match l.last with | none => [] | some i => i.vars)

/-! ## Meaning

Numbers are integers in units of 1/4096 in the range of 32 bits. -/

/-- A result, or overflow. -/
def fit (z : Int) : Out Int := if I32 z then .ok z else .err .overflow

/-- True is 1, false is 0. -/
def bool (p : Prop) [Decidable p] : Out Int := .ok (if p then 4096 else 0)

/-- A bitwise operation on the integer parts. -/
def bitwise (f : BitVec 32 → BitVec 32 → BitVec 32) (x y : Int) : Out Int :=
  .ok (wrap32 ((f (BitVec.ofInt 32 (x / 4096)) (BitVec.ofInt 32 (y / 4096))).toInt * 4096))

/-- The binary operators.  The remainder of the smallest number by -1/4096 has no meaning. -/
def binary (op : Nat) (x y : Int) : Out Int :=
  if op = opAdd then fit (x + y)
  else if op = opSubtract then fit (x - y)
  else if op = opMultiply then fit (x * y / 4096)
  else if op = opDivide then if y = 0 then .err .divideByZero else fit ((x * 4096).tdiv y)
  else if op = 8 then bool (x = y)
  else if op = 9 then bool (x ≠ y)
  else if op = 10 then bool (x < y)
  else if op = 11 then bool (x > y)
  else if op = 12 then bool (x ≤ y)
  else if op = 13 then bool (x ≥ y)
  else if op = opModulo then
    if y = 0 then .err .divideByZero else if x = -2147483648 ∧ y = -1 then .ub else .ok (x.tmod y)
  else if op = opAnd then bitwise (· &&& ·) x y
  else if op = opOr then bitwise (· ||| ·) x y
  else if op = opXor then bitwise (· ^^^ ·) x y
  else .ub

/-- The unary operators.  The negation of the smallest number has no meaning. -/
def unary' (op : Nat) (x : Int) : Out Int :=
  if op = opNegate then if x = -2147483648 then .ub else .ok (-x)
  else if op = opNot then bitwise (fun a _ => ~~~ a) x x
  else if op = opLogicalNot then bool (x = 0)
  else .ub

/-- Values: numbers and strings; commands are also given the separators of PRINT. -/
inductive Val where
  | num (v : Int)
  | str (s : List Nat)
  | sep (op : Nat)
  deriving DecidableEq

/-- The number. -/
def Val.number : Val → Out Int
  | .num v => .ok v
  | _ => .ub

/-- The characters of a text as they are shown. -/
def shown (s : List Nat) : List Nat := s.map Strs.toWide

/-- The comparisons of texts, by the order of their characters (a text comes before its continuations). -/
def compareText (op : Nat) (s t : List Nat) : Out Int :=
  if op = 8 then bool (shown s = shown t)
  else if op = 9 then bool (shown s ≠ shown t)
  else if op = 10 then bool (shown s < shown t)
  else if op = 11 then bool (shown t < shown s)
  else if op = 12 then bool (¬ shown t < shown s)
  else if op = 13 then bool (¬ shown s < shown t)
  else .ub

/-- The operators with strings: concatenation, repetition (by the integer part; not at all if it is negative), comparison.  Results of
more than 256 characters are errors. -/
def textual (op : Nat) : Val → Val → Out Val
  | .str s, .str t =>
      if op = opAdd then if s.length + t.length ≤ 256 then .ok (.str (s ++ t)) else .err .stringTooLong
      else (compareText op s t).bind fun v => .ok (.num v)
  | .str s, .num n =>
      if op = opMultiply ∧ I32 n ∧ s.length ≤ 256 then
        if (n / 4096).toNat * s.length ≤ 256 then .ok (.str (Strs.Spec.repeated s (n / 4096).toNat)) else .err .stringTooLong
      else .ub
  | _, _ => .ub

/-- The binary operators on numbers and strings. -/
def operate (op : Nat) : Val → Val → Out Val
  | .num x, .num y => (binary op x y).bind fun v => .ok (.num v)
  | x, y => textual op x y

/-- What expressions find in the rest of the system: the results of functions and the values of system variables (`.ub` for those that
are not described). -/
structure Look where
  fn : Nat → List Val → Out Val
  sys : Nat → Out Val

/-- An array with one or two dimensions: the numbers or the strings in it. -/
structure Grid where
  d1 : Nat
  d2 : Option Nat
  num : Nat → Nat → Int
  str : Nat → Nat → List Nat

/-- A new array. -/
def Grid.new (d1 : Nat) (d2 : Option Nat) : Grid := ⟨d1, d2, fun _ _ => 0, fun _ _ => []⟩

/-- Number of elements. -/
def Grid.size (g : Grid) : Nat := g.d1 * g.d2.getD 1

/-- The subscripts are in range (the second is 0 if there is one dimension). -/
def Grid.In (g : Grid) (x y : Nat) : Prop := x < g.d1 ∧ y < g.d2.getD 1

/-- An integer part of a number. -/
def IntPart (x : Int) : Prop := -524288 ≤ x ∧ x ≤ 524287

instance (x : Int) : Decidable (IntPart x) := inferInstanceAs (Decidable (_ ∧ _))

/-- The element for the given subscripts: the first one is checked first, errors 43 and 44.  A number of subscripts other than that of the
dimensions, and -1 as second subscript, have no meaning (nor have values outside the range of the numbers). -/
def Grid.at (g : Grid) (x : Int) (y : Option Int) : Out (Nat × Nat) :=
  if ¬ (IntPart x ∧ ∀ z ∈ y, IntPart z) then .ub
  else match g.d2, y with
  | none, none => if 0 ≤ x ∧ x < g.d1 then .ok (x.toNat, 0) else .err .subscriptX
  | some d, some y =>
      if 0 ≤ x ∧ x < g.d1 then
        if y = -1 then .ub else if 0 ≤ y ∧ y < d then .ok (x.toNat, y.toNat) else .err .subscriptY
      else .err .subscriptX
  | _, _ => .ub

/-- Change an element. -/
def Grid.set (g : Grid) (x y : Nat) (v : Int) : Grid := { g with num := fun a b => if a = x ∧ b = y then v else g.num a b }
def Grid.setStr (g : Grid) (x y : Nat) (s : List Nat) : Grid := { g with str := fun a b => if a = x ∧ b = y then s else g.str a b }

/-- The values of the variables: numbers, and strings (the name with its dollar sign); the arrays (`none` before DIM), and the room that
is left for arrays (an array needs as much as it has elements, and 2 more). -/
structure Store where
  num : List Nat → Int
  str : List Nat → List Nat
  grid : List Nat → Option Grid
  room : Nat

/-- Nothing has been assigned. -/
def Store.empty (room : Nat := 0) : Store := ⟨fun _ => 0, fun _ => [], fun _ => none, room⟩

/-- The value of a variable. -/
def Store.get (st : Store) (w : List Nat) : Val := if w.getLast? = some 36 then .str (st.str w) else .num (st.num w)

/-- Assign a number to a variable. -/
def Store.set (st : Store) (w : List Nat) (v : Int) : Store := { st with num := fun x => if x = w then v else st.num x }

/-- Assign a string to a variable. -/
def Store.setStr (st : Store) (w : List Nat) (s : List Nat) : Store := { st with str := fun x => if x = w then s else st.str x }

/-- The value of an element of an array. -/
def Store.cell (st : Store) (w : List Nat) (x : Int) (y : Option Int) : Out Val :=
  match st.grid w with
  | none => .ub
  | some g => (g.at x y).bind fun p => .ok (if w.getLast? = some 36 then .str (g.str p.1 p.2) else .num (g.num p.1 p.2))

/-- Change an array. -/
def Store.setGrid (st : Store) (w : List Nat) (g : Grid) : Store := { st with grid := fun x => if x = w then some g else st.grid x }

/-- The rest of the system: what commands do to it, given their values (the new state, and an error number or 0), what
expressions find in it, and for which commands and values this is known. -/
structure World (σ : Type) where
  perform : Nat → List Val → σ → σ × Nat
  look : σ → Look
  known : Nat → List Val → σ → Bool := fun _ _ _ => true

/-- Value of an expression when the variables have the values `st`. -/
def E.value (K : Look) (st : Store) : E → Out Val
  | .num w => .ok (.num (Num.Spec.value w))
  | .str w => .ok (.str w)
  | .var w => .ok (st.get w)
  | .un op e => (e.value K st).bind fun x => x.number.bind fun n => (unary' op n).bind fun v => .ok (.num v)
  | .bin op l r => (l.value K st).bind fun x => (r.value K st).bind fun y => operate op x y
  | .paren e => e.value K st
  | .sys v => K.sys v
  | .fn0 f => K.fn f []
  | .fn1 f a => (a.value K st).bind fun x => K.fn f [x]
  | .fn2 f a b => (a.value K st).bind fun x => (b.value K st).bind fun y => K.fn f [x, y]
  | .fn3 f a b c => (a.value K st).bind fun x => (b.value K st).bind fun y => (c.value K st).bind fun z => K.fn f [x, y, z]
  | .arr1 _ w a => (a.value K st).bind fun x => x.number.bind fun n => st.cell w (n / 4096) none
  | .arr2 _ w a b => (a.value K st).bind fun x => (b.value K st).bind fun y => x.number.bind fun n => y.number.bind fun m =>
      st.cell w (n / 4096) (some (m / 4096))

/-- Value of an expression that is a number. -/
def E.number (K : Look) (st : Store) (e : E) : Out Int := (e.value K st).bind Val.number

/-- Values of arguments. -/
def argValues (K : Look) (st : Store) : List E → Out (List Val)
  | [] => .ok []
  | a :: r => (a.value K st).bind fun v => (argValues K st r).bind fun vs => .ok (v :: vs)

/-- Values of an optional argument. -/
def optValues (K : Look) (st : Store) : Option E → Out (List Val)
  | none => .ok []
  | some a => (a.value K st).bind fun v => .ok [v]

/-- Values and separators of PRINT. -/
def itemValues (K : Look) (st : Store) : List (Option E × Nat) → Out (List Val)
  | [] => .ok []
  | x :: r => (optValues K st x.1).bind fun v => (itemValues K st r).bind fun vs => .ok (v ++ .sep x.2 :: vs)

/-- The DATA items of a line. -/
def Line.items (l : Line) : List (List Nat) := match l.data with | none => [] | some d => d.items

/-- The DATA items of a program. -/
def items (prog : List Line) : List (List Nat) := prog.flatMap Line.items

/-- What is left to do of a line. -/
structure Todo where
  stmts : List S
  last : Option If

/-- What is under way: a subroutine with the place to return to, or a loop with its variable, limit, step and the place
where its body begins; or a subroutine or loop of another program that runs this one (to return from it, or to reach its NEXT, has no
meaning here). -/
inductive Pending where
  | call (t : Todo) (n : Nat)
  | loop (w : List Nat) (b : E) (s : Option E) (t : Todo) (n : Nat)
  | outer (c : Machine.Call)

/-- A loop. -/
def Pending.isLoop : Pending → Bool
  | .loop .. => true
  | _ => false

/-- A running program: what is left of the current line, the number of the next line, the variables, the subroutines and
loops under way (last first), the rest of the system, the number of the DATA item that is to be read next. -/
structure Cfg (σ : Type) where
  todo : Todo
  next : Nat
  store : Store
  calls : List Pending
  world : σ
  data : Nat

/-- Outcome of a step: the program goes on, or it has ended with an error number (0 if there was no error), or it has no
meaning. -/
inductive Res (σ : Type) where
  | run (c : Cfg σ)
  | done (error : Nat) (store : Store) (world : σ)
  | undefined

variable {σ : Type}

/-- The numbers of errors in expressions. -/
def errorNumber : Err → Nat
  | .divideByZero => 38
  | .illegalFunctionCall => 54
  | .outOfRange => 37
  | .invalidArgumentValue => 33
  | .stringTooLong => 23
  | .syntax => 31
  | .subscriptX => 43
  | .subscriptY => 44
  | _ => 39

/-- Continue with a value; errors end the program. -/
def Res.with' {α : Type} (c : Cfg σ) (v : Out α) (f : α → Res σ) : Res σ :=
  match v with
  | .ok x => f x
  | .err e => .done (errorNumber e) c.store c.world
  | .ub => .undefined

/-- The line with the label `l`. -/
def target (prog : List Line) (l : List Nat) : Option Nat := prog.findIdx? fun x => x.label == some l

/-- Go to a label; label not found is error 25. -/
def Cfg.goto (prog : List Line) (c : Cfg σ) (l : List Nat) : Res σ :=
  match target prog l with
  | some k => .run { c with todo := ⟨[], none⟩, next := k }
  | none => .done 25 c.store c.world

/-- Call the subroutine at a label. -/
def Cfg.gosub (prog : List Line) (c : Cfg σ) (l : List Nat) : Res σ :=
  if c.calls.length = 255 then .done 42 c.store c.world
  else { c with calls := .call c.todo c.next :: c.calls }.goto prog l

/-- Give a command its values: the rest of the system changes; an error ends the program.  If the effect is not known then this has
no meaning. -/
def Cfg.command (W : World σ) (c : Cfg σ) (k : Nat) (vs : List Val) : Res σ :=
  let r := W.perform k vs c.world
  if W.known k vs c.world = false then .undefined
  else if r.2 = 0 then .run { c with world := r.1 } else .done r.2 c.store r.1

/-- The step of a loop is 1 unless given. -/
def stepValue (K : Look) (st : Store) : Option E → Out Int
  | none => .ok 4096
  | some e => e.number K st

/-- Assign a number to a variable. -/
def Cfg.set (c : Cfg σ) (w : List Nat) (v : Int) : Cfg σ := { c with store := c.store.set w v }

/-- Assign a value to a variable for values of its kind. -/
def Cfg.assign (c : Cfg σ) (w : List Nat) : Val → Res σ
  | .num v => if w.getLast? = some 36 then .undefined else .run (c.set w v)
  | .str s => if w.getLast? = some 36 then .run { c with store := c.store.setStr w s } else .undefined
  | .sep _ => .undefined

/-- FOR or NEXT. -/
def S.isLoop : S → Bool
  | .for' .. | .next _ => true
  | _ => false

/-- Whether there is a FOR or NEXT in a branch. -/
def Branch.hasLoop : Branch → Bool
  | .jump _ => false
  | .run ss => ss.any S.isLoop

/-- Whether there is a FOR or NEXT in the branches of an IF. -/
def If.hasLoop (i : If) : Bool := i.yes.hasLoop || i.no.any Branch.hasLoop

/-- Look for the NEXT of a loop over `w` in statements, `n` loops deep: what comes after it; or else how deep the end is.  A NEXT without a
variable belongs to the innermost loop.  One that names `w` is what is looked for, however deep; one that names another variable does not
count. -/
def seek (w : List Nat) : Nat → List S → List S ⊕ Nat
  | n, [] => .inr n
  | n, .for' .. :: r => seek w (n + 1) r
  | n, .next (some x) :: r => if x = w then .inl r else seek w n r
  | 0, .next none :: r => .inl r
  | n + 1, .next none :: r => seek w n r
  | n, _ :: r => seek w n r

/-- What is found after the NEXT of a loop: the rest of its line and the number of the next one; there may be no NEXT; and there is no
meaning if there are loops in an IF on the way. -/
inductive Found where
  | at (t : Todo) (n : Nat)
  | missing
  | unknown

/-- The same in lines, of which `k` is the number of the first. -/
def seekLines (w : List Nat) : Nat → Nat → List Line → Found
  | _, _, [] => .missing
  | n, k, l :: r => match seek w n l.stmts with
    | .inl ss => .at ⟨ss, l.last⟩ (k + 1)
    | .inr n' => if l.last.any If.hasLoop then .unknown else seekLines w n' (k + 1) r

/-- Whether what is left of a line belongs to a branch of the IF at its end. -/
def inBranch (prog : List Line) (c : Cfg σ) : Bool := c.todo.last.isNone && (prog[c.next - 1]?).any fun l => l.last.isSome

/-- The NEXT of a loop over `w` in what is left of the program.  If this begins in a branch of an IF and the NEXT is not there, there is no
meaning. -/
def Cfg.nextOf (prog : List Line) (c : Cfg σ) (w : List Nat) : Found :=
  match seek w 0 c.todo.stmts with
  | .inl ss => .at ⟨ss, c.todo.last⟩ c.next
  | .inr n => if c.todo.last.any If.hasLoop || inBranch prog c then .unknown else seekLines w n c.next (prog.drop c.next)

/-- Enter the body of a loop: limit and step are computed.  If the variable is past the limit at once, the program goes on after the NEXT
that ends the loop (no NEXT is error 34), but the loop stays under way: another NEXT will go on with it. -/
def Cfg.round (W : World σ) (prog : List Line) (c : Cfg σ) (w : List Nat) (b : E) (s : Option E) : Res σ :=
  Res.with' c (b.number (W.look c.world) c.store) fun y => Res.with' c (stepValue (W.look c.world) c.store s) fun d =>
    if Machine.Past d (c.store.num w) y then
      match c.nextOf prog w with
      | .at t n => .run { c with todo := t, next := n }
      | .missing => .done 34 c.store c.world
      | .unknown => .undefined
    else .run c

/-- The end of a round of the loop with variable `w`: limit and step are computed, the step is added (overflow is an
error), and the loop goes on at `(t, n)` unless the variable is past the limit.  Errors in limit or step have no meaning
here. -/
def Cfg.again (W : World σ) (prog : List Line) (c : Cfg σ) (w : List Nat) (b : E) (s : Option E) (t : Todo) (n : Nat) (rest : List Pending) : Res σ :=
  match b.number (W.look c.world) c.store, stepValue (W.look c.world) c.store s with
  | .ok y, .ok d =>
    if I32 (c.store.num w + d) then
      if Machine.Past d (c.store.num w + d) y then .run { c.set w (c.store.num w + d) with calls := rest }
      else { c.set w (c.store.num w + d) with todo := t, next := n }.round W prog w b s
    else .done 39 c.store c.world
  | _, _ => .undefined

/-- The same for a loop in which other loops or subroutines have been begun that are still under way: if it ends, it is no longer under way, the
others are.  To go on with it has no meaning (see C32_inner_violated). -/
def Cfg.close (W : World σ) (c : Cfg σ) (w : List Nat) (b : E) (s : Option E) (rest : List Pending) : Res σ :=
  match b.number (W.look c.world) c.store, stepValue (W.look c.world) c.store s with
  | .ok y, .ok d =>
    if I32 (c.store.num w + d) then
      if Machine.Past d (c.store.num w + d) y then .run { c.set w (c.store.num w + d) with calls := rest } else .undefined
    else .done 39 c.store c.world
  | _, _ => .undefined

/-- The loop that a NEXT belongs to: none; not known; or one, in which as many loops and subroutines as the number says are under way. -/
inductive Which where
  | missing
  | unknown
  | found (k : Nat) (w : List Nat) (b : E) (s : Option E) (t : Todo) (n : Nat)

/-- One more. -/
def Which.up : Which → Which
  | .found k w b s t n => .found (k + 1) w b s t n
  | q => q

/-- The loop that a NEXT (with this variable) belongs to: the last one under way (that has this variable). -/
def whichLoop (o : Option (List Nat)) : List Pending → Which
  | [] => .missing
  | .outer _ :: _ => .unknown
  | .call _ _ :: r => (whichLoop o r).up
  | .loop w b s t n :: r => if o = none ∨ o = some w then .found 0 w b s t n else (whichLoop o r).up

/-- An item that is a number: digits, minus sign and point, at most 16 characters, at most six decimals, in the range of numbers. -/
def NumItem (it : List Nat) : Prop :=
  it.length ≤ 16 ∧ (∀ c ∈ it, Machine.NumChar c) ∧ Num.Spec.decVal (Num.Spec.ints it) < 524288 ∧ (Num.Spec.fracs it).length ≤ 6

/-- An item that is no number: some other character is among the first 16, and it does not begin with a blank. -/
def BadItem (it : List Nat) : Prop := it.head? ≠ some 32 ∧ ∃ c ∈ it.take 16, ¬ Machine.NumChar c

instance (c : Nat) : Decidable (Machine.NumChar c) := inferInstanceAs (Decidable (_ ∨ _ ∨ _))
instance (it : List Nat) : Decidable (NumItem it) := inferInstanceAs (Decidable (_ ∧ _ ∧ _ ∧ _))
instance (it : List Nat) : Decidable (BadItem it) := inferInstanceAs (Decidable (_ ∧ _))

/-- What a name stands for where a value is to go: a variable, or an element of an array. -/
inductive Dest where
  | var (w : List Nat)
  | cell (w : List Nat) (p : Nat × Nat)

/-- The name of the variable or of the array. -/
def Dest.name : Dest → List Nat
  | .var w => w
  | .cell w _ => w

/-- The element with these subscripts; there must be such an array. -/
def Store.place (st : Store) (w : List Nat) (x : Int) (y : Option Int) : Out Dest :=
  match st.grid w with
  | none => .ub
  | some g => (g.at x y).bind fun p => .ok (.cell w p)

/-- The variable or the element of an array that is written; subscripts are computed. -/
def E.dest (K : Look) (st : Store) : E → Out Dest
  | .var w => .ok (.var w)
  | .arr1 _ w a => (a.number K st).bind fun n => st.place w (n / 4096) none
  | .arr2 _ w a b => (a.number K st).bind fun n => (b.number K st).bind fun m => st.place w (n / 4096) (some (m / 4096))
  | _ => .ub

/-- The same for several. -/
def dests (K : Look) (st : Store) : List E → Out (List Dest)
  | [] => .ok []
  | l :: r => (l.dest K st).bind fun d => (dests K st r).bind fun ds => .ok (d :: ds)

/-- Put a number there. -/
def Store.fill (st : Store) (v : Int) : Dest → Store
  | .var w => st.set w v
  | .cell w p => match st.grid w with
    | some g => st.setGrid w (g.set p.1 p.2 v)
    | none => st

/-- Put a string there. -/
def Store.fillStr (st : Store) (s : List Nat) : Dest → Store
  | .var w => st.setStr w s
  | .cell w p => match st.grid w with
    | some g => st.setGrid w (g.setStr p.1 p.2 s)
    | none => st

/-- Read items, one after the other.  An item that is no number is an error (28) if the variable is for numbers.  To go on when
no items are left has no meaning. -/
def Cfg.read (prog : List Line) (c : Cfg σ) : List Dest → Res σ
  | [] => .run c
  | d :: ds => match (items prog)[c.data]? with
    | none => .undefined
    | some it =>
      if d.name.getLast? = some 36 then Cfg.read prog { c with store := c.store.fillStr it d, data := c.data + 1 } ds
      else if NumItem it then Cfg.read prog { c with store := c.store.fill (Num.Spec.value it) d, data := c.data + 1 } ds
      else if BadItem it then .done 28 c.store c.world
      else .undefined

/-- Make a new array.  An array that exists already is error 41; a negative first dimension has no meaning, nor has a second dimension that is
not positive, nor an array for which there is not enough room. -/
def Cfg.dim (c : Cfg σ) (w : List Nat) (d1 : Int) (d2 : Option Int) : Res σ :=
  let g := Grid.new d1.toNat (d2.map Int.toNat)
  if (c.store.grid w).isSome then .done 41 c.store c.world
  else if 0 ≤ d1 ∧ IntPart d1 ∧ (∀ d ∈ d2, 1 ≤ d ∧ IntPart d) ∧ g.size + 2 ≤ c.store.room then
    .run { c with store := { c.store.setGrid w g with room := c.store.room - (g.size + 2) } }
  else .undefined

/-- Make a new array, given as a name with dimensions. -/
def Cfg.dimAt (K : Look) (c : Cfg σ) : E → Res σ
  | .arr1 _ w a => Res.with' c (a.number K c.store) fun n => c.dim w (n / 4096) none
  | .arr2 _ w a b => Res.with' c (a.number K c.store) fun n => Res.with' c (b.number K c.store) fun m => c.dim w (n / 4096) (some (m / 4096))
  | _ => .undefined

/-- Make new arrays, one after the other. -/
def Cfg.dims (K : Look) (c : Cfg σ) : List E → Res σ
  | [] => .run c
  | l :: r => match c.dimAt K l with
    | .run c' => c'.dims K r
    | .done e s w => .done e s w
    | .undefined => .undefined

/-- Assign to an element of an array a value of its kind. -/
def Cfg.put (c : Cfg σ) (w : List Nat) (g : Grid) (p : Nat × Nat) : Val → Res σ
  | .num v => if w.getLast? = some 36 then .undefined else .run { c with store := c.store.setGrid w (g.set p.1 p.2 v) }
  | .str s => if w.getLast? = some 36 then .run { c with store := c.store.setGrid w (g.setStr p.1 p.2 s) } else .undefined
  | .sep _ => .undefined

/-- Assign the value of an expression to an element of an array. -/
def Cfg.putAt (K : Look) (c : Cfg σ) (w : List Nat) (x : Int) (y : Option Int) (e : E) : Res σ :=
  match c.store.grid w with
  | none => .undefined
  | some g => Res.with' c (g.at x y) fun p => Res.with' c (e.value K c.store) fun v => c.put w g p v

/-- A statement; `c` is what remains after it. -/
def S.exec (W : World σ) (prog : List Line) (c : Cfg σ) : S → Res σ
  | .assign w e => Res.with' c (e.value (W.look c.world) c.store) fun v => c.assign w v
  | .cmd k args => Res.with' c (argValues (W.look c.world) c.store args) fun vs => c.command W k vs
  | .print items last => Res.with' c (itemValues (W.look c.world) c.store items) fun vs =>
      Res.with' c (optValues (W.look c.world) c.store last) fun ws => c.command W cmdPrint (vs ++ ws)
  | .goto l => c.goto prog l
  | .gosub l => c.gosub prog l
  | .ret => if c.calls = [] then .done 19 c.store c.world
      else match c.calls.dropWhile Pending.isLoop with
      | .call t n :: r => .run { c with todo := t, next := n, calls := r }
      | _ => .undefined
  | .fin => .done 0 c.store c.world
  | .stop => .done 53 c.store c.world
  | .for' w a b s =>
      if c.calls.length = 255 then .done 42 c.store c.world
      else Res.with' c (a.number (W.look c.world) c.store) fun v => { c.set w v with calls := .loop w b s c.todo c.next :: c.calls }.round W prog w b s
  | .next o => match whichLoop o c.calls with
      | .missing => .done 15 c.store c.world
      | .unknown => .undefined
      | .found 0 w b s t n => c.again W prog w b s t n c.calls.tail
      | .found k w b s _ _ => c.close W w b s (c.calls.eraseIdx k)
  | .on e sub ls => Res.with' c (e.number (W.look c.world) c.store) fun v =>
      if v < 0 then .run c
      else match ls[(v / 4096).toNat]? with
        | none => .run c
        | some l => if sub then c.gosub prog l else c.goto prog l
  | .read ls => Res.with' c (dests (W.look c.world) c.store ls) fun ds =>
      if (items prog).length ≤ c.data then .done 29 c.store c.world else c.read prog ds
  | .restore l => match target prog l with
      | some k => .run { c with data := (items (prog.take k)).length }
      | none => .done 25 c.store c.world
  | .dim l r => c.dims (W.look c.world) (l :: r)
  | .put (.arr1 _ w a) e => Res.with' c (a.number (W.look c.world) c.store) fun n => c.putAt (W.look c.world) w (n / 4096) none e
  | .put (.arr2 _ w a b) e => Res.with' c (a.number (W.look c.world) c.store) fun n =>
      Res.with' c (b.number (W.look c.world) c.store) fun m => c.putAt (W.look c.world) w (n / 4096) (some (m / 4096)) e
  | .put _ _ => .undefined

/-- A branch. -/
def Branch.exec (prog : List Line) (c : Cfg σ) : Branch → Res σ
  | .jump l => c.goto prog l
  | .run ss => .run { c with todo := ⟨ss, none⟩ }

/-- One step: the next statement; or the IF at the end of the line; or the next line. -/
def step (W : World σ) (prog : List Line) (c : Cfg σ) : Res σ :=
  match c.todo with
  | ⟨s :: ss, i⟩ => s.exec W prog { c with todo := ⟨ss, i⟩ }
  | ⟨[], some i⟩ => Res.with' c (i.cond.number (W.look c.world) c.store) fun v =>
      let c := { c with todo := ⟨[], none⟩ }
      if v ≠ 0 then i.yes.exec prog c
      else match i.no with
        | some b => b.exec prog c
        | none => .run c
  | ⟨[], none⟩ => match prog[c.next]? with
      | some l => .run { c with todo := ⟨l.stmts, l.last⟩, next := c.next + 1 }
      | none => .done 0 c.store c.world

/-- Several steps; an outcome other than going on is final. -/
def steps (W : World σ) (prog : List Line) : Nat → Cfg σ → Res σ
  | 0, c => .run c
  | n + 1, c => match step W prog c with
    | .run c' => steps W prog n c'
    | r => r

/-- The start of a program. -/
def begin (store : Store) (world : σ) : Cfg σ := ⟨⟨[], none⟩, 0, store, [], world, 0⟩

/-- The start of a program from within another one, where the subroutines and loops `K` are under way. -/
def beginWithin (K : List Machine.Call) (store : Store) (world : σ) : Cfg σ := ⟨⟨[], none⟩, 0, store, K.map .outer, world, 0⟩

end Sbc.Source
