import Verif.Model.Lexer
set_option autoImplicit false
/-!
# The main loop of the system (`source/system.c:313-480`) and the two threads

The program thread runs `launch_system`; the window thread (or the frame interrupt) writes into `exec.error` at any time: BREAK when SELECT
is pressed (`subsystem/input.c:42-47`) and SHUTDOWN when the window has been closed (`main.c:316-319`, after which it waits for the program
thread).  The model is a transition system in which every access of the main loop to `exec.error` is a step of its own.

Simplified: what programs do is left open (an instruction may write an error number, and it may assign to the variable `CODE$` that the
prompt uses); the text of the messages is in `message`; the commands for debugging behind `REM BENCH` and `REM LABEL` only take a step.
-/
namespace Sbc.Launch
open Sbc Sbc.Tok

/-- `ERR_BREAK`, `ERR_BUTTON_SIGNAL`, `ERR_USER_SIGNAL`, `ERR_SHUTDOWN`, `ERR_FILE_LOAD_FAILED` (`error.h`). -/
def errBreak : Nat := 53
def errButton : Nat := 62
def errUser : Nat := 63
def errShutdown : Nat := 71
def errLoad : Nat := 36

/-- `enum launch_state` (`system.c:278-284`). -/
inductive Mode where
  | prompt | edit | run | autoload | debug
  deriving DecidableEq

/-- Where the program thread is. -/
inductive Pc where
  /-- `system.c:369` -/
  | top
  /-- `system.c:370-374` -/
  | clear
  /-- in LINPUT of the prompt (`system.c:379`) -/
  | waiting
  /-- `system.c:381-389` -/
  | got
  /-- `system.c:391-398` -/
  | signal
  /-- `system.c:399-401` -/
  | shut
  /-- the line is copied (`system.c:403-409`), then `token_and_run`, `system.c:314-315` -/
  | begin
  /-- `tokenize_full`, `system.c:316` -/
  | compile
  /-- `system.c:317` -/
  | compiled
  /-- between two instructions (`runner.c:184`) -/
  | loop
  /-- in an instruction -/
  | instr
  /-- after EDIT (`system.c:419-430`) -/
  | edited
  /-- `load_program`, `system.c:438-446` -/
  | load
  /-- the message (`system.c:460-469`) -/
  | display
  /-- `system.c:471` -/
  | after
  /-- `system.c:475-477`, `system.c:367` -/
  | wipe
  /-- the thread has ended -/
  | stopped
  /-- undefined behaviour: the line does not fit `direct_cmd` -/
  | overflow
  deriving DecidableEq

/-- The state. `code` is the value of `CODE$`, `sig` is `error_info[0]`; the last two are a record of what happened: the lines that were
executed and the errors that were reported. -/
structure St where
  pc : Pc
  error : Nat
  running : Bool
  mode : Mode
  code : List Nat
  sig : Nat
  executed : List (List Nat)
  shown : List Nat

/-- What can happen. -/
inductive Act where
  /-- the program thread goes on -/
  | go
  /-- the user finishes the line at the prompt -/
  | line (l : List Nat)
  /-- compiling ends with this error number, or 0 -/
  | compiled (e : Nat)
  /-- the instruction is finished; it may have written an error number and assigned to `CODE$` -/
  | instr (w : Option Nat) (code : Option (List Nat))
  /-- the program has come to its end -/
  | finish
  /-- a program was loaded from the file, or not -/
  | loaded (ok : Bool)
  /-- SELECT -/
  | select
  /-- the window has been closed -/
  | close
  deriving DecidableEq

/-- What the two other threads do. -/
def Act.outside : Act → Bool
  | .select | .close => true
  | _ => false

/-- `REM BENCH` and `REM LABEL` (`system.c:381-389`). -/
def special (l : List Nat) : Bool := l == chars "REM BENCH" || l == chars "REM LABEL"

/-- The room of `direct_cmd` (`system.c:405`): 33 bytes, one of them for the end of the line. -/
def lineRoom : Nat := 32

/-- The modes that run code without the prompt. -/
def Mode.entry : Mode → Pc
  | .prompt => .waiting
  | .edit => .loop
  | .run => .begin
  | .autoload => .load
  | .debug => .display

/-- After a mode without an own transition: `system.c:434`, `452`. -/
def Mode.back : Mode → Mode
  | .run | .debug => .prompt
  | m => m

/-- One step; `none` when it is not possible. -/
def step (s : St) : Act → Option St
  | .select => some { s with error := errBreak }
  | .close => some { s with error := errShutdown }
  | .go =>
    match s.pc with
    | .top => some { s with running := s.error != errShutdown, pc := .clear }
    | .clear => some { s with error := 0, pc := s.mode.entry, mode := if s.mode = .debug then .prompt else s.mode }
    | .waiting => if s.error ≠ 0 then some { s with pc := .got } else none
    | .got => if special s.code then some { s with mode := .debug, pc := .display } else some { s with pc := .signal }
    | .signal =>
      if s.error = errButton then
        some { s with mode := if s.sig = 72 then .edit else s.mode, error := 0, sig := 0, pc := .display }
      else some { s with pc := .shut }
    | .shut => if s.error = errShutdown then some { s with pc := .display } else some { s with pc := .begin }
    | .begin =>
      if s.mode = .prompt then
        if s.code.length ≤ lineRoom then some { s with error := 0, pc := .compile, executed := s.executed ++ [s.code] }
        else some { s with pc := .overflow }
      else some { s with error := 0, pc := .compile }
    | .compiled => if s.error = 0 then some { s with pc := .loop } else some { s with pc := .display, mode := s.mode.back }
    | .loop =>
      if s.error = 0 then some { s with pc := .instr }
      else if s.mode = .edit then some { s with pc := .edited } else some { s with pc := .display, mode := s.mode.back }
    | .edited =>
      if s.error = errUser then
        if s.sig = 1 then some { s with mode := .run, error := 0, sig := 0, pc := .display } else some { s with pc := .display }
      else some { s with mode := .prompt, pc := .display }
    | .display => some { s with shown := s.shown ++ [s.error], pc := .after }
    | .after => some { s with pc := if s.error = errShutdown then .stopped else .wipe }
    | .wipe => some { s with error := 0, sig := 0, pc := if s.running then .top else .stopped }
    | _ => none
  | .line l => if s.pc = .waiting ∧ s.error = 0 ∧ l.length ≤ lineRoom then some { s with code := l, pc := .got } else none
  | .compiled e => if s.pc = .compile ∧ e ≠ errButton ∧ e ≠ errShutdown then some { s with error := e, pc := .compiled } else none
  | .instr w code =>
    if s.pc = .instr ∧ w ≠ some errButton ∧ w ≠ some errShutdown then
      some { s with error := w.getD s.error, code := code.getD s.code, pc := .loop }
    else none
  | .finish =>
    if s.pc = .loop ∧ s.error = 0 then some { s with pc := if s.mode = .edit then .edited else .display, mode := s.mode.back } else none
  | .loaded ok =>
    if s.pc = .load then
      some (if ok then { s with mode := .run, pc := .display } else { s with error := errLoad, mode := .prompt, pc := .display })
    else none

/-- Several steps. -/
def steps (s : St) : List Act → Option St
  | [] => some s
  | a :: r => (step s a).bind fun s' => steps s' r

/-- The state when the loop is entered (`system.c:355-366`): with or without the name of a program. -/
def init (file : Bool) : St :=
  ⟨.top, 0, true, if file then .autoload else .prompt, [], 0, [], []⟩

/-- The texts of `error_messages` (`source/error.c:3-79`), in the order of the error numbers. -/
def errorMessages : List String :=
  ["OK", "BC_SMALL_NUMBER data out of range", "Invalid command ID", "Invalid function ID", "Invalid operator ID",
   "Invalid bytecode", "Failed to create variable", "PRINT - Invalid operator provided", "PRINT - Invalid stack item",
   "Operator types do not match", "Functionality currently unimplemented", "Operator argument types invalid",
   "Operator argument type invalid", "Can't assign to literal", "Can't assign to provided type",
   "Can't find a matching FOR for this NEXT", "Missing variable initialization in FOR", "Can't find ELSE or ENDIF",
   "Wrong type provided", "RETURN without GOSUB", "Command should not exist", "Handling for type is unspecified",
   "Resource type is invalid", "String too long", "Wrong number of arguments", "Label not found", "No arguments provided",
   "Missing semicolon", "READ command failed", "Out of DATA", "Type mismatch (function)", "Syntax error", "Invalid sysvar ID",
   "Incorrect argument value", "Can't find a matching NEXT for this FOR", "Entered BC_BEGIN_LOOP with no FOR call!",
   "Failed to load file", "Argument out of range!", "Division by zero!", "Overflow!", "Subscript out of range",
   "Duplicate definition", "Out of memory", "Subscript out of range [X]", "Subscript out of range [Y]",
   "Command has incorrect arguments", "Operator has incorrect arguments", "Function has incorrect arguments",
   "Array has incorrect arguments", "Unknown token type in tok_test!", "Stack not empty after tok_test!",
   "Unknown token type in tok_code!", "Failed to generate label entry", "Program manually stopped", "Illegal function call",
   "Optimization option requires system pointer", "BC length invariant failed", "Label name is too long",
   "Illegal pointer address", "Null pointer address", "Misaligned pointer address", "Unknown transition",
   "Special button triggered break", "Program triggered break", "File failed to save", "Illegal pointer offset",
   "Can't sort array using itself as key", "Entered BC_BEGIN_LOOP with no TO value!", "GPAINT stack overflow",
   "FOR command has no matching BC_BEGIN_LOOP", "Sorting 2D array not allowed!", "Shutdown started",
   "Loaded file type does not match resource type", "File contains invalid data", "File processing internal error"]

/-- The text that is shown (`system.c:463-468`): the message and `error_info` are put into a buffer with 64 characters (and one more byte is
needed for the end of the text). -/
def message (error : Nat) (info : List Nat) : Out (List Nat) :=
  match errorMessages[error]? with
  | none => .ub
  | some m => if (chars m).length + info.length < 64 then .ok (chars m ++ info) else .ub

end Sbc.Launch
