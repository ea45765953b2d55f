import Verif.Spec.SourceMachine
set_option autoImplicit false
/-!
# Specification of ACLS: the commands it stands for
-/
namespace Sbc.Acls
open Sbc Sbc.Tok Sbc.Source

variable {σ : Type}

/-- The number of a command. -/
def command (s : String) : Nat := Tok.Spec.commandNames.findIdx (· == s)

/-- A number. -/
def n (k : Nat) : Val := .num (k * 4096)

/-- What is done for both pages. -/
def pageCommands (p : Nat) : List (Nat × List Val) :=
  [(command "GPAGE", [n p, n p, n p]), (command "GCOLOR", [n 0]), (command "GCLS", []), (command "GPRIO", [n 3]),
   (command "BGPAGE", [n p]), (command "BGOFS", [n 0, n 0, n 0]), (command "BGOFS", [n 1, n 0, n 0]),
   (command "BGCLR", []), (command "BGCLIP", [n 0, n 0, n 31, n 23]),
   (command "SPPAGE", [n p]), (command "SPCLR", []),
   (command "COLINIT", [.str (chars "BG")]), (command "COLINIT", [.str (chars "SP")]), (command "COLINIT", [.str (chars "GRP")])]

/-- The commands that ACLS stands for, with their values. -/
def commands : List (Nat × List Val) :=
  [(command "VISIBLE", [n 1, n 1, n 1, n 1, n 1, n 1]), (command "ICONCLR", []), (command "COLOR", [n 0, n 0]), (command "CLS", []),
   (command "GDRAWMD", [n 0])] ++ pageCommands 1 ++ pageCommands 0

/-- Commands one after the other, up to the first error. -/
def performAll (W : World σ) : List (Nat × List Val) → σ → σ × Nat
  | [], x => (x, 0)
  | (k, vs) :: r, x => if (W.perform k vs x).2 = 0 then performAll W r (W.perform k vs x).1 else W.perform k vs x

/-- The effects of the commands of ACLS are known. -/
def Known (W : World σ) : Prop := ∀ c ∈ commands, ∀ x, W.known c.1 c.2 x = true

end Sbc.Acls
