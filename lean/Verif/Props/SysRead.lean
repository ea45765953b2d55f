import Verif.Model.SysVars
import Verif.Spec.Lexer
set_option autoImplicit false
/-!
# C90: a system variable read by a program is the quantity its name says
-/
namespace Sbc.Sys
open Sbc Sbc.Tok.Spec

/-- Reading the system variable with this name (in the spelling of the source text) gives this. -/
def Reads (s : Sys) (name : String) (v : Pushed) : Prop := ∃ i, sysvarNames[i]? = some name ∧ read s i = v

/-- A name means one system variable. -/
theorem C90_names (s : Sys) (n : String) (v w : Pushed) (h1 : Reads s n v) (h2 : Reads s n w) : v = w := by
  obtain ⟨i, hi, rfl⟩ := h1
  obtain ⟨j, hj, rfl⟩ := h2
  have hn : ∀ i < 33, ∀ j < 33, sysvarNames[i]? = sysvarNames[j]? → i = j := by decide +kernel
  have hl : sysvarNames.length = 33 := by decide +kernel
  obtain ⟨hi', _⟩ := List.getElem?_eq_some_iff.mp hi
  obtain ⟨hj', _⟩ := List.getElem?_eq_some_iff.mp hj
  rw [hn i (by omega) j (by omega) (hi.trans hj.symm)]

/-- An integer quantity that fits. -/
def Fits (n : Int) : Prop := -524288 ≤ n ∧ n < 524288

/-- The quantities in a running system. -/
structure InRange (s : Sys) : Prop where
  result : Fits s.result
  tchx : Fits s.tchx
  tchy : Fits s.tchy
  tchtime : Fits s.tchtime
  csrx : Fits s.csrx
  csry : Fits s.csry
  hit : Fits s.sphitno
  vars : Fits (s.varsMax - s.varCount)
  key : 0 ≤ s.key ∧ Fits s.key
  err : s.errOld < 256
  mem : s.arrNext ≤ s.arrSize ∧ (s.arrSize - s.arrNext) * s.wordBytes / 1024 < 524288

/-- The documented readings: `n` stands for the number `n`. -/
def documented (s : Sys) : List (String × Int) :=
  [("TRUE", 1), ("FALSE", 0), ("CANCEL", -1), ("FREEVAR", s.varsMax - s.varCount),
   ("FREEMEM", ((s.arrSize - s.arrNext) * s.wordBytes / 1024 : Nat)),
   ("RESULT", s.result), ("TCHST", if s.tchtime > 0 then 1 else 0), ("TCHX", s.tchx), ("TCHY", s.tchy), ("TCHTIME", s.tchtime),
   ("CSRX", s.csrx), ("CSRY", s.csry), ("SPHITNO", s.sphitno),
   ("KEYBOARD", if s.key ≤ 69 then s.key else 0), ("FUNCNO", if 101 ≤ s.key ∧ s.key ≤ 105 then s.key - 100 else 0), ("ERR", s.errOld)]

theorem num_fits {n : Int} (h : Fits n) : intToFp n = 4096 * n := by
  unfold Fits at h; rw [intToFp_small (by omega), Int.mul_comm]

/-- **C90.** Numbers. -/
theorem C90_numbers_partial (s : Sys) (h : InRange s) (n : String) (v : Int) (hm : (n, v) ∈ documented s) : Reads s n (.num (4096 * v)) := by
  have hk := h.key
  unfold Fits at hk
  simp only [documented, List.mem_cons, List.not_mem_nil, or_false, Prod.mk.injEq] at hm
  rcases hm with ⟨rfl, rfl⟩ | ⟨rfl, rfl⟩ | ⟨rfl, rfl⟩ | ⟨rfl, rfl⟩ | ⟨rfl, rfl⟩ | ⟨rfl, rfl⟩ | ⟨rfl, rfl⟩ | ⟨rfl, rfl⟩ | ⟨rfl, rfl⟩ |
    ⟨rfl, rfl⟩ | ⟨rfl, rfl⟩ | ⟨rfl, rfl⟩ | ⟨rfl, rfl⟩ | ⟨rfl, rfl⟩ | ⟨rfl, rfl⟩ | ⟨rfl, rfl⟩
  · exact ⟨0, rfl, rfl⟩
  · exact ⟨1, rfl, rfl⟩
  · exact ⟨2, rfl, rfl⟩
  · exact ⟨8, rfl, congrArg Pushed.num (num_fits h.vars)⟩
  · exact ⟨9, rfl, congrArg Pushed.num (num_fits ⟨by omega, by have := h.mem.2; omega⟩)⟩
  · exact ⟨12, rfl, congrArg Pushed.num (num_fits h.result)⟩
  · exact ⟨13, rfl, congrArg Pushed.num (num_fits (by unfold Fits; split <;> omega))⟩
  · exact ⟨14, rfl, congrArg Pushed.num (num_fits h.tchx)⟩
  · exact ⟨15, rfl, congrArg Pushed.num (num_fits h.tchy)⟩
  · exact ⟨16, rfl, congrArg Pushed.num (num_fits h.tchtime)⟩
  · exact ⟨17, rfl, congrArg Pushed.num (num_fits h.csrx)⟩
  · exact ⟨18, rfl, congrArg Pushed.num (num_fits h.csry)⟩
  · exact ⟨20, rfl, congrArg Pushed.num (num_fits h.hit)⟩
  · exact ⟨24, rfl, congrArg Pushed.num (num_fits (by unfold Fits; split <;> omega))⟩
  · refine ⟨25, rfl, congrArg Pushed.num ?_⟩
    unfold funcno
    exact num_fits (by unfold Fits; split <;> omega)
  · exact ⟨30, rfl, congrArg Pushed.num (num_fits (by unfold Fits; have := h.err; omega))⟩

/-- **C90.** The clock, the counters, the names, and the variables that can be assigned.  (What TIME$, DATE$, MAINCNTL and
MAINCNTH then mean is C72 and C74.) -/
theorem C90_others (s : Sys) :
    Reads s "TIME$" (.str (timeStr s.tm)) ∧ Reads s "DATE$" (.str (dateStr s.tm)) ∧ Reads s "PRGNAME$" (.str s.prgname) ∧
    Reads s "PACKAGE$" (.str s.package) ∧ Reads s "MAINCNTL" (.num (maincntl s.time)) ∧ Reads s "MAINCNTH" (.num (maincnth s.time)) ∧
    Reads s "TABSTEP" (.cell .tabstep) ∧ Reads s "ICONPUSE" (.cell .iconpuse) ∧ Reads s "ICONPAGE" (.cell .iconpage) ∧
    Reads s "ICONPMAX" (.cell .iconpmax) ∧ Reads s "MEM$" .memCell ∧ Reads s "MEMSAFE" (.cell .memsafe) ∧
    Reads s "VERSION" (.num (4096 * 8224)) :=
  ⟨⟨4, rfl, rfl⟩, ⟨5, rfl, rfl⟩, ⟨10, rfl, rfl⟩, ⟨11, rfl, rfl⟩, ⟨6, rfl, rfl⟩, ⟨7, rfl, rfl⟩, ⟨19, rfl, rfl⟩, ⟨26, rfl, rfl⟩,
    ⟨27, rfl, rfl⟩, ⟨28, rfl, rfl⟩, ⟨31, rfl, rfl⟩, ⟨32, rfl, rfl⟩, ⟨3, rfl, rfl⟩⟩

/-- **C90** is violated by four system variables, in every state: SPHITX, SPHITY and SPHITT stop the program with
"not implemented" (the values exist, SPHITSP stores them), and ERL is 1 whatever line the last error was in. -/
theorem C90_violated (s : Sys) :
    Reads s "SPHITX" (.error 10) ∧ Reads s "SPHITY" (.error 10) ∧ Reads s "SPHITT" (.error 10) ∧ Reads s "ERL" (.num 4096) :=
  ⟨⟨21, rfl, rfl⟩, ⟨22, rfl, rfl⟩, ⟨23, rfl, rfl⟩, ⟨29, rfl, rfl⟩⟩

/-- Every system variable is covered by the three theorems. -/
theorem C90_all (s : Sys) : ∀ n ∈ sysvarNames, n ∈ (documented s).map Prod.fst ++
    ["TIME$", "DATE$", "PRGNAME$", "PACKAGE$", "MAINCNTL", "MAINCNTH", "TABSTEP", "ICONPUSE", "ICONPAGE", "ICONPMAX", "MEM$", "MEMSAFE",
     "VERSION", "SPHITX", "SPHITY", "SPHITT", "ERL"] := by
  show ∀ n ∈ sysvarNames, n ∈ ["TRUE", "FALSE", "CANCEL", "FREEVAR", "FREEMEM", "RESULT", "TCHST", "TCHX", "TCHY", "TCHTIME", "CSRX", "CSRY",
    "SPHITNO", "KEYBOARD", "FUNCNO", "ERR"] ++ _
  decide +kernel

/-- A system in the middle of things. -/
def sampleSys : Sys :=
  ⟨123456, ⟨2024, 2, 29, 23, 59, 58⟩, 512, 3, 8192, 100, 8, [65], [], 1, 100, 90, 5, 3, 7, -1, 42, 0, fun _ => 0, 4, false⟩

example : InRange sampleSys := by constructor <;> (first | unfold Fits | skip) <;> unfold sampleSys <;> decide
example : ("CSRY", 7) ∈ documented sampleSys ∧ ("KEYBOARD", 42) ∈ documented sampleSys ∧ ("FREEMEM", 63) ∈ documented sampleSys := by decide +kernel

end Sbc.Sys
