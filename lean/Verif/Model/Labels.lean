import Verif.Model.Names
set_option autoImplicit false
/-!
# Label table (`source/interpreter/label.c`)
-/
namespace Sbc.Labels
open Sbc Sbc.Names

/-- `struct label_line` (`label.h:21-26`). -/
structure Line where
  name : List Nat
  index : Nat

/-- `struct labels` (`label.h:29-35`): `label_count` (a power of two) and the entries. -/
structure Table where
  count : Nat
  entry : Nat → Line

/-- `init_labels` (`label.c:11-21`): zeroed memory. -/
def init (count : Nat) : Table := { count, entry := fun _ => { name := List.replicate 16 0, index := 0 } }

/-- `name[0] == '\0'`: unused entry (`label.c:50`, `65`, `85`). -/
def unused (l : Line) : Bool := l.name.head? == some 0

/-- The loop of `find_label` (`label.c:61-71`). -/
def findLoop (t : Table) (name : List Nat) : Nat → Nat → Nat → Option Nat
  | 0, _, _ => none
  | fuel + 1, hash, step =>
    let hash := (hash + step) % t.count
    if unused (t.entry hash) then none
    else if step ≥ t.count then none
    else if namecmp name (t.entry hash).name then some hash
    else findLoop t name fuel hash (step + 1)

/-- `find_label` (`label.c:55-74`); `none` is `-1`. -/
def find (t : Table) (name : List Nat) : Option Nat :=
  findLoop t name (t.count + 1) (nameHash name t.count) 0

/-- The loop of `find_label_slot` (`label.c:82-91`). -/
def slotLoop (t : Table) (name : List Nat) : Nat → Nat → Nat → Option Nat
  | 0, _, _ => none
  | fuel + 1, hash, step =>
    let hash := (hash + step) % t.count
    if unused (t.entry hash) then some hash
    else if step ≥ t.count then none
    else if namecmp name (t.entry hash).name then none
    else slotLoop t name fuel hash (step + 1)

/-- `find_label_slot` (`label.c:77-94`). -/
def findSlot (t : Table) (name : List Nat) : Option Nat :=
  slotLoop t name (t.count + 1) (nameHash name t.count) 0

/-- `add_label` (`label.c:27-45`): `false` when no slot is available or the label exists. -/
def add (t : Table) (name : List Nat) (index : Nat) : Table × Bool :=
  match findSlot t name with
  | none => (t, false)
  | some i =>
    ({ t with entry := fun j =>
        if j = i then { name := storeName name (t.entry i).name, index } else t.entry j }, true)

/-- `reset_label` (`label.c:47-52`): overwrite the first character of each name. -/
def reset (t : Table) : Table :=
  { t with entry := fun j =>
      if j < t.count then { t.entry j with name := (t.entry j).name.set 0 0 } else t.entry j }

/-- `label_index` (`label.c:96-102`); `none` is `LABEL_NOT_FOUND`. -/
def labelIndex (t : Table) (name : List Nat) : Option Nat :=
  (find t name).map fun i => (t.entry i).index

/-- What the tokenizer and the runner do with labels. -/
inductive Op where
  | define (name : List Nat) (index : Nat)
  | lookup (name : List Nat)
  | reset

/-- Observable result of a label operation. -/
inductive Res where
  | added (b : Bool)
  | at (pos : Option Nat)
  | done
  deriving DecidableEq, Repr

/-- One label operation. -/
def step (t : Table) : Op → Table × Res
  | .define n i => let r := add t n i; (r.1, .added r.2)
  | .lookup n => (t, .at (labelIndex t n))
  | .reset => (reset t, .done)

/-- A history of label operations. -/
def run (t : Table) : List Op → Table × List Res
  | [] => (t, [])
  | op :: ops =>
    let (t1, o) := step t op
    let (t2, os) := run t1 ops
    (t2, o :: os)

end Sbc.Labels
