import Verif.Model.Common
/-!
# Fixed-width names and their hash (`source/interpreter/strs.c`)

A name is a list of character codes.  Stored names live in a 16-byte field (`vars.h:57`,
`label.h:16`), terminated by a NUL only when shorter than 16; bytes after the NUL are left over from
earlier contents.
-/
namespace Sbc.Names
open Sbc

/-- `name_hash` accumulation (`strs.c:69-74`) for characters at positions `i, i+1, …`; unsigned 32-bit
arithmetic. -/
def hashAcc : List Nat → Nat → Nat → Nat
  | [], _, h => h
  | c :: cs, i, h => hashAcc cs (i + 1) ((h + c * i * 179) % 4294967296)

/-- `name_hash(name, len, hmax)` (`strs.c:67-75`).  `hmax` is a power of two, so `& (hmax-1)` is
`% hmax`.  Characters are the non-negative codes of identifier characters.  For the empty name the C
code reads the byte after the name; the model uses 0 there (any value gives the same theorems). -/
def nameHash (name : List Nat) (hmax : Nat) : Nat :=
  match name with
  | [] => 0 % hmax
  | c :: cs => hashAcc cs 1 c % hmax

/-- The loop of `namecmp` (`strs.c:79-83`) over the characters of `a`, followed by the terminator test
(`strs.c:84-88`); `room` is `16 - i`. -/
def namecmpLoop : List Nat → List Nat → Nat → Bool
  | [], _, 0 => true
  | [], b, _ + 1 => b.head? == some 0
  | _ :: _, _, 0 => false
  | _ :: _, [], _ + 1 => false
  | x :: xs, y :: ys, room + 1 => if x ≠ y then false else namecmpLoop xs ys room

/-- `namecmp(a, len, b)` (`strs.c:77-89`), `b` the 16-byte stored field, `len ≤ 16` asserted. -/
def namecmp (a : List Nat) (b : List Nat) : Bool := namecmpLoop a b 16

/-- Writing a name into a stored field (`vars.c:100-105`, `130-135`; `label.c:36-42`): the characters,
then a NUL if there is room; the remaining bytes keep their old contents. -/
def storeName (name : List Nat) (old : List Nat) : List Nat :=
  if name.length < 16 then name ++ 0 :: old.drop (name.length + 1) else name

/-- Names the interpreter can produce: 1 to 16 non-NUL characters. -/
def GoodName (n : List Nat) : Prop := 1 ≤ n.length ∧ n.length ≤ 16 ∧ ∀ c ∈ n, c ≠ 0

instance (n : List Nat) : Decidable (GoodName n) := inferInstanceAs (Decidable (_ ∧ _ ∧ _))

end Sbc.Names
