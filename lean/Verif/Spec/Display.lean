import Verif.Model.Display
import Verif.Spec.Resources
set_option autoImplicit false
/-!
# Specification of the picture

Everything is said in terms of the memory of characters, maps and palettes.
-/
namespace Sbc.Display.Spec
open Sbc Sbc.Display

/-- Dot `(x, y)` of character `n`, counted from the first character of a bank: digit `x + 8 y` of what `CHRREAD` returns (two digits to a
byte, the first in the low half). -/
def dot (b : Res.Bank) (bank n x y : Nat) : Nat :=
  b.bytes (.chr (bank + n / 256)) (32 * (n % 256) + (x + 8 * y) / 2) / (if x % 2 = 0 then 1 else 16) % 16

/-- The colour shown for a palette entry: 5 bits of red (the lowest), 5 + 1 bits of green (the sixth is the highest of the entry), 5
bits of blue. -/
def shown (w : Nat) : Rgb := (8 * (w % 32), 8 * (w / 32 % 32) + 4 * (w / 32768 % 2), 8 * (w / 1024 % 32))

/-- A dot of a character in palette `pal` of colour bank `bank`; 0 is transparent. -/
def paint (b : Res.Bank) (bank pal d : Nat) : Option Rgb := if d = 0 then none else some (shown (b.word (.col bank) (16 * pal + d)))

/-- Character texture `t` holds the characters of its banks. -/
def ChrFresh (tex : Nat → Nat → Nat) (b : Res.Bank) (t : Nat) : Prop :=
  ∀ n < texSize t, ∀ x < 8, ∀ y < 8,
    texel (tex t) (texHeight t) (8 * (n % 32) + x : Nat) (8 * (n / 32) + y : Nat) = dot b (texBanks t).1 n x y

/-- The colour texture holds the colours of the memory; colour 0 of each palette (of 256 colours for the graphics, of 16 for the others) is
transparent. -/
def ColFresh (col : Nat → Nat) (b : Res.Bank) : Prop :=
  ∀ k < 6, ∀ c < 256, colorAt col k c = if (if k % 3 = 2 then c else c % 16) = 0 then none else some (shown (b.word (.col k) c))

/-- The textures hold the characters and colours of the memory. -/
structure Fresh (s : Scene) (b : Res.Bank) : Prop where
  chr : ∀ t < 10, ChrFresh s.chrTex b t
  col : ColFresh s.colTex b

/-- Dot `(x, y)` of a map entry: 10 bits of character, then the two mirror bits; the palette is in the upper 4 bits. -/
def entryColor (b : Res.Bank) (colBank chrBank t x y : Nat) : Option Rgb :=
  paint b colBank (t / 4096 % 16) (dot b chrBank (t % 1024) (if t / 1024 % 2 = 1 then 7 - x else x) (if t / 2048 % 2 = 1 then 7 - y else y))

/-- Memory and textures. -/
structure Video where
  bank : Res.Bank
  tex : Nat → Nat → Nat
  col : Nat → Nat

/-- A name of characters with a bank: letters, bank and perhaps the screen. -/
def BankName (n : List Nat) : Prop :=
  ∃ (k : Res.Kind) (b : Nat) (r : List Nat), k.ty = .chr ∧ b < k.banks ∧ (r = [] ∨ ∃ p, p ∈ k.screens ∧ r = [p]) ∧ n = k.letters ++ (48 + b) :: r

/-- One command or frame: CHRSET, COLSET, loading characters or colours, drawing.  (The pages may change in between.) -/
inductive Step (junk : Nat → Nat) : Video → Video → Prop
  | chrset {v : Video} {pg : Res.Pages} {res data : Strs.Str} {id : Int} {b' : Res.Bank} (hpg : pg.WF) (hn : BankName (Res.cstr res))
      (h : Res.chrset pg v.bank res id data = .ok b') : Step junk v { v with bank := b' }
  | colset {v : Video} {pg : Res.Pages} {res data : Strs.Str} {c : Int} {b' : Res.Bank} (hpg : pg.WF)
      (h : Res.colset pg v.bank res c data = .ok b') : Step junk v { v with bank := b' }
  | loadChr {v : Video} {pg : Res.Pages} {n data : List Nat} {b' : Res.Bank} (hpg : pg.WF) (hn : BankName n)
      (h : loadChr pg v.bank n data = .ok b') : Step junk v { v with bank := b' }
  | loadCol {v : Video} {pg : Res.Pages} {n data : List Nat} {b' : Res.Bank} (hpg : pg.WF) (hn : n.take 3 = Res.Kind.col.letters)
      (h : loadCol pg v.bank n data = .ok b') : Step junk v { v with bank := b' }
  | draw {v : Video} {b' : Res.Bank} {tex' : Nat → Nat → Nat} {col' : Nat → Nat}
      (h : refresh junk v.bank v.tex v.col = .ok (b', tex', col')) : Step junk v ⟨b', tex', col'⟩

/-- Any number of them. -/
inductive Steps (junk : Nat → Nat) : Video → Video → Prop
  | none (v : Video) : Steps junk v v
  | next {u v w : Video} (h : Steps junk u v) (s : Step junk v w) : Steps junk u w

end Sbc.Display.Spec
