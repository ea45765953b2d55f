import Verif.Proof.SourceRefine
import Verif.Props.SourceLoop
import Verif.Props.Console
import Verif.Props.Graphics
import Verif.Props.Lines
import Verif.Props.StrFuncs
import Verif.Props.Num
import Verif.Model.Devices
import Verif.Spec.Devices
set_option autoImplicit false
/-!
# C105: what programs show on the screens
-/
namespace Sbc.Devices
open Sbc Sbc.Tok Sbc.Source Sbc.Machine Sbc.Console Sbc.Graphics Sbc.Devices.Spec

/-- The devices show the picture. -/
structure Depicts (d : Dev) (a : Shown) : Prop where
  con : Console.Inv d.con
  text : (view d.con).Same a.text
  color : d.con.col = a.color ∧ a.color < 256
  tab : d.con.tabstep = a.tab
  ink : d.gfx.color = a.ink ∧ a.ink < 256
  xor : d.gfx.drawmode = a.xor
  screen : d.gfx.screen = a.screen
  drawn : d.gfx.drawpage = a.drawn
  displayed : d.gfx.displaypage = a.displayed
  dots : ∀ p x y, Graphics.Spec.OnScreen x y → d.gfx.dot p x y = a.dots p x y ∧ a.dots p x y < 256

/-! ## The interpreter's calls -/

/-- A stack with these values. -/
def literal (vs : List Val) (x : Dev) : Core Dev :=
  { stack := vs.map Val.entry, mem := fun _ => 0, smem := fun _ => [], vars := Vars.init 0 false, varsErr := 0, arrMax := 100, arrNext := 0, ext := x, error := 0 }

theorem each_congr {α β : Type} {f : Entry → Out β} {g : Entry → Out β} (v : Entry → Option α) (e : α → Entry)
    (h : ∀ x a, v x = some a → f x = g (e a)) : (l : List Entry) → (r : List α) → l.map v = r.map some → each f l = each g (r.map e)
  | [], [], _ => rfl
  | [], _ :: _, h' => by cases h'
  | _ :: _, [], h' => by cases h'
  | x :: l, a :: r, h' => by
    simp only [List.map_cons, List.cons.injEq] at h'
    rw [List.map_cons, each, each, h x a h'.1, each_congr v e h l r h'.2]

theorem command_literal {k : Nat} {c : Core Dev} {vs : List Val} (h : c.stack.map (entryVal c) = vs.map some) :
    command k c = command k (literal vs c.ext) := by
  have e1 : each (printEntry c) c.stack = each (printEntry (literal vs c.ext)) (vs.map Val.entry) := by
    refine each_congr (entryVal c) Val.entry ?_ _ _ h
    intro x a hx
    cases x with
    | num n => cases hx; rfl
    | str l s => cases l <;> cases hx; rfl
    | var s ar p => cases s <;> cases ar <;> cases hx <;> rfl
    | sep op => cases hx; rfl
  have e2 : each c.num c.stack = each (literal vs c.ext).num (vs.map Val.entry) := by
    refine each_congr (entryVal c) Val.entry ?_ _ _ h
    intro x a hx
    cases x with
    | num n => cases hx; rfl
    | str l s => cases l <;> cases hx; rfl
    | var s ar p => cases s <;> cases ar <;> cases hx <;> rfl
    | sep op => cases hx; rfl
  unfold command
  rw [e1, e2]
  rfl

/-- The value of a result. -/
def Arg.val : Arg → Val
  | .num n => .num n
  | .str s => .str s.data

/-- The argument for a value. -/
def argOf : Val → Out Arg
  | .num n => .ok (.num n)
  | .str s => .ok (.str ⟨false, s⟩)
  | .sep _ => .ub

/-- Values one after the other. -/
def args : List Val → Out (List Arg)
  | [] => .ok []
  | v :: r => (argOf v).bind fun a => (args r).bind fun as => .ok (a :: as)

/-- The answer as a value. -/
def Arg.out (o : Out Arg) : Out Val := o.bind fun a => .ok a.val

/-- The world of the devices. -/
def world : World Dev where
  perform := fun k vs x => match command k (literal vs x) with | .ok r => r | _ => (x, 0)
  look := fun x => ⟨fun f vs => Arg.out ((args vs).bind fun as => function f as x), fun v => Arg.out (sysvar v x)⟩
  known := fun k vs x => match command k (literal vs x) with | .ok _ => true | _ => false

theorem answers (o : Out Arg) (c : Core Dev) (rest : List Entry) : Answers (Arg.out o) c rest (push o c rest) := by
  cases o with
  | ok v => cases v <;> rfl
  | err e => exact ⟨rest, by cases e <;> rfl⟩
  | ub => trivial

theorem arg_val {c : Core Dev} {e : Entry} {v : Val} (h : entryVal c e = some v) : arg c e = argOf v := by
  cases e with
  | num n => cases h; rfl
  | str l s => cases l <;> cases h; rfl
  | var s ar p => cases s <;> cases ar <;> cases h <;> rfl
  | sep op => cases h; rfl

theorem each_args (c : Core Dev) : (l : List Entry) → (vs : List Val) → l.map (entryVal c) = vs.map some → each (arg c) l = args vs
  | [], [], _ => rfl
  | [], _ :: _, h => by cases h
  | _ :: _, [], h => by cases h
  | a :: l, v :: r, h => by
    simp only [List.map_cons, List.cons.injEq] at h
    rw [each, args, arg_val h.1, each_args c l r h.2]

theorem args_ne_err : (vs : List Val) → (e : Err) → args vs ≠ .err e
  | [], _ => fun h => by cases h
  | v :: r, e => by
    intro h
    have := args_ne_err r e
    rw [args] at h
    cases v with
    | sep op => cases h
    | num n =>
      cases hr : args r with
      | ok l => rw [hr] at h; cases h
      | ub => rw [hr] at h; cases h
      | err e' => rw [hr] at h this; cases h; exact this rfl
    | str n =>
      cases hr : args r with
      | ok l => rw [hr] at h; cases h
      | ub => rw [hr] at h; cases h
      | err e' => rw [hr] at h this; cases h; exact this rfl

theorem last_split {c : Core Dev} {rest l : List Entry} {n : Nat} (hs : c.stack = rest ++ l) (hl : l.length = n) :
    c.stack.drop (c.stack.length - n) = l ∧ c.stack.take (c.stack.length - n) = rest := by
  subst hl
  rw [hs, List.length_append, Nat.add_sub_cancel]
  exact ⟨List.drop_left, List.take_left⟩

/-- The operators of the code on strings are those of the specification. -/
theorem operator_textual {op : Nat} {x y : Val} (hu : textual op x y ≠ .ub) :
    Arg.out ((argOf x).bind fun a => (argOf y).bind fun b => operator op a b) = textual op x y := by
  unfold textual at hu ⊢
  split at hu
  · rename_i s t
    show Arg.out (operator op (.str ⟨false, s⟩) (.str ⟨false, t⟩)) = _
    obtain ⟨c1, c2, c3, c4, c5, c6⟩ := Strs.C15_compare ⟨false, s⟩ ⟨false, t⟩ false (by simp)
    by_cases h0 : op = opAdd
    · subst h0
      rw [if_pos rfl]
      show Arg.out (retStr (Strs.opAdd ⟨false, s⟩ ⟨false, t⟩)) = _
      rw [Strs.C19_concat]
      show Arg.out (retStr (if s.length + t.length ≤ 256 then _ else _)) = _
      by_cases h : s.length + t.length ≤ 256
      · rw [if_pos h, if_pos h]; rfl
      · rw [if_neg h, if_neg h]; rfl
    · rw [if_neg h0] at hu ⊢
      unfold compareText at hu ⊢
      by_cases h8 : op = 8
      · subst h8; rw [if_pos rfl]; show Out.ok (Val.num (Strs.opEqual false _ _)) = _; rw [c1]; rfl
      rw [if_neg h8] at hu ⊢
      by_cases h9 : op = 9
      · subst h9; rw [if_pos rfl]; show Out.ok (Val.num (Strs.opInequal false _ _)) = _; rw [c2]; rfl
      rw [if_neg h9] at hu ⊢
      by_cases h10 : op = 10
      · subst h10; rw [if_pos rfl]; show Out.ok (Val.num (Strs.opLess _ _)) = _; rw [c3]; rfl
      rw [if_neg h10] at hu ⊢
      by_cases h11 : op = 11
      · subst h11; rw [if_pos rfl]; show Out.ok (Val.num (Strs.opGreater _ _)) = _; rw [c4]; rfl
      rw [if_neg h11] at hu ⊢
      by_cases h12 : op = 12
      · subst h12; rw [if_pos rfl]; show Out.ok (Val.num (Strs.opLessEqual _ _)) = _; rw [c5]; rfl
      rw [if_neg h12] at hu ⊢
      by_cases h13 : op = 13
      · subst h13; rw [if_pos rfl]; show Out.ok (Val.num (Strs.opGreaterEqual _ _)) = _; rw [c6]; rfl
      rw [if_neg h13] at hu
      exact absurd rfl hu
  · rename_i s n
    by_cases h : op = opMultiply ∧ I32 n ∧ s.length ≤ 256
    · rw [if_pos h] at hu ⊢
      obtain ⟨rfl, hn, hl⟩ := h
      show Arg.out (retStr (Strs.opMult ⟨false, s⟩ n)) = _
      rw [Strs.C19_repeat ⟨false, s⟩ hl n hn]
      show Arg.out (retStr (if (n / 4096).toNat * s.length ≤ 256 then _ else _)) = _
      split <;> rfl
    · rw [if_neg h] at hu; exact absurd rfl hu
  · exact absurd rfl hu

theorem performs (C : Nat → Prop) : Performs devices world C where
  commands := by
    intro d _ c vs _ hv hk
    refine ⟨[], ?_⟩
    show (command d c).bind _ = _
    have hk : (match command d (literal vs c.ext) with | .ok _ => true | _ => false) = true := hk
    unfold world
    dsimp only
    rw [command_literal hv]
    cases hc : command d (literal vs c.ext) with
    | ok r => rfl
    | err e => rw [hc] at hk; cases hk
    | ub => rw [hc] at hk; cases hk
  functions := by
    intro f c rest as vs _ _ hs hv
    have hl : as.length = vs.length := by simpa using congrArg List.length hv
    obtain ⟨e1, e2⟩ := last_split hs hl
    show Answers _ c rest ((each (arg c) (c.stack.drop (c.stack.length - vs.length))).bind fun args => push (function f args c.ext) c
      (c.stack.take (c.stack.length - vs.length)))
    rw [e1, e2, each_args c as vs hv]
    show Answers (Arg.out ((args vs).bind fun as => function f as c.ext)) c rest _
    cases ha : args vs with
    | ok l => exact answers _ c rest
    | err e => exact absurd ha (args_ne_err vs e)
    | ub => trivial
  sysvars := fun v c _ _ => answers _ c c.stack
  operators := by
    intro op c rest a b x y _ _ hs ha hb
    by_cases hu : textual op x y = .ub
    · rw [hu]; trivial
    obtain ⟨e1, e2⟩ := last_split hs (n := 2) rfl
    have hop : op ≠ 6 := by
      rintro rfl
      apply hu
      cases x <;> cases y <;> rfl
    show Answers _ c rest (match c.stack.drop (c.stack.length - 2) with
      | [a, b] => (arg c b).bind fun y => if op = 6 then _ else (arg c a).bind fun x => push (operator op x y) c (c.stack.take (c.stack.length - 2))
      | _ => .ub)
    rw [e1, e2]
    dsimp only
    rw [arg_val ha, arg_val hb]
    rw [← operator_textual hu]
    cases hx : argOf x with
    | err e => cases x <;> cases hx
    | ub => exfalso; cases x <;> cases hx; exact hu rfl
    | ok p =>
      cases hy : argOf y with
      | err e => cases y <;> cases hy
      | ub => exfalso; cases y <;> cases hy; cases x <;> exact hu rfl
      | ok q =>
        show Answers (Arg.out (operator op p q)) c rest (if op = 6 then _ else push (operator op p q) c rest)
        rw [if_neg hop]
        exact answers _ c rest
  assign := by
    intro c rest p b s _ hs hb
    obtain ⟨e1, e2⟩ := last_split hs (n := 2) rfl
    show (match c.stack.drop (c.stack.length - 2) with
      | [a, b] => (arg c b).bind fun y => if (6 : Nat) = 6 then (match a with | .var true false p => assign c (c.stack.take (c.stack.length - 2)) p y | _ => .ub) else _
      | _ => .ub) = _
    rw [e1, e2]
    dsimp only
    rw [arg_val hb]
    rfl

/-! ## The picture -/

theorem put_lt (xor : Bool) {c old : Nat} (h : c < 256) (h' : old < 256) : Graphics.Spec.put xor c old < 256 := by
  unfold Graphics.Spec.put
  split
  · exact Nat.xor_lt_two_pow (n := 8) h' h
  · exact h

/-- Drawing. -/
theorem draws_depicts {d : Dev} {a : Shown} (h : Depicts d a) {g : Gfx} {F : Int → Int → Nat → Nat} (hd : Draws d.gfx g F) {dots : Nat → Int → Int → Nat}
    (h1 : ∀ x y, Graphics.Spec.OnScreen x y → F x y (a.dots (a.drawn a.screen) x y) = dots (a.drawn a.screen) x y ∧ dots (a.drawn a.screen) x y < 256)
    (h2 : ∀ p, p ≠ a.drawn a.screen → ∀ x y, dots p x y = a.dots p x y) : Depicts { d with gfx := g } { a with dots := dots } := by
  have hp : d.gfx.page = a.drawn a.screen := by unfold Gfx.page; rw [h.drawn, h.screen]
  have hs := hd.settings
  simp only [Prod.mk.injEq] at hs
  obtain ⟨s1, s2, s3, s4, s5, s6⟩ := hs
  refine ⟨h.con, h.text, h.color, h.tab, ?_, s3.trans h.xor, s1.trans h.screen, s4.trans h.drawn, s5.trans h.displayed, ?_⟩
  · exact ⟨s2.trans h.ink.1, h.ink.2⟩
  · intro p x y hxy
    dsimp only
    by_cases he : p = a.drawn a.screen
    · subst he
      have := hd.dots x y hxy
      rw [hp] at this
      rw [this, (h.dots _ x y hxy).1]
      exact h1 x y hxy
    · have : g.dot p x y = d.gfx.dot p x y := by
        unfold Gfx.dot
        rw [hd.pages p (by rw [hp]; exact he)]
      rw [this, h2 p he]
      exact h.dots p x y hxy

/-- Drawing dots of the screen. -/
theorem put_depicts {d : Dev} {a : Shown} (h : Depicts d a) {g : Gfx} {F : Int → Int → Nat → Nat} (hd : Draws d.gfx g F) {c : Nat} (hc : c < 256)
    (P : Int → Int → Prop) [∀ x y, Decidable (P x y)]
    (hF : ∀ x y old, Graphics.Spec.OnScreen x y → F x y old = if P x y then Graphics.Spec.put a.xor c old else old) :
    Depicts { d with gfx := g } (a.put c P) := by
  refine draws_depicts h hd ?_ ?_
  · intro x y hxy
    rw [hF x y _ hxy]
    have := (h.dots (a.drawn a.screen) x y hxy).2
    by_cases hp : P x y
    · rw [if_pos hp, if_pos ⟨rfl, hp⟩]; exact ⟨rfl, put_lt _ hc this⟩
    · rw [if_neg hp, if_neg (fun h => hp h.2)]; exact ⟨rfl, this⟩
  · intro p hp x y
    exact if_neg fun h => hp h.1

theorem draw_ok (d : Dev) {r : Graphics.Res} {g : Gfx} (h : r = .ok (g, none)) : d.draw r = .ok ({ d with gfx := g }, 0) := by rw [h]; rfl

theorem draw_bad (d : Dev) {r : Graphics.Res} {g : Gfx} (h : r = .ok (g, some .outOfRange)) : d.draw r = .ok ({ d with gfx := g }, 37) := by rw [h]; rfl

/-- Commands with an optional colour. -/
theorem with_sound {d : Dev} {a a' : Shown} {e : Nat} (h : Depicts d a) {c : Option Int} {f : Nat → Shown} (he : a.with c f = some (a', e))
    {r : Graphics.Res} (hok : ∀ k, k < 256 → ColorArg d.gfx c k → ∃ g, r = .ok (g, none) ∧ Depicts { d with gfx := g } (f k))
    (hbad : (∀ k, ¬ ColorArg d.gfx c k) → r = .ok (d.gfx, some .outOfRange)) :
    ∃ d', d.draw r = .ok (d', e) ∧ Depicts d' a' := by
  unfold Shown.with at he
  cases c with
  | none =>
    cases he
    obtain ⟨g, hg, hd⟩ := hok a.ink h.ink.2 h.ink.1.symm
    exact ⟨_, draw_ok d hg, hd⟩
  | some v =>
    dsimp only at he
    by_cases hv : 0 ≤ v / 4096 ∧ v / 4096 ≤ 255
    · rw [if_pos hv] at he
      cases he
      obtain ⟨g, hg, hd⟩ := hok (v / 4096).toNat (by omega) ⟨hv.1, hv.2, by omega⟩
      exact ⟨_, draw_ok d hg, hd⟩
    · rw [if_neg hv] at he
      cases he
      refine ⟨_, draw_bad d (hbad fun k hk => hv ⟨hk.1, hk.2.1⟩), h⟩

theorem dot_sound {d : Dev} {a a' : Shown} {e : Nat} (h : Depicts d a) {x y : Int} {c : Option Int} (he : a.dot x y c = some (a', e)) :
    ∃ d', d.draw (cmdGpset d.gfx x y c) = .ok (d', e) ∧ Depicts d' a' := by
  unfold Shown.dot at he
  by_cases hs : Graphics.Spec.OnScreen (x / 4096) (y / 4096)
  · rw [if_pos hs] at he
    refine with_sound h he (fun k hk hc => ?_) fun hn => (C29_color_checked d.gfx x y 0 0 c hn).2.1 hs
    obtain ⟨g, hg, hd, _⟩ := C29_gpset d.gfx x y c k hc
    refine ⟨g, hg, put_depicts h hd hk _ fun u v old _ => ?_⟩
    rw [h.xor]
  · rw [if_neg hs] at he
    cases he
    have : cmdGpset d.gfx x y c = .ok (d.gfx, none) := by
      unfold cmdGpset fpToInt gw gh fin
      unfold Graphics.Spec.OnScreen at hs
      dsimp only
      by_cases h1 : x / 4096 < 0 ∨ x / 4096 > 256 - 1
      · rw [if_pos h1]
      · rw [if_neg h1, if_pos (by omega)]
    exact ⟨_, draw_ok d this, h⟩

theorem fill_sound {d : Dev} {a a' : Shown} {e : Nat} (h : Depicts d a) {x y x' y' : Int} {c : Option Int} (he : a.fill x y x' y' c = some (a', e)) :
    ∃ d', d.draw (cmdGfill d.gfx x y x' y' c) = .ok (d', e) ∧ Depicts d' a' := by
  unfold Shown.fill at he
  by_cases hs : 0 ≤ x' ∧ 0 ≤ y'
  · rw [if_pos hs] at he
    refine with_sound h he (fun k hk hc => ?_) fun hn => (C29_color_checked d.gfx x y x' y' c hn).2.2.1
    obtain ⟨g, hg, hd⟩ := C29_fill_partial d.gfx x y x' y' c k hc hs.1 hs.2
    refine ⟨g, hg, put_depicts h hd hk _ fun u v old _ => ?_⟩
    rw [h.xor]
  · rw [if_neg hs] at he; cases he

theorem putN_false (c n old : Nat) : Graphics.Spec.putN false c n old = if n = 0 then old else c := by
  cases n with
  | zero => rfl
  | succ n =>
    unfold Graphics.Spec.putN
    rw [Function.iterate_succ_apply']
    rfl

theorem box_sound {d : Dev} {a a' : Shown} {e : Nat} (h : Depicts d a) {x y x' y' : Int} {c : Option Int} (he : a.box x y x' y' c = some (a', e)) :
    ∃ d', d.draw (cmdGbox d.gfx x y x' y' c) = .ok (d', e) ∧ Depicts d' a' := by
  unfold Shown.box at he
  by_cases hs : 0 ≤ x ∧ 0 ≤ y ∧ 0 ≤ x' ∧ 0 ≤ y' ∧ a.xor = false
  · rw [if_pos hs] at he
    refine with_sound h he (fun k hk hc => ?_) fun hn => (C29_color_checked d.gfx x y x' y' c hn).2.2.2.1
    obtain ⟨g, hg, hd⟩ := C29_box_partial d.gfx x y x' y' c k hc hs.1 hs.2.1 hs.2.2.1 hs.2.2.2.1
    refine ⟨g, hg, put_depicts h hd hk _ fun u v old _ => ?_⟩
    rw [h.xor, hs.2.2.2.2, putN_false]
    unfold sides Graphics.Spec.put
    simp only [Bool.false_eq_true, if_false]
    by_cases hp : (x / 4096 ≤ u ∧ u ≤ x' / 4096 ∧ (v = y / 4096 ∨ v = y' / 4096)) ∨ (y / 4096 ≤ v ∧ v ≤ y' / 4096 ∧ (u = x / 4096 ∨ u = x' / 4096))
    · rw [if_pos hp, if_neg]
      repeat' split
      all_goals omega
    · rw [if_neg hp, if_pos]
      repeat' split
      all_goals omega
  · rw [if_neg hs] at he; cases he

/-- A line with a whole slope has no choice. -/
theorem straight_only {a b c d : Int} {f : Int → Int} (hs : Graphics.Spec.Straight a b c d f) {k : Int} (hk : d - b = k * (c - a)) {t : Int}
    (h1 : min a c ≤ t) (h2 : t ≤ max a c) : f t = b + k * (t - a) := by
  by_cases h : a = c
  · have : t = a := by omega
    rw [this, hs.start]; simp
  · have hn := hs.near t h1 h2 h
    rw [hk, show (f t - b) * (c - a) - (t - a) * (k * (c - a)) = (c - a) * (f t - b - k * (t - a)) by ring, Int.natAbs_mul] at hn
    have h0 : (f t - b - k * (t - a)).natAbs = 0 := by
      by_contra hne
      have : (c - a).natAbs * 1 ≤ (c - a).natAbs * (f t - b - k * (t - a)).natAbs := Nat.mul_le_mul_left _ (by omega)
      omega
    omega

/-- The dots of a horizontal, vertical or diagonal line. -/
theorem line_dots {p q p' q' : Int} {ps : List (Int × Int)} (hl : Graphics.Spec.IsLine p q p' q' ps)
    (hs : p = p' ∨ q = q' ∨ p' - p = q' - q ∨ p' - p = q - q') (u v : Int) :
    (u, v) ∈ ps ↔ min p p' ≤ u ∧ u ≤ max p p' ∧ min q q' ≤ v ∧ v ≤ max q q' ∧ (u - p) * (q' - q) = (v - q) * (p' - p) := by
  obtain ⟨-, hl⟩ := hl
  by_cases hd : (q' - q).natAbs ≤ (p' - p).natAbs
  · rw [if_pos hd] at hl
    obtain ⟨f, hf, hps⟩ := hl
    have hk : ∃ k : Int, (k = 0 ∨ k = 1 ∨ k = -1) ∧ q' - q = k * (p' - p) := by
      rcases hs with h | h | h | h
      · exact ⟨0, Or.inl rfl, by omega⟩
      · exact ⟨0, Or.inl rfl, by omega⟩
      · exact ⟨1, Or.inr (Or.inl rfl), by omega⟩
      · exact ⟨-1, Or.inr (Or.inr rfl), by omega⟩
    obtain ⟨k, hk01, hk⟩ := hk
    rw [hps]
    have cross : (u - p) * (q' - q) = (v - q) * (p' - p) ↔ p' - p = 0 ∨ v - q = k * (u - p) := by
      rw [hk, show (u - p) * (k * (p' - p)) = k * (u - p) * (p' - p) by ring, mul_eq_mul_right_iff]
      constructor
      · rintro (h | h)
        · exact Or.inr h.symm
        · exact Or.inl h
      · rintro (h | h)
        · exact Or.inr h
        · exact Or.inl h.symm
    rw [cross]
    constructor
    · rintro ⟨h1, h2, h3⟩
      rw [straight_only hf hk h1 h2] at h3
      refine ⟨h1, h2, ?_⟩
      rcases hk01 with rfl | rfl | rfl <;> omega
    · rintro ⟨h1, h2, h3, h4, h5⟩
      refine ⟨h1, h2, ?_⟩
      rw [straight_only hf hk h1 h2]
      rcases hk01 with rfl | rfl | rfl <;> omega
  · rw [if_neg hd] at hl
    obtain ⟨f, hf, hps⟩ := hl
    have hp : p' = p := by omega
    subst hp
    rw [hps, sub_self, mul_zero]
    have hne : q' - q ≠ 0 := by omega
    constructor
    · rintro ⟨h1, h2, h3⟩
      rw [straight_only hf (k := 0) (by omega) h1 h2] at h3
      have h3 : u = p' := by omega
      subst h3
      refine ⟨by omega, by omega, h1, h2, by simp⟩
    · rintro ⟨h1, h2, h3, h4, -⟩
      refine ⟨h3, h4, ?_⟩
      rw [straight_only hf (k := 0) (by omega) h3 h4]
      omega

theorem line_sound {d : Dev} {a a' : Shown} {e : Nat} (h : Depicts d a) {x y x' y' : Int} {c : Option Int} (he : a.line x y x' y' c = some (a', e)) :
    ∃ d', d.draw (cmdGline d.gfx x y x' y' c) = .ok (d', e) ∧ Depicts d' a' := by
  unfold Shown.line at he
  dsimp only at he
  split at he
  · rename_i hs
    refine with_sound h he (fun k hk hc => ?_) fun hn => ?_
    · obtain ⟨g, ps, hg, hl, hd⟩ := C52_line_partial d.gfx x y x' y' c k hc (by omega) (by omega)
      refine ⟨g, hg, put_depicts h hd hk _ fun u v old _ => ?_⟩
      rw [h.xor]
      exact if_congr (line_dots hl hs.1 u v) rfl rfl
    · unfold cmdGline
      exact withColor_bad hn _
  · cases he

theorem clear_sound {d : Dev} {a a' : Shown} {e : Nat} (h : Depicts d a) {c : Option Int} (he : a.clear c = some (a', e)) :
    ∃ d', d.draw (cmdGcls d.gfx c) = .ok (d', e) ∧ Depicts d' a' := by
  unfold Shown.clear at he
  refine with_sound h he (fun k hk hc => ?_) fun hn => (C29_color_checked d.gfx 0 0 0 0 c hn).2.2.2.2.2
  obtain ⟨g, hg, hd⟩ := C29_gcls d.gfx c k hc
  refine ⟨g, hg, draws_depicts h hd (fun x y _ => ?_) fun p hp x y => if_neg hp⟩
  rw [if_pos rfl]
  exact ⟨rfl, hk⟩

/-- Settings. -/
theorem setting_sound {d : Dev} {a a' : Shown} {e : Nat} (h : Depicts d a) {v max : Int} {f : Nat → Shown} (he : a.setting v max f = some (a', e))
    {r : Graphics.Res} {s : Nat → Gfx} (hr : r = if v / 4096 < 0 ∨ v / 4096 > max then Graphics.fail d.gfx .outOfRange else Graphics.fin (s (v / 4096).toNat))
    (hs : ∀ n : Nat, (n : Int) = v / 4096 → (n : Int) ≤ max → Depicts { d with gfx := s n } (f n)) : ∃ d', d.draw r = .ok (d', e) ∧ Depicts d' a' := by
  unfold Shown.setting at he
  by_cases hv : 0 ≤ v / 4096 ∧ v / 4096 ≤ max
  · rw [if_pos hv] at he
    cases he
    rw [if_neg (by omega)] at hr
    exact ⟨_, draw_ok d hr, hs _ (by omega) (by omega)⟩
  · rw [if_neg hv] at he
    cases he
    rw [if_pos (by omega)] at hr
    exact ⟨_, draw_bad d hr, h⟩

/-! ## The text screen -/

/-- A change of the console. -/
theorem Depicts.console {d : Dev} {a : Shown} (h : Depicts d a) {c : Con} {t : Console.Spec.Screen} {col : Nat} (hi : Console.Inv c) (ht : (view c).Same t)
    (hc : c.col = col ∧ col < 256) (htab : c.tabstep = d.con.tabstep) : Depicts { d with con := c } { a with text := t, color := col } :=
  ⟨hi, ht, hc, htab.trans h.tab, h.ink, h.xor, h.screen, h.drawn, h.displayed, h.dots⟩

/-- An item of PRINT. -/
def itemOf : Val → Console.Item
  | .num v => .num v
  | .str s => .str ⟨false, s⟩
  | .sep op => if op = 1 then .comma else .semicolon

theorem each_print (x : Core Dev) : (vs : List Val) → vs.all printable = true → each (printEntry x) (vs.map Val.entry) = .ok (vs.map itemOf)
  | [], _ => rfl
  | v :: r, h => by
    simp only [List.all_cons, Bool.and_eq_true] at h
    have e : printEntry x v.entry = .ok (itemOf v) := by
      cases v with
      | num n => rfl
      | str s => rfl
      | sep op =>
        have := h.1
        simp only [printable, Bool.or_eq_true, decide_eq_true_eq] at this
        rcases this with rfl | rfl <;> rfl
    rw [List.map_cons, List.map_cons, each, e, each_print x r h.2]
    rfl

theorem pieces : (vs : List Val) → (vs.map itemOf).filterMap meaning = vs.filterMap piece
  | [] => rfl
  | v :: r => by
    have e : meaning (itemOf v) = piece v := by
      cases v with
      | num n => rfl
      | str s => rfl
      | sep op =>
        unfold itemOf piece
        dsimp only
        split <;> rfl
    rw [List.map_cons, List.filterMap_cons, List.filterMap_cons, e, pieces r]

theorem itemOf_open (v : Val) : (itemOf v = .comma ∨ itemOf v = .semicolon) ↔ ∃ op, v = .sep op := by
  cases v with
  | num n => exact ⟨fun h => by (rcases h with h | h <;> cases h), fun ⟨_, h⟩ => by (cases h)⟩
  | str s => exact ⟨fun h => by (rcases h with h | h <;> cases h), fun ⟨_, h⟩ => by (cases h)⟩
  | sep op =>
    refine ⟨fun _ => ⟨op, rfl⟩, fun _ => ?_⟩
    unfold itemOf
    dsimp only
    split
    · exact .inl rfl
    · exact .inr rfl

theorem open_stays (vs : List Val) : endsOpen (vs.map itemOf) = stays vs := by
  rcases List.eq_nil_or_concat vs with rfl | ⟨l, v, rfl⟩
  · rfl
  · rw [List.concat_eq_append, Bool.eq_iff_iff, endsOpen_iff]
    have hs : stays (l ++ [v]) = true ↔ ∃ op, v = .sep op := by
      unfold stays
      rw [List.getLast?_append, List.getLast?_singleton]
      cases v with
      | num n => exact ⟨fun h => by (cases h), fun ⟨_, h⟩ => by (cases h)⟩
      | str n => exact ⟨fun h => by (cases h), fun ⟨_, h⟩ => by (cases h)⟩
      | sep op => exact ⟨fun _ => ⟨op, rfl⟩, fun _ => rfl⟩
    rw [hs, ← itemOf_open, List.map_append, List.map_cons, List.map_nil]
    constructor
    · rintro ⟨b, h | h⟩
      · obtain ⟨_, h⟩ := List.append_inj' h rfl
        exact .inl (by simpa using h)
      · obtain ⟨_, h⟩ := List.append_inj' h rfl
        exact .inr (by simpa using h)
    · rintro (h | h)
      · exact ⟨l.map itemOf, .inl (by rw [h])⟩
      · exact ⟨l.map itemOf, .inr (by rw [h])⟩

theorem Same.print {s t : Console.Spec.Screen} (h : s.Same t) (col tab sp : Nat) (ps : List Console.Spec.Piece) (stay : Bool) :
    (s.print col tab sp ps stay).Same (t.print col tab sp ps stay) := by
  have hf : ∀ (ps : List Console.Spec.Piece) (s t : Console.Spec.Screen), s.Same t →
      (ps.foldl (fun s p => s.piece col tab sp p) s).Same (ps.foldl (fun s p => s.piece col tab sp p) t) := by
    intro ps
    induction ps with
    | nil => exact fun _ _ h => h
    | cons p ps ih => exact fun s t h => ih _ _ (Console.Same.piece h _ _ _ p)
  unfold Console.Spec.Screen.print
  cases stay with
  | true => exact hf ps s t h
  | false => exact Console.Same.newline (hf ps s t h) col

theorem print_sound {d : Dev} {a : Shown} (h : Depicts d a) {vs : List Val} (hp : vs.all printable = true) :
    ∃ d', command 0 (literal vs d) = .ok (d', 0) ∧
      Depicts d' { a with text := a.text.print a.color a.tab (Strs.toWide 32) (vs.filterMap piece) (stays vs) } := by
  have hno : Console.Item.num (-2147483648) ∉ vs.map itemOf := by
    intro hm
    obtain ⟨v, hv, he⟩ := List.mem_map.mp hm
    have := List.all_eq_true.mp hp v hv
    cases v with
    | num n => cases he; cases this
    | str s => cases he
    | sep op => unfold itemOf at he; dsimp only at he; split at he <;> cases he
  obtain ⟨c1, b1, b2, b3, b4, b5, b6⟩ := printItems_spec (vs.map itemOf) d.con h.con hno
  have e : command 0 (literal vs d) = (Console.cmdPrint d.con (vs.map itemOf)).bind fun con => d.text con := by
    unfold command
    rw [if_pos rfl]
    show ((each (printEntry (literal vs d)) (vs.map Val.entry)).bind fun is => (Console.cmdPrint d.con is).bind fun con => d.text con) = _
    rw [each_print _ vs hp]
    rfl
  rw [e]
  have key : ∃ c, Console.cmdPrint d.con (vs.map itemOf) = .ok c ∧ Console.Inv c ∧ c.col = d.con.col ∧ c.tabstep = d.con.tabstep ∧
      (view c).Same ((view d.con).print d.con.col d.con.tabstep (Strs.toWide 32) ((vs.map itemOf).filterMap meaning) (endsOpen (vs.map itemOf))) := by
    unfold Console.cmdPrint Console.Spec.Screen.print
    rw [b1]
    simp only [Out.bind]
    cases endsOpen (vs.map itemOf) with
    | true => exact ⟨c1, rfl, b2, b3, b4, b6⟩
    | false =>
      obtain ⟨n1, n2, n3, n4, n5, n6⟩ := newline_spec c1 b2
      rw [b3] at n6
      exact ⟨_, rfl, n1, n3.trans b3, n4.trans b4, Console.Same.trans n6 (Console.Same.newline b6 _)⟩
  obtain ⟨c, hc, hi, h1, h2, h3⟩ := key
  rw [hc]
  refine ⟨_, rfl, ?_⟩
  rw [pieces, open_stays, h.color.1, h.tab] at h3
  exact h.console hi (Console.Same.trans h3 (Same.print h.text _ _ _ _ _)) ⟨h1.trans h.color.1, h.color.2⟩ h2

theorem locate_sound {d : Dev} {a : Shown} (h : Depicts d a) (x y : Int) : Depicts { d with con := cmdLocate d.con x y } (a.locate x y) := by
  unfold Shown.locate
  obtain ⟨l1, l2⟩ := C25_locate d.con x y
  by_cases hs : 0 ≤ x / 4096 ∧ x / 4096 < 32 ∧ 0 ≤ y / 4096 ∧ y / 4096 < 24
  · rw [if_pos hs, (l1 hs).1]
    refine h.console ⟨?_, ?_, ?_, h.con.tab⟩ ⟨rfl, rfl, h.text.2.2⟩ h.color rfl
    all_goals dsimp only
    all_goals omega
  · rw [if_neg hs, (l2 hs).1]
    exact h

theorem low_bits : ∀ c < 256, ∀ f < 16, (c &&& 0xf0) ||| f = c / 16 * 16 + f := by decide +kernel

theorem high_bits : ∀ b < 16, ∀ f < 16, f ||| b * 16 = b * 16 + f := by decide +kernel

theorem color_sound {d : Dev} {a : Shown} (h : Depicts d a) (f : Int) (h0 : 0 ≤ f / 4096) (h1 : f / 4096 < 16) :
    Depicts { d with con := cmdColor d.con f none } { a with color := a.color / 16 * 16 + (f / 4096).toNat } := by
  have e : cmdColor d.con f none = { d.con with col := a.color / 16 * 16 + (f / 4096).toNat } := by
    unfold cmdColor fpToInt
    dsimp only
    rw [h.color.1, show (f / 4096 % 256).toNat = (f / 4096).toNat from by omega, low_bits _ h.color.2 _ (by omega)]
  rw [e]
  have := h.color.2
  exact h.console ⟨h.con.x, h.con.y, h.con.edge, h.con.tab⟩ h.text ⟨rfl, by omega⟩ rfl

theorem colors_sound {d : Dev} {a : Shown} (h : Depicts d a) (f b : Int) (h0 : 0 ≤ f / 4096) (h1 : f / 4096 < 16) (h2 : 0 ≤ b / 4096) (h3 : b / 4096 < 16) :
    Depicts { d with con := cmdColor d.con f (some b) } { a with color := (b / 4096).toNat * 16 + (f / 4096).toNat } := by
  have e : cmdColor d.con f (some b) = { d.con with col := (b / 4096).toNat * 16 + (f / 4096).toNat } := by
    unfold cmdColor fpToInt
    dsimp only
    rw [show (f / 4096 % 256).toNat = (f / 4096).toNat from by omega, show (b / 4096 * 16 % 256).toNat = (b / 4096).toNat * 16 from by omega,
      high_bits _ (by omega) _ (by omega)]
  rw [e]
  exact h.console ⟨h.con.x, h.con.y, h.con.edge, h.con.tab⟩ h.text ⟨rfl, by omega⟩ rfl

theorem cls_sound {d : Dev} {a : Shown} (h : Depicts d a) : Depicts { d with con := cmdCls d.con } { a with text := ⟨fun _ _ => (0, a.color), 0, 0⟩ } := by
  refine h.console ⟨by simp [cmdCls], by simp [cmdCls], by simp [cmdCls], h.con.tab⟩ ⟨rfl, rfl, ?_⟩ h.color rfl
  intro r c hr hc
  simp [view, cmdCls, width, height, hr, hc, h.color.1]

/-! ## The devices show the picture -/

theorem effect_sound {d : Dev} {a a' : Shown} {k e : Nat} {vs : List Val} (h : Depicts d a) (he : Spec.effect k vs a = some (a', e)) :
    ∃ d', command k (literal vs d) = .ok (d', e) ∧ Depicts d' a' := by
  unfold Sbc.Devices.Spec.effect at he
  split at he
  · split at he
    · rename_i hp
      cases he
      exact print_sound h hp
    · cases he
  · cases he
    exact ⟨_, rfl, locate_sound h _ _⟩
  · split at he
    · rename_i hp
      cases he
      exact ⟨_, rfl, color_sound h _ hp.1 hp.2⟩
    · cases he
  · split at he
    · rename_i hp
      cases he
      exact ⟨_, rfl, colors_sound h _ _ hp.1 hp.2.1 hp.2.2.1 hp.2.2.2⟩
    · cases he
  · cases he
    exact ⟨_, rfl, cls_sound h⟩
  · exact box_sound h he
  · exact box_sound h he
  · exact clear_sound h he
  · exact clear_sound h he
  · rename_i c
    refine setting_sound h he (r := cmdGcolor d.gfx c) (s := fun n => { d.gfx with color := n }) rfl ?_
    intro n _ hn
    exact ⟨h.con, h.text, h.color, h.tab, ⟨rfl, by dsimp only; omega⟩, h.xor, h.screen, h.drawn, h.displayed, h.dots⟩
  · rename_i m
    refine setting_sound h he (r := cmdGdrawmd d.gfx m) (s := fun n => { d.gfx with drawmode := n = 1 }) ?_ ?_
    · unfold cmdGdrawmd fpToInt
      dsimp only
      by_cases hm : m / 4096 < 0 ∨ m / 4096 > 1
      · rw [if_pos hm, if_pos hm]
      · rw [if_neg hm, if_neg hm]
        have : decide (m / 4096 ≠ 0) = decide ((m / 4096).toNat = 1) := by rw [decide_eq_decide]; omega
        rw [this]
    · intro n _ _
      exact ⟨h.con, h.text, h.color, h.tab, h.ink, rfl, h.screen, h.drawn, h.displayed, h.dots⟩
  · exact fill_sound h he
  · exact fill_sound h he
  · exact line_sound h he
  · exact line_sound h he
  · rename_i s
    refine setting_sound h he (r := cmdGpage d.gfx s none) (s := fun n => { d.gfx with screen := n }) rfl ?_
    intro n _ _
    exact ⟨h.con, h.text, h.color, h.tab, h.ink, h.xor, rfl, h.drawn, h.displayed, h.dots⟩
  · rename_i s p w
    split at he
    · rename_i hp
      cases he
      have hg : cmdGpage d.gfx s (some (p, w)) = .ok ({ d.gfx with screen := (s / 4096).toNat, drawpage := upd d.gfx.drawpage (s / 4096).toNat (p / 4096).toNat, displaypage := upd d.gfx.displaypage (s / 4096).toNat (w / 4096).toNat }, none) := by
        unfold cmdGpage fpToInt
        dsimp only
        rw [if_neg (by omega), if_neg (by omega), if_neg (by omega)]
        rfl
      have hu : ∀ (f g : Nat → Nat) (v : Nat), f = g → upd f (s / 4096).toNat v = fun t : Nat => if (t : Int) = s / 4096 then v else g t := by
        intro f g v hfg
        funext t
        subst hfg
        by_cases ht : t = (s / 4096).toNat
        · rw [ht, upd_same, if_pos (by omega)]
        · rw [upd_other _ _ ht, if_neg (by omega)]
      refine ⟨_, draw_ok d hg, ⟨h.con, h.text, h.color, h.tab, h.ink, h.xor, rfl, hu _ _ _ h.drawn, hu _ _ _ h.displayed, h.dots⟩⟩
    · cases he
  · exact dot_sound h he
  · exact dot_sound h he
  · cases he

theorem toChar_small (w : Nat) : -524288 ≤ Strs.toChar w ∧ Strs.toChar w ≤ 524287 := by
  have hk : ∀ i : Fin 256, Strs.kataChar.getD i.1 0 < 256 := by decide +kernel
  have := hk ⟨w % 256, by omega⟩
  dsimp only at this
  unfold Strs.toChar
  dsimp only
  repeat' split
  all_goals omega

theorem firstAt_none {s t : List Nat} {k : Nat} (ht : t ≠ []) (h : ∀ q : Nat, k ≤ q → ¬ Strs.Spec.OccursAt s t q) : firstAt s t k = none := by
  unfold firstAt
  rw [List.find?_eq_none]
  intro i _ hi
  simp only [Bool.and_eq_true, decide_eq_true_eq, beq_iff_eq] at hi
  refine h i hi.1 ⟨?_, hi.2⟩
  have := congrArg List.length hi.2
  rw [List.length_take, List.length_drop] at this
  have : 0 < t.length := List.length_pos_iff.mpr ht
  omega

theorem firstAt_some {s t : List Nat} {k i : Nat} (ht : t ≠ []) (hk : k ≤ i) (h : Strs.Spec.OccursAt s t i)
    (hf : ∀ q : Nat, k ≤ q → q < i → ¬ Strs.Spec.OccursAt s t q) : firstAt s t k = some i := by
  unfold firstAt
  have : 0 < t.length := List.length_pos_iff.mpr ht
  have hi : i < s.length := by have := h.1; omega
  rw [List.find?_range_eq_some]
  refine ⟨by simp [hk, h.2], List.mem_range.mpr hi, ?_⟩
  intro q hq
  rw [Bool.not_eq_true', Bool.eq_false_iff]
  intro hc
  simp only [Bool.and_eq_true, decide_eq_true_eq, beq_iff_eq] at hc
  refine hf q hc.1 hq ⟨?_, hc.2⟩
  have := congrArg List.length hc.2
  rw [List.length_take, List.length_drop] at this
  omega

theorem instr_sound {s t : List Nat} {start : Int} (hu : instr s t (start / 4096) ≠ .ub) :
    Arg.out (retNum (Strs.funcInstr ⟨false, s⟩ ⟨false, t⟩ start)) = instr s t (start / 4096) := by
  unfold instr at hu ⊢
  split at hu
  · rename_i hs
    rw [if_pos hs]
    obtain ⟨k1, k2⟩ := Strs.C17_instr_partial ⟨false, s⟩ ⟨false, t⟩ hs.1 start hs.2
    by_cases ht : t = []
    · rw [if_pos ht, k1 (by rw [ht]; rfl)]; rfl
    · have htt : Strs.Spec.text ⟨false, t⟩ ≠ [] := by simpa [Strs.Spec.text] using ht
      rw [if_neg ht]
      rcases k2 htt with ⟨i, e, h1, h2, h3⟩ | ⟨e, h3⟩
      · rw [e, show firstAt (shown s) (shown t) (start / 4096).toNat = some i from
          firstAt_some htt (by omega) h2 fun q hq => h3 q (by omega)]
        show Out.ok (Val.num _) = Out.ok (Val.num _)
        rw [Int.mul_comm]
      · rw [e, show firstAt (shown s) (shown t) (start / 4096).toNat = none from
          firstAt_none htt fun q hq => h3 q (by omega)]
        rfl
  · exact absurd rfl hu

theorem describes : Describes picture world Depicts where
  commands := by
    intro k vs x a h hk
    have hk : (Spec.effect k vs a).isSome = true := hk
    obtain ⟨⟨a', e⟩, he⟩ := Option.isSome_iff_exists.mp hk
    obtain ⟨d', hd, h'⟩ := effect_sound h he
    unfold picture world
    dsimp only
    rw [hd, he]
    exact ⟨rfl, rfl, h'⟩
  functions := by
    intro f vs x a h hu
    show Arg.out ((args vs).bind fun as => function f as x) = (found a).fn f vs
    replace hu : (found a).fn f vs ≠ .ub := hu
    unfold found at hu ⊢
    dsimp only at hu ⊢
    split at hu
    · rename_i v
      split at hu
      · exact absurd rfl hu
      · rename_i hv
        show Arg.out (retNum (Arith.fnAbs v)) = _
        unfold Arith.fnAbs
        rw [if_neg hv, if_neg hv]
        show Out.ok (Val.num _) = _
        congr 2
        split <;> omega
    · rename_i v
      split at hu
      · rename_i hv
        show Out.ok (Val.num (intToFp (fpToInt v))) = _
        rw [if_pos hv, intToFp_small (by unfold fpToInt; unfold I32 at hv; omega)]
        rfl
      · exact absurd rfl hu
    · rename_i v
      show Out.ok (Val.num _) = Out.ok (Val.num _)
      congr 2
      by_cases h1 : v < 0
      · rw [if_pos h1, Int.sign_eq_neg_one_of_neg h1]; rfl
      · by_cases h2 : v > 0
        · rw [if_neg h1, if_pos h2, Int.sign_eq_one_of_pos h2]; rfl
        · rw [if_neg h1, if_neg h2, show v = 0 by omega]; rfl
    · rename_i u v
      show Out.ok (Val.num (funcChkchr x.con u v)) = Out.ok _
      congr 2
      obtain ⟨l1, l2⟩ := C25_locate x.con u v
      by_cases hs : 0 ≤ u / 4096 ∧ u / 4096 < 32 ∧ 0 ≤ v / 4096 ∧ v / 4096 < 24
      · rw [if_pos hs, (l1 hs).2, intToFp_small (toChar_small _), Int.mul_comm]
        have := h.text.2.2 (v / 4096).toNat (u / 4096).toNat (by omega) (by omega)
        rw [← this]
        rfl
      · rw [if_neg hs, (l2 hs).2]
        rfl
    · rename_i u v
      show Arg.out (retNum (funcGspoit x.gfx none u v)) = Out.ok _
      rw [(C29_gspoit x.gfx u v).2]
      have hp : x.gfx.page = a.drawn a.screen := by unfold Gfx.page; rw [h.drawn, h.screen]
      by_cases hs : Graphics.Spec.OnScreen (u / 4096) (v / 4096)
      · obtain ⟨h1, h2⟩ := h.dots (a.drawn a.screen) _ _ hs
        rw [if_pos hs, if_pos hs, hp, h1, intToFp_small (by omega), Int.mul_comm]
        rfl
      · rw [if_neg hs, if_neg hs]
        rfl
    · rename_i s
      cases s with
      | nil => rfl
      | cons c l =>
        dsimp only at hu ⊢
        split at hu
        · rename_i hc
          rw [if_pos hc]
          show Out.ok (Val.num (intToFp (c : Int))) = _
          rw [intToFp_small (by omega), Int.mul_comm]
        · exact absurd rfl hu
    · rename_i v
      show Arg.out (retStr (Strs.funcChr v)) = _
      unfold Strs.funcChr fpToInt
      dsimp only
      by_cases hv : 0 ≤ v / 4096 ∧ v / 4096 ≤ 255
      · rw [if_pos hv, if_neg (by omega)]; rfl
      · rw [if_neg hv, if_pos (by omega)]; rfl
    · exact instr_sound hu
    · exact instr_sound hu
    · rename_i s n
      split at hu
      · rename_i hs
        show Arg.out (retStr (Strs.funcLeft ⟨false, s⟩ n)) = _
        rw [Strs.C16_left ⟨false, s⟩ hs, if_pos hs]
        split <;> rfl
      · exact absurd rfl hu
    · rename_i s
      split at hu
      · rename_i hs
        show Out.ok (Val.num (intToFp (s.length : Int))) = _
        rw [if_pos hs, intToFp_small (by omega), Int.mul_comm]
      · exact absurd rfl hu
    · rename_i s i n
      split at hu
      · rename_i hs
        show Arg.out (retStr (Strs.funcMid ⟨false, s⟩ i n)) = _
        rw [Strs.C16_mid_partial ⟨false, s⟩ hs.1 i n hs.2.1 hs.2.2, if_pos hs]
        split <;> rfl
      · exact absurd rfl hu
    · rename_i s n
      split at hu
      · rename_i hs
        show Arg.out (retStr (Strs.funcRight ⟨false, s⟩ n)) = _
        rw [Strs.C16_right ⟨false, s⟩ hs, if_pos hs]
        split <;> rfl
      · exact absurd rfl hu
    · rename_i n
      show Arg.out (retStr (Num.funcStr n)) = _
      cases hn : Num.funcStr n with
      | ok s => rfl
      | err e => rw [hn] at hu; exact absurd rfl hu
      | ub => rfl
    · rename_i s
      split at hu
      · rename_i hs
        obtain ⟨h1, h2, h3, h4, h5⟩ := hs
        show Arg.out (if s = [] ∨ s = [38] then .ub else retNum (Num.funcVal 0 0 ⟨false, s⟩)) = _
        rw [if_neg (by rintro (rfl | rfl) <;> simp at h1 h2), if_pos ⟨h1, h2, h3, h4, h5⟩, Num.C11_val_partial 0 0 ⟨false, s⟩ h3 h1 h2 h4 h5]
        rfl
      · exact absurd rfl hu
    · rfl
    · exact absurd rfl hu
  sysvars := by
    intro v x a h hu
    show Arg.out (sysvar v x) = (found a).sys v
    have hu : (found a).sys v ≠ .ub := hu
    unfold found at hu ⊢
    dsimp only at hu ⊢
    have hx := h.con.x
    have hy := h.con.y
    split at hu
    · rfl
    · rfl
    · rfl
    · show Out.ok (Val.num (intToFp (x.con.x : Int))) = Out.ok _
      rw [intToFp_small (by omega), Int.mul_comm, show x.con.x = a.text.x from h.text.1]
    · show Out.ok (Val.num (intToFp (x.con.y : Int))) = Out.ok _
      rw [intToFp_small (by omega), Int.mul_comm, show x.con.y = a.text.y from h.text.2.1]
    · exact absurd rfl hu

/-- **C105.** What a correct program shows.  By its meaning in the world of a user who looks at the screens (`Spec/Source`, `Spec/Devices`), a
program that draws on the text screen and on the graphics pages comes to an end after some statements, with an error number, values of
the variables and a picture.  Then the interpreter with the console and graphics of the code, running the compiled text from devices that
show the first picture, comes to its end with the same error number, the same values of all variables, and devices that show this picture; and it shows
every picture on the way. -/
theorem C105_screens (pre : Tk) (n k r : Nat) (o : Obj) (core : Core Dev) (a : Shown)
    (src : List (List Nat)) (prog : List Line) (U : List (List Nat))
    (ht : Tok.Spec.TableFrom n o.labels) (hprog : Correct n o.cap src prog) (hU : AllVars prog U) (hfresh : Fresh k U core r) (ha : Depicts core.ext a) :
    ∃ o', tokenize Tok.Spec.plainOpts pre (Tok.Spec.programText src) o = .ok (o', none) ∧ (o'.buf.length ≤ maxCode →
      ∀ j, match Source.steps picture prog j (begin (.empty r) a) with
        | .done er st a' => ∃ m, Reaches devices (start o'.buf o'.labels core) m ∧ Halted m ∧ m.core.error = er ∧
            Shows U m.core st ∧ Depicts m.core.ext a'
        | .run c => ∃ m, Reaches devices (start o'.buf o'.labels core) m ∧ m.core.error = 0 ∧ Shows U m.core c.store ∧ Depicts m.core.ext c.world
        | .undefined => True) := by
  obtain ⟨o', h1, h2⟩ := C85_program devices world pre n k r o core src prog U ht hprog hU hfresh (performs _)
  refine ⟨o', h1, fun hfits j => ?_⟩
  have h := h2 hfits j
  have hl : Source.Res.Like Depicts (Source.steps world prog j (begin (.empty r) core.ext)) (Source.steps picture prog j (begin (.empty r) a)) :=
    steps_like describes j ⟨rfl, rfl, rfl, rfl, ha, rfl⟩
  cases hp : Source.steps picture prog j (begin (.empty r) a) with
  | undefined => trivial
  | done er st a' =>
    rw [hp] at hl
    cases hw : Source.steps world prog j (begin (.empty r) core.ext) with
    | undefined => rw [hw] at hl; exact absurd hl id
    | run c => rw [hw] at hl; exact absurd hl id
    | done er' st' x =>
      rw [hw] at hl h
      obtain ⟨rfl, rfl, hx⟩ := hl
      obtain ⟨m, hr, hh, he, hs, hm⟩ := h
      exact ⟨m, hr, hh, he, hs, by rw [hm]; exact hx⟩
  | run c =>
    rw [hp] at hl
    cases hw : Source.steps world prog j (begin (.empty r) core.ext) with
    | undefined => rw [hw] at hl; exact absurd hl id
    | done er' st' x => rw [hw] at hl; exact absurd hl id
    | run b =>
      rw [hw] at hl h
      obtain ⟨m, hr, he, hs, hm⟩ := h
      obtain ⟨l1, l2, l3, l4, l5⟩ := hl
      exact ⟨m, hr, he, by rw [← l3]; exact hs, by rw [hm]; exact l5.1⟩

/-! ### A concrete program -/

/-- Its text. -/
def lookText : List (List Nat) :=
  [chars "COLOR 3:GLINE 30,25,26,21,8", chars "GFILL 10,10,20,12,9", chars "FOR I=1 TO 3", chars "PRINT I*2,", chars "GPSET I,I,7", chars "NEXT", chars "A=GSPOIT(2,2)+CSRX",
   chars "B=CHKCHR(4,0)", chars "GCOLOR 300"]

/-- What it means. -/
def lookProg : List Line :=
  [⟨none, [.cmd 2 [.num [51]], .cmd 64 [.num [51, 48], .num [50, 53], .num [50, 54], .num [50, 49], .num [56]]], none, none⟩,
   ⟨none, [.cmd 63 [.num [49, 48], .num [49, 48], .num [50, 48], .num [49, 50], .num [57]]], none, none⟩,
   ⟨none, [.for' [73] (.num [49]) (.num [51]) none], none, none⟩,
   ⟨none, [.print [(some (.bin opMultiply (.var [73]) (.num [50])), opComma)] none], none, none⟩,
   ⟨none, [.cmd 67 [.var [73], .var [73], .num [55]]], none, none⟩,
   ⟨none, [.next none], none, none⟩,
   ⟨none, [.assign [65] (.bin opAdd (.fn2 14 (.num [50]) (.num [50])) (.sys 17))], none, none⟩,
   ⟨none, [.assign [66] (.fn2 8 (.num [52]) (.num [48]))], none, none⟩,
   ⟨none, [.cmd 60 [.num [51, 48, 48]]], none, none⟩]

/-- The words of its lines. -/
def lookWords : List (Nat × List (Tok.Spec.Word × Nat) × Tok.Spec.Ending) :=
  [(0, [(.command 2 (chars "COLOR"), 1), (.number [51], 0), (.colon, 0), (.command 64 (chars "GLINE"), 1), (.number [51, 48], 0), (.signOp 1 [44], 0),
        (.number [50, 53], 0), (.signOp 1 [44], 0), (.number [50, 54], 0), (.signOp 1 [44], 0), (.number [50, 49], 0), (.signOp 1 [44], 0),
        (.number [56], 0)], .nothing),
   (0, [(.command 63 (chars "GFILL"), 1), (.number [49, 48], 0), (.signOp 1 [44], 0), (.number [49, 48], 0), (.signOp 1 [44], 0), (.number [50, 48], 0),
        (.signOp 1 [44], 0), (.number [49, 50], 0), (.signOp 1 [44], 0), (.number [57], 0)], .nothing),
   (0, [(.command 4 (chars "FOR"), 1), (.name [73], 0), (.signOp 6 [61], 0), (.number [49], 1), (.command 5 (chars "TO"), 1), (.number [51], 0)], .nothing),
   (0, [(.command 0 (chars "PRINT"), 1), (.name [73], 0), (.signOp 3 [42], 0), (.number [50], 0), (.signOp 1 [44], 0)], .nothing),
   (0, [(.command 67 (chars "GPSET"), 1), (.name [73], 0), (.signOp 1 [44], 0), (.name [73], 0), (.signOp 1 [44], 0), (.number [55], 0)], .nothing),
   (0, [(.command 7 (chars "NEXT"), 0)], .nothing),
   (0, [(.name [65], 0), (.signOp 6 [61], 0), (.function 14 (chars "GSPOIT"), 0), (.signOp 20 [40], 0), (.number [50], 0), (.signOp 1 [44], 0),
        (.number [50], 0), (.signOp 21 [41], 0), (.signOp 0 [43], 0), (.sysvar 17 (chars "CSRX"), 0)], .nothing),
   (0, [(.name [66], 0), (.signOp 6 [61], 0), (.function 8 (chars "CHKCHR"), 0), (.signOp 20 [40], 0), (.number [52], 0), (.signOp 1 [44], 0),
        (.number [48], 0), (.signOp 21 [41], 0)], .nothing),
   (0, [(.command 60 (chars "GCOLOR"), 1), (.number [51, 48, 48], 0)], .nothing)]

theorem look_correct : Correct 2 100 lookText lookProg where
  lines := by decide +kernel
  written := written_list _ _ lookWords (by decide) (by decide) (by decide +kernel)
  wf := plain_all (by decide +kernel)
  cap := by decide
  labels := by decide +kernel
  room := by decide +kernel

/-- The first picture: empty screens. -/
def blank : Shown := ⟨⟨fun _ _ => (0, 0), 0, 0⟩, 0, 4, 0, false, 0, fun i => i, fun i => i, fun _ _ _ => 0⟩

theorem blank_depicts : Depicts ⟨Console.init, Graphics.init⟩ blank :=
  ⟨⟨by decide, by decide, by decide, by decide⟩, ⟨rfl, rfl, fun _ _ _ _ => rfl⟩, ⟨rfl, by decide⟩, rfl, ⟨rfl, by decide⟩, rfl, rfl, rfl, rfl,
    fun _ _ _ _ => ⟨rfl, show 0 < 256 by decide⟩⟩

/-- Error number, the variables `A` and `B`, the cursor. -/
def glance : Source.Res Shown → Option (Nat × Int × Int × Nat × Nat)
  | .done er st a => some (er, st.num [65], st.num [66], a.text.x, a.text.y)
  | _ => none

/-- The first nine characters of the text screen with their colours, and some dots. -/
def details : Source.Res Shown → List (Nat × Nat) × List Nat
  | .done _ _ a => ((List.range 9).map fun c => a.text.cell 0 c, [a.dots 0 1 1, a.dots 0 2 1, a.dots 0 3 3, a.dots 0 20 12, a.dots 0 21 12, a.dots 1 3 3, a.dots 0 28 23, a.dots 0 28 24])
  | _ => ([], [])

/-- By its meaning it ends with error 37, because there is no colour 300; it found the dot at 2,2, the cursor in column 12 and the
character at 4,0. -/
theorem look_glance : glance (Source.steps picture lookProg 40 (begin .empty blank)) = some (37, 19 * 4096, 52 * 4096, 12, 0) := by decide +kernel

/-- It printed 2, 4 and 6 at the tab stops, and drew three dots, a rectangle and a diagonal line. -/
theorem look_details : details (Source.steps picture lookProg 40 (begin .empty blank)) =
    ([2, 0, 0, 0, 4, 0, 0, 0, 6].map (fun d => (if d = 0 then Strs.toWide 32 else Strs.toWide (48 + d), 3)), [7, 0, 7, 9, 0, 0, 8, 0]) := by decide +kernel

/-- Its code is small enough. -/
theorem look_small : (tokenize Tok.Spec.plainOpts Tok.Spec.preTok (Tok.Spec.programText lookText) Tok.Spec.emptyObj).bind
    (fun r => .ok (r.2, decide (r.1.buf.length ≤ maxCode))) = .ok (none, true) := by decide +kernel

/-- And so it is on the devices. -/
example : ∃ o' m, tokenize Tok.Spec.plainOpts Tok.Spec.preTok (Tok.Spec.programText lookText) Tok.Spec.emptyObj = .ok (o', none) ∧
    Reaches devices (start o'.buf o'.labels ⟨[], fun _ => 0, fun _ => [], Vars.init 4 true, 0, 0, 0, ⟨Console.init, Graphics.init⟩, 0⟩) m ∧ Halted m ∧
    m.core.error = 37 ∧ m.core.ext.gfx.dot 0 3 3 = 7 ∧ m.core.ext.con.text 0 4 = Strs.toWide 52 := by
  obtain ⟨o', h1, h2⟩ := C105_screens Tok.Spec.preTok 2 2 0 Tok.Spec.emptyObj ⟨[], fun _ => 0, fun _ => [], Vars.init 4 true, 0, 0, 0, ⟨Console.init, Graphics.init⟩, 0⟩
    blank lookText lookProg [[73], [65], [66]] ⟨[], by simp, rfl⟩ look_correct (by unfold AllVars; decide +kernel) ⟨⟨true, rfl⟩, by decide, Or.inl rfl⟩ blank_depicts
  have h := h2 (by
    have := look_small
    rw [h1] at this
    simpa [Out.bind] using this) 40
  have g := look_glance
  have t := look_details
  cases hs : Source.steps picture lookProg 40 (begin .empty blank) with
  | done er st a =>
    rw [hs] at h g t
    obtain ⟨m, r, hh, he, _, hd⟩ := h
    unfold glance at g
    simp only [Option.some.injEq, Prod.mk.injEq] at g
    refine ⟨o', m, h1, r, hh, he.trans g.1, ?_, ?_⟩
    · rw [(hd.dots 0 3 3 (by decide)).1]
      exact congrArg (fun l => l.2.getD 2 0) t
    · have := hd.text.2.2 0 4 (by decide) (by decide)
      have t : (a.text.cell 0 4).1 = Strs.toWide 52 := congrArg (fun l => (l.1.getD 4 (0, 0)).1) t
      rw [← t, ← this]
      rfl
  | run c => rw [hs] at g; cases g
  | undefined => rw [hs] at g; cases g

/-! ### A program with strings -/

/-- Its text. -/
def wordText : List (List Nat) :=
  [chars "A$=\"HI\":B$=A$*2+CHR$(33)", chars "PRINT B$;LEN(B$)", chars "IF INSTR(B$,\"IH\")==1 THEN PRINT RIGHT$(B$,2)+STR$(VAL(\"7\")+1)",
   chars "PRINT ASC(MID$(A$,2,1))"]

/-- What it means. -/
def wordProg : List Line :=
  [⟨none, [.assign [65, 36] (.str (chars "HI")),
           .assign [66, 36] (.bin opAdd (.bin opMultiply (.var [65, 36]) (.num [50])) (.fn1 9 (.num (chars "33"))))], none, none⟩,
   ⟨none, [.print [(some (.var [66, 36]), opSemicolon)] (some (.fn1 20 (.var [66, 36])))], none, none⟩,
   ⟨none, [], some ⟨.bin 8 (.fn2 18 (.var [66, 36]) (.str (chars "IH"))) (.num [49]), true,
      .run [.print [] (some (.bin opAdd (.fn2 26 (.var [66, 36]) (.num [50])) (.fn1 36 (.bin opAdd (.fn1 39 (.str [55])) (.num [49])))))], none⟩, none⟩,
   ⟨none, [.print [] (some (.fn1 1 (.fn3 22 (.var [65, 36]) (.num [50]) (.num [49]))))], none, none⟩]

/-- The words of its lines. -/
def wordWords : List (Nat × List (Tok.Spec.Word × Nat) × Tok.Spec.Ending) :=
  [(0, [(.name [65, 36], 0), (.signOp 6 [61], 0), (.string (chars "HI"), 0), (.colon, 0), (.name [66, 36], 0), (.signOp 6 [61], 0), (.name [65, 36], 0),
        (.signOp 3 [42], 0), (.number [50], 0), (.signOp 0 [43], 0), (.function 9 (chars "CHR$"), 0), (.signOp 20 [40], 0), (.number (chars "33"), 0),
        (.signOp 21 [41], 0)], .nothing),
   (0, [(.command 0 (chars "PRINT"), 1), (.name [66, 36], 0), (.signOp 5 [59], 0), (.function 20 (chars "LEN"), 0), (.signOp 20 [40], 0),
        (.name [66, 36], 0), (.signOp 21 [41], 0)], .nothing),
   (0, [(.command 8 (chars "IF"), 1), (.function 18 (chars "INSTR"), 0), (.signOp 20 [40], 0), (.name [66, 36], 0), (.signOp 1 [44], 0),
        (.string (chars "IH"), 0), (.signOp 21 [41], 0), (.signOp 8 [61, 61], 0), (.number [49], 1), (.command 9 (chars "THEN"), 1),
        (.command 0 (chars "PRINT"), 1), (.function 26 (chars "RIGHT$"), 0), (.signOp 20 [40], 0), (.name [66, 36], 0), (.signOp 1 [44], 0),
        (.number [50], 0), (.signOp 21 [41], 0), (.signOp 0 [43], 0), (.function 36 (chars "STR$"), 0), (.signOp 20 [40], 0),
        (.function 39 (chars "VAL"), 0), (.signOp 20 [40], 0), (.string [55], 0), (.signOp 21 [41], 0), (.signOp 0 [43], 0), (.number [49], 0),
        (.signOp 21 [41], 0)], .nothing),
   (0, [(.command 0 (chars "PRINT"), 1), (.function 1 (chars "ASC"), 0), (.signOp 20 [40], 0), (.function 22 (chars "MID$"), 0), (.signOp 20 [40], 0),
        (.name [65, 36], 0), (.signOp 1 [44], 0), (.number [50], 0), (.signOp 1 [44], 0), (.number [49], 0), (.signOp 21 [41], 0),
        (.signOp 21 [41], 0)], .nothing)]

theorem word_correct : Correct 2 100 wordText wordProg where
  lines := by decide +kernel
  written := written_list _ _ wordWords (by decide) (by decide) (by decide +kernel)
  wf := plain_all (by decide +kernel)
  cap := by decide
  labels := by decide +kernel
  room := by decide +kernel

/-- Error number, the string `B$`, and the beginnings of the first two lines of the screen. -/
def reading : Source.Res Shown → Option (Nat × List Nat × List Nat × List Nat)
  | .done er st a => some (er, st.str [66, 36], (List.range 7).map fun c => (a.text.cell 0 c).1, (List.range 4).map fun c => (a.text.cell 1 c).1)
  | _ => none

/-- By its meaning it prints `HIHI!5` and `I!8`, and ends with error 31: there is no third character in `HI`. -/
example : reading (Source.steps picture wordProg 30 (begin .empty blank)) =
    some (31, chars "HIHI!", (chars "HIHI!5").map Strs.toWide ++ [0], (chars "I!8").map Strs.toWide ++ [0]) := by decide +kernel

end Sbc.Devices
