import Verif.Model.Acls
import Verif.Spec.Acls
import Verif.Props.SourceLoop
set_option autoImplicit false
/-!
# C101: ACLS
-/
namespace Sbc.Source
open Sbc Sbc.Tok Sbc.Tok.Spec Sbc.Machine

variable {σ : Type} {env : Env σ} {W : World σ} {prog : List Line}

/-- Programs without labels compile with every table of labels, which stays empty. -/
theorem compile_unlabelled (pre : Tk) (src : List (List Nat)) (prog : List Line) (hw : List.Forall₂ Written src prog)
    (hl : ∀ a ∈ src, Contained a) (hwf : ∀ l ∈ prog, l.WF) (hno : ∀ l ∈ prog, l.label = none) (o : Obj) (hcap : src.length ≤ o.cap) :
    tokenize plainOpts pre (programText src) o =
      .ok ({ o with buf := encode (progCode prog), labels := Labels.reset o.labels, lines := src.length }, none) := by
  have key : ∀ o1 : Obj, o1.buf.length % 2 = 0 → o1.lines + src.length ≤ o1.cap → compileLines plainOpts pre src o1 =
      .ok ({ o1 with buf := o1.buf ++ encode (progCode prog), lines := o1.lines + src.length }, none) := by
    induction hw with
    | nil => intro o1 _ _; simp [compileLines, progCode, encode]
    | @cons a l src prog hal hrest ih =>
      intro o1 h1 h2
      simp only [List.length_cons] at h2 hcap
      unfold compileLines
      rw [lineScan_src hal (by have := (hwf l (by simp)).len; omega), ok_bind]
      have hconv : tokConvert plainOpts pre l.toks o1 = .ok ({ o1 with buf := o1.buf ++ encode l.code, lines := o1.lines + 1 }, none) := by
        obtain ⟨t, r, e, _, h3⟩ := l.toks_head
        have k := convert_src (hwf l (by simp)) pre o1 h1 (by omega)
        unfold tokConvert
        rw [e]
        dsimp only
        rw [if_neg (h3 (hno l (by simp))), ← e]
        exact k
      unfold lineEffect
      dsimp only
      rw [hconv, ok_bind]
      dsimp only
      rw [ok_bind]
      dsimp only
      rw [ih (fun b hb => hl b (by simp [hb])) (fun x hx => hwf x (by simp [hx])) (fun x hx => hno x (by simp [hx])) (by omega) _
        (by show (o1.buf ++ encode l.code).length % 2 = 0; rw [List.length_append]; have := encode_even l.code; omega)
        (by show o1.lines + 1 + src.length ≤ o1.cap; omega)]
      have e1 : o1.buf ++ encode l.code ++ encode (progCode prog) = o1.buf ++ encode (progCode (l :: prog)) := by
        unfold progCode; rw [List.flatMap_cons, encode_append, List.append_assoc]
      have e2 : o1.lines + 1 + src.length = o1.lines + (src.length + 1) := by omega
      dsimp only
      rw [e1, e2]
      rfl
  rw [tokenize_lines plainOpts pre src o hl, key (Obj.fresh o) rfl (by show 0 + src.length ≤ o.cap; omega)]
  show Out.ok (({ o with buf := [] ++ encode (progCode prog), labels := Labels.reset o.labels, lines := 0 + src.length } : Obj), (none : Option Nat)) = _
  rw [List.nil_append, Nat.zero_add]

theorem links_outer {U : List (List Nat)} {C : Nat → Prop} {T : Vars.Table} : (K cs : List Call) → Links prog U C T (K.map .outer) cs → cs = K
  | [], [], _ => rfl
  | [], _ :: _, h => by cases h
  | _ :: _, [], h => by cases h
  | k :: K, c :: cs, h => by
    obtain ⟨_⟩ | ⟨h1, h2⟩ := h
    cases h1
    rw [links_outer K cs h2]

theorem outer_links {U : List (List Nat)} {C : Nat → Prop} {T : Vars.Table} : (K : List Call) → Links prog U C T (K.map .outer) K
  | [] => .nil
  | k :: K => .cons (.outer k) (outer_links K)

/-- A program started within another one. -/
theorem within_match {o : List Nat} {U : List (List Nat)} {C : Nat → Prop} {L : Labels.Table} {core : Core σ} {st : Store} (K : List Call)
    (ho : o = encode (progCode prog)) (hwf : ∀ l ∈ prog, l.WF) (hh : Holds U st core) :
    Match prog U C L (beginWithin K st core.ext) { start o L core with calls := K } := by
  subst ho
  refine ⟨?_, { code := rfl, main := ⟨rfl, fun hne => (Machine.C37_start hne (items_prog prog hwf) L core).congr rfl rfl⟩, argc := rfl, frames := rfl, calls := outer_links K, labels := rfl, error := rfl, stack := rfl,
                holds := hh.congr rfl rfl rfl, ext := rfl }⟩
  exact Place.line 0

/-- At the end of the program, the call stack is that of the surrounding program again. -/
theorem end_calls {U : List (List Nat)} {C : Nat → Prop} {L : Labels.Table} (hwf : ∀ l ∈ prog, l.WF) {st : Store} {x : σ} {k : Nat} {K : List Call}
    (hk : prog.length ≤ k) {m : Mach σ} (hm : Match prog U C L ⟨⟨[], none⟩, k, st, K.map .outer, x, 0⟩ m) :
    ∃ m', Reaches env m m' ∧ Halted m' ∧ m'.core.error = 0 ∧ m'.core.ext = x ∧ m'.calls = K := by
  obtain ⟨hplace, hbase⟩ := hm
  dsimp only at hplace hbase
  obtain ⟨a, c, hc, hi, sk, hp, ho, hl, hf, -⟩ := hplace
  have hp : progCode prog = a ++ (sk ++ progCode (prog.drop k)) := hp
  obtain ⟨M, r1, hi1, hb1⟩ := pass_over (env := env) hwf ho hbase hp hi
  refine ⟨M, r1, ⟨?_, hb1.frames⟩, hb1.error, hb1.ext, links_outer K M.calls hb1.calls⟩
  have : prog.drop k = [] := List.drop_eq_nil_iff.mpr hk
  rw [this] at hp
  unfold Mach.ended
  rw [hb1.code, hi1, hp]
  simp [progCode, posAfter]

/-- The values that statements give to commands, when the variables have the values `st`. -/
def allGiven (W : World σ) (st : Store) (body : List S) (cs : List (Nat × List Val)) : Prop :=
  List.Forall₂ (fun s c => ∀ x, s.given (W.look x) st = .ok c) body cs

/-- One command that fails. -/
theorem given_fails {s : S} {c : Cfg σ} {k : Nat} {vs : List Val} (hg : s.given (W.look c.world) c.store = .ok (k, vs)) (hk : W.known k vs c.world = true)
    (h0 : (W.perform k vs c.world).2 ≠ 0) :
    s.exec W prog c = .done (W.perform k vs c.world).2 c.store (W.perform k vs c.world).1 := by
  cases s with
  | cmd k' args =>
    have hg : (argValues (W.look c.world) c.store args).bind (fun vs => Out.ok (k', vs)) = .ok (k, vs) := hg
    show Res.with' c (argValues (W.look c.world) c.store args) (fun vs => c.command W k' vs) = _
    cases ha : argValues (W.look c.world) c.store args with
    | ok v =>
      rw [ha] at hg
      have hg : Out.ok (k', v) = .ok (k, vs) := hg
      cases hg
      show c.command W k vs = _
      unfold Cfg.command
      dsimp only
      rw [if_neg (by rw [hk]; decide), if_neg h0]
    | err e => rw [ha] at hg; cases hg
    | ub => rw [ha] at hg; cases hg
  | print items last =>
    have hg : ((itemValues (W.look c.world) c.store items).bind fun vs => (optValues (W.look c.world) c.store last).bind fun ws => Out.ok (cmdPrint, vs ++ ws)) = .ok (k, vs) := hg
    show Res.with' c (itemValues (W.look c.world) c.store items) (fun vs => Res.with' c (optValues (W.look c.world) c.store last) fun ws => c.command W cmdPrint (vs ++ ws)) = _
    cases ha : itemValues (W.look c.world) c.store items with
    | ok v =>
      rw [ha] at hg
      cases hb : optValues (W.look c.world) c.store last with
      | ok v' =>
        dsimp only [Out.bind] at hg
        rw [hb] at hg
        have hg : Out.ok (cmdPrint, v ++ v') = .ok (k, vs) := hg
        cases hg
        show c.command W cmdPrint (v ++ v') = _
        unfold Cfg.command
        dsimp only
        rw [if_neg (by rw [hk]; decide), if_neg h0]
      | err e => dsimp only [Out.bind] at hg; rw [hb] at hg; cases hg
      | ub => dsimp only [Out.bind] at hg; rw [hb] at hg; cases hg
    | err e => rw [ha] at hg; cases hg
    | ub => rw [ha] at hg; cases hg
  | _ => cases hg

end Sbc.Source

namespace Sbc.Acls
open Sbc Sbc.Tok Sbc.Tok.Spec Sbc.Source Sbc.Machine

variable {σ : Type} {env : Env σ} {W : World σ}

theorem performAll_cons (k : Nat) (vs : List Val) (r : List (Nat × List Val)) (x : σ) : performAll W ((k, vs) :: r) x =
    if (W.perform k vs x).2 = 0 then performAll W r (W.perform k vs x).1 else W.perform k vs x := rfl

theorem performAll_append (a b : List (Nat × List Val)) (x : σ) : performAll W (a ++ b) x =
    if (performAll W a x).2 = 0 then performAll W b (performAll W a x).1 else performAll W a x := by
  induction a generalizing x with
  | nil => exact (if_pos rfl).symm
  | cons c a ih =>
    obtain ⟨k, vs⟩ := c
    rw [List.cons_append, performAll_cons, performAll_cons]
    by_cases h : (W.perform k vs x).2 = 0
    · rw [if_pos h, if_pos h]; exact ih _
    · rw [if_neg h, if_neg h, if_neg h]

/-- No variable other than `P` has a value. -/
def Bare (st : Store) : Prop := (∀ z, z ≠ [80] → st.num z = 0) ∧ ∀ z, st.str z = []

theorem bare_empty : Bare .empty := ⟨fun _ _ => rfl, fun _ => rfl⟩

/-- What comes next after a piece of the program: it goes on to `f`, or it has ended with an error (and no variable
other than `P` has a value). -/
def Then (W : World σ) (prog : List Line) (c : Cfg σ) (r : σ × Nat) (f : σ → Cfg σ) : Prop :=
  ∃ j st, Bare st ∧ Source.steps W prog j c = if r.2 = 0 then .run (f r.1) else .done r.2 st r.1

theorem Then.trans {prog : List Line} {c : Cfg σ} {a b : List (Nat × List Val)} {x : σ} {f g : σ → Cfg σ} (h1 : Then W prog c (performAll W a x) f)
    (h2 : ∀ y, Then W prog (f y) (performAll W b y) g) : Then W prog c (performAll W (a ++ b) x) g := by
  obtain ⟨i, st, hst, hi⟩ := h1
  rw [performAll_append]
  by_cases h : (performAll W a x).2 = 0
  · obtain ⟨j, st', hst', hj⟩ := h2 (performAll W a x).1
    rw [if_pos h] at hi ⊢
    exact ⟨i + j, st', hst', by rw [steps_trans i j _ _ hi]; exact hj⟩
  · rw [if_neg h] at hi
    exact ⟨i, st, hst, by rw [if_neg h, if_neg h]; exact hi⟩

/-- Steps without commands. -/
theorem Then.quiet {prog : List Line} {c : Cfg σ} {x : σ} {f : σ → Cfg σ} (j : Nat) (h : Source.steps W prog j c = .run (f x)) :
    Then W prog c (performAll W [] x) f := ⟨j, .empty, bare_empty, by rw [show performAll W [] x = (x, 0) from rfl, if_pos rfl]; exact h⟩

/-- The commands of a line. -/
theorem Then.line {prog : List Line} (st : Store) (hst : Bare st) (last : Option If) (n : Nat) (calls : List Pending) {body : List S}
    {cs : List (Nat × List Val)} (hK : ∀ c ∈ cs, ∀ x, W.known c.1 c.2 x = true) (h : allGiven W st body cs) (x : σ) :
    Then W prog ⟨⟨body, last⟩, n, st, calls, x, 0⟩ (performAll W cs x) (fun y => ⟨⟨[], last⟩, n, st, calls, y, 0⟩) := by
  unfold allGiven at h
  induction h generalizing x with
  | nil => exact Then.quiet 0 rfl
  | @cons s c r cs hs hr ih =>
    obtain ⟨k, vs⟩ := c
    rw [performAll_cons]
    by_cases h0 : (W.perform k vs x).2 = 0
    · rw [if_pos h0]
      obtain ⟨j, st', hst', hj⟩ := ih (fun c hc => hK c (List.mem_cons_of_mem _ hc)) (W.perform k vs x).1
      refine ⟨j + 1, st', hst', ?_⟩
      rw [Source.steps]
      rw [show Source.step W prog ⟨⟨s :: r, last⟩, n, st, calls, x, 0⟩ = .run ⟨⟨r, last⟩, n, st, calls, (W.perform k vs x).1, 0⟩ from
        given_exec (c := ⟨⟨r, last⟩, n, st, calls, x, 0⟩) (hs x) (hK (k, vs) (List.mem_cons_self ..) x) h0]
      exact hj
    · rw [if_neg h0]
      refine ⟨1, st, hst, ?_⟩
      rw [Source.steps]
      rw [show Source.step W prog ⟨⟨s :: r, last⟩, n, st, calls, x, 0⟩ = .done (W.perform k vs x).2 st (W.perform k vs x).1 from
        given_fails (c := ⟨⟨r, last⟩, n, st, calls, x, 0⟩) (hs x) (hK (k, vs) (List.mem_cons_self ..) x) h0, if_neg h0]

/-- A line of commands, entered from the end of the line before. -/
theorem Then.next {prog : List Line} (st : Store) (hst : Bare st) (n : Nat) (calls : List Pending) {lab : Option (List Nat)} {body : List S}
    (hl : prog[n]? = some ⟨lab, body, none, none⟩) {cs : List (Nat × List Val)} (hK : Known W)
    (hsub : ∀ c ∈ cs, c ∈ commands) (h : allGiven W st body cs) (x : σ) :
    Then W prog ⟨⟨[], none⟩, n, st, calls, x, 0⟩ (performAll W cs x) (fun y => ⟨⟨[], none⟩, n + 1, st, calls, y, 0⟩) := by
  have h1 : Then W prog ⟨⟨[], none⟩, n, st, calls, x, 0⟩ (performAll W [] x) (fun y => ⟨⟨body, none⟩, n + 1, st, calls, y, 0⟩) := by
    refine Then.quiet 1 ?_
    rw [Source.steps, Source.step]
    dsimp only
    rw [hl]
    rfl
  exact h1.trans fun y => Then.line st hst none (n + 1) calls (fun c hc => hK c (hsub c hc)) h y

/-- A digit as an argument. -/
def c (d : Nat) : E := .num [48 + d]

/-- The program that `acls_code` is. -/
def prog : List Line :=
  [⟨none, [.cmd 19 [c 1, c 1, c 1, c 1, c 1, c 1], .cmd 70 []], none, none⟩,
   ⟨none, [.cmd 2 [c 0, c 0], .cmd 18 [], .cmd 62 [.sys 1]], none, none⟩,
   ⟨none, [.for' [80] (.num [49]) (.num [48]) (some (.un opNegate (.num [49])))], none, none⟩,
   ⟨none, [.cmd 65 [.var [80], .var [80], .var [80]], .cmd 60 [c 0], .cmd 59 [], .cmd 68 [c 3]], none, none⟩,
   ⟨none, [.cmd 40 [.var [80]], .cmd 39 [c 0, c 0, c 0], .cmd 39 [c 1, c 0, c 0]], none, none⟩,
   ⟨none, [.cmd 28 [], .cmd 27 [c 0, c 0, .num [51, 49], .num [50, 51]]], none, none⟩,
   ⟨none, [.cmd 96 [.var [80]], .cmd 91 []], none, none⟩,
   ⟨none, [.cmd 48 [.str (chars "BG")], .cmd 48 [.str (chars "SP")]], none, none⟩,
   ⟨none, [.cmd 48 [.str (chars "GRP")]], none, none⟩,
   ⟨none, [.next none], none, none⟩]

/-- The words of the text. -/
def words : List (Nat × List (Word × Nat) × Ending) :=
  let comma : Word × Nat := (.signOp 1 [44], 0)
  let colon : Word × Nat := (.colon, 0)
  let d (k : Nat) : Word × Nat := (.number [48 + k], 0)
  let p : Word × Nat := (.name [80], 0)
  let cmd (k : Nat) (s : String) : Word × Nat := (.command k (chars s), 1)
  let cmd0 (k : Nat) (s : String) : Word × Nat := (.command k (chars s), 0)
  [(0, [cmd 19 "VISIBLE", d 1, comma, d 1, comma, d 1, comma, d 1, comma, d 1, comma, d 1, colon, cmd0 70 "ICONCLR"], .nothing),
   (0, [cmd 2 "COLOR", d 0, comma, d 0, colon, cmd0 18 "CLS", colon, cmd 62 "GDRAWMD", (.sysvar 1 (chars "FALSE"), 0)], .nothing),
   (0, [cmd 4 "FOR", p, (.signOp 6 [61], 0), (.number [49], 1), cmd 5 "TO", (.number [48], 1), cmd 6 "STEP", (.signOp 2 [45], 0), d 1], .nothing),
   (1, [cmd 65 "GPAGE", p, comma, p, comma, p, colon, cmd 60 "GCOLOR", d 0, colon, cmd0 59 "GCLS", colon, cmd 68 "GPRIO", d 3], .nothing),
   (1, [cmd 40 "BGPAGE", p, colon, cmd 39 "BGOFS", d 0, comma, d 0, comma, d 0, colon, cmd 39 "BGOFS", d 1, comma, d 0, comma, d 0], .nothing),
   (1, [cmd0 28 "BGCLR", colon, cmd 27 "BGCLIP", d 0, comma, d 0, comma, (.number [51, 49], 0), comma, (.number [50, 51], 0)], .nothing),
   (1, [cmd 96 "SPPAGE", p, colon, cmd0 91 "SPCLR"], .nothing),
   (1, [cmd 48 "COLINIT", (.string (chars "BG"), 0), colon, cmd 48 "COLINIT", (.string (chars "SP"), 0)], .nothing),
   (1, [cmd 48 "COLINIT", (.string (chars "GRP"), 0)], .nothing),
   (0, [cmd0 7 "NEXT"], .nothing)]

theorem source_written : List.Forall₂ Source.Written source prog := written_list _ _ words (by decide) (by decide) (by decide +kernel)

theorem prog_wf : ∀ l ∈ prog, l.WF := plain_all (by decide +kernel)

theorem prog_vars : AllVars prog [[80]] := by unfold AllVars; decide +kernel

/-- The program compiles. -/
theorem compiles (pre : Tk) (v : Vars.Table) :
    tokenize plainOpts pre (programText source) (obj v) =
      .ok ({ obj v with buf := encode (progCode prog), labels := Labels.reset (Labels.init 0), lines := 10 }, none) :=
  compile_unlabelled pre source prog source_written (by decide +kernel) prog_wf (by decide +kernel) (obj v) (by show source.length ≤ 12; decide)

theorem knows : KnowsLabels prog (Labels.reset (Labels.init 0)) := by
  intro name hn
  have e : target prog name = none := by
    unfold target
    rw [List.findIdx?_eq_none_iff]
    intro l hl
    have : l.label = none := (show ∀ l ∈ prog, l.label = none by decide +kernel) l hl
    rw [this]
    rfl
  rw [e]
  rfl

/-- The size is known. -/
theorem small : posAfter (progCode prog) < 16777216 := by decide +kernel

/-! ### What the program means -/

/-- The variable of the loop has the value `v`. -/
def one (v : Int) : Store := Store.empty.set [80] v

theorem one_other (v : Int) : Bare (one v) := ⟨fun _ h => if_neg h, fun _ => rfl⟩

/-- The loop. -/
def loop : Pending := .loop [80] (.num [48]) (some (.un opNegate (.num [49]))) ⟨[], none⟩ 3

theorem limit (K : Look) (st : Store) : (E.num [48]).number K st = .ok 0 := rfl
theorem stride (K : Look) (st : Store) : stepValue K st (some (.un opNegate (.num [49]))) = .ok (-4096) := rfl

theorem for_line (calls : List Pending) (hc : calls.length ≤ 254) (x : σ) :
    Then W prog ⟨⟨[], none⟩, 2, .empty, calls, x, 0⟩ (performAll W [] x) (fun y => ⟨⟨[], none⟩, 3, one 4096, loop :: calls, y, 0⟩) := by
  refine Then.quiet 2 ?_
  rw [Source.steps, show Source.step W prog ⟨⟨[], none⟩, 2, .empty, calls, x, 0⟩ =
    .run ⟨⟨[.for' [80] (.num [49]) (.num [48]) (some (.un opNegate (.num [49])))], none⟩, 3, .empty, calls, x, 0⟩ from rfl]
  dsimp only
  rw [Source.steps]
  have : Source.step W prog ⟨⟨[.for' [80] (.num [49]) (.num [48]) (some (.un opNegate (.num [49])))], none⟩, 3, .empty, calls, x, 0⟩ =
      .run ⟨⟨[], none⟩, 3, one 4096, loop :: calls, x, 0⟩ := by
    unfold Source.step S.exec
    dsimp only
    rw [if_neg (by omega)]
    show Cfg.round W prog ⟨⟨[], none⟩, 3, one 4096, loop :: calls, x, 0⟩ [80] (.num [48]) (some (.un opNegate (.num [49]))) = _
    unfold Cfg.round
    dsimp only
    rw [limit, stride]
    rfl
  rw [this]
  rfl

theorem for_full (calls : List Pending) (hc : calls.length = 255) (x : σ) :
    Source.steps W prog 2 ⟨⟨[], none⟩, 2, .empty, calls, x, 0⟩ = .done 42 .empty x := by
  rw [Source.steps, show Source.step W prog ⟨⟨[], none⟩, 2, .empty, calls, x, 0⟩ =
    .run ⟨⟨[.for' [80] (.num [49]) (.num [48]) (some (.un opNegate (.num [49])))], none⟩, 3, .empty, calls, x, 0⟩ from rfl]
  dsimp only
  rw [Source.steps]
  have : Source.step W prog ⟨⟨[.for' [80] (.num [49]) (.num [48]) (some (.un opNegate (.num [49])))], none⟩, 3, .empty, calls, x, 0⟩ =
      .done 42 .empty x := by
    unfold Source.step S.exec
    dsimp only
    rw [if_pos hc]
  rw [this]

theorem next_on (calls : List Pending) (x : σ) :
    Then W prog ⟨⟨[], none⟩, 9, one 4096, loop :: calls, x, 0⟩ (performAll W [] x) (fun y => ⟨⟨[], none⟩, 3, one 0, loop :: calls, y, 0⟩) := by
  refine Then.quiet 2 ?_
  rw [Source.steps, show Source.step W prog ⟨⟨[], none⟩, 9, one 4096, loop :: calls, x, 0⟩ =
    .run ⟨⟨[.next none], none⟩, 10, one 4096, loop :: calls, x, 0⟩ from rfl]
  dsimp only
  rw [Source.steps]
  have : Source.step W prog ⟨⟨[.next none], none⟩, 10, one 4096, loop :: calls, x, 0⟩ = .run ⟨⟨[], none⟩, 3, one 0, loop :: calls, x, 0⟩ := by
    show Cfg.again W prog ⟨⟨[], none⟩, 10, one 4096, loop :: calls, x, 0⟩ [80] (.num [48]) (some (.un opNegate (.num [49]))) ⟨[], none⟩ 3 calls = _
    rw [again_on (prog := prog) (v := 4096) (y := 0) (d := -4096) rfl (limit _ _) (stride _ _) (by decide) (by decide) (limit _ _) (stride _ _)]
    unfold Cfg.set
    dsimp only
    rw [show (one 4096).set [80] (4096 + -4096) = one 0 from by
      have := twice .empty [80] 4096 0; exact this]
  rw [this]
  rfl

theorem next_past (calls : List Pending) (x : σ) :
    Then W prog ⟨⟨[], none⟩, 9, one 0, loop :: calls, x, 0⟩ (performAll W [] x) (fun y => ⟨⟨[], none⟩, 10, one (-4096), calls, y, 0⟩) := by
  refine Then.quiet 2 ?_
  rw [Source.steps, show Source.step W prog ⟨⟨[], none⟩, 9, one 0, loop :: calls, x, 0⟩ =
    .run ⟨⟨[.next none], none⟩, 10, one 0, loop :: calls, x, 0⟩ from rfl]
  dsimp only
  rw [Source.steps]
  have : Source.step W prog ⟨⟨[.next none], none⟩, 10, one 0, loop :: calls, x, 0⟩ = .run ⟨⟨[], none⟩, 10, one (-4096), calls, x, 0⟩ := by
    show Cfg.again W prog ⟨⟨[], none⟩, 10, one 0, loop :: calls, x, 0⟩ [80] (.num [48]) (some (.un opNegate (.num [49]))) ⟨[], none⟩ 3 calls = _
    rw [again_past (prog := prog) (v := 0) (y := 0) (d := -4096) rfl (limit _ _) (stride _ _) (by decide) (by decide)]
    unfold Cfg.set
    dsimp only
    rw [show (one 0).set [80] (0 + -4096) = one (-4096) from by
      have := twice .empty [80] 0 (-4096); exact this]
  rw [this]
  rfl

/-- The body of the loop. -/
theorem body (hK : Known W) (p : Nat) (hp : p = 0 ∨ p = 1) (calls : List Pending) (x : σ) :
    Then W prog ⟨⟨[], none⟩, 3, one (p * 4096), calls, x, 0⟩ (performAll W (pageCommands p) x)
      (fun y => ⟨⟨[], none⟩, 9, one (p * 4096), calls, y, 0⟩) := by
  have t3 := fun x => Then.next (W := W) (prog := prog) (one (p * 4096)) (one_other _) 3 calls (lab := none) rfl
    (cs := [(command "GPAGE", [n p, n p, n p]), (command "GCOLOR", [n 0]), (command "GCLS", []), (command "GPRIO", [n 3])]) hK (by rcases hp with rfl | rfl <;> decide +kernel)
    (.cons (fun _ => rfl) (.cons (fun _ => rfl) (.cons (fun _ => rfl) (.cons (fun _ => rfl) .nil)))) x
  have t4 := fun x => Then.next (W := W) (prog := prog) (one (p * 4096)) (one_other _) 4 calls (lab := none) rfl
    (cs := [(command "BGPAGE", [n p]), (command "BGOFS", [n 0, n 0, n 0]), (command "BGOFS", [n 1, n 0, n 0])]) hK (by rcases hp with rfl | rfl <;> decide +kernel)
    (.cons (fun _ => rfl) (.cons (fun _ => rfl) (.cons (fun _ => rfl) .nil))) x
  have t5 := fun x => Then.next (W := W) (prog := prog) (one (p * 4096)) (one_other _) 5 calls (lab := none) rfl
    (cs := [(command "BGCLR", []), (command "BGCLIP", [n 0, n 0, n 31, n 23])]) hK (by rcases hp with rfl | rfl <;> decide +kernel)
    (.cons (fun _ => rfl) (.cons (fun _ => rfl) .nil)) x
  have t6 := fun x => Then.next (W := W) (prog := prog) (one (p * 4096)) (one_other _) 6 calls (lab := none) rfl
    (cs := [(command "SPPAGE", [n p]), (command "SPCLR", [])]) hK (by rcases hp with rfl | rfl <;> decide +kernel)
    (.cons (fun _ => rfl) (.cons (fun _ => rfl) .nil)) x
  have t7 := fun x => Then.next (W := W) (prog := prog) (one (p * 4096)) (one_other _) 7 calls (lab := none) rfl
    (cs := [(command "COLINIT", [.str (chars "BG")]), (command "COLINIT", [.str (chars "SP")])]) hK (by rcases hp with rfl | rfl <;> decide +kernel)
    (.cons (fun _ => rfl) (.cons (fun _ => rfl) .nil)) x
  have t8 := fun x => Then.next (W := W) (prog := prog) (one (p * 4096)) (one_other _) 8 calls (lab := none) rfl
    (cs := [(command "COLINIT", [.str (chars "GRP")])]) hK (by rcases hp with rfl | rfl <;> decide +kernel)
    (.cons (fun _ => rfl) .nil) x
  exact (((((t3 x).trans t4).trans t5).trans t6).trans t7).trans t8

/-- Before the loop. -/
theorem front (hK : Known W) (hF : ∀ x, (W.look x).sys 1 = .ok (.num 0)) (calls : List Pending) (x : σ) :
    Then W prog ⟨⟨[], none⟩, 0, .empty, calls, x, 0⟩ (performAll W
      [(command "VISIBLE", [n 1, n 1, n 1, n 1, n 1, n 1]), (command "ICONCLR", []), (command "COLOR", [n 0, n 0]), (command "CLS", []),
       (command "GDRAWMD", [n 0])] x) (fun y => ⟨⟨[], none⟩, 2, .empty, calls, y, 0⟩) := by
  have t0 := fun x => Then.next (W := W) (prog := prog) .empty bare_empty 0 calls (lab := none) rfl
    (cs := [(command "VISIBLE", [n 1, n 1, n 1, n 1, n 1, n 1]), (command "ICONCLR", [])]) hK (by decide +kernel)
    (.cons (fun _ => rfl) (.cons (fun _ => rfl) .nil)) x
  have t1 := fun x => Then.next (W := W) (prog := prog) .empty bare_empty 1 calls (lab := none) rfl
    (cs := [(command "COLOR", [n 0, n 0]), (command "CLS", []), (command "GDRAWMD", [n 0])]) hK (by decide +kernel)
    (.cons (fun _ => rfl) (.cons (fun _ => rfl) (.cons (fun x => by
      show Out.bind (argValues (W.look x) .empty [.sys 1]) _ = _
      show Out.bind (Out.bind ((W.look x).sys 1) _) _ = _
      rw [hF]
      rfl) .nil))) x
  exact (t0 x).trans t1

/-- The whole program. -/
theorem meaning (hK : Known W) (hF : ∀ x, (W.look x).sys 1 = .ok (.num 0)) (calls : List Pending) (hc : calls.length ≤ 254) (x : σ) :
    Then W prog ⟨⟨[], none⟩, 0, .empty, calls, x, 0⟩ (performAll W commands x) (fun y => ⟨⟨[], none⟩, 10, one (-4096), calls, y, 0⟩) := by
  have h := (((((front hK hF calls x).trans fun y => for_line calls hc y).trans fun y => body hK 1 (.inr rfl) (loop :: calls) y).trans
    fun y => next_on calls y).trans fun y => body hK 0 (.inl rfl) (loop :: calls) y).trans fun y => next_past calls y
  simpa [commands] using h

/-- With no room on the call stack the loop is an error. -/
theorem meaning_full (hK : Known W) (hF : ∀ x, (W.look x).sys 1 = .ok (.num 0)) (calls : List Pending) (hc : calls.length = 255) (x : σ)
    (h0 : (performAll W (commands.take 5) x).2 = 0) :
    ∃ j, Source.steps W prog j ⟨⟨[], none⟩, 0, .empty, calls, x, 0⟩ = .done 42 .empty (performAll W (commands.take 5) x).1 := by
  obtain ⟨j, st, _, h⟩ := front hK hF calls x
  have h0' := h0
  have e : commands.take 5 = [(command "VISIBLE", [n 1, n 1, n 1, n 1, n 1, n 1]), (command "ICONCLR", []), (command "COLOR", [n 0, n 0]),
    (command "CLS", []), (command "GDRAWMD", [n 0])] := rfl
  rw [e] at h0 ⊢
  rw [if_pos h0] at h
  exact ⟨j + 2, by rw [steps_trans j 2 _ _ h]; exact for_full calls hc _⟩

/-! ### The theorems -/

theorem entered {C : Nat → Prop} (K : List Call) (core : Core σ) {code : List Nat} (hc : code = encode (progCode prog)) (L : Labels.Table) :
    Match prog [[80]] C L (beginWithin K .empty core.ext) (enter code L K core) :=
  within_match (core := { core with vars := Vars.init 4 false, varsErr := 0 }) K hc prog_wf (holds_fresh _ 2 false rfl (by decide) (.inl rfl))

/-- **C101.** ACLS stands for a sequence of commands (`Spec/Acls`).  Its program compiles; run from within any program, with any variables
and up to 254 subroutines and loops under way, it performs these commands with these values, up to the first error.  If there is none then
afterwards the variables and the call stack of the program are as before. -/
theorem C101_acls (env : Env σ) (W : World σ) (pre : Tk) (v : Vars.Table) (core : Core σ) (K : List Call) (hK : K.length ≤ 254)
    (hperf : Performs env W (Uses prog)) (hknown : Known W) (hF : ∀ x, (W.look x).sys 1 = .ok (.num 0)) :
    ∃ o', tokenize plainOpts pre (programText source) (obj v) = .ok (o', none) ∧
      ∃ m, Reaches env (enter o'.buf o'.labels K core) m ∧ Halted m ∧
        m.core.error = (performAll W commands core.ext).2 ∧ m.core.ext = (performAll W commands core.ext).1 ∧
        ((performAll W commands core.ext).2 = 0 →
          (leave core m).2 = K ∧ (leave core m).1.ext = (performAll W commands core.ext).1 ∧ (leave core m).1.error = 0 ∧ (leave core m).1.stack = [] ∧
          (leave core m).1.vars = core.vars ∧ (leave core m).1.varsErr = core.varsErr ∧
          ∀ i, (leave core m).1.mem (.slot i) = core.mem (.slot i) ∧ (leave core m).1.smem (.slot i) = core.smem (.slot i)) := by
  refine ⟨_, compiles pre v, ?_⟩
  dsimp only
  have hm := entered (C := Uses prog) K core rfl (Labels.reset (Labels.init 0))
  have hfit := fits_all prog_wf prog_vars
  obtain ⟨j, st, _, hj⟩ := meaning hknown hF (K.map .outer) (by rw [List.length_map]; exact hK) core.ext
  by_cases h0 : (performAll W commands core.ext).2 = 0
  · rw [if_pos h0] at hj
    obtain ⟨m1, r1, hm1⟩ := sim_run hperf knows hfit small j _ _ _ hm hj
    obtain ⟨m, r, hh, he, hx, hc⟩ := end_calls (env := env) prog_wf (by decide) hm1
    refine ⟨m, r1.trans r, hh, by rw [he, h0], hx, fun _ => ?_⟩
    unfold leave
    rw [if_neg (by simp [he])]
    exact ⟨hc, hx, he, rfl, rfl, rfl, fun i => ⟨rfl, rfl⟩⟩
  · rw [if_neg h0] at hj
    obtain ⟨m, r, hh, he, _, hx⟩ := sim_done hperf knows hfit small j _ _ _ _ _ hm hj
    exact ⟨m, r, hh, he, hx, fun h => absurd h h0⟩

/-- **C101** (violation). When one of the commands reports an error, the variables of the program are lost: every number but `P` is 0, and every string is empty. -/
theorem C101_error_violated (env : Env σ) (W : World σ) (pre : Tk) (v : Vars.Table) (core : Core σ) (K : List Call) (hK : K.length ≤ 254)
    (hperf : Performs env W (Uses prog)) (hknown : Known W) (hF : ∀ x, (W.look x).sys 1 = .ok (.num 0)) (herr : (performAll W commands core.ext).2 ≠ 0) :
    ∃ o', tokenize plainOpts pre (programText source) (obj v) = .ok (o', none) ∧
      ∃ m, Reaches env (enter o'.buf o'.labels K core) m ∧ Halted m ∧
        ∃ st, (∀ z, z ≠ chars "P" → st.num z = 0) ∧ (∀ z, st.str z = []) ∧ Shows [chars "P"] (leave core m).1 st := by
  refine ⟨_, compiles pre v, ?_⟩
  dsimp only
  have hm := entered (C := Uses prog) K core rfl (Labels.reset (Labels.init 0))
  obtain ⟨j, st, hst, hj⟩ := meaning hknown hF (K.map .outer) (by rw [List.length_map]; exact hK) core.ext
  rw [if_neg herr] at hj
  obtain ⟨m, r, hh, he, hs, hx⟩ := sim_done hperf knows (fits_all prog_wf prog_vars) small j _ _ _ _ _ hm hj
  refine ⟨m, r, hh, st, hst.1, hst.2, ?_⟩
  have e : leave core m = ({ m.core with stack := [] }, m.calls) := if_pos (by rw [he]; exact herr)
  rw [e]
  exact (Holds.congr (c' := { m.core with stack := [] }) hs rfl rfl rfl).shows

/-- **C101** (violation). The same happens when 255 subroutines or loops are under way: ACLS needs one more, and ends with error 42. -/
theorem C101_deep_violated (env : Env σ) (W : World σ) (pre : Tk) (v : Vars.Table) (core : Core σ) (K : List Call) (hK : K.length = 255)
    (hperf : Performs env W (Uses prog)) (hknown : Known W) (hF : ∀ x, (W.look x).sys 1 = .ok (.num 0)) (h0 : (performAll W (commands.take 5) core.ext).2 = 0) :
    ∃ o', tokenize plainOpts pre (programText source) (obj v) = .ok (o', none) ∧
      ∃ m, Reaches env (enter o'.buf o'.labels K core) m ∧ Halted m ∧ m.core.error = 42 ∧
        m.core.ext = (performAll W (commands.take 5) core.ext).1 ∧ Shows [chars "P"] (leave core m).1 .empty := by
  refine ⟨_, compiles pre v, ?_⟩
  dsimp only
  have hm := entered (C := Uses prog) K core rfl (Labels.reset (Labels.init 0))
  obtain ⟨j, hj⟩ := meaning_full hknown hF (K.map .outer) (by rw [List.length_map]; exact hK) core.ext h0
  obtain ⟨m, r, hh, he, hs, hx⟩ := sim_done hperf knows (fits_all prog_wf prog_vars) small j _ _ _ _ _ hm hj
  refine ⟨m, r, hh, he, hx, ?_⟩
  have e : leave core m = ({ m.core with stack := [] }, m.calls) := if_pos (by rw [he]; decide)
  rw [e]
  exact (Holds.congr (c' := { m.core with stack := [] }) hs rfl rfl rfl).shows

/-! ### The hypotheses are met -/

example : Performs recorder record (Uses prog) := recorder_performs _
example : Known record := fun _ _ _ => rfl
example : ∀ x, (record.look x).sys 1 = .ok (.num 0) := fun _ => rfl

/-- The 33 commands are recorded, none fails. -/
example : performAll record commands [] = (commands, 0) := by decide +kernel

/-- The commands mean what they should. -/
example : (commands.map Prod.fst).take 6 = [19, 70, 2, 18, 62, 65] := by decide +kernel

/-- A system in which every command reports BREAK. -/
def broken : Env (List (Nat × List Val)) where
  other := fun op d argc c => (recorder.other op d argc c).bind fun c' => .ok (if op = bcCommand then { c' with error := 53 } else c')

/-- What it does. -/
def breaks : World (List (Nat × List Val)) where
  perform := fun d vs w => (w ++ [(d, vs)], 53)
  look := recordLook

theorem broken_performs (C : Nat → Prop) : Performs broken breaks C where
  commands := by
    intro d hd c vs he hv hk
    obtain ⟨s, hs⟩ := (recorder_performs C).commands d hd c vs he hv hk
    refine ⟨s, ?_⟩
    unfold broken
    dsimp only
    rw [hs]
    rfl
  functions := by
    intro f c rest args vs he hr hs hv
    have h := (recorder_performs C).functions f c rest args vs he hr hs hv
    have e : broken.other bcFunction f vs.length c = recorder.other bcFunction f vs.length c := by
      unfold broken
      dsimp only
      cases recorder.other bcFunction f vs.length c <;> rfl
    rw [e]
    exact h
  sysvars := by
    intro v c he hr
    have h := (recorder_performs C).sysvars v c he hr
    have e : broken.other bcSysvar v 0 c = recorder.other bcSysvar v 0 c := by
      unfold broken
      dsimp only
      cases recorder.other bcSysvar v 0 c <;> rfl
    rw [e]
    exact h
  operators := by
    intro op c rest a b x y he hr hs ha hb
    have h := (recorder_performs C).operators op c rest a b x y he hr hs ha hb
    have e : broken.other bcOperator op 0 c = recorder.other bcOperator op 0 c := by
      unfold broken
      dsimp only
      cases recorder.other bcOperator op 0 c <;> rfl
    rw [e]
    exact h
  assign := by
    intro c rest p b s he hs hb
    have h := (recorder_performs C).assign c rest p b s he hs hb
    unfold broken
    dsimp only
    rw [h]
    rfl

example : (performAll breaks commands []).2 ≠ 0 := by decide +kernel

/-- A program with `A` = 5: this value is found before, but after a failed ACLS it is 0. -/
def before : Core (List (Nat × List Val)) :=
  { recorderCore with vars := (Vars.getVar (Vars.init 4 true) [65] .num).1, mem := fun _ => 20480 }

example : (match before.lookup [65] .num with | .ok (c', some i) => some (c'.mem (.slot i)) | _ => none) = some 20480 := by decide +kernel

example : ∃ m : Mach (List (Nat × List Val)), Halted m ∧
    (match (leave before m).1.lookup [65] .num with | .ok (c', some i) => c'.mem (.slot i) = 0 | .ok (_, none) => True | _ => False) := by
  obtain ⟨_, _, m, _, hh, st, hst, _, hs⟩ := C101_error_violated broken breaks preTok (Vars.init 4 false) before [] (by decide) (broken_performs _)
    (fun _ _ _ => rfl) (fun _ => rfl) (by decide +kernel)
  refine ⟨m, hh, ?_⟩
  have := (hs.2 [65] (by decide)).1 (by decide)
  cases hl : (leave before m).1.lookup [65] .num with
  | ok r =>
    obtain ⟨c', i⟩ := r
    rw [hl] at this
    cases i with
    | none => trivial
    | some i => exact this.trans (hst _ (by decide))
  | err e => rw [hl] at this; exact this
  | ub => rw [hl] at this; exact this

end Sbc.Acls
