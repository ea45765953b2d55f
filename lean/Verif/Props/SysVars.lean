import Verif.Model.SysVars
import Verif.Spec.Flow
import Verif.Model.Test
set_option autoImplicit false
/-!
# C63, C71: system variables
-/
namespace Sbc.Sys
open Sbc

/-! ## C63 -/

/-- System variables documented as writable: TABSTEP, ICONPUSE, ICONPAGE, ICONPMAX, MEM$, MEMSAFE. -/
def writable : List Nat := [19, 26, 27, 28, 31, 32]

/-- C63 (what holds): exactly the writable system variables hand out a pointer to storage, in every state; all others give a
value only, so that nothing can be stored *into* them. -/
theorem C63_pointers_partial (s : Sys) (id : Nat) :
    ((∃ c, read s id = .cell c) ∨ read s id = .memCell) ↔ id ∈ writable := by
  constructor
  · intro h
    unfold read at h
    split at h <;> first | (simp [writable]; done) | (rcases h with ⟨c, h⟩ | h <;> cases h)
  · intro h
    simp only [writable, List.mem_cons, List.not_mem_nil, or_false] at h
    rcases h with rfl | rfl | rfl | rfl | rfl | rfl
    · exact Or.inl ⟨_, rfl⟩
    · exact Or.inl ⟨_, rfl⟩
    · exact Or.inl ⟨_, rfl⟩
    · exact Or.inl ⟨_, rfl⟩
    · exact Or.inr rfl
    · exact Or.inl ⟨_, rfl⟩

/-- Different writable variables are stored in different places. -/
theorem C63_cells_distinct (s : Sys) (i j : Nat) (c : Cell) (h1 : read s i = .cell c) (h2 : read s j = .cell c) : i = j := by
  have aux : ∀ k, read s k = .cell c → k = c.id := by
    intro k h
    unfold read at h
    split at h <;> first | (cases h; done) | (cases h; rfl)
  rw [aux i h1, aux j h2]

/-- No line changes the constants. -/
theorem C63_constants (s : Sys) (used : List Cell) (l : List (Cell × Int)) :
    read (runLine s used l) 0 = .num 4096 ∧ read (runLine s used l) 1 = .num 0 ∧ read (runLine s used l) 2 = .num (-4096) ∧
      read (runLine s used l) 3 = .num (0x2020 * 4096) := ⟨rfl, rfl, rfl, by show Pushed.num (intToFp 0x2020) = _; decide⟩

/-- A newline token. -/
def nl : Tok.Tk := ⟨.newline, [], 0, 0⟩

/-- C63 is violated: a statement `X = 5` passes the checks of the compiler for **every** numeric system variable, and
its instructions are those of an ordinary assignment. -/
theorem C63_accepted_violated : ∀ id < 33, id ∉ [4, 5, 10, 11, 31] →
    (Tok.tokEval (Tok.tokPrio nl [⟨.sysvar, [], id, 0⟩, ⟨.operation, [], Tok.opAssign, 0⟩, ⟨.number, [53], 0, 0⟩, nl])).bind (fun ks =>
      (Tok.tokTest ks).bind fun e => (Tok.tokCode true ks [] (Vars.init 4 true)).bind fun r => .ok (e, r.1.take 6)) =
    .ok (0, [Tok.bcSysvar, id, Tok.bcSmallNumber, 5, Tok.bcOperator, Tok.opAssign]) := by decide +kernel

/-- … and executing the assignment for a variable that pushes a value uses the value as an address: undefined
behaviour, whatever the state and the rest of the system. -/
theorem C63_store_violated {σ : Type} (env : Machine.Env σ) (argc : Nat) (c : Machine.Core σ) (stk : List Machine.Entry) (v w : Int)
    (h : c.stack = stk ++ [.num v, .num w]) : Machine.execOp env Tok.opAssign argc c = .ub := by
  have hr : c.stack.reverse = .num w :: .num v :: stk.reverse := by rw [h]; simp
  unfold Machine.execOp
  rw [if_neg (by decide), if_neg (by decide), if_neg (by decide), hr]
  rfl

/-! ## C71 -/

/-- The line mentions the variable. -/
def Mentions (used : List Cell) (l : List (Cell × Int)) (c : Cell) : Prop := c ∈ used ∨ c ∈ l.map Prod.fst

instance (used : List Cell) (l : List (Cell × Int)) (c : Cell) : Decidable (Mentions used l c) := by
  unfold Mentions; infer_instance

/-- The value a line leaves in a variable before validation: the last one assigned. -/
def lastValue (v : Int) (c : Cell) : List (Cell × Int) → Int
  | [] => v
  | a :: l => lastValue (if a.1 = c then a.2 else v) c l

theorem lastValue_none (v : Int) (c : Cell) (l : List (Cell × Int)) (h : c ∉ l.map Prod.fst) : lastValue v c l = v := by
  induction l generalizing v with
  | nil => rfl
  | cons a l ih =>
    simp only [List.map_cons, List.mem_cons, not_or] at h
    unfold lastValue
    rw [if_neg (fun e => h.1 e.symm)]
    exact ih v h.2

@[simp] theorem set_same (s : Sys) (c : Cell) (x : Int) : (s.set c x).cells c = x := if_pos rfl

theorem assigned_cells (l : List (Cell × Int)) (s : Sys) :
    (l.foldl (fun s a => s.set a.1 a.2) s).cells = (fun c => lastValue (s.cells c) c l) ∧
    (l.foldl (fun s a => s.set a.1 a.2) s).tabstep = s.tabstep ∧ (l.foldl (fun s a => s.set a.1 a.2) s).pageKeys = s.pageKeys := by
  induction l generalizing s with
  | nil => exact ⟨rfl, rfl, rfl⟩
  | cons a l ih =>
    rw [List.foldl_cons]
    obtain ⟨h1, h2, h3⟩ := ih (s.set a.1 a.2)
    refine ⟨?_, h2, h3⟩
    rw [h1]
    funext c
    show _ = lastValue (if a.1 = c then a.2 else s.cells c) c l
    congr 1
    show (if c = a.1 then a.2 else s.cells c) = _
    by_cases h : c = a.1
    · rw [if_pos h, if_pos h.symm]
    · rw [if_neg h, if_neg (fun e => h e.symm)]

theorem id_mem (used : List Cell) (l : List (Cell × Int)) (c : Cell) :
    (used.map Cell.id ++ l.map fun a => a.1.id).contains c.id = decide (Mentions used l c) := by
  have inj : ∀ d : Cell, d.id = c.id → d = c := by intro d; cases d <;> cases c <;> decide
  rw [Bool.eq_iff_iff]
  simp only [List.contains_iff_mem, List.mem_append, List.mem_map, decide_eq_true_eq, Mentions]
  constructor
  · rintro (⟨d, h1, h2⟩ | ⟨a, h1, h2⟩)
    · rw [← inj d h2]; exact Or.inl h1
    · exact Or.inr ⟨a, h1, inj _ h2⟩
  · rintro (h | ⟨a, h1, h2⟩)
    · exact Or.inl ⟨c, h, rfl⟩
    · exact Or.inr ⟨a, h1, by rw [h2]⟩

/-- Validation of one variable. -/
def check (used : List Cell) (l : List (Cell × Int)) (c : Cell) (s : Sys) : Sys :=
  if Mentions used l c then validate s c.id else s

theorem order_eq (used : List Cell) (l : List (Cell × Int)) :
    ((List.range 64).filter fun i => (used.map Cell.id ++ l.map fun a => a.1.id).contains i && Tok.needsValidate i) =
      ([19, 26, 27, 28, 32] : List Nat).filter fun i => (used.map Cell.id ++ l.map fun a => a.1.id).contains i := by
  have h : ∀ i ∈ List.range 64, ((used.map Cell.id ++ l.map fun a => a.1.id).contains i && Tok.needsValidate i) =
      ((used.map Cell.id ++ l.map fun a => a.1.id).contains i && decide (i ∈ ([19, 26, 27, 28, 32] : List Nat))) := by
    intro i _
    cases hc : (used.map Cell.id ++ l.map fun a => a.1.id).contains i with
    | false => rfl
    | true =>
      have hm : i ∈ ([19, 26, 27, 28, 32] : List Nat) := by
        simp only [List.contains_iff_mem, List.mem_append, List.mem_map] at hc
        rcases hc with ⟨d, _, rfl⟩ | ⟨a, _, rfl⟩
        · cases d <;> simp [Cell.id]
        · cases a.1 <;> simp [Cell.id]
      rw [decide_eq_true hm]
      simp only [List.mem_cons, List.not_mem_nil, or_false] at hm
      rcases hm with rfl | rfl | rfl | rfl | rfl <;> rfl
  rw [List.filter_congr h, ← List.filter_filter]
  congr 1

/-- The validations of a line, in their order. -/
theorem runLine_eq (s : Sys) (used : List Cell) (l : List (Cell × Int)) :
    runLine s used l = check used l .memsafe (check used l .iconpmax (check used l .iconpage (check used l .iconpuse
      (check used l .tabstep (l.foldl (fun s a => s.set a.1 a.2) s))))) := by
  unfold runLine
  dsimp only
  rw [order_eq]
  have f : ∀ (c : Cell) (r : List Nat) (s : Sys),
      ((c.id :: r).filter fun i => (used.map Cell.id ++ l.map fun a => a.1.id).contains i).foldl validate s =
        (r.filter fun i => (used.map Cell.id ++ l.map fun a => a.1.id).contains i).foldl validate (check used l c s) := by
    intro c r s
    rw [List.filter_cons, id_mem]
    unfold check
    by_cases h : Mentions used l c
    · simp only [h, decide_true, if_true, List.foldl_cons]
    · simp only [h, decide_false, if_false, Bool.false_eq_true]
  show (([Cell.tabstep.id, Cell.iconpuse.id, Cell.iconpage.id, Cell.iconpmax.id, Cell.memsafe.id] : List Nat).filter _).foldl _ _ = _
  rw [f, f, f, f, f]
  rfl

/-- An integer. -/
def Whole (v : Int) : Prop := v % 4096 = 0

instance (v : Int) : Decidable (Whole v) := by unfold Whole; infer_instance

/-- What a program may rely on. -/
structure Good (s : Sys) : Prop where
  tab : 1 ≤ s.tabstep ∧ s.tabstep ≤ 16
  puse : s.cells .iconpuse = 0 ∨ s.cells .iconpuse = 4096
  keys : s.pageKeys = decide (s.cells .iconpuse = 4096)
  pmax : 0 ≤ s.cells .iconpmax ∧ Whole (s.cells .iconpmax)
  page : 0 ≤ s.cells .iconpage ∧ s.cells .iconpage ≤ s.cells .iconpmax ∧ Whole (s.cells .iconpage)
  safe : s.cells .memsafe = 0 ∨ s.cells .memsafe = 4096

/-- The result of a line, variable by variable. -/
theorem C71_effect (s : Sys) (used : List Cell) (l : List (Cell × Int)) (t : Sys) (ht : t = runLine s used l)
    (v : Cell → Int) (hv : v = fun c => lastValue (s.cells c) c l) :
    t.tabstep = (if Mentions used l .tabstep then max 1 (min 16 (v .tabstep / 4096)) else s.tabstep) ∧
    t.cells .tabstep = v .tabstep ∧
    t.cells .iconpuse = (if Mentions used l .iconpuse then (if v .iconpuse = 0 then 0 else 4096) else v .iconpuse) ∧
    t.pageKeys = (if Mentions used l .iconpuse then decide (v .iconpuse ≠ 0) else s.pageKeys) ∧
    t.cells .iconpage = (if Mentions used l .iconpage then
      (if v .iconpage > v .iconpmax then v .iconpmax else if v .iconpage < 0 then 0 else v .iconpage / 4096 * 4096) else v .iconpage) ∧
    t.cells .iconpmax = (if Mentions used l .iconpmax then (if v .iconpmax < 0 then 0 else v .iconpmax / 4096 * 4096) else v .iconpmax) ∧
    t.cells .memsafe = (if Mentions used l .memsafe then (if v .memsafe = 0 then 0 else 4096) else v .memsafe) := by
  rw [runLine_eq] at ht
  obtain ⟨a1, a2, a3⟩ := assigned_cells l s
  rw [← hv] at a1
  generalize l.foldl (fun s a => s.set a.1 a.2) s = s1 at *
  -- tabstep
  obtain ⟨b1, b2, b3⟩ : (check used l .tabstep s1).cells = v ∧
      (check used l .tabstep s1).tabstep = (if Mentions used l .tabstep then max 1 (min 16 (v .tabstep / 4096)) else s.tabstep) ∧
      (check used l .tabstep s1).pageKeys = s.pageKeys := by
    unfold check
    split
    · refine ⟨a1, ?_, a3⟩
      show (if (if fpToInt (s1.cells .tabstep) < 1 then (1 : Int) else fpToInt (s1.cells .tabstep)) > 16 then 16 else _) = _
      rw [a1]
      unfold fpToInt
      split <;> omega
    · exact ⟨a1, a2, a3⟩
  generalize check used l .tabstep s1 = s2 at *
  obtain ⟨c1, c2, c3, c4⟩ : (∀ c, c ≠ .iconpuse → (check used l .iconpuse s2).cells c = v c) ∧
      (check used l .iconpuse s2).tabstep = s2.tabstep ∧
      (check used l .iconpuse s2).cells .iconpuse = (if Mentions used l .iconpuse then (if v .iconpuse = 0 then 0 else 4096) else v .iconpuse) ∧
      (check used l .iconpuse s2).pageKeys = (if Mentions used l .iconpuse then decide (v .iconpuse ≠ 0) else s.pageKeys) := by
    unfold check
    split
    · refine ⟨fun c hc => ?_, rfl, ?_, ?_⟩
      · show (if c = .iconpuse then _ else s2.cells c) = _
        rw [if_neg hc, b1]
      · show (s2.set .iconpuse (if s2.cells .iconpuse ≠ 0 then (4096 : Int) else 0)).cells .iconpuse = _
        rw [set_same, b1]
        by_cases h0 : v .iconpuse = 0 <;> simp [h0]
      · show decide (s2.cells .iconpuse ≠ 0) = _
        rw [b1]
    · exact ⟨fun c _ => by rw [b1], rfl, by rw [b1], b3⟩
  generalize check used l .iconpuse s2 = s3 at *
  obtain ⟨d1, d2, d3, d4⟩ : (∀ c, c ≠ .iconpage → (check used l .iconpage s3).cells c = s3.cells c) ∧
      (check used l .iconpage s3).tabstep = s3.tabstep ∧ (check used l .iconpage s3).pageKeys = s3.pageKeys ∧
      (check used l .iconpage s3).cells .iconpage = (if Mentions used l .iconpage then
        (if v .iconpage > v .iconpmax then v .iconpmax else if v .iconpage < 0 then 0 else v .iconpage / 4096 * 4096) else v .iconpage) := by
    have e1 := c1 .iconpage (by decide); have e2 := c1 .iconpmax (by decide)
    unfold check
    split
    · show (∀ c, c ≠ .iconpage → (chkIconpage s3).cells c = s3.cells c) ∧ _ ∧ _ ∧ (chkIconpage s3).cells .iconpage = _
      unfold chkIconpage
      rw [e1, e2]
      have g : ∀ x, (∀ c, c ≠ Cell.iconpage → (s3.set .iconpage x).cells c = s3.cells c) := by
        intro x c hc
        show (if c = .iconpage then x else s3.cells c) = _
        rw [if_neg hc]
      refine ⟨?_, ?_, ?_, ?_⟩
      · split
        · exact g _
        · split <;> exact g _
      · show Sys.tabstep (chkIconpage s3) = _
        unfold chkIconpage; split
        · rfl
        · split <;> rfl
      · show Sys.pageKeys (chkIconpage s3) = _
        unfold chkIconpage; split
        · rfl
        · split <;> rfl
      · split
        · exact set_same _ _ _
        · split <;> exact set_same _ _ _
    · exact ⟨fun _ _ => rfl, rfl, rfl, e1⟩
  generalize check used l .iconpage s3 = s4 at *
  obtain ⟨f1, f2, f3, f4⟩ : (∀ c, c ≠ .iconpmax → (check used l .iconpmax s4).cells c = s4.cells c) ∧
      (check used l .iconpmax s4).tabstep = s4.tabstep ∧ (check used l .iconpmax s4).pageKeys = s4.pageKeys ∧
      (check used l .iconpmax s4).cells .iconpmax = (if Mentions used l .iconpmax then (if v .iconpmax < 0 then 0 else v .iconpmax / 4096 * 4096) else v .iconpmax) := by
    have e2 : s4.cells .iconpmax = v .iconpmax := by rw [d1 _ (by decide), c1 _ (by decide)]
    have g : ∀ x, (∀ c, c ≠ Cell.iconpmax → (s4.set .iconpmax x).cells c = s4.cells c) := by
      intro x c hc
      show (if c = .iconpmax then x else s4.cells c) = _
      rw [if_neg hc]
    unfold check
    split
    · show (∀ c, c ≠ .iconpmax → (chkIconpmax s4).cells c = s4.cells c) ∧ (chkIconpmax s4).tabstep = _ ∧ (chkIconpmax s4).pageKeys = _ ∧ (chkIconpmax s4).cells .iconpmax = _
      unfold chkIconpmax
      rw [e2]
      split
      · exact ⟨g _, rfl, rfl, set_same _ _ _⟩
      · exact ⟨g _, rfl, rfl, set_same _ _ _⟩
    · exact ⟨fun _ _ => rfl, rfl, rfl, e2⟩
  generalize check used l .iconpmax s4 = s5 at *
  obtain ⟨h1, h2, h3, h4⟩ : (∀ c, c ≠ .memsafe → (check used l .memsafe s5).cells c = s5.cells c) ∧
      (check used l .memsafe s5).tabstep = s5.tabstep ∧ (check used l .memsafe s5).pageKeys = s5.pageKeys ∧
      (check used l .memsafe s5).cells .memsafe = (if Mentions used l .memsafe then (if v .memsafe = 0 then 0 else 4096) else v .memsafe) := by
    have e2 : s5.cells .memsafe = v .memsafe := by rw [f1 _ (by decide), d1 _ (by decide), c1 _ (by decide)]
    unfold check
    split
    · refine ⟨fun c hc => ?_, rfl, rfl, ?_⟩
      · show (if c = .memsafe then _ else s5.cells c) = _
        rw [if_neg hc]
      · show (s5.set .memsafe (if s5.cells .memsafe ≠ 0 then (4096 : Int) else 0)).cells .memsafe = _
        rw [set_same, e2]
        by_cases h0 : v .memsafe = 0 <;> simp [h0]
    · exact ⟨fun _ _ => rfl, rfl, rfl, e2⟩
  subst ht
  refine ⟨?_, ?_, ?_, ?_, ?_, ?_, h4⟩
  · rw [h2, f2, d2, c2, b2]
  · rw [h1 _ (by decide), f1 _ (by decide), d1 _ (by decide), c1 _ (by decide)]
  · rw [h1 _ (by decide), f1 _ (by decide), d1 _ (by decide), c3]
  · rw [h3, f3, d3, c4]
  · rw [h1 _ (by decide), f1 _ (by decide), d4]
  · rw [h1 _ (by decide), f4]

/-- C71 (what holds): a completed line leaves all checked variables in range, provided a line that assigns ICONPMAX assigns a
value that is itself valid and mentions ICONPAGE as well. -/
theorem C71_valid_partial (s : Sys) (hs : Good s) (used : List Cell) (l : List (Cell × Int))
    (hmax : Cell.iconpmax ∈ l.map Prod.fst →
      0 ≤ lastValue 0 .iconpmax l ∧ Whole (lastValue 0 .iconpmax l) ∧ Mentions used l .iconpage) : Good (runLine s used l) := by
  obtain ⟨t1, t2, t3, t4, t5, t6, t7⟩ := C71_effect s used l _ rfl _ rfl
  have unm : ∀ c, ¬ Mentions used l c → lastValue (s.cells c) c l = s.cells c := fun c h =>
    lastValue_none _ _ _ (fun hc => h (Or.inr hc))
  have hM : 0 ≤ lastValue (s.cells .iconpmax) .iconpmax l ∧ Whole (lastValue (s.cells .iconpmax) .iconpmax l) := by
    by_cases h : Cell.iconpmax ∈ l.map Prod.fst
    · have hx : ∀ (l : List (Cell × Int)) (a b : Int), Cell.iconpmax ∈ l.map Prod.fst → lastValue a .iconpmax l = lastValue b .iconpmax l := by
        intro l
        induction l with
        | nil => intro a b h; cases h
        | cons x l ih =>
          intro a b h
          unfold lastValue
          by_cases hx : x.1 = .iconpmax
          · rw [if_pos hx, if_pos hx]
          · rw [if_neg hx, if_neg hx]
            simp only [List.map_cons, List.mem_cons] at h
            rcases h with h | h
            · exact absurd h.symm hx
            · exact ih a b h
      rw [hx l _ 0 h]
      exact ⟨(hmax h).1, (hmax h).2.1⟩
    · rw [lastValue_none _ _ _ h]; exact hs.pmax
  have hmaxEq : (runLine s used l).cells .iconpmax = lastValue (s.cells .iconpmax) .iconpmax l := by
    rw [t6]
    unfold Whole at hM
    split
    · rw [if_neg (by omega)]; omega
    · rfl
  refine ⟨?_, ?_, ?_, ?_, ?_, ?_⟩
  · rw [t1]
    split
    · omega
    · exact hs.tab
  · rw [t3]
    split
    · split <;> simp
    · rename_i h; rw [unm _ h]; exact hs.puse
  · rw [t4, t3]
    split
    · split <;> rename_i h <;> simp [h]
    · rename_i h; rw [unm _ h]; exact hs.keys
  · rw [hmaxEq]; exact hM
  · rw [hmaxEq, t5]
    unfold Whole at *
    split
    · split
      · exact ⟨hM.1, Int.le_refl _, hM.2⟩
      · split
        · exact ⟨by omega, hM.1, rfl⟩
        · refine ⟨by omega, by omega, by omega⟩
    · rename_i h
      rw [unm _ h]
      have hnot : Cell.iconpmax ∉ l.map Prod.fst := fun hc => h (hmax hc).2.2
      rw [lastValue_none _ _ _ hnot]
      exact hs.page
  · rw [t7]
    split
    · split <;> simp
    · rename_i h; rw [unm _ h]; exact hs.safe

/-- The page buttons keep the page in range. -/
theorem C71_buttons (s : Sys) (hs : Good s) (up : Bool) : Good (pageButton s up) := by
  obtain ⟨h1, h2, h3, h4, h5, h6⟩ := hs
  unfold Whole at *
  cases up with
  | true =>
    refine ⟨h1, h2, h3, h4, ?_, h6⟩
    show 0 ≤ s.cells .iconpage + (if s.cells .iconpage < s.cells .iconpmax then 4096 else 0) ∧
      s.cells .iconpage + (if s.cells .iconpage < s.cells .iconpmax then 4096 else 0) ≤ s.cells .iconpmax ∧
      (s.cells .iconpage + (if s.cells .iconpage < s.cells .iconpmax then 4096 else 0)) % 4096 = 0
    split <;> omega
  | false =>
    refine ⟨h1, h2, h3, h4, ?_, h6⟩
    show 0 ≤ s.cells .iconpage - (if s.cells .iconpage > 0 then 4096 else 0) ∧
      s.cells .iconpage - (if s.cells .iconpage > 0 then 4096 else 0) ≤ s.cells .iconpmax ∧
      (s.cells .iconpage - (if s.cells .iconpage > 0 then 4096 else 0)) % 4096 = 0
    split <;> omega

/-- C71: a valid value is kept. -/
theorem C71_keeps (s : Sys) (c : Cell) (x : Int)
    (h : match c with
      | .tabstep => Whole x ∧ 4096 ≤ x ∧ x ≤ 16 * 4096
      | .iconpuse | .memsafe => x = 0 ∨ x = 4096
      | .iconpmax => Whole x ∧ 0 ≤ x
      | .iconpage => Whole x ∧ 0 ≤ x ∧ x ≤ s.cells .iconpmax) :
    (runLine s [] [(c, x)]).cells c = x ∧ (∀ d, d ≠ c → (runLine s [] [(c, x)]).cells d = s.cells d) ∧
    (c = .tabstep → (runLine s [] [(c, x)]).tabstep * 4096 = x) := by
  obtain ⟨t1, t2, t3, t4, t5, t6, t7⟩ := C71_effect s [] [(c, x)] _ rfl _ rfl
  unfold Whole at h
  cases c with
  | tabstep =>
    simp [Mentions, lastValue] at *
    refine ⟨t2, fun d hd => ?_, by omega⟩
    cases d <;> first | exact absurd rfl hd | assumption
  | iconpuse =>
    simp [Mentions, lastValue] at *
    refine ⟨by rw [t3]; split <;> omega, fun d hd => ?_⟩
    cases d <;> first | exact absurd rfl hd | assumption
  | iconpage =>
    simp [Mentions, lastValue] at *
    refine ⟨by rw [t5, if_neg (by omega), if_neg (by omega)]; omega, fun d hd => ?_⟩
    cases d <;> first | exact absurd rfl hd | assumption
  | iconpmax =>
    simp [Mentions, lastValue] at *
    refine ⟨by rw [t6, if_neg (by omega)]; omega, fun d hd => ?_⟩
    cases d <;> first | exact absurd rfl hd | assumption
  | memsafe =>
    simp [Mentions, lastValue] at *
    refine ⟨by rw [t7]; split <;> omega, fun d hd => ?_⟩
    cases d <;> first | exact absurd rfl hd | assumption

/-- A system just started. -/
def fresh : Sys :=
  ⟨0, ⟨2024, 1, 31, 23, 59, 58⟩, 16, 0, 4096, 0, 4, [], [48], 0, 0, 0, 0, 0, 0, 0, 0, 0,
    fun c => match c with | .tabstep => 4 * 4096 | .memsafe => 4096 | _ => 0, 4, false⟩

example : Good fresh := ⟨by decide, by decide, by decide, by decide +kernel, by decide +kernel, by decide⟩

/-- A line meeting the conditions of `C71_valid_partial`, with a nontrivial effect. -/
example : (runLine fresh [] [(.iconpmax, 3 * 4096), (.iconpage, 9 * 4096), (.tabstep, 99 * 4096)]).cells .iconpage = 3 * 4096 ∧
    (runLine fresh [] [(.iconpmax, 3 * 4096), (.iconpage, 9 * 4096), (.tabstep, 99 * 4096)]).tabstep = 16 := by decide +kernel

/-- C71 is violated: (1) `ICONPMAX=-1:ICONPAGE=5` leaves ICONPAGE −1, outside 0..ICONPMAX; (2) `ICONPMAX=1.5:ICONPAGE=5` leaves
ICONPAGE 1.5; (3) lowering ICONPMAX alone leaves ICONPAGE above it; (4) `TABSTEP=99` can be read back as 99 although the
width in effect is 16. -/
theorem C71_violated :
    (runLine fresh [] [(.iconpmax, -4096), (.iconpage, 5 * 4096)]).cells .iconpage = -4096 ∧
    (runLine fresh [] [(.iconpmax, 6144), (.iconpage, 5 * 4096)]).cells .iconpage = 6144 ∧
    (let s := runLine fresh [] [(.iconpmax, 3 * 4096), (.iconpage, 3 * 4096)]
     (runLine s [] [(.iconpmax, 4096)]).cells .iconpage = 3 * 4096 ∧ (runLine s [] [(.iconpmax, 4096)]).cells .iconpmax = 4096) ∧
    (runLine fresh [] [(.tabstep, 99 * 4096)]).cells .tabstep = 99 * 4096 ∧ (runLine fresh [] [(.tabstep, 99 * 4096)]).tabstep = 16 := by
  decide +kernel

end Sbc.Sys
