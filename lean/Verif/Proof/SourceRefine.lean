import Verif.Spec.SourceMachine
set_option autoImplicit false
/-!
# Programs in two worlds, of which one describes the other
-/
namespace Sbc.Source
open Sbc Sbc.Tok Sbc.Machine

variable {σ α : Type}

/-- What the world `A` says of its states is true of the states of `W` related to them by `R`. -/
structure Describes (A : World α) (W : World σ) (R : σ → α → Prop) : Prop where
  commands : ∀ d vs x a, R x a → A.known d vs a = true →
    W.known d vs x = true ∧ (W.perform d vs x).2 = (A.perform d vs a).2 ∧ R (W.perform d vs x).1 (A.perform d vs a).1
  functions : ∀ f vs x a, R x a → (A.look a).fn f vs ≠ .ub → (W.look x).fn f vs = (A.look a).fn f vs
  sysvars : ∀ v x a, R x a → (A.look a).sys v ≠ .ub → (W.look x).sys v = (A.look a).sys v

/-- Configurations with the same rest of the program. -/
def Cfg.Like (R : σ → α → Prop) (c : Cfg σ) (b : Cfg α) : Prop :=
  c.todo = b.todo ∧ c.next = b.next ∧ c.store = b.store ∧ c.calls = b.calls ∧ R c.world b.world ∧ c.data = b.data

/-- Outcomes alike; nothing is said where the second has no meaning. -/
def Res.Like (R : σ → α → Prop) : Res σ → Res α → Prop
  | .run c, .run b => c.Like R b
  | .done e st x, .done e' st' a => e = e' ∧ st = st' ∧ R x a
  | _, .undefined => True
  | _, _ => False

/-- A value that agrees with a described one. -/
def Meets {β : Type} (v u : Out β) : Prop := u ≠ .ub → v = u

theorem Meets.refl {β : Type} (v : Out β) : Meets v v := fun _ => rfl

theorem Meets.bind {β γ : Type} {v u : Out β} (h : Meets v u) {f g : β → Out γ} (hf : ∀ x, Meets (f x) (g x)) :
    Meets (v.bind f) (u.bind g) := by
  intro hu
  cases u with
  | ok x => rw [h (by simp)]; exact hf x hu
  | err e => rw [h (by simp)]; rfl
  | ub => exact absurd rfl hu

variable {A : World α} {W : World σ} {R : σ → α → Prop} {prog : List Line}

theorem value_meets (hd : Describes A W R) {x : σ} {a : α} (h : R x a) (st : Store) :
    (e : E) → Meets (e.value (W.look x) st) (e.value (A.look a) st)
  | .num _ => Meets.refl _
  | .str _ => Meets.refl _
  | .var _ => Meets.refl _
  | .un _ e => (value_meets hd h st e).bind fun _ => Meets.refl _
  | .bin _ l r => (value_meets hd h st l).bind fun _ => (value_meets hd h st r).bind fun _ => Meets.refl _
  | .paren e => value_meets hd h st e
  | .sys v => hd.sysvars v x a h
  | .fn0 f => hd.functions f [] x a h
  | .fn1 f e => (value_meets hd h st e).bind fun v => hd.functions f [v] x a h
  | .fn2 f e e' => (value_meets hd h st e).bind fun v => (value_meets hd h st e').bind fun w => hd.functions f [v, w] x a h
  | .fn3 f e e' e'' => (value_meets hd h st e).bind fun v => (value_meets hd h st e').bind fun w => (value_meets hd h st e'').bind fun u =>
      hd.functions f [v, w, u] x a h
  | .arr1 _ _ e => (value_meets hd h st e).bind fun _ => Meets.refl _
  | .arr2 _ _ e e' => (value_meets hd h st e).bind fun _ => (value_meets hd h st e').bind fun _ => Meets.refl _

theorem number_meets (hd : Describes A W R) {x : σ} {a : α} (h : R x a) (st : Store) (e : E) : Meets (e.number (W.look x) st) (e.number (A.look a) st) :=
  (value_meets hd h st e).bind fun _ => Meets.refl _

theorem args_meet (hd : Describes A W R) {x : σ} {a : α} (h : R x a) (st : Store) :
    (es : List E) → Meets (argValues (W.look x) st es) (argValues (A.look a) st es)
  | [] => Meets.refl _
  | e :: r => (value_meets hd h st e).bind fun _ => (args_meet hd h st r).bind fun _ => Meets.refl _

theorem dest_meets (hd : Describes A W R) {x : σ} {a : α} (h : R x a) (st : Store) (l : E) : Meets (l.dest (W.look x) st) (l.dest (A.look a) st) := by
  cases l with
  | arr1 sq w e => exact (number_meets hd h st e).bind fun _ => Meets.refl _
  | arr2 sq w e e' => exact (number_meets hd h st e).bind fun _ => (number_meets hd h st e').bind fun _ => Meets.refl _
  | _ => exact Meets.refl _

theorem dests_meet (hd : Describes A W R) {x : σ} {a : α} (h : R x a) (st : Store) :
    (ls : List E) → Meets (dests (W.look x) st ls) (dests (A.look a) st ls)
  | [] => Meets.refl _
  | l :: r => (dest_meets hd h st l).bind fun _ => (dests_meet hd h st r).bind fun _ => Meets.refl _

theorem opt_meets (hd : Describes A W R) {x : σ} {a : α} (h : R x a) (st : Store) :
    (e : Option E) → Meets (optValues (W.look x) st e) (optValues (A.look a) st e)
  | none => Meets.refl _
  | some e => (value_meets hd h st e).bind fun _ => Meets.refl _

theorem items_meet (hd : Describes A W R) {x : σ} {a : α} (h : R x a) (st : Store) :
    (es : List (Option E × Nat)) → Meets (itemValues (W.look x) st es) (itemValues (A.look a) st es)
  | [] => Meets.refl _
  | e :: r => (opt_meets hd h st e.1).bind fun _ => (items_meet hd h st r).bind fun _ => Meets.refl _

theorem step_meets (hd : Describes A W R) {x : σ} {a : α} (h : R x a) (st : Store) :
    (e : Option E) → Meets (stepValue (W.look x) st e) (stepValue (A.look a) st e)
  | none => Meets.refl _
  | some e => number_meets hd h st e

theorem Res.Like.undef (r : Res σ) : Res.Like R r (.undefined : Res α) := by cases r <;> trivial

/-- Going on with values that agree. -/
theorem with_like {β : Type} {c : Cfg σ} {b : Cfg α} (hc : c.Like R b) {v u : Out β} (h : Meets v u) {f : β → Res σ} {g : β → Res α}
    (hf : ∀ y, Res.Like R (f y) (g y)) : Res.Like R (Res.with' c v f) (Res.with' b u g) := by
  cases u with
  | ok y => rw [h (by simp)]; exact hf y
  | err e => rw [h (by simp)]; exact ⟨rfl, hc.2.2.1, hc.2.2.2.2.1⟩
  | ub => exact Res.Like.undef _

theorem goto_like {c : Cfg σ} {b : Cfg α} (hc : c.Like R b) (l : List Nat) : Res.Like R (c.goto prog l) (b.goto prog l) := by
  unfold Cfg.goto
  cases target prog l with
  | some k => exact ⟨rfl, rfl, hc.2.2.1, hc.2.2.2.1, hc.2.2.2.2⟩
  | none => exact ⟨rfl, hc.2.2.1, hc.2.2.2.2.1⟩

theorem command_like (hd : Describes A W R) {c : Cfg σ} {b : Cfg α} (hc : c.Like R b) (k : Nat) (vs : List Val) :
    Res.Like R (c.command W k vs) (b.command A k vs) := by
  unfold Cfg.command
  dsimp only
  cases hk : A.known k vs b.world with
  | false => rw [if_pos (rfl : false = false)]; exact Res.Like.undef _
  | true =>
    obtain ⟨h1, h2, h3⟩ := hd.commands k vs _ _ hc.2.2.2.2.1 hk
    rw [h1, if_neg (by decide : ¬ true = false), if_neg (by decide : ¬ true = false), h2]
    split
    · exact ⟨hc.1, hc.2.1, hc.2.2.1, hc.2.2.2.1, h3, hc.2.2.2.2.2⟩
    · exact ⟨rfl, hc.2.2.1, h3⟩

theorem set_like {c : Cfg σ} {b : Cfg α} (hc : c.Like R b) (w : List Nat) (v : Int) : (c.set w v).Like R (b.set w v) := by
  obtain ⟨h1, h2, h3, h4, h5⟩ := hc
  refine ⟨h1, h2, ?_, h4, h5⟩
  show c.store.set w v = b.store.set w v
  rw [h3]

theorem dim_like {c : Cfg σ} {b : Cfg α} (hc : c.Like R b) (w : List Nat) (x : Int) (y : Option Int) : Res.Like R (c.dim w x y) (b.dim w x y) := by
  obtain ⟨h1, h2, h3, h4, h5, h6⟩ := hc
  unfold Cfg.dim
  dsimp only
  rw [h3]
  split
  · exact ⟨rfl, rfl, h5⟩
  · split
    · exact ⟨h1, h2, rfl, h4, h5, h6⟩
    · trivial

theorem dims_like (hd : Describes A W R) {x : σ} {a : α} (h : R x a) : (ls : List E) → {c : Cfg σ} → {b : Cfg α} → c.Like R b →
    Res.Like R (c.dims (W.look x) ls) (b.dims (A.look a) ls)
  | [], _, _, hc => hc
  | l :: r, c, b, hc => by
    have key : Res.Like R (c.dimAt (W.look x) l) (b.dimAt (A.look a) l) := by
      have hst := hc.2.2.1
      cases l with
      | arr1 sq w e =>
        show Res.Like R (Res.with' c (e.number _ c.store) _) (Res.with' b (e.number _ b.store) _)
        rw [hst]
        exact with_like hc (number_meets hd h _ e) fun v => dim_like hc w _ _
      | arr2 sq w e e' =>
        show Res.Like R (Res.with' c (e.number _ c.store) fun n => Res.with' c (e'.number _ c.store) _) (Res.with' b (e.number _ b.store) fun n => Res.with' b (e'.number _ b.store) _)
        rw [hst]
        exact with_like hc (number_meets hd h _ e) fun v => with_like hc (number_meets hd h _ e') fun u => dim_like hc w _ _
      | _ => exact Res.Like.undef _
    unfold Cfg.dims
    cases hb : b.dimAt (A.look a) l with
    | undefined => exact Res.Like.undef _
    | done e st y =>
      rw [hb] at key
      cases hx : c.dimAt (W.look x) l with
      | done e' st' y' => rw [hx] at key; exact key
      | run _ => rw [hx] at key; cases key
      | undefined => rw [hx] at key; cases key
    | run b' =>
      rw [hb] at key
      cases hx : c.dimAt (W.look x) l with
      | run c' => rw [hx] at key; exact dims_like hd h r key
      | done _ _ _ => rw [hx] at key; cases key
      | undefined => rw [hx] at key; cases key

theorem put_like {c : Cfg σ} {b : Cfg α} (hc : c.Like R b) (w : List Nat) (g : Grid) (q : Nat × Nat) (v : Val) : Res.Like R (c.put w g q v) (b.put w g q v) := by
  cases v with
  | num v =>
    unfold Cfg.put
    dsimp only
    split
    · trivial
    · exact ⟨hc.1, hc.2.1, congrArg (Store.setGrid · w _) hc.2.2.1, hc.2.2.2.1, hc.2.2.2.2⟩
  | str s =>
    unfold Cfg.put
    dsimp only
    split
    · exact ⟨hc.1, hc.2.1, congrArg (Store.setGrid · w _) hc.2.2.1, hc.2.2.2.1, hc.2.2.2.2⟩
    · trivial
  | sep o => trivial

theorem putAt_like (hd : Describes A W R) {c : Cfg σ} {b : Cfg α} (hc : c.Like R b) (w : List Nat) (x : Int) (y : Option Int) (e : E) :
    Res.Like R (c.putAt (W.look c.world) w x y e) (b.putAt (A.look b.world) w x y e) := by
  unfold Cfg.putAt
  rw [hc.2.2.1]
  cases b.store.grid w with
  | none => trivial
  | some g =>
    exact with_like hc (Meets.refl _) fun q => with_like hc (value_meets hd hc.2.2.2.2.1 _ e) fun v => put_like hc w g q v

theorem assign_like {c : Cfg σ} {b : Cfg α} (hc : c.Like R b) (w : List Nat) (v : Val) : Res.Like R (c.assign w v) (b.assign w v) := by
  cases v with
  | num v =>
    unfold Cfg.assign
    dsimp only
    split
    · trivial
    · exact set_like hc w v
  | str s =>
    unfold Cfg.assign
    dsimp only
    split
    · exact ⟨hc.1, hc.2.1, congrArg (Store.setStr · w s) hc.2.2.1, hc.2.2.2.1, hc.2.2.2.2⟩
    · trivial
  | sep o => trivial

theorem round_like (hd : Describes A W R) (prog : List Line) {c : Cfg σ} {b : Cfg α} (hc : c.Like R b) (w : List Nat) (e : E) (s : Option E) :
    Res.Like R (c.round W prog w e s) (b.round A prog w e s) := by
  unfold Cfg.round
  refine with_like hc (by rw [hc.2.2.1]; exact number_meets hd hc.2.2.2.2.1 _ e) fun y =>
    with_like hc (by rw [hc.2.2.1]; exact step_meets hd hc.2.2.2.2.1 _ s) fun d => ?_
  rw [hc.2.2.1]
  have hn : c.nextOf prog w = b.nextOf prog w := by
    unfold Cfg.nextOf inBranch
    rw [hc.1, hc.2.1]
  split
  · rw [hn]
    cases b.nextOf prog w with
    | «at» t n => exact ⟨rfl, rfl, rfl, hc.2.2.2.1, hc.2.2.2.2⟩
    | missing => exact ⟨rfl, rfl, hc.2.2.2.2.1⟩
    | unknown => trivial
  · exact hc

theorem again_like (hd : Describes A W R) (prog : List Line) {c : Cfg σ} {b : Cfg α} (hc : c.Like R b) (w : List Nat) (e : E) (s : Option E) (t : Todo) (n : Nat)
    (rest : List Pending) : Res.Like R (c.again W prog w e s t n rest) (b.again A prog w e s t n rest) := by
  have he : Meets (e.number (W.look c.world) c.store) (e.number (A.look b.world) b.store) := by
    rw [hc.2.2.1]; exact number_meets hd hc.2.2.2.2.1 _ e
  have hs : Meets (stepValue (W.look c.world) c.store s) (stepValue (A.look b.world) b.store s) := by
    rw [hc.2.2.1]; exact step_meets hd hc.2.2.2.2.1 _ s
  unfold Cfg.again
  cases hv : e.number (A.look b.world) b.store with
  | ok y =>
    cases hu : stepValue (A.look b.world) b.store s with
    | ok d =>
      rw [he (by rw [hv]; simp), hs (by rw [hu]; simp), hv, hu]
      dsimp only
      rw [hc.2.2.1]
      split
      · split
        · obtain ⟨h1, h2, h3, h4, h5⟩ := set_like hc w (b.store.num w + d)
          exact ⟨h1, h2, h3, rfl, h5⟩
        · obtain ⟨h1, h2, h3, h4, h5⟩ := set_like hc w (b.store.num w + d)
          exact round_like hd prog (c := { c.set w (b.store.num w + d) with todo := t, next := n })
            (b := { b.set w (b.store.num w + d) with todo := t, next := n }) ⟨rfl, rfl, h3, h4, h5⟩ w e s
      · exact ⟨rfl, rfl, hc.2.2.2.2.1⟩
    | err _ => exact Res.Like.undef _
    | ub => exact Res.Like.undef _
  | err _ => exact Res.Like.undef _
  | ub => exact Res.Like.undef _

theorem close_like (hd : Describes A W R) {c : Cfg σ} {b : Cfg α} (hc : c.Like R b) (w : List Nat) (e : E) (s : Option E)
    (rest : List Pending) : Res.Like R (c.close W w e s rest) (b.close A w e s rest) := by
  have he : Meets (e.number (W.look c.world) c.store) (e.number (A.look b.world) b.store) := by
    rw [hc.2.2.1]; exact number_meets hd hc.2.2.2.2.1 _ e
  have hs : Meets (stepValue (W.look c.world) c.store s) (stepValue (A.look b.world) b.store s) := by
    rw [hc.2.2.1]; exact step_meets hd hc.2.2.2.2.1 _ s
  unfold Cfg.close
  cases hv : e.number (A.look b.world) b.store with
  | ok y =>
    cases hu : stepValue (A.look b.world) b.store s with
    | ok d =>
      rw [he (by rw [hv]; simp), hs (by rw [hu]; simp), hv, hu]
      dsimp only
      rw [hc.2.2.1]
      split
      · split
        · obtain ⟨h1, h2, h3, h4, h5⟩ := set_like hc w (b.store.num w + d)
          exact ⟨h1, h2, h3, rfl, h5⟩
        · trivial
      · exact ⟨rfl, rfl, hc.2.2.2.2.1⟩
    | err _ => exact Res.Like.undef _
    | ub => exact Res.Like.undef _
  | err _ => exact Res.Like.undef _
  | ub => exact Res.Like.undef _

theorem gosub_like {c : Cfg σ} {b : Cfg α} (hc : c.Like R b) (l : List Nat) : Res.Like R (c.gosub prog l) (b.gosub prog l) := by
  obtain ⟨h1, h2, h3, h4, h5⟩ := hc
  unfold Cfg.gosub
  rw [h4]
  by_cases h : b.calls.length = 255
  · rw [if_pos h, if_pos h]; exact ⟨rfl, h3, h5.1⟩
  · rw [if_neg h, if_neg h]
    apply goto_like
    exact ⟨h1, h2, h3, by simp [h1, h2], h5⟩

theorem read_like (ds : List Dest) {c : Cfg σ} {b : Cfg α} (hc : c.Like R b) : Res.Like R (c.read prog ds) (b.read prog ds) := by
  induction ds generalizing c b with
  | nil => exact hc
  | cons d r ih =>
    obtain ⟨h1, h2, h3, h4, h5, h6⟩ := hc
    rw [Cfg.read, Cfg.read, h6]
    cases (items prog)[b.data]? with
    | none => trivial
    | some it =>
      dsimp only
      split
      · exact ih ⟨h1, h2, congrArg (Store.fillStr · it d) h3, h4, h5, rfl⟩
      · split
        · exact ih ⟨h1, h2, congrArg (Store.fill · (Num.Spec.value it) d) h3, h4, h5, rfl⟩
        · split
          · exact ⟨rfl, h3, h5⟩
          · trivial

theorem exec_like (hd : Describes A W R) {c : Cfg σ} {b : Cfg α} (hc : c.Like R b) (s : S) : Res.Like R (s.exec W prog c) (s.exec A prog b) := by
  obtain ⟨t, n, st, calls, x, da⟩ := c
  obtain ⟨t', n', st', calls', a, da'⟩ := b
  obtain ⟨h1, h2, h3, h4, h5⟩ := hc
  dsimp only at h1 h2 h3 h4 h5
  subst h1; subst h2; subst h3; subst h4
  obtain ⟨h5, rfl⟩ := h5
  have h5 : R x a ∧ da = da := ⟨h5, rfl⟩
  have hc : Cfg.Like R ⟨t, n, st, calls, x, da⟩ ⟨t, n, st, calls, a, da⟩ := ⟨rfl, rfl, rfl, rfl, h5⟩
  cases s with
  | assign w e => exact with_like hc (value_meets hd h5.1 _ e) fun v => assign_like hc w v
  | cmd k args => exact with_like hc (args_meet hd h5.1 _ args) fun vs => command_like hd hc k vs
  | print items last =>
    exact with_like hc (items_meet hd h5.1 _ items) fun vs => with_like hc (opt_meets hd h5.1 _ last) fun ws => command_like hd hc _ _
  | goto l => exact goto_like hc l
  | gosub l => exact gosub_like hc l
  | on e sub ls =>
    refine with_like hc (number_meets hd h5.1 _ e) fun v => ?_
    split
    · exact hc
    · split
      · exact hc
      · cases sub
        · exact goto_like hc _
        · exact gosub_like hc _
  | ret =>
    simp only [S.exec]
    by_cases h : calls = []
    · rw [if_pos h, if_pos h]; exact ⟨rfl, rfl, h5.1⟩
    · rw [if_neg h, if_neg h]
      cases calls.dropWhile Pending.isLoop with
      | nil => trivial
      | cons p r =>
        cases p with
        | call t n => exact ⟨rfl, rfl, rfl, rfl, h5⟩
        | loop => trivial
        | outer => trivial
  | read ls =>
    refine with_like hc (dests_meet hd h5.1 _ ls) fun ds => ?_
    split
    · exact ⟨rfl, rfl, h5.1⟩
    · exact read_like ds hc
  | restore l =>
    simp only [S.exec]
    cases target prog l with
    | some k => exact ⟨rfl, rfl, rfl, rfl, h5.1, rfl⟩
    | none => exact ⟨rfl, rfl, h5.1⟩
  | fin => exact ⟨rfl, rfl, h5.1⟩
  | stop => exact ⟨rfl, rfl, h5.1⟩
  | dim l r => exact dims_like hd h5.1 (l :: r) hc
  | put l e0 =>
    cases l with
    | arr1 sq w e => exact with_like hc (number_meets hd h5.1 _ e) fun v => putAt_like hd hc w _ _ e0
    | arr2 sq w e e' => exact with_like hc (number_meets hd h5.1 _ e) fun v => with_like hc (number_meets hd h5.1 _ e') fun u => putAt_like hd hc w _ _ e0
    | _ => exact Res.Like.undef _
  | for' w e0 e s =>
    simp only [S.exec]
    by_cases h : calls.length = 255
    · rw [if_pos h, if_pos h]; exact ⟨rfl, rfl, h5.1⟩
    · rw [if_neg h, if_neg h]
      refine with_like hc (number_meets hd h5.1 _ e0) fun v => ?_
      exact round_like hd prog ⟨rfl, rfl, rfl, rfl, h5⟩ w e s
  | next w =>
    simp only [S.exec]
    cases whichLoop w calls with
    | missing => exact ⟨rfl, rfl, h5.1⟩
    | unknown => trivial
    | found k y e s t n =>
      cases k with
      | zero => exact again_like hd prog hc _ _ _ _ _ _
      | succ k => exact close_like hd hc _ _ _ _

theorem branch_like {c : Cfg σ} {b : Cfg α} (hc : c.Like R b) (i : Branch) : Res.Like R (i.exec prog c) (i.exec prog b) := by
  cases i with
  | jump l => exact goto_like hc l
  | run ss => exact ⟨rfl, hc.2.1, hc.2.2.1, hc.2.2.2.1, hc.2.2.2.2⟩

theorem step_like (hd : Describes A W R) {c : Cfg σ} {b : Cfg α} (hc : c.Like R b) : Res.Like R (step W prog c) (step A prog b) := by
  obtain ⟨⟨ss, i⟩, n, st, calls, x, da⟩ := c
  obtain ⟨⟨ss', i'⟩, n', st', calls', a, da'⟩ := b
  obtain ⟨h1, h2, h3, h4, h5⟩ := hc
  dsimp only at h1 h2 h3 h4 h5
  cases h1; subst h2; subst h3; subst h4
  obtain ⟨h5, rfl⟩ := h5
  have h5 : R x a ∧ da = da := ⟨h5, rfl⟩
  cases ss with
  | cons s ss => exact exec_like hd ⟨rfl, rfl, rfl, rfl, h5⟩ s
  | nil =>
    cases i with
    | some i =>
      have hc : Cfg.Like R ⟨⟨[], some i⟩, n, st, calls, x, da⟩ ⟨⟨[], some i⟩, n, st, calls, a, da⟩ := ⟨rfl, rfl, rfl, rfl, h5⟩
      refine with_like hc (number_meets hd h5.1 _ i.cond) fun v => ?_
      dsimp only
      split
      · apply branch_like
        exact ⟨rfl, rfl, rfl, rfl, h5⟩
      · cases i.no with
        | some b => apply branch_like; exact ⟨rfl, rfl, rfl, rfl, h5⟩
        | none => exact ⟨rfl, rfl, rfl, rfl, h5⟩
    | none =>
      unfold step
      dsimp only
      cases prog[n]? with
      | some l => exact ⟨rfl, rfl, rfl, rfl, h5⟩
      | none => exact ⟨rfl, rfl, h5.1⟩

/-- The meaning of a program in the two worlds. -/
theorem steps_like (hd : Describes A W R) (j : Nat) : {c : Cfg σ} → {b : Cfg α} → c.Like R b → Res.Like R (steps W prog j c) (steps A prog j b) := by
  induction j with
  | zero => exact fun hc => hc
  | succ j ih =>
    intro c b hc
    have hs := step_like (prog := prog) hd hc
    unfold steps
    cases hb : step A prog b with
    | undefined => exact Res.Like.undef _
    | done e st x =>
      rw [hb] at hs
      cases hw : step W prog c with
      | undefined => rw [hw] at hs; exact hs
      | done e' st' x' => rw [hw] at hs; exact hs
      | run c' => rw [hw] at hs; exact absurd hs id
    | run b' =>
      rw [hb] at hs
      cases hw : step W prog c with
      | undefined => rw [hw] at hs; exact absurd hs id
      | done e' st' x' => rw [hw] at hs; exact absurd hs id
      | run c' => rw [hw] at hs; exact ih hs

end Sbc.Source
