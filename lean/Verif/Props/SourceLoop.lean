import Verif.Props.Source
import Verif.Spec.SourceLoop
set_option autoImplicit false
/-!
# C91: FOR and NEXT as they are written
-/
namespace Sbc.Source
open Sbc Sbc.Tok Sbc.Tok.Spec Sbc.Machine

variable {σ : Type} {W : World σ} {prog : List Line} {dt : Nat}

theorem steps_trans (i j : Nat) : (c c' : Cfg σ) → steps W prog i c = .run c' → steps W prog (i + j) c = steps W prog j c' := by
  induction i with
  | zero => intro c c' h; cases h; rw [Nat.zero_add]
  | succ i ih =>
    intro c c' h
    rw [Nat.succ_add]
    rw [steps] at h ⊢
    cases hs : step W prog c with
    | run c1 => rw [hs] at h; exact ih c1 c' h
    | done e s w => rw [hs] at h; cases h
    | undefined => rw [hs] at h; cases h

/-- One command. -/
theorem given_exec {s : S} {c : Cfg σ} {k : Nat} {vs : List Val} (hg : s.given (W.look c.world) c.store = .ok (k, vs)) (hk : W.known k vs c.world = true)
    (h0 : (W.perform k vs c.world).2 = 0) :
    s.exec W prog c = .run { c with world := (W.perform k vs c.world).1 } := by
  cases s with
  | cmd k' args =>
    have hg : (argValues (W.look c.world) c.store args).bind (fun vs => Out.ok (k', vs)) = .ok (k, vs) := hg
    show Res.with' c (argValues (W.look c.world) c.store args) (fun vs => c.command W k' vs) = _
    cases ha : argValues (W.look c.world) c.store args with
    | ok v =>
      rw [ha] at hg
      have hg : Out.ok (k', v) = .ok (k, vs) := hg
      cases hg
      show c.command W k vs = _
      unfold Cfg.command
      dsimp only
      rw [if_neg (by rw [hk]; decide), if_pos h0]
    | err e => rw [ha] at hg; cases hg
    | ub => rw [ha] at hg; cases hg
  | print items last =>
    have hg : ((itemValues (W.look c.world) c.store items).bind fun vs => (optValues (W.look c.world) c.store last).bind fun ws => Out.ok (cmdPrint, vs ++ ws)) = .ok (k, vs) := hg
    show Res.with' c (itemValues (W.look c.world) c.store items) (fun vs => Res.with' c (optValues (W.look c.world) c.store last) fun ws => c.command W cmdPrint (vs ++ ws)) = _
    cases ha : itemValues (W.look c.world) c.store items with
    | ok v =>
      rw [ha] at hg
      cases hb : optValues (W.look c.world) c.store last with
      | ok v' =>
        dsimp only [Out.bind] at hg
        rw [hb] at hg
        have hg : Out.ok (cmdPrint, v ++ v') = .ok (k, vs) := hg
        cases hg
        show c.command W cmdPrint (v ++ v') = _
        unfold Cfg.command
        dsimp only
        rw [if_neg (by rw [hk]; decide), if_pos h0]
      | err e => dsimp only [Out.bind] at hg; rw [hb] at hg; cases hg
      | ub => dsimp only [Out.bind] at hg; rw [hb] at hg; cases hg
    | err e => rw [ha] at hg; cases hg
    | ub => rw [ha] at hg; cases hg
  | _ => cases hg

/-- Commands, one after the other. -/
theorem body_steps (st : Store) (rest : List S) (last : Option If) (n : Nat) (calls : List Pending) :
    (body : List S) → (x y : σ) → bodyRun W st body x = some y →
      steps W prog body.length ⟨⟨body ++ rest, last⟩, n, st, calls, x, dt⟩ = .run ⟨⟨rest, last⟩, n, st, calls, y, dt⟩
  | [], x, y, h => by cases h; rfl
  | s :: r, x, y, h => by
    unfold bodyRun at h
    cases hg : s.given (W.look x) st with
    | err e => rw [hg] at h; cases h
    | ub => rw [hg] at h; cases h
    | ok kv =>
      obtain ⟨k, vs⟩ := kv
      rw [hg] at h
      dsimp only at h
      by_cases h0 : W.known k vs x = true ∧ (W.perform k vs x).2 = 0
      · rw [if_pos h0] at h
        have e : step W prog ⟨⟨s :: r ++ rest, last⟩, n, st, calls, x, dt⟩ = .run ⟨⟨r ++ rest, last⟩, n, st, calls, (W.perform k vs x).1, dt⟩ :=
          given_exec (c := ⟨⟨r ++ rest, last⟩, n, st, calls, x, dt⟩) hg h0.1 h0.2
        show steps W prog (r.length + 1) _ = _
        unfold steps
        rw [e]
        exact body_steps st rest last n calls r _ y h
      · rw [if_neg h0] at h; cases h

theorem again_past {c : Cfg σ} {w : List Nat} {b : E} {s : Option E} {t : Todo} {n : Nat} {r : List Pending} {v y d : Int} (hv : c.store.num w = v)
    (hb : b.number (W.look c.world) c.store = .ok y) (hd : stepValue (W.look c.world) c.store s = .ok d) (h32 : I32 (v + d)) (hp : Past d (v + d) y) :
    c.again W prog w b s t n r = .run { c.set w (v + d) with calls := r } := by
  unfold Cfg.again
  rw [hb, hd, hv]
  dsimp only
  rw [if_pos h32, if_pos hp]

theorem again_on {c : Cfg σ} {w : List Nat} {b : E} {s : Option E} {t : Todo} {n : Nat} {r : List Pending} {v y d : Int} (hv : c.store.num w = v)
    (hb : b.number (W.look c.world) c.store = .ok y) (hd : stepValue (W.look c.world) c.store s = .ok d) (h32 : I32 (v + d)) (hp : ¬ Past d (v + d) y)
    (hb' : b.number (W.look c.world) (c.set w (v + d)).store = .ok y) (hd' : stepValue (W.look c.world) (c.set w (v + d)).store s = .ok d) :
    c.again W prog w b s t n r = .run { c.set w (v + d) with todo := t, next := n } := by
  unfold Cfg.again
  rw [hb, hd, hv]
  dsimp only
  rw [if_pos h32, if_neg hp]
  unfold Cfg.round
  dsimp only
  rw [show W.look (c.set w (v + d)).world = W.look c.world from rfl, hb', hd']
  show (if Past d (if w = w then v + d else c.store.num w) y then _ else _) = _
  rw [if_pos rfl, if_neg hp]

theorem twice (st : Store) (w : List Nat) (u v : Int) :
    (st.set w u).set w v = st.set w v := by
  unfold Store.set
  congr 1
  funext z
  by_cases hz : z = w
  · rw [if_pos hz, if_pos hz]
  · rw [if_neg hz, if_neg hz]; exact if_neg hz

/-- The rounds of a loop, from the beginning of the body with the value `v` in the variable. -/
theorem rounds (st : Store) (w : List Nat) (b : E) (s : Option E) (o : Option (List Nat)) (ho : o = none ∨ o = some w) (body rest : List S)
    (last : Option If) (n : Nat) (calls : List Pending) (y d : Int) (hb : ∀ v x, b.number (W.look x) (st.set w v) = .ok y)
    (hd : ∀ v x, stepValue (W.look x) (st.set w v) s = .ok d) :
    (k : Nat) → (v : Int) → (x x' : σ) → loopRun W st w body ((List.range (k + 1)).map fun i : Nat => v + (i : Int) * d) x = some x' →
      (∀ i, i ≤ k + 1 → I32 (v + (i : Int) * d)) → (∀ i, i ≤ k → ¬ Past d (v + (i : Int) * d) y) → Past d (v + ((k + 1 : Nat) : Int) * d) y →
      ∃ j, steps W prog j ⟨⟨body ++ .next o :: rest, last⟩, n, st.set w v,
          .loop w b s ⟨body ++ .next o :: rest, last⟩ n :: calls, x, dt⟩ =
        .run ⟨⟨rest, last⟩, n, st.set w (v + ((k + 1 : Nat) : Int) * d), calls, x', dt⟩ := by
  intro k
  induction k with
  | zero =>
    intro v x x' hl h32 hnp hp
    rw [show List.range 1 = [0] from rfl] at hl
    simp only [List.map_cons, List.map_nil, loopRun] at hl
    have e0 : v + ((0 : Nat) : Int) * d = v := by simp
    rw [e0] at hl
    cases hx : bodyRun W (st.set w v) body x with
    | none => rw [hx] at hl; cases hl
    | some x1 =>
      rw [hx] at hl
      have hl : some x1 = some x' := hl
      have hl : x1 = x' := Option.some.inj hl
      subst hl
      have h1 := body_steps (prog := prog) (dt := dt) _ (.next o :: rest) last n (.loop w b s ⟨body ++ .next o :: rest, last⟩ n :: calls) body x x1 hx
      refine ⟨body.length + 1, ?_⟩
      rw [steps_trans _ _ _ _ h1]
      unfold steps
      have e : step W prog ⟨⟨.next o :: rest, last⟩, n, st.set w v, .loop w b s ⟨body ++ .next o :: rest, last⟩ n :: calls, x1, dt⟩ =
          .run ⟨⟨rest, last⟩, n, st.set w (v + ((0 + 1 : Nat) : Int) * d), calls, x1, dt⟩ := by
        show S.exec W prog ⟨⟨rest, last⟩, n, st.set w v, .loop w b s ⟨body ++ .next o :: rest, last⟩ n :: calls, x1, dt⟩ (.next o) = _
        unfold S.exec
        dsimp only
        rw [show whichLoop o (.loop w b s ⟨body ++ .next o :: rest, last⟩ n :: calls) = .found 0 w b s ⟨body ++ .next o :: rest, last⟩ n from if_pos ho]
        show Cfg.again W prog _ w b s _ n calls = _
        have e1 : v + ((0 + 1 : Nat) : Int) * d = v + d := by simp
        rw [e1] at hp
        have h32' := h32 1 (by omega)
        rw [show ((1 : Nat) : Int) * d = d by simp] at h32'
        rw [again_past (prog := prog) (c := ⟨⟨rest, last⟩, n, st.set w v, .loop w b s ⟨body ++ .next o :: rest, last⟩ n :: calls, x1, dt⟩) (v := v)
          (if_pos rfl) (hb v x1) (hd v x1) h32' hp, e1]
        unfold Cfg.set
        dsimp only
        rw [twice st w v (v + d)]
      rw [e]
      rfl
  | succ k ih =>
    intro v x x' hl h32 hnp hp
    rw [List.range_succ_eq_map] at hl
    simp only [List.map_cons, List.map_map, loopRun] at hl
    have e0 : v + ((0 : Nat) : Int) * d = v := by simp
    rw [e0] at hl
    cases hx : bodyRun W (st.set w v) body x with
    | none => rw [hx] at hl; cases hl
    | some x1 =>
      rw [hx] at hl
      have hsh : ∀ i : Nat, v + d + (i : Int) * d = v + ((i + 1 : Nat) : Int) * d := by
        intro i
        push_cast
        rw [Int.add_mul]
        omega
      have hl : loopRun W st w body ((List.range (k + 1)).map fun i : Nat => v + d + (i : Int) * d) x1 = some x' := by
        rw [← show (List.range (k + 1)).map ((fun i : Nat => v + (i : Int) * d) ∘ Nat.succ) = (List.range (k + 1)).map fun i : Nat => v + d + (i : Int) * d from
          List.map_congr_left fun i _ => (hsh i).symm]
        exact hl
      obtain ⟨j, hj⟩ := ih (v + d) x1 x' hl (fun i hi => by rw [hsh]; exact h32 (i + 1) (by omega)) (fun i hi => by rw [hsh]; exact hnp (i + 1) (by omega))
        (by rw [hsh]; exact hp)
      have h1 := body_steps (prog := prog) (dt := dt) _ (.next o :: rest) last n (.loop w b s ⟨body ++ .next o :: rest, last⟩ n :: calls) body x x1 hx
      refine ⟨body.length + (j + 1), ?_⟩
      rw [steps_trans _ _ _ _ h1]
      unfold steps
      have e : step W prog ⟨⟨.next o :: rest, last⟩, n, st.set w v, .loop w b s ⟨body ++ .next o :: rest, last⟩ n :: calls, x1, dt⟩ =
          .run ⟨⟨body ++ .next o :: rest, last⟩, n, st.set w (v + d), .loop w b s ⟨body ++ .next o :: rest, last⟩ n :: calls, x1, dt⟩ := by
        show S.exec W prog ⟨⟨rest, last⟩, n, st.set w v, .loop w b s ⟨body ++ .next o :: rest, last⟩ n :: calls, x1, dt⟩ (.next o) = _
        unfold S.exec
        dsimp only
        rw [show whichLoop o (.loop w b s ⟨body ++ .next o :: rest, last⟩ n :: calls) = .found 0 w b s ⟨body ++ .next o :: rest, last⟩ n from if_pos ho]
        show Cfg.again W prog _ w b s _ n calls = _
        have h32' := h32 1 (by omega)
        have hnp' := hnp 1 (by omega)
        rw [show ((1 : Nat) : Int) * d = d by simp] at h32' hnp'
        rw [again_on (prog := prog) (c := ⟨⟨rest, last⟩, n, st.set w v, .loop w b s ⟨body ++ .next o :: rest, last⟩ n :: calls, x1, dt⟩) (v := v)
          (if_pos rfl) (hb v x1) (hd v x1) h32' hnp'
          (by show b.number (W.look x1) ((st.set w v).set w (v + d)) = _; rw [twice]; exact hb _ _)
          (by show stepValue (W.look x1) ((st.set w v).set w (v + d)) s = _; rw [twice]; exact hd _ _)]
        unfold Cfg.set
        dsimp only
        rw [twice st w v (v + d)]
      rw [e]
      dsimp only
      rw [hj, ← hsh (k + 1)]

/-- The meaning of `FOR w=a TO b STEP s : body : NEXT`. -/
theorem loop_meaning (st : Store) (w : List Nat) (a b : E) (s : Option E) (o : Option (List Nat)) (ho : o = none ∨ o = some w)
    (body rest : List S) (last : Option If) (n : Nat) (calls : List Pending) (hc : calls.length ≠ 255) (v y d : Int) (x : σ) (ha : a.number (W.look x) st = .ok v)
    (hb : ∀ u x, b.number (W.look x) (st.set w u) = .ok y) (hd : ∀ u x, stepValue (W.look x) (st.set w u) s = .ok d)
    (k : Nat) (x' : σ) (hrun : loopRun W st w body (values v d (k + 1)) x = some x') (h32 : ∀ i, i ≤ k + 1 → I32 (v + (i : Int) * d))
    (hin : ∀ i, i ≤ k → ¬ Past d (v + (i : Int) * d) y) (hp : Past d (v + ((k + 1 : Nat) : Int) * d) y) :
    ∃ j, steps W prog j ⟨⟨.for' w a b s :: (body ++ .next o :: rest), last⟩, n, st, calls, x, dt⟩ =
      .run ⟨⟨rest, last⟩, n, st.set w (v + ((k + 1 : Nat) : Int) * d), calls, x', dt⟩ := by
  obtain ⟨j, hj⟩ := rounds (prog := prog) st w b s o ho body rest last n calls y d hb hd k v x x' hrun h32 hin hp
  refine ⟨j + 1, ?_⟩
  unfold steps
  have e : step W prog ⟨⟨.for' w a b s :: (body ++ .next o :: rest), last⟩, n, st, calls, x, dt⟩ =
      .run ⟨⟨body ++ .next o :: rest, last⟩, n, st.set w v, .loop w b s ⟨body ++ .next o :: rest, last⟩ n :: calls, x, dt⟩ := by
    show S.exec W prog ⟨⟨body ++ .next o :: rest, last⟩, n, st, calls, x, dt⟩ (.for' w a b s) = _
    unfold S.exec
    dsimp only
    rw [if_neg hc, ha]
    unfold Res.with' Cfg.set Cfg.round
    dsimp only
    rw [hb v x, hd v x]
    show (if Past d (if w = w then v else st.num w) y then _ else _) = _
    have h0 := hin 0 (by omega)
    rw [show ((0 : Nat) : Int) * d = 0 by simp, Int.add_zero] at h0
    rw [if_pos rfl, if_neg h0]
  rw [e]
  exact hj

/-- **C91.** The program `FOR w=a TO b [STEP s] : commands : NEXT [w]`, compiled and run, performs the commands once for each
of the values `v`, `v + d`, … of the variable that are not past the limit, in this order, and ends without error; the
variable then has the first value past the limit.  Here `v` is the first value, limit and step have the values `y` and `d`
whatever the variable and the rest of the system are, `k + 1` values are not past the limit, all are in the range of numbers, and the commands do not
fail. -/
theorem C91_loop (env : Env σ) (W : World σ) (pre : Tk) (n c : Nat) (ob : Obj) (core : Core σ)
    (text : List Nat) (w : List Nat) (a b : E) (s : Option E) (o : Option (List Nat)) (body : List S) (U : List (List Nat))
    (ht : TableFrom n ob.labels) (hprog : Correct n ob.cap [text] [⟨none, .for' w a b s :: (body ++ [.next o]), none, none⟩])
    (hU : AllVars [⟨none, .for' w a b s :: (body ++ [.next o]), none, none⟩] U) (hfresh : Fresh c U core)
    (hperf : Performs env W (Uses [⟨none, .for' w a b s :: (body ++ [.next o]), none, none⟩])) (ho : o = none ∨ o = some w)
    (v y d : Int) (ha : a.number (W.look core.ext) .empty = .ok v) (hb : ∀ u x, b.number (W.look x) (Store.empty.set w u) = .ok y)
    (hd : ∀ u x, stepValue (W.look x) (Store.empty.set w u) s = .ok d) (k : Nat) (x' : σ)
    (hrun : loopRun W .empty w body (values v d (k + 1)) core.ext = some x') (h32 : ∀ i, i ≤ k + 1 → I32 (v + (i : Int) * d))
    (hin : ∀ i, i ≤ k → ¬ Past d (v + (i : Int) * d) y) (hp : Past d (v + ((k + 1 : Nat) : Int) * d) y) :
    ∃ o', tokenize plainOpts pre (programText [text]) ob = .ok (o', none) ∧ (o'.buf.length ≤ maxCode →
      ∃ m, Reaches env (start o'.buf o'.labels core) m ∧ Halted m ∧ m.core.error = 0 ∧
        Shows U m.core (Store.empty.set w (v + ((k + 1 : Nat) : Int) * d)) ∧ m.core.ext = x') := by
  obtain ⟨o', h1, h2⟩ := C85_program env W pre n c 0 ob core [text] _ U ht hprog hU hfresh hperf
  refine ⟨o', h1, fun hl => ?_⟩
  generalize hpg : ([⟨none, .for' w a b s :: (body ++ [.next o]), none, none⟩] : List Line) = prog at h2
  obtain ⟨j, hj⟩ := loop_meaning (prog := prog) (W := W) .empty w a b s o ho body [] none 1 [] (by simp) v y d core.ext ha hb hd k x' hrun h32 hin hp
  have hfin := h2 hl (1 + (j + 1))
  have e : steps W prog (1 + (j + 1)) (begin .empty core.ext) =
      .done 0 (Store.empty.set w (v + ((k + 1 : Nat) : Int) * d)) x' := by
    rw [steps_trans 1 (j + 1) _ ⟨⟨.for' w a b s :: (body ++ [.next o]), none⟩, 1, .empty, [], core.ext, 0⟩ (by rw [← hpg]; rfl), steps_trans j 1 _ _ hj, ← hpg]
    rfl
  rw [e] at hfin
  exact hfin

/-- Without loops among the statements, the NEXT after them is found. -/
theorem seek_body {w : List Nat} {o : Option (List Nat)} (ho : o = none ∨ o = some w) (rest : List S) :
    (body : List S) → (∀ s ∈ body, s.isLoop = false) → seek w 0 (body ++ .next o :: rest) = .inl rest
  | [], _ => by
    rcases ho with h | h
    · subst h; rfl
    · subst h; exact if_pos rfl
  | s :: r, h => by
    have ih := seek_body ho rest r fun s' hs => h s' (.tail _ hs)
    have h0 := h s (.head _)
    cases s with
    | for' _ _ _ _ => cases h0
    | next _ => cases h0
    | _ => exact ih

/-- **C91.** The program `FOR w=a TO b [STEP s] : statements : NEXT [w] : commands`, compiled and run, when the first value of the variable is
past the limit: the statements are not performed, whatever they are (other than FOR and NEXT); the commands after the NEXT are, and the
variable has the first value. -/
theorem C91_none (env : Env σ) (W : World σ) (pre : Tk) (n c : Nat) (ob : Obj) (core : Core σ)
    (text : List Nat) (w : List Nat) (a b : E) (s : Option E) (o : Option (List Nat)) (body after : List S) (U : List (List Nat))
    (ht : TableFrom n ob.labels) (hprog : Correct n ob.cap [text] [⟨none, .for' w a b s :: (body ++ .next o :: after), none, none⟩])
    (hU : AllVars [⟨none, .for' w a b s :: (body ++ .next o :: after), none, none⟩] U) (hfresh : Fresh c U core)
    (hperf : Performs env W (Uses [⟨none, .for' w a b s :: (body ++ .next o :: after), none, none⟩])) (ho : o = none ∨ o = some w)
    (hbody : ∀ s ∈ body, s.isLoop = false)
    (v y d : Int) (ha : a.number (W.look core.ext) .empty = .ok v) (hb : b.number (W.look core.ext) (Store.empty.set w v) = .ok y)
    (hd : stepValue (W.look core.ext) (Store.empty.set w v) s = .ok d) (hp : Past d v y) (x' : σ)
    (hrun : bodyRun W (Store.empty.set w v) after core.ext = some x') :
    ∃ o', tokenize plainOpts pre (programText [text]) ob = .ok (o', none) ∧ (o'.buf.length ≤ maxCode →
      ∃ m, Reaches env (start o'.buf o'.labels core) m ∧ Halted m ∧ m.core.error = 0 ∧
        Shows U m.core (Store.empty.set w v) ∧ m.core.ext = x') := by
  obtain ⟨o', h1, h2⟩ := C85_program env W pre n c 0 ob core [text] _ U ht hprog hU hfresh hperf
  refine ⟨o', h1, fun hl => ?_⟩
  generalize hpg : ([⟨none, .for' w a b s :: (body ++ .next o :: after), none, none⟩] : List Line) = prog at h2
  have e1 : step W prog ⟨⟨.for' w a b s :: (body ++ .next o :: after), none⟩, 1, .empty, [], core.ext, 0⟩ =
      .run ⟨⟨after, none⟩, 1, Store.empty.set w v, [.loop w b s ⟨body ++ .next o :: after, none⟩ 1], core.ext, 0⟩ := by
    show S.exec W prog ⟨⟨body ++ .next o :: after, none⟩, 1, .empty, [], core.ext, 0⟩ (.for' w a b s) = _
    unfold S.exec
    dsimp only
    rw [if_neg (by simp), ha]
    unfold Res.with' Cfg.set Cfg.round
    dsimp only
    rw [hb, hd]
    show (if Past d (if w = w then v else Store.empty.num w) y then _ else _) = _
    rw [if_pos rfl, if_pos hp]
    unfold Cfg.nextOf
    dsimp only
    rw [seek_body ho after body hbody]
  have e2 := body_steps (prog := prog) (dt := 0) (Store.empty.set w v) [] none 1 [.loop w b s ⟨body ++ .next o :: after, none⟩ 1] after core.ext x' hrun
  rw [List.append_nil] at e2
  have hfin := h2 hl (1 + (1 + (after.length + 1)))
  have e : steps W prog (1 + (1 + (after.length + 1))) (begin .empty core.ext) = .done 0 (Store.empty.set w v) x' := by
    rw [steps_trans 1 _ _ ⟨⟨.for' w a b s :: (body ++ .next o :: after), none⟩, 1, .empty, [], core.ext, 0⟩ (by rw [← hpg]; rfl),
      steps_trans 1 _ _ _ (by unfold steps; rw [e1]; rfl), steps_trans after.length 1 _ _ e2, ← hpg]
    rfl
  rw [e] at hfin
  exact hfin

/-! ### Cases -/

/-- `FOR I=3 TO 1:PRINT I:NEXT:PRINT 9` -/
def idleText : List Nat := chars "FOR I=3 TO 1:PRINT I:NEXT:PRINT 9"

theorem idle_correct : Correct 2 100 [idleText]
    [⟨none, .for' [73] (.num [51]) (.num [49]) none :: ([.print [] (some (.var [73]))] ++ .next none :: [.print [] (some (.num [57]))]), none, none⟩] where
  lines := by decide +kernel
  written := written_list _ _ [(0, [(.command 4 (chars "FOR"), 1), (.name [73], 0), (.signOp 6 [61], 0), (.number [51], 1), (.command 5 (chars "TO"), 1),
    (.number [49], 0), (.colon, 0), (.command 0 (chars "PRINT"), 1), (.name [73], 0), (.colon, 0), (.command 7 (chars "NEXT"), 0), (.colon, 0),
    (.command 0 (chars "PRINT"), 1), (.number [57], 0)], .nothing)]
    (by decide) (by decide) (by decide +kernel)
  wf := plain_all (by decide +kernel)
  cap := by decide
  labels := by decide +kernel
  room := by decide +kernel

/-- It prints 9 only. -/
example : ∃ o', tokenize plainOpts preTok (programText [idleText]) emptyObj = .ok (o', none) ∧ (o'.buf.length ≤ maxCode →
    ∃ m, Reaches recorder (start o'.buf o'.labels recorderCore) m ∧ Halted m ∧ m.core.error = 0 ∧
      Shows [[73]] m.core (Store.empty.set [73] 12288) ∧ m.core.ext = [(0, [.num 36864])]) :=
  C91_none recorder record preTok 2 2 emptyObj recorderCore idleText [73] (.num [51]) (.num [49]) none none
    [.print [] (some (.var [73]))] [.print [] (some (.num [57]))] [[73]] ⟨[], by simp, rfl⟩ idle_correct (by unfold AllVars; decide +kernel)
    ⟨⟨true, rfl⟩, by decide, Or.inl rfl⟩ (recorder_performs _) (.inl rfl) (by decide) 12288 4096 4096 (by decide +kernel) (by decide +kernel)
    (by decide +kernel) (by decide +kernel) _ (by decide +kernel)

/-- Its code is small enough. -/
example : (tokenize plainOpts preTok (programText [idleText]) emptyObj).bind (fun r => .ok (r.2, decide (r.1.buf.length ≤ maxCode))) = .ok (none, true) := by
  decide +kernel

/-- A loop that does not run, with its NEXT in a later line, and a loop in it. -/
def laterProg : List Line :=
  [⟨none, [.for' [73] (.num [51]) (.num [49]) none], none, none⟩,
   ⟨none, [.for' [74] (.num [49]) (.num [50]) none, .cmd 1 [.num [55], .num [55]], .next none], none, none⟩,
   ⟨none, [.next none, .cmd 1 [.var [73], .num [57]]], none, none⟩]

example : outcome (steps record laterProg 50 (begin .empty [])) = some (0, [(1, [.num 12288, .num 36864])]) := by decide +kernel

/-- A loop that does not run, without a NEXT. -/
example : outcome (steps record [⟨none, [.for' [73] (.num [51]) (.num [49]) none, .cmd 1 [.num [55], .num [55]]], none, none⟩] 50 (begin .empty [])) =
    some (34, []) := by decide +kernel

/-- `FOR I=1 TO 3:PRINT I:NEXT I` -/
def loopText : List Nat := chars "FOR I=1 TO 3:PRINT I:NEXT I"

theorem loop_correct : Correct 2 100 [loopText]
    [⟨none, .for' [73] (.num [49]) (.num [51]) none :: ([.print [] (some (.var [73]))] ++ [.next (some [73])]), none, none⟩] where
  lines := by decide +kernel
  written := written_list _ _ [(0, [(.command 4 (chars "FOR"), 1), (.name [73], 0), (.signOp 6 [61], 0), (.number [49], 1), (.command 5 (chars "TO"), 1),
    (.number [51], 0), (.colon, 0), (.command 0 (chars "PRINT"), 1), (.name [73], 0), (.colon, 0), (.command 7 (chars "NEXT"), 1), (.name [73], 0)], .nothing)]
    (by decide) (by decide) (by decide +kernel)
  wf := plain_all (by decide +kernel)
  cap := by decide
  labels := by decide +kernel
  room := by decide +kernel

/-- The loop prints 1, 2 and 3 and leaves 4 in the variable. -/
example : ∃ o', tokenize plainOpts preTok (programText [loopText]) emptyObj = .ok (o', none) ∧ (o'.buf.length ≤ maxCode →
    ∃ m, Reaches recorder (start o'.buf o'.labels recorderCore) m ∧ Halted m ∧ m.core.error = 0 ∧
      Shows [[73]] m.core (Store.empty.set [73] 16384) ∧
      m.core.ext = [(0, [.num 4096]), (0, [.num 8192]), (0, [.num 12288])]) :=
  C91_loop recorder record preTok 2 2 emptyObj recorderCore loopText [73] (.num [49]) (.num [51]) none (some [73])
    [.print [] (some (.var [73]))] [[73]] ⟨[], by simp, rfl⟩ loop_correct (by unfold AllVars; decide +kernel) ⟨⟨true, rfl⟩, by decide, Or.inl rfl⟩
    (recorder_performs _) (.inr rfl) 4096 12288 4096 (by decide +kernel)
    (fun _ _ => congrArg Out.ok (by decide +kernel : Num.Spec.value [51] = 12288)) (fun _ _ => rfl) 2 _ (by decide +kernel)
    (by decide +kernel) (by decide +kernel) (by decide +kernel)

/-- Its code is small enough. -/
example : (tokenize plainOpts preTok (programText [loopText]) emptyObj).bind (fun r => .ok (r.2, decide (r.1.buf.length ≤ maxCode))) = .ok (none, true) := by
  decide +kernel

/-- Loops over several lines, one within the other, with a subroutine. -/
def nestText : List (List Nat) := [chars "FOR I=1 TO 2", chars "FOR J=4 TO 2 STEP -2:GOSUB @S:NEXT:NEXT I", chars "END", chars "@S:LOCATE I,J:RETURN"]

def nestProg : List Line :=
  [⟨none, [.for' [73] (.num [49]) (.num [50]) none], none, none⟩,
   ⟨none, [.for' [74] (.num [52]) (.num [50]) (some (.un opNegate (.num [50]))), .gosub [83], .next none, .next (some [73])], none, none⟩,
   ⟨none, [.fin], none, none⟩,
   ⟨some [83], [.cmd 1 [.var [73], .var [74]], .ret], none, none⟩]

theorem nest_correct : Correct 2 100 nestText nestProg where
  lines := by decide +kernel
  written := written_list _ _ [
    (0, [(.command 4 (chars "FOR"), 1), (.name [73], 0), (.signOp 6 [61], 0), (.number [49], 1), (.command 5 (chars "TO"), 1), (.number [50], 0)], .nothing),
    (0, [(.command 4 (chars "FOR"), 1), (.name [74], 0), (.signOp 6 [61], 0), (.number [52], 1), (.command 5 (chars "TO"), 1), (.number [50], 1),
      (.command 6 (chars "STEP"), 1), (.signOp 2 [45], 0), (.number [50], 0), (.colon, 0), (.command 13 (chars "GOSUB"), 1), (.label [83], 0), (.colon, 0),
      (.command 7 (chars "NEXT"), 0), (.colon, 0), (.command 7 (chars "NEXT"), 1), (.name [73], 0)], .nothing),
    (0, [(.command 16 (chars "END"), 0)], .nothing),
    (0, [(.label [83], 0), (.colon, 0), (.command 1 (chars "LOCATE"), 1), (.name [73], 0), (.signOp 1 [44], 0), (.name [74], 0), (.colon, 0),
      (.command 15 (chars "RETURN"), 0)], .nothing)] (by decide) (by decide) (by decide +kernel)
  wf := plain_all (by decide +kernel)
  cap := by decide
  labels := by decide +kernel
  room := by decide +kernel

/-- By their meaning they move the cursor to (1,4), (1,2), (2,4) and (2,2). -/
example : outcome (steps record nestProg 50 (begin .empty [])) =
    some (0, [(1, [.num 4096, .num 16384]), (1, [.num 4096, .num 8192]), (1, [.num 8192, .num 16384]), (1, [.num 8192, .num 8192])]) := by decide +kernel

end Sbc.Source
