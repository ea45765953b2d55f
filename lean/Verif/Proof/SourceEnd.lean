import Verif.Proof.SourceRun
set_option autoImplicit false
/-!
# Source programs: whole runs
-/
namespace Sbc.Source
open Sbc Sbc.Tok Sbc.Tok.Spec Sbc.Machine

variable {σ : Type} {env : Env σ}
variable {prog : List Line} {U : List (List Nat)} {C : Nat → Prop} {L : Labels.Table} {W : World σ}

/-- What an access to a variable finds. -/
theorem Holds.found {st : Store} {c : Core σ} (h : Holds U st c) {w n : List Nat} {ty : Vars.Ty} (hk : keyOf w = (n, ty)) (hn : Names.GoodName n)
    (hty : ty = .num ∨ ty = .str) :
    (c.lookup n ty = .ok ({ c with vars := c.vars, varsErr := eOutOfMemory, error := eOutOfMemory }, none) ∧ w ∉ U) ∨
      ∃ c' i, c.lookup n ty = .ok (c', some i) ∧ (ty = .num → c'.mem (.slot i) = st.num n) ∧ (ty = .str → c'.smem (.slot i) = st.str (n ++ [36])) := by
  have hlen : ¬ n.length > 16 := by have := hn.2.1; omega
  obtain ⟨s, hr, hroom⟩ := h.table
  cases hs : Vars.search c.vars n ty with
  | none =>
    have hget : Vars.getVar c.vars n ty = (c.vars, .err .outOfMemory) := by
      unfold Vars.getVar; rw [if_neg hlen, hs]
    have hl : c.lookup n ty = .ok ({ c with vars := c.vars, varsErr := eOutOfMemory, error := eOutOfMemory }, none) := by
      unfold Core.lookup; rw [hget]
    refine Or.inl ⟨hl, fun hU => ?_⟩
    obtain ⟨c', i, hl', _⟩ := lookup_var h hk hn hU hty
    rw [hl] at hl'
    cases hl'
  | some i =>
    obtain ⟨j, hj, hij, hor, _⟩ := Vars.search_some hr.inv hn hs
    have hi : i < c.vars.max := hij ▸ Vars.kpos_lt hr.inv _ _
    by_cases he : (c.vars.slots i).ty = none
    · have habs := Vars.search_empty_absent hr.inv hn hs he
      have hget : ∃ v, Vars.getVar c.vars n ty = (v, .ok i) := by
        unfold Vars.getVar; rw [if_neg hlen, hs]; dsimp only; rw [if_pos he]; exact ⟨_, rfl⟩
      obtain ⟨v, hget⟩ := hget
      have hl : c.lookup n ty = .ok (({ c with vars := v }.store (.slot i) 0).storeStr (.slot i) [], some i) := by
        unfold Core.lookup; rw [hget]; dsimp only; rw [if_pos he]
      refine Or.inr ⟨_, i, hl, ?_, ?_⟩
      · rintro rfl
        show (if (Ptr.slot i) = .slot i then (0 : Int) else _) = _
        rw [if_pos rfl]
        exact (h.zero n hn habs).symm
      · rintro rfl
        show (if (Ptr.slot i) = .slot i then ([] : List Nat) else _) = _
        rw [if_pos rfl]
        exact (h.empty n hn habs).symm
    · have hkey : Vars.HasKey c.vars i (n, ty) := by
        rcases hor with h' | h'
        · exact absurd h' he
        · exact h'
      have hget : Vars.getVar c.vars n ty = (c.vars, .ok i) := by
        unfold Vars.getVar; rw [if_neg hlen, hs]; dsimp only; rw [if_neg he]
      have hl : c.lookup n ty = .ok ({ c with vars := c.vars }, some i) := by
        unfold Core.lookup; rw [hget]; dsimp only; rw [if_neg he]
      refine Or.inr ⟨_, i, hl, ?_, ?_⟩
      · rintro rfl; exact h.value n i hi hkey
      · rintro rfl; exact h.text n i hi hkey

theorem Holds.shows {st : Store} {c : Core σ} (h : Holds U st c) : Shows U c st := by
  refine ⟨?_, fun n hn => ⟨?_, ?_⟩⟩
  · intro n isStr g hn hg hp
    obtain ⟨s, hr, _⟩ := h.table
    by_cases hex : ∃ i, i < c.vars.max ∧ Vars.HasKey c.vars i (n, tyOf isStr true)
    · obtain ⟨i, hi, hk⟩ := hex
      obtain ⟨g', p, h1, h2, h3⟩ := h.stored.arr n isStr i hi hk
      rw [show st.grid (wname n isStr) = some g from hg] at h1
      cases h1
      refine ⟨i, lookup_found hr.inv hn hi hk, fun x y hin => ⟨.elem (p + 2 + (x + y * g.d1)), ?_, h3.num x y hin, h3.str x y hin⟩⟩
      have hd := h3.dims
      have hin' := hin
      obtain ⟨hx, hy⟩ := hin'
      have hat : g.at x (g.d2.map fun _ => (y : Int)) = .ok (x, y) := by
        unfold Grid.at
        cases hd2 : g.d2 with
        | none =>
          rw [hd2] at hy
          have hy : y < 1 := hy
          rw [if_neg (fun hn => hn ⟨⟨by omega, by omega⟩, fun z hz => by cases hz⟩)]
          show (if (0 : Int) ≤ x ∧ (x : Int) < g.d1 then Out.ok ((x : Int).toNat, 0) else .err .subscriptX) = _
          rw [if_pos ⟨by omega, by omega⟩, Int.toNat_natCast]
          rw [show y = 0 by omega]
        | some d =>
          rw [hd2] at hy
          have hy : y < d := hy
          have := (hd.2 d hd2).2
          rw [if_neg (fun hn => hn ⟨⟨by omega, by omega⟩, fun z hz => by cases hz; exact (show (-524288 : Int) ≤ y ∧ (y : Int) ≤ 524287 by omega)⟩)]
          show (if (0 : Int) ≤ x ∧ (x : Int) < g.d1 then if (y : Int) = -1 then Out.ub else if 0 ≤ (y : Int) ∧ (y : Int) < d then Out.ok ((x : Int).toNat, (y : Int).toNat)
            else .err .subscriptY else .err .subscriptX) = _
          rw [if_pos ⟨by omega, by omega⟩, if_neg (by omega), if_pos ⟨by omega, by omega⟩, Int.toNat_natCast, Int.toNat_natCast]
      have hf := h3.find x (g.d2.map fun _ => (y : Int))
      rw [hat] at hf
      unfold Core.elem
      rw [h2]
      exact hf.2
    · have := h.stored.absent n isStr hn hp (fun i hi hk => hex ⟨i, hi, hk⟩)
      rw [show st.grid (wname n isStr) = some g from hg] at this
      cases this
  · intro hd
    rcases h.found (keyOf_num hd hn.2.2) hn (Or.inl rfl) with ⟨hl, hU⟩ | ⟨c', i, hl, h1, _⟩
    · rw [hl]; exact hU
    · rw [hl]; exact h1 rfl
  · have hk : keyOf (n ++ [36]) = (n, .str) := by
      rw [keyOf_str (by simp), List.dropLast_concat]
    rcases h.found hk hn (Or.inr rfl) with ⟨hl, hU⟩ | ⟨c', i, hl, _, h1⟩
    · rw [hl]; exact hU
    · rw [hl]; exact h1 rfl

/-- With a new table of variables everything is zero or empty. -/
theorem holds_fresh (c : Core σ) (k : Nat) (cv : Bool) (hv : c.vars = Vars.init (2 ^ k) cv) (hU : U.length ≤ 2 ^ k) {r : Nat}
    (hr : r = 0 ∨ c.varsErr = 0 ∧ c.arrNext + r < c.arrMax ∧ c.arrMax ≤ 1073741824) :
    Holds U (Store.empty r) c := by
  have hno : ∀ key i, ¬ Vars.HasKey c.vars i key := by
    intro key i hk
    rw [hv] at hk
    have := hk.1
    simp [Vars.init] at this
  refine ⟨⟨_, by rw [hv]; exact Vars.rel_init k cv, ?_⟩, fun n i _ hk => absurd hk (hno _ _), fun n i _ hk => absurd hk (hno _ _), fun _ _ _ => rfl, fun _ _ _ => rfl,
    ⟨fun _ _ _ _ hk => absurd hk (hno _ _), fun _ _ _ hk => absurd hk (hno _ _), fun _ _ _ _ _ => rfl,
      fun _ _ _ _ _ _ _ _ _ _ _ _ _ hk => absurd hk (hno _ _), hr⟩⟩
  show 0 + missing _ U ≤ 2 ^ k
  have : missing (Vars.Spec.init (2 ^ k) cv) U ≤ U.length := List.length_filter_le _ _
  omega

theorem start_match (hwf : ∀ l ∈ prog, l.WF) {o : List Nat} {core : Core σ} {st : Store} (ho : o = encode (progCode prog)) (hh : Holds U st core) :
    Match prog U C L (begin st core.ext) (start o L core) := by
  subst ho
  refine ⟨?_, { code := rfl, main := ⟨rfl, fun hne => (C37_start hne (items_prog prog hwf) L core).congr rfl rfl⟩, argc := rfl, frames := rfl, calls := .nil, labels := rfl, error := rfl, stack := rfl,
                holds := hh.congr rfl rfl rfl, ext := rfl }⟩
  exact Place.line 0

theorem sim_run (hperf : Performs env W C) (hL : KnowsLabels prog L) (hprog : FitsProg U C prog)
    (hsize : posAfter (progCode prog) < 16777216) :
    (n : Nat) → (cfg c : Cfg σ) → (m : Mach σ) → Match prog U C L cfg m → steps W prog n cfg = .run c →
      ∃ m', Reaches env m m' ∧ Match prog U C L c m'
  | 0, cfg, c, m, hm, h => by
    cases h
    exact ⟨m, Reaches.refl m, hm⟩
  | n + 1, cfg, c, m, hm, h => by
    have hs := sim_step hperf hL hprog hsize hm
    unfold steps at h
    cases hr : step W prog cfg with
    | run c1 =>
      rw [hr] at hs h
      obtain ⟨m1, hm1, hor⟩ := hs
      have r1 : Reaches env m m1 := by
        rcases hor with h | h
        · exact h.reaches
        · exact h.1
      obtain ⟨m', r2, hm'⟩ := sim_run hperf hL hprog hsize n c1 c m1 hm1 h
      exact ⟨m', r1.trans r2, hm'⟩
    | done er st w => rw [hr] at h; cases h
    | undefined => rw [hr] at h; cases h

theorem sim_done (hperf : Performs env W C) (hL : KnowsLabels prog L) (hprog : FitsProg U C prog)
    (hsize : posAfter (progCode prog) < 16777216) :
    (n : Nat) → (cfg : Cfg σ) → (m : Mach σ) → (er : Nat) → (st : Store) → (w : σ) → Match prog U C L cfg m →
      steps W prog n cfg = .done er st w → ∃ m', Reaches env m m' ∧ Halted m' ∧ m'.core.error = er ∧ Holds U st.closed m'.core ∧ m'.core.ext = w
  | 0, cfg, m, er, st, w, hm, h => by cases h
  | n + 1, cfg, m, er, st, w, hm, h => by
    have hs := sim_step hperf hL hprog hsize hm
    unfold steps at h
    cases hr : step W prog cfg with
    | run c1 =>
      rw [hr] at hs h
      obtain ⟨m1, hm1, hor⟩ := hs
      have r1 : Reaches env m m1 := by
        rcases hor with h | h
        · exact h.reaches
        · exact h.1
      obtain ⟨m', r2, hm'⟩ := sim_done hperf hL hprog hsize n c1 m1 er st w hm1 h
      exact ⟨m', r1.trans r2, hm'⟩
    | done er' st' w' =>
      rw [hr] at hs h
      cases h
      obtain ⟨m', r, h1, h2, h3, h4, h5⟩ := hs
      exact ⟨m', r, ⟨h1, h2.trans hm.base.frames⟩, h3, h4, h5⟩
    | undefined => rw [hr] at h; cases h

/-! ## Programs that do not end -/

theorem S.code_ne {s : S} (k : Nat) : s.code k ≠ [] := by
  cases s <;> simp [S.code, E.dimCode]

theorem Match.running {cfg : Cfg σ} {m : Mach σ} (h : Match prog U C L cfg m) (he : cfg.todo.empty = false) : m.ended = false := by
  obtain ⟨a, k, hk, hi, sk, hp, _⟩ := h.place
  obtain ⟨i, r, hir⟩ : ∃ i r, codeJoin k cfg.todo.stmts ++ (ifCode cfg.todo.last ++ (sk ++ progCode (prog.drop cfg.next))) = i :: r := by
    cases hs : cfg.todo.stmts with
    | cons s ss =>
      cases hc : s.code k with
      | nil => exact absurd hc (S.code_ne k)
      | cons i r => exact ⟨i, _, by show (s.code k ++ _) ++ _ = _; rw [hc]; rfl⟩
    | nil =>
      cases hl : cfg.todo.last with
      | none =>
        exfalso
        have : cfg.todo = ⟨[], none⟩ := by
          cases ht : cfg.todo with | mk a b => rw [ht] at hs hl; cases hs; cases hl; rfl
        rw [this] at he
        cases he
      | some x =>
        cases hc : ifCode (some x) with
        | nil => simp [ifCode] at hc
        | cons i r => exact ⟨i, _, rfl⟩
  rw [hir] at hp
  exact (h.base.at hp hi).notEnded

theorem Forever.next {cfg : Cfg σ} (h : Forever W prog cfg) : ∃ c, step W prog cfg = .run c ∧ Forever W prog c := by
  cases hr : step W prog cfg with
  | run c =>
    refine ⟨c, rfl, fun n => ?_⟩
    obtain ⟨c', hc⟩ := h (n + 1)
    unfold steps at hc
    rw [hr] at hc
    exact ⟨c', hc⟩
  | done er st w =>
    obtain ⟨c', hc⟩ := h 1
    unfold steps at hc
    rw [hr] at hc
    cases hc
  | undefined =>
    obtain ⟨c', hc⟩ := h 1
    unfold steps at hc
    rw [hr] at hc
    cases hc

theorem to_statement (hperf : Performs env W C) (hL : KnowsLabels prog L) (hprog : FitsProg U C prog)
    (hsize : posAfter (progCode prog) < 16777216) :
    (k : Nat) → (cfg : Cfg σ) → (m : Mach σ) → prog.length - cfg.next ≤ k → Match prog U C L cfg m → Forever W prog cfg →
      ∃ cfg' m', Reaches env m m' ∧ Match prog U C L cfg' m' ∧ Forever W prog cfg' ∧ cfg'.todo.empty = false
  | k, cfg, m, hk, hm, hf => by
    cases he : cfg.todo.empty with
    | false => exact ⟨cfg, m, Reaches.refl m, hm, hf, he⟩
    | true =>
      obtain ⟨c, hc, hf'⟩ := hf.next
      have hs := sim_step hperf hL hprog hsize hm
      rw [hc] at hs
      obtain ⟨m1, hm1, hor⟩ := hs
      have r1 : Reaches env m m1 := by
        rcases hor with h | h
        · exact h.reaches
        · exact h.1
      have ht : cfg.todo = ⟨[], none⟩ := by
        cases ht : cfg.todo with
        | mk a b =>
          rw [ht] at he
          cases a with
          | cons x y => cases he
          | nil => cases b with
            | none => rfl
            | some i => cases he
      have hnext : c.next = cfg.next + 1 ∧ cfg.next < prog.length := by
        unfold step at hc
        rw [ht] at hc
        dsimp only at hc
        cases hn : prog[cfg.next]? with
        | none => rw [hn] at hc; cases hc
        | some l =>
          rw [hn] at hc
          cases hc
          exact ⟨rfl, (List.getElem?_eq_some_iff.mp hn).1⟩
      cases k with
      | zero => omega
      | succ k =>
        obtain ⟨cfg', m', r2, h⟩ := to_statement hperf hL hprog hsize k c m1 (by omega) hm1 hf'
        exact ⟨cfg', m', r1.trans r2, h⟩

theorem far (hperf : Performs env W C) (hL : KnowsLabels prog L) (hprog : FitsProg U C prog)
    (hsize : posAfter (progCode prog) < 16777216) {cfg : Cfg σ} {m : Mach σ}
    (hm : Match prog U C L cfg m) (hf : Forever W prog cfg) (k : Nat) :
    ∃ cfg' m' j, k ≤ j ∧ Machine.steps env j m = .ok m' ∧ Match prog U C L cfg' m' ∧ Forever W prog cfg' ∧ cfg'.todo.empty = false := by
  induction k with
  | zero =>
    obtain ⟨cfg', m', ⟨j, hj⟩, h⟩ := to_statement hperf hL hprog hsize _ cfg m (Nat.le_refl _) hm hf
    exact ⟨cfg', m', j, Nat.zero_le _, hj, h⟩
  | succ k ih =>
    obtain ⟨c1, m1, j1, hj1, hs1, hm1, hf1, he1⟩ := ih
    obtain ⟨c2, hc2, hf2⟩ := hf1.next
    have hs := sim_step hperf hL hprog hsize hm1
    rw [hc2] at hs
    obtain ⟨m2, hm2, hor⟩ := hs
    have hg : Goes env m1 m2 := by
      rcases hor with h | h
      · exact h
      · rw [he1] at h; cases h.2.1
    obtain ⟨n2, hn2, hr2⟩ := hg
    obtain ⟨c3, m3, ⟨j3, hj3⟩, h⟩ := to_statement hperf hL hprog hsize _ c2 m2 (Nat.le_refl _) hm2 hf2
    refine ⟨c3, m3, j1 + (n2 + j3), by omega, ?_, h⟩
    rw [steps_add, hs1]
    show Machine.steps env (n2 + j3) m1 = _
    rw [steps_add, hr2]
    exact hj3

theorem halted_step {m : Mach σ} (h : Halted m) : (n : Nat) → Machine.steps env n m = .ok m
  | 0 => rfl
  | n + 1 => by
    have hs : Machine.step env m = .ok m := by
      unfold Machine.step
      rw [h.1, if_pos rfl, h.2]
    show (Machine.step env m).bind _ = _
    rw [hs]
    exact halted_step h n

theorem never_halts (hperf : Performs env W C) (hL : KnowsLabels prog L) (hprog : FitsProg U C prog)
    (hsize : posAfter (progCode prog) < 16777216) {cfg : Cfg σ} {m : Mach σ}
    (hm : Match prog U C L cfg m) (hf : Forever W prog cfg) (k : Nat) : ∃ m', Machine.steps env k m = .ok m' ∧ ¬ Halted m' := by
  obtain ⟨c', m', j, hj, hs, hm', _, he⟩ := far hperf hL hprog hsize hm hf k
  obtain ⟨d, rfl⟩ : ∃ d, j = k + d := ⟨j - k, by omega⟩
  rw [steps_add] at hs
  cases hk : Machine.steps env k m with
  | err e => rw [hk] at hs; cases hs
  | ub => rw [hk] at hs; cases hs
  | ok x =>
    refine ⟨x, rfl, fun hx => ?_⟩
    rw [hk] at hs
    have hs : Machine.steps env d x = .ok m' := hs
    rw [halted_step hx d] at hs
    cases hs
    have := hm'.running he
    rw [hx.1] at this
    cases this

/-- The state at a certain step is unique. -/
theorem halted_unique {m x y : Mach σ} (h1 : Reaches env m x) (h2 : Reaches env m y) (hx : Halted x) (hy : Halted y) : x = y := by
  obtain ⟨a, h1⟩ := h1
  obtain ⟨b, h2⟩ := h2
  have e1 : Machine.steps env (a + b) m = .ok x := by
    rw [steps_add, h1]; exact halted_step hx b
  have e2 : Machine.steps env (b + a) m = .ok y := by
    rw [steps_add, h2]; exact halted_step hy a
  rw [Nat.add_comm, e1] at e2
  exact Out.ok.inj e2

theorem fits_all (hwf : ∀ l ∈ prog, l.WF) (hU : AllVars prog U) : FitsProg U (Uses prog) prog := by
  intro l hl
  have hw := hwf l hl
  refine ⟨hw, ?_, ?_⟩
  · intro s hs
    refine ⟨hw.stmts s hs, fun x hx => hU l hl x ?_, fun d hd => ⟨l, hl, s, ?_, hd⟩⟩
    · unfold Line.vars
      exact List.mem_append.mpr (Or.inl (List.mem_flatMap.mpr ⟨s, hs, hx⟩))
    · unfold Line.all
      exact List.mem_append.mpr (Or.inl hs)
  · intro i hi
    have hi : l.last = some i := hi
    have hiw := hw.last i hi
    have hvars : ∀ x ∈ i.vars, x ∈ U := by
      intro x hx
      refine hU l hl x ?_
      unfold Line.vars
      rw [hi]
      exact List.mem_append.mpr (Or.inr hx)
    refine ⟨hiw, fun x hx => hvars x ?_, ?_⟩
    · unfold If.vars
      exact List.mem_append.mpr (Or.inl (List.mem_append.mpr (Or.inl hx)))
    · intro s hs
      have huse : ∀ d, s.command = some d → Uses prog d := by
        intro d hd
        refine ⟨l, hl, s, ?_, hd⟩
        unfold Line.all
        rw [hi]
        exact List.mem_append.mpr (Or.inr hs)
      unfold If.stmts at hs
      rcases List.mem_append.mp hs with h | h
      · cases hy : i.yes with
        | jump w => rw [hy] at h; cases h
        | run ss =>
          rw [hy] at h
          have hwy := hiw.yes
          rw [hy] at hwy
          refine ⟨hwy.2.1 s h, fun x hx => hvars x ?_, huse⟩
          unfold If.vars
          rw [hy]
          exact List.mem_append.mpr (Or.inl (List.mem_append.mpr (Or.inr (List.mem_flatMap.mpr ⟨s, h, hx⟩))))
      · cases hn : i.no with
        | none => rw [hn] at h; cases h
        | some b =>
          rw [hn] at h
          have hwn := hiw.no b hn
          cases b with
          | jump w => cases h
          | run ss =>
            refine ⟨hwn.2.1 s h, fun x hx => hvars x ?_, huse⟩
            unfold If.vars
            rw [hn]
            exact List.mem_append.mpr (Or.inr (List.mem_flatMap.mpr ⟨s, h, hx⟩))

end Sbc.Source
