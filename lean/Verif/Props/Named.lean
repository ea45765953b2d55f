import Verif.Proof.Named
import Verif.Model.Machine
set_option autoImplicit false
/-!
# C106: named data and CLEAR
-/
namespace Sbc.Named
open Sbc Sbc.Vars Sbc.Arrays Sbc.Named.Spec

/-- **C106 (partial).** For every history of a program's uses of its variables and arrays by name (with DIM, use without DIM, and CLEAR), with
room for `2 ^ n` names and `size` words, whether or not CLEAR keeps the names: what the program observes is what it would observe if
every name simply had a value or a table of its own.  Missing: the requests that the interpreter does not check (`Valid`; refuted in
C04–C06). -/
theorem C106_named_partial (e : Int) (n size : Nat) (hs : size ≤ 2147483648) (keep : Bool) (ops : List Op)
    (hv : Valid e (Spec.init (2 ^ n) size keep) ops) :
    (run e (init n size keep) ops).2 = (Spec.run e (Spec.init (2 ^ n) size keep) ops).2 :=
  (stands_run (stands_init n size hs keep) ops hv).1

theorem run_append (e : Int) (ops ops' : List Op) : ∀ d : Mem,
    run e d (ops ++ ops') = ((run e (run e d ops).1 ops').1, (run e d ops).2 ++ (run e (run e d ops).1 ops').2) := by
  induction ops with
  | nil => intro d; rfl
  | cons op ops ih =>
    intro d
    simp only [List.cons_append, run]
    rw [ih]

theorem Spec.run_append (e : Int) (ops ops' : List Op) : ∀ s : Spec.St,
    Spec.run e s (ops ++ ops') = ((Spec.run e (Spec.run e s ops).1 ops').1, (Spec.run e s ops).2 ++ (Spec.run e (Spec.run e s ops).1 ops').2) := by
  induction ops with
  | nil => intro d; rfl
  | cons op ops ih =>
    intro d
    simp only [List.cons_append, Spec.run]
    rw [ih]

theorem Spec.step_const (e : Int) (s : Spec.St) (op : Op) :
    (Spec.step e s op).1.cap = s.cap ∧ (Spec.step e s op).1.size = s.size ∧ (Spec.step e s op).1.keep = s.keep := by
  have ht : ∀ k s', touch s k = some s' → s'.cap = s.cap ∧ s'.size = s.size ∧ s'.keep = s.keep := by
    intro k s' h; unfold touch at h
    split at h
    · cases h; exact ⟨rfl, rfl, rfl⟩
    · split at h
      · cases h
      · cases h; exact ⟨rfl, rfl, rfl⟩
  have ha : ∀ k iy, (array e s k iy).1.cap = s.cap ∧ (array e s k iy).1.size = s.size ∧ (array e s k iy).1.keep = s.keep := by
    intro k iy; unfold array
    split
    · exact ⟨rfl, rfl, rfl⟩
    · rename_i s' h
      have := ht k s' h
      split
      · exact this
      · split
        · exact this
        · exact this
  cases op with
  | get n ty =>
    simp only [Spec.step]; split
    · exact ⟨rfl, rfl, rfl⟩
    · rename_i s' h; exact ht _ s' h
  | set n ty v =>
    simp only [Spec.step]; split
    · exact ⟨rfl, rfl, rfl⟩
    · rename_i s' h; exact ht _ s' h
  | dim n ty s1 s2 =>
    simp only [Spec.step]; split
    · exact ⟨rfl, rfl, rfl⟩
    · split
      · exact ⟨rfl, rfl, rfl⟩
      · rename_i s' h; exact ht _ s' h
  | elem n ty ix iy =>
    have := ha (n, ty) iy
    simp only [Spec.step]
    split
    · rename_i h; rw [h] at this; exact this
    · rename_i h; rw [h] at this
      split <;> exact this
  | setElem n ty ix iy w =>
    have := ha (n, ty) iy
    simp only [Spec.step]
    split
    · rename_i h; rw [h] at this; exact this
    · rename_i h; rw [h] at this
      split <;> exact this
  | clear => exact ⟨rfl, rfl, rfl⟩

theorem Spec.run_const (e : Int) (ops : List Op) : ∀ s : Spec.St,
    (Spec.run e s ops).1.cap = s.cap ∧ (Spec.run e s ops).1.size = s.size ∧ (Spec.run e s ops).1.keep = s.keep := by
  induction ops with
  | nil => intro s; exact ⟨rfl, rfl, rfl⟩
  | cons op ops ih =>
    intro s
    obtain ⟨h1, h2, h3⟩ := ih (Spec.step e s op).1
    obtain ⟨g1, g2, g3⟩ := Spec.step_const e s op
    exact ⟨h1.trans g1, h2.trans g2, h3.trans g3⟩

/-- **C106.** CLEAR (with names that are forgotten): after any history and CLEAR, whatever the program does next it observes the
same as a program that starts with unused memory. -/
theorem C106_clear_fresh (e : Int) (n size : Nat) (hs : size ≤ 2147483648) (ops ops' : List Op)
    (hv : Valid e (Spec.init (2 ^ n) size false) ops) (hv' : Valid e (Spec.init (2 ^ n) size false) ops') :
    (run e (init n size false) (ops ++ .clear :: ops')).2 =
      (run e (init n size false) ops).2 ++ .done :: (run e (init n size false) ops').2 := by
  obtain ⟨h1, h2⟩ := stands_run (stands_init n size hs false) ops hv
  obtain ⟨h3, h4⟩ := stands_step (e := e) h2 .clear trivial
  obtain ⟨c1, c2, c3⟩ := Spec.run_const e ops (Spec.init (2 ^ n) size false)
  have hc : (Spec.step e (Spec.run e (Spec.init (2 ^ n) size false) ops).1 .clear).1 = Spec.init (2 ^ n) size false := by
    simp only [Spec.step]
    rw [c1, c2, c3]; rfl
  rw [hc] at h4
  rw [run_append]
  show _ ++ .done :: (run e (step e (run e (init n size false) ops).1 .clear).1 ops').2 = _
  rw [(stands_run h4 ops' hv').1, ← (stands_run (stands_init n size hs false) ops' hv').1]

/-- **C106.** CLEAR (with names that are kept, as in compiled programs): after any history and CLEAR, every variable that was used is 0
or empty, and every element (below 10) of every array that was used has its default value. -/
theorem C106_clear_values (e : Int) (n size : Nat) (hs : size ≤ 2147483648) (keep : Bool) (ops : List Op)
    (hv : Valid e (Spec.init (2 ^ n) size keep) ops) (hk : keep = true) (name : List Nat) (ty : Ty) (hn : Names.GoodName name)
    (used : (name, ty) ∈ (Spec.run e (Spec.init (2 ^ n) size keep) ops).1.names) :
    (isArr ty = false → (step e (step e (run e (init n size keep) ops).1 .clear).1 (.get name ty)).2 = .value (Vars.Spec.fresh ty)) ∧
    (isArr ty = true → 13 ≤ size → ∀ ix, 0 ≤ ix → ix < 10 →
      (step e (step e (run e (init n size keep) ops).1 .clear).1 (.elem name ty ix none)).2 = .word (if ty = .strArr then e else 0)) := by
  subst hk
  obtain ⟨h1, h2⟩ := stands_run (stands_init n size hs true) ops hv
  obtain ⟨h3, h4⟩ := stands_step (e := e) h2 .clear trivial
  obtain ⟨c1, c2, c3⟩ := Spec.run_const e ops (Spec.init (2 ^ n) size true)
  generalize hsp : (Spec.run e (Spec.init (2 ^ n) size true) ops).1 = sp at *
  have hc : (Spec.step e sp .clear).1 = { Spec.init (2 ^ n) size true with names := sp.names } := by
    simp only [Spec.step]
    rw [c1, c2, c3]; rfl
  rw [hc] at h4
  refine ⟨fun ht => ?_, fun ht hsz ix h0 h9 => ?_⟩
  · rw [(stands_step (e := e) h4 (.get name ty) ⟨hn, ht⟩).1]
    simp only [Spec.step, touch]
    rw [if_pos used]; rfl
  · have hsub : Arrays.Spec.SubOk (table e ty 10 (ten none)) ix none := ⟨by omega, by omega, trivial⟩
    rw [(stands_step (e := e) h4 (.elem name ty ix none) ⟨hn, ht, hsub⟩).1]
    simp only [Spec.step, array, touch]
    rw [if_pos used]
    dsimp only [Spec.init]
    rw [if_pos (show Fits _ _ (ten none) by simp only [Fits, ten, Option.map, Arrays.Spec.count]; omega)]
    dsimp only [table]
    rw [Arrays.Spec.locate]; dsimp only
    rw [if_pos ⟨h0, h9⟩]
    rfl

/-- The variables `I` and `YP`. -/
def nameI : List Nat := [73]
def nameYP : List Nat := [89, 80]

/-- A history with scalars and arrays of the same name, two dimensions, an error, an array used without DIM, CLEAR and DIM again. -/
def sample : List Op :=
  [.set nameI .num (.num 7), .dim nameI .numArr 3 (some 4), .setElem nameI .numArr 2 (some 3) 9, .get nameI .num,
    .elem nameI .numArr 2 (some 3), .elem nameI .numArr 3 (some 0), .setElem nameYP .strArr 5 none 77, .elem nameYP .strArr 4 none,
    .clear, .get nameI .num, .elem nameI .numArr 5 none, .dim nameYP .strArr 2 none, .elem nameYP .strArr 1 none]

theorem sample_valid : Valid 1 (Spec.init (2 ^ 4) 100 false) sample := by
  refine ⟨?_, ?_, ?_, ?_, ?_, ?_, ?_, ?_, ?_, ?_, ?_, ?_, ?_, trivial⟩
  all_goals trivial

example : (run 1 (init 4 100 false) sample).2 =
    [.value (.num 7), .done, .word 9, .value (.num 7), .word 9, .error .subscriptX, .word 77, .word 1,
      .done, .value (.num 0), .word 0, .done, .word 1] := by decide +kernel

/-- **C106 (refuted case).** CLEAR within a loop: the loop keeps working on the place where its variable was, and another variable can get
this place.  `FOR I=...:CLEAR:YP=7:NEXT` adds 1 to `YP`. -/
theorem C106_loop_violated :
    let c0 : Machine.Core Unit := ⟨[], fun _ => 0, fun _ => [], Vars.init 2048 false, 0, 262144, 0, (), 0⟩
    -- the place of `I`, to which the FOR refers
    ((c0.lookup nameI .num).bind fun r => .ok r.2) = .ok (some 73) ∧
    -- CLEAR, `YP=7`, then the end of the loop (limit 10) and the value of `YP`
    ((c0.lookup nameI .num).bind fun r =>
      ({ r.1 with vars := Vars.reset r.1.vars }.lookup nameYP .num).bind fun q =>
        (Machine.finishNext ⟨⟨[], 0, some 0, 0, 0, true⟩, 0, 0⟩ []
          { core := { q.1.store (.slot (q.2.getD 0)) (7 * 4096) with stack := [.num (10 * 4096)] }
            exec := ⟨[], 0, some 0, 0, 0, false⟩, calls := [⟨false, 0, .slot 73⟩], frames := [], labels := Labels.init 4 }).bind fun m =>
          (m.core.lookup nameYP .num).bind fun w => .ok (w.2.map fun i => w.1.mem (.slot i))) = .ok (some (8 * 4096)) := by
  decide +kernel

end Sbc.Named
