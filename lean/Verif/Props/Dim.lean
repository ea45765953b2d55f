import Verif.Proof.CoreInv
import Verif.Spec.Sample
set_option autoImplicit false
/-!
# C61 A failed DIM does not affect later statements
-/
namespace Sbc.Machine
open Sbc Sbc.Tok Sbc.Tok.Spec

variable {σ : Type} {env : Env σ}

/-! ## Specification -/

/-- The rest of the system never resets the error field of the variable table (as is the case in the code: it is only
set, in `init_mem_var`). -/
structure NeverReset (env : Env σ) : Prop where
  other : ∀ op d argc c c', env.other op d argc c = .ok c' → c.varsErr ≠ 0 → c'.varsErr ≠ 0

/-- About to execute DIM. -/
def AtDim (m : Mach σ) : Prop := m.ended = false ∧ m.exec.code[m.exec.index]? = some bcDim

/-! ## Theorems -/

theorem sticky (H : NeverReset env) : CoreInv env (fun c => c.varsErr ≠ 0) where
  stack _ _ h := h
  store _ _ _ h := h
  storeStr _ _ _ h := h
  vars _ _ h := h
  error _ _ h := h
  varsErr _ _ he _ := he
  other := H.other
  arrays _ _ _ _ h := h

theorem dim_error (H : NeverReset env) {n : List Nat} {s : Bool} {argc : Nat} {c c' : Core σ} (h : execDim n s argc c = .ok c')
    (hk : c.varsErr ≠ 0) : c'.error ≠ 0 := by
  unfold execDim at h
  obtain ⟨sb, h1, h⟩ := bind_inv h
  have hs : sb.1.varsErr ≠ 0 := (sticky H).subscripts h1 hk
  dsimp only at h
  split at h
  · cases h
  · cases h; exact (show eOutOfMemory ≠ 0 by decide)
  · cases h; exact (show eDuplicateDim ≠ 0 by decide)
  · split at h
    · cases h; exact (sticky H).newArr _ _ _ hs
    · cases h

theorem step_dim {m m' : Mach σ} (hd : AtDim m) (h : step env m = .ok m') :
    ∃ n d, readName m.exec.code m.exec.index d = .ok n ∧ execDim n.1 n.2.1 m.exec.argc m.core = .ok m'.core := by
  unfold step at h
  rw [if_neg (by rw [hd.1]; decide), hd.2] at h
  cases h1 : m.exec.code[m.exec.index + 1]? with
  | none => rw [h1] at h; cases h
  | some d =>
    rw [h1] at h
    dsimp only at h
    obtain ⟨x, hx, h⟩ := bind_inv h
    have hx' : ((readName (m.skip 2).exec.code ((m.skip 2).exec.index - 2) d).bind fun n =>
        onCore ((m.skip 2).skip n.2.2) (execDim n.1 n.2.1 (m.skip 2).exec.argc (m.skip 2).core)) = .ok x := hx
    obtain ⟨n, hn, hx'⟩ := bind_inv hx'
    obtain ⟨c, hc, hx'⟩ := bind_inv hx'
    cases hx'
    cases h
    exact ⟨n, d, hn, hc⟩

/-- DIM works as long as no such error has ever occurred: if the array is new and can be allocated, no error is
reported. -/
theorem C61_dim_partial {n : List Nat} {s : Bool} {argc : Nat} {c : Core σ} {sb : Core σ × Int × Option Int} {t : Vars.Table} {i p : Nat}
    (h0 : sb.1.varsErr = 0) (hs : c.subscripts argc = .ok sb) (ha : (sb.1.newArr (Arrays.toU32 sb.2.1) (Arrays.dim2 sb.2.2)).2 = .ok (some p))
    (hn : Vars.getNewArrVar sb.1.vars n (tyOf s true) (some p) = (t, .ok i)) :
    ∃ c', execDim n s argc c = .ok c' ∧ c'.error = 0 ∧ c'.vars = t := by
  have hv : (sb.1.newArr (Arrays.toU32 sb.2.1) (Arrays.dim2 sb.2.2)).1.varsErr = sb.1.varsErr := by
    unfold Core.newArr
    dsimp only
    split <;> rfl
  unfold execDim
  rw [hs]
  simp only [Out.bind]
  rw [ha]
  dsimp only
  rw [hn]
  exact ⟨_, rfl, hv.trans h0, rfl⟩

/-- Once an error has been recorded in the variable table, every DIM of every program run later reports an error, whatever
array it creates. -/
theorem C61_later_violated (H : NeverReset env) {code : List Nat} {labels : Labels.Table} {core : Core σ} {m m' : Mach σ}
    (hk : core.varsErr ≠ 0) (h : Reaches env (start code labels core) m) (hd : AtDim m) (hs : step env m = .ok m') :
    m'.core.error ≠ 0 := by
  obtain ⟨n, d, _, hx⟩ := step_dim hd hs
  exact dim_error H hx ((sticky H).reaches h hk)

/-- And it is recorded by each repeated DIM, each variable that does not fit the table and each subscript out of
range. -/
theorem C61_recorded {n : List Nat} {s : Bool} {argc : Nat} {c : Core σ} {sb : Core σ × Int × Option Int} {t : Vars.Table}
    (hs : c.subscripts argc = .ok sb)
    (hn : ∀ a, Vars.getNewArrVar sb.1.vars n (tyOf s true) a = (t, .err .duplicateDim)) :
    ∃ c', execDim n s argc c = .ok c' ∧ c'.error = eDuplicateDim ∧ c'.varsErr ≠ 0 := by
  unfold execDim
  rw [hs]
  simp only [Out.bind]
  rw [hn]
  exact ⟨_, rfl, rfl, by show eDuplicateDim ≠ 0; decide⟩

/-! ## Example -/
namespace Sample

/-- The rest of the system does nothing. -/
def arrays : Env Unit := { other := fun _ _ _ _ => .ub }

theorem arrays_never : NeverReset arrays := ⟨fun _ _ _ _ _ h => by cases h⟩

/-- `DIM A(1)` -/
def dim (c : Nat) : List Instr := [n 1, .simple bcArgcount 1, .simple bcDim c]

/-- The state after a number of steps. -/
def after' (m : Mach Unit) (j : Nat) : Mach Unit := match steps arrays j m with | .ok m => m | _ => m

/-- `DIM A(1)`, `DIM A(1)` fails, and then `DIM B(1)` as a new program fails, too; in a fresh system it does not. -/
example : (after' (boot (dim 65 ++ dim 65) none') 6).core.error = eDuplicateDim ∧
    (after' (start (encode (dim 66)) none' (after' (boot (dim 65 ++ dim 65) none') 6).core) 3).core.error = eDuplicateDim ∧
    (after' (boot (dim 66) none') 3).core.error = 0 := by decide +kernel

example : AtDim (after' (boot (dim 65 ++ dim 65) none') 5) := by
  exact ⟨by decide +kernel, by decide +kernel⟩

end Sample
end Sbc.Machine
