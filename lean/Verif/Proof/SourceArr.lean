import Verif.Proof.SourceExpr
import Verif.Spec.SourceMachine
set_option autoImplicit false
/-!
# Arrays of source programs in the machine
-/
namespace Sbc.Source
open Sbc Sbc.Tok Sbc.Tok.Spec Sbc.Machine

variable {σ : Type} {env : Env σ}

/-! ## Names -/

/-- A name that can be written: with type suffix it is `w`. -/
structure IsName (w n : List Nat) (isStr : Bool) : Prop where
  eq : w = wname n isStr
  good : Names.GoodName n
  plain : isStr = false → n.getLast? ≠ some 36
  first : isStr = false → ∀ c, w.head? = some c → 65 ≤ c

theorem name_cases {w : List Nat} (h : VarName w ∨ StrName w) : ∃ n isStr, IsName w n isStr := by
  rcases h with h | h
  · exact ⟨w, false, rfl, h.1, fun _ => h.2.1, fun _ => h.2.2⟩
  · exact ⟨w.dropLast, true, (dollar h.1).symm, h.2, (fun e => by cases e), (fun e => by cases e)⟩

theorem IsName.last {w n : List Nat} {isStr : Bool} (h : IsName w n isStr) : w.getLast? = some 36 ↔ isStr = true := by
  rw [h.eq]
  cases isStr with
  | true => simp [wname]
  | false => simpa [wname] using h.plain rfl

theorem IsName.key {w n : List Nat} {isStr : Bool} (h : IsName w n isStr) : keyOf (w ++ [0]) = (n, tyOf isStr true) := by
  rw [h.eq]; exact keyOf_arr h.plain

theorem IsName.len {w n : List Nat} {isStr : Bool} (h : IsName w n isStr) : 1 ≤ w.length ∧ w.length ≤ 17 ∧ (isStr = true → 2 ≤ w.length) := by
  have h1 := h.good.1
  have h2 := h.good.2.1
  rw [h.eq]
  cases isStr <;> simp [wname] <;> omega

/-- The instruction for the name `w`. -/
structure NameIns (op : Nat) (w : List Nat) (i : Instr) : Prop where
  opc : i.op = op
  form : (∃ c, w = [c] ∧ i = .simple op c) ∨ (2 ≤ w.length ∧ i = .named op w)

theorem nameIns {w n : List Nat} {isStr : Bool} (h : IsName w n isStr) : NameIns bcVariableName w (nameInstr w) := by
  have hl := h.len
  match w, hl with
  | [], hl => exact absurd hl.1 (by simp)
  | [c], _ => exact ⟨rfl, Or.inl ⟨c, rfl, rfl⟩⟩
  | x :: y :: r, _ => exact ⟨rfl, Or.inr ⟨by simp, rfl⟩⟩

theorem dimIns {w n : List Nat} {isStr : Bool} (h : IsName w n isStr) : NameIns bcDim w (dimInstr w) := by
  have hl := h.len
  match w, hl with
  | [], hl => exact absurd hl.1 (by simp)
  | [c], _ => exact ⟨rfl, Or.inl ⟨c, rfl, rfl⟩⟩
  | x :: y :: r, _ => exact ⟨rfl, Or.inr ⟨by simp, rfl⟩⟩

theorem read_ins {m : Mach σ} {a b : List Instr} {op : Nat} {w n : List Nat} {isStr : Bool} {i : Instr} (h : At m a (i :: b)) (hw : IsName w n isStr)
    (hi : NameIns op w i) : readName (m.skip 2).exec.code ((m.skip 2).exec.index - 2) (arg i) = .ok (n, isStr, (tail i).length) := by
  have hlen := hw.len
  rcases hi.form with ⟨c, rfl, rfl⟩ | ⟨h2, rfl⟩
  · have hs : isStr = false := by
      cases isStr with
      | false => rfl
      | true => exact absurd (hlen.2.2 rfl) (by simp)
    subst hs
    have h65 := hw.first rfl c rfl
    have hn : [c] = n := hw.eq
    show readName _ _ c = _
    unfold readName
    rw [if_neg (by omega), hn]
    rfl
  · show readName _ _ w.length = _
    have hd : m.exec.code.drop (m.exec.index + 2) = padText w ++ encode b := h.drop
    unfold readName
    rw [if_pos (by omega)]
    rw [show (m.skip 2).exec.index - 2 + 2 = m.exec.index + 2 from by show m.exec.index + 2 - 2 + 2 = _; omega]
    rw [show (m.skip 2).exec.code = m.exec.code from rfl, hd]
    dsimp only
    rw [take_pad, if_neg (by omega), show tail (.named op w) = padText w from rfl, Machine.padText_length]
    cases isStr with
    | true =>
      rw [if_pos (hw.last.mpr rfl)]
      have : w.dropLast = n := by rw [hw.eq]; simp [wname]
      rw [this]
    | false =>
      rw [if_neg (fun e => by have := hw.last.mp e; cases this)]
      have : w = n := hw.eq
      rw [this]

/-! ## Subscripts and an instruction with a name -/

/-- The number of arguments and the instruction with the name. -/
theorem name_step {m : Mach σ} {a b code : List Instr} {k op : Nat} {w n : List Nat} {isStr : Bool} {i : Instr} {c' c'' : Core σ}
    (h : At m a ((code ++ [.simple bcArgcount k, i]) ++ b)) (hargc : m.exec.argc = 0) (hr : Reaches env m (Machine.after m a code c')) (herr : c'.error = 0)
    (hw : IsName w n isStr) (hi : NameIns op w i) (hop : hasName op = true)
    (hx : (if op = bcDim then execDim n isStr k c' else execName (op == bcArrayName) n isStr k c') = .ok c'') :
    Reaches env m (Machine.after m a (code ++ [.simple bcArgcount k, i]) c'') := by
  have hat : At (Machine.after m a code c') (a ++ code) (.simple bcArgcount k :: i :: b) := by
    have : At m a (code ++ (.simple bcArgcount k :: i :: b)) := by
      rw [List.append_assoc] at h; exact h
    exact this.after herr
  have hs1 := hat.step (env := env)
  rw [show (Instr.simple bcArgcount k).op = bcArgcount from rfl, show arg (.simple bcArgcount k) = k from rfl,
    show execInstr env bcArgcount k ((Machine.after m a code c').skip 2) =
      .ok { (Machine.after m a code c').skip 2 with exec := { ((Machine.after m a code c').skip 2).exec with argc := k } } from rfl] at hs1
  simp only [Out.bind] at hs1
  rw [show clearArgc (σ := σ) bcArgcount = id from by funext m; simp [clearArgc]] at hs1
  simp only [id] at hs1
  generalize hM : ({ (Machine.after m a code c').skip 2 with exec := { ((Machine.after m a code c').skip 2).exec with argc := k } } : Mach σ) = M at hs1
  have hr1 := hr.trans (Reaches.one hs1)
  have hMc : M.core = c' := by rw [← hM]; rfl
  have hMa : M.exec.argc = k := by rw [← hM]
  have hMat : At M (a ++ code ++ [.simple bcArgcount k]) (i :: b) := by
    refine ⟨?_, ?_, by rw [hMc]; exact herr⟩
    · rw [← hM]
      show m.exec.code = _
      rw [h.code]; simp
    · rw [← hM]
      show posAfter (a ++ code) + 2 = _
      rw [posAfter_snoc]; rfl
  have hs2 := hMat.step (env := env)
  rw [hi.opc, exec_named _ _ _ hop, read_ins hMat hw hi] at hs2
  have hs2 : Machine.step env M = (onCore ((M.skip 2).skip (tail i).length)
    (if op = bcDim then execDim n isStr M.exec.argc M.core else execName (op == bcArrayName) n isStr M.exec.argc M.core)).bind fun m' => .ok (clearArgc op m') := hs2
  rw [hMa, hMc, hx] at hs2
  have hna : op ≠ bcArgcount := by rintro rfl; revert hop; decide
  refine hr1.trans ?_
  have e : Machine.after m a (code ++ [.simple bcArgcount k, i]) c'' = clearArgc op { (M.skip 2).skip (tail i).length with core := c'' } := by
    rw [clearArgc_ne hna, ← hM]
    simp only [Machine.after, Mach.skip]
    rw [show a ++ (code ++ [Instr.simple bcArgcount k, i]) = (a ++ code ++ [.simple bcArgcount k]) ++ [i] by simp,
      posAfter_snoc, posAfter_snoc, hargc]
    rfl
  rw [e]
  exact Reaches.one hs2

/-- The subscripts of values. -/
def subsOf : List Val → Option (Int × Option Int)
  | [.num n] => some (n / 4096, none)
  | [.num n, .num m] => some (n / 4096, some (m / 4096))
  | _ => none

theorem argNum_at {c : Core σ} {i : Nat} {en : Entry} {v : Int} (h : c.stack[i]? = some en) (hv : c.num en = .ok v) : c.argNum i = .ok v := by
  unfold Core.argNum
  rw [h]
  exact hv

theorem subs_one {c : Core σ} {rest : List Entry} {en : Entry} {v : Int} (hs : c.stack = rest ++ [en]) (hv : c.num en = .ok v) :
    c.subscripts 1 = .ok ({ c with stack := rest }, v / 4096, none) := by
  unfold Core.subscripts
  have hl : c.stack.length = rest.length + 1 := by rw [hs]; simp
  rw [if_neg (by omega)]
  dsimp only
  rw [if_neg (by decide), hl, argNum_at (en := en) (by rw [hs]; simp) hv]
  show Out.ok _ = _
  rw [hs]
  simp [fpToInt]

theorem subs_two {c : Core σ} {rest : List Entry} {e1 e2 : Entry} {v u : Int} (hs : c.stack = rest ++ [e1, e2]) (h1 : c.num e1 = .ok v)
    (h2 : c.num e2 = .ok u) : c.subscripts 2 = .ok ({ c with stack := rest }, v / 4096, some (u / 4096)) := by
  unfold Core.subscripts
  have hl : c.stack.length = rest.length + 2 := by rw [hs]; simp
  rw [if_neg (by omega)]
  dsimp only
  rw [if_pos rfl, hl, argNum_at (en := e1) (by rw [hs]; simp) h1]
  show ((c.argNum _).bind _) = _
  rw [argNum_at (en := e2) (by rw [hs]; simp) h2]
  show Out.ok _ = _
  rw [hs]
  simp [fpToInt]

theorem subs_of {U : List (List Nat)} {st : Store} {c : Core σ} {rest ens : List Entry} {vs : List Val} {x : Int} {y : Option Int} (hs : c.stack = rest ++ ens)
    (hf : List.Forall₂ (Stands st c) ens vs) (hh : Holds U st c) (hv : subsOf vs = some (x, y)) :
    c.subscripts vs.length = .ok ({ c with stack := rest }, x, y) ∧ vs.length ≠ 0 := by
  match vs, hv with
  | [.num n], hv =>
    obtain ⟨rfl, rfl⟩ := Prod.mk.inj (Option.some.inj hv)
    cases hf with
    | cons h1 h2 => cases h2; exact ⟨subs_one hs (h1.number hh).2, by simp⟩
  | [.num n, .num k], hv =>
    obtain ⟨rfl, rfl⟩ := Prod.mk.inj (Option.some.inj hv)
    cases hf with
    | cons h1 h2 => cases h2 with
      | cons h2 h3 => cases h3; exact ⟨subs_two hs (h1.number hh).2 (h2.number hh).2, by simp⟩

/-! ## Elements -/

theorem Grid.ofs_lt {g : Grid} {x y : Nat} (h : g.In x y) : x + y * g.d1 < g.size := by
  obtain ⟨h1, h2⟩ := h
  unfold Grid.size
  have : (y + 1) * g.d1 ≤ g.d2.getD 1 * g.d1 := Nat.mul_le_mul_right _ h2
  rw [Nat.add_mul, Nat.mul_comm _ g.d1] at this
  rw [Nat.mul_comm] at this
  rw [Nat.mul_comm g.d1]
  nlinarith

theorem Grid.ofs_inj {g : Grid} {x y x' y' : Nat} (h : g.In x y) (h' : g.In x' y') (e : x + y * g.d1 = x' + y' * g.d1) : x = x' ∧ y = y' := by
  have hd : 0 < g.d1 := Nat.lt_of_le_of_lt (Nat.zero_le _) h.1
  have e1 : (x + y * g.d1) / g.d1 = y := by rw [Nat.add_mul_div_right _ _ hd, Nat.div_eq_of_lt h.1]; omega
  have e2 : (x' + y' * g.d1) / g.d1 = y' := by rw [Nat.add_mul_div_right _ _ hd, Nat.div_eq_of_lt h'.1]; omega
  have : y = y' := by rw [← e1, ← e2, e]
  subst this
  exact ⟨by omega, rfl⟩

/-- What an access to an element finds. -/
def Finds (c : Core σ) (p : Nat) (g : Grid) (r : Out (Core σ × Except Nat Ptr)) : Out (Nat × Nat) → Prop
  | .ok q => g.In q.1 q.2 ∧ r = .ok (c, .ok (.elem (p + 2 + (q.1 + q.2 * g.d1))))
  | .err e => r = .ok (c, .error (errNum e)) ∧ errNum e ≠ 0
  | .ub => True

theorem Laid.find {c : Core σ} {p : Nat} {g : Grid} (h : Laid c p g) (x : Int) (y : Option Int) : Finds c p g (c.findElem p x y) (g.at x y) := by
  have hd1 := h.dims.1
  have hfit := h.fits
  have htop := h.top
  have s0 : Arrays.arrSize c.pool p 0 = g.d1 := by
    show (c.mem (.elem p)).toNat = _
    rw [h.first]; rfl
  have hsize : c.pool.size = c.arrMax := rfl
  unfold Grid.at
  by_cases hI : IntPart x ∧ ∀ z ∈ y, IntPart z
  swap
  · rw [if_pos hI]; trivial
  rw [if_neg (fun hn => hn hI)]
  obtain ⟨⟨hx0, hx1⟩, hy⟩ := hI
  have hix : Arrays.toU32 x < Arrays.arrSize c.pool p 0 ↔ (0 ≤ x ∧ x < g.d1) := by
    rw [s0]
    rcases Int.lt_or_le x 0 with hneg | hpos
    · have := Arrays.toU32_of_neg hneg (by omega); omega
    · have := Arrays.toU32_of_nonneg hpos (by omega); omega
  cases hd : g.d2 with
  | none =>
    cases y with
    | some y => trivial
    | none =>
      dsimp only
      by_cases hin : 0 ≤ x ∧ x < g.d1
      · rw [if_pos hin]
        have hG : g.In x.toNat 0 := ⟨by omega, by rw [hd]; simp⟩
        have hlt := Grid.ofs_lt hG
        have hu := Arrays.toU32_of_nonneg hin.1 (by omega)
        refine ⟨hG, ?_⟩
        unfold Core.findElem Arrays.entryChecked
        rw [if_pos (hix.mpr hin), if_pos (show Arrays.dim2 none = Arrays.unused from rfl)]
        have he : Arrays.entry c.pool p (Arrays.toU32 x) 0 = p + 2 + (x.toNat + 0 * g.d1) := by
          unfold Arrays.entry; rw [s0]; simp only [Nat.zero_mul, Nat.add_zero]; omega
        rw [he]
        dsimp only
        rw [if_pos (by omega)]
      · rw [if_neg hin]
        refine ⟨?_, by decide⟩
        unfold Core.findElem Arrays.entryChecked
        rw [if_neg (fun hc => hin (hix.mp hc))]
        rfl
  | some d =>
    cases y with
    | none => trivial
    | some y =>
      dsimp only
      have hdd := h.dims.2 d (by rw [hd]; rfl)
      obtain ⟨hy0, hy1⟩ := hy y rfl
      by_cases hin : 0 ≤ x ∧ x < g.d1
      · rw [if_pos hin]
        by_cases hm1 : y = -1
        · rw [if_pos hm1]; trivial
        rw [if_neg hm1]
        have s1 : Arrays.arrSize c.pool p 1 = d := by
          show (c.mem (.elem (p + 1))).toNat = _
          rw [h.second, hd]; rfl
        have hnu : Arrays.dim2 (some y) ≠ Arrays.unused := by
          show Arrays.toU32 y ≠ 4294967295
          rcases Int.lt_or_le y 0 with hneg | hpos
          · have := Arrays.toU32_of_neg hneg (by omega); omega
          · have := Arrays.toU32_of_nonneg hpos (by omega); omega
        have hiy : Arrays.dim2 (some y) < Arrays.arrSize c.pool p 1 ↔ (0 ≤ y ∧ y < d) := by
          rw [s1]; show Arrays.toU32 y < _ ↔ _
          rcases Int.lt_or_le y 0 with hneg | hpos
          · have := Arrays.toU32_of_neg hneg (by omega); omega
          · have := Arrays.toU32_of_nonneg hpos (by omega); omega
        by_cases hyin : 0 ≤ y ∧ y < d
        · rw [if_pos hyin]
          have hG : g.In x.toNat y.toNat := ⟨by omega, by rw [hd]; show y.toNat < d; omega⟩
          have hlt := Grid.ofs_lt hG
          have hu : Arrays.toU32 x = x.toNat := by have := Arrays.toU32_of_nonneg hin.1 (by omega); omega
          have hv : Arrays.toU32 y = y.toNat := by have := Arrays.toU32_of_nonneg hyin.1 (by omega); omega
          refine ⟨hG, ?_⟩
          unfold Core.findElem Arrays.entryChecked
          rw [if_pos (hix.mpr hin), if_neg hnu, if_pos (hiy.mpr hyin)]
          have he : Arrays.entry c.pool p (Arrays.toU32 x) (Arrays.dim2 (some y)) = p + 2 + (x.toNat + y.toNat * g.d1) := by
            unfold Arrays.entry; rw [s0]
            show p + 2 + (Arrays.toU32 x + Arrays.toU32 y * g.d1) % 4294967296 = _
            rw [hu, hv, Nat.mod_eq_of_lt (by omega)]
          rw [he]
          dsimp only
          rw [if_pos (by omega)]
        · rw [if_neg hyin]
          refine ⟨?_, by decide⟩
          unfold Core.findElem Arrays.entryChecked
          rw [if_pos (hix.mpr hin), if_neg hnu, if_neg (fun hc => hyin (hiy.mp hc))]
          rfl
      · rw [if_neg hin]
        refine ⟨?_, by decide⟩
        unfold Core.findElem Arrays.entryChecked
        rw [if_neg (fun hc => hin (hix.mp hc))]
        rfl

/-- The array of a name. -/
structure Array' (st : Store) (c : Core σ) (w n : List Nat) (isStr : Bool) (g : Grid) (i p : Nat) : Prop where
  grid : st.grid w = some g
  lt : i < c.vars.max
  key : Vars.HasKey c.vars i (n, tyOf isStr true)
  val : (c.vars.slots i).val = .arr (some p)
  laid : Laid c p g

theorem grid_slot {U : List (List Nat)} {st : Store} {c : Core σ} (hh : Holds U st c) {w n : List Nat} {isStr : Bool} (hw : IsName w n isStr) {g : Grid}
    (hg : st.grid w = some g) : ∃ i p, Array' st c w n isStr g i p ∧ c.lookup n (tyOf isStr true) = .ok (c, some i) := by
  obtain ⟨s, hr, _⟩ := hh.table
  by_cases hex : ∃ i, i < c.vars.max ∧ Vars.HasKey c.vars i (n, tyOf isStr true)
  · obtain ⟨i, hi, hk⟩ := hex
    obtain ⟨g', p, h1, h2, h3⟩ := hh.stored.arr n isStr i hi hk
    rw [← hw.eq, hg] at h1
    cases h1
    exact ⟨i, p, ⟨hg, hi, hk, h2, h3⟩, lookup_found hr.inv hw.good hi hk⟩
  · have := hh.stored.absent n isStr hw.good hw.plain (fun i hi hk => hex ⟨i, hi, hk⟩)
    rw [← hw.eq, hg] at this
    cases this

/-- An access to an element of an array. -/
theorem name_elem {U : List (List Nat)} {st : Store} {c : Core σ} {rest ens : List Entry} {vs : List Val} {x : Int} {y : Option Int} {w n : List Nat} {isStr : Bool}
    {g : Grid} (hs : c.stack = rest ++ ens) (hl : rest.length < 100) (hf : List.Forall₂ (Stands st c) ens vs) (hh : Holds U st c) (hv : subsOf vs = some (x, y))
    (hw : IsName w n isStr) (hg : st.grid w = some g) :
    match g.at x y with
    | .ok q => g.In q.1 q.2 ∧ ∃ i p, Array' st c w n isStr g i p ∧ execName false n isStr vs.length c =
        .ok { c with stack := rest ++ [.var isStr false (.elem (p + 2 + (q.1 + q.2 * g.d1)))] }
    | .err e => errNum e ≠ 0 ∧ execName false n isStr vs.length c = .ok { c with stack := rest, error := errNum e, varsErr := errNum e }
    | .ub => True := by
  obtain ⟨hsub, hne⟩ := subs_of hs hf hh hv
  have hh2 := hh.stack rest
  obtain ⟨i, p, ha, hlk⟩ := grid_slot hh2 hw hg
  have hfind := ha.laid.find x y
  have hel : ({ c with stack := rest } : Core σ).elem i x y = ({ c with stack := rest } : Core σ).findElem p x y := by
    unfold Core.elem
    rw [ha.val]
  have hex : execName false n isStr vs.length c = (({ c with stack := rest } : Core σ).findElem p x y).bind fun q =>
      match q.2 with
      | .ok p => q.1.push (.var isStr false p)
      | .error e => .ok { q.1 with error := e, varsErr := e } := by
    unfold execName
    rw [if_neg hne, hsub]
    show ((({ c with stack := rest } : Core σ).lookup n (tyOf isStr true)).bind _) = _
    rw [hlk]
    show ((({ c with stack := rest } : Core σ).elem i x y).bind _) = _
    rw [hel]
    generalize ({ c with stack := rest } : Core σ).findElem p x y = z
    cases z with
    | ok q => obtain ⟨q1, q2⟩ := q; cases q2 <;> rfl
    | err e => rfl
    | ub => rfl
  cases hat : g.at x y with
  | ub => trivial
  | err e =>
    rw [hat] at hfind
    refine ⟨hfind.2, ?_⟩
    rw [hex, hfind.1]
    rfl
  | ok q =>
    rw [hat] at hfind
    refine ⟨hfind.1, i, p, ⟨hg, ha.lt, ha.key, ha.val, ha.laid.congr (fun _ => rfl) (fun _ => rfl) rfl rfl⟩, ?_⟩
    rw [hex, hfind.2]
    exact push_ok _ _ hl

end Sbc.Source
