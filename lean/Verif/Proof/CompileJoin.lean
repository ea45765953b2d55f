import Verif.Proof.CompileShift
import Verif.Proof.Labels
set_option autoImplicit false
/-!
# A program is its lines put together
-/
namespace Sbc.Tok.Spec
open Sbc Sbc.Tok

theorem Made.mono {r : List Nat} {t : Tk} (h : Made r t) : t.ty = .label → 1 ≤ t.text.length ∧ t.text.length ≤ 16 ∧ ∀ c ∈ t.text, c ∈ r := by
  intro ht
  unfold Made at h
  rw [ht] at h
  exact h

/-- The tokens of a line are made from suffixes of it. -/
theorem scan_made : ∀ (m : Nat) (s : Lx) (toks : List Tk), scanLine m s = .ok (.ok toks) → s.rest.length ≤ 256 →
    ∀ t ∈ toks, t ∈ s.toks ∨ ∃ u, u <:+ s.rest ∧ Made u t
  | 0, s, toks, h, _ => by cases h
  | m + 1, s, toks, h, hl => by
    unfold scanLine at h
    obtain ⟨⟨s', ctl⟩, hx, h⟩ := bind_inv h
    obtain ⟨h1, h2, -, new, h3, h4⟩ := tokNone_stepped hx
    have hle := h1.length_le
    have base : ∀ t ∈ s'.toks, t ∈ s.toks ∨ ∃ u, u <:+ s.rest ∧ Made u t := by
      intro t ht
      rw [h3] at ht
      rcases List.mem_append.mp ht with ht | ht
      · exact Or.inl ht
      · exact Or.inr ⟨s.rest, List.suffix_refl _, h4 hl t ht⟩
    cases ctl with
    | fail e => cases h
    | convert => cases h; exact base
    | next =>
      intro t ht
      rcases scan_made m s' toks h (by omega) t ht with h' | ⟨u, hu, hm⟩
      · exact base t h'
      · exact Or.inr ⟨u, hu.trans h1, hm⟩

theorem lineScan_good {a : List Nat} {toks : List Tk} (h : lineScan a = .ok (.ok toks)) (hl : a.length ≤ 255) (h0 : 0 ∉ a) :
    ∀ t ∈ toks, t.ty = .label → Names.GoodName t.text := by
  intro t ht hty
  rcases scan_made _ _ _ h (by simp; omega) t ht with h' | ⟨u, hu, hm⟩
  · cases h'
  · obtain ⟨h1, h2, h3⟩ := hm.mono hty
    refine ⟨h1, h2, fun c hc e => ?_⟩
    have := hu.subset (h3 c hc)
    simp only [List.mem_append, List.mem_singleton] at this
    rcases this with h | h
    · exact h0 (e ▸ h)
    · omega

/-- A line alone. -/
theorem alone_eq (p : Opts) (pre : Tk) (a : List Nat) (o : Obj) (h : Contained a) :
    tokenize p pre (a ++ [13]) o = (lineScan a).bind fun r => (lineEffect p pre r (Obj.fresh o)) := by
  have := tokenize_lines p pre [a] o (by simpa using h)
  have e : programText [a] = a ++ [13] := by simp [programText]
  rw [e] at this
  rw [this]
  unfold compileLines
  congr 1
  funext r
  cases lineEffect p pre r (Obj.fresh o) with
  | ub => rfl
  | err e => rfl
  | ok y =>
    obtain ⟨o', e⟩ := y
    cases e <;> rfl

/-- The relation between the label table and the list of labels, for one definition. -/
theorem add_rel {t : Labels.Table} {s : Labels.Spec.St} (r : Labels.Rel t s) {n : List Nat} (hn : Names.GoodName n) (i : Nat) :
    if (s.m.lookup n).isSome ∨ s.m.length = s.cap then (Labels.add t n i).2 = false
    else (Labels.add t n i).2 = true ∧ Labels.Rel (Labels.add t n i).1 { s with m := s.m ++ [(n, i)] } := by
  obtain ⟨h1, h2⟩ := Labels.rel_step r (.define n i) hn
  simp only [Labels.step, Labels.Spec.step] at h1 h2
  by_cases hc : (s.m.lookup n).isSome ∨ s.m.length = s.cap
  · rw [if_pos hc] at h1 ⊢
    simpa using h1
  · rw [if_neg hc] at h1 h2 ⊢
    simp only [Labels.Res.added.injEq] at h1
    exact ⟨h1, h2⟩

theorem labelIndex_rel {t : Labels.Table} {s : Labels.Spec.St} (r : Labels.Rel t s) {n : List Nat} (hn : Names.GoodName n) :
    Labels.labelIndex t n = s.m.lookup n := by
  obtain ⟨h1, _⟩ := Labels.rel_step r (.lookup n) hn
  simpa [Labels.step, Labels.Spec.step] using h1

theorem reset_rel {t : Labels.Table} {s : Labels.Spec.St} (r : Labels.Rel t s) : Labels.Rel (Labels.reset t) { s with m := [] } :=
  (Labels.rel_step r .reset trivial).2

theorem Labels_run_cap : ∀ (s : Labels.Spec.St) (ops : List Labels.Op), (Labels.Spec.run s ops).1.cap = s.cap
  | s, [] => rfl
  | s, op :: ops => by
    have h1 : (Labels.Spec.step s op).1.cap = s.cap := by
      cases op with
      | define n i => simp only [Labels.Spec.step]; split <;> rfl
      | lookup n => rfl
      | reset => rfl
    show (Labels.Spec.run (Labels.Spec.step s op).1 ops).1.cap = s.cap
    rw [Labels_run_cap, h1]

theorem TableFrom.rel {n : Nat} {t : Labels.Table} (h : TableFrom n t) : ∃ s : Labels.Spec.St, s.cap = 2 ^ n ∧ Labels.Rel t s := by
  obtain ⟨ops, h1, rfl⟩ := h
  have := (Labels.rel_run (Labels.rel_init n) ops h1).2
  refine ⟨_, ?_, this⟩
  exact Labels_run_cap ⟨2 ^ n, []⟩ ops

/-- What the compiler does with a line, given what it does with the line alone. -/
theorem line_joined {p : Opts} {pre : Tk} {o : Obj} {a : List Nat} {lab : Option (List Nat)} {code : List Nat} {n : Nat}
    (hi : p.ids = false) (hs : p.strict = false) (hc : Contained a) (h0 : 0 ∉ a) (ht : TableFrom n o.labels) (hcap : 0 < o.cap)
    (hal : Alone p pre o a lab code) {o1 : Obj} {defs : List (List Nat × Nat)} (hb : o1.buf.length % 2 = 0) (hl1 : o1.lines < o1.cap)
    (hr : Labels.Rel o1.labels ⟨2 ^ n, defs⟩) :
    code.length % 2 = 0 ∧ ∃ r o2, lineScan a = .ok r ∧ lineEffect p pre r o1 = .ok (o2, none) ∧ o2.cap = o1.cap ∧ o2.lines ≤ o1.lines + 1 ∧
      match lab with
      | none => o2.buf = o1.buf ++ code ∧ Labels.Rel o2.labels ⟨2 ^ n, defs⟩
      | some nm => if (defs.lookup nm).isSome ∨ defs.length = 2 ^ n then o2.buf = o1.buf ++ [bcError, 52] ∧ Labels.Rel o2.labels ⟨2 ^ n, defs⟩
        else o2.buf = o1.buf ++ code ∧ Labels.Rel o2.labels ⟨2 ^ n, defs ++ [(nm, o1.buf.length)]⟩ := by
  obtain ⟨⟨oa, hoa, rfl, hlab⟩, hgood⟩ := hal
  rw [alone_eq p pre a o hc] at hoa
  obtain ⟨r, hscan, heff⟩ := bind_inv hoa
  obtain ⟨s0, hs0, hrel0⟩ := ht.rel
  have hf : Labels.Rel (Obj.fresh o).labels ⟨2 ^ n, []⟩ := by
    have := reset_rel hrel0
    rw [hs0] at this
    exact this
  have hfl : (Obj.fresh o).lines < (Obj.fresh o).cap := hcap
  -- a line that defines no label
  have nolab : Labels.Rel oa.labels ⟨2 ^ n, []⟩ → lab = none := by
    intro h
    cases hl : lab with
    | none => rfl
    | some nm =>
      exfalso
      have h1 := hlab nm (hgood nm hl)
      rw [labelIndex_rel h (hgood nm hl), if_pos hl] at h1
      cases h1
  -- the statements of a line
  have conv : ∀ (toks : List Tk) (l l1 : Labels.Table) (x : Obj × Option Nat),
      convertCode false pre toks { (Obj.fresh o) with labels := l } = .ok x →
      ∃ d, d ≤ 1 ∧ convertCode false pre toks { o1 with labels := l1 } =
        .ok ({ o1 with labels := l1, buf := o1.buf ++ x.1.buf, lines := o1.lines + d }, x.2) ∧ x.1.buf.length % 2 = 0 ∧ x.1.labels = l := by
    intro toks l l1 x hx
    exact convertCode_shift pre toks { o1 with labels := l1 } { (Obj.fresh o) with labels := l } hb rfl hl1 hfl hx
  cases r with
  | error e =>
    unfold lineEffect at heff
    dsimp only at heff
    rw [if_neg (by simp [hs])] at heff
    cases heff
    have := nolab hf
    subst this
    refine ⟨by simp [Obj.error, Obj.fresh], .error e, o1.error e, hscan, ?_, rfl, by show o1.lines ≤ _; omega, ?_, hr⟩
    · unfold lineEffect; dsimp only; rw [if_neg (by simp [hs])]
    · rfl
  | ok toks =>
    cases htk : toks with
    | nil =>
      subst htk
      unfold lineEffect at heff
      cases heff
    | cons t ts =>
      have hgt : t.ty = .label → Names.GoodName t.text :=
        fun h => lineScan_good hscan hc.len h0 t (by rw [htk]; simp) h
      unfold lineEffect at heff
      dsimp only at heff
      obtain ⟨y, hy, heff⟩ := bind_inv heff
      -- the effect of the result of `tokConvert`
      have fin : ∀ (y1 : Obj × Option Nat), tokConvert p pre toks o1 = .ok y1 →
          lineEffect p pre (.ok toks) o1 = match y1.2 with
            | none => .ok (y1.1, none)
            | some e => .ok (y1.1.error e, none) := by
        intro y1 h
        unfold lineEffect
        dsimp only
        rw [h, ok_bind]
        cases y1.2 with
        | none => rfl
        | some e => dsimp only; rw [if_neg (by simp [hs])]
      have hoa' : oa = match y.2 with | none => y.1 | some e => y.1.error e := by
        cases hy2 : y.2 with
        | none => rw [hy2] at heff; cases heff; rfl
        | some e =>
          rw [hy2] at heff
          dsimp only at heff
          rw [if_neg (by simp [hs])] at heff
          cases heff; rfl
      by_cases hty : t.ty = .label
      · -- a label
        have hn := hgt hty
        have hadd0 := add_rel hf hn (Obj.fresh o).buf.length
        rw [if_neg (by have : 0 < 2 ^ n := Nat.two_pow_pos n
                       simp; omega)] at hadd0
        obtain ⟨a1, a2⟩ := hadd0
        have hy' := hy
        unfold tokConvert at hy'
        rw [htk] at hy'
        dsimp only at hy'
        rw [if_pos hty, if_neg (by rw [a1]; simp)] at hy'
        have hadd := add_rel hr hn o1.buf.length
        -- the label of the line
        have hlabel : ∀ l, Labels.Rel l ⟨2 ^ n, [(t.text, 0)]⟩ → oa.labels = l → lab = some t.text := by
          intro l hl e
          have h1 := hlab t.text hn
          rw [e, labelIndex_rel hl hn] at h1
          by_cases hlab' : lab = some t.text
          · exact hlab'
          · rw [if_neg hlab'] at h1
            simp at h1
        by_cases hnl : p.noLabels = true
        · rw [if_pos hnl] at hy'
          cases hy'
          have hlabs := hlabel _ a2 (by rw [hoa'])
          subst hlabs
          refine ⟨by rw [hoa']; rfl, .ok toks, ?_⟩
          by_cases hdup : (defs.lookup t.text).isSome ∨ defs.length = 2 ^ n
          · rw [if_pos hdup] at hadd
            have htc : tokConvert p pre toks o1 = .ok (o1, some 52) := by
              unfold tokConvert
              rw [htk]; dsimp only
              rw [if_pos hty, if_pos hadd]
            refine ⟨o1.error 52, hscan, by rw [fin _ htc], rfl, by show o1.lines ≤ _; omega, ?_⟩
            dsimp only
            rw [if_pos hdup]
            exact ⟨rfl, hr⟩
          · rw [if_neg hdup] at hadd
            obtain ⟨b1, b2⟩ := hadd
            have htc : tokConvert p pre toks o1 = .ok ({ o1 with labels := (Labels.add o1.labels t.text o1.buf.length).1 }, none) := by
              unfold tokConvert
              rw [htk]; dsimp only
              rw [if_pos hty, if_neg (by rw [b1]; simp), if_pos hnl]
            refine ⟨_, hscan, fin _ htc, rfl, by show o1.lines ≤ _; omega, ?_⟩
            dsimp only
            rw [if_neg hdup]
            refine ⟨?_, b2⟩
            rw [hoa']
            simp [Obj.fresh]
        · rw [if_neg hnl, hi, ← htk] at hy'
          have hev := conv toks _ o1.labels y hy'
          obtain ⟨d, hd, -, he1, he2⟩ := hev
          have hlabs := hlabel _ a2 (by rw [hoa']; cases y.2 <;> exact he2)
          subst hlabs
          refine ⟨?_, .ok toks, ?_⟩
          · rw [hoa']
            cases y.2 with
            | none => exact he1
            | some e =>
              show (y.1.buf ++ [bcError, e]).length % 2 = 0
              rw [List.length_append]; simp only [List.length_cons, List.length_nil]; omega
          by_cases hdup : (defs.lookup t.text).isSome ∨ defs.length = 2 ^ n
          · rw [if_pos hdup] at hadd
            have htc : tokConvert p pre toks o1 = .ok (o1, some 52) := by
              unfold tokConvert
              rw [htk]; dsimp only
              rw [if_pos hty, if_pos hadd]
            refine ⟨o1.error 52, hscan, by rw [fin _ htc], rfl, by show o1.lines ≤ _; omega, ?_⟩
            dsimp only
            rw [if_pos hdup]
            exact ⟨rfl, hr⟩
          · rw [if_neg hdup] at hadd
            obtain ⟨b1, b2⟩ := hadd
            obtain ⟨d, hd, hcv, -, -⟩ := conv toks _ (Labels.add o1.labels t.text o1.buf.length).1 y hy'
            have e : tokConvert p pre toks o1 = convertCode false pre toks { o1 with labels := (Labels.add o1.labels t.text o1.buf.length).1 } := by
                unfold tokConvert
                rw [htk]; dsimp only
                rw [if_pos hty, if_neg (by rw [b1]; simp), if_neg hnl, hi, ← htk]
            have htc := e.trans hcv
            cases hy2 : y.2 with
            | none =>
              rw [hy2] at htc hoa'
              refine ⟨_, hscan, fin _ htc, rfl, by show o1.lines + d ≤ _; omega, ?_⟩
              dsimp only
              rw [if_neg hdup]
              exact ⟨by rw [hoa'], b2⟩
            | some e =>
              rw [hy2] at htc hoa'
              refine ⟨_, hscan, fin _ htc, rfl, by show o1.lines + d ≤ _; omega, ?_⟩
              dsimp only
              rw [if_neg hdup]
              refine ⟨?_, b2⟩
              rw [hoa']
              show o1.buf ++ y.1.buf ++ [bcError, e] = o1.buf ++ (y.1.buf ++ [bcError, e])
              rw [List.append_assoc]
      · -- other statements
        have hy' := hy
        unfold tokConvert at hy'
        rw [htk] at hy'
        dsimp only at hy'
        rw [if_neg hty, hi, ← htk] at hy'
        obtain ⟨d, hd, hcv, he1, he2⟩ := conv toks (Obj.fresh o).labels o1.labels y hy'
        have hlabs : lab = none := by
          refine nolab ?_
          rw [hoa']
          have : y.1.labels = (Obj.fresh o).labels := he2
          cases y.2 with
          | none => show Labels.Rel y.1.labels _; rw [this]; exact hf
          | some e => show Labels.Rel y.1.labels _; rw [this]; exact hf
        subst hlabs
        have e : tokConvert p pre toks o1 = convertCode false pre toks { o1 with labels := o1.labels } := by
            unfold tokConvert
            rw [htk]; dsimp only
            rw [if_neg hty, hi, ← htk]
        have htc := e.trans hcv
        cases hy2 : y.2 with
        | none =>
          rw [hy2] at htc hoa'
          refine ⟨by rw [hoa']; exact he1, .ok toks, _, hscan, fin _ htc, rfl, by show o1.lines + d ≤ _; omega, ?_⟩
          exact ⟨by rw [hoa'], hr⟩
        | some e =>
          rw [hy2] at htc hoa'
          refine ⟨?_, .ok toks, _, hscan, fin _ htc, rfl, by show o1.lines + d ≤ _; omega, ?_⟩
          · rw [hoa']
            show (y.1.buf ++ [bcError, e]).length % 2 = 0
            rw [List.length_append]; simp only [List.length_cons, List.length_nil]; omega
          · refine ⟨?_, hr⟩
            rw [hoa']
            show o1.buf ++ y.1.buf ++ [bcError, e] = o1.buf ++ (y.1.buf ++ [bcError, e])
            rw [List.append_assoc]

end Sbc.Tok.Spec
