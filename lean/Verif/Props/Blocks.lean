import Verif.Spec.Blocks
set_option autoImplicit false
/-!
# C108: the memory of the interpreter
-/
namespace Sbc.Blocks
open Sbc Sbc.Blocks.Spec

/-- The blocks lie one after the other from address `a` to address `e`, and the memory holds their bytes. -/
def Lies (mem : Nat → Nat) : Nat → Nat → List Nat → List Block → Prop
  | a, e, [], [] => a = e
  | a, e, p :: ps, b :: bs => p = a ∧ (∀ j v, j < b.size → b.byte j = some v → mem (p + j) = v) ∧ Lies mem (a + b.size) e ps bs
  | _, _, _, _ => False

/-- The relation between memory and blocks. -/
structure Rel (base max : Nat) (u : Use) (s : St) : Prop where
  begin : u.heap.base = base
  total : u.heap.max = max
  lies : Lies u.heap.mem base u.heap.next u.ptrs s
  room : u.heap.next ≤ base + max

theorem lies_le {mem : Nat → Nat} {a e : Nat} {ps : List Nat} {bs : List Block} (h : Lies mem a e ps bs) : e = a + used bs := by
  induction ps generalizing a bs with
  | nil => cases bs with
    | nil => simp [Lies] at h; simp [used, h]
    | cons b bs => simp [Lies] at h
  | cons p ps ih => cases bs with
    | nil => simp [Lies] at h
    | cons b bs =>
      obtain ⟨_, _, h⟩ := h
      have := ih h
      simp [used] at this ⊢
      omega

theorem lies_len {mem : Nat → Nat} {a e : Nat} {ps : List Nat} {bs : List Block} (h : Lies mem a e ps bs) : ps.length = bs.length := by
  induction ps generalizing a bs with
  | nil => cases bs with
    | nil => rfl
    | cons b bs => simp [Lies] at h
  | cons p ps ih => cases bs with
    | nil => simp [Lies] at h
    | cons b bs => simp [ih h.2.2]

/-- A block and its address. -/
theorem lies_get {mem : Nat → Nat} {a e : Nat} {ps : List Nat} {bs : List Block} (h : Lies mem a e ps bs) {i : Nat} {b : Block}
    (hb : bs[i]? = some b) : ps.getD i 0 = a + used (bs.take i) ∧ a + used (bs.take i) + b.size ≤ e ∧
      ∀ j v, j < b.size → b.byte j = some v → mem (a + used (bs.take i) + j) = v := by
  induction ps generalizing a bs i with
  | nil => cases bs with
    | nil => simp at hb
    | cons b bs => simp [Lies] at h
  | cons p ps ih => cases bs with
    | nil => simp [Lies] at h
    | cons b' bs =>
      obtain ⟨rfl, h1, h2⟩ := h
      cases i with
      | zero =>
        simp at hb; subst hb
        have := lies_le h2
        refine ⟨by simp [used], by simp [used] at this ⊢; omega, ?_⟩
        simpa [used] using h1
      | succ i =>
        simp at hb
        obtain ⟨g1, g2, g3⟩ := ih h2 hb
        refine ⟨?_, ?_, ?_⟩
        · simp [used] at g1 ⊢; omega
        · simp [used] at g2 ⊢; omega
        · intro j v hj hv
          have := g3 j v hj hv
          simp [used, Nat.add_assoc] at this ⊢
          exact this

theorem lies_mem {mem mem' : Nat → Nat} {a e : Nat} {ps : List Nat} {bs : List Block} (h : Lies mem a e ps bs)
    (heq : ∀ x, a ≤ x → x < e → mem' x = mem x) : Lies mem' a e ps bs := by
  induction ps generalizing a bs with
  | nil => cases bs with
    | nil => exact h
    | cons b bs => exact h
  | cons p ps ih => cases bs with
    | nil => exact h
    | cons b bs =>
      obtain ⟨rfl, h1, h2⟩ := h
      have := lies_le h2
      refine ⟨rfl, fun j v hj hv => ?_, ih h2 fun x hx hx' => heq x (by omega) hx'⟩
      rw [heq _ (by omega) (by omega)]
      exact h1 j v hj hv

theorem lies_snoc {mem : Nat → Nat} {a e : Nat} {ps : List Nat} {bs : List Block} (h : Lies mem a e ps bs) (b : Block)
    (hb : ∀ j v, j < b.size → b.byte j = some v → mem (e + j) = v) : Lies mem a (e + b.size) (ps ++ [e]) (bs ++ [b]) := by
  induction ps generalizing a bs with
  | nil => cases bs with
    | nil => simp [Lies] at h; subst h; exact ⟨rfl, hb, rfl⟩
    | cons b bs => simp [Lies] at h
  | cons p ps ih => cases bs with
    | nil => simp [Lies] at h
    | cons b' bs => exact ⟨h.1, h.2.1, ih h.2.2⟩

theorem lies_store {mem : Nat → Nat} {a e : Nat} {ps : List Nat} {bs : List Block} (h : Lies mem a e ps bs) {i j v : Nat} {b : Block}
    (hb : bs[i]? = some b) (hj : j < b.size) :
    Lies (fun x => if x = ps.getD i 0 + j then v else mem x) a e ps
      (bs.modify i fun b => { b with byte := fun x => if x = j then some v else b.byte x }) := by
  induction ps generalizing a bs i with
  | nil => cases bs with
    | nil => simp at hb
    | cons b bs => simp [Lies] at h
  | cons p ps ih => cases bs with
    | nil => simp [Lies] at h
    | cons b' bs =>
      obtain ⟨rfl, h1, h2⟩ := h
      cases i with
      | zero =>
        simp at hb; subst hb
        simp only [List.getD_cons_zero, List.modify_zero_cons]
        refine ⟨rfl, fun j' w hj' hw => ?_, lies_mem h2 fun x (hx : p + b'.size ≤ x) hx' => if_neg (by omega)⟩
        dsimp only at hw hj' ⊢
        by_cases hjj : j' = j
        · subst hjj
          rw [if_pos rfl] at hw; cases hw
          exact if_pos rfl
        · rw [if_neg hjj] at hw
          rw [if_neg (by omega)]
          exact h1 j' w hj' hw
      | succ i =>
        simp at hb
        simp only [List.getD_cons_succ, List.modify_succ_cons]
        have hg := lies_get h2 hb
        refine ⟨rfl, fun j' w hj' hw => ?_, ih h2 hb⟩
        dsimp only
        have g1 := hg.1
        rw [if_neg (by omega)]
        exact h1 j' w hj' hw

/-- One operation. -/
theorem rel_step {base max : Nat} {u : Use} {s : St} (h : Rel base max u s) (op : Op) (ha : Allows max s op) :
    Agrees s op (step u op).2 ∧ Rel base max (step u op).1 (Spec.step s op) := by
  obtain ⟨hb, hm, hl, hr⟩ := h
  have hn := lies_le hl
  cases op with
  | malloc size =>
    simp only [Allows] at ha
    have hadv : advance u.heap size = .ok { u.heap with next := u.heap.next + size } := by
      unfold advance
      rw [if_pos ⟨by omega, by rw [hb, hm]; omega⟩, show ((u.heap.next : Int) + (size : Int)).toNat = u.heap.next + size by omega]
    have hs : step u (.malloc size) = (⟨{ u.heap with next := u.heap.next + size }, u.ptrs ++ [u.heap.next]⟩, .block) := by
      simp only [step, malloc]; rw [hadv]; rfl
    rw [hs]
    exact ⟨rfl, hb, hm, lies_snoc hl ⟨size, fun _ => none⟩ (fun _ _ _ h => by cases h), by show u.heap.next + size ≤ _; omega⟩
  | calloc count size =>
    obtain ⟨ha, hi⟩ := ha
    have hz : (count : Int) * (size : Int) = ((count * size : Nat) : Int) := by simp
    have hadv : advance u.heap ((count * size : Nat) : Int) = .ok { u.heap with next := u.heap.next + count * size } := by
      unfold advance
      rw [if_pos ⟨by omega, by rw [hb, hm]; omega⟩,
        show ((u.heap.next : Int) + ((count * size : Nat) : Int)).toNat = u.heap.next + count * size by omega]
    have hs : step u (.calloc count size) = (⟨{ u.heap with
        next := u.heap.next + count * size
        mem := fun a => if u.heap.next ≤ a ∧ a < u.heap.next + count * size then 0 else u.heap.mem a },
          u.ptrs ++ [u.heap.next]⟩, .block) := by
      simp only [step, calloc]
      rw [hz, if_neg (by simp only [I32, Decidable.not_not]; omega), hadv]
      simp only [Out.bind]
      rw [if_neg (by omega), show ((count * size : Nat) : Int).toNat = count * size by omega]
    rw [hs]
    refine ⟨rfl, hb, hm, ?_, by show u.heap.next + count * size ≤ _; omega⟩
    refine lies_snoc (lies_mem hl fun x hx hx' => if_neg (by omega)) ⟨count * size, fun _ => some 0⟩ ?_
    intro j v hj hv
    dsimp only at hv hj
    cases hv
    exact if_pos ⟨by omega, by omega⟩
  | free i => exact ⟨rfl, hb, hm, hl, hr⟩
  | reset => exact ⟨rfl, hb, hm, hb.symm, by show u.heap.base ≤ _; omega⟩
  | store i j v =>
    obtain ⟨b, hbi, hj⟩ := ha
    obtain ⟨g1, g2, _⟩ := lies_get hl hbi
    have hs : step u (.store i j v) = (⟨{ u.heap with mem := fun x => if x = u.ptrs.getD i 0 + j then v else u.heap.mem x }, u.ptrs⟩, .done) := by
      simp only [step, store]
      rw [if_pos ⟨by rw [hb]; omega, by rw [hb, hm]; omega⟩]
    rw [hs]
    exact ⟨rfl, hb, hm, lies_store hl hbi hj, hr⟩
  | fetch i j =>
    obtain ⟨b, hbi, hj⟩ := ha
    obtain ⟨g1, g2, g3⟩ := lies_get hl hbi
    have hs : step u (.fetch i j) = (u, .byte (u.heap.mem (u.ptrs.getD i 0 + j))) := by
      simp only [step, fetch]
      rw [if_pos ⟨by rw [hb]; omega, by rw [hb, hm]; omega⟩]
    rw [hs]
    refine ⟨⟨_, rfl, ?_⟩, hb, hm, hl, hr⟩
    intro b' w hb' hw
    rw [hbi] at hb'; cases hb'
    rw [g1]
    exact g3 j w hj hw

theorem rel_run {base max : Nat} (ops : List Op) : ∀ {u : Use} {s : St}, Rel base max u s → Valid max s ops →
    AllAgree s ops (run u ops).2 ∧ Rel base max (run u ops).1 (ops.foldl Spec.step s) := by
  induction ops with
  | nil => intro u s h _; exact ⟨trivial, h⟩
  | cons op ops ih =>
    intro u s h hv
    obtain ⟨h1, h2⟩ := rel_step h op hv.1
    obtain ⟨h3, h4⟩ := ih h2 hv.2
    exact ⟨⟨h1, h3⟩, h4⟩

theorem rel_init (base max : Nat) (mem : Nat → Nat) : Rel base max ⟨init base max mem, []⟩ [] :=
  ⟨rfl, rfl, rfl, by show base ≤ _; omega⟩

/-- **C108 (partial).** In every history of requests (for as much memory as there is) and of accesses within the blocks, every request gets a
block, blocks do not interfere, and bytes of blocks requested with zeroes are 0 until something is stored there.  Missing: requests for more
memory than there is, which are not refused (refuted, `C108_exhausted_violated`). -/
theorem C108_blocks_partial (base max : Nat) (mem : Nat → Nat) (ops : List Op) (hv : Valid max [] ops) :
    AllAgree [] ops (run ⟨init base max mem, []⟩ ops).2 :=
  (rel_run ops (rel_init base max mem) hv).1

/-- **C108 (partial).** The blocks given out are disjoint and lie within the memory of the interpreter: block `i` has the size that was
requested, and of two blocks one ends before the other begins. -/
theorem C108_disjoint_partial (base max : Nat) (mem : Nat → Nat) (ops : List Op) (hv : Valid max [] ops) :
    let u := (run ⟨init base max mem, []⟩ ops).1
    let s := ops.foldl Spec.step []
    u.ptrs.length = s.length ∧
    (∀ i b, s[i]? = some b → base ≤ u.ptrs.getD i 0 ∧ u.ptrs.getD i 0 + b.size ≤ base + max) ∧
    ∀ i k b c, i < k → s[i]? = some b → s[k]? = some c → u.ptrs.getD i 0 + b.size ≤ u.ptrs.getD k 0 := by
  obtain ⟨_, hb, hm, hl, hr⟩ := rel_run ops (rel_init base max mem) hv
  refine ⟨lies_len hl, ?_, ?_⟩
  · intro i b hi
    obtain ⟨g1, g2, _⟩ := lies_get hl hi
    omega
  · intro i k b c hik hi hk
    obtain ⟨g1, _, _⟩ := lies_get hl hi
    obtain ⟨g2, _, _⟩ := lies_get hl hk
    have key : ∀ (s : St) (i k : Nat) (b : Block), i < k → s[i]? = some b → used (s.take i) + b.size ≤ used (s.take k) := by
      intro s
      induction s with
      | nil => intro i k b _ h; simp at h
      | cons x s ih =>
        intro i k b hik h
        cases k with
        | zero => omega
        | succ k =>
          cases i with
          | zero => simp at h; subst h; simp [used]
          | succ i =>
            simp at h
            have := ih i k b (by omega) h
            simp [used] at this ⊢
            omega
    have := key _ i k b hik hi
    omega

/-- The memory that a request needs (0 for other operations). -/
def need : Op → Nat
  | .malloc size => size
  | .calloc count size => count * size
  | _ => 0

/-- A request. -/
def isRequest : Op → Bool
  | .malloc _ | .calloc _ _ => true
  | _ => false

/-- Requests are all right if there is room for them all. -/
theorem valid_requests {max : Nat} (hm : max ≤ 2147483647) (ops : List Op) (hr : ∀ op ∈ ops, isRequest op = true) :
    ∀ s : St, used s + (ops.map need).sum ≤ max → Valid max s ops ∧ used (ops.foldl Spec.step s) = used s + (ops.map need).sum := by
  induction ops with
  | nil => intro s _; exact ⟨trivial, by simp⟩
  | cons op ops ih =>
    intro s hs
    simp only [List.map_cons, List.sum_cons] at hs
    have hop := hr op (by simp)
    have hu : used (Spec.step s op) = used s + need op := by
      cases op <;> simp [isRequest] at hop <;> simp [Spec.step, used, need]
    obtain ⟨h1, h2⟩ := ih (fun o ho => hr o (by simp [ho])) (Spec.step s op) (by omega)
    refine ⟨⟨?_, h1⟩, ?_⟩
    · cases op <;> simp [isRequest] at hop <;> simp only [Allows, need] at hs ⊢ <;> omega
    · simp only [List.foldl_cons, List.map_cons, List.sum_cons]
      omega

/-- **C108.** At startup all requests of the interpreter (2048 variables, 4096 strings, 262144 elements) are satisfied from the 8 MB, for any
editor that fits in the program memory and sizes of the structures up to these bounds. -/
theorem C108_startup (z : Sizes) (h1 : z.ptc ≤ 1048576) (h2 : z.namedVar ≤ 32) (h3 : z.string ≤ 32) (h4 : z.value ≤ 8)
    (h5 : z.labelLine ≤ 32) (editor lines labels : Nat) (he : editor ≤ 524288) (hl : lines ≤ 10000) (hb : labels ≤ 2048) :
    Valid 8388608 [] (startup z 2048 4096 262144 editor lines labels) := by
  have c5 : z.labelLine * labels ≤ 65536 := Nat.le_trans (Nat.mul_le_mul h5 hb) (by omega)
  refine (valid_requests (by omega) _ ?_ [] ?_).1
  · have : (startup z 2048 4096 262144 editor lines labels).all isRequest = true := by
      unfold startup
      split <;> simp [isRequest]
    exact List.all_eq_true.1 this
  · unfold startup
    simp only [List.map_append, List.map_cons, List.map_nil, List.map_replicate, List.sum_append, List.sum_cons, List.sum_nil, List.sum_replicate_nat,
      need, used]
    split <;> simp [need] <;> omega

/-- **C108 (refuted case).** A request for more memory than there is is not refused: the address computed is beyond the memory. -/
theorem C108_exhausted_violated (base max : Nat) (mem : Nat → Nat) : malloc (init base max mem) (max + 1 : Nat) = .ub := by
  unfold malloc advance init
  dsimp only
  rw [if_neg (by omega)]
  rfl

/-- The next block after these requests. -/
def nextBlock (base max : Nat) (mem : Nat → Nat) (ops : List Op) : Nat := (run ⟨init base max mem, []⟩ ops).1.heap.next

/-- **C108 (refuted case).** Blocks are not aligned for what they hold: the table of strings (structures with pointers) is requested after 770
bytes for the constant strings, so that its address is not a multiple of 4, if the memory and all structures before it are aligned. -/
theorem C108_alignment_violated (base : Nat) (mem : Nat → Nat) (z : Sizes) (hbase : base % 16 = 0) (h1 : z.ptc ≤ 1048576) (h1' : z.ptc % 8 = 0)
    (h2 : z.namedVar ≤ 32) :
    let before : List Op := [.calloc z.ptc 1, .calloc 8192 44, .calloc 512 6] ++ List.replicate 8 (.calloc 1 8192) ++
      List.replicate 4 (.calloc 49152 1) ++ List.replicate 12 (.calloc 8192 1) ++ [.calloc 2048 z.namedVar, .malloc 770]
    (∃ rest, startup z 2048 4096 262144 0 0 0 = before ++ .calloc 4096 z.string :: rest) ∧
    nextBlock base 8388608 mem before % 4 = 2 := by
  intro before
  refine ⟨⟨_, rfl⟩, ?_⟩
  have hsum : (before.map need).sum = z.ptc + 724738 + 2048 * z.namedVar := by
    simp only [before, List.map_append, List.map_cons, List.map_nil, List.map_replicate, List.sum_append, List.sum_cons, List.sum_nil,
      List.sum_replicate_nat, need]
    omega
  have hreq : ∀ op ∈ before, isRequest op = true := by
    intro op hop
    simp only [before, List.mem_append, List.mem_cons, List.mem_replicate, List.not_mem_nil, or_false] at hop
    rcases hop with ((((h | h | h) | h) | h) | h) | h | h <;> first | (subst h; rfl) | (rw [h.2]; rfl)
  obtain ⟨hv, hu⟩ := valid_requests (max := 8388608) (by omega) before hreq [] (by rw [hsum]; simp only [used, List.map_nil, List.sum_nil]; omega)
  have h := lies_le (rel_run _ (rel_init base 8388608 mem) hv).2.lies
  unfold nextBlock
  rw [h, hu, hsum]
  simp only [used, List.map_nil, List.sum_nil]
  omega

/-- A history with stores to two neighbouring blocks. -/
example : (run ⟨init 1000 64 (fun _ => 7), []⟩
    [.calloc 2 4, .malloc 3, .fetch 0 7, .fetch 1 0, .store 0 7 9, .store 1 0 5, .fetch 0 7, .fetch 1 0, .free 0, .fetch 0 7]).2 =
    [.block, .block, .byte 0, .byte 7, .done, .done, .byte 9, .byte 5, .done, .byte 9] := by decide
example : Valid 64 [] [.calloc 2 4, .malloc 3, .fetch 0 7, .fetch 1 0, .store 0 7 9, .store 1 0 5, .fetch 0 7, .fetch 1 0, .free 0] :=
  ⟨⟨by decide, by decide⟩, (by decide : 8 + 3 ≤ 64), ⟨_, rfl, by decide⟩, ⟨_, rfl, by decide⟩, ⟨_, rfl, by decide⟩, ⟨_, rfl, by decide⟩,
    ⟨_, rfl, by decide⟩, ⟨_, rfl, by decide⟩, trivial, trivial⟩

end Sbc.Blocks
