import Verif.Model.Compress
import Mathlib.Data.Nat.Bitwise
set_option autoImplicit false
namespace Sbc.Compress
open Sbc

/-- Bit `k` of a buffer, most significant bit of each byte first. -/
def bitAt (d : Nat → Nat) (k : Nat) : Bool := (d (k / 8)).testBit (7 - k % 8)

theorem testBit_big {v n i : Nat} (h : v < 2 ^ n) (hi : n ≤ i) : v.testBit i = false :=
  Nat.testBit_lt_two_pow (Nat.lt_of_lt_of_le h (Nat.pow_le_pow_right (by decide) hi))

theorem writeBits_spec (b : Buf) (out v bits : Nat) (hb : bits ≤ 8) (hv : v < 2 ^ bits) (hc : out / 8 + 1 < b.cap) :
    ∃ d, writeBits b out v bits = .ok (⟨b.cap, d⟩, out + bits) ∧
      ∀ k, bitAt d k = (bitAt b.data k || (decide (out ≤ k ∧ k < out + bits) && v.testBit (out + bits - 1 - k))) := by
  unfold writeBits
  rw [if_pos hc]
  refine ⟨_, rfl, ?_⟩
  intro k
  unfold bitAt
  by_cases h1 : k / 8 = out / 8
  · rw [h1, upd_other _ _ (by omega), upd_same, Nat.testBit_or]
    congr 1
    rw [Nat.testBit_shiftRight, Nat.testBit_shiftLeft]
    by_cases h2 : out ≤ k ∧ k < out + bits
    · have e1 : 8 + (7 - k % 8) ≥ 8 - out % 8 + (8 - bits) := by omega
      have e2 : 8 + (7 - k % 8) - (8 - out % 8 + (8 - bits)) = out + bits - 1 - k := by omega
      simp only [h2, e1, e2, and_self]
    · simp only [h2, decide_false, Bool.false_and]
      by_cases h3 : 8 + (7 - k % 8) ≥ 8 - out % 8 + (8 - bits)
      · simp only [h3, decide_true, Bool.true_and]
        exact testBit_big hv (by omega)
      · simp [h3]
  · by_cases h2 : k / 8 = out / 8 + 1
    · rw [h2, upd_same, upd_other _ _ (by omega), Nat.testBit_or]
      congr 1
      rw [show (256 : Nat) = 2 ^ 8 from rfl, Nat.testBit_mod_two_pow, Nat.testBit_shiftLeft]
      have e0 : 7 - k % 8 < 8 := by omega
      simp only [e0, decide_true, Bool.true_and]
      by_cases h3 : out ≤ k ∧ k < out + bits
      · have e1 : 7 - k % 8 ≥ 8 - out % 8 + (8 - bits) := by omega
        have e2 : 7 - k % 8 - (8 - out % 8 + (8 - bits)) = out + bits - 1 - k := by omega
        simp only [h3, e1, e2, and_self]
      · simp only [h3, decide_false, Bool.false_and]
        by_cases h4 : 7 - k % 8 ≥ 8 - out % 8 + (8 - bits)
        · exfalso; omega
        · simp [h4]
    · rw [upd_other _ _ h2, upd_other _ _ h1]
      have : ¬ (out ≤ k ∧ k < out + bits) := by omega
      simp [this]

theorem readBits_spec (b : Buf) (idx bits : Nat) (hb : bits ≤ 8) (hbyte : ∀ k, b.data k < 256)
    (hc : (idx + bits - 1) / 8 < b.cap) (hc0 : bits = 0 → idx / 8 < b.cap) :
    ∃ v, readBits b idx bits = .ok (v, idx + bits) ∧ v < 2 ^ bits ∧
      ∀ m, m < bits → v.testBit m = bitAt b.data (idx + bits - 1 - m) := by
  unfold readBits
  rw [if_neg (by omega)]
  by_cases h : idx % 8 + bits ≤ 8
  · rw [if_pos h, if_pos (by omega)]
    refine ⟨_, rfl, Nat.mod_lt _ (Nat.pow_pos (by decide)), ?_⟩
    intro m hm
    rw [Nat.testBit_mod_two_pow, Nat.testBit_shiftRight]
    simp only [hm, decide_true, Bool.true_and]
    unfold bitAt
    rw [show (idx + bits - 1 - m) / 8 = idx / 8 by omega,
      show 7 - (idx + bits - 1 - m) % 8 = 8 - idx % 8 - bits + m by omega]
  · rw [if_neg h, if_pos (by omega)]
    refine ⟨_, rfl, Nat.mod_lt _ (Nat.pow_pos (by decide)), ?_⟩
    intro m hm
    rw [Nat.testBit_mod_two_pow, Nat.testBit_shiftRight]
    simp only [hm, decide_true, Bool.true_and]
    rw [Nat.mul_comm, show (256 : Nat) = 2 ^ 8 from rfl,
      Nat.testBit_two_pow_mul_add _ (hbyte (idx / 8 + 1))]
    unfold bitAt
    by_cases h2 : 16 - idx % 8 - bits + m < 8
    · rw [if_pos h2, show (idx + bits - 1 - m) / 8 = idx / 8 + 1 by omega,
        show 7 - (idx + bits - 1 - m) % 8 = 16 - idx % 8 - bits + m by omega]
    · rw [if_neg h2, show (idx + bits - 1 - m) / 8 = idx / 8 by omega,
        show 7 - (idx + bits - 1 - m) % 8 = 16 - idx % 8 - bits + m - 8 by omega]

/-- Most significant bit first. -/
def beBits (v bits : Nat) : List Bool := (List.range bits).map fun i => v.testBit (bits - 1 - i)

/-- The bit string the compressor produces (used as an intermediate between the two programs only). -/
def enc (cb : Nat) : List Nat → (Nat → Nat) → Nat → List Bool
  | [], _, _ => []
  | u :: src, cache, slot =>
    match cacheSearch u cache (2 ^ cb) (2 ^ cb) 0 with
    | some i => false :: (beBits i cb ++ enc cb src cache slot)
    | none => true :: (beBits u 8 ++ enc cb src (upd cache slot u) ((slot + 1) % 2 ^ cb))

theorem cacheSearch_some {value : Nat} {cache : Nat → Nat} {size fuel i r : Nat}
    (h : cacheSearch value cache size fuel i = some r) : r < size ∧ cache r = value := by
  induction fuel generalizing i with
  | zero => simp [cacheSearch] at h
  | succ n ih =>
    rw [cacheSearch] at h
    split at h
    · split at h
      · injection h with h; subst h; rename_i h1 h2; exact ⟨h1, h2.symm⟩
      · exact ih h
    · simp at h

/-- The buffer holds the bits `l` from the start, and zeros up to bit `lim`. -/
def HoldsBits (d : Nat → Nat) (l : List Bool) (lim : Nat) : Prop :=
  ∀ k, k < lim → bitAt d k = l.getD k false

theorem HoldsBits.write {b : Buf} {l : List Bool} {lim v bits : Nat} (h : HoldsBits b.data l lim) (hb : bits ≤ 8)
    (hv : v < 2 ^ bits) (hc : l.length / 8 + 1 < b.cap) :
    ∃ d, writeBits b l.length v bits = .ok (⟨b.cap, d⟩, (l ++ beBits v bits).length) ∧
      HoldsBits d (l ++ beBits v bits) lim := by
  obtain ⟨d, h1, h2⟩ := writeBits_spec b l.length v bits hb hv hc
  refine ⟨d, ?_, ?_⟩
  · rw [h1]; simp [beBits]
  · intro k hk
    rw [h2, h k hk]
    by_cases hl : k < l.length
    · have : ¬ (l.length ≤ k ∧ k < l.length + bits) := by omega
      simp only [this, decide_false, Bool.false_and, Bool.or_false]
      rw [List.getD_eq_getElem?_getD, List.getD_eq_getElem?_getD, List.getElem?_append_left hl]
    · rw [List.getD_eq_getElem?_getD, List.getD_eq_getElem?_getD, List.getElem?_append_right (by omega),
        List.getElem?_eq_none (by omega)]
      by_cases hr : k < l.length + bits
      · have hc' : l.length ≤ k ∧ k < l.length + bits := by omega
        simp only [hc', and_self, decide_true, Bool.true_and, Option.getD_none, Bool.false_or]
        unfold beBits
        rw [List.getElem?_map, List.getElem?_range (by omega)]
        simp only [Option.map_some, Option.getD_some]
        congr 1; omega
      · have hc' : ¬ (l.length ≤ k ∧ k < l.length + bits) := by omega
        simp only [hc', decide_false, Bool.false_and, Option.getD_none, Bool.or_false]
        rw [List.getElem?_eq_none (by simp [beBits]; omega)]
        rfl

theorem bytesOf_mono {a b : Nat} (h : a ≤ b) : bytesOf a ≤ bytesOf b := by
  unfold bytesOf; split <;> split <;> omega

/-- The compressor on a large enough buffer: never undefined; on success it consumed everything. -/
theorem compressLoop_spec (size cb : Nat) (hcb : cb ≤ 7) (src : List Nat) (hsrc : ∀ u ∈ src, u < 256) :
    ∀ (cache : Nat → Nat) (slot : Nat) (l : List Bool) (b : Buf), size + 1 ≤ b.cap →
      HoldsBits b.data l (8 * size) →
      ∃ r b', compressLoop size cb 8 src cache slot l.length b = .ok (r, b') ∧ b'.cap = b.cap ∧
        ((r = -1 ∧ size ≤ bytesOf (l ++ enc cb src cache slot).length) ∨ (r = bytesOf (l ++ enc cb src cache slot).length ∧
          bytesOf (l ++ enc cb src cache slot).length < size ∧
          HoldsBits b'.data (l ++ enc cb src cache slot) (8 * size))) := by
  induction src with
  | nil =>
    intro cache slot l b hcap hb
    refine ⟨_, _, rfl, rfl, ?_⟩
    simp only [enc, List.append_nil]
    by_cases h : bytesOf l.length ≥ size
    · left; rw [if_pos h]; exact ⟨rfl, h⟩
    · right; rw [if_neg h]; exact ⟨rfl, by omega, hb⟩
  | cons u src ih =>
    intro cache slot l b hcap hb
    have hu : u < 256 := hsrc u (by simp)
    have ih := ih (fun x hx => hsrc x (by simp [hx]))
    rw [compressLoop]
    by_cases hlt : bytesOf l.length < size
    · rw [if_pos hlt]
      have h8 : l.length + 8 ≤ 8 * size := by unfold bytesOf at hlt; split at hlt <;> omega
      cases hcs : cacheSearch u cache (2 ^ cb) (2 ^ cb) 0 with
      | some i =>
        obtain ⟨hi, -⟩ := cacheSearch_some hcs
        obtain ⟨d1, w1, w2⟩ := hb.write (v := 0) (bits := 1) (by decide) (by decide) (by omega)
        simp only [w1, Out.bind]
        have hlen1 : (l ++ beBits 0 1).length = l.length + 1 := by simp [beBits]
        obtain ⟨d2, w3, w4⟩ := HoldsBits.write (b := ⟨b.cap, d1⟩) w2 (v := i) (bits := cb) (by omega) hi
          (by rw [hlen1]; show _ < b.cap; omega)
        simp only [w3]
        obtain ⟨r, b', e1, e2, e3⟩ := ih cache slot (l ++ beBits 0 1 ++ beBits i cb) ⟨b.cap, d2⟩ hcap w4
        refine ⟨r, b', e1, e2, ?_⟩
        have he : l ++ enc cb (u :: src) cache slot = l ++ beBits 0 1 ++ beBits i cb ++ enc cb src cache slot := by
          rw [enc, hcs]; simp [beBits]
        rw [he]; exact e3
      | none =>
        obtain ⟨d1, w1, w2⟩ := hb.write (v := 1) (bits := 1) (by decide) (by decide) (by omega)
        simp only [w1, Out.bind]
        have hlen1 : (l ++ beBits 1 1).length = l.length + 1 := by simp [beBits]
        obtain ⟨d2, w3, w4⟩ := HoldsBits.write (b := ⟨b.cap, d1⟩) w2 (v := u) (bits := 8) (by omega) hu
          (by rw [hlen1]; show _ < b.cap; omega)
        simp only [w3]
        obtain ⟨r, b', e1, e2, e3⟩ := ih (upd cache slot u) ((slot + 1) % 2 ^ cb) (l ++ beBits 1 1 ++ beBits u 8)
          ⟨b.cap, d2⟩ hcap w4
        refine ⟨r, b', e1, e2, ?_⟩
        have he : l ++ enc cb (u :: src) cache slot =
            l ++ beBits 1 1 ++ beBits u 8 ++ enc cb src (upd cache slot u) ((slot + 1) % 2 ^ cb) := by
          rw [enc, hcs]; simp [beBits]
        rw [he]; exact e3
    · rw [if_neg hlt]
      refine ⟨_, _, rfl, rfl, Or.inl ⟨if_pos (by omega), ?_⟩⟩
      have := bytesOf_mono (show l.length ≤ (l ++ enc cb (u :: src) cache slot).length by simp)
      omega

/-- Reading back a field. -/
theorem readBits_holds {b : Buf} {pre post : List Bool} {v bits : Nat} (hb : bits ≤ 8) (hv : v < 2 ^ bits)
    (hbyte : ∀ k, b.data k < 256) (hc : (pre.length + bits - 1) / 8 < b.cap) (hc0 : bits = 0 → pre.length / 8 < b.cap)
    (h : ∀ k, k < pre.length + bits → bitAt b.data k = (pre ++ beBits v bits ++ post).getD k false) :
    readBits b pre.length bits = .ok (v, (pre ++ beBits v bits).length) := by
  obtain ⟨w, h1, h2, h3⟩ := readBits_spec b pre.length bits hb hbyte hc hc0
  have : w = v := by
    apply Nat.eq_of_testBit_eq
    intro m
    by_cases hm : m < bits
    · rw [h3 m hm, h _ (by omega), List.append_assoc, List.getD_eq_getElem?_getD, List.getElem?_append_right (by omega),
        List.getElem?_append_left (by simp [beBits]; omega)]
      unfold beBits
      rw [List.getElem?_map, List.getElem?_range (by omega)]
      simp only [Option.map_some, Option.getD_some]
      congr 1; omega
    · rw [testBit_big h2 (by omega), testBit_big hv (by omega)]
  rw [h1, this]; simp [beBits]

theorem decompressLoop_spec (b : Buf) (cb : Nat) (hcb : cb ≤ 7) (hbyte : ∀ k, b.data k < 256)
    (src : List Nat) (hsrc : ∀ u ∈ src, u < 256) :
    ∀ (cache : Nat → Nat) (slot : Nat) (pre : List Bool),
      (∀ k, k < (pre ++ enc cb src cache slot).length → bitAt b.data k = (pre ++ enc cb src cache slot).getD k false) →
      ((pre ++ enc cb src cache slot).length / 8 < b.cap ∨
        (1 ≤ cb ∧ (pre ++ enc cb src cache slot).length ≤ 8 * b.cap)) →
      decompressLoop b cb src.length cache slot pre.length = .ok src := by
  induction src with
  | nil => intros; rfl
  | cons u src ih =>
    intro cache slot pre h hc
    have hu : u < 256 := hsrc u (by simp)
    have ih := ih (fun x hx => hsrc x (by simp [hx]))
    rw [List.length_cons, decompressLoop]
    cases hcs : cacheSearch u cache (2 ^ cb) (2 ^ cb) 0 with
    | some i =>
      obtain ⟨hi, hget⟩ := cacheSearch_some hcs
      have he : pre ++ enc cb (u :: src) cache slot = pre ++ beBits 0 1 ++ beBits i cb ++ enc cb src cache slot := by
        rw [enc, hcs]; simp [beBits]
      rw [he] at h hc
      have hl1 : (pre ++ beBits 0 1).length = pre.length + 1 := by simp [beBits]
      have hl2 : (pre ++ beBits 0 1 ++ beBits i cb).length = pre.length + 1 + cb := by simp [beBits]; omega
      have hl3 : (pre ++ beBits 0 1 ++ beBits i cb ++ enc cb src cache slot).length =
        pre.length + 1 + cb + (enc cb src cache slot).length := by rw [List.length_append, hl2]
      rw [hl3] at h hc
      rw [readBits_holds (v := 0) (bits := 1) (post := beBits i cb ++ enc cb src cache slot) (by decide) (by decide) hbyte
        (by omega) (by omega) (fun k hk => by rw [h k (by omega)]; simp [beBits])]
      simp only [Out.bind]
      rw [if_neg (by decide)]
      rw [readBits_holds (v := i) (bits := cb) (post := enc cb src cache slot) (by omega) hi hbyte
        (by rw [hl1]; omega) (by rw [hl1]; omega) (fun k hk => by rw [h k (by rw [hl1] at hk; omega)])]
      simp only [Out.bind]
      rw [ih cache slot (pre ++ beBits 0 1 ++ beBits i cb) (fun k hk => h k (by rw [hl3] at hk; exact hk)) (by rw [hl3]; exact hc)]
      simp only [hget]
    | none =>
      have he : pre ++ enc cb (u :: src) cache slot =
          pre ++ beBits 1 1 ++ beBits u 8 ++ enc cb src (upd cache slot u) ((slot + 1) % 2 ^ cb) := by
        rw [enc, hcs]; simp [beBits]
      rw [he] at h hc
      generalize hE : enc cb src (upd cache slot u) ((slot + 1) % 2 ^ cb) = E at *
      have hl1 : (pre ++ beBits 1 1).length = pre.length + 1 := by simp [beBits]
      have hl2 : (pre ++ beBits 1 1 ++ beBits u 8).length = pre.length + 1 + 8 := by simp [beBits]
      have hl3 : (pre ++ beBits 1 1 ++ beBits u 8 ++ E).length =
        pre.length + 1 + 8 + E.length := by rw [List.length_append, hl2]
      rw [hl3] at h hc
      rw [readBits_holds (v := 1) (bits := 1) (post := beBits u 8 ++ E) (by decide) (by decide) hbyte
        (by omega) (by omega) (fun k hk => by rw [h k (by omega)]; simp [beBits])]
      simp only [Out.bind]
      rw [if_pos (by decide)]
      rw [readBits_holds (v := u) (bits := 8) (post := E) (by omega) hu hbyte
        (by rw [hl1]; omega) (by rw [hl1]; omega) (fun k hk => by rw [h k (by rw [hl1] at hk; omega)])]
      simp only [Out.bind]
      rw [ih (upd cache slot u) ((slot + 1) % 2 ^ cb) (pre ++ beBits 1 1 ++ beBits u 8)
        (by rw [hE, hl3]; exact h) (by rw [hE, hl3]; exact hc)]

end Sbc.Compress
