import Verif.Proof.Compress
set_option autoImplicit false
/-!
# C23: compression
-/
namespace Sbc.Compress
open Sbc

/-- The first `n` bytes of a buffer. -/
def Spec.bytes (d : Nat → Nat) (n : Nat) : List Nat := (List.range n).map d

theorem bitAt_of_agree {d e : Nat → Nat} {n k : Nat} (h : ∀ i, i < n → d i = e i) (hk : k < 8 * n) :
    bitAt d k = bitAt e k := by
  unfold bitAt; rw [h _ (by omega)]

theorem compress_spec (src : List Nat) (hsrc : ∀ u ∈ src, u < 256) (cb : Nat) (hcb : cb ≤ 7) (b : Buf)
    (hcap : src.length + 1 ≤ b.cap) :
    ∃ r b', compress src b cb 8 = .ok (r, b') ∧ b'.cap = b.cap ∧ ((r = -1 ∧ src.length ≤ bytesOf (enc cb src cacheInit 0).length) ∨
      (r = bytesOf (enc cb src cacheInit 0).length ∧ bytesOf (enc cb src cacheInit 0).length < src.length ∧
        HoldsBits b'.data (enc cb src cacheInit 0) (8 * src.length))) := by
  unfold compress
  rw [if_neg (by omega), if_neg (by omega), if_pos (by omega)]
  have := compressLoop_spec src.length cb hcb src hsrc cacheInit 0 []
    { b with data := fun k => if k < src.length then 0 else b.data k } hcap (by
      intro k hk
      unfold bitAt
      simp only []
      rw [if_pos (by omega)]
      simp)
  simpa using this

/-- **C23.** For every byte sequence, cache size (0 to 7 bits) and output buffer (one byte larger than the
source, with any contents), the compressor terminates without touching memory outside the buffer and either
reports failure or returns a number of bytes smaller than the source size; decompressing *any* buffer that
starts with those bytes (with one byte of slack if the cache size is 0) gives back the source. -/
theorem C23_roundtrip (src : List Nat) (hsrc : ∀ u ∈ src, u < 256) (cb : Nat) (hcb : cb ≤ 7) (b : Buf)
    (hcap : src.length + 1 ≤ b.cap) :
    ∃ r b', compress src b cb 8 = .ok (r, b') ∧ b'.cap = b.cap ∧ (r = -1 ∨
      ∃ n : Nat, r = n ∧ n < src.length ∧
        ∀ c : Buf, (∀ k, c.data k < 256) → (∀ k, k < n → c.data k = b'.data k) → n ≤ c.cap → (cb = 0 → n < c.cap) →
          decompress c src.length cb = .ok src) := by
  obtain ⟨r, b', h1, h2, h3⟩ := compress_spec src hsrc cb hcb b hcap
  refine ⟨r, b', h1, h2, ?_⟩
  rcases h3 with ⟨h3, -⟩ | ⟨h3, h4, h5⟩
  · exact Or.inl h3
  · right
    refine ⟨_, h3, h4, ?_⟩
    intro c hbyte hag hn hn0
    have hlen : (enc cb src cacheInit 0).length ≤ 8 * bytesOf (enc cb src cacheInit 0).length := by
      unfold bytesOf; split <;> omega
    unfold decompress
    rw [if_neg (by omega)]
    have := decompressLoop_spec c cb hcb hbyte src hsrc cacheInit 0 [] (by
      intro k hk
      simp only [List.nil_append] at *
      rw [bitAt_of_agree hag (by omega), h5 k (by omega)]) (by
      simp only [List.nil_append]
      by_cases h0 : cb = 0
      · left
        have := hn0 h0
        unfold bytesOf at this
        omega
      · right; omega)
    simpa using this

/-- **C23.** `sbc_compress` with cache size -1 copies the source. -/
theorem C23_store (src : List Nat) (b : Buf) (hcap : src.length ≤ b.cap) (unit : Nat) :
    ∃ b', compress src b (-1) unit = .ok ((src.length : Int), b') ∧ Spec.bytes b'.data src.length = src := by
  unfold compress
  rw [if_pos rfl, if_pos hcap]
  refine ⟨_, rfl, ?_⟩
  unfold Spec.bytes
  apply List.ext_getElem
  · simp
  · intro i h1 h2
    simp [h2]

theorem optimalLoop_spec (src : List Nat) (hsrc : ∀ u ∈ src, u < 256) (cap : Nat) (hcap : src.length + 1 ≤ cap) :
    ∀ (ks : List Nat) (b : Buf) (size bits : Int), (∀ k ∈ ks, k ≤ 7) → b.cap = cap →
      ((bits = -1 ∧ size = src.length) ∨ (∃ cb : Nat, bits = cb ∧ cb ≤ 7 ∧ size < src.length ∧
        size = bytesOf (enc cb src cacheInit 0).length)) →
      ∃ b' size' bits', optimalLoop src 8 ks b size bits = .ok (b', size', bits') ∧ b'.cap = cap ∧ size' ≤ size ∧
        ((bits' = -1 ∧ size' = src.length) ∨ (∃ cb : Nat, bits' = cb ∧ cb ≤ 7 ∧ size' < src.length ∧
          size' = bytesOf (enc cb src cacheInit 0).length)) := by
  intro ks
  induction ks with
  | nil => intro b size bits _ hb h; exact ⟨b, size, bits, rfl, hb, Int.le_refl _, h⟩
  | cons k ks ih =>
    intro b size bits hk hb h
    obtain ⟨r, b', h1, h2, h3⟩ := compress_spec src hsrc k (hk k (by simp)) b (by omega)
    rw [optimalLoop, h1]
    simp only [Out.bind]
    split
    · rename_i hr
      obtain ⟨b2, s2, t2, e1, e2, e3, e4⟩ := ih b' r k (fun x hx => hk x (by simp [hx])) (by omega) (by
        rcases h3 with h3 | ⟨h3, h4, h5⟩
        · omega
        · exact Or.inr ⟨k, rfl, hk k (by simp), by omega, h3⟩)
      exact ⟨b2, s2, t2, e1, e2, by omega, e4⟩
    · exact ih b' size bits (fun x hx => hk x (by simp [hx])) (by omega) h

/-- **C23.** `sbc_optimal_compress` never produces more bytes than the source has; its output, tagged with
the cache size it reports, decompresses to the source (cache size -1 meaning stored uncompressed). -/
theorem C23_optimal (src : List Nat) (hsrc : ∀ u ∈ src, u < 256) (cap : Nat) (hcap : src.length + 1 ≤ cap) :
    ∃ (b : Buf) (n : Nat) (bits : Int), optimalCompress src cap 8 = .ok (b, n, bits) ∧ n ≤ src.length ∧
      (bits = -1 ∧ n = src.length ∧ Spec.bytes b.data n = src ∨
       0 ≤ bits ∧ n < src.length ∧
        ∀ c : Buf, (∀ k, c.data k < 256) → (∀ k, k < n → c.data k = b.data k) → n ≤ c.cap → (bits = 0 → n < c.cap) →
          decompress c src.length bits = .ok src) := by
  obtain ⟨b, size, bits, h1, h2, h3, h4⟩ := optimalLoop_spec src hsrc cap hcap [0, 1, 2, 3, 4, 5, 6, 7] ⟨cap, fun _ => 0⟩
    src.length (-1) (by decide) rfl (Or.inl ⟨rfl, rfl⟩)
  unfold optimalCompress
  rw [h1]
  simp only [Out.bind]
  rcases h4 with ⟨hb, hs⟩ | ⟨cb, hb, hcb, hs, hs2⟩
  · subst hb
    obtain ⟨b', e1, e2⟩ := C23_store src b (by omega) 8
    rw [e1]
    exact ⟨b', src.length, -1, by rw [hs], Nat.le_refl _, Or.inl ⟨rfl, rfl, e2⟩⟩
  · subst hb
    obtain ⟨r, b', e1, e2, e3⟩ := C23_roundtrip src hsrc cb hcb b (by omega)
    obtain ⟨r', b'', f1, f2, f3⟩ := compress_spec src hsrc cb hcb b (by omega)
    rw [e1] at f1
    injection f1 with f1
    injection f1 with fr fb
    subst fr; subst fb
    rw [e1]
    simp only []
    rcases e3 with e3 | ⟨n, e3, e4, e5⟩
    · exfalso
      rcases f3 with ⟨f3, f4⟩ | ⟨f3, f4, -⟩ <;> omega
    · refine ⟨b', n, cb, ?_, by omega, Or.inr ⟨by omega, e4, ?_⟩⟩
      · rcases f3 with f3 | ⟨f3, -, -⟩
        · omega
        · rw [hs2, ← f3, e3]
      · intro c h1 h2 h3 h4
        exact e5 c h1 h2 h3 (fun h0 => h4 (by omega))

/-- **C23 (refuted cases).** The output buffer `sbc_optimal_compress` allocates has exactly the size of the
source, and the compressor writes (at least a zero) one byte beyond it; with a 0-bit cache the decompressor
reads one byte beyond the compressed data. -/
theorem C23_bounds_violated :
    optimalCompress [0] 1 8 = .ub ∧
    (∃ b', compress (List.replicate 8 0) ⟨9, fun _ => 0⟩ 0 8 = .ok (1, b') ∧ decompress ⟨1, b'.data⟩ 8 0 = .ub) := by
  refine ⟨by rfl, ?_⟩
  have h : ∃ b', compress (List.replicate 8 0) ⟨9, fun _ => 0⟩ 0 8 = .ok (1, b') := by
    obtain ⟨r, b', h1, -, h2⟩ := C23_roundtrip (List.replicate 8 0) (by decide) 0 (by decide) ⟨9, fun _ => 0⟩ (by decide)
    have : (compress (List.replicate 8 0) ⟨9, fun _ => 0⟩ 0 8).bind (fun x => .ok x.1) = .ok 1 := by decide +kernel
    rw [show ((0 : Nat) : Int) = 0 from rfl] at h1
    rw [h1] at this
    simp only [Out.bind, Out.ok.injEq] at this
    exact ⟨b', by rw [h1, this]⟩
  obtain ⟨b', h1⟩ := h
  refine ⟨b', h1, ?_⟩
  have : (compress (List.replicate 8 0) ⟨9, fun _ => 0⟩ 0 8).bind (fun x => decompress ⟨1, x.2.data⟩ 8 0) = .ub := by
    decide +kernel
  rw [h1] at this
  exact this

/-- Eight equal bytes compress to one byte with a 0-bit cache and come back. -/
example : (compress (List.replicate 16 7) ⟨17, fun _ => 0⟩ 0 8).bind (fun x => decompress ⟨17, x.2.data⟩ 16 0) =
    .ok (List.replicate 16 7) := by decide +kernel

end Sbc.Compress
