import Verif.Model.Common
import Verif.Model.Mem
set_option autoImplicit false
/-!
# Compressed resources (`source/extension/compress.c`)

A byte buffer is its content and its allocated size `cap`; reading or writing at or beyond `cap` is
undefined.  Bit indexes are unbounded (the C code uses `int`, which a buffer of 2^28 bytes would overflow).
The diagnostic `printf`s are not modelled.
-/
namespace Sbc.Compress
open Sbc

/-- A byte buffer of `cap` bytes. -/
structure Buf where
  cap : Nat
  data : Nat → Nat

/-- `sbc_cache_search` (`compress.c:15-22`), from index `i`; `-1` is `none`. -/
def cacheSearch (value : Nat) (cache : Nat → Nat) (size : Nat) : Nat → Nat → Option Nat
  | 0, _ => none
  | fuel + 1, i =>
    if i < size then if value = cache i then some i else cacheSearch value cache size fuel (i + 1) else none

/-- `sbc_write_bits` (`compress.c:24-31`).  All callers satisfy `value < 2^bits` and `bits ≤ 8`, so the
shifted value has at most 16 bits and both halves are bytes. -/
def writeBits (b : Buf) (out value bits : Nat) : Out (Buf × Nat) :=
  let v := value <<< (8 - out % 8 + (8 - bits))
  if out / 8 + 1 < b.cap then
    let d1 := upd b.data (out / 8) (b.data (out / 8) ||| (v >>> 8))
    let d2 := upd d1 (out / 8 + 1) (d1 (out / 8 + 1) ||| (v % 256))
    .ok ({ b with data := d2 }, out + bits)
  else .ub

/-- `output_index / 8 + (output_index % 8 != 0)` (`compress.c:56, 73, 78`). -/
def bytesOf (bits : Nat) : Nat := bits / 8 + (if bits % 8 ≠ 0 then 1 else 0)

/-- `cache[i] = i` (`compress.c:47-51, 128-132`). -/
def cacheInit : Nat → Nat := fun i => i

/-- Loop of `sbc_compress` (`compress.c:56-72`) and its result (`compress.c:73-78`); `src` is the unread
part of the source, `cb` the `cache_size` in bits, `unitSize` the `unit_size`. -/
def compressLoop (size cb unitSize : Nat) : List Nat → (Nat → Nat) → Nat → Nat → Buf → Out (Int × Buf)
  | [], _, _, out, b => .ok (if bytesOf out ≥ size then -1 else bytesOf out, b)
  | u :: src, cache, slot, out, b =>
    if bytesOf out < size then
      match cacheSearch u cache (2 ^ cb) (2 ^ cb) 0 with
      | some i =>
        (writeBits b out 0 1).bind fun (b, out) =>
        (writeBits b out i cb).bind fun (b, out) =>
          compressLoop size cb unitSize src cache slot out b
      | none =>
        (writeBits b out 1 1).bind fun (b, out) =>
        (writeBits b out u unitSize).bind fun (b, out) =>
          compressLoop size cb unitSize src (upd cache slot u) ((slot + 1) % 2 ^ cb) out b
    else .ok (if bytesOf out ≥ size then -1 else bytesOf out, b)

/-- `sbc_compress` (`compress.c:39-79`).  `cacheBits = -1` copies; the 128-byte cache array bounds the
cache size to 7 bits (larger sizes overflow it; negative ones other than -1 shift by a negative count). -/
def compress (src : List Nat) (b : Buf) (cacheBits : Int) (unitSize : Nat) : Out (Int × Buf) :=
  if cacheBits = -1 then
    if src.length ≤ b.cap then
      .ok (src.length, { b with data := fun k => if k < src.length then src.getD k 0 else b.data k })
    else .ub
  else if cacheBits < 0 ∨ cacheBits > 7 then .ub
  else if src.length ≤ b.cap then
    compressLoop src.length cacheBits.toNat unitSize src cacheInit 0 0
      { b with data := fun k => if k < src.length then 0 else b.data k }
  else .ub

/-- The loop of `sbc_optimal_compress` (`compress.c:87-94`) over the remaining cache sizes. -/
def optimalLoop (src : List Nat) (unitSize : Nat) : List Nat → Buf → Int → Int → Out (Buf × Int × Int)
  | [], b, size, bits => .ok (b, size, bits)
  | k :: ks, b, size, bits =>
    (compress src b k unitSize).bind fun (r, b) =>
      if r ≠ -1 ∧ r < size then optimalLoop src unitSize ks b r k else optimalLoop src unitSize ks b size bits

/-- `sbc_optimal_compress` (`compress.c:82-98`); `cap` is the size of the allocated output. -/
def optimalCompress (src : List Nat) (cap unitSize : Nat) : Out (Buf × Int × Int) :=
  (optimalLoop src unitSize [0, 1, 2, 3, 4, 5, 6, 7] ⟨cap, fun _ => 0⟩ src.length (-1)).bind fun (b, size, bits) =>
    (compress src b bits unitSize).bind fun (_, b) => .ok (b, size, bits)

/-- `sbc_read_bits` (`compress.c:100-121`). -/
def readBits (b : Buf) (idx bits : Nat) : Out (Nat × Nat) :=
  if bits > 8 then .ub
  else if idx % 8 + bits ≤ 8 then
    if idx / 8 < b.cap then .ok ((b.data (idx / 8) >>> (8 - idx % 8 - bits)) % 2 ^ bits, idx + bits) else .ub
  else
    if idx / 8 + 1 < b.cap then
      .ok (((b.data (idx / 8) * 256 + b.data (idx / 8 + 1)) >>> (16 - idx % 8 - bits)) % 2 ^ bits, idx + bits)
    else .ub

/-- Loop of `sbc_decompress` (`compress.c:139-151`), `n` output bytes left. -/
def decompressLoop (b : Buf) (cb : Nat) : Nat → (Nat → Nat) → Nat → Nat → Out (List Nat)
  | 0, _, _, _ => .ok []
  | n + 1, cache, slot, idx =>
    (readBits b idx 1).bind fun (t, idx) =>
      if t ≠ 0 then
        (readBits b idx 8).bind fun (v, idx) =>
        (decompressLoop b cb n (upd cache slot v) ((slot + 1) % 2 ^ cb) idx).bind fun l => .ok (v :: l)
      else
        (readBits b idx cb).bind fun (i, idx) =>
        (decompressLoop b cb n cache slot idx).bind fun l => .ok (cache i :: l)

/-- `sbc_decompress` (`compress.c:126-155`) into a buffer not overlapping the source. -/
def decompress (b : Buf) (n : Nat) (cacheBits : Int) : Out (List Nat) :=
  if cacheBits < 0 ∨ cacheBits > 7 then .ub
  else decompressLoop b cacheBits.toNat n cacheInit 0 0

end Sbc.Compress
