import Verif.Model.Common
set_option autoImplicit false
/-!
# The memory of the interpreter (`source/extension/sbc_blockalloc.c`)

On a PC all memory of the interpreter is cut from one block.  Addresses are numbers, memory is bytes by address.  Addresses beyond the
end of the block are `.ub`, as in C (also when they are only computed).
-/
namespace Sbc.Blocks
open Sbc

/-- `sbc_membase`, `sbc_memnext` (`sbc_blockalloc.c:8-9`) with the size of the block, and the memory. -/
structure Heap where
  base : Nat
  max : Nat
  next : Nat
  mem : Nat → Nat

/-- `init_memory` (`sbc_blockalloc.c:11-19`); `malloc` gives a block with contents that are not known. -/
def init (base max : Nat) (mem : Nat → Nat) : Heap := ⟨base, max, base, mem⟩

/-- `sbc_memnext += size` (`sbc_blockalloc.c:36`, `46`). -/
def advance (h : Heap) (size : Int) : Out Heap :=
  if (h.base : Int) ≤ h.next + size ∧ h.next + size ≤ (h.base + h.max : Nat) then .ok { h with next := (h.next + size).toNat } else .ub

/-- `sbc_malloc` (`sbc_blockalloc.c:32-39`). -/
def malloc (h : Heap) (size : Int) : Out (Heap × Nat) :=
  (advance h size).bind fun h' => .ok (h', h.next)

/-- `sbc_calloc` (`sbc_blockalloc.c:41-50`); the product is an `int`, `memset` takes a `size_t`. -/
def calloc (h : Heap) (count size : Int) : Out (Heap × Nat) :=
  if ¬ I32 (count * size) then .ub
  else (advance h (count * size)).bind fun h' =>
    if count * size < 0 then .ub
    else .ok ({ h' with mem := fun a => if h.next ≤ a ∧ a < h.next + (count * size).toNat then 0 else h.mem a }, h.next)

/-- `sbc_free` (`sbc_blockalloc.c:52-56`). -/
def free (h : Heap) (_ : Nat) : Heap := h

/-- `reset_memory` (`sbc_blockalloc.c:21-23`). -/
def reset (h : Heap) : Heap := { h with next := h.base }

/-- Use of the memory by the interpreter: outside of the block is undefined. -/
def store (h : Heap) (a v : Nat) : Out Heap :=
  if h.base ≤ a ∧ a < h.base + h.max then .ok { h with mem := fun x => if x = a then v else h.mem x } else .ub

/-- Reading a byte. -/
def fetch (h : Heap) (a : Nat) : Out Nat := if h.base ≤ a ∧ a < h.base + h.max then .ok (h.mem a) else .ub

/-- What the interpreter does with its memory; blocks are numbered in the order in which it got them since the beginning or the last reset. -/
inductive Op where
  | malloc (size : Nat)
  | calloc (count size : Nat)
  | free (i : Nat)
  | reset
  | store (i j v : Nat)
  | fetch (i j : Nat)

/-- What it observes. -/
inductive Res where
  | block | done | byte (v : Nat) | undefined
  deriving DecidableEq, Repr

/-- The memory, and the addresses the interpreter got. -/
structure Use where
  heap : Heap
  ptrs : List Nat

/-- One operation; an access is to byte `j` of block `i`. -/
def step (u : Use) : Op → Use × Res
  | .malloc size => match malloc u.heap size with
    | .ok (h, p) => (⟨h, u.ptrs ++ [p]⟩, .block)
    | _ => (u, .undefined)
  | .calloc count size => match calloc u.heap count size with
    | .ok (h, p) => (⟨h, u.ptrs ++ [p]⟩, .block)
    | _ => (u, .undefined)
  | .free i => (⟨free u.heap (u.ptrs.getD i 0), u.ptrs⟩, .done)
  | .reset => (⟨reset u.heap, []⟩, .done)
  | .store i j v => match store u.heap (u.ptrs.getD i 0 + j) v with
    | .ok h => (⟨h, u.ptrs⟩, .done)
    | _ => (u, .undefined)
  | .fetch i j => match fetch u.heap (u.ptrs.getD i 0 + j) with
    | .ok v => (u, .byte v)
    | _ => (u, .undefined)

/-- A history. -/
def run (u : Use) : List Op → Use × List Res
  | [] => (u, [])
  | op :: ops => ((run (step u op).1 ops).1, (step u op).2 :: (run (step u op).1 ops).2)

/-- Sizes of the structures of the interpreter. -/
structure Sizes where
  ptc : Nat
  namedVar : Nat
  string : Nat
  value : Nat
  labelLine : Nat

/-- The requests at startup on a PC in their order: `init_system` (`system.c:28`), `init_resource` (`resources.c:457-480`), `init_mem_var`
(`vars.c:18`), `init_mem_str` (`strs.c:95-109`), `init_mem_arr` (`arrays.c:12-16`), `launch_system` (`system.c:330-352`, `program.c:17-48`, `label.c:11-20`)
for the sizes of a program and an editor (`lines`, `labels` of it). -/
def startup (z : Sizes) (vars strs arrs : Nat) (editor lines labels : Nat) : List Op :=
  [.calloc z.ptc 1, .calloc 8192 44, .calloc 512 6] ++ List.replicate 8 (.calloc 1 8192) ++ List.replicate 4 (.calloc 49152 1) ++
  List.replicate 12 (.calloc 8192 1) ++
  [.calloc vars z.namedVar, .malloc 770, .calloc strs z.string, .malloc (strs * 256), .calloc (arrs + 2 * vars) z.value,
    .calloc 1 524288, .calloc 1 10000, .calloc z.labelLine 2048, .calloc 1 524288,
    .calloc 1 26, .calloc 1 0,
    .calloc 1 (2 * editor), .calloc 1 lines] ++ (if labels = 0 then [] else [.calloc z.labelLine labels])

end Sbc.Blocks
