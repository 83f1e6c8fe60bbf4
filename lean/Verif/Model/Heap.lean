import Verif.Model.Value
/-!
# The object heap's memory: `GcHeap` in `clr_lite/src/vm/gc/mod.rs`

The heap is one `Vec<u8>`. References are raw pointers into its buffer. When the vector grows, its buffer is replaced
and the old one is freed, so a pointer carries the number of the buffer it was made for, and using it with another
buffer, or outside the initialised part of the buffer, is undefined behaviour. Accesses are bytewise: the code accesses
unaligned addresses, which the targeted machines allow and Rust does not (`Model/Align`).
-/

namespace Clr

/-- `GcHeap::memory` (gc/mod.rs:23): contents, capacity, and the number of reallocations so far. `Vec::with_capacity`
is taken to give exactly the capacity asked for. -/
structure Heap where
  mem : Bytes := []
  cap : Nat := 1024
  gen : Nat := 0
deriving DecidableEq, Repr

namespace Heap

/-- `Vec::reserve(n)` of the standard library: nothing if there is room, else the capacity becomes at least twice the old
one; capacities above `isize::MAX` panic. -/
def reserve (h : Heap) (n : Nat) : Res Heap :=
  if n ≤ h.cap - h.mem.length then .ok h
  else if max (2 * h.cap) (max (h.mem.length + n) 8) < 2 ^ 63 then
    .ok { h with cap := max (2 * h.cap) (max (h.mem.length + n) 8), gen := h.gen + 1 }
  else .panic

/-- `Vec::resize(n, 0)` of the standard library. -/
def resize (h : Heap) (n : Nat) : Res Heap :=
  if h.mem.length < n then do
    let h ← h.reserve (n - h.mem.length)
    pure { h with mem := h.mem ++ List.replicate (n - h.mem.length) 0 }
  else .ok { h with mem := h.mem.take n }

/-- `GcHeap::ensure_size` (gc/mod.rs:34-41); `collect` does nothing (gc/mod.rs:99). -/
def ensureSize (cfg : Cfg) (h : Heap) (size : Nat) : Res Heap := do
  let n ← uadd cfg 64 h.mem.length size
  if h.cap < n then h.reserve h.cap else pure h

/-- The part common to the three allocation functions (gc/mod.rs:45-53, 62-69, 81-89): the pointer to `size` new bytes. -/
def bump (cfg : Cfg) (h : Heap) (size : Nat) : Res (Ptr × Heap) := do
  let h ← h.ensureSize cfg size
  let base := h.mem.length
  let n ← uadd cfg 64 base size
  let h ← h.resize n
  pure (⟨h.gen, base⟩, h)

/-- Reading `n` bytes through a raw pointer, `off` bytes after it. -/
def read (h : Heap) (p : Ptr) (off n : Nat) : Res Bytes :=
  if p.gen = h.gen ∧ p.off + off + n ≤ h.mem.length then .ok ((h.mem.drop (p.off + off)).take n) else .ub

/-- Writing through a raw pointer, `off` bytes after it. -/
def write (h : Heap) (p : Ptr) (off : Nat) (bs : Bytes) : Res Heap :=
  if p.gen = h.gen ∧ p.off + off + bs.length ≤ h.mem.length then
    .ok { h with mem := h.mem.take (p.off + off) ++ bs ++ h.mem.drop (p.off + off + bs.length) }
  else .ub

end Heap
end Clr
