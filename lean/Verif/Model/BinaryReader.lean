import Verif.Model.Utf8
/-!
# `binary_reader/src/lib.rs`

Typed reads `read::<T>()` depend on `T` only through `size_of::<T>()`, so the model reads raw bytes of a
given width; callers interpret them (`leNat` for integers on the little-endian target, field by field for
`#[repr(C)]` structures). Alignment of the pointer casts is
the subject of `Model/Align`.
-/

namespace Clr

/-- `struct BinaryReader` (lib.rs:4-7). -/
structure Reader where
  data : Bytes
  pos : Nat
deriving DecidableEq, Repr

namespace Reader

/-- `BinaryReader::new` (lib.rs:10-12). -/
def new (data : Bytes) : Reader := ⟨data, 0⟩

/-- `BinaryReader::goto` (lib.rs:22-25): moves unconditionally, reports whether the position is in range. -/
def goto (r : Reader) (x : Nat) : Bool × Reader :=
  (decide (x ≤ r.data.length), { r with pos := x })

/-- `BinaryReader::advance` (lib.rs:27-29): `usize` addition, then `goto`. -/
def advance (cfg : Cfg) (r : Reader) (x : Nat) : Res (Bool × Reader) := do
  let p ← uadd cfg 64 r.pos x
  pure (r.goto p)

/-- The `unsafe` read of `n` bytes at the cursor, as in `*(self.data[self.pos..].as_ptr() as *const T)`
(lib.rs:35, 50, 60): the slice expression panics when the position is past the end; the raw read is
undefined behaviour when it leaves the buffer. -/
def rawBytes (r : Reader) (n : Nat) : Res Bytes := do
  let s ← sliceFrom r.data r.pos
  if n ≤ s.length then pure (s.take n) else .ub

/-- `BinaryReader::peek::<T>` with `size_of::<T>() = w` (lib.rs:31-37). -/
def peek (cfg : Cfg) (r : Reader) (w : Nat) : Res (Option Bytes) := do
  let e ← uadd cfg 64 r.pos w
  if e > r.data.length then pure none
  else do
    let b ← r.rawBytes w
    pure (some b)

/-- `BinaryReader::read::<T>` with `size_of::<T>() = w` (lib.rs:39-43). -/
def read (cfg : Cfg) (r : Reader) (w : Nat) : Res (Option Bytes × Reader) := do
  match ← r.peek cfg w with
  | none => pure (none, r)
  | some b => do
    let (_, r') ← r.advance cfg w
    pure (some b, r')

/-- `BinaryReader::peek_array::<T>` with `size_of::<T>() = w` (lib.rs:45-53). Note the `>=`. -/
def peekArray (cfg : Cfg) (r : Reader) (w count : Nat) : Res (Option (List Bytes)) := do
  let n ← umul cfg 64 count w
  let e ← uadd cfg 64 r.pos n
  if e ≥ r.data.length then pure none
  else do
    let b ← r.rawBytes (count * w)
    pure (some (chunks w count b))

/-- `BinaryReader::read_array::<T>` with `size_of::<T>() = w` (lib.rs:55-64). -/
def readArray (cfg : Cfg) (r : Reader) (w count : Nat) : Res (Option (List Bytes) × Reader) := do
  let n ← umul cfg 64 count w
  let e ← uadd cfg 64 r.pos n
  if e > r.data.length then pure (none, r)
  else do
    let b ← r.rawBytes (count * w)
    let n ← umul cfg 64 count w
    let (_, r') ← r.advance cfg n
    pure (some (chunks w count b), r')

/-- `data[0..data.iter().position(|&c| c == b'\0').unwrap_or(data.len())]` (lib.rs:68): the bytes before
the first NUL. -/
def beforeNul : Bytes → Bytes
  | [] => []
  | b :: bs => if b = 0 then [] else b :: beforeNul bs

/-- `iter().position(|&c| c == b'\0')` (lib.rs:73, strings_heap.rs:28). -/
def nulPos : Bytes → Option Nat
  | [] => none
  | b :: bs => if b = 0 then some 0 else (nulPos bs).map (· + 1)

/-- `BinaryReader::read_str` (lib.rs:66-70). `read_array::<u8>` yields one-byte elements. -/
def readStr (cfg : Cfg) (r : Reader) (length : Nat) : Res (Option (List Char) × Reader) := do
  match ← r.readArray cfg 1 length with
  | (none, r') => pure (none, r')
  | (some bs, r') => pure (fromUtf8 (beforeNul bs.flatten), r')

/-- `BinaryReader::read_c_str` (lib.rs:72-75). The slice panics when the position is past the end. The NUL
is not consumed. -/
def readCStr (cfg : Cfg) (r : Reader) : Res (Option (List Char) × Reader) := do
  let s ← sliceFrom r.data r.pos
  match nulPos s with
  | none => pure (none, r)
  | some n => r.readStr cfg n

/-- An integer read: `read::<u8/u16/u32/u64>()`, little-endian. -/
def readU (cfg : Cfg) (r : Reader) (w : Nat) : Res (Option Nat × Reader) := do
  let (b, r') ← r.read cfg w
  pure (b.map leNat, r')

/-- An integer peek: `peek::<u8/u16/u32/u64>()`, little-endian. -/
def peekU (cfg : Cfg) (r : Reader) (w : Nat) : Res (Option Nat) := do
  let b ← r.peek cfg w
  pure (b.map leNat)

end Reader
end Clr
