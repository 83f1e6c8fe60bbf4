import Verif.Model.Blob
/-!
# Typed reads: `read::<T>()` at the types of `binary_reader/src/lib.rs:80-98`

`Model/BinaryReader` reads raw bytes. Here the bytes are given a type. A numeric type takes every byte pattern; `bool`
and `char` do not, and producing a `bool` or `char` from another pattern is undefined behaviour in Rust. Arrays of these
types (`read_array::<bool>()`) give out a slice over the same bytes and are not modelled at this level.
-/

namespace Clr

/-- The types that implement `CopyFromBytes` (lib.rs:80-98), on a 64-bit target: integers of a width in bytes (`isize`
and `usize` are 8 bytes wide), floats (as bit patterns), `bool` and `char`. -/
inductive Scalar where
  | signed (w : Nat)
  | unsigned (w : Nat)
  | float (w : Nat)
  | bool
  | char
deriving DecidableEq, Repr

/-- Values of those types; a float is its bit pattern. -/
inductive ScalarValue where
  | int (v : Int)
  | bits (v : Nat)
  | bool (b : Bool)
  | char (c : Char)
deriving DecidableEq, Repr

/-- `size_of::<T>()` (lib.rs:32). -/
def Scalar.size : Scalar → Nat
  | .signed w => w
  | .unsigned w => w
  | .float w => w
  | .bool => 1
  | .char => 4

/-- The value a byte pattern has at a type; `none` for a pattern that is no value of the type. -/
def Scalar.decode (t : Scalar) (bs : Bytes) : Option ScalarValue :=
  let n := leNat bs
  match t with
  | .signed w => some (.int (if 2 * n < 256 ^ w then (n : Int) else (n : Int) - (256 ^ w : Nat)))
  | .unsigned _ => some (.int n)
  | .float _ => some (.bits n)
  | .bool => if n = 0 then some (.bool false) else if n = 1 then some (.bool true) else none
  | .char => if n.isValidChar then some (.char (Char.ofNat n)) else none

/-- `BinaryReader::peek::<T>` (lib.rs:31-37) at a type: `*(… as *const T)` makes a `T` out of the bytes. -/
def Reader.peekAs (cfg : Cfg) (r : Reader) (t : Scalar) : Res (Option ScalarValue) := do
  match ← r.peek cfg t.size with
  | none => pure none
  | some bs =>
    match t.decode bs with
    | none => .ub
    | some v => pure (some v)

/-- `BinaryReader::read::<T>` (lib.rs:39-43) at a type. -/
def Reader.readAs (cfg : Cfg) (r : Reader) (t : Scalar) : Res (Option ScalarValue × Reader) := do
  match ← r.peekAs cfg t with
  | none => pure (none, r)
  | some v => do
    let (_, r') ← r.advance cfg t.size
    pure (some v, r')

/-- `BlobReader::read::<T>` (blob_reader.rs:36-40) at a type. -/
def blobReadAs (cfg : Cfg) (r : Reader) (t : Scalar) : Res (ScalarValue × Reader) := do
  match ← r.readAs cfg t with
  | (some v, r') => pure (v, r')
  | (none, _) => .err "Unexpected EOF"

/-- Reading a constant of a file: `metadata.blob().new_reader(c.value)?.read::<T>()`, as in constant.rs:122-157. -/
def constantAs (cfg : Cfg) (heap : Bytes) (h : Nat) (t : Scalar) : Res ScalarValue := do
  let r ← blobHeapReader cfg heap h
  let (v, _) ← blobReadAs cfg r t
  pure v

end Clr
