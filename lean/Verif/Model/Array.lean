import Verif.Model.Machine
/-!
# Arrays and objects as the host sees them: `clr_lite/src/vm/gc/array.rs`, `object.rs`

The functions with which a Rust program looks at objects and changes arrays. Storing a reference writes the address it
stands for, so these definitions take the address of a pointer as a parameter.
-/

namespace Clr

/-- `ArrayError` (array.rs:18-22). -/
inductive ArrayError where
  | indexOutOfRange
  | typeMismatch
deriving DecidableEq, Repr

/-- The types with an `impl HeldInArray` (array.rs:189-201). -/
inductive Elem where
  | i8 | i16 | i32 | i64 | u8 | u16 | u32 | u64 | f32 | f64 | object
deriving DecidableEq, Repr

/-- `HasManagedType::managed_type` (reflection/type.rs:548-618). -/
def Elem.managed (ps : Primitives) : Elem → Nat
  | .i8 => ps.sbyte
  | .i16 => ps.short
  | .i32 => ps.int
  | .i64 => ps.long
  | .u8 => ps.byte
  | .u16 => ps.ushort
  | .u32 => ps.uint
  | .u64 => ps.ulong
  | .f32 => ps.float
  | .f64 => ps.double
  | .object => ps.object

/-- `mem::size_of` of these types, on a 64-bit machine. -/
def Elem.size : Elem → Nat
  | .i8 | .u8 => 1
  | .i16 | .u16 => 2
  | .i32 | .u32 | .f32 => 4
  | .i64 | .u64 | .f64 | .object => 8

/-- The arms of the `match` in `Array::set` (array.rs:58-119): the type of the slice used for each kind of value. -/
def Elem.ofValue : Value → Elem
  | .i8 _ => .i8
  | .u8 _ => .u8
  | .i16 _ => .i16
  | .u16 _ => .u16
  | .i32 _ => .i32
  | .u32 _ => .u32
  | .i64 _ => .i64
  | .u64 _ => .u64
  | .f32 _ => .f32
  | .f64 _ => .f64
  | .object _ => .object

/-- The bits of a value, as stored in such a slice; `addr` gives the addresses of references. -/
def Value.bitsOf (addr : Ptr → Nat) : Value → Nat
  | .i8 x | .u8 x => x.toNat
  | .i16 x | .u16 x => x.toNat
  | .i32 x | .u32 x | .f32 x => x.toNat
  | .i64 x | .u64 x | .f64 x => x.toNat
  | .object p => addr p

/-- `as_slice`, `as_mut_slice` (array.rs:158-186): the length of the slice. Making a reference to the header requires the
header to be valid, making the slice requires all of it to be valid. -/
def arraySlice (k : Elem) (p : Ptr) : X (Except ArrayError Nat) := do
  let ps ← X.view fun v => Res.unwrap v.world.primitives
  let id ← typeId (k.managed ps)
  let hd ← peekBytes p 0 17
  if leNat ((hd.drop 5).take 4) = id then do
    let _ ← peekBytes p 17 (k.size * leNat (hd.drop 9))
    pure (.ok (leNat (hd.drop 9)))
  else pure (.error .typeMismatch)

/-- The contents of the slice given by `as_slice` (array.rs:157-169), as bit patterns. -/
def arrayElements (k : Elem) (p : Ptr) : X (Except ArrayError (List Nat)) := do
  match ← arraySlice k p with
  | .ok n => do
    let bs ← peekBytes p 17 (k.size * n)
    pure (.ok ((chunks k.size n bs).map leNat))
  | .error e => pure (.error e)

/-- `Array::set` (array.rs:48-123). -/
def arraySet (addr : Ptr → Nat) (p : Ptr) (i : Nat) (a : Value) : X (Except ArrayError Unit) := do
  let hd ← peekBytes p 0 17
  if leNat (hd.drop 9) ≤ i then pure (.error .indexOutOfRange)
  else do
    let _ ← X.view fun v => Res.unwrap v.world.primitives
    match ← arraySlice (Elem.ofValue a) p with
    | .ok _ => do
      poke p (17 + (Elem.ofValue a).size * i) (leBytes (Elem.ofValue a).size (a.bitsOf addr))
      pure (.ok ())
    | .error e => pure (.error e)

/-- `Object::type_of`, `Array::type_of` (object.rs:52-54, array.rs:40-42): the position in the list of types. -/
def objectType (p : Ptr) : X Nat := do
  let hd ← peekBytes p 0 5
  let _ ← X.view fun v => v.world.typeAt (leNat (hd.drop 1))
  pure (leNat (hd.drop 1))

/-- `Object::as_array(…).is_some()` (object.rs:64-70). -/
def isArray (p : Ptr) : X Bool := do
  let f ← objectFlags p
  pure (f &&& 2 ≠ 0)

/-- `Object::as_string(…).is_some()` (object.rs:72-78). -/
def isString (p : Ptr) : X Bool := do
  let f ← objectFlags p
  pure (f &&& 4 ≠ 0)

/-- `Object::raw_data` (object.rs:40-50). -/
def rawData (cfg : Cfg) (tf : Nat) (p : Ptr) : X Bytes := do
  let size ← (do
    if ← isArray p then do
      let hd ← peekBytes p 0 17
      let s ← X.view fun v => typeSize cfg v.world tf (leNat ((hd.drop 5).take 4))
      let d ← umul cfg 64 s (leNat (hd.drop 9))
      uadd cfg 64 17 d
    else if ← isString p then do
      let us ← stringData p
      let d ← umul cfg 64 2 us.length
      uadd cfg 64 13 d
    else do
      let t ← objectType p
      let s ← X.view fun v => typeSize cfg v.world tf t
      uadd cfg 64 5 s)
  peekBytes p 0 size

end Clr
