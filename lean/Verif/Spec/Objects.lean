import Verif.Model.Machine
/-!
# What objects look like in memory

The layout of the three kinds of objects, as written in the comments and structures of `clr_lite/src/vm/gc/object.rs`,
`array.rs` and `string.rs`: a flags byte (2 for arrays, 4 for strings), the 32-bit identifier of the type, for arrays the
identifier of the element type, for arrays and strings the 64-bit length, then the contents.
-/

namespace Clr

/-- What is allocated. -/
inductive Request where
  | object (type : Nat)
  | array (element length : Nat)
  | string (units : List Nat)
deriving DecidableEq, Repr

/-- The little-endian bytes of UTF-16 units. -/
def textBytes (units : List Nat) : Bytes := units.flatMap (leBytes 2)

/-- A new object of a class with `size` bytes of fields: they are zero. -/
def objectImage (id size : Nat) : Bytes := 0 :: leBytes 4 id ++ List.replicate size 0

/-- A new array of `length` elements of `size` bytes: they are zero. -/
def arrayImage (id element size length : Nat) : Bytes :=
  2 :: leBytes 4 id ++ leBytes 4 element ++ leBytes 8 length ++ List.replicate (size * length) 0

/-- A string. -/
def stringImage (id : Nat) (units : List Nat) : Bytes :=
  4 :: leBytes 4 id ++ leBytes 8 units.length ++ textBytes units

/-- `b` is what the requested new object should look like; `size` gives the size of the fields of a class and of an
element. -/
def Image (w : World) (size : Nat → Nat) : Request → Bytes → Prop
  | .object t, b => ∃ tr, w.types[t]? = some tr ∧ b = objectImage tr.id (size t)
  | .array e n, b => ∃ er t tr, w.types[e]? = some er ∧ w.getType (er.fullName ++ "[]".toList) = some t ∧
      w.types[t]? = some tr ∧ b = arrayImage tr.id er.id (size e) n
  | .string us, b => ∃ t tr, w.getType "System.String".toList = some t ∧ w.types[t]? = some tr ∧ b = stringImage tr.id us

/-- The memory behind `p` begins with `b`. -/
def Heap.Has (h : Heap) (p : Ptr) (b : Bytes) : Prop := p.gen = h.gen ∧ b <+: h.mem.drop p.off

instance decHas (h : Heap) (p : Ptr) (b : Bytes) : Decidable (h.Has p b) := by unfold Heap.Has; infer_instance

/-- The numeric types and their widths in bytes (ECMA-335 I.12.1). -/
def numericWidths : List (Name × Nat) :=
  [("System.SByte".toList, 1), ("System.Byte".toList, 1), ("System.Int16".toList, 2), ("System.UInt16".toList, 2),
   ("System.Int32".toList, 4), ("System.UInt32".toList, 4), ("System.Int64".toList, 8), ("System.UInt64".toList, 8),
   ("System.Single".toList, 4), ("System.Double".toList, 8)]

/-- The type a value has. -/
def Value.typeName : Value → Option Name
  | .i8 _ => some "System.SByte".toList
  | .u8 _ => some "System.Byte".toList
  | .i16 _ => some "System.Int16".toList
  | .u16 _ => some "System.UInt16".toList
  | .i32 _ => some "System.Int32".toList
  | .u32 _ => some "System.UInt32".toList
  | .i64 _ => some "System.Int64".toList
  | .u64 _ => some "System.UInt64".toList
  | .f32 _ => some "System.Single".toList
  | .f64 _ => some "System.Double".toList
  | .object _ => none

/-- The runtime's table of numeric types has the right types in it. -/
def PrimitivesOk (w : World) : Prop :=
  ∃ ps, w.primitives = some ps ∧
    [ps.sbyte, ps.byte, ps.short, ps.ushort, ps.int, ps.uint, ps.long, ps.ulong, ps.float, ps.double].map
      (fun t => w.types[t]?.map (·.fullName)) = numericWidths.map (some ·.1)

end Clr
