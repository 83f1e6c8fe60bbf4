import Verif.Model.BinaryReader
/-!
# `clr_lite/src/metadata/blob/` and `blob_heap.rs`

A `BlobReader` is a `BinaryReader` over the contents of one blob (blob_reader.rs:19-21), so the model uses
`Reader` for it. `Err(BadBlob(..))` is `Res.err`; messages are abbreviated.
-/

namespace Clr

/-- `BlobReader::read::<T>` for a `w`-byte `T` (blob_reader.rs:36-40), as raw bytes. -/
def blobRead (cfg : Cfg) (r : Reader) (w : Nat) : Res (Bytes × Reader) := do
  match ← r.read cfg w with
  | (some b, r') => pure (b, r')
  | (none, _) => .err "Unexpected EOF"

/-- `BlobReader::peek::<T>` for a `w`-byte `T` (blob_reader.rs:42-46), as raw bytes. -/
def blobPeek (cfg : Cfg) (r : Reader) (w : Nat) : Res Bytes := do
  match ← r.peek cfg w with
  | some b => pure b
  | none => .err "Unexpected EOF"

/-- `read::<u8>()` as a number. -/
def readByte (cfg : Cfg) (r : Reader) : Res (Nat × Reader) := do
  let (b, r) ← blobRead cfg r 1
  pure (leNat b, r)

/-- `peek::<u8>()` as a number. -/
def peekByte (cfg : Cfg) (r : Reader) : Res Nat := do
  let b ← blobPeek cfg r 1
  pure (leNat b)

/-- `BlobReader::read_compressed_u32` (blob_reader.rs:48-57). `uN::from_be` of a native-endian read is the
big-endian value of the bytes; the subtractions are `u32` arithmetic. -/
def readCompressed (cfg : Cfg) (r : Reader) : Res (Nat × Reader) := do
  let x ← peekByte cfg r
  if x &&& 0xc0 = 0xc0 then do
    let (b, r) ← blobRead cfg r 4
    let v ← usub cfg 32 (beNat b) 0xc0000000
    pure (v, r)
  else if x &&& 0x80 = 0x80 then do
    let (b, r) ← blobRead cfg r 2
    let v ← usub cfg 32 (beNat b) 0x8000
    pure (v, r)
  else do
    let (b, r) ← readByte cfg r
    pure (b, r)

/-- `BlobReader::new` (blob_reader.rs:24-34). -/
def newBlobReader (cfg : Cfg) (data : Bytes) : Res Reader := do
  let (length, r) ← Res.mapErr (fun _ => "Couldn't read blob length") (readCompressed cfg (Reader.new data))
  let e ← uadd cfg 64 r.pos length
  let s ← slice data r.pos e
  pure (Reader.new s)

/-- `BlobHeap::new_reader` (blob_heap.rs:15-17). -/
def blobHeapReader (cfg : Cfg) (heap : Bytes) (h : Nat) : Res Reader := do
  let d ← sliceFrom heap h
  newBlobReader cfg d

/-- `BlobReader::read_utf16_str` (blob_reader.rs:59-65): all complete 16-bit units of the blob. -/
def readUtf16Str (cfg : Cfg) (r : Reader) : Res (List Nat × Reader) := do
  match ← r.readArray cfg 2 (r.data.length / 2) with
  | (some xs, r') => pure (xs.map leNat, r')
  | (none, _) => .err "Unable to read UTF16 string from blob"

/-- `enum TypeDefOrRefHandle` (tables/coded_index/type_def_or_ref.rs); handles carry the 1-based row number. -/
inductive TypeDefOrRef where
  | typeDef (row : Nat)
  | typeRef (row : Nat)
  | typeSpec (row : Nat)
deriving DecidableEq, Repr

/-- `BlobReader::read_type_def_or_ref` (blob/type_def_or_ref.rs:7-23). -/
def readTypeDefOrRef (cfg : Cfg) (r : Reader) : Res (TypeDefOrRef × Reader) := do
  let (val, r) ← readCompressed cfg r
  let tag := val % 4
  let index := val / 4
  if tag = 0 then pure (.typeDef index, r)
  else if tag = 1 then pure (.typeRef index, r)
  else if tag = 2 then pure (.typeSpec index, r)
  else .err "Invalid TypeDefOrRef tag"

/-- The `for _ in 0..count { v.push(self.read_…()?) }` loops of the signature readers. -/
def readMany {α : Type} (f : Reader → Res (α × Reader)) : Nat → Reader → Res (List α × Reader)
  | 0, r => .ok ([], r)
  | n + 1, r => do
    let (a, r) ← f r
    let (as, r) ← readMany f n r
    pure (a :: as, r)

/-- `struct ArrayShape` (blob/array_shape.rs:4-9). -/
structure ArrayShape where
  rank : Nat
  sizes : List Nat
  lowerBounds : List Nat
deriving DecidableEq, Repr

/-- `BlobReader::read_array_shape` (blob/array_shape.rs:12-32). -/
def readArrayShape (cfg : Cfg) (r : Reader) : Res (ArrayShape × Reader) := do
  let (rank, r) ← readCompressed cfg r
  let (n, r) ← readCompressed cfg r
  let (sizes, r) ← readMany (readCompressed cfg) n r
  let (m, r) ← readCompressed cfg r
  let (lowerBounds, r) ← readMany (readCompressed cfg) m r
  pure (⟨rank, sizes, lowerBounds⟩, r)

/-- `enum ElementType` (blob/element_type.rs:6-44). -/
inductive ElementType where
  | void | bool | char | sbyte | byte | short | ushort | int | uint | long | ulong | float | double | string
  | pointer (t : ElementType)
  | reference (t : ElementType)
  | valueType (h : TypeDefOrRef)
  | class (h : TypeDefOrRef)
  | typeGenericParam (n : Nat)
  | array (t : ElementType) (shape : ArrayShape)
  | generic (t : ElementType) (args : List ElementType)
  | typedReference | intPtr | uintPtr | fnPtr | object
  | szArray (t : ElementType)
  | methodGenericParam (n : Nat)
  | varargSentinel
deriving Repr

/-- `BlobReader::read_element_type` (blob/element_type.rs:47-98). The recursion is bounded by fuel here; every call
consumes a byte, so `remaining bytes + 1` fuel is enough (proved as `readElemF_fuel`). -/
def readElemF (cfg : Cfg) : Nat → Reader → Res (ElementType × Reader)
  | 0, _ => .timeout
  | fuel + 1, r => do
    let (b, r) ← readByte cfg r
    match b with
    | 0x1 => pure (.void, r)
    | 0x2 => pure (.bool, r)
    | 0x3 => pure (.char, r)
    | 0x4 => pure (.sbyte, r)
    | 0x5 => pure (.byte, r)
    | 0x6 => pure (.short, r)
    | 0x7 => pure (.ushort, r)
    | 0x8 => pure (.int, r)
    | 0x9 => pure (.uint, r)
    | 0xa => pure (.long, r)
    | 0xb => pure (.ulong, r)
    | 0xc => pure (.float, r)
    | 0xd => pure (.double, r)
    | 0xe => pure (.string, r)
    | 0xf => do
      let (t, r) ← readElemF cfg fuel r
      pure (.pointer t, r)
    | 0x10 => do
      let (t, r) ← readElemF cfg fuel r
      pure (.reference t, r)
    | 0x11 => do
      let (h, r) ← readTypeDefOrRef cfg r
      pure (.valueType h, r)
    | 0x12 => do
      let (h, r) ← readTypeDefOrRef cfg r
      pure (.class h, r)
    | 0x13 => do
      let (n, r) ← readCompressed cfg r
      pure (.typeGenericParam n, r)
    | 0x14 => do
      let (t, r) ← readElemF cfg fuel r
      let (s, r) ← readArrayShape cfg r
      pure (.array t s, r)
    | 0x15 => do
      let (t, r) ← readElemF cfg fuel r
      let (count, r) ← readCompressed cfg r
      let (args, r) ← readMany (readElemF cfg fuel) count r
      pure (.generic t args, r)
    | 0x16 => pure (.typedReference, r)
    | 0x18 => pure (.intPtr, r)
    | 0x19 => pure (.uintPtr, r)
    | 0x1c => pure (.object, r)
    | 0x1d => do
      let (t, r) ← readElemF cfg fuel r
      pure (.szArray t, r)
    | 0x1e => do
      let (n, r) ← readCompressed cfg r
      pure (.methodGenericParam n, r)
    | 0x41 => pure (.varargSentinel, r)
    | _ => .err "Invalid ELEMENT_TYPE"

/-- `BlobReader::read_element_type`, with enough fuel for every input. -/
def readElem (cfg : Cfg) (r : Reader) : Res (ElementType × Reader) :=
  readElemF cfg (r.data.length - r.pos + 1) r

/-- `BlobReader::read_field_signature` (blob/field_signature.rs:10-27). -/
def readFieldSig (cfg : Cfg) (r : Reader) : Res (ElementType × Reader) := do
  let (b, r) ← readByte cfg r
  if b ≠ 0x6 then .err "Expected 0x6 at the start of field signature"
  else do
    let b ← peekByte cfg r
    if b = 0x1f ∨ b = 0x20 then .panic
    else readElem cfg r

/-- `struct MethodSignature` (blob/method_signature.rs:5-12). -/
structure MethodSig where
  «instance» : Bool
  explicitThis : Bool
  vararg : Bool
  genericParamCount : Nat
  returnType : ElementType
  params : List ElementType
deriving Repr

/-- `BlobReader::read_method_signature` (blob/method_signature.rs:15-48). -/
def readMethodSig (cfg : Cfg) (r : Reader) : Res (MethodSig × Reader) := do
  let (next, r) ← readByte cfg r
  let inst : Bool := next &&& 0x20 = 0x20
  let explicitThis : Bool := next &&& 0x40 = 0x40
  let vararg : Bool := next &&& 0x5 = 0x5
  let generic : Bool := next &&& 0x10 = 0x10
  let (genericParamCount, r) ← if generic then readCompressed cfg r else pure (0, r)
  let (paramCount, r) ← readCompressed cfg r
  let (returnType, r) ← readElem cfg r
  let (params, r) ← readMany (readElem cfg) paramCount r
  pure (⟨inst, explicitThis, vararg, genericParamCount, returnType, params⟩, r)

/-- `struct PropertySignature` (blob/property_signature.rs:5-9). -/
structure PropertySig where
  «instance» : Bool
  returnType : ElementType
  params : List ElementType
deriving Repr

/-- `BlobReader::read_property_signature` (blob/property_signature.rs:12-38). -/
def readPropertySig (cfg : Cfg) (r : Reader) : Res (PropertySig × Reader) := do
  let (next, r) ← readByte cfg r
  if next &&& 0x8 ≠ 0x8 then .err "Invalid property signature"
  else do
    let inst : Bool := next &&& 0x20 = 0x20
    let (paramCount, r) ← readCompressed cfg r
    let (returnType, r) ← readElem cfg r
    let (params, r) ← readMany (readElem cfg) paramCount r
    pure (⟨inst, returnType, params⟩, r)

/-- `BlobReader::read_method_spec` (blob/method_spec.rs:10-29). -/
def readMethodSpec (cfg : Cfg) (r : Reader) : Res (List ElementType × Reader) := do
  let (b, r) ← readByte cfg r
  if b ≠ 0xa then .err "Expected 0xa at the start of MethodSpec"
  else do
    let (count, r) ← readCompressed cfg r
    readMany (readElem cfg) count r

/-- `BlobReader::read_type_spec` (blob/type_spec.rs:10-14). -/
def readTypeSpec (cfg : Cfg) (r : Reader) : Res (ElementType × Reader) := readElem cfg r

/-- `enum MarshallingDescriptorScalar` (blob/marshalling_descriptor.rs:5-23). -/
inductive MarshalScalar where
  | bool | sbyte | byte | short | ushort | int | uint | long | ulong | float | double | string | wstring
  | nativeInt | nativeUInt | functionPointer | unknown
deriving DecidableEq, Repr

/-- `enum MarshallingDescriptor` (blob/marshalling_descriptor.rs:26-33). -/
inductive MarshalDesc where
  | scalar (s : MarshalScalar)
  | array (elementType : MarshalScalar) (sizeParamNum numElements : Option Nat)
deriving DecidableEq, Repr

/-- `BlobReader::read_marshalling_descriptor_scalar` (blob/marshalling_descriptor.rs:36-65). -/
def readMarshalScalar (cfg : Cfg) (r : Reader) : Res (MarshalScalar × Reader) := do
  let (d, r) ← readByte cfg r
  match d with
  | 0x2 => pure (.bool, r)
  | 0x3 => pure (.sbyte, r)
  | 0x4 => pure (.byte, r)
  | 0x5 => pure (.short, r)
  | 0x6 => pure (.ushort, r)
  | 0x7 => pure (.int, r)
  | 0x8 => pure (.uint, r)
  | 0x9 => pure (.long, r)
  | 0xa => pure (.ulong, r)
  | 0xb => pure (.float, r)
  | 0xc => pure (.double, r)
  | 0x14 => pure (.string, r)
  | 0x15 => pure (.wstring, r)
  | 0x1f => pure (.nativeInt, r)
  | 0x20 => pure (.nativeUInt, r)
  | 0x26 => pure (.functionPointer, r)
  | 0x50 => pure (.unknown, r)
  | _ => .err "Invalid marshalling descriptor"

/-- The two `if let Ok(s) = self.read_compressed_u32() { if s == 0 {None} else {Some(s)} } else {None}` blocks
(blob/marshalling_descriptor.rs:74-94). A failed read leaves the cursor where it was. -/
def readOptCompressed (cfg : Cfg) (r : Reader) : Res (Option Nat × Reader) :=
  match readCompressed cfg r with
  | .ok (s, r') => .ok (if s = 0 then none else some s, r')
  | .err _ => .ok (none, r)
  | .panic => .panic
  | .ub => .ub
  | .timeout => .timeout

/-- `BlobReader::read_marshalling_descriptor` (blob/marshalling_descriptor.rs:67-106). -/
def readMarshalDesc (cfg : Cfg) (r : Reader) : Res (MarshalDesc × Reader) := do
  let b ← peekByte cfg r
  if b = 0x2a then do
    let (_, r) ← r.advance cfg 1
    let (elementType, r) ← readMarshalScalar cfg r
    let (sizeParamNum, r) ← readOptCompressed cfg r
    let (numElements, r) ← readOptCompressed cfg r
    pure (.array elementType sizeParamNum numElements, r)
  else do
    let (s, r) ← readMarshalScalar cfg r
    pure (.scalar s, r)

end Clr
