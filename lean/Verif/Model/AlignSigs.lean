import Verif.Model.AlignBodies
/-!
# Addresses of typed accesses in signatures: `clr_lite/src/metadata/blob/`

The readers of `Model/Blob` a second time, with the address checked at every read of a type with an alignment: compressed
numbers of two and four bytes are read as `u16` and `u32` (blob_reader.rs:51-54). `base` is the address of the bytes of the
blob; single bytes may be anywhere.
-/

namespace Clr.Strict

/-- `BlobHeap::new_reader` (blob_heap.rs:15-17), for a heap at address `base`; also the address of the contents. -/
def blobHeapReader (base : Nat) (cfg : Cfg) (heap : Bytes) (h : Nat) : Res (Reader × Nat) := do
  let d ← sliceFrom heap h
  newBlobReader (base + h) cfg d

/-- `BlobReader::read_type_def_or_ref` (blob/type_def_or_ref.rs:7-23). -/
def readTypeDefOrRef (base : Nat) (cfg : Cfg) (r : Reader) : Res (TypeDefOrRef × Reader) := do
  let (val, r) ← readCompressed base cfg r
  let tag := val % 4
  let index := val / 4
  if tag = 0 then pure (.typeDef index, r)
  else if tag = 1 then pure (.typeRef index, r)
  else if tag = 2 then pure (.typeSpec index, r)
  else .err "Invalid TypeDefOrRef tag"

/-- `BlobReader::read_array_shape` (blob/array_shape.rs:12-32). -/
def readArrayShape (base : Nat) (cfg : Cfg) (r : Reader) : Res (ArrayShape × Reader) := do
  let (rank, r) ← readCompressed base cfg r
  let (n, r) ← readCompressed base cfg r
  let (sizes, r) ← readMany (readCompressed base cfg) n r
  let (m, r) ← readCompressed base cfg r
  let (lowerBounds, r) ← readMany (readCompressed base cfg) m r
  pure (⟨rank, sizes, lowerBounds⟩, r)

/-- `BlobReader::read_element_type` (blob/element_type.rs:47-98). The recursion is bounded by fuel as in `Model/Blob`. -/
def readElemF (base : Nat) (cfg : Cfg) : Nat → Reader → Res (ElementType × Reader)
  | 0, _ => .timeout
  | fuel + 1, r => do
    let (b, r) ← readByte cfg r
    match b with
    | 0x1 => pure (.void, r)
    | 0x2 => pure (.bool, r)
    | 0x3 => pure (.char, r)
    | 0x4 => pure (.sbyte, r)
    | 0x5 => pure (.byte, r)
    | 0x6 => pure (.short, r)
    | 0x7 => pure (.ushort, r)
    | 0x8 => pure (.int, r)
    | 0x9 => pure (.uint, r)
    | 0xa => pure (.long, r)
    | 0xb => pure (.ulong, r)
    | 0xc => pure (.float, r)
    | 0xd => pure (.double, r)
    | 0xe => pure (.string, r)
    | 0xf => do
      let (t, r) ← readElemF base cfg fuel r
      pure (.pointer t, r)
    | 0x10 => do
      let (t, r) ← readElemF base cfg fuel r
      pure (.reference t, r)
    | 0x11 => do
      let (h, r) ← readTypeDefOrRef base cfg r
      pure (.valueType h, r)
    | 0x12 => do
      let (h, r) ← readTypeDefOrRef base cfg r
      pure (.class h, r)
    | 0x13 => do
      let (n, r) ← readCompressed base cfg r
      pure (.typeGenericParam n, r)
    | 0x14 => do
      let (t, r) ← readElemF base cfg fuel r
      let (s, r) ← readArrayShape base cfg r
      pure (.array t s, r)
    | 0x15 => do
      let (t, r) ← readElemF base cfg fuel r
      let (count, r) ← readCompressed base cfg r
      let (args, r) ← readMany (readElemF base cfg fuel) count r
      pure (.generic t args, r)
    | 0x16 => pure (.typedReference, r)
    | 0x18 => pure (.intPtr, r)
    | 0x19 => pure (.uintPtr, r)
    | 0x1c => pure (.object, r)
    | 0x1d => do
      let (t, r) ← readElemF base cfg fuel r
      pure (.szArray t, r)
    | 0x1e => do
      let (n, r) ← readCompressed base cfg r
      pure (.methodGenericParam n, r)
    | 0x41 => pure (.varargSentinel, r)
    | _ => .err "Invalid ELEMENT_TYPE"

/-- `BlobReader::read_element_type`, with enough fuel for every input. -/
def readElem (base : Nat) (cfg : Cfg) (r : Reader) : Res (ElementType × Reader) :=
  readElemF base cfg (r.data.length - r.pos + 1) r

/-- `BlobReader::read_field_signature` (blob/field_signature.rs:10-27). -/
def readFieldSig (base : Nat) (cfg : Cfg) (r : Reader) : Res (ElementType × Reader) := do
  let (b, r) ← readByte cfg r
  if b ≠ 0x6 then .err "Expected 0x6 at the start of field signature"
  else do
    let b ← peekByte cfg r
    if b = 0x1f ∨ b = 0x20 then .panic
    else readElem base cfg r

/-- `BlobReader::read_method_signature` (blob/method_signature.rs:15-48). -/
def readMethodSig (base : Nat) (cfg : Cfg) (r : Reader) : Res (MethodSig × Reader) := do
  let (next, r) ← readByte cfg r
  let inst : Bool := next &&& 0x20 = 0x20
  let explicitThis : Bool := next &&& 0x40 = 0x40
  let vararg : Bool := next &&& 0x5 = 0x5
  let generic : Bool := next &&& 0x10 = 0x10
  let (genericParamCount, r) ← if generic then readCompressed base cfg r else pure (0, r)
  let (paramCount, r) ← readCompressed base cfg r
  let (returnType, r) ← readElem base cfg r
  let (params, r) ← readMany (readElem base cfg) paramCount r
  pure (⟨inst, explicitThis, vararg, genericParamCount, returnType, params⟩, r)

/-- `BlobReader::read_property_signature` (blob/property_signature.rs:12-38). -/
def readPropertySig (base : Nat) (cfg : Cfg) (r : Reader) : Res (PropertySig × Reader) := do
  let (next, r) ← readByte cfg r
  if next &&& 0x8 ≠ 0x8 then .err "Invalid property signature"
  else do
    let inst : Bool := next &&& 0x20 = 0x20
    let (paramCount, r) ← readCompressed base cfg r
    let (returnType, r) ← readElem base cfg r
    let (params, r) ← readMany (readElem base cfg) paramCount r
    pure (⟨inst, returnType, params⟩, r)

/-- `BlobReader::read_method_spec` (blob/method_spec.rs:10-29). -/
def readMethodSpec (base : Nat) (cfg : Cfg) (r : Reader) : Res (List ElementType × Reader) := do
  let (b, r) ← readByte cfg r
  if b ≠ 0xa then .err "Expected 0xa at the start of MethodSpec"
  else do
    let (count, r) ← readCompressed base cfg r
    readMany (readElem base cfg) count r

/-- `BlobReader::read_type_spec` (blob/type_spec.rs:10-14). -/
def readTypeSpec (base : Nat) (cfg : Cfg) (r : Reader) : Res (ElementType × Reader) := readElem base cfg r

/-- The two `if let Ok(s) = self.read_compressed_u32() { if s == 0 {None} else {Some(s)} } else {None}` blocks
(blob/marshalling_descriptor.rs:74-94). A failed read leaves the cursor where it was. -/
def readOptCompressed (base : Nat) (cfg : Cfg) (r : Reader) : Res (Option Nat × Reader) :=
  match readCompressed base cfg r with
  | .ok (s, r') => .ok (if s = 0 then none else some s, r')
  | .err _ => .ok (none, r)
  | .panic => .panic
  | .ub => .ub
  | .timeout => .timeout

/-- `BlobReader::read_marshalling_descriptor` (blob/marshalling_descriptor.rs:67-106). -/
def readMarshalDesc (base : Nat) (cfg : Cfg) (r : Reader) : Res (MarshalDesc × Reader) := do
  let b ← peekByte cfg r
  if b = 0x2a then do
    let (_, r) ← r.advance cfg 1
    let (elementType, r) ← readMarshalScalar cfg r
    let (sizeParamNum, r) ← readOptCompressed base cfg r
    let (numElements, r) ← readOptCompressed base cfg r
    pure (.array elementType sizeParamNum numElements, r)
  else do
    let (s, r) ← readMarshalScalar cfg r
    pure (.scalar s, r)

end Clr.Strict
