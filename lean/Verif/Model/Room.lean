import Verif.Model.TableRows
/-!
# Memory requested while reading

The readers of tables and signatures once more, with the number of elements for which memory is requested
(`Vec::with_capacity`) before they are read. The results are those of the readers themselves (`Lemmas/Room`).
-/

namespace Clr

/-- A result, and the number of elements memory was requested for on the way to it. -/
def Room (α : Type) : Type := Res α × Nat

namespace Room

def pure {α : Type} (a : α) : Room α := (.ok a, 0)

/-- What was requested stays requested when the rest fails. -/
def bind {α β : Type} (x : Room α) (f : α → Room β) : Room β :=
  match x.1 with
  | .ok a => ((f a).1, x.2 + (f a).2)
  | .err m => (.err m, x.2)
  | .panic => (.panic, x.2)
  | .ub => (.ub, x.2)
  | .timeout => (.timeout, x.2)

instance : Monad Room where
  pure := Room.pure
  bind := Room.bind

/-- A computation that requests no memory in advance. -/
def of {α : Type} (x : Res α) : Room α := (x, 0)

/-- `Vec::with_capacity(n)`. -/
def reserve (n : Nat) : Room Unit := (.ok (), n)

end Room

open Room (of reserve)

/-- The loops `for _ in 0..count { v.push(…?) }`, for element readers that request memory themselves. -/
def readManyR {α : Type} (f : Reader → Room (α × Reader)) : Nat → Reader → Room (List α × Reader)
  | 0, r => of (.ok ([], r))
  | n + 1, r => do
    let (a, r) ← f r
    let (as, r) ← readManyR f n r
    pure (a :: as, r)

/-- `TableReader::read_table` (tables/mod.rs:365-373): `with_capacity(count)`, then the rows. -/
def readTableR {α : Type} (readRow : Reader → Res (α × Reader)) (t : TableCtx) (ty : TableType) (r : Reader) :
    Room (List α × Reader) := do
  reserve (t.rowCount ty.code)
  of (readTable readRow t ty r)

/-- `TableReader::read_tables` (tables/mod.rs:375-416). -/
def readTablesR (cfg : Cfg) (t : TableCtx) (r : Reader) : Room (Tables × Reader) := do
  let (module, r) ← readTableR (readModuleRow cfg t) t .module r
  let (typeRef, r) ← readTableR (readTypeRefRow cfg t) t .typeRef r
  let (typeDef, r) ← readTableR (readTypeDefRow cfg t) t .typeDef r
  let (field, r) ← readTableR (readFieldRow cfg t) t .field r
  let (methodDef, r) ← readTableR (readMethodDefRow cfg t) t .methodDef r
  let (param, r) ← readTableR (readParamRow cfg t) t .param r
  let (interfaceImpl, r) ← readTableR (readInterfaceImplRow cfg t) t .interfaceImpl r
  let (memberRef, r) ← readTableR (readMemberRefRow cfg t) t .memberRef r
  let (constant, r) ← readTableR (readConstantRow cfg t) t .constant r
  let (customAttribute, r) ← readTableR (readCustomAttributeRow cfg t) t .customAttribute r
  let (fieldMarshal, r) ← readTableR (readFieldMarshalRow cfg t) t .fieldMarshal r
  let (declSecurity, r) ← readTableR (readDeclSecurityRow cfg t) t .declSecurity r
  let (classLayout, r) ← readTableR (readClassLayoutRow cfg t) t .classLayout r
  let (fieldLayout, r) ← readTableR (readFieldLayoutRow cfg t) t .fieldLayout r
  let (standaloneSig, r) ← readTableR (readStandaloneSigRow cfg t) t .standaloneSig r
  let (eventMap, r) ← readTableR (readEventMapRow cfg t) t .eventMap r
  let (event, r) ← readTableR (readEventRow cfg t) t .event r
  let (propertyMap, r) ← readTableR (readPropertyMapRow cfg t) t .propertyMap r
  let (property, r) ← readTableR (readPropertyRow cfg t) t .property r
  let (methodSemantics, r) ← readTableR (readMethodSemanticsRow cfg t) t .methodSemantics r
  let (methodImpl, r) ← readTableR (readMethodImplRow cfg t) t .methodImpl r
  let (moduleRef, r) ← readTableR (readModuleRefRow cfg t) t .moduleRef r
  let (typeSpec, r) ← readTableR (readTypeSpecRow cfg t) t .typeSpec r
  let (implMap, r) ← readTableR (readImplMapRow cfg t) t .implMap r
  let (fieldRva, r) ← readTableR (readFieldRvaRow cfg t) t .fieldRva r
  let (assembly, r) ← readTableR (readAssemblyRow cfg t) t .assembly r
  let (assemblyProcessor, r) ← readTableR (readAssemblyProcessorRow cfg t) t .assemblyProcessor r
  let (assemblyOs, r) ← readTableR (readAssemblyOsRow cfg t) t .assemblyOs r
  let (assemblyRef, r) ← readTableR (readAssemblyRefRow cfg t) t .assemblyRef r
  let (assemblyRefProcessor, r) ← readTableR (readAssemblyRefProcessorRow cfg t) t .assemblyRefProcessor r
  let (assemblyRefOs, r) ← readTableR (readAssemblyRefOsRow cfg t) t .assemblyRefOs r
  let (file, r) ← readTableR (readFileRow cfg t) t .file r
  let (exportedType, r) ← readTableR (readExportedTypeRow cfg t) t .exportedType r
  let (manifestResource, r) ← readTableR (readManifestResourceRow cfg t) t .manifestResource r
  let (nestedClass, r) ← readTableR (readNestedClassRow cfg t) t .nestedClass r
  let (genericParam, r) ← readTableR (readGenericParamRow cfg t) t .genericParam r
  let (methodSpec, r) ← readTableR (readMethodSpecRow cfg t) t .methodSpec r
  let (genericParamConstraint, r) ← readTableR (readGenericParamConstraintRow cfg t) t .genericParamConstraint r
  pure (⟨module,
    typeRef,
    typeDef,
    field,
    methodDef,
    param,
    interfaceImpl,
    memberRef,
    constant,
    customAttribute,
    fieldMarshal,
    declSecurity,
    classLayout,
    fieldLayout,
    standaloneSig,
    eventMap,
    event,
    propertyMap,
    property,
    methodSemantics,
    methodImpl,
    moduleRef,
    typeSpec,
    implMap,
    fieldRva,
    assembly,
    assemblyProcessor,
    assemblyOs,
    assemblyRef,
    assemblyRefProcessor,
    assemblyRefOs,
    file,
    exportedType,
    manifestResource,
    nestedClass,
    genericParam,
    methodSpec,
    genericParamConstraint⟩, r)

/-- `TableReader::read` (tables/mod.rs:241-363). -/
def readTableStreamR (cfg : Cfg) (data : Bytes) : Room Tables := do
  let (t, r) ← of (readTableHeader cfg data)
  let (tables, _) ← readTablesR cfg t r
  pure tables

/-- `BlobReader::read_array_shape` (blob/array_shape.rs:12-32). -/
def readArrayShapeR (cfg : Cfg) (r : Reader) : Room (ArrayShape × Reader) := do
  let (rank, r) ← of (readCompressed cfg r)
  let (n, r) ← of (readCompressed cfg r)
  reserve n
  let (sizes, r) ← of (readMany (readCompressed cfg) n r)
  let (m, r) ← of (readCompressed cfg r)
  reserve m
  let (lowerBounds, r) ← of (readMany (readCompressed cfg) m r)
  pure (⟨rank, sizes, lowerBounds⟩, r)

/-- `BlobReader::read_element_type` (blob/element_type.rs:47-98). The cases without memory of their own are those of
`readElemF`. -/
def readElemR (cfg : Cfg) : Nat → Reader → Room (ElementType × Reader)
  | 0, _ => of .timeout
  | fuel + 1, r => do
    let (b, r1) ← of (readByte cfg r)
    match b with
    | 0xf => do
      let (t, r) ← readElemR cfg fuel r1
      pure (.pointer t, r)
    | 0x10 => do
      let (t, r) ← readElemR cfg fuel r1
      pure (.reference t, r)
    | 0x14 => do
      let (t, r) ← readElemR cfg fuel r1
      let (s, r) ← readArrayShapeR cfg r
      pure (.array t s, r)
    | 0x15 => do
      let (t, r) ← readElemR cfg fuel r1
      let (count, r) ← of (readCompressed cfg r)
      reserve count
      let (args, r) ← readManyR (readElemR cfg fuel) count r
      pure (.generic t args, r)
    | 0x1d => do
      let (t, r) ← readElemR cfg fuel r1
      pure (.szArray t, r)
    | _ => of (readElemF cfg (fuel + 1) r)

/-- `BlobReader::read_method_signature` (blob/method_signature.rs:15-48). -/
def readMethodSigR (cfg : Cfg) (r : Reader) : Room (MethodSig × Reader) := do
  let (next, r) ← of (readByte cfg r)
  let inst : Bool := next &&& 0x20 = 0x20
  let explicitThis : Bool := next &&& 0x40 = 0x40
  let vararg : Bool := next &&& 0x5 = 0x5
  let generic : Bool := next &&& 0x10 = 0x10
  let (genericParamCount, r) ← of (if generic then readCompressed cfg r else .ok (0, r))
  let (paramCount, r) ← of (readCompressed cfg r)
  let (returnType, r) ← readElemR cfg (r.data.length - r.pos + 1) r
  reserve paramCount
  let (params, r) ← readManyR (fun r => readElemR cfg (r.data.length - r.pos + 1) r) paramCount r
  pure (⟨inst, explicitThis, vararg, genericParamCount, returnType, params⟩, r)

/-- `BlobReader::read_property_signature` (blob/property_signature.rs:12-38). -/
def readPropertySigR (cfg : Cfg) (r : Reader) : Room (PropertySig × Reader) := do
  let (next, r) ← of (readByte cfg r)
  if next &&& 0x8 ≠ 0x8 then of (.err "Invalid property signature")
  else do
    let inst : Bool := next &&& 0x20 = 0x20
    let (paramCount, r) ← of (readCompressed cfg r)
    let (returnType, r) ← readElemR cfg (r.data.length - r.pos + 1) r
    reserve paramCount
    let (params, r) ← readManyR (fun r => readElemR cfg (r.data.length - r.pos + 1) r) paramCount r
    pure (⟨inst, returnType, params⟩, r)

/-- `BlobReader::read_method_spec` (blob/method_spec.rs:10-29). -/
def readMethodSpecR (cfg : Cfg) (r : Reader) : Room (List ElementType × Reader) := do
  let (b, r) ← of (readByte cfg r)
  if b ≠ 0xa then of (.err "Expected 0xa at the start of MethodSpec")
  else do
    let (count, r) ← of (readCompressed cfg r)
    reserve count
    readManyR (fun r => readElemR cfg (r.data.length - r.pos + 1) r) count r

end Clr
