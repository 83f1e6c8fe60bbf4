import Verif.Model.AlignFiles
/-!
# Addresses of typed accesses in the tables of a file

The readers of `Model/TableRows`, with the address checked at every read; the stream of tables is at address `base`. The rows are
read number by number, with `BinaryReader::read`.
-/

namespace Clr
namespace StrictTables

/-- `TableReader::_read::<uN>` (tables/mod.rs:418-422), as `Clr.trRead`. -/
def trRead (base : Nat) (cfg : Cfg) (r : Reader) (w : Nat) : Res (Nat × Reader) := do
  let (x, r) ← Strict.readNum base cfg r w
  let x ← Res.ofOption "Unexpected EOF" x
  pure (x, r)

/-- `let _generation = reader._read::<u16>();` (module.rs:30), as `Clr.trReadIgnored`. -/
def trReadIgnored (base : Nat) (cfg : Cfg) (r : Reader) (w : Nat) : Res (Unit × Reader) := do
  let (_, r) ← Strict.readNum base cfg r w
  pure ((), r)

/-- `f(reader._read::<uN>()?)?`, as `Clr.trReadWith`. -/
def trReadWith {α : Type} (f : Nat → Res α) (base : Nat) (cfg : Cfg) (r : Reader) (w : Nat) : Res (α × Reader) := do
  let (x, r) ← trRead base cfg r w
  let a ← f x
  pure (a, r)

/-- A column of two or four bytes, as `Clr.readWide`. -/
def readWide (base : Nat) (cfg : Cfg) (wide : Bool) (r : Reader) : Res (Nat × Reader) :=
  if wide then trRead base cfg r 4 else trRead base cfg r 2

/-- `read_type_def_handle` … `read_generic_param_handle` (mod.rs:428-489), as `Clr.readHandle`. -/
def readHandle (base : Nat) (cfg : Cfg) (t : TableCtx) (ty : TableType) (r : Reader) : Res (Nat × Reader) :=
  readWide base cfg (t.wideTable ty.code) r

/-- `read_string_handle` (mod.rs:491-496). -/
def readStringHandle (base : Nat) (cfg : Cfg) (t : TableCtx) (r : Reader) : Res (Nat × Reader) := readWide base cfg t.wideString r

/-- `read_guid_handle` (mod.rs:498-503). -/
def readGuidHandle (base : Nat) (cfg : Cfg) (t : TableCtx) (r : Reader) : Res (Nat × Reader) := readWide base cfg t.wideGuid r

/-- `read_blob_handle` (mod.rs:505-510). -/
def readBlobHandle (base : Nat) (cfg : Cfg) (t : TableCtx) (r : Reader) : Res (Nat × Reader) := readWide base cfg t.wideBlob r

/-- The coded-index readers (mod.rs:512-842), as `Clr.readCoded`. -/
def readCoded (base : Nat) (cfg : Cfg) (t : TableCtx) (k : CodedKind) (r : Reader) : Res (Coded × Reader) := do
  let (data, r) ← readWide base cfg (t.wideCoded k) r
  let tag := data &&& k.tagMask
  let index := (data &&& (2 ^ 64 - 1 - k.tagMask)) >>> k.tagBits
  let table ← Res.ofOption "Invalid tag" (k.decodeTag tag)
  pure (⟨table, index⟩, r)

/-- `Module::read_row` (module.rs:29-37). -/
def readModuleRow (base : Nat) (cfg : Cfg) (t : TableCtx) (r : Reader) : Res (ModuleRow × Reader) := do
  let (_, r) ← trReadIgnored base cfg r 2
  let (name, r) ← readStringHandle base cfg t r
  let (version, r) ← readGuidHandle base cfg t r
  let (_, r) ← readGuidHandle base cfg t r
  let (_, r) ← readGuidHandle base cfg t r
  pure (⟨name, version⟩, r)

/-- `TypeRef::read_row` (type_ref.rs:30-36). -/
def readTypeRefRow (base : Nat) (cfg : Cfg) (t : TableCtx) (r : Reader) : Res (TypeRefRow × Reader) := do
  let (resolutionScope, r) ← readCoded base cfg t .resolutionScope r
  let (name, r) ← readStringHandle base cfg t r
  let (nspace, r) ← readStringHandle base cfg t r
  pure (⟨resolutionScope, name, nspace⟩, r)

/-- `TypeDef::read_row` (type_def.rs:149-158). -/
def readTypeDefRow (base : Nat) (cfg : Cfg) (t : TableCtx) (r : Reader) : Res (TypeDefRow × Reader) := do
  let (attributes, r) ← trReadWith TypeAttributes.fromRaw base cfg r 4
  let (name, r) ← readStringHandle base cfg t r
  let (nspace, r) ← readStringHandle base cfg t r
  let (baseType, r) ← readCoded base cfg t .typeDefOrRef r
  let (fieldList, r) ← readHandle base cfg t .field r
  let (methodList, r) ← readHandle base cfg t .methodDef r
  pure (⟨attributes, name, nspace, baseType, fieldList, methodList⟩, r)

/-- `Field::read_row` (field.rs:89-95). -/
def readFieldRow (base : Nat) (cfg : Cfg) (t : TableCtx) (r : Reader) : Res (FieldRow × Reader) := do
  let (attributes, r) ← trReadWith FieldAttributes.fromRaw base cfg r 2
  let (name, r) ← readStringHandle base cfg t r
  let (signature, r) ← readBlobHandle base cfg t r
  pure (⟨attributes, name, signature⟩, r)

/-- `MethodDef::read_row` (method_def.rs:162-171). -/
def readMethodDefRow (base : Nat) (cfg : Cfg) (t : TableCtx) (r : Reader) : Res (MethodDefRow × Reader) := do
  let (rva, r) ← trRead base cfg r 4
  let (implAttributes, r) ← trReadWith MethodImplAttributes.fromRaw base cfg r 2
  let (attributes, r) ← trReadWith MethodAttributes.fromRaw base cfg r 2
  let (name, r) ← readStringHandle base cfg t r
  let (signature, r) ← readBlobHandle base cfg t r
  let (paramList, r) ← readHandle base cfg t .param r
  pure (⟨rva, implAttributes, attributes, name, signature, paramList⟩, r)

/-- `Param::read_row` (param.rs:52-58). -/
def readParamRow (base : Nat) (cfg : Cfg) (t : TableCtx) (r : Reader) : Res (ParamRow × Reader) := do
  let (attributes, r) ← trReadWith ParamAttributes.fromRaw base cfg r 2
  let (index, r) ← trRead base cfg r 2
  let (name, r) ← readStringHandle base cfg t r
  pure (⟨attributes, index, name⟩, r)

/-- `InterfaceImpl::read_row` (interface_impl.rs:29-34). -/
def readInterfaceImplRow (base : Nat) (cfg : Cfg) (t : TableCtx) (r : Reader) : Res (InterfaceImplRow × Reader) := do
  let (cls, r) ← readHandle base cfg t .typeDef r
  let (iface, r) ← readCoded base cfg t .typeDefOrRef r
  pure (⟨cls, iface⟩, r)

/-- `MemberRef::read_row` (member_ref.rs:30-36). -/
def readMemberRefRow (base : Nat) (cfg : Cfg) (t : TableCtx) (r : Reader) : Res (MemberRefRow × Reader) := do
  let (parent, r) ← readCoded base cfg t .memberRefParent r
  let (name, r) ← readStringHandle base cfg t r
  let (signature, r) ← readBlobHandle base cfg t r
  pure (⟨parent, name, signature⟩, r)

/-- `Constant::read_row` (constant.rs:77-88). -/
def readConstantRow (base : Nat) (cfg : Cfg) (t : TableCtx) (r : Reader) : Res (ConstantRow × Reader) := do
  let (typ, r) ← trReadWith ConstantType.fromRaw base cfg r 1
  let (_, r) ← r.advance cfg 1
  let (parent, r) ← readCoded base cfg t .hasConstant r
  let (value, r) ← readBlobHandle base cfg t r
  pure (⟨typ, parent, value⟩, r)

/-- `CustomAttribute::read_row` (custom_attribute.rs:30-36). -/
def readCustomAttributeRow (base : Nat) (cfg : Cfg) (t : TableCtx) (r : Reader) : Res (CustomAttributeRow × Reader) := do
  let (parent, r) ← readCoded base cfg t .hasCustomAttribute r
  let (attributeType, r) ← readCoded base cfg t .customAttributeType r
  let (value, r) ← readBlobHandle base cfg t r
  pure (⟨parent, attributeType, value⟩, r)

/-- `FieldMarshal::read_row` (field_marshal.rs:29-34). -/
def readFieldMarshalRow (base : Nat) (cfg : Cfg) (t : TableCtx) (r : Reader) : Res (FieldMarshalRow × Reader) := do
  let (parent, r) ← readCoded base cfg t .hasFieldMarshal r
  let (nativeType, r) ← readBlobHandle base cfg t r
  pure (⟨parent, nativeType⟩, r)

/-- `DeclSecurity::read_row` (decl_security.rs:34-40). -/
def readDeclSecurityRow (base : Nat) (cfg : Cfg) (t : TableCtx) (r : Reader) : Res (DeclSecurityRow × Reader) := do
  let (action, r) ← trRead base cfg r 2
  let (parent, r) ← readCoded base cfg t .hasDeclSecurity r
  let (permissionSet, r) ← readBlobHandle base cfg t r
  pure (⟨action, parent, permissionSet⟩, r)

/-- `ClassLayout::read_row` (class_layout.rs:30-50). -/
def readClassLayoutRow (base : Nat) (cfg : Cfg) (t : TableCtx) (r : Reader) : Res (ClassLayoutRow × Reader) := do
  let (packingSize, r) ← trReadWith (fun x => .ok (if x = 0 then none else some x)) base cfg r 2
  let (classSize, r) ← trReadWith (fun x => .ok (if x = 0 then none else some x)) base cfg r 4
  let (parent, r) ← readHandle base cfg t .typeDef r
  pure (⟨packingSize, classSize, parent⟩, r)

/-- `FieldLayout::read_row` (field_layout.rs:29-34). -/
def readFieldLayoutRow (base : Nat) (cfg : Cfg) (t : TableCtx) (r : Reader) : Res (FieldLayoutRow × Reader) := do
  let (offset, r) ← trRead base cfg r 4
  let (field, r) ← readHandle base cfg t .field r
  pure (⟨offset, field⟩, r)

/-- `StandaloneSig::read_row` (standalone_sig.rs:28-32). -/
def readStandaloneSigRow (base : Nat) (cfg : Cfg) (t : TableCtx) (r : Reader) : Res (StandaloneSigRow × Reader) := do
  let (signature, r) ← readBlobHandle base cfg t r
  pure (⟨signature⟩, r)

/-- `EventMap::read_row` (event_map.rs:29-34). -/
def readEventMapRow (base : Nat) (cfg : Cfg) (t : TableCtx) (r : Reader) : Res (EventMapRow × Reader) := do
  let (parent, r) ← readHandle base cfg t .typeDef r
  let (eventList, r) ← readHandle base cfg t .event r
  pure (⟨parent, eventList⟩, r)

/-- `Event::read_row` (event.rs:46-52). -/
def readEventRow (base : Nat) (cfg : Cfg) (t : TableCtx) (r : Reader) : Res (EventRow × Reader) := do
  let (attributes, r) ← trReadWith EventAttributes.fromRaw base cfg r 2
  let (name, r) ← readStringHandle base cfg t r
  let (eventType, r) ← readCoded base cfg t .typeDefOrRef r
  pure (⟨attributes, name, eventType⟩, r)

/-- `PropertyMap::read_row` (property_map.rs:28-33). -/
def readPropertyMapRow (base : Nat) (cfg : Cfg) (t : TableCtx) (r : Reader) : Res (PropertyMapRow × Reader) := do
  let (parent, r) ← readHandle base cfg t .typeDef r
  let (propertyList, r) ← readHandle base cfg t .property r
  pure (⟨parent, propertyList⟩, r)

/-- `Property::read_row` (property.rs:48-54). -/
def readPropertyRow (base : Nat) (cfg : Cfg) (t : TableCtx) (r : Reader) : Res (PropertyRow × Reader) := do
  let (attributes, r) ← trReadWith PropertyAttributes.fromRaw base cfg r 2
  let (name, r) ← readStringHandle base cfg t r
  let (signature, r) ← readBlobHandle base cfg t r
  pure (⟨attributes, name, signature⟩, r)

/-- `MethodSemantics::read_row` (method_semantics.rs:60-66). -/
def readMethodSemanticsRow (base : Nat) (cfg : Cfg) (t : TableCtx) (r : Reader) : Res (MethodSemanticsRow × Reader) := do
  let (semantics, r) ← trReadWith MethodSemanticsType.fromRaw base cfg r 2
  let (method, r) ← readHandle base cfg t .methodDef r
  let (association, r) ← readCoded base cfg t .hasSemantics r
  pure (⟨semantics, method, association⟩, r)

/-- `MethodImpl::read_row` (method_impl.rs:30-36). -/
def readMethodImplRow (base : Nat) (cfg : Cfg) (t : TableCtx) (r : Reader) : Res (MethodImplRow × Reader) := do
  let (cls, r) ← readHandle base cfg t .typeDef r
  let (body, r) ← readCoded base cfg t .methodDefOrRef r
  let (declaration, r) ← readCoded base cfg t .methodDefOrRef r
  pure (⟨cls, body, declaration⟩, r)

/-- `ModuleRef::read_row` (module_ref.rs:27-31). -/
def readModuleRefRow (base : Nat) (cfg : Cfg) (t : TableCtx) (r : Reader) : Res (ModuleRefRow × Reader) := do
  let (name, r) ← readStringHandle base cfg t r
  pure (⟨name⟩, r)

/-- `TypeSpec::read_row` (type_spec.rs:28-32). -/
def readTypeSpecRow (base : Nat) (cfg : Cfg) (t : TableCtx) (r : Reader) : Res (TypeSpecRow × Reader) := do
  let (signature, r) ← readBlobHandle base cfg t r
  pure (⟨signature⟩, r)

/-- `ImplMap::read_row` (impl_map.rs:89-96). -/
def readImplMapRow (base : Nat) (cfg : Cfg) (t : TableCtx) (r : Reader) : Res (ImplMapRow × Reader) := do
  let (attributes, r) ← trReadWith PInvokeAttributes.fromRaw base cfg r 2
  let (member, r) ← readCoded base cfg t .memberForwarded r
  let (name, r) ← readStringHandle base cfg t r
  let (moduleRef, r) ← readHandle base cfg t .moduleRef r
  pure (⟨attributes, member, name, moduleRef⟩, r)

/-- `FieldRva::read_row` (field_rva.rs:29-34). -/
def readFieldRvaRow (base : Nat) (cfg : Cfg) (t : TableCtx) (r : Reader) : Res (FieldRvaRow × Reader) := do
  let (rva, r) ← trRead base cfg r 4
  let (field, r) ← readHandle base cfg t .field r
  pure (⟨rva, field⟩, r)

/-- `Assembly::read_row` (assembly.rs:53-82). -/
def readAssemblyRow (base : Nat) (cfg : Cfg) (t : TableCtx) (r : Reader) : Res (AssemblyRow × Reader) := do
  let (hashAlgorithm, r) ← trReadWith AssemblyHashAlgorithm.fromRaw base cfg r 4
  let (majorVersion, r) ← trRead base cfg r 2
  let (minorVersion, r) ← trRead base cfg r 2
  let (buildNumber, r) ← trRead base cfg r 2
  let (revisionNumber, r) ← trRead base cfg r 2
  let (flags, r) ← trReadWith AssemblyFlags.fromRaw base cfg r 4
  let (publicKey, r) ← readBlobHandle base cfg t r
  let (name, r) ← readStringHandle base cfg t r
  let (culture, r) ← readStringHandle base cfg t r
  pure (⟨hashAlgorithm, majorVersion, minorVersion, buildNumber, revisionNumber, flags, publicKey, name, culture⟩, r)

/-- `AssemblyProcessor::read_row` (assembly_processor.rs:28-32). -/
def readAssemblyProcessorRow (base : Nat) (cfg : Cfg) (_t : TableCtx) (r : Reader) : Res (AssemblyProcessorRow × Reader) := do
  let (processor, r) ← trRead base cfg r 4
  pure (⟨processor⟩, r)

/-- `AssemblyOs::read_row` (assembly_os.rs:30-36). -/
def readAssemblyOsRow (base : Nat) (cfg : Cfg) (_t : TableCtx) (r : Reader) : Res (AssemblyOsRow × Reader) := do
  let (osPlatformId, r) ← trRead base cfg r 4
  let (osMajor, r) ← trRead base cfg r 4
  let (osMinor, r) ← trRead base cfg r 4
  pure (⟨osPlatformId, osMajor, osMinor⟩, r)

/-- `AssemblyRef::read_row` (assembly_ref.rs:36-56). -/
def readAssemblyRefRow (base : Nat) (cfg : Cfg) (t : TableCtx) (r : Reader) : Res (AssemblyRefRow × Reader) := do
  let (majorVersion, r) ← trRead base cfg r 2
  let (minorVersion, r) ← trRead base cfg r 2
  let (buildNumber, r) ← trRead base cfg r 2
  let (revisionNumber, r) ← trRead base cfg r 2
  let (flags, r) ← trReadWith AssemblyFlags.fromRaw base cfg r 4
  let (publicKeyOrToken, r) ← readBlobHandle base cfg t r
  let (name, r) ← readStringHandle base cfg t r
  let (culture, r) ← readStringHandle base cfg t r
  let (hashValue, r) ← readBlobHandle base cfg t r
  pure (⟨majorVersion, minorVersion, buildNumber, revisionNumber, flags, publicKeyOrToken, name, culture, hashValue⟩, r)

/-- `AssemblyRefProcessor::read_row` (assembly_ref_processor.rs:29-34). -/
def readAssemblyRefProcessorRow (base : Nat) (cfg : Cfg) (t : TableCtx) (r : Reader) : Res (AssemblyRefProcessorRow × Reader) := do
  let (processor, r) ← trRead base cfg r 4
  let (assemblyRef, r) ← readHandle base cfg t .assemblyRef r
  pure (⟨processor, assemblyRef⟩, r)

/-- `AssemblyRefOs::read_row` (assembly_ref_os.rs:31-38). -/
def readAssemblyRefOsRow (base : Nat) (cfg : Cfg) (t : TableCtx) (r : Reader) : Res (AssemblyRefOsRow × Reader) := do
  let (osPlatformId, r) ← trRead base cfg r 4
  let (osMajor, r) ← trRead base cfg r 4
  let (osMinor, r) ← trRead base cfg r 4
  let (assemblyRef, r) ← readHandle base cfg t .assemblyRef r
  pure (⟨osPlatformId, osMajor, osMinor, assemblyRef⟩, r)

/-- `File::read_row` (file.rs:29-39). -/
def readFileRow (base : Nat) (cfg : Cfg) (t : TableCtx) (r : Reader) : Res (FileRow × Reader) := do
  let (containsMetadata, r) ← trReadWith (fun x => .ok (decide (x = 0))) base cfg r 4
  let (name, r) ← readStringHandle base cfg t r
  let (hashValue, r) ← readBlobHandle base cfg t r
  pure (⟨containsMetadata, name, hashValue⟩, r)

/-- `ExportedType::read_row` (exported_type.rs:32-40). -/
def readExportedTypeRow (base : Nat) (cfg : Cfg) (t : TableCtx) (r : Reader) : Res (ExportedTypeRow × Reader) := do
  let (flags, r) ← trReadWith TypeAttributes.fromRaw base cfg r 4
  let (typeDefId, r) ← trRead base cfg r 4
  let (name, r) ← readStringHandle base cfg t r
  let (nspace, r) ← readStringHandle base cfg t r
  let (implementation, r) ← readCoded base cfg t .implementation r
  pure (⟨flags, typeDefId, name, nspace, implementation⟩, r)

/-- `ManifestResource::read_row` (manifest_resource.rs:31-42). -/
def readManifestResourceRow (base : Nat) (cfg : Cfg) (t : TableCtx) (r : Reader) : Res (ManifestResourceRow × Reader) := do
  let (offset, r) ← trRead base cfg r 4
  let (isPublic, r) ← trReadWith (fun x => .ok (decide (x = 1))) base cfg r 4
  let (name, r) ← readStringHandle base cfg t r
  let (implements, r) ← readCoded base cfg t .implementation r
  pure (⟨offset, isPublic, name, implements⟩, r)

/-- `NestedClass::read_row` (nested_class.rs:28-33). -/
def readNestedClassRow (base : Nat) (cfg : Cfg) (t : TableCtx) (r : Reader) : Res (NestedClassRow × Reader) := do
  let (nested, r) ← readHandle base cfg t .typeDef r
  let (enclosing, r) ← readHandle base cfg t .typeDef r
  pure (⟨nested, enclosing⟩, r)

/-- `GenericParam::read_row` (generic_param.rs:68-75). -/
def readGenericParamRow (base : Nat) (cfg : Cfg) (t : TableCtx) (r : Reader) : Res (GenericParamRow × Reader) := do
  let (index, r) ← trRead base cfg r 2
  let (attributes, r) ← trReadWith GenericParamAttributes.fromRaw base cfg r 2
  let (owner, r) ← readCoded base cfg t .typeOrMethodDef r
  let (name, r) ← readStringHandle base cfg t r
  pure (⟨index, attributes, owner, name⟩, r)

/-- `MethodSpec::read_row` (method_spec.rs:29-34). -/
def readMethodSpecRow (base : Nat) (cfg : Cfg) (t : TableCtx) (r : Reader) : Res (MethodSpecRow × Reader) := do
  let (method, r) ← readCoded base cfg t .methodDefOrRef r
  let (instantiation, r) ← readBlobHandle base cfg t r
  pure (⟨method, instantiation⟩, r)

/-- `GenericParamConstraint::read_row` (generic_param_constraint.rs:29-34). -/
def readGenericParamConstraintRow (base : Nat) (cfg : Cfg) (t : TableCtx) (r : Reader) : Res (GenericParamConstraintRow × Reader) := do
  let (owner, r) ← readHandle base cfg t .genericParam r
  let (constraint, r) ← readCoded base cfg t .typeDefOrRef r
  pure (⟨owner, constraint⟩, r)

/-- `TableReader::read_tables` (mod.rs:375-416). -/
def readTables (base : Nat) (cfg : Cfg) (t : TableCtx) (r : Reader) : Res (Tables × Reader) := do
  let (module, r) ← readTable (readModuleRow base cfg t) t .module r
  let (typeRef, r) ← readTable (readTypeRefRow base cfg t) t .typeRef r
  let (typeDef, r) ← readTable (readTypeDefRow base cfg t) t .typeDef r
  let (field, r) ← readTable (readFieldRow base cfg t) t .field r
  let (methodDef, r) ← readTable (readMethodDefRow base cfg t) t .methodDef r
  let (param, r) ← readTable (readParamRow base cfg t) t .param r
  let (interfaceImpl, r) ← readTable (readInterfaceImplRow base cfg t) t .interfaceImpl r
  let (memberRef, r) ← readTable (readMemberRefRow base cfg t) t .memberRef r
  let (constant, r) ← readTable (readConstantRow base cfg t) t .constant r
  let (customAttribute, r) ← readTable (readCustomAttributeRow base cfg t) t .customAttribute r
  let (fieldMarshal, r) ← readTable (readFieldMarshalRow base cfg t) t .fieldMarshal r
  let (declSecurity, r) ← readTable (readDeclSecurityRow base cfg t) t .declSecurity r
  let (classLayout, r) ← readTable (readClassLayoutRow base cfg t) t .classLayout r
  let (fieldLayout, r) ← readTable (readFieldLayoutRow base cfg t) t .fieldLayout r
  let (standaloneSig, r) ← readTable (readStandaloneSigRow base cfg t) t .standaloneSig r
  let (eventMap, r) ← readTable (readEventMapRow base cfg t) t .eventMap r
  let (event, r) ← readTable (readEventRow base cfg t) t .event r
  let (propertyMap, r) ← readTable (readPropertyMapRow base cfg t) t .propertyMap r
  let (property, r) ← readTable (readPropertyRow base cfg t) t .property r
  let (methodSemantics, r) ← readTable (readMethodSemanticsRow base cfg t) t .methodSemantics r
  let (methodImpl, r) ← readTable (readMethodImplRow base cfg t) t .methodImpl r
  let (moduleRef, r) ← readTable (readModuleRefRow base cfg t) t .moduleRef r
  let (typeSpec, r) ← readTable (readTypeSpecRow base cfg t) t .typeSpec r
  let (implMap, r) ← readTable (readImplMapRow base cfg t) t .implMap r
  let (fieldRva, r) ← readTable (readFieldRvaRow base cfg t) t .fieldRva r
  let (assembly, r) ← readTable (readAssemblyRow base cfg t) t .assembly r
  let (assemblyProcessor, r) ← readTable (readAssemblyProcessorRow base cfg t) t .assemblyProcessor r
  let (assemblyOs, r) ← readTable (readAssemblyOsRow base cfg t) t .assemblyOs r
  let (assemblyRef, r) ← readTable (readAssemblyRefRow base cfg t) t .assemblyRef r
  let (assemblyRefProcessor, r) ← readTable (readAssemblyRefProcessorRow base cfg t) t .assemblyRefProcessor r
  let (assemblyRefOs, r) ← readTable (readAssemblyRefOsRow base cfg t) t .assemblyRefOs r
  let (file, r) ← readTable (readFileRow base cfg t) t .file r
  let (exportedType, r) ← readTable (readExportedTypeRow base cfg t) t .exportedType r
  let (manifestResource, r) ← readTable (readManifestResourceRow base cfg t) t .manifestResource r
  let (nestedClass, r) ← readTable (readNestedClassRow base cfg t) t .nestedClass r
  let (genericParam, r) ← readTable (readGenericParamRow base cfg t) t .genericParam r
  let (methodSpec, r) ← readTable (readMethodSpecRow base cfg t) t .methodSpec r
  let (genericParamConstraint, r) ← readTable (readGenericParamConstraintRow base cfg t) t .genericParamConstraint r
  pure (⟨module,
    typeRef,
    typeDef,
    field,
    methodDef,
    param,
    interfaceImpl,
    memberRef,
    constant,
    customAttribute,
    fieldMarshal,
    declSecurity,
    classLayout,
    fieldLayout,
    standaloneSig,
    eventMap,
    event,
    propertyMap,
    property,
    methodSemantics,
    methodImpl,
    moduleRef,
    typeSpec,
    implMap,
    fieldRva,
    assembly,
    assemblyProcessor,
    assemblyOs,
    assemblyRef,
    assemblyRefProcessor,
    assemblyRefOs,
    file,
    exportedType,
    manifestResource,
    nestedClass,
    genericParam,
    methodSpec,
    genericParamConstraint⟩, r)

/-- `TableReader::read` (mod.rs:241-363). The final cursor is dropped. -/
def readTableStream (base : Nat) (cfg : Cfg) (data : Bytes) : Res Tables := do
  let (t, r) ← Strict.readTableHeader base cfg data
  let (tables, _) ← readTables base cfg t r
  pure tables

end StrictTables

/-- `Metadata::read` (metadata/mod.rs:82-234), as `Clr.readMetadata`, for a file at address `base`. -/
def Strict.readMetadata (base : Nat) (cfg : Cfg) (data : Bytes) : Res Metadata := do
  let info ← Strict.parsePe base cfg data
  let cli ← Strict.readCliHeader base cfg data info
  let off ← Res.mapErr (fun _ => "Invalid CLI header RVA") (resolveRva cfg cli.metadata.rva info.sections)
  let e ← uadd cfg 64 off cli.metadata.size
  let metadata ← slice data off e
  let s ← Strict.readMetadataRoot (base + off) cfg metadata
  let strings ← Res.unwrap s.strings
  let strings ← streamBytes cfg metadata strings
  let userStrings ← userStringBytes cfg metadata s.userStrings
  let blob ← Res.unwrap s.blob
  let blob ← streamBytes cfg metadata blob
  let guid ← Res.unwrap s.guid
  let guid ← streamBytes cfg metadata guid
  let place ← Res.unwrap s.tables
  let tables ← streamBytes cfg metadata place
  let tables ← StrictTables.readTableStream (base + off + place.offset) cfg tables
  let entryPoint ← entryPointHandle cfg cli
  pure { peData := data, peInfo := info, cliHeader := cli, metadata, stringsHeap := StringsHeap.new strings,
         userStringData := userStrings, blobHeap := blob, guidHeap := guid, tables, entryPoint }

end Clr
