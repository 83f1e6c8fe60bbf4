import Verif.Model.Tables
/-!
# The row readers of `clr_lite/src/metadata/tables/*.rs`

One structure and one reader per table. A handle field is its row number; an attribute field is the decoded record.
-/

namespace Clr

/-- `struct Module` (module.rs:5-8). -/
structure ModuleRow where
  name : Nat
  version : Nat
deriving DecidableEq, Repr

/-- `Module::read_row` (module.rs:29-37). -/
def readModuleRow (cfg : Cfg) (t : TableCtx) (r : Reader) : Res (ModuleRow × Reader) := do
  let (_, r) ← trReadIgnored cfg r 2
  let (name, r) ← readStringHandle cfg t r
  let (version, r) ← readGuidHandle cfg t r
  let (_, r) ← readGuidHandle cfg t r
  let (_, r) ← readGuidHandle cfg t r
  pure (⟨name, version⟩, r)

/-- `struct TypeRef` (type_ref.rs:5-9). -/
structure TypeRefRow where
  resolutionScope : Coded
  name : Nat
  nspace : Nat
deriving DecidableEq, Repr

/-- `TypeRef::read_row` (type_ref.rs:30-36). -/
def readTypeRefRow (cfg : Cfg) (t : TableCtx) (r : Reader) : Res (TypeRefRow × Reader) := do
  let (resolutionScope, r) ← readCoded cfg t .resolutionScope r
  let (name, r) ← readStringHandle cfg t r
  let (nspace, r) ← readStringHandle cfg t r
  pure (⟨resolutionScope, name, nspace⟩, r)

/-- `struct TypeDef` (type_def.rs:5-12). -/
structure TypeDefRow where
  attributes : TypeAttributes
  name : Nat
  nspace : Nat
  baseType : Coded
  fieldList : Nat
  methodList : Nat
deriving DecidableEq, Repr

/-- `TypeDef::read_row` (type_def.rs:149-158). -/
def readTypeDefRow (cfg : Cfg) (t : TableCtx) (r : Reader) : Res (TypeDefRow × Reader) := do
  let (attributes, r) ← trReadWith TypeAttributes.fromRaw cfg r 4
  let (name, r) ← readStringHandle cfg t r
  let (nspace, r) ← readStringHandle cfg t r
  let (baseType, r) ← readCoded cfg t .typeDefOrRef r
  let (fieldList, r) ← readHandle cfg t .field r
  let (methodList, r) ← readHandle cfg t .methodDef r
  pure (⟨attributes, name, nspace, baseType, fieldList, methodList⟩, r)

/-- `struct Field` (field.rs:5-9). -/
structure FieldRow where
  attributes : FieldAttributes
  name : Nat
  signature : Nat
deriving DecidableEq, Repr

/-- `Field::read_row` (field.rs:89-95). -/
def readFieldRow (cfg : Cfg) (t : TableCtx) (r : Reader) : Res (FieldRow × Reader) := do
  let (attributes, r) ← trReadWith FieldAttributes.fromRaw cfg r 2
  let (name, r) ← readStringHandle cfg t r
  let (signature, r) ← readBlobHandle cfg t r
  pure (⟨attributes, name, signature⟩, r)

/-- `struct MethodDef` (method_def.rs:4-11). -/
structure MethodDefRow where
  rva : Nat
  implAttributes : MethodImplAttributes
  attributes : MethodAttributes
  name : Nat
  signature : Nat
  paramList : Nat
deriving DecidableEq, Repr

/-- `MethodDef::read_row` (method_def.rs:162-171). -/
def readMethodDefRow (cfg : Cfg) (t : TableCtx) (r : Reader) : Res (MethodDefRow × Reader) := do
  let (rva, r) ← trRead cfg r 4
  let (implAttributes, r) ← trReadWith MethodImplAttributes.fromRaw cfg r 2
  let (attributes, r) ← trReadWith MethodAttributes.fromRaw cfg r 2
  let (name, r) ← readStringHandle cfg t r
  let (signature, r) ← readBlobHandle cfg t r
  let (paramList, r) ← readHandle cfg t .param r
  pure (⟨rva, implAttributes, attributes, name, signature, paramList⟩, r)

/-- `struct Param` (param.rs:5-9). -/
structure ParamRow where
  attributes : ParamAttributes
  index : Nat
  name : Nat
deriving DecidableEq, Repr

/-- `Param::read_row` (param.rs:52-58). -/
def readParamRow (cfg : Cfg) (t : TableCtx) (r : Reader) : Res (ParamRow × Reader) := do
  let (attributes, r) ← trReadWith ParamAttributes.fromRaw cfg r 2
  let (index, r) ← trRead cfg r 2
  let (name, r) ← readStringHandle cfg t r
  pure (⟨attributes, index, name⟩, r)

/-- `struct InterfaceImpl` (interface_impl.rs:5-8). -/
structure InterfaceImplRow where
  cls : Nat
  iface : Coded
deriving DecidableEq, Repr

/-- `InterfaceImpl::read_row` (interface_impl.rs:29-34). -/
def readInterfaceImplRow (cfg : Cfg) (t : TableCtx) (r : Reader) : Res (InterfaceImplRow × Reader) := do
  let (cls, r) ← readHandle cfg t .typeDef r
  let (iface, r) ← readCoded cfg t .typeDefOrRef r
  pure (⟨cls, iface⟩, r)

/-- `struct MemberRef` (member_ref.rs:5-9). -/
structure MemberRefRow where
  parent : Coded
  name : Nat
  signature : Nat
deriving DecidableEq, Repr

/-- `MemberRef::read_row` (member_ref.rs:30-36). -/
def readMemberRefRow (cfg : Cfg) (t : TableCtx) (r : Reader) : Res (MemberRefRow × Reader) := do
  let (parent, r) ← readCoded cfg t .memberRefParent r
  let (name, r) ← readStringHandle cfg t r
  let (signature, r) ← readBlobHandle cfg t r
  pure (⟨parent, name, signature⟩, r)

/-- `struct Constant` (constant.rs:5-9). -/
structure ConstantRow where
  typ : ConstantType
  parent : Coded
  value : Nat
deriving DecidableEq, Repr

/-- `Constant::read_row` (constant.rs:77-88). -/
def readConstantRow (cfg : Cfg) (t : TableCtx) (r : Reader) : Res (ConstantRow × Reader) := do
  let (typ, r) ← trReadWith ConstantType.fromRaw cfg r 1
  let (_, r) ← r.advance cfg 1
  let (parent, r) ← readCoded cfg t .hasConstant r
  let (value, r) ← readBlobHandle cfg t r
  pure (⟨typ, parent, value⟩, r)

/-- `struct CustomAttribute` (custom_attribute.rs:5-9). -/
structure CustomAttributeRow where
  parent : Coded
  attributeType : Coded
  value : Nat
deriving DecidableEq, Repr

/-- `CustomAttribute::read_row` (custom_attribute.rs:30-36). -/
def readCustomAttributeRow (cfg : Cfg) (t : TableCtx) (r : Reader) : Res (CustomAttributeRow × Reader) := do
  let (parent, r) ← readCoded cfg t .hasCustomAttribute r
  let (attributeType, r) ← readCoded cfg t .customAttributeType r
  let (value, r) ← readBlobHandle cfg t r
  pure (⟨parent, attributeType, value⟩, r)

/-- `struct FieldMarshal` (field_marshal.rs:5-8). -/
structure FieldMarshalRow where
  parent : Coded
  nativeType : Nat
deriving DecidableEq, Repr

/-- `FieldMarshal::read_row` (field_marshal.rs:29-34). -/
def readFieldMarshalRow (cfg : Cfg) (t : TableCtx) (r : Reader) : Res (FieldMarshalRow × Reader) := do
  let (parent, r) ← readCoded cfg t .hasFieldMarshal r
  let (nativeType, r) ← readBlobHandle cfg t r
  pure (⟨parent, nativeType⟩, r)

/-- `struct DeclSecurity` (decl_security.rs:9-13). -/
structure DeclSecurityRow where
  action : Nat
  parent : Coded
  permissionSet : Nat
deriving DecidableEq, Repr

/-- `DeclSecurity::read_row` (decl_security.rs:34-40). -/
def readDeclSecurityRow (cfg : Cfg) (t : TableCtx) (r : Reader) : Res (DeclSecurityRow × Reader) := do
  let (action, r) ← trRead cfg r 2
  let (parent, r) ← readCoded cfg t .hasDeclSecurity r
  let (permissionSet, r) ← readBlobHandle cfg t r
  pure (⟨action, parent, permissionSet⟩, r)

/-- `struct ClassLayout` (class_layout.rs:5-9). -/
structure ClassLayoutRow where
  packingSize : Option Nat
  classSize : Option Nat
  parent : Nat
deriving DecidableEq, Repr

/-- `ClassLayout::read_row` (class_layout.rs:30-50). -/
def readClassLayoutRow (cfg : Cfg) (t : TableCtx) (r : Reader) : Res (ClassLayoutRow × Reader) := do
  let (packingSize, r) ← trReadWith (fun x => .ok (if x = 0 then none else some x)) cfg r 2
  let (classSize, r) ← trReadWith (fun x => .ok (if x = 0 then none else some x)) cfg r 4
  let (parent, r) ← readHandle cfg t .typeDef r
  pure (⟨packingSize, classSize, parent⟩, r)

/-- `struct FieldLayout` (field_layout.rs:5-8). -/
structure FieldLayoutRow where
  offset : Nat
  field : Nat
deriving DecidableEq, Repr

/-- `FieldLayout::read_row` (field_layout.rs:29-34). -/
def readFieldLayoutRow (cfg : Cfg) (t : TableCtx) (r : Reader) : Res (FieldLayoutRow × Reader) := do
  let (offset, r) ← trRead cfg r 4
  let (field, r) ← readHandle cfg t .field r
  pure (⟨offset, field⟩, r)

/-- `struct StandaloneSig` (standalone_sig.rs:5-7). -/
structure StandaloneSigRow where
  signature : Nat
deriving DecidableEq, Repr

/-- `StandaloneSig::read_row` (standalone_sig.rs:28-32). -/
def readStandaloneSigRow (cfg : Cfg) (t : TableCtx) (r : Reader) : Res (StandaloneSigRow × Reader) := do
  let (signature, r) ← readBlobHandle cfg t r
  pure (⟨signature⟩, r)

/-- `struct EventMap` (event_map.rs:5-8). -/
structure EventMapRow where
  parent : Nat
  eventList : Nat
deriving DecidableEq, Repr

/-- `EventMap::read_row` (event_map.rs:29-34). -/
def readEventMapRow (cfg : Cfg) (t : TableCtx) (r : Reader) : Res (EventMapRow × Reader) := do
  let (parent, r) ← readHandle cfg t .typeDef r
  let (eventList, r) ← readHandle cfg t .event r
  pure (⟨parent, eventList⟩, r)

/-- `struct Event` (event.rs:5-9). -/
structure EventRow where
  attributes : EventAttributes
  name : Nat
  eventType : Coded
deriving DecidableEq, Repr

/-- `Event::read_row` (event.rs:46-52). -/
def readEventRow (cfg : Cfg) (t : TableCtx) (r : Reader) : Res (EventRow × Reader) := do
  let (attributes, r) ← trReadWith EventAttributes.fromRaw cfg r 2
  let (name, r) ← readStringHandle cfg t r
  let (eventType, r) ← readCoded cfg t .typeDefOrRef r
  pure (⟨attributes, name, eventType⟩, r)

/-- `struct PropertyMap` (property_map.rs:4-7). -/
structure PropertyMapRow where
  parent : Nat
  propertyList : Nat
deriving DecidableEq, Repr

/-- `PropertyMap::read_row` (property_map.rs:28-33). -/
def readPropertyMapRow (cfg : Cfg) (t : TableCtx) (r : Reader) : Res (PropertyMapRow × Reader) := do
  let (parent, r) ← readHandle cfg t .typeDef r
  let (propertyList, r) ← readHandle cfg t .property r
  pure (⟨parent, propertyList⟩, r)

/-- `struct Property` (property.rs:5-9). -/
structure PropertyRow where
  attributes : PropertyAttributes
  name : Nat
  signature : Nat
deriving DecidableEq, Repr

/-- `Property::read_row` (property.rs:48-54). -/
def readPropertyRow (cfg : Cfg) (t : TableCtx) (r : Reader) : Res (PropertyRow × Reader) := do
  let (attributes, r) ← trReadWith PropertyAttributes.fromRaw cfg r 2
  let (name, r) ← readStringHandle cfg t r
  let (signature, r) ← readBlobHandle cfg t r
  pure (⟨attributes, name, signature⟩, r)

/-- `struct MethodSemantics` (method_semantics.rs:5-9). -/
structure MethodSemanticsRow where
  semantics : MethodSemanticsType
  method : Nat
  association : Coded
deriving DecidableEq, Repr

/-- `MethodSemantics::read_row` (method_semantics.rs:60-66). -/
def readMethodSemanticsRow (cfg : Cfg) (t : TableCtx) (r : Reader) : Res (MethodSemanticsRow × Reader) := do
  let (semantics, r) ← trReadWith MethodSemanticsType.fromRaw cfg r 2
  let (method, r) ← readHandle cfg t .methodDef r
  let (association, r) ← readCoded cfg t .hasSemantics r
  pure (⟨semantics, method, association⟩, r)

/-- `struct MethodImpl` (method_impl.rs:5-9). -/
structure MethodImplRow where
  cls : Nat
  body : Coded
  declaration : Coded
deriving DecidableEq, Repr

/-- `MethodImpl::read_row` (method_impl.rs:30-36). -/
def readMethodImplRow (cfg : Cfg) (t : TableCtx) (r : Reader) : Res (MethodImplRow × Reader) := do
  let (cls, r) ← readHandle cfg t .typeDef r
  let (body, r) ← readCoded cfg t .methodDefOrRef r
  let (declaration, r) ← readCoded cfg t .methodDefOrRef r
  pure (⟨cls, body, declaration⟩, r)

/-- `struct ModuleRef` (module_ref.rs:5-7). -/
structure ModuleRefRow where
  name : Nat
deriving DecidableEq, Repr

/-- `ModuleRef::read_row` (module_ref.rs:27-31). -/
def readModuleRefRow (cfg : Cfg) (t : TableCtx) (r : Reader) : Res (ModuleRefRow × Reader) := do
  let (name, r) ← readStringHandle cfg t r
  pure (⟨name⟩, r)

/-- `struct TypeSpec` (type_spec.rs:5-7). -/
structure TypeSpecRow where
  signature : Nat
deriving DecidableEq, Repr

/-- `TypeSpec::read_row` (type_spec.rs:28-32). -/
def readTypeSpecRow (cfg : Cfg) (t : TableCtx) (r : Reader) : Res (TypeSpecRow × Reader) := do
  let (signature, r) ← readBlobHandle cfg t r
  pure (⟨signature⟩, r)

/-- `struct ImplMap` (impl_map.rs:4-9). -/
structure ImplMapRow where
  attributes : PInvokeAttributes
  member : Coded
  name : Nat
  moduleRef : Nat
deriving DecidableEq, Repr

/-- `ImplMap::read_row` (impl_map.rs:89-96). -/
def readImplMapRow (cfg : Cfg) (t : TableCtx) (r : Reader) : Res (ImplMapRow × Reader) := do
  let (attributes, r) ← trReadWith PInvokeAttributes.fromRaw cfg r 2
  let (member, r) ← readCoded cfg t .memberForwarded r
  let (name, r) ← readStringHandle cfg t r
  let (moduleRef, r) ← readHandle cfg t .moduleRef r
  pure (⟨attributes, member, name, moduleRef⟩, r)

/-- `struct FieldRva` (field_rva.rs:5-8). -/
structure FieldRvaRow where
  rva : Nat
  field : Nat
deriving DecidableEq, Repr

/-- `FieldRva::read_row` (field_rva.rs:29-34). -/
def readFieldRvaRow (cfg : Cfg) (t : TableCtx) (r : Reader) : Res (FieldRvaRow × Reader) := do
  let (rva, r) ← trRead cfg r 4
  let (field, r) ← readHandle cfg t .field r
  pure (⟨rva, field⟩, r)

/-- `struct Assembly` (assembly.rs:5-15). -/
structure AssemblyRow where
  hashAlgorithm : AssemblyHashAlgorithm
  majorVersion : Nat
  minorVersion : Nat
  buildNumber : Nat
  revisionNumber : Nat
  flags : AssemblyFlags
  publicKey : Nat
  name : Nat
  culture : Nat
deriving DecidableEq, Repr

/-- `Assembly::read_row` (assembly.rs:53-82). -/
def readAssemblyRow (cfg : Cfg) (t : TableCtx) (r : Reader) : Res (AssemblyRow × Reader) := do
  let (hashAlgorithm, r) ← trReadWith AssemblyHashAlgorithm.fromRaw cfg r 4
  let (majorVersion, r) ← trRead cfg r 2
  let (minorVersion, r) ← trRead cfg r 2
  let (buildNumber, r) ← trRead cfg r 2
  let (revisionNumber, r) ← trRead cfg r 2
  let (flags, r) ← trReadWith AssemblyFlags.fromRaw cfg r 4
  let (publicKey, r) ← readBlobHandle cfg t r
  let (name, r) ← readStringHandle cfg t r
  let (culture, r) ← readStringHandle cfg t r
  pure (⟨hashAlgorithm, majorVersion, minorVersion, buildNumber, revisionNumber, flags, publicKey, name, culture⟩, r)

/-- `struct AssemblyProcessor` (assembly_processor.rs:5-7). -/
structure AssemblyProcessorRow where
  processor : Nat
deriving DecidableEq, Repr

/-- `AssemblyProcessor::read_row` (assembly_processor.rs:28-32). -/
def readAssemblyProcessorRow (cfg : Cfg) (_t : TableCtx) (r : Reader) : Res (AssemblyProcessorRow × Reader) := do
  let (processor, r) ← trRead cfg r 4
  pure (⟨processor⟩, r)

/-- `struct AssemblyOs` (assembly_os.rs:5-9). -/
structure AssemblyOsRow where
  osPlatformId : Nat
  osMajor : Nat
  osMinor : Nat
deriving DecidableEq, Repr

/-- `AssemblyOs::read_row` (assembly_os.rs:30-36). -/
def readAssemblyOsRow (cfg : Cfg) (_t : TableCtx) (r : Reader) : Res (AssemblyOsRow × Reader) := do
  let (osPlatformId, r) ← trRead cfg r 4
  let (osMajor, r) ← trRead cfg r 4
  let (osMinor, r) ← trRead cfg r 4
  pure (⟨osPlatformId, osMajor, osMinor⟩, r)

/-- `struct AssemblyRef` (assembly_ref.rs:5-15). -/
structure AssemblyRefRow where
  majorVersion : Nat
  minorVersion : Nat
  buildNumber : Nat
  revisionNumber : Nat
  flags : AssemblyFlags
  publicKeyOrToken : Nat
  name : Nat
  culture : Nat
  hashValue : Nat
deriving DecidableEq, Repr

/-- `AssemblyRef::read_row` (assembly_ref.rs:36-56). -/
def readAssemblyRefRow (cfg : Cfg) (t : TableCtx) (r : Reader) : Res (AssemblyRefRow × Reader) := do
  let (majorVersion, r) ← trRead cfg r 2
  let (minorVersion, r) ← trRead cfg r 2
  let (buildNumber, r) ← trRead cfg r 2
  let (revisionNumber, r) ← trRead cfg r 2
  let (flags, r) ← trReadWith AssemblyFlags.fromRaw cfg r 4
  let (publicKeyOrToken, r) ← readBlobHandle cfg t r
  let (name, r) ← readStringHandle cfg t r
  let (culture, r) ← readStringHandle cfg t r
  let (hashValue, r) ← readBlobHandle cfg t r
  pure (⟨majorVersion, minorVersion, buildNumber, revisionNumber, flags, publicKeyOrToken, name, culture, hashValue⟩, r)

/-- `struct AssemblyRefProcessor` (assembly_ref_processor.rs:5-8). -/
structure AssemblyRefProcessorRow where
  processor : Nat
  assemblyRef : Nat
deriving DecidableEq, Repr

/-- `AssemblyRefProcessor::read_row` (assembly_ref_processor.rs:29-34). -/
def readAssemblyRefProcessorRow (cfg : Cfg) (t : TableCtx) (r : Reader) : Res (AssemblyRefProcessorRow × Reader) := do
  let (processor, r) ← trRead cfg r 4
  let (assemblyRef, r) ← readHandle cfg t .assemblyRef r
  pure (⟨processor, assemblyRef⟩, r)

/-- `struct AssemblyRefOs` (assembly_ref_os.rs:5-10). -/
structure AssemblyRefOsRow where
  osPlatformId : Nat
  osMajor : Nat
  osMinor : Nat
  assemblyRef : Nat
deriving DecidableEq, Repr

/-- `AssemblyRefOs::read_row` (assembly_ref_os.rs:31-38). -/
def readAssemblyRefOsRow (cfg : Cfg) (t : TableCtx) (r : Reader) : Res (AssemblyRefOsRow × Reader) := do
  let (osPlatformId, r) ← trRead cfg r 4
  let (osMajor, r) ← trRead cfg r 4
  let (osMinor, r) ← trRead cfg r 4
  let (assemblyRef, r) ← readHandle cfg t .assemblyRef r
  pure (⟨osPlatformId, osMajor, osMinor, assemblyRef⟩, r)

/-- `struct File` (file.rs:4-8). -/
structure FileRow where
  containsMetadata : Bool
  name : Nat
  hashValue : Nat
deriving DecidableEq, Repr

/-- `File::read_row` (file.rs:29-39). -/
def readFileRow (cfg : Cfg) (t : TableCtx) (r : Reader) : Res (FileRow × Reader) := do
  let (containsMetadata, r) ← trReadWith (fun x => .ok (decide (x = 0))) cfg r 4
  let (name, r) ← readStringHandle cfg t r
  let (hashValue, r) ← readBlobHandle cfg t r
  pure (⟨containsMetadata, name, hashValue⟩, r)

/-- `struct ExportedType` (exported_type.rs:5-11). -/
structure ExportedTypeRow where
  flags : TypeAttributes
  typeDefId : Nat
  name : Nat
  nspace : Nat
  implementation : Coded
deriving DecidableEq, Repr

/-- `ExportedType::read_row` (exported_type.rs:32-40). -/
def readExportedTypeRow (cfg : Cfg) (t : TableCtx) (r : Reader) : Res (ExportedTypeRow × Reader) := do
  let (flags, r) ← trReadWith TypeAttributes.fromRaw cfg r 4
  let (typeDefId, r) ← trRead cfg r 4
  let (name, r) ← readStringHandle cfg t r
  let (nspace, r) ← readStringHandle cfg t r
  let (implementation, r) ← readCoded cfg t .implementation r
  pure (⟨flags, typeDefId, name, nspace, implementation⟩, r)

/-- `struct ManifestResource` (manifest_resource.rs:5-10). -/
structure ManifestResourceRow where
  offset : Nat
  isPublic : Bool
  name : Nat
  implements : Coded
deriving DecidableEq, Repr

/-- `ManifestResource::read_row` (manifest_resource.rs:31-42). -/
def readManifestResourceRow (cfg : Cfg) (t : TableCtx) (r : Reader) : Res (ManifestResourceRow × Reader) := do
  let (offset, r) ← trRead cfg r 4
  let (isPublic, r) ← trReadWith (fun x => .ok (decide (x = 1))) cfg r 4
  let (name, r) ← readStringHandle cfg t r
  let (implements, r) ← readCoded cfg t .implementation r
  pure (⟨offset, isPublic, name, implements⟩, r)

/-- `struct NestedClass` (nested_class.rs:4-7). -/
structure NestedClassRow where
  nested : Nat
  enclosing : Nat
deriving DecidableEq, Repr

/-- `NestedClass::read_row` (nested_class.rs:28-33). -/
def readNestedClassRow (cfg : Cfg) (t : TableCtx) (r : Reader) : Res (NestedClassRow × Reader) := do
  let (nested, r) ← readHandle cfg t .typeDef r
  let (enclosing, r) ← readHandle cfg t .typeDef r
  pure (⟨nested, enclosing⟩, r)

/-- `struct GenericParam` (generic_param.rs:5-10). -/
structure GenericParamRow where
  index : Nat
  attributes : GenericParamAttributes
  owner : Coded
  name : Nat
deriving DecidableEq, Repr

/-- `GenericParam::read_row` (generic_param.rs:68-75). -/
def readGenericParamRow (cfg : Cfg) (t : TableCtx) (r : Reader) : Res (GenericParamRow × Reader) := do
  let (index, r) ← trRead cfg r 2
  let (attributes, r) ← trReadWith GenericParamAttributes.fromRaw cfg r 2
  let (owner, r) ← readCoded cfg t .typeOrMethodDef r
  let (name, r) ← readStringHandle cfg t r
  pure (⟨index, attributes, owner, name⟩, r)

/-- `struct MethodSpec` (method_spec.rs:5-8). -/
structure MethodSpecRow where
  method : Coded
  instantiation : Nat
deriving DecidableEq, Repr

/-- `MethodSpec::read_row` (method_spec.rs:29-34). -/
def readMethodSpecRow (cfg : Cfg) (t : TableCtx) (r : Reader) : Res (MethodSpecRow × Reader) := do
  let (method, r) ← readCoded cfg t .methodDefOrRef r
  let (instantiation, r) ← readBlobHandle cfg t r
  pure (⟨method, instantiation⟩, r)

/-- `struct GenericParamConstraint` (generic_param_constraint.rs:5-8). -/
structure GenericParamConstraintRow where
  owner : Nat
  constraint : Coded
deriving DecidableEq, Repr

/-- `GenericParamConstraint::read_row` (generic_param_constraint.rs:29-34). -/
def readGenericParamConstraintRow (cfg : Cfg) (t : TableCtx) (r : Reader) : Res (GenericParamConstraintRow × Reader) := do
  let (owner, r) ← readHandle cfg t .genericParam r
  let (constraint, r) ← readCoded cfg t .typeDefOrRef r
  pure (⟨owner, constraint⟩, r)

/-- `struct Tables` (mod.rs:142-181). -/
structure Tables where
  module : List ModuleRow
  typeRef : List TypeRefRow
  typeDef : List TypeDefRow
  field : List FieldRow
  methodDef : List MethodDefRow
  param : List ParamRow
  interfaceImpl : List InterfaceImplRow
  memberRef : List MemberRefRow
  constant : List ConstantRow
  customAttribute : List CustomAttributeRow
  fieldMarshal : List FieldMarshalRow
  declSecurity : List DeclSecurityRow
  classLayout : List ClassLayoutRow
  fieldLayout : List FieldLayoutRow
  standaloneSig : List StandaloneSigRow
  eventMap : List EventMapRow
  event : List EventRow
  propertyMap : List PropertyMapRow
  property : List PropertyRow
  methodSemantics : List MethodSemanticsRow
  methodImpl : List MethodImplRow
  moduleRef : List ModuleRefRow
  typeSpec : List TypeSpecRow
  implMap : List ImplMapRow
  fieldRva : List FieldRvaRow
  assembly : List AssemblyRow
  assemblyProcessor : List AssemblyProcessorRow
  assemblyOs : List AssemblyOsRow
  assemblyRef : List AssemblyRefRow
  assemblyRefProcessor : List AssemblyRefProcessorRow
  assemblyRefOs : List AssemblyRefOsRow
  file : List FileRow
  exportedType : List ExportedTypeRow
  manifestResource : List ManifestResourceRow
  nestedClass : List NestedClassRow
  genericParam : List GenericParamRow
  methodSpec : List MethodSpecRow
  genericParamConstraint : List GenericParamConstraintRow
deriving DecidableEq, Repr

/-- `TableReader::read_table` (mod.rs:365-373). `with_capacity(count)` is not modelled. -/
def readTable {α : Type} (readRow : Reader → Res (α × Reader)) (t : TableCtx) (ty : TableType) (r : Reader) :
    Res (List α × Reader) :=
  readMany readRow (t.rowCount ty.code) r

/-- `TableReader::read_tables` (mod.rs:375-416). -/
def readTables (cfg : Cfg) (t : TableCtx) (r : Reader) : Res (Tables × Reader) := do
  let (module, r) ← readTable (readModuleRow cfg t) t .module r
  let (typeRef, r) ← readTable (readTypeRefRow cfg t) t .typeRef r
  let (typeDef, r) ← readTable (readTypeDefRow cfg t) t .typeDef r
  let (field, r) ← readTable (readFieldRow cfg t) t .field r
  let (methodDef, r) ← readTable (readMethodDefRow cfg t) t .methodDef r
  let (param, r) ← readTable (readParamRow cfg t) t .param r
  let (interfaceImpl, r) ← readTable (readInterfaceImplRow cfg t) t .interfaceImpl r
  let (memberRef, r) ← readTable (readMemberRefRow cfg t) t .memberRef r
  let (constant, r) ← readTable (readConstantRow cfg t) t .constant r
  let (customAttribute, r) ← readTable (readCustomAttributeRow cfg t) t .customAttribute r
  let (fieldMarshal, r) ← readTable (readFieldMarshalRow cfg t) t .fieldMarshal r
  let (declSecurity, r) ← readTable (readDeclSecurityRow cfg t) t .declSecurity r
  let (classLayout, r) ← readTable (readClassLayoutRow cfg t) t .classLayout r
  let (fieldLayout, r) ← readTable (readFieldLayoutRow cfg t) t .fieldLayout r
  let (standaloneSig, r) ← readTable (readStandaloneSigRow cfg t) t .standaloneSig r
  let (eventMap, r) ← readTable (readEventMapRow cfg t) t .eventMap r
  let (event, r) ← readTable (readEventRow cfg t) t .event r
  let (propertyMap, r) ← readTable (readPropertyMapRow cfg t) t .propertyMap r
  let (property, r) ← readTable (readPropertyRow cfg t) t .property r
  let (methodSemantics, r) ← readTable (readMethodSemanticsRow cfg t) t .methodSemantics r
  let (methodImpl, r) ← readTable (readMethodImplRow cfg t) t .methodImpl r
  let (moduleRef, r) ← readTable (readModuleRefRow cfg t) t .moduleRef r
  let (typeSpec, r) ← readTable (readTypeSpecRow cfg t) t .typeSpec r
  let (implMap, r) ← readTable (readImplMapRow cfg t) t .implMap r
  let (fieldRva, r) ← readTable (readFieldRvaRow cfg t) t .fieldRva r
  let (assembly, r) ← readTable (readAssemblyRow cfg t) t .assembly r
  let (assemblyProcessor, r) ← readTable (readAssemblyProcessorRow cfg t) t .assemblyProcessor r
  let (assemblyOs, r) ← readTable (readAssemblyOsRow cfg t) t .assemblyOs r
  let (assemblyRef, r) ← readTable (readAssemblyRefRow cfg t) t .assemblyRef r
  let (assemblyRefProcessor, r) ← readTable (readAssemblyRefProcessorRow cfg t) t .assemblyRefProcessor r
  let (assemblyRefOs, r) ← readTable (readAssemblyRefOsRow cfg t) t .assemblyRefOs r
  let (file, r) ← readTable (readFileRow cfg t) t .file r
  let (exportedType, r) ← readTable (readExportedTypeRow cfg t) t .exportedType r
  let (manifestResource, r) ← readTable (readManifestResourceRow cfg t) t .manifestResource r
  let (nestedClass, r) ← readTable (readNestedClassRow cfg t) t .nestedClass r
  let (genericParam, r) ← readTable (readGenericParamRow cfg t) t .genericParam r
  let (methodSpec, r) ← readTable (readMethodSpecRow cfg t) t .methodSpec r
  let (genericParamConstraint, r) ← readTable (readGenericParamConstraintRow cfg t) t .genericParamConstraint r
  pure (⟨module,
    typeRef,
    typeDef,
    field,
    methodDef,
    param,
    interfaceImpl,
    memberRef,
    constant,
    customAttribute,
    fieldMarshal,
    declSecurity,
    classLayout,
    fieldLayout,
    standaloneSig,
    eventMap,
    event,
    propertyMap,
    property,
    methodSemantics,
    methodImpl,
    moduleRef,
    typeSpec,
    implMap,
    fieldRva,
    assembly,
    assemblyProcessor,
    assemblyOs,
    assemblyRef,
    assemblyRefProcessor,
    assemblyRefOs,
    file,
    exportedType,
    manifestResource,
    nestedClass,
    genericParam,
    methodSpec,
    genericParamConstraint⟩, r)

/-- `TableReader::read` (mod.rs:241-363). The final cursor is dropped. -/
def readTableStream (cfg : Cfg) (data : Bytes) : Res Tables := do
  let (t, r) ← readTableHeader cfg data
  let (tables, _) ← readTables cfg t r
  pure tables

end Clr
