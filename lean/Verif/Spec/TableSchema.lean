import Verif.Spec.TableColumns
import Verif.Model.TableRows
/-!
# Table rows (ECMA-335 II.22)

For each table, `Is… s bs x` says that the bytes `bs` are a row of that table with the contents `x`, in a file with the
heap and table sizes `s`. The columns are those of II.22, in order; columns the library drops may hold anything legal.
-/

namespace Clr.Spec

/-- II.22.30. -/
def IsModule (s : Sizes) (bs : Bytes) (x : ModuleRow) : Prop :=
  ∃ b1 b2 b3 b4 b5 : Bytes,
    (∃ g, ColNum 2 b1 g) ∧
    ColNum s.stringWidth b2 x.name ∧
    ColNum s.guidWidth b3 x.version ∧
    (∃ g, ColNum s.guidWidth b4 g) ∧
    (∃ g, ColNum s.guidWidth b5 g) ∧
    bs = List.flatten [b1, b2, b3, b4, b5]

/-- II.22.38. -/
def IsTypeRef (s : Sizes) (bs : Bytes) (x : TypeRefRow) : Prop :=
  ∃ b1 b2 b3 : Bytes,
    ColCoded s .resolutionScope b1 x.resolutionScope ∧
    ColNum s.stringWidth b2 x.name ∧
    ColNum s.stringWidth b3 x.nspace ∧
    bs = List.flatten [b1, b2, b3]

/-- II.22.37. -/
def IsTypeDef (s : Sizes) (bs : Bytes) (x : TypeDefRow) : Prop :=
  ∃ b1 b2 b3 b4 b5 b6 : Bytes,
    ColWord 4 typeAttributes b1 x.attributes ∧
    ColNum s.stringWidth b2 x.name ∧
    ColNum s.stringWidth b3 x.nspace ∧
    ColCoded s .typeDefOrRef b4 x.baseType ∧
    ColNum (s.indexWidth .field) b5 x.fieldList ∧
    ColNum (s.indexWidth .methodDef) b6 x.methodList ∧
    bs = List.flatten [b1, b2, b3, b4, b5, b6]

/-- II.22.15. -/
def IsField (s : Sizes) (bs : Bytes) (x : FieldRow) : Prop :=
  ∃ b1 b2 b3 : Bytes,
    ColWord 2 fieldAttributes b1 x.attributes ∧
    ColNum s.stringWidth b2 x.name ∧
    ColNum s.blobWidth b3 x.signature ∧
    bs = List.flatten [b1, b2, b3]

/-- II.22.26. -/
def IsMethodDef (s : Sizes) (bs : Bytes) (x : MethodDefRow) : Prop :=
  ∃ b1 b2 b3 b4 b5 b6 : Bytes,
    ColNum 4 b1 x.rva ∧
    ColWord 2 methodImplAttributes b2 x.implAttributes ∧
    ColWord 2 methodAttributes b3 x.attributes ∧
    ColNum s.stringWidth b4 x.name ∧
    ColNum s.blobWidth b5 x.signature ∧
    ColNum (s.indexWidth .param) b6 x.paramList ∧
    bs = List.flatten [b1, b2, b3, b4, b5, b6]

/-- II.22.33. -/
def IsParam (s : Sizes) (bs : Bytes) (x : ParamRow) : Prop :=
  ∃ b1 b2 b3 : Bytes,
    ColWord 2 paramAttributes b1 x.attributes ∧
    ColNum 2 b2 x.index ∧
    ColNum s.stringWidth b3 x.name ∧
    bs = List.flatten [b1, b2, b3]

/-- II.22.23. -/
def IsInterfaceImpl (s : Sizes) (bs : Bytes) (x : InterfaceImplRow) : Prop :=
  ∃ b1 b2 : Bytes,
    ColNum (s.indexWidth .typeDef) b1 x.cls ∧
    ColCoded s .typeDefOrRef b2 x.iface ∧
    bs = List.flatten [b1, b2]

/-- II.22.25. -/
def IsMemberRef (s : Sizes) (bs : Bytes) (x : MemberRefRow) : Prop :=
  ∃ b1 b2 b3 : Bytes,
    ColCoded s .memberRefParent b1 x.parent ∧
    ColNum s.stringWidth b2 x.name ∧
    ColNum s.blobWidth b3 x.signature ∧
    bs = List.flatten [b1, b2, b3]

/-- II.22.9. -/
def IsConstant (s : Sizes) (bs : Bytes) (x : ConstantRow) : Prop :=
  ∃ b1 b2 b3 b4 : Bytes,
    ColWord 1 constantType b1 x.typ ∧
    b2 = [0] ∧
    ColCoded s .hasConstant b3 x.parent ∧
    ColNum s.blobWidth b4 x.value ∧
    bs = List.flatten [b1, b2, b3, b4]

/-- II.22.10. -/
def IsCustomAttribute (s : Sizes) (bs : Bytes) (x : CustomAttributeRow) : Prop :=
  ∃ b1 b2 b3 : Bytes,
    ColCoded s .hasCustomAttribute b1 x.parent ∧
    ColCoded s .customAttributeType b2 x.attributeType ∧
    ColNum s.blobWidth b3 x.value ∧
    bs = List.flatten [b1, b2, b3]

/-- II.22.17. -/
def IsFieldMarshal (s : Sizes) (bs : Bytes) (x : FieldMarshalRow) : Prop :=
  ∃ b1 b2 : Bytes,
    ColCoded s .hasFieldMarshal b1 x.parent ∧
    ColNum s.blobWidth b2 x.nativeType ∧
    bs = List.flatten [b1, b2]

/-- II.22.11. -/
def IsDeclSecurity (s : Sizes) (bs : Bytes) (x : DeclSecurityRow) : Prop :=
  ∃ b1 b2 b3 : Bytes,
    ColNum 2 b1 x.action ∧
    ColCoded s .hasDeclSecurity b2 x.parent ∧
    ColNum s.blobWidth b3 x.permissionSet ∧
    bs = List.flatten [b1, b2, b3]

/-- II.22.8. -/
def IsClassLayout (s : Sizes) (bs : Bytes) (x : ClassLayoutRow) : Prop :=
  ∃ b1 b2 b3 : Bytes,
    ColOpt 2 b1 x.packingSize ∧
    ColOpt 4 b2 x.classSize ∧
    ColNum (s.indexWidth .typeDef) b3 x.parent ∧
    bs = List.flatten [b1, b2, b3]

/-- II.22.16. -/
def IsFieldLayout (s : Sizes) (bs : Bytes) (x : FieldLayoutRow) : Prop :=
  ∃ b1 b2 : Bytes,
    ColNum 4 b1 x.offset ∧
    ColNum (s.indexWidth .field) b2 x.field ∧
    bs = List.flatten [b1, b2]

/-- II.22.36. -/
def IsStandaloneSig (s : Sizes) (bs : Bytes) (x : StandaloneSigRow) : Prop :=
  ∃ b1 : Bytes,
    ColNum s.blobWidth b1 x.signature ∧
    bs = List.flatten [b1]

/-- II.22.12. -/
def IsEventMap (s : Sizes) (bs : Bytes) (x : EventMapRow) : Prop :=
  ∃ b1 b2 : Bytes,
    ColNum (s.indexWidth .typeDef) b1 x.parent ∧
    ColNum (s.indexWidth .event) b2 x.eventList ∧
    bs = List.flatten [b1, b2]

/-- II.22.13. -/
def IsEvent (s : Sizes) (bs : Bytes) (x : EventRow) : Prop :=
  ∃ b1 b2 b3 : Bytes,
    ColWord 2 eventAttributes b1 x.attributes ∧
    ColNum s.stringWidth b2 x.name ∧
    ColCoded s .typeDefOrRef b3 x.eventType ∧
    bs = List.flatten [b1, b2, b3]

/-- II.22.35. -/
def IsPropertyMap (s : Sizes) (bs : Bytes) (x : PropertyMapRow) : Prop :=
  ∃ b1 b2 : Bytes,
    ColNum (s.indexWidth .typeDef) b1 x.parent ∧
    ColNum (s.indexWidth .property) b2 x.propertyList ∧
    bs = List.flatten [b1, b2]

/-- II.22.34. -/
def IsProperty (s : Sizes) (bs : Bytes) (x : PropertyRow) : Prop :=
  ∃ b1 b2 b3 : Bytes,
    ColWord 2 propertyAttributes b1 x.attributes ∧
    ColNum s.stringWidth b2 x.name ∧
    ColNum s.blobWidth b3 x.signature ∧
    bs = List.flatten [b1, b2, b3]

/-- II.22.28. -/
def IsMethodSemantics (s : Sizes) (bs : Bytes) (x : MethodSemanticsRow) : Prop :=
  ∃ b1 b2 b3 : Bytes,
    ColWord 2 methodSemanticsType b1 x.semantics ∧
    ColNum (s.indexWidth .methodDef) b2 x.method ∧
    ColCoded s .hasSemantics b3 x.association ∧
    bs = List.flatten [b1, b2, b3]

/-- II.22.27. -/
def IsMethodImpl (s : Sizes) (bs : Bytes) (x : MethodImplRow) : Prop :=
  ∃ b1 b2 b3 : Bytes,
    ColNum (s.indexWidth .typeDef) b1 x.cls ∧
    ColCoded s .methodDefOrRef b2 x.body ∧
    ColCoded s .methodDefOrRef b3 x.declaration ∧
    bs = List.flatten [b1, b2, b3]

/-- II.22.31. -/
def IsModuleRef (s : Sizes) (bs : Bytes) (x : ModuleRefRow) : Prop :=
  ∃ b1 : Bytes,
    ColNum s.stringWidth b1 x.name ∧
    bs = List.flatten [b1]

/-- II.22.39. -/
def IsTypeSpec (s : Sizes) (bs : Bytes) (x : TypeSpecRow) : Prop :=
  ∃ b1 : Bytes,
    ColNum s.blobWidth b1 x.signature ∧
    bs = List.flatten [b1]

/-- II.22.22. -/
def IsImplMap (s : Sizes) (bs : Bytes) (x : ImplMapRow) : Prop :=
  ∃ b1 b2 b3 b4 : Bytes,
    ColWord 2 pinvokeAttributes b1 x.attributes ∧
    ColCoded s .memberForwarded b2 x.member ∧
    ColNum s.stringWidth b3 x.name ∧
    ColNum (s.indexWidth .moduleRef) b4 x.moduleRef ∧
    bs = List.flatten [b1, b2, b3, b4]

/-- II.22.18. -/
def IsFieldRva (s : Sizes) (bs : Bytes) (x : FieldRvaRow) : Prop :=
  ∃ b1 b2 : Bytes,
    ColNum 4 b1 x.rva ∧
    ColNum (s.indexWidth .field) b2 x.field ∧
    bs = List.flatten [b1, b2]

/-- II.22.2. -/
def IsAssembly (s : Sizes) (bs : Bytes) (x : AssemblyRow) : Prop :=
  ∃ b1 b2 b3 b4 b5 b6 b7 b8 b9 : Bytes,
    ColWord 4 assemblyHashAlgorithm b1 x.hashAlgorithm ∧
    ColNum 2 b2 x.majorVersion ∧
    ColNum 2 b3 x.minorVersion ∧
    ColNum 2 b4 x.buildNumber ∧
    ColNum 2 b5 x.revisionNumber ∧
    ColWord 4 assemblyFlags b6 x.flags ∧
    ColNum s.blobWidth b7 x.publicKey ∧
    ColNum s.stringWidth b8 x.name ∧
    ColNum s.stringWidth b9 x.culture ∧
    bs = List.flatten [b1, b2, b3, b4, b5, b6, b7, b8, b9]

/-- II.22.4. -/
def IsAssemblyProcessor (_s : Sizes) (bs : Bytes) (x : AssemblyProcessorRow) : Prop :=
  ∃ b1 : Bytes,
    ColNum 4 b1 x.processor ∧
    bs = List.flatten [b1]

/-- II.22.3. -/
def IsAssemblyOs (_s : Sizes) (bs : Bytes) (x : AssemblyOsRow) : Prop :=
  ∃ b1 b2 b3 : Bytes,
    ColNum 4 b1 x.osPlatformId ∧
    ColNum 4 b2 x.osMajor ∧
    ColNum 4 b3 x.osMinor ∧
    bs = List.flatten [b1, b2, b3]

/-- II.22.5. -/
def IsAssemblyRef (s : Sizes) (bs : Bytes) (x : AssemblyRefRow) : Prop :=
  ∃ b1 b2 b3 b4 b5 b6 b7 b8 b9 : Bytes,
    ColNum 2 b1 x.majorVersion ∧
    ColNum 2 b2 x.minorVersion ∧
    ColNum 2 b3 x.buildNumber ∧
    ColNum 2 b4 x.revisionNumber ∧
    ColWord 4 assemblyFlags b5 x.flags ∧
    ColNum s.blobWidth b6 x.publicKeyOrToken ∧
    ColNum s.stringWidth b7 x.name ∧
    ColNum s.stringWidth b8 x.culture ∧
    ColNum s.blobWidth b9 x.hashValue ∧
    bs = List.flatten [b1, b2, b3, b4, b5, b6, b7, b8, b9]

/-- II.22.7. -/
def IsAssemblyRefProcessor (s : Sizes) (bs : Bytes) (x : AssemblyRefProcessorRow) : Prop :=
  ∃ b1 b2 : Bytes,
    ColNum 4 b1 x.processor ∧
    ColNum (s.indexWidth .assemblyRef) b2 x.assemblyRef ∧
    bs = List.flatten [b1, b2]

/-- II.22.6. -/
def IsAssemblyRefOs (s : Sizes) (bs : Bytes) (x : AssemblyRefOsRow) : Prop :=
  ∃ b1 b2 b3 b4 : Bytes,
    ColNum 4 b1 x.osPlatformId ∧
    ColNum 4 b2 x.osMajor ∧
    ColNum 4 b3 x.osMinor ∧
    ColNum (s.indexWidth .assemblyRef) b4 x.assemblyRef ∧
    bs = List.flatten [b1, b2, b3, b4]

/-- II.22.19. -/
def IsFile (s : Sizes) (bs : Bytes) (x : FileRow) : Prop :=
  ∃ b1 b2 b3 : Bytes,
    ColFlag 4 0 b1 x.containsMetadata ∧
    ColNum s.stringWidth b2 x.name ∧
    ColNum s.blobWidth b3 x.hashValue ∧
    bs = List.flatten [b1, b2, b3]

/-- II.22.14. -/
def IsExportedType (s : Sizes) (bs : Bytes) (x : ExportedTypeRow) : Prop :=
  ∃ b1 b2 b3 b4 b5 : Bytes,
    ColWord 4 typeAttributes b1 x.flags ∧
    ColNum 4 b2 x.typeDefId ∧
    ColNum s.stringWidth b3 x.name ∧
    ColNum s.stringWidth b4 x.nspace ∧
    ColCoded s .implementation b5 x.implementation ∧
    bs = List.flatten [b1, b2, b3, b4, b5]

/-- II.22.24. -/
def IsManifestResource (s : Sizes) (bs : Bytes) (x : ManifestResourceRow) : Prop :=
  ∃ b1 b2 b3 b4 : Bytes,
    ColNum 4 b1 x.offset ∧
    ColFlag 4 1 b2 x.isPublic ∧
    ColNum s.stringWidth b3 x.name ∧
    ColCoded s .implementation b4 x.implements ∧
    bs = List.flatten [b1, b2, b3, b4]

/-- II.22.32. -/
def IsNestedClass (s : Sizes) (bs : Bytes) (x : NestedClassRow) : Prop :=
  ∃ b1 b2 : Bytes,
    ColNum (s.indexWidth .typeDef) b1 x.nested ∧
    ColNum (s.indexWidth .typeDef) b2 x.enclosing ∧
    bs = List.flatten [b1, b2]

/-- II.22.20. -/
def IsGenericParam (s : Sizes) (bs : Bytes) (x : GenericParamRow) : Prop :=
  ∃ b1 b2 b3 b4 : Bytes,
    ColNum 2 b1 x.index ∧
    ColWord 2 genericParamAttributes b2 x.attributes ∧
    ColCoded s .typeOrMethodDef b3 x.owner ∧
    ColNum s.stringWidth b4 x.name ∧
    bs = List.flatten [b1, b2, b3, b4]

/-- II.22.29. -/
def IsMethodSpec (s : Sizes) (bs : Bytes) (x : MethodSpecRow) : Prop :=
  ∃ b1 b2 : Bytes,
    ColCoded s .methodDefOrRef b1 x.method ∧
    ColNum s.blobWidth b2 x.instantiation ∧
    bs = List.flatten [b1, b2]

/-- II.22.21. -/
def IsGenericParamConstraint (s : Sizes) (bs : Bytes) (x : GenericParamConstraintRow) : Prop :=
  ∃ b1 b2 : Bytes,
    ColNum (s.indexWidth .genericParam) b1 x.owner ∧
    ColCoded s .typeDefOrRef b2 x.constraint ∧
    bs = List.flatten [b1, b2]

/-- A table: its rows one after the other, as many as the header says. -/
def IsTable {α : Type} (isRow : Bytes → α → Prop) (count : Nat) (bs : Bytes) (rows : List α) : Prop :=
  ∃ items : List (Bytes × α), items.length = count ∧ (∀ p ∈ items, isRow p.1 p.2) ∧
    rows = items.map Prod.snd ∧ bs = (items.map Prod.fst).flatten

/-- All tables, in order of their numbers (II.24.2.6). -/
def IsTables (s : Sizes) (bs : Bytes) (x : Tables) : Prop :=
  ∃ parts : Fin 38 → Bytes,
    IsTable (IsModule s) (s.rows 0x0) (parts 0) x.module ∧
    IsTable (IsTypeRef s) (s.rows 0x1) (parts 1) x.typeRef ∧
    IsTable (IsTypeDef s) (s.rows 0x2) (parts 2) x.typeDef ∧
    IsTable (IsField s) (s.rows 0x4) (parts 3) x.field ∧
    IsTable (IsMethodDef s) (s.rows 0x6) (parts 4) x.methodDef ∧
    IsTable (IsParam s) (s.rows 0x8) (parts 5) x.param ∧
    IsTable (IsInterfaceImpl s) (s.rows 0x9) (parts 6) x.interfaceImpl ∧
    IsTable (IsMemberRef s) (s.rows 0xa) (parts 7) x.memberRef ∧
    IsTable (IsConstant s) (s.rows 0xb) (parts 8) x.constant ∧
    IsTable (IsCustomAttribute s) (s.rows 0xc) (parts 9) x.customAttribute ∧
    IsTable (IsFieldMarshal s) (s.rows 0xd) (parts 10) x.fieldMarshal ∧
    IsTable (IsDeclSecurity s) (s.rows 0xe) (parts 11) x.declSecurity ∧
    IsTable (IsClassLayout s) (s.rows 0xf) (parts 12) x.classLayout ∧
    IsTable (IsFieldLayout s) (s.rows 0x10) (parts 13) x.fieldLayout ∧
    IsTable (IsStandaloneSig s) (s.rows 0x11) (parts 14) x.standaloneSig ∧
    IsTable (IsEventMap s) (s.rows 0x12) (parts 15) x.eventMap ∧
    IsTable (IsEvent s) (s.rows 0x14) (parts 16) x.event ∧
    IsTable (IsPropertyMap s) (s.rows 0x15) (parts 17) x.propertyMap ∧
    IsTable (IsProperty s) (s.rows 0x17) (parts 18) x.property ∧
    IsTable (IsMethodSemantics s) (s.rows 0x18) (parts 19) x.methodSemantics ∧
    IsTable (IsMethodImpl s) (s.rows 0x19) (parts 20) x.methodImpl ∧
    IsTable (IsModuleRef s) (s.rows 0x1a) (parts 21) x.moduleRef ∧
    IsTable (IsTypeSpec s) (s.rows 0x1b) (parts 22) x.typeSpec ∧
    IsTable (IsImplMap s) (s.rows 0x1c) (parts 23) x.implMap ∧
    IsTable (IsFieldRva s) (s.rows 0x1d) (parts 24) x.fieldRva ∧
    IsTable (IsAssembly s) (s.rows 0x20) (parts 25) x.assembly ∧
    IsTable (IsAssemblyProcessor s) (s.rows 0x21) (parts 26) x.assemblyProcessor ∧
    IsTable (IsAssemblyOs s) (s.rows 0x22) (parts 27) x.assemblyOs ∧
    IsTable (IsAssemblyRef s) (s.rows 0x23) (parts 28) x.assemblyRef ∧
    IsTable (IsAssemblyRefProcessor s) (s.rows 0x24) (parts 29) x.assemblyRefProcessor ∧
    IsTable (IsAssemblyRefOs s) (s.rows 0x25) (parts 30) x.assemblyRefOs ∧
    IsTable (IsFile s) (s.rows 0x26) (parts 31) x.file ∧
    IsTable (IsExportedType s) (s.rows 0x27) (parts 32) x.exportedType ∧
    IsTable (IsManifestResource s) (s.rows 0x28) (parts 33) x.manifestResource ∧
    IsTable (IsNestedClass s) (s.rows 0x29) (parts 34) x.nestedClass ∧
    IsTable (IsGenericParam s) (s.rows 0x2a) (parts 35) x.genericParam ∧
    IsTable (IsMethodSpec s) (s.rows 0x2b) (parts 36) x.methodSpec ∧
    IsTable (IsGenericParamConstraint s) (s.rows 0x2c) (parts 37) x.genericParamConstraint ∧
    bs = List.flatten [parts 0, parts 1, parts 2, parts 3, parts 4, parts 5, parts 6, parts 7, parts 8, parts 9, parts 10, parts 11, parts 12, parts 13, parts 14, parts 15, parts 16, parts 17, parts 18, parts 19, parts 20, parts 21, parts 22, parts 23, parts 24, parts 25, parts 26, parts 27, parts 28, parts 29, parts 30, parts 31, parts 32, parts 33, parts 34, parts 35, parts 36, parts 37]

/-- The heap-size byte of the header. -/
def Sizes.heapByte (s : Sizes) : Nat :=
  (if s.wideStrings then 1 else 0) + (if s.wideGuids then 2 else 0) + (if s.wideBlobs then 4 else 0)

/-- The numbers of the tables present: the bits set in the header's 64-bit vector. -/
def presentTables (valid : Nat) : List Nat := (List.range 64).filter valid.testBit

/-- The header of a table stream (II.24.2.6): six bytes not used by readers, the heap sizes, one unused byte, the vector
of present tables, the vector of sorted tables, and the row counts of the tables present, in order. -/
def encTableHeader (s : Sizes) (unused : Bytes) (unused1 : UInt8) (valid sorted : Nat) : Bytes :=
  unused ++ (leBytes 1 s.heapByte ++ ([unused1] ++ (leBytes 8 valid ++ (leBytes 8 sorted ++
    ((presentTables valid).map fun i => leBytes 4 (s.rows i)).flatten))))

/-- The numbers in a header fit their fields, and absent tables have no rows. -/
structure HeaderFits (s : Sizes) (unused : Bytes) (valid sorted : Nat) : Prop where
  unused6 : unused.length = 6
  valid64 : valid < 2 ^ 64
  sorted64 : sorted < 2 ^ 64
  rows32 : ∀ i, s.rows i < 2 ^ 32
  absent : ∀ i, i < 64 → valid.testBit i = false → s.rows i = 0

end Clr.Spec
