import Verif.Model.Tables
/-!
# Columns of the tables, and what it takes to read them at aligned addresses

The columns of the tables of ECMA-335 II.22, with the widths that the library chooses; and numbers one behind the other, each at a
multiple of its width.
-/

namespace Clr.Spec

/-- Two or four bytes. -/
def width (wide : Bool) : Nat := if wide then 4 else 2

/-- The widths of the columns of a table. -/
def columns (t : TableCtx) : TableType → List Nat
  | .module => [2, width t.wideString, width t.wideGuid, width t.wideGuid, width t.wideGuid]
  | .typeRef => [width (t.wideCoded .resolutionScope), width t.wideString, width t.wideString]
  | .typeDef => [4, width t.wideString, width t.wideString, width (t.wideCoded .typeDefOrRef), width (t.wideTable TableType.field.code), width (t.wideTable TableType.methodDef.code)]
  | .field => [2, width t.wideString, width t.wideBlob]
  | .methodDef => [4, 2, 2, width t.wideString, width t.wideBlob, width (t.wideTable TableType.param.code)]
  | .param => [2, 2, width t.wideString]
  | .interfaceImpl => [width (t.wideTable TableType.typeDef.code), width (t.wideCoded .typeDefOrRef)]
  | .memberRef => [width (t.wideCoded .memberRefParent), width t.wideString, width t.wideBlob]
  | .constant => [1, 1, width (t.wideCoded .hasConstant), width t.wideBlob]
  | .customAttribute => [width (t.wideCoded .hasCustomAttribute), width (t.wideCoded .customAttributeType), width t.wideBlob]
  | .fieldMarshal => [width (t.wideCoded .hasFieldMarshal), width t.wideBlob]
  | .declSecurity => [2, width (t.wideCoded .hasDeclSecurity), width t.wideBlob]
  | .classLayout => [2, 4, width (t.wideTable TableType.typeDef.code)]
  | .fieldLayout => [4, width (t.wideTable TableType.field.code)]
  | .standaloneSig => [width t.wideBlob]
  | .eventMap => [width (t.wideTable TableType.typeDef.code), width (t.wideTable TableType.event.code)]
  | .event => [2, width t.wideString, width (t.wideCoded .typeDefOrRef)]
  | .propertyMap => [width (t.wideTable TableType.typeDef.code), width (t.wideTable TableType.property.code)]
  | .property => [2, width t.wideString, width t.wideBlob]
  | .methodSemantics => [2, width (t.wideTable TableType.methodDef.code), width (t.wideCoded .hasSemantics)]
  | .methodImpl => [width (t.wideTable TableType.typeDef.code), width (t.wideCoded .methodDefOrRef), width (t.wideCoded .methodDefOrRef)]
  | .moduleRef => [width t.wideString]
  | .typeSpec => [width t.wideBlob]
  | .implMap => [2, width (t.wideCoded .memberForwarded), width t.wideString, width (t.wideTable TableType.moduleRef.code)]
  | .fieldRva => [4, width (t.wideTable TableType.field.code)]
  | .assembly => [4, 2, 2, 2, 2, 4, width t.wideBlob, width t.wideString, width t.wideString]
  | .assemblyProcessor => [4]
  | .assemblyOs => [4, 4, 4]
  | .assemblyRef => [2, 2, 2, 2, 4, width t.wideBlob, width t.wideString, width t.wideString, width t.wideBlob]
  | .assemblyRefProcessor => [4, width (t.wideTable TableType.assemblyRef.code)]
  | .assemblyRefOs => [4, 4, 4, width (t.wideTable TableType.assemblyRef.code)]
  | .file => [4, width t.wideString, width t.wideBlob]
  | .exportedType => [4, 4, width t.wideString, width t.wideString, width (t.wideCoded .implementation)]
  | .manifestResource => [4, 4, width t.wideString, width (t.wideCoded .implementation)]
  | .nestedClass => [width (t.wideTable TableType.typeDef.code), width (t.wideTable TableType.typeDef.code)]
  | .genericParam => [2, 2, width (t.wideCoded .typeOrMethodDef), width t.wideString]
  | .methodSpec => [width (t.wideCoded .methodDefOrRef), width t.wideBlob]
  | .genericParamConstraint => [width (t.wideTable TableType.genericParam.code), width (t.wideCoded .typeDefOrRef)]

/-- The tables, in the order of their numbers. -/
def tableOrder : List TableType := [.module, .typeRef, .typeDef, .field, .methodDef, .param, .interfaceImpl, .memberRef, .constant, .customAttribute, .fieldMarshal, .declSecurity, .classLayout, .fieldLayout, .standaloneSig, .eventMap, .event, .propertyMap, .property, .methodSemantics, .methodImpl, .moduleRef, .typeSpec, .implMap, .fieldRva, .assembly, .assemblyProcessor, .assemblyOs, .assemblyRef, .assemblyRefProcessor, .assemblyRefOs, .file, .exportedType, .manifestResource, .nestedClass, .genericParam, .methodSpec, .genericParamConstraint]

/-- The numbers in the rows of all tables, one behind the other. -/
def allColumns (t : TableCtx) : List Nat :=
  tableOrder.flatMap fun ty => (List.replicate (t.rowCount ty.code) (columns t ty)).flatten

/-- Numbers of the given widths one behind the other, from address `a`: each at a multiple of its width. -/
def AllAligned : Nat → List Nat → Prop
  | _, [] => True
  | a, w :: ws => a % w = 0 ∧ AllAligned (a + w) ws

def AllAligned.dec : (a : Nat) → (ws : List Nat) → Decidable (AllAligned a ws)
  | _, [] => isTrue trivial
  | a, w :: ws => @instDecidableAnd _ _ _ (AllAligned.dec (a + w) ws)

instance {a : Nat} {ws : List Nat} : Decidable (AllAligned a ws) := AllAligned.dec a ws

end Clr.Spec
