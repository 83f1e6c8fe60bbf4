import Verif.Spec.Attributes
import Verif.Model.Tables
/-!
# Columns of the metadata tables (ECMA-335 II.24.2.6)
-/

namespace Clr.Spec

/-- The sizes on which column widths depend: the three heap-size flags and the number of rows of each table. -/
structure Sizes where
  wideStrings : Bool
  wideGuids : Bool
  wideBlobs : Bool
  rows : Nat → Nat

/-- The tables a coded index can point into, listed by tag; unused tags are `none` (II.24.2.6). -/
def codedTables : CodedKind → List (Option TableType)
  | .typeDefOrRef => [some .typeDef, some .typeRef, some .typeSpec]
  | .hasConstant => [some .field, some .param, some .property]
  | .hasCustomAttribute => [some .methodDef, some .field, some .typeRef, some .typeDef, some .param, some .interfaceImpl,
      some .memberRef, some .module, some .declSecurity, some .property, some .event, some .standaloneSig,
      some .moduleRef, some .typeSpec, some .assembly, some .assemblyRef, some .file, some .exportedType,
      some .manifestResource, some .genericParam, some .genericParamConstraint, some .methodSpec]
  | .hasFieldMarshal => [some .field, some .param]
  | .hasDeclSecurity => [some .typeDef, some .methodDef, some .assembly]
  | .memberRefParent => [some .typeDef, some .typeRef, some .moduleRef, some .methodDef, some .typeSpec]
  | .hasSemantics => [some .event, some .property]
  | .methodDefOrRef => [some .methodDef, some .memberRef]
  | .memberForwarded => [some .field, some .methodDef]
  | .implementation => [some .file, some .assemblyRef, some .exportedType]
  | .customAttributeType => [none, none, some .methodDef, some .memberRef, none]
  | .resolutionScope => [some .module, some .moduleRef, some .assemblyRef, some .typeRef]
  | .typeOrMethodDef => [some .typeDef, some .methodDef]

/-- The number of tag bits: enough to number the tables, i.e. the least `n` with at most `2 ^ n` tags. -/
def codedBits (k : CodedKind) : Nat := (codedTables k).length.pred.log2 + 1

/-- Width of a heap-index column. -/
def heapWidth (wide : Bool) : Nat := if wide then 4 else 2

def Sizes.stringWidth (s : Sizes) : Nat := heapWidth s.wideStrings
def Sizes.guidWidth (s : Sizes) : Nat := heapWidth s.wideGuids
def Sizes.blobWidth (s : Sizes) : Nat := heapWidth s.wideBlobs

/-- Width of an index into table `t`: two bytes if the table has less than `2 ^ 16` rows. -/
def Sizes.indexWidth (s : Sizes) (t : TableType) : Nat := if s.rows t.code < 2 ^ 16 then 2 else 4

/-- Width of a coded index: two bytes if every table it can point into has less than `2 ^ (16 - n)` rows, where `n` is
the number of tag bits. -/
def Sizes.codedWidth (s : Sizes) (k : CodedKind) : Nat :=
  if ∀ t ∈ codedTables k, ∀ ty, t = some ty → s.rows ty.code < 2 ^ (16 - codedBits k) then 2 else 4

/-- A column of `w` bytes with the number `v`. -/
def ColNum (w : Nat) (bs : Bytes) (v : Nat) : Prop := v < 256 ^ w ∧ bs = leBytes w v

/-- A column with the coded index `x`: the row number above the tag bits. -/
def ColCoded (s : Sizes) (k : CodedKind) (bs : Bytes) (x : Coded) : Prop :=
  ∃ tag, (codedTables k)[tag]? = some (some x.table) ∧ ColNum (s.codedWidth k) bs (x.row * 2 ^ codedBits k + tag)

/-- A column of `w` bytes with an attribute word meaning `v`. -/
def ColWord {α : Type} (w : Nat) (meaning : Nat → Option α) (bs : Bytes) (v : α) : Prop :=
  ∃ raw, ColNum w bs raw ∧ meaning raw = some v

/-- A column of `w` bytes where zero means absent. -/
def ColOpt (w : Nat) (bs : Bytes) (v : Option Nat) : Prop :=
  ColNum w bs (match v with | none => 0 | some n => n) ∧ v ≠ some 0

/-- A column of `w` bytes that is set exactly when it holds the number `n`. -/
def ColFlag (w n : Nat) (bs : Bytes) (v : Bool) : Prop := ∃ raw, ColNum w bs raw ∧ (v = true ↔ raw = n)

/-- Row counts for which the code's coded-index widths are right: no table a coded index can point into has exactly the
limiting number of rows, and the security declarations do not widen the custom-attribute parents. -/
structure Sizes.Regular (s : Sizes) : Prop where
  limit : ∀ k ty, some ty ∈ codedTables k → s.rows ty.code ≠ 2 ^ (16 - codedBits k)
  security : s.rows TableType.declSecurity.code < 2 ^ 11

end Clr.Spec
