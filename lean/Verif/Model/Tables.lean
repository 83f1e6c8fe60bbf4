import Verif.Model.Blob
import Verif.Model.Attributes
/-!
# `clr_lite/src/metadata/tables/mod.rs`: the table-stream header, column widths and column readers
-/

namespace Clr

/-- `enum TableType` (table_type.rs:3-41). -/
inductive TableType where
  | module
  | typeRef
  | typeDef
  | field
  | methodDef
  | param
  | interfaceImpl
  | memberRef
  | constant
  | customAttribute
  | fieldMarshal
  | declSecurity
  | classLayout
  | fieldLayout
  | standaloneSig
  | eventMap
  | event
  | propertyMap
  | property
  | methodSemantics
  | methodImpl
  | moduleRef
  | typeSpec
  | implMap
  | fieldRva
  | assembly
  | assemblyProcessor
  | assemblyOs
  | assemblyRef
  | assemblyRefProcessor
  | assemblyRefOs
  | file
  | exportedType
  | manifestResource
  | nestedClass
  | genericParam
  | methodSpec
  | genericParamConstraint
deriving DecidableEq, Repr

/-- `t as usize` (table_type.rs:3-41). -/
def TableType.code : TableType → Nat
  | .module => 0x0
  | .typeRef => 0x1
  | .typeDef => 0x2
  | .field => 0x4
  | .methodDef => 0x6
  | .param => 0x8
  | .interfaceImpl => 0x9
  | .memberRef => 0xa
  | .constant => 0xb
  | .customAttribute => 0xc
  | .fieldMarshal => 0xd
  | .declSecurity => 0xe
  | .classLayout => 0xf
  | .fieldLayout => 0x10
  | .standaloneSig => 0x11
  | .eventMap => 0x12
  | .event => 0x14
  | .propertyMap => 0x15
  | .property => 0x17
  | .methodSemantics => 0x18
  | .methodImpl => 0x19
  | .moduleRef => 0x1a
  | .typeSpec => 0x1b
  | .implMap => 0x1c
  | .fieldRva => 0x1d
  | .assembly => 0x20
  | .assemblyProcessor => 0x21
  | .assemblyOs => 0x22
  | .assemblyRef => 0x23
  | .assemblyRefProcessor => 0x24
  | .assemblyRefOs => 0x25
  | .file => 0x26
  | .exportedType => 0x27
  | .manifestResource => 0x28
  | .nestedClass => 0x29
  | .genericParam => 0x2a
  | .methodSpec => 0x2b
  | .genericParamConstraint => 0x2c

/-- The thirteen coded-index kinds (`tables/coded_index/*.rs`). -/
inductive CodedKind where
  | typeDefOrRef | hasConstant | hasCustomAttribute | hasFieldMarshal | hasDeclSecurity | memberRefParent
  | hasSemantics | methodDefOrRef | memberForwarded | implementation | customAttributeType | resolutionScope
  | typeOrMethodDef
deriving DecidableEq, Repr

/-- A decoded coded index: the enum variant (named by the table it points into) and the row number. The thirteen Rust
enums (`tables/coded_index/*.rs`) are merged into this one type. -/
structure Coded where
  table : TableType
  row : Nat
deriving DecidableEq, Repr

/-- `TAG_MASK.count_ones()` (the `TAG_MASK` constants of `tables/coded_index/*.rs`). -/
def CodedKind.tagBits : CodedKind → Nat
  | .typeDefOrRef => 2
  | .hasConstant => 2
  | .hasCustomAttribute => 5
  | .hasFieldMarshal => 1
  | .hasDeclSecurity => 2
  | .memberRefParent => 3
  | .hasSemantics => 1
  | .methodDefOrRef => 1
  | .memberForwarded => 1
  | .implementation => 2
  | .customAttributeType => 3
  | .resolutionScope => 2
  | .typeOrMethodDef => 1

/-- `TAG_MASK` (`tables/coded_index/*.rs`; always `tagBits` low ones). -/
def CodedKind.tagMask (k : CodedKind) : Nat := 2 ^ k.tagBits - 1

/-- `LARGE_ROW_SIZE` (`tables/coded_index/*.rs`): `1 << (16 - TAG_MASK.count_ones())`. -/
def CodedKind.largeRowSize (k : CodedKind) : Nat := 2 ^ (16 - k.tagBits)

/-- `TABLES` (`tables/coded_index/*.rs`, lines 9-23; has_custom_attribute.rs:28-55). -/
def CodedKind.tables : CodedKind → List TableType
  | .typeDefOrRef => [.typeDef, .typeRef, .typeSpec]
  | .hasConstant => [.field, .param, .property]
  | .hasCustomAttribute => [.methodDef, .field, .typeRef, .typeDef, .param, .interfaceImpl, .memberRef, .module,
      .property, .event, .standaloneSig, .moduleRef, .typeSpec, .assembly, .assemblyRef, .file, .exportedType,
      .manifestResource, .genericParam, .genericParamConstraint, .methodSpec]
  | .hasFieldMarshal => [.field, .param]
  | .hasDeclSecurity => [.typeDef, .methodDef, .assembly]
  | .memberRefParent => [.typeDef, .typeRef, .moduleRef, .methodDef, .typeSpec]
  | .hasSemantics => [.event, .property]
  | .methodDefOrRef => [.methodDef, .memberRef]
  | .memberForwarded => [.field, .methodDef]
  | .implementation => [.file, .assemblyRef, .exportedType]
  | .customAttributeType => [.methodDef, .memberRef]
  | .resolutionScope => [.module, .moduleRef, .assemblyRef, .typeRef]
  | .typeOrMethodDef => [.typeDef, .methodDef]

/-- The `match tag` of the coded-index readers (mod.rs:512-842). -/
def CodedKind.decodeTag : CodedKind → Nat → Option TableType
  | .typeDefOrRef, 0 => some .typeDef
  | .typeDefOrRef, 1 => some .typeRef
  | .typeDefOrRef, 2 => some .typeSpec
  | .hasConstant, 0 => some .field
  | .hasConstant, 1 => some .param
  | .hasConstant, 2 => some .property
  | .hasCustomAttribute, 0 => some .methodDef
  | .hasCustomAttribute, 1 => some .field
  | .hasCustomAttribute, 2 => some .typeRef
  | .hasCustomAttribute, 3 => some .typeDef
  | .hasCustomAttribute, 4 => some .param
  | .hasCustomAttribute, 5 => some .interfaceImpl
  | .hasCustomAttribute, 6 => some .memberRef
  | .hasCustomAttribute, 7 => some .module
  | .hasCustomAttribute, 9 => some .property
  | .hasCustomAttribute, 10 => some .event
  | .hasCustomAttribute, 11 => some .standaloneSig
  | .hasCustomAttribute, 12 => some .moduleRef
  | .hasCustomAttribute, 13 => some .typeSpec
  | .hasCustomAttribute, 14 => some .assembly
  | .hasCustomAttribute, 15 => some .assemblyRef
  | .hasCustomAttribute, 16 => some .file
  | .hasCustomAttribute, 17 => some .exportedType
  | .hasCustomAttribute, 18 => some .manifestResource
  | .hasCustomAttribute, 19 => some .genericParam
  | .hasCustomAttribute, 20 => some .genericParamConstraint
  | .hasCustomAttribute, 21 => some .methodSpec
  | .hasFieldMarshal, 0 => some .field
  | .hasFieldMarshal, 1 => some .param
  | .hasDeclSecurity, 0 => some .typeDef
  | .hasDeclSecurity, 1 => some .methodDef
  | .hasDeclSecurity, 2 => some .assembly
  | .memberRefParent, 0 => some .typeDef
  | .memberRefParent, 1 => some .typeRef
  | .memberRefParent, 2 => some .moduleRef
  | .memberRefParent, 3 => some .methodDef
  | .memberRefParent, 4 => some .typeSpec
  | .hasSemantics, 0 => some .event
  | .hasSemantics, 1 => some .property
  | .methodDefOrRef, 0 => some .methodDef
  | .methodDefOrRef, 1 => some .memberRef
  | .memberForwarded, 0 => some .field
  | .memberForwarded, 1 => some .methodDef
  | .implementation, 0 => some .file
  | .implementation, 1 => some .assemblyRef
  | .implementation, 2 => some .exportedType
  | .customAttributeType, 2 => some .methodDef
  | .customAttributeType, 3 => some .memberRef
  | .resolutionScope, 0 => some .module
  | .resolutionScope, 1 => some .moduleRef
  | .resolutionScope, 2 => some .assemblyRef
  | .resolutionScope, 3 => some .typeRef
  | .typeOrMethodDef, 0 => some .typeDef
  | .typeOrMethodDef, 1 => some .methodDef
  | _, _ => none

/-- `is_coded_index_wide` (mod.rs:845-849). -/
def isCodedIndexWide (large : Nat) (tables : List TableType) (rowCounts : Nat → Nat) : Bool :=
  tables.any fun t => decide (rowCounts t.code > large)

/-- The fields of `struct TableReader` (mod.rs:207-230) other than the cursor. Arrays of 64 entries, only ever indexed
by table codes, are functions; the thirteen `wide_…` flags are one function of the kind. -/
structure TableCtx where
  rowCount : Nat → Nat
  wideTable : Nat → Bool
  wideString : Bool
  wideGuid : Bool
  wideBlob : Bool
  wideCoded : CodedKind → Bool

/-- `HeapSizeFlags::from_bits` (mod.rs:232-238): `None` when an unknown bit is set. -/
def heapSizeFlags (b : Nat) : Option Nat := if b &&& 0xf8 = 0 then some b else none

/-- `present_tables.count_ones()` (mod.rs:267) of a `u64`. -/
def countOnes (x : Nat) : Nat := ((List.range 64).filter x.testBit).length

/-- The loop distributing the row counts over the table numbers (mod.rs:272-280): `is` are the table numbers still to
visit, `raw` the counts not used yet. Indexing past the end of `row_counts_raw` panics. -/
def distributeRows (present : Nat) : List Nat → List Nat → Res (List Nat)
  | [], _ => .ok []
  | i :: is, raw =>
    if present.testBit i then
      match raw with
      | [] => .panic
      | n :: raw => do
        let rest ← distributeRows present is raw
        pure (n :: rest)
    else do
      let rest ← distributeRows present is raw
      pure (0 :: rest)

/-- The flags computed from the row counts (mod.rs:282-361). -/
def TableCtx.ofCounts (heapSizes : Nat) (rows : Nat → Nat) : TableCtx where
  rowCount := rows
  wideTable i := decide (rows i > 65535)
  wideString := decide (heapSizes &&& 1 = 1)
  wideGuid := decide (heapSizes &&& 2 = 2)
  wideBlob := decide (heapSizes &&& 4 = 4)
  wideCoded k := isCodedIndexWide k.largeRowSize k.tables rows

/-- The header part of `TableReader::read` (mod.rs:241-361). Results of `advance` are ignored there. -/
def readTableHeader (cfg : Cfg) (data : Bytes) : Res (TableCtx × Reader) := do
  let r := Reader.new data
  let (_, r) ← r.advance cfg 6
  let (b, r) ← r.readU cfg 1
  let heapSizes ← Res.ofOption "Invalid metadata header" (b.bind heapSizeFlags)
  let (_, r) ← r.advance cfg 1
  let (present, r) ← r.readU cfg 8
  let present ← Res.ofOption "Invalid metadata header" present
  let (sorted, r) ← r.readU cfg 8
  let _ ← Res.ofOption "Invalid metadata header" sorted
  let (raw, r) ← r.readArray cfg 4 (countOnes present)
  let raw ← Res.ofOption "Invalid metadata header" raw
  let counts ← distributeRows present (List.range 64) (raw.map leNat)
  let rows : Nat → Nat := fun i => match counts[i]? with
    | some n => n
    | none => 0
  pure (TableCtx.ofCounts heapSizes rows, r)

/-- `TableReader::_read::<uN>` (mod.rs:418-422) for an `w`-byte integer, and `read_rva` (424-426) for `w = 4`. -/
def trRead (cfg : Cfg) (r : Reader) (w : Nat) : Res (Nat × Reader) := do
  let (x, r) ← r.readU cfg w
  let x ← Res.ofOption "Unexpected EOF" x
  pure (x, r)

/-- `let _generation = reader._read::<u16>();` (module.rs:30): the result, also an error, is dropped. -/
def trReadIgnored (cfg : Cfg) (r : Reader) (w : Nat) : Res (Unit × Reader) := do
  let (_, r) ← r.readU cfg w
  pure ((), r)

/-- `f(reader._read::<uN>()?)?`. -/
def trReadWith {α : Type} (f : Nat → Res α) (cfg : Cfg) (r : Reader) (w : Nat) : Res (α × Reader) := do
  let (x, r) ← trRead cfg r w
  let a ← f x
  pure (a, r)

/-- `match wide { true => _read::<u32>()?, false => _read::<u16>()? } as usize`. -/
def readWide (cfg : Cfg) (wide : Bool) (r : Reader) : Res (Nat × Reader) :=
  if wide then trRead cfg r 4 else trRead cfg r 2

/-- `read_type_def_handle` … `read_generic_param_handle` (mod.rs:428-489), one per table. -/
def readHandle (cfg : Cfg) (t : TableCtx) (ty : TableType) (r : Reader) : Res (Nat × Reader) :=
  readWide cfg (t.wideTable ty.code) r

/-- `read_string_handle` (mod.rs:491-496). -/
def readStringHandle (cfg : Cfg) (t : TableCtx) (r : Reader) : Res (Nat × Reader) := readWide cfg t.wideString r

/-- `read_guid_handle` (mod.rs:498-503). -/
def readGuidHandle (cfg : Cfg) (t : TableCtx) (r : Reader) : Res (Nat × Reader) := readWide cfg t.wideGuid r

/-- `read_blob_handle` (mod.rs:505-510). -/
def readBlobHandle (cfg : Cfg) (t : TableCtx) (r : Reader) : Res (Nat × Reader) := readWide cfg t.wideBlob r

/-- The thirteen coded-index readers (mod.rs:512-842), which differ only in their constants. `!MASK` is the 64-bit
complement. -/
def readCoded (cfg : Cfg) (t : TableCtx) (k : CodedKind) (r : Reader) : Res (Coded × Reader) := do
  let (data, r) ← readWide cfg (t.wideCoded k) r
  let tag := data &&& k.tagMask
  let index := (data &&& (2 ^ 64 - 1 - k.tagMask)) >>> k.tagBits
  let table ← Res.ofOption "Invalid tag" (k.decodeTag tag)
  pure (⟨table, index⟩, r)

/-- `From<usize>` of the handle types (`tables/*.rs`): the handle of the `x`-th row counted from zero. All add one
except `InterfaceImplHandle` (interface_impl.rs:19-23). -/
def TableType.handle (cfg : Cfg) (t : TableType) (x : Nat) : Res Nat :=
  if t = .interfaceImpl then .ok x else uadd cfg 64 x 1

/-- `Index` of `Table` (mod.rs:134-140): `&self.0[h.into() - 1]`. -/
def tableIndex {α : Type} (cfg : Cfg) (rows : List α) (h : Nat) : Res α := do
  let i ← usub cfg 64 h 1
  Res.unwrap rows[i]?

end Clr
