import Verif.Bytes
/-!
# Attribute words: the `from_raw` functions of `clr_lite/src/metadata/tables/*.rs`

Error messages drop the formatted value. `raw & m == m` parses as `(raw & m) == m` in Rust.
-/

namespace Clr

/-- `enum TypeVisibility` (type_def.rs:113-122). -/
inductive TypeVisibility where
  | nonPublic | pub | nestedPublic | nestedPrivate | nestedProtected | nestedInternal | nestedPrivateProtected | nestedProtectedInternal
deriving DecidableEq, Repr

/-- `enum TypeLayout` (type_def.rs:125-129). -/
inductive TypeLayout where
  | auto | sequential | explicit
deriving DecidableEq, Repr

/-- `enum TypeSemantics` (type_def.rs:132-135). -/
inductive TypeSemantics where
  | cls | iface
deriving DecidableEq, Repr

/-- `enum TypeStringFormat` (type_def.rs:138-143). -/
inductive TypeStringFormat where
  | ansi | unicode | auto | custom
deriving DecidableEq, Repr

/-- Member visibility (FieldVisibility, field.rs:75-83, and MethodVisibility, method_def.rs:148-156, which have the same variants). -/
inductive MemberVisibility where
  | compilerControlled | priv | privateProtected | internal | prot | protectedInternal | pub
deriving DecidableEq, Repr

/-- `enum MethodCodeType` (method_def.rs:77-82). -/
inductive MethodCodeType where
  | il | native | optil | runtime
deriving DecidableEq, Repr

/-- `enum GenericParamVariance` (generic_param.rs:58-62). -/
inductive GenericParamVariance where
  | none | covariant | contravariant
deriving DecidableEq, Repr

/-- `enum CharSet` (impl_map.rs:69-74). -/
inductive CharSet where
  | unspecified | ansi | unicode | auto
deriving DecidableEq, Repr

/-- `enum CallingConvention` (impl_map.rs:77-83). -/
inductive CallingConvention where
  | default | cdecl | stdcall | thiscall | fastcall
deriving DecidableEq, Repr

/-- `enum AssemblyHashAlgorithm` (assembly.rs:34-38). -/
inductive AssemblyHashAlgorithm where
  | none | md5 | sha1
deriving DecidableEq, Repr

/-- `enum MethodSemanticsType` (method_semantics.rs:28-35). -/
inductive MethodSemanticsType where
  | setter | getter | other | add | remove | fire
deriving DecidableEq, Repr

/-- `enum ConstantType` (constant.rs:29-44). -/
inductive ConstantType where
  | bool | char | sbyte | byte | short | ushort | int | uint | long | ulong | float | double | string | null
deriving DecidableEq, Repr

/-- `struct TypeAttributes` (type_def.rs:31-45). -/
structure TypeAttributes where
  visibility : TypeVisibility
  layout : TypeLayout
  semantics : TypeSemantics
  isAbstract : Bool
  isSealed : Bool
  specialName : Bool
  imported : Bool
  serialisable : Bool
  stringFormat : TypeStringFormat
  beforeFieldInit : Bool
  rtSpecialName : Bool
  hasSecurity : Bool
  isTypeForwarder : Bool
deriving DecidableEq, Repr

/-- `TypeAttributes::from_raw` (type_def.rs:48-109). -/
def TypeAttributes.fromRaw (raw : Nat) : Res TypeAttributes := do
  let visibility ← (match raw &&& 0x7 with
    | 0x0 => .ok .nonPublic
    | 0x1 => .ok .pub
    | 0x2 => .ok .nestedPublic
    | 0x3 => .ok .nestedPrivate
    | 0x4 => .ok .nestedProtected
    | 0x5 => .ok .nestedInternal
    | 0x6 => .ok .nestedPrivateProtected
    | 0x7 => .ok .nestedProtectedInternal
    | _ => .err "Invalid type visibility" : Res TypeVisibility)
  let layout ← (match raw &&& 0x18 with
    | 0x0 => .ok .auto
    | 0x8 => .ok .sequential
    | 0x10 => .ok .explicit
    | _ => .err "Invalid type layout" : Res TypeLayout)
  let semantics ← (match raw &&& 0x20 with
    | 0x0 => .ok .cls
    | 0x20 => .ok .iface
    | _ => .err "Invalid type semantics" : Res TypeSemantics)
  let stringFormat ← (match raw &&& 0x30000 with
    | 0x0 => .ok .ansi
    | 0x10000 => .ok .unicode
    | 0x20000 => .ok .auto
    | 0x30000 => .ok .custom
    | _ => .err "Invalid type string format" : Res TypeStringFormat)
  pure {
    visibility
    layout
    semantics
    isAbstract := decide (raw &&& 0x80 = 0x80)
    isSealed := decide (raw &&& 0x100 = 0x100)
    specialName := decide (raw &&& 0x400 = 0x400)
    imported := decide (raw &&& 0x1000 = 0x1000)
    serialisable := decide (raw &&& 0x2000 = 0x2000)
    stringFormat
    beforeFieldInit := decide (raw &&& 0x100000 = 0x100000)
    rtSpecialName := decide (raw &&& 0x800 = 0x800)
    hasSecurity := decide (raw &&& 0x40000 = 0x40000)
    isTypeForwarder := decide (raw &&& 0x200000 = 0x200000) }

/-- `struct FieldAttributes` (field.rs:28-40). -/
structure FieldAttributes where
  visibility : MemberVisibility
  isStatic : Bool
  isReadonly : Bool
  isConst : Bool
  notSerialised : Bool
  specialName : Bool
  pinvokeImpl : Bool
  rtSpecialName : Bool
  hasFieldMarshal : Bool
  hasDefault : Bool
  hasFieldRva : Bool
deriving DecidableEq, Repr

/-- `FieldAttributes::from_raw` (field.rs:43-71). -/
def FieldAttributes.fromRaw (raw : Nat) : Res FieldAttributes := do
  let visibility ← (match raw &&& 0x7 with
    | 0x0 => .ok .compilerControlled
    | 0x1 => .ok .priv
    | 0x2 => .ok .privateProtected
    | 0x3 => .ok .internal
    | 0x4 => .ok .prot
    | 0x5 => .ok .protectedInternal
    | 0x6 => .ok .pub
    | _ => .err "Invalid field visibility" : Res MemberVisibility)
  pure {
    visibility
    isStatic := decide (raw &&& 0x10 = 0x10)
    isReadonly := decide (raw &&& 0x20 = 0x20)
    isConst := decide (raw &&& 0x40 = 0x40)
    notSerialised := decide (raw &&& 0x80 = 0x80)
    specialName := decide (raw &&& 0x200 = 0x200)
    pinvokeImpl := decide (raw &&& 0x2000 = 0x2000)
    rtSpecialName := decide (raw &&& 0x400 = 0x400)
    hasFieldMarshal := decide (raw &&& 0x1000 = 0x1000)
    hasDefault := decide (raw &&& 0x8000 = 0x8000)
    hasFieldRva := decide (raw &&& 0x100 = 0x100) }

/-- `struct MethodImplAttributes` (method_def.rs:30-39). -/
structure MethodImplAttributes where
  codeType : MethodCodeType
  managed : Bool
  forwardRef : Bool
  preserveSig : Bool
  internalCall : Bool
  synchronised : Bool
  noInlining : Bool
  noOptimisation : Bool
deriving DecidableEq, Repr

/-- `MethodImplAttributes::from_raw` (method_def.rs:42-73). -/
def MethodImplAttributes.fromRaw (raw : Nat) : Res MethodImplAttributes := do
  let codeType ← (match raw &&& 0x3 with
    | 0x0 => .ok .il
    | 0x1 => .ok .native
    | 0x2 => .ok .optil
    | 0x3 => .ok .runtime
    | _ => .err "Invalid method code type" : Res MethodCodeType)
  let managed ← (match raw &&& 0x4 with
    | 0x0 => .ok true
    | 0x4 => .ok false
    | _ => .err "Invalid method managed mask" : Res Bool)
  pure {
    codeType
    managed
    forwardRef := decide (raw &&& 0x10 = 0x10)
    preserveSig := decide (raw &&& 0x80 = 0x80)
    internalCall := decide (raw &&& 0x1000 = 0x1000)
    synchronised := decide (raw &&& 0x20 = 0x20)
    noInlining := decide (raw &&& 0x8 = 0x8)
    noOptimisation := decide (raw &&& 0x40 = 0x40) }

/-- `struct MethodAttributes` (method_def.rs:86-101). -/
structure MethodAttributes where
  visibility : MemberVisibility
  isStatic : Bool
  isFinal : Bool
  isVirtual : Bool
  hideBySig : Bool
  reuseVtableSlot : Bool
  strict : Bool
  isAbstract : Bool
  specialName : Bool
  pinvokeImpl : Bool
  unmanagedExport : Bool
  rtSpecialName : Bool
  hasSecurity : Bool
  requireSecObject : Bool
deriving DecidableEq, Repr

/-- `MethodAttributes::from_raw` (method_def.rs:104-144). -/
def MethodAttributes.fromRaw (raw : Nat) : Res MethodAttributes := do
  let visibility ← (match raw &&& 0x7 with
    | 0x0 => .ok .compilerControlled
    | 0x1 => .ok .priv
    | 0x2 => .ok .privateProtected
    | 0x3 => .ok .internal
    | 0x4 => .ok .prot
    | 0x5 => .ok .protectedInternal
    | 0x6 => .ok .pub
    | _ => .err "Invalid method visibility" : Res MemberVisibility)
  let reuseVtableSlot ← (match raw &&& 0x100 with
    | 0x0 => .ok true
    | 0x100 => .ok false
    | _ => .err "Invalid method vtable layout mask" : Res Bool)
  pure {
    visibility
    isStatic := decide (raw &&& 0x10 = 0x10)
    isFinal := decide (raw &&& 0x20 = 0x20)
    isVirtual := decide (raw &&& 0x40 = 0x40)
    hideBySig := decide (raw &&& 0x80 = 0x80)
    reuseVtableSlot
    strict := decide (raw &&& 0x200 = 0x200)
    isAbstract := decide (raw &&& 0x400 = 0x400)
    specialName := decide (raw &&& 0x800 = 0x800)
    pinvokeImpl := decide (raw &&& 0x2000 = 0x2000)
    unmanagedExport := decide (raw &&& 0x8 = 0x8)
    rtSpecialName := decide (raw &&& 0x1000 = 0x1000)
    hasSecurity := decide (raw &&& 0x4000 = 0x4000)
    requireSecObject := decide (raw &&& 0x8000 = 0x8000) }

/-- `struct PInvokeAttributes` (impl_map.rs:26-31). -/
structure PInvokeAttributes where
  noMangle : Bool
  charset : CharSet
  supportsLastError : Bool
  callingConvention : CallingConvention
deriving DecidableEq, Repr

/-- `PInvokeAttributes::from_raw` (impl_map.rs:35-65). -/
def PInvokeAttributes.fromRaw (raw : Nat) : Res PInvokeAttributes := do
  let charset ← (match raw &&& 0x6 with
    | 0x0 => .ok .unspecified
    | 0x2 => .ok .ansi
    | 0x4 => .ok .unicode
    | 0x6 => .ok .auto
    | _ => .err "Invalid charset" : Res CharSet)
  let callingConvention ← (match raw &&& 0x700 with
    | 0x100 => .ok .default
    | 0x200 => .ok .cdecl
    | 0x300 => .ok .stdcall
    | 0x400 => .ok .thiscall
    | 0x500 => .ok .fastcall
    | _ => .err "Invalid calling convention" : Res CallingConvention)
  pure {
    noMangle := decide (raw &&& 0x1 = 0x1)
    charset
    supportsLastError := decide (raw &&& 0x40 = 0x40)
    callingConvention }

/-- `struct GenericParamAttributes` (generic_param.rs:29-34). -/
structure GenericParamAttributes where
  variance : GenericParamVariance
  referenceType : Bool
  valueType : Bool
  defaultConstructor : Bool
deriving DecidableEq, Repr

/-- `GenericParamAttributes::from_raw` (generic_param.rs:37-54). -/
def GenericParamAttributes.fromRaw (raw : Nat) : Res GenericParamAttributes := do
  let variance ← (match raw &&& 0x3 with
    | 0x0 => .ok .none
    | 0x1 => .ok .covariant
    | 0x2 => .ok .contravariant
    | _ => .err "Invalid generic param variance" : Res GenericParamVariance)
  pure {
    variance
    referenceType := decide (raw &&& 0x4 = 0x4)
    valueType := decide (raw &&& 0x8 = 0x8)
    defaultConstructor := decide (raw &&& 0x10 = 0x10) }

/-- `struct ParamAttributes` (param.rs:28-34). -/
structure ParamAttributes where
  isIn : Bool
  isOut : Bool
  isOptional : Bool
  hasDefault : Bool
  hasFieldMarshal : Bool
deriving DecidableEq, Repr

/-- `ParamAttributes::from_raw` (param.rs:37-45). -/
def ParamAttributes.fromRaw (raw : Nat) : Res ParamAttributes := do
  pure {
    isIn := decide (raw &&& 0x1 = 0x1)
    isOut := decide (raw &&& 0x2 = 0x2)
    isOptional := decide (raw &&& 0x10 = 0x10)
    hasDefault := decide (raw &&& 0x1000 = 0x1000)
    hasFieldMarshal := decide (raw &&& 0x2000 = 0x2000) }

/-- `struct AssemblyFlags` (assembly.rs:42-47). -/
structure AssemblyFlags where
  publicKey : Bool
  retargetable : Bool
  disableJitOptimiser : Bool
  enableJitTracking : Bool
deriving DecidableEq, Repr

/-- `AssemblyFlags::from_raw` (assembly.rs:70-76, assembly_ref.rs:42-49). -/
def AssemblyFlags.fromRaw (raw : Nat) : Res AssemblyFlags := do
  pure {
    publicKey := decide (raw &&& 0x1 = 0x1)
    retargetable := decide (raw &&& 0x100 = 0x100)
    disableJitOptimiser := decide (raw &&& 0x4000 = 0x4000)
    enableJitTracking := decide (raw &&& 0x8000 = 0x8000) }

/-- `struct EventAttributes` (event.rs:28-31). -/
structure EventAttributes where
  specialName : Bool
  rtSpecialName : Bool
deriving DecidableEq, Repr

/-- `EventAttributes::from_raw` (event.rs:34-39). -/
def EventAttributes.fromRaw (raw : Nat) : Res EventAttributes := do
  pure {
    specialName := decide (raw &&& 0x200 = 0x200)
    rtSpecialName := decide (raw &&& 0x400 = 0x400) }

/-- `struct PropertyAttributes` (property.rs:28-32). -/
structure PropertyAttributes where
  specialName : Bool
  rtSpecialName : Bool
  hasDefault : Bool
deriving DecidableEq, Repr

/-- `PropertyAttributes::from_raw` (property.rs:35-41). -/
def PropertyAttributes.fromRaw (raw : Nat) : Res PropertyAttributes := do
  pure {
    specialName := decide (raw &&& 0x200 = 0x200)
    rtSpecialName := decide (raw &&& 0x400 = 0x400)
    hasDefault := decide (raw &&& 0x1000 = 0x1000) }

/-- `MethodSemanticsType::from_raw` (method_semantics.rs:38-53). -/
def MethodSemanticsType.fromRaw (raw : Nat) : Res MethodSemanticsType :=
  match raw with
  | 0x1 => .ok .setter
  | 0x2 => .ok .getter
  | 0x4 => .ok .other
  | 0x8 => .ok .add
  | 0x10 => .ok .remove
  | 0x20 => .ok .fire
  | _ => .err "Invalid MethodSemanticsType"

/-- `ConstantType::from_raw` (constant.rs:47-70). -/
def ConstantType.fromRaw (raw : Nat) : Res ConstantType :=
  match raw with
  | 0x2 => .ok .bool
  | 0x3 => .ok .char
  | 0x4 => .ok .sbyte
  | 0x5 => .ok .byte
  | 0x6 => .ok .short
  | 0x7 => .ok .ushort
  | 0x8 => .ok .int
  | 0x9 => .ok .uint
  | 0xa => .ok .long
  | 0xb => .ok .ulong
  | 0xc => .ok .float
  | 0xd => .ok .double
  | 0xe => .ok .string
  | 0x12 => .ok .null
  | _ => .err "Invalid constant type"

/-- `AssemblyHashAlgorithm::from_raw` (assembly.rs:55-64). -/
def AssemblyHashAlgorithm.fromRaw (raw : Nat) : Res AssemblyHashAlgorithm :=
  match raw with
  | 0x0 => .ok .none
  | 0x8003 => .ok .md5
  | 0x8004 => .ok .sha1
  | _ => .err "Invalid assembly hash algorithm"

end Clr
