import Verif.Model.Attributes
/-!
# Attribute words (ECMA-335 II.23.1)

Each flag is one numbered bit of the word, each enumeration a group of adjacent bits. `none` means the word is not
legal. Bits not mentioned play no role.
-/

namespace Clr.Spec

/-- A decoder computes a partial function: its value where that is defined, an error elsewhere. -/
def Computes {α : Type} (f : Nat → Res α) (g : Nat → Option α) : Prop :=
  ∀ raw, (∀ a, g raw = some a → f raw = .ok a) ∧ (g raw = none → ∃ m, f raw = .err m)

/-- The `count` bits of `raw` from bit `lo` on, as a number. -/
def bits (raw lo count : Nat) : Nat := raw / 2 ^ lo % 2 ^ count

/-- II.23.1.15. -/
def typeAttributes (raw : Nat) : Option TypeAttributes := do
  let visibility ← (match bits raw 0 3 with
    | 0 => some .nonPublic
    | 1 => some .pub
    | 2 => some .nestedPublic
    | 3 => some .nestedPrivate
    | 4 => some .nestedProtected
    | 5 => some .nestedInternal
    | 6 => some .nestedPrivateProtected
    | 7 => some .nestedProtectedInternal
    | _ => none : Option TypeVisibility)
  let layout ← (match bits raw 3 2 with
    | 0 => some .auto
    | 1 => some .sequential
    | 2 => some .explicit
    | _ => none : Option TypeLayout)
  let semantics ← (match bits raw 5 1 with
    | 0 => some .cls
    | 1 => some .iface
    | _ => none : Option TypeSemantics)
  let stringFormat ← (match bits raw 16 2 with
    | 0 => some .ansi
    | 1 => some .unicode
    | 2 => some .auto
    | 3 => some .custom
    | _ => none : Option TypeStringFormat)
  pure {
    visibility
    layout
    semantics
    isAbstract := raw.testBit 7
    isSealed := raw.testBit 8
    specialName := raw.testBit 10
    imported := raw.testBit 12
    serialisable := raw.testBit 13
    stringFormat
    beforeFieldInit := raw.testBit 20
    rtSpecialName := raw.testBit 11
    hasSecurity := raw.testBit 18
    isTypeForwarder := raw.testBit 21 }

/-- II.23.1.5. -/
def fieldAttributes (raw : Nat) : Option FieldAttributes := do
  let visibility ← (match bits raw 0 3 with
    | 0 => some .compilerControlled
    | 1 => some .priv
    | 2 => some .privateProtected
    | 3 => some .internal
    | 4 => some .prot
    | 5 => some .protectedInternal
    | 6 => some .pub
    | _ => none : Option MemberVisibility)
  pure {
    visibility
    isStatic := raw.testBit 4
    isReadonly := raw.testBit 5
    isConst := raw.testBit 6
    notSerialised := raw.testBit 7
    specialName := raw.testBit 9
    pinvokeImpl := raw.testBit 13
    rtSpecialName := raw.testBit 10
    hasFieldMarshal := raw.testBit 12
    hasDefault := raw.testBit 15
    hasFieldRva := raw.testBit 8 }

/-- II.23.1.11. -/
def methodImplAttributes (raw : Nat) : Option MethodImplAttributes := do
  let codeType ← (match bits raw 0 2 with
    | 0 => some .il
    | 1 => some .native
    | 2 => some .optil
    | 3 => some .runtime
    | _ => none : Option MethodCodeType)
  pure {
    codeType
    managed := !raw.testBit 2
    forwardRef := raw.testBit 4
    preserveSig := raw.testBit 7
    internalCall := raw.testBit 12
    synchronised := raw.testBit 5
    noInlining := raw.testBit 3
    noOptimisation := raw.testBit 6 }

/-- II.23.1.10. -/
def methodAttributes (raw : Nat) : Option MethodAttributes := do
  let visibility ← (match bits raw 0 3 with
    | 0 => some .compilerControlled
    | 1 => some .priv
    | 2 => some .privateProtected
    | 3 => some .internal
    | 4 => some .prot
    | 5 => some .protectedInternal
    | 6 => some .pub
    | _ => none : Option MemberVisibility)
  pure {
    visibility
    isStatic := raw.testBit 4
    isFinal := raw.testBit 5
    isVirtual := raw.testBit 6
    hideBySig := raw.testBit 7
    reuseVtableSlot := !raw.testBit 8
    strict := raw.testBit 9
    isAbstract := raw.testBit 10
    specialName := raw.testBit 11
    pinvokeImpl := raw.testBit 13
    unmanagedExport := raw.testBit 3
    rtSpecialName := raw.testBit 12
    hasSecurity := raw.testBit 14
    requireSecObject := raw.testBit 15 }

/-- II.23.1.8. -/
def pinvokeAttributes (raw : Nat) : Option PInvokeAttributes := do
  let charset ← (match bits raw 1 2 with
    | 0 => some .unspecified
    | 1 => some .ansi
    | 2 => some .unicode
    | 3 => some .auto
    | _ => none : Option CharSet)
  let callingConvention ← (match bits raw 8 3 with
    | 1 => some .default
    | 2 => some .cdecl
    | 3 => some .stdcall
    | 4 => some .thiscall
    | 5 => some .fastcall
    | _ => none : Option CallingConvention)
  pure {
    noMangle := raw.testBit 0
    charset
    supportsLastError := raw.testBit 6
    callingConvention }

/-- II.23.1.7. -/
def genericParamAttributes (raw : Nat) : Option GenericParamAttributes := do
  let variance ← (match bits raw 0 2 with
    | 0 => some .none
    | 1 => some .covariant
    | 2 => some .contravariant
    | _ => none : Option GenericParamVariance)
  pure {
    variance
    referenceType := raw.testBit 2
    valueType := raw.testBit 3
    defaultConstructor := raw.testBit 4 }

/-- II.23.1.13. -/
def paramAttributes (raw : Nat) : Option ParamAttributes := do
  pure {
    isIn := raw.testBit 0
    isOut := raw.testBit 1
    isOptional := raw.testBit 4
    hasDefault := raw.testBit 12
    hasFieldMarshal := raw.testBit 13 }

/-- II.23.1.2. -/
def assemblyFlags (raw : Nat) : Option AssemblyFlags := do
  pure {
    publicKey := raw.testBit 0
    retargetable := raw.testBit 8
    disableJitOptimiser := raw.testBit 14
    enableJitTracking := raw.testBit 15 }

/-- II.23.1.4. -/
def eventAttributes (raw : Nat) : Option EventAttributes := do
  pure {
    specialName := raw.testBit 9
    rtSpecialName := raw.testBit 10 }

/-- II.23.1.14. -/
def propertyAttributes (raw : Nat) : Option PropertyAttributes := do
  pure {
    specialName := raw.testBit 9
    rtSpecialName := raw.testBit 10
    hasDefault := raw.testBit 12 }

/-- II.23.1.12: exactly one of the six roles. -/
def methodSemanticsType (raw : Nat) : Option MethodSemanticsType :=
  [(1, .setter), (2, .getter), (4, .other), (8, .add), (16, .remove), (32, .fire)].lookup raw

/-- II.22.9 and II.23.1.16: the element types a constant may have (`class` stands for the null reference). -/
def constantType (raw : Nat) : Option ConstantType :=
  [(0x02, .bool), (0x03, .char), (0x04, .sbyte), (0x05, .byte), (0x06, .short), (0x07, .ushort), (0x08, .int),
    (0x09, .uint), (0x0a, .long), (0x0b, .ulong), (0x0c, .float), (0x0d, .double), (0x0e, .string), (0x12, .null)].lookup raw

/-- II.23.1.1. -/
def assemblyHashAlgorithm (raw : Nat) : Option AssemblyHashAlgorithm :=
  [(0x0000, .none), (0x8003, .md5), (0x8004, .sha1)].lookup raw

end Clr.Spec
