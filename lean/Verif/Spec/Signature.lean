import Verif.Model.Blob
/-!
# Blob and signature formats (ECMA-335 II.23.1.16, II.23.2, II.23.4)

Encoders written from the standard. They share with the model only the data types that describe decoded signatures.
-/

namespace Clr.Spec

/-- II.23.2: compressed unsigned integer, for values below 2^29. -/
def encUnsigned (n : Nat) : Bytes :=
  if n < 0x80 then [UInt8.ofNat n]
  else if n < 0x4000 then [UInt8.ofNat (0x80 + n / 256), UInt8.ofNat (n % 256)]
  else [UInt8.ofNat (0xc0 + n / 2 ^ 24), UInt8.ofNat (n / 2 ^ 16 % 256), UInt8.ofNat (n / 2 ^ 8 % 256), UInt8.ofNat (n % 256)]

/-- A blob (II.24.2.4): compressed length, then the contents. -/
def encBlob (content : Bytes) : Bytes := encUnsigned content.length ++ content

/-- II.23.2: rotate a two's complement number of `bits` bits left by one. -/
def rotl (bits : Nat) (v : Int) : Nat := if 0 ≤ v then 2 * v.toNat else 2 * (v + 2 ^ (bits - 1)).toNat + 1

/-- II.23.2: compressed signed integer, for values in [-2^28, 2^28). -/
def encSigned (v : Int) : Bytes :=
  if -64 ≤ v ∧ v < 64 then [UInt8.ofNat (rotl 7 v)]
  else if -8192 ≤ v ∧ v < 8192 then
    [UInt8.ofNat (0x80 + rotl 14 v / 256), UInt8.ofNat (rotl 14 v % 256)]
  else [UInt8.ofNat (0xc0 + rotl 29 v / 2 ^ 24), UInt8.ofNat (rotl 29 v / 2 ^ 16 % 256),
    UInt8.ofNat (rotl 29 v / 2 ^ 8 % 256), UInt8.ofNat (rotl 29 v % 256)]

-- The worked examples of II.23.2.
example : encUnsigned 0x03 = [0x03] := by decide
example : encUnsigned 0x7f = [0x7f] := by decide
example : encUnsigned 0x80 = [0x80, 0x80] := by decide
example : encUnsigned 0x2e57 = [0xae, 0x57] := by decide
example : encUnsigned 0x3fff = [0xbf, 0xff] := by decide
example : encUnsigned 0x4000 = [0xc0, 0x00, 0x40, 0x00] := by decide
example : encUnsigned 0x1fffffff = [0xdf, 0xff, 0xff, 0xff] := by decide
example : encSigned 3 = [0x06] := by decide
example : encSigned (-3) = [0x7b] := by decide
example : encSigned 64 = [0x80, 0x80] := by decide
example : encSigned (-64) = [0x01] := by decide
example : encSigned 8192 = [0xc0, 0x00, 0x40, 0x00] := by decide
example : encSigned (-8192) = [0x80, 0x01] := by decide
example : encSigned 268435455 = [0xdf, 0xff, 0xff, 0xfe] := by decide
example : encSigned (-268435456) = [0xc0, 0x00, 0x00, 0x01] := by decide

/-- A counted list: the number of items, then the items. -/
def encCounted (items : List Bytes) : Bytes := encUnsigned items.length ++ items.flatten

/-- II.23.2.13: rank, sizes, (signed) lower bounds. -/
structure Shape where
  rank : Nat
  sizes : List Nat
  lowerBounds : List Int
deriving DecidableEq, Repr

def Shape.enc (s : Shape) : Bytes :=
  encUnsigned s.rank ++ encCounted (s.sizes.map encUnsigned) ++ encCounted (s.lowerBounds.map encSigned)

/-- All numbers of a shape fit the compressed form. -/
def Shape.Fits (s : Shape) : Prop :=
  s.rank < 2 ^ 29 ∧ s.sizes.length < 2 ^ 29 ∧ (∀ n ∈ s.sizes, n < 2 ^ 29) ∧ s.lowerBounds.length < 2 ^ 29 ∧
    ∀ b ∈ s.lowerBounds, -2 ^ 28 ≤ b ∧ b < 2 ^ 28

instance (s : Shape) : Decidable s.Fits := by unfold Shape.Fits; infer_instance

/-- II.23.2.8: row number and a two-bit table tag. -/
def encTypeDefOrRef : TypeDefOrRef → Bytes
  | .typeDef i => encUnsigned (4 * i + 0)
  | .typeRef i => encUnsigned (4 * i + 1)
  | .typeSpec i => encUnsigned (4 * i + 2)

def rowOf : TypeDefOrRef → Nat
  | .typeDef i => i
  | .typeRef i => i
  | .typeSpec i => i

mutual
/-- II.23.1.16 and II.23.2.12: element types. -/
def encElem : ElementType → Bytes
  | .void => [0x01]
  | .bool => [0x02]
  | .char => [0x03]
  | .sbyte => [0x04]
  | .byte => [0x05]
  | .short => [0x06]
  | .ushort => [0x07]
  | .int => [0x08]
  | .uint => [0x09]
  | .long => [0x0a]
  | .ulong => [0x0b]
  | .float => [0x0c]
  | .double => [0x0d]
  | .string => [0x0e]
  | .pointer t => 0x0f :: encElem t
  | .reference t => 0x10 :: encElem t
  | .valueType h => 0x11 :: encTypeDefOrRef h
  | .class h => 0x12 :: encTypeDefOrRef h
  | .typeGenericParam n => 0x13 :: encUnsigned n
  | .array t s => 0x14 :: (encElem t ++ Shape.enc ⟨s.rank, s.sizes, s.lowerBounds.map Int.ofNat⟩)
  | .generic t args => 0x15 :: (encElem t ++ (encUnsigned args.length ++ encElems args))
  | .typedReference => [0x16]
  | .intPtr => [0x18]
  | .uintPtr => [0x19]
  | .fnPtr => [0x1b]
  | .object => [0x1c]
  | .szArray t => 0x1d :: encElem t
  | .methodGenericParam n => 0x1e :: encUnsigned n
  | .varargSentinel => [0x41]
def encElems : List ElementType → Bytes
  | [] => []
  | t :: ts => encElem t ++ encElems ts
end

mutual
/-- Element types whose numbers fit the compressed form. Function pointers are excluded (their signature is not
represented), and array lower bounds are zero (non-zero ones are the subject of C21). -/
def ElemFits : ElementType → Prop
  | .pointer t | .reference t | .szArray t => ElemFits t
  | .valueType h | .class h => rowOf h < 2 ^ 27
  | .typeGenericParam n | .methodGenericParam n => n < 2 ^ 29
  | .array t s => ElemFits t ∧ Shape.Fits ⟨s.rank, s.sizes, s.lowerBounds.map Int.ofNat⟩ ∧ ∀ b ∈ s.lowerBounds, b = 0
  | .generic t args => ElemFits t ∧ args.length < 2 ^ 29 ∧ ElemsFit args
  | .fnPtr => False
  | _ => True
def ElemsFit : List ElementType → Prop
  | [] => True
  | t :: ts => ElemFits t ∧ ElemsFit ts
end

/-- II.23.2.1, II.23.2.2: method signatures. The calling convention is DEFAULT (0), or VARARG (5). -/
def encMethodSig (s : MethodSig) : Bytes :=
  UInt8.ofNat ((if s.instance then 0x20 else 0) + (if s.explicitThis then 0x40 else 0) + (if s.vararg then 5 else 0) +
    (if 0 < s.genericParamCount then 0x10 else 0)) ::
  ((if 0 < s.genericParamCount then encUnsigned s.genericParamCount else []) ++
    (encUnsigned s.params.length ++ (encElem s.returnType ++ encElems s.params)))

def MethodSigFits (s : MethodSig) : Prop :=
  s.genericParamCount < 2 ^ 29 ∧ s.params.length < 2 ^ 29 ∧ ElemFits s.returnType ∧ ElemsFit s.params

/-- II.23.2.4: field signatures. -/
def encFieldSig (t : ElementType) : Bytes := 0x06 :: encElem t

/-- II.23.2.5: property signatures. -/
def encPropertySig (s : PropertySig) : Bytes :=
  (if s.instance then 0x28 else 0x08) :: (encUnsigned s.params.length ++ (encElem s.returnType ++ encElems s.params))

def PropertySigFits (s : PropertySig) : Prop :=
  s.params.length < 2 ^ 29 ∧ ElemFits s.returnType ∧ ElemsFit s.params

/-- II.23.2.15: method instantiations. -/
def encMethodSpec (args : List ElementType) : Bytes := 0x0a :: (encUnsigned args.length ++ encElems args)

/-- II.23.4: native intrinsic types. -/
def marshalCode : MarshalScalar → UInt8
  | .bool => 0x02
  | .sbyte => 0x03
  | .byte => 0x04
  | .short => 0x05
  | .ushort => 0x06
  | .int => 0x07
  | .uint => 0x08
  | .long => 0x09
  | .ulong => 0x0a
  | .float => 0x0b
  | .double => 0x0c
  | .string => 0x14
  | .wstring => 0x15
  | .nativeInt => 0x1f
  | .nativeUInt => 0x20
  | .functionPointer => 0x26
  | .unknown => 0x50

/-- II.23.4: marshalling descriptors; trailing absent parts are omitted, an absent middle part is written as 0. -/
def encMarshal : MarshalDesc → Bytes
  | .scalar s => [marshalCode s]
  | .array e none none => [0x2a, marshalCode e]
  | .array e (some p) none => 0x2a :: marshalCode e :: encUnsigned p
  | .array e p (some n) => 0x2a :: marshalCode e :: (encUnsigned (p.getD 0) ++ encUnsigned n)

def MarshalFits : MarshalDesc → Prop
  | .scalar _ => True
  | .array _ p n => (∀ x ∈ p, 0 < x ∧ x < 2 ^ 29) ∧ ∀ x ∈ n, 0 < x ∧ x < 2 ^ 29

/-- II.24.2.4: a user string: UTF-16 code units, little-endian, and one final byte. -/
def encUserString (units : List Nat) (last : UInt8) : Bytes :=
  encBlob ((units.map (leBytes 2)).flatten ++ [last])

/-- The length a blob declares and the width of that declaration, or nothing if the length field is cut off. Written
from II.24.2.4; the reserved prefix 111 is read like 110. -/
def declaredLength : Bytes → Option (Nat × Nat)
  | [] => none
  | a :: rest =>
    if a.toNat < 0x80 then some (1, a.toNat)
    else if a.toNat < 0xc0 then
      match rest with
      | b :: _ => some (2, (a.toNat - 0x80) * 256 + b.toNat)
      | _ => none
    else
      match rest with
      | b :: c :: d :: _ => some (4, (((a.toNat - 0xc0) * 256 + b.toNat) * 256 + c.toNat) * 256 + d.toNat)
      | _ => none

end Clr.Spec
