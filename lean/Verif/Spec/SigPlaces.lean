import Verif.Spec.Signature
/-!
# Where signatures must be for their numbers to be at multiples of their sizes

From the layouts of ECMA-335 II.23.2 alone: a compressed number takes one, two or four bytes.
-/

namespace Clr.Spec

/-- The addresses for a compressed number. -/
def NumAt (n address : Nat) : Prop := n < 0x80 ∨ n < 0x4000 ∧ address % 2 = 0 ∨ address % 4 = 0

instance (n address : Nat) : Decidable (NumAt n address) := by unfold NumAt; infer_instance

/-- The number that stands for a type: the row and a tag of two bits. -/
def handleNumber : TypeDefOrRef → Nat
  | .typeDef i => 4 * i
  | .typeRef i => 4 * i + 1
  | .typeSpec i => 4 * i + 2

/-- The addresses for numbers behind one another. -/
def NumsAt : List Nat → Nat → Prop
  | [], _ => True
  | n :: ns, a => NumAt n a ∧ NumsAt ns (a + (encUnsigned n).length)

/-- The addresses for a counted list of numbers. -/
def CountedAt (ns : List Nat) (a : Nat) : Prop := NumAt ns.length a ∧ NumsAt ns (a + (encUnsigned ns.length).length)

/-- The addresses for a shape. -/
def ShapeAt (s : ArrayShape) (a : Nat) : Prop :=
  NumAt s.rank a ∧ CountedAt s.sizes (a + (encUnsigned s.rank).length) ∧
    CountedAt s.lowerBounds (a + (encUnsigned s.rank).length + (encCounted (s.sizes.map encUnsigned)).length)

mutual
/-- The addresses for an element type. -/
def ElemAt : ElementType → Nat → Prop
  | .pointer t, a | .reference t, a | .szArray t, a => ElemAt t (a + 1)
  | .valueType h, a | .class h, a => NumAt (handleNumber h) (a + 1)
  | .typeGenericParam n, a | .methodGenericParam n, a => NumAt n (a + 1)
  | .array t s, a => ElemAt t (a + 1) ∧ ShapeAt s (a + 1 + (encElem t).length)
  | .generic t args, a => ElemAt t (a + 1) ∧ NumAt args.length (a + 1 + (encElem t).length) ∧
      ElemsAt args (a + 1 + (encElem t).length + (encUnsigned args.length).length)
  | _, _ => True
/-- The addresses for element types behind one another. -/
def ElemsAt : List ElementType → Nat → Prop
  | [], _ => True
  | t :: ts, a => ElemAt t a ∧ ElemsAt ts (a + (encElem t).length)
end

/-- The addresses for the counted types of a method: the count, the type of the result, the types of the parameters. -/
def TypesAt (ret : ElementType) (params : List ElementType) (a : Nat) : Prop :=
  NumAt params.length a ∧ ElemAt ret (a + (encUnsigned params.length).length) ∧
    ElemsAt params (a + (encUnsigned params.length).length + (encElem ret).length)

/-- The addresses for the signature of a method. -/
def MethodSigAt (s : MethodSig) (a : Nat) : Prop :=
  if 0 < s.genericParamCount then
    NumAt s.genericParamCount (a + 1) ∧ TypesAt s.returnType s.params (a + 1 + (encUnsigned s.genericParamCount).length)
  else TypesAt s.returnType s.params (a + 1)

/-- The addresses for the signature of a field. -/
def FieldSigAt (t : ElementType) (a : Nat) : Prop := ElemAt t (a + 1)

/-- The addresses for the signature of a property. -/
def PropertySigAt (s : PropertySig) (a : Nat) : Prop := TypesAt s.returnType s.params (a + 1)

/-- The addresses for the arguments of a generic method. -/
def MethodSpecAt (args : List ElementType) (a : Nat) : Prop :=
  NumAt args.length (a + 1) ∧ ElemsAt args (a + 1 + (encUnsigned args.length).length)

/-- The addresses for an entry of the blob heap with `length` bytes that must be at one of the addresses `P`: the length is in
front, as a compressed number. -/
def EntryAt (length : Nat) (P : Nat → Prop) (a : Nat) : Prop := NumAt length a ∧ P (a + (encUnsigned length).length)

end Clr.Spec
