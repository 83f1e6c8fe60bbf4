import Verif.Model.World
/-!
# How large the instances of a type should be

ECMA-335 I.12.1.1 and II.10.7: an instance holds the fields of its base class and its own instance fields. The sizes
below cover types built from primitive fields and from fields of struct types, where everything a type mentions comes
earlier in the registry. Fields of reference types are left out.
-/

namespace Clr.Spec

/-- Sizes of the primitive types (ECMA-335 I.12.1, table I.6). -/
def primitiveWidth (n : Name) : Option Nat :=
  ([("System.Boolean", 1), ("System.SByte", 1), ("System.Byte", 1),
    ("System.Char", 2), ("System.Int16", 2), ("System.UInt16", 2),
    ("System.Int32", 4), ("System.UInt32", 4), ("System.Single", 4),
    ("System.Int64", 8), ("System.UInt64", 8), ("System.Double", 8)].find? fun p => p.1.toList == n).map (·.2)

/-- The type derives from `System.ValueType`. -/
inductive ValueLike (w : World) : Nat → Prop
  | here {t : Nat} {r : TypeRec} : w.types[t]? = some r → r.fullName = "System.ValueType".toList → ValueLike w t
  | base {t b : Nat} {r : TypeRec} : w.types[t]? = some r → r.base = some b → b < t → ValueLike w b → ValueLike w t

mutual

/-- Instances of class or struct `t` hold `s` bytes: those of the base, then those of the own fields. -/
inductive ClassSize (w : World) : Nat → Nat → Prop
  | root {t k : Nat} {r : TypeRec} : w.types[t]? = some r → primitiveWidth r.fullName = none → r.base = none →
      FieldsSize w t r.fields k → ClassSize w t k
  | derived {t b s k : Nat} {r : TypeRec} : w.types[t]? = some r → primitiveWidth r.fullName = none → r.base = some b →
      b < t → ClassSize w b s → FieldsSize w t r.fields k → ClassSize w t (s + k)

/-- Fields of a class numbered `t`, taking `k` bytes together. None is static. -/
inductive FieldsSize (w : World) : Nat → List FieldRec → Nat → Prop
  | nil {t : Nat} : FieldsSize w t [] 0
  | primitive {t n k : Nat} {f : FieldRec} {fs : List FieldRec} {p : TypeRec} : f.isStatic = false → f.fieldType < t →
      ValueLike w f.fieldType → w.types[f.fieldType]? = some p → primitiveWidth p.fullName = some n →
      FieldsSize w t fs k → FieldsSize w t (f :: fs) (n + k)
  | struct {t n k : Nat} {f : FieldRec} {fs : List FieldRec} : f.isStatic = false → f.fieldType < t →
      ValueLike w f.fieldType → ClassSize w f.fieldType n → FieldsSize w t fs k → FieldsSize w t (f :: fs) (n + k)

end

/-- A field of value type `t` takes `n` bytes. -/
def ValueWidth (w : World) (t n : Nat) : Prop :=
  (∃ p, w.types[t]? = some p ∧ primitiveWidth p.fullName = some n) ∨ ClassSize w t n

/-- A field takes `n` bytes: the size of its value type, or eight for a reference. -/
def FieldWidth (w : World) (f : FieldRec) (n : Nat) : Prop :=
  (ValueLike w f.fieldType ∧ ValueWidth w f.fieldType n) ∨ (¬ ValueLike w f.fieldType ∧ n = 8)

/-- The byte ranges of two fields have nothing in common. -/
def Apart (w : World) (f g : FieldRec) : Prop :=
  ∀ a b, FieldWidth w f a → FieldWidth w g b → f.offset + a ≤ g.offset ∨ g.offset + b ≤ f.offset

/-- The instance fields in `fs` occupy separate byte ranges within the first `s` bytes. -/
def WellLaid (w : World) (fs : List FieldRec) (s : Nat) : Prop :=
  (fs.filter (!·.isStatic)).Pairwise (Apart w) ∧
  ∀ f ∈ fs, f.isStatic = false → ∀ a, FieldWidth w f a → f.offset + a ≤ s

end Clr.Spec
