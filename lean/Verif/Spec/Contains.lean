import Verif.Spec.Returned
/-!
# Types inside types

ECMA-335 I.8.9.7, II.10.1.3: an instance has the fields of its base class, and a field of a value type holds an instance of
that type in place. So a type must not be inside itself: its instances would be infinitely large.
-/

namespace Clr.Spec

/-- `System.ValueType` and the types derived from it. -/
inductive OfValueType (w : World) : Nat → Prop
  | here {t : Nat} {r : TypeRec} : w.types[t]? = some r → r.fullName = "System.ValueType".toList → OfValueType w t
  | base {t b : Nat} {r : TypeRec} : w.types[t]? = some r → r.base = some b → OfValueType w b → OfValueType w t

/-- `u` is a part of `t`: its base class, or the type of an instance field that is stored in place. The built-in number types
have no parts. -/
inductive Part (w : World) : Nat → Nat → Prop
  | base {t u : Nat} {r : TypeRec} : w.types[t]? = some r → r.fullName ∉ numberNames → r.base = some u → Part w u t
  | field {t : Nat} {r : TypeRec} {f : FieldRec} : w.types[t]? = some r → r.fullName ∉ numberNames → f ∈ r.fields →
      f.isStatic = false → OfValueType w f.fieldType → Part w f.fieldType t

/-- `u` is inside `t`: a part, or inside a part. -/
inductive Contained (w : World) : Nat → Nat → Prop
  | part {t u : Nat} : Part w u t → Contained w u t
  | deep {t u v : Nat} : Part w u t → Contained w v u → Contained w v t

/-- Among the types derived from `System.ValueType`, base classes come first. -/
def BasesFirst (w : World) : Prop := ∀ (t b : Nat) r, w.types[t]? = some r → r.fullName ≠ "System.ValueType".toList →
  r.base = some b → OfValueType w b → b < t

/-- `System.ValueType`, which is a class, is not listed as an interface. -/
def NoInterface (w : World) : Prop := ∀ r ∈ w.types, ∀ i ∈ r.interfaces, ∀ ir, w.types[i]? = some ir →
  ir.fullName ≠ "System.ValueType".toList

end Clr.Spec
