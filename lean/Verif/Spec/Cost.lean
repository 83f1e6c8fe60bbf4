import Verif.Spec.Contains
/-!
# How much was loaded

The measure against which work is judged: types, fields and interface entries, each counted once.
-/

namespace Clr.Spec

/-- The number of types, fields and listed interfaces of a registry. -/
def amount (w : World) : Nat := (w.types.map fun r => 1 + r.fields.length + r.interfaces.length).sum

/-- `t` is directly below `System.ValueType`. -/
def ValueBelow (w : World) (t : Nat) : Prop := ∃ r b br, w.types[t]? = some r ∧ r.base = some b ∧ w.types[b]? = some br ∧
  br.fullName = "System.ValueType".toList

/-- The instance fields of `t` and its base classes are references or built-in numbers: nothing is nested. -/
def Flat (w : World) (t : Nat) : Prop := ∀ a r f, Ancestor w t a → w.types[a]? = some r → f ∈ r.fields → f.isStatic = false →
  ¬ OfValueType w f.fieldType ∨ ∃ fr, w.types[f.fieldType]? = some fr ∧ fr.fullName ∈ numberNames

/-- `t` is a struct with two instance fields that are structs with two instance fields …, `n` deep. -/
inductive Doubled (w : World) : Nat → Nat → Prop
  | zero {t : Nat} : Doubled w 0 t
  | succ {n t u : Nat} {r : TypeRec} {f g : FieldRec} {as bs cs : List FieldRec} : w.types[t]? = some r →
      r.fullName ∉ numberNames → r.fields = as ++ f :: bs ++ g :: cs → f.isStatic = false → g.isStatic = false →
      f.fieldType = u → g.fieldType = u → ValueBelow w u → Doubled w n u → Doubled w (n + 1) t

/-- `t` lists two interfaces that list two interfaces …, `n` deep, the last of which have a method. -/
inductive Diamond (w : World) : Nat → Nat → Prop
  | zero {t : Nat} {r : TypeRec} : w.types[t]? = some r → r.methods ≠ [] → Diamond w 0 t
  | succ {n t i j : Nat} {r : TypeRec} {as bs cs : List Nat} : w.types[t]? = some r → r.interfaces = as ++ i :: bs ++ j :: cs →
      Diamond w n i → Diamond w n j → Diamond w (n + 1) t

end Clr.Spec
