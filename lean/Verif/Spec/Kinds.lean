import Verif.Spec.Registry
/-!
# What the declaration of a type says about it

Written from ECMA-335: I.8.9 (kinds of types), II.10.1.3 (inheritance), II.22.37 (rows of the type table), II.22.23 (rows of
the interface table).
-/

namespace Clr.Spec

/-- The kind of a type (ECMA-335 I.8.9.5, II.10.1.3, II.13, II.14.3): types flagged as such are interfaces; types that extend
`System.ValueType` are value types, except `System.Enum`, which is a class; types that extend `System.Enum` are
enumerations; all others are classes. -/
def declaredKind (isInterface : Bool) (own : Name) (base : Option Name) : TypeKind :=
  if isInterface then .iface
  else if base = some "System.ValueType".toList ∧ own ≠ "System.Enum".toList then .struct
  else if base = some "System.Enum".toList then .enum
  else .cls

/-- At most one registered type has this name. -/
def OneNamed (w : World) (n : Name) : Prop :=
  ∀ (i j : Nat) (a b : TypeRec), w.types[i]? = some a → w.types[j]? = some b → a.fullName = n → b.fullName = n → i = j

/-- The metadata token of a type row (ECMA-335 II.22: table number and row number). -/
def typeToken : TypeDefOrRef → Token
  | .typeDef k => ⟨0x02 * 2 ^ 24 + k⟩
  | .typeRef k => ⟨0x01 * 2 ^ 24 + k⟩
  | .typeSpec k => ⟨0x1b * 2 ^ 24 + k⟩

/-- The row number. -/
def rowNumber : TypeDefOrRef → Nat
  | .typeDef k => k
  | .typeRef k => k
  | .typeSpec k => k

/-- The name of the base type a record refers to. -/
def baseNameOf (w : World) (tr : TypeRec) : Option Name := (tr.base.bind (w.types[·]?)).map (·.fullName)

/-- The types `l` have, in order, the names that the interface columns of the rows give. -/
inductive InterfacesNamed (m : Metadata) (w : World) : List InterfaceImplRow → List Nat → Prop
  | nil : InterfacesNamed m w [] []
  | cons {row : InterfaceImplRow} {rows : List InterfaceImplRow} {i : Nat} {l : List Nat} {r : TypeRec}
      (hr : w.types[i]? = some r) (hn : RowNamed m row.iface.typeDefOrRef r.fullName) (h : InterfacesNamed m w rows l) :
      InterfacesNamed m w (row :: rows) (i :: l)

/-- Value types (ECMA-335 II.13): what extends `System.ValueType` directly, except `System.Enum`, and what extends
`System.Enum` directly. -/
def IsValueType (w : World) (t : Nat) : Prop :=
  ∃ r b br, w.types[t]? = some r ∧ r.base = some b ∧ w.types[b]? = some br ∧
    (br.fullName = "System.ValueType".toList ∧ r.fullName ≠ "System.Enum".toList ∨ br.fullName = "System.Enum".toList)

/-- Nothing extends a value type (ECMA-335 II.10.1.3: value types are sealed). -/
def ValueTypesSealed (w : World) : Prop :=
  ∀ (t b : Nat) (r : TypeRec), w.types[t]? = some r → r.base = some b → ¬ IsValueType w b

/-- `ts` is `t` followed by its base classes, nearest first. -/
inductive BaseChain (w : World) : Nat → List Nat → Prop
  | root {t : Nat} {r : TypeRec} : w.types[t]? = some r → r.base = none → BaseChain w t [t]
  | link {t b : Nat} {r : TypeRec} {ts : List Nat} : w.types[t]? = some r → r.base = some b → BaseChain w b ts →
      BaseChain w t (t :: ts)

/-- `s` is `t`, or reached from it over base classes and interfaces. -/
inductive Inherits (w : World) : Nat → Nat → Prop
  | self (t : Nat) : Inherits w t t
  | base {t b s : Nat} {r : TypeRec} : w.types[t]? = some r → r.base = some b → Inherits w b s → Inherits w t s
  | iface {t i s : Nat} {r : TypeRec} : w.types[t]? = some r → i ∈ r.interfaces → Inherits w i s → Inherits w t s

/-- Inheritance does not go in circles: `rank` falls along base classes and interfaces. -/
def Ranked (w : World) (rank : Nat → Nat) : Prop :=
  ∀ (t : Nat) (r : TypeRec), w.types[t]? = some r →
    (∀ b, r.base = some b → rank b < rank t) ∧ ∀ i ∈ r.interfaces, rank i < rank t

end Clr.Spec
