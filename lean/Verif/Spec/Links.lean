import Verif.Model.Interp
/-!
# What the links between assemblies, types and members should be

The links of the reflection API: from an assembly to its types, methods, fields and entry point, from a member to its
declaring type, from a type to its assembly, base class, interfaces and the types of its members.
-/

namespace Clr

/-- `Type::assembly` (type.rs:328-330): the weak reference is followed and the result unwrapped. The only owner of an
assembly is the list of the runtime, which it enters at the end of a successful load (assembly.rs:185), so the reference
leads nowhere for the types of a load that has failed. -/
def World.assemblyOf (w : World) (t : Nat) : Res AssemblyRec := do
  let r ← w.typeAt t
  Res.unwrap (w.assemblies.find? (·.id = r.assembly))

namespace Spec

/-- The types that a method mentions are registered: result, parameters, local variables, caught exceptions. -/
structure MethodWhole (w : World) (x : MethodRec) : Prop where
  result : x.returnType < w.types.length
  params : ∀ p ∈ x.params, p.paramType < w.types.length
  locals : ∀ b, x.impl = .il b → ∀ l ∈ b.locals, l < w.types.length
  caught : ∀ b, x.impl = .il b → ∀ c ∈ b.clauses, ∀ e, c.catchType = some e → e < w.types.length

/-- Every link from a registered type leads to a registered type, and its members name it as their declaring type. -/
structure TypeWhole (w : World) (t : Nat) (r : TypeRec) : Prop where
  base : ∀ b, r.base = some b → b < w.types.length
  interfaces : ∀ i ∈ r.interfaces, i < w.types.length
  fields : ∀ f ∈ r.fields, f.declaringType = t ∧ f.fieldType < w.types.length
  methods : ∀ x ∈ r.methods, x.declaringType = t ∧ MethodWhole w x

/-- An assembly and its types lead to each other; its methods and fields are those of its types; its entry point is one of
its methods; what it refers to is registered. -/
structure AssemblyWhole (w : World) (a : AssemblyRec) : Prop where
  types : ∀ t ∈ a.types, w.assemblyOf t = .ok a
  methods : ∀ x, x ∈ a.methodDefs ↔ ∃ t r, t ∈ a.types ∧ w.types[t]? = some r ∧ x ∈ r.methods
  fields : ∀ f, f ∈ a.fields ↔ ∃ t r, t ∈ a.types ∧ w.types[t]? = some r ∧ f ∈ r.fields
  entry : ∀ x, a.entryPoint = some x → x ∈ a.methodDefs
  typeRefs : ∀ t ∈ a.typeRefs, t < w.types.length
  methodRefs : ∀ x ∈ a.methodRefs, ∃ r, w.types[x.declaringType]? = some r ∧ x ∈ r.methods

end Spec
end Clr
