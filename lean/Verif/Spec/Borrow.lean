import Verif.Model.Borrow

/-!
# What a host may hold, and what a conflict is
-/

namespace Clr.Spec
open Clr.Borrow

/-- The guards that a host program can hold: the public functions hand out shared guards only, on
the registries of the runtime (`ClrLite::assemblies`, `ClrLite::types`), the types of an assembly,
the fields, methods and interfaces of a type and the parameters of a method, all of objects that
exist. -/
inductive Obtainable (s : Seen) : Guard → Prop
  | registry : Obtainable s ⟨.clr, false⟩
  | assemblyTypes {a} : a < s.assemblies → Obtainable s ⟨.asmTypes a, false⟩
  | fields {t} : t < s.types → Obtainable s ⟨.fields t, false⟩
  | methods {t} : t < s.types → Obtainable s ⟨.methods t, false⟩
  | interfaces {t} : t < s.types → Obtainable s ⟨.interfaces t, false⟩
  | parameters {m} : m < s.methods → Obtainable s ⟨.params m, false⟩

/-- The host holds any number of such guards. -/
def HostHolds (s : Seen) (h : Held) : Prop := ∀ g ∈ h, Obtainable s g

/-- The host holds no guard on the registries, i.e. no live result of `ClrLite::assemblies` or
`ClrLite::types`. -/
def RegistryFree (h : Held) : Prop := ⟨.clr, false⟩ ∉ h

/-- The calls that may register a type or an assembly or write output. -/
def Changing : Call → Prop
  | .loadAssembly | .loadAssemblyFromData | .execute | .arrayOf => True
  | _ => False

/-- A call can end in the panic of a refused borrow. -/
def CanClash (s : Seen) (h : Held) (c : Call) : Prop := ∃ fuel, c.run s fuel h .clash

end Clr.Spec
