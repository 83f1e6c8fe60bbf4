import Verif.Spec.Valid
/-! # What a program needs to be loaded already -/

namespace Clr.Source
open Spec

/-- A library is loaded that a program needs: an assembly named `core`, and in some assembly the number types and
`System.ValueType`, `System.Object` and `System.Void`; all types are of moderate size. -/
structure Provided (cfg : Cfg) (w : World) : Prop where
  library : ∃ a ∈ w.assemblies, a.name = "core".toList
  types : ∀ n ∈ numberNames ++ ["System.ValueType".toList, "System.Object".toList, "System.Void".toList], Registered w n
  references : ∀ (t : Nat) r, w.types[t]? = some r → r.fullName ∈ ["System.Object".toList, "System.Array".toList] →
    (∀ b br, r.base = some b → w.types[b]? = some br → br.fullName ∈ ["System.Object".toList, "System.Array".toList]) ∧
    ∀ i ∈ r.interfaces, ∀ ir, w.types[i]? = some ir → ir.fullName ≠ "System.ValueType".toList
  sizes : ∀ (t : Nat) r, w.types[t]? = some r → (∃ n, Depth w t n) ∧ ∃ fuel s, typeSize cfg w fuel t = .ok s ∧ s ≤ 2 ^ 32
  count : w.types.length + 2 < 2 ^ 32

end Clr.Source
