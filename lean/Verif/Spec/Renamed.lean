import Verif.Spec.Spelling
/-! # Programs with other names (for C118) -/

namespace Clr.Spec

/-- `m'` is `m`, with another name and other names of its parameters. -/
def Renamed (m m' : MethodRec) : Prop :=
  m' = { m with name := m'.name, params := m'.params } ∧ m'.params.map (fun p => (p.index, p.paramType)) = m.params.map fun p => (p.index, p.paramType)

end Clr.Spec
