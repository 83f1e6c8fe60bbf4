import Verif.Model.Loader
/-! # Specification: the assembly reference graph -/

namespace Clr.Spec

/-- The file found under the name `x` has an assembly reference named `y`. -/
def RefersTo (cfg : Cfg) (fs : Name → Option Bytes) (x y : Name) : Prop :=
  ∃ d m row, fs x = some d ∧ readMetadata cfg d = .ok m ∧ row ∈ m.tables.assemblyRef ∧ m.string row.name = .ok (some y)

/-- Every file is found under the name that its assembly table gives it. -/
def NamedByFile (cfg : Cfg) (fs : Name → Option Bytes) : Prop :=
  ∀ n d m row name, fs n = some d → readMetadata cfg d = .ok m → m.tables.assembly[0]? = some row →
    m.string row.name = .ok (some name) → name = n

/-- Reached from `x` by following references. -/
inductive Needs (cfg : Cfg) (fs : Name → Option Bytes) (x : Name) : Name → Prop
  | self : Needs cfg fs x x
  | step {y z : Name} : Needs cfg fs x y → RefersTo cfg fs y z → Needs cfg fs x z

/-- The names of the loaded assemblies, in the order in which they were loaded. -/
def loaded (w : World) : List Name := w.assemblies.map (·.name)

/-- No name occurs twice. -/
def Distinct (l : List Name) : Prop := ∀ (i j : Nat) x, l[i]? = some x → l[j]? = some x → i = j

end Clr.Spec
