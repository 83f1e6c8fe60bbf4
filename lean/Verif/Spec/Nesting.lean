import Verif.Spec.Links
/-! # Which methods a method can call: what its code says -/

namespace Clr.Spec

/-- The code of `m` contains, at some position, the byte of `call` or `newobj` and after it a token that stands for `m'` in the
assembly of `m`. -/
def CallsIn (cfg : Cfg) (w : World) (m m' : MethodRec) : Prop :=
  ∃ (a : AssemblyRec) (body : MethodBody) (ip : Nat), w.assemblyOf m.declaringType = .ok a ∧ m.impl = .il body ∧
    (body.code[ip]? = some 0x28 ∨ body.code[ip]? = some 0x73) ∧ ip + 5 ≤ body.code.length ∧
    a.resolveMethod cfg ⟨leNat ((body.code.drop (ip + 1)).take 4)⟩ = .ok (some m')

end Clr.Spec
