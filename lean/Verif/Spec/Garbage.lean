import Verif.Model.Interp
/-! # Methods that create nothing, and methods that keep nothing -/

namespace Clr.Spec

/-- The opcodes of the instructions that create objects: `ldstr` (ECMA-335 III.4.16), `newobj` (III.4.21) and `newarr`
(III.4.20). -/
def creating : List UInt8 := [0x72, 0x73, 0x8d]

/-- A set of methods in whose code these bytes do not occur, and whose assemblies give the numbers of methods only to methods
of the set. -/
structure Creationless (cfg : Cfg) (w : World) (M : MethodRec → Prop) : Prop where
  code : ∀ m body, M m → m.impl = .il body → ∀ b ∈ body.code, b ∉ creating
  calls : ∀ m tr a t m', M m → w.typeAt m.declaringType = .ok tr → w.assemblies.find? (·.id = tr.assembly) = some a →
    a.resolveMethod cfg t = .ok (some m') → M m'

/-- Code that drops every object as soon as it is made: it contains no `newobj`, `newarr` or `call`, and every `ldstr` with its
operand of four bytes is followed by `pop`. -/
def DropsAtOnce (code : Bytes) : Prop :=
  (∀ b ∈ code, b ∉ [(0x73 : UInt8), 0x8d, 0x28]) ∧ ∀ ip : Nat, code[ip]? = some 0x72 → code[ip + 5]? = some 0x26

end Clr.Spec
