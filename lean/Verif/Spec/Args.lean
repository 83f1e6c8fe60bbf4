import Verif.Bytes
/-! # Stores into arguments in the code of a method -/

namespace Clr.Spec

/-- `starg.s i` (0x10, index) occurs in the code, or `starg` (0xfe 0x0b) with any index: ECMA-335 III.3.61. -/
def StoresArg (code : Bytes) (i : Nat) : Prop :=
  ∃ ip : Nat, code[ip]? = some 0x10 ∧ (code[ip + 1]?.map UInt8.toNat) = some i ∨ code[ip]? = some 0xfe ∧ code[ip + 1]? = some 0x0b

end Clr.Spec
