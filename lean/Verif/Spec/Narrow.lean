import Verif.Spec.Spelling
/-! # Variables of small integer types (for C120), after ECMA-335 III.1.1.1 and III.3.63 -/

namespace Clr.Spec

/-- The integer types with fewer than 32 bits. -/
inductive SmallInt where
  | i8 | u8 | i16 | u16
deriving DecidableEq

/-- What a variable of the type holds once a 32-bit value was stored in it: the value without its upper bits, extended when it is loaded. -/
def SmallInt.hold : SmallInt → BitVec 32 → BitVec 32
  | .i8, a => (a.setWidth 8).signExtend 32
  | .u8, a => (a.setWidth 8).setWidth 32
  | .i16, a => (a.setWidth 16).signExtend 32
  | .u16, a => (a.setWidth 16).setWidth 32

/-- `x = arg0; return x;`: `ldarg.0; stloc.0; ldloc.0; ret`. -/
def throughLocal : Bytes := [0x02, 0x0a, 0x06, 0x2a]

/-- `m'` has the code of `m` and as many variables and parameters; the types of these, the greatest depth of the operand stack, the handlers,
the names and the flags may be others. -/
def Redeclared (m m' : MethodRec) : Prop :=
  (m'.declaringType = m.declaringType ∧ m'.returnType = m.returnType ∧ m'.isStatic = m.isStatic ∧ m'.params.length = m.params.length) ∧
  (m'.impl = m.impl ∨ ∃ b b', m.impl = .il b ∧ m'.impl = .il b' ∧ b'.code = b.code ∧ b'.locals.length = b.locals.length)

end Clr.Spec
