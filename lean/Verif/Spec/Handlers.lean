import Verif.Spec.Spelling
/-! # Protected regions (for C119), after ECMA-335 I.12.4.2 and III.1.7.5 -/

namespace Clr.Spec

/-- `try { x = arg0 / arg1; } catch (object) { x = n; } return x;`:
`ldarg.0; ldarg.1; div; stloc.0; leave.s END`, the handler `pop; ldc.i4 n; stloc.0; leave.s END`, and `END: ldloc.0; ret`. -/
def guardedCode (n : Int) : Bytes :=
  [0x02, 0x03, 0x5b, 0x0a, 0xde, 0x09] ++ (0x26 :: 0x20 :: intBytes 4 n ++ [0x0a, 0xde, 0x00]) ++ [0x06, 0x2a]

/-- A body with this code, whose handler catches every exception; `object` is the number of the type of all objects, `int` that of `int`. -/
def guardedBody (object int : Nat) (n : Int) : MethodBody :=
  { code := guardedCode n, maxStack := 2, locals := [int], initLocals := true,
    clauses := [{ clauseType := .catches, tryOffset := 0, tryLength := 6, handlerOffset := 6, handlerLength := 9, catchType := some object, filterOffset := none }] }

/-- What the method returns: the quotient, or `n` if there is none (III.3.31: a zero divisor, or the quotient out of range). -/
def guardedResult (n : BitVec 32) (a b : BitVec 32) : BitVec 32 :=
  if b = 0 ∨ a = BitVec.intMin 32 ∧ b = -1 then n else BitVec.ofInt 32 (a.toInt.tdiv b.toInt)

/-- `m'` is `m`, perhaps with other protected regions and handlers. -/
def Rehandled (m m' : MethodRec) : Prop :=
  m' = { m with impl := m'.impl } ∧ (m'.impl = m.impl ∨ ∃ b clauses, m.impl = .il b ∧ m'.impl = .il { b with clauses })

end Clr.Spec
