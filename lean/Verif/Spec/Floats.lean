import Verif.Spec.Instructions
import Verif.Model.Value
/-!
# Comparison and arithmetic of operands other than 32-bit integers

After ECMA-335 III.1.5 (tables III.4 and III.2) and III.3. What the hardware computes on floating-point numbers is a
parameter (`FloatOps`); the order of two numbers is `none` if they are unordered.
-/

namespace Clr

/-- Equality is symmetric and that of the order, as in IEEE 754. -/
def LawfulEq (ops : FloatOps) : Prop :=
  (∀ a b, (ops.single.eq a b = true ↔ ops.single.cmp a b = some .eq) ∧ ops.single.eq a b = ops.single.eq b a) ∧
  ∀ a b, (ops.double.eq a b = true ↔ ops.double.cmp a b = some .eq) ∧ ops.double.eq a b = ops.double.eq b a

/-- The order of two operands of the same type. -/
inductive Ordered (ops : FloatOps) : Value → Value → Option Ordering → Prop
  | int (a b : BitVec 32) : Ordered ops (.i32 a) (.i32 b) (some (compare a.toInt b.toInt))
  | long (a b : BitVec 64) : Ordered ops (.i64 a) (.i64 b) (some (compare a.toInt b.toInt))
  | single (a b : BitVec 32) : Ordered ops (.f32 a) (.f32 b) (ops.single.cmp a b)
  | double (a b : BitVec 64) : Ordered ops (.f64 a) (.f64 b) (ops.double.cmp a b)

/-- `ceq`, `cgt`, `clt` (III.3.21, III.3.22, III.3.25): none of them holds of unordered numbers. -/
def Compare.ordered : Compare → Option Ordering → Bool
  | .eq, o => o == some .eq
  | .gt, o => o == some .gt
  | .lt, o => o == some .lt

/-- `beq`, `bge`, `bgt`, `ble`, `blt` (III.3.5, III.3.6, III.3.8, III.3.10, III.3.12): not taken for unordered numbers. -/
def Branch2.ordered : Branch2 → Option Ordering → Bool
  | .beq, o => o == some .eq
  | .bge, o => o == some .gt || o == some .eq
  | .bgt, o => o == some .gt
  | .ble, o => o == some .lt || o == some .eq
  | .blt, o => o == some .lt

/-- `cgt.un` and `clt.un` of floating-point numbers (III.3.23, III.3.26): they hold of unordered numbers too. -/
def unorderedOr (c : Compare) (o : Option Ordering) : Bool := c.ordered o || o == none

/-- The instructions with two floating-point operands. -/
inductive FloatOp where
  | add | sub | mul | div | rem
deriving DecidableEq, Repr

def FloatOp.opcode : FloatOp → UInt8
  | .add => 0x58 | .sub => 0x59 | .mul => 0x5a | .div => 0x5b | .rem => 0x5d

/-- The operation of the hardware. -/
def FloatOp.of {n : Nat} (f : FloatType n) : FloatOp → BitVec n → BitVec n → BitVec n
  | .add => f.add | .sub => f.sub | .mul => f.mul | .div => f.div | .rem => f.rem

end Clr
