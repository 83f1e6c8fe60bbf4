import Verif.Bytes
/-!
# `clr_lite/src/vm/interpreter/value.rs`

Integers are bit vectors. Floating-point numbers are their bit patterns; what the hardware computes on them is left open
(`FloatOps`), so nothing is assumed about floating-point arithmetic.
-/

namespace Clr

/-- A raw pointer into the object heap (`Object(*mut ObjectHeader)`, object.rs:23-25): the buffer it points into and the
byte offset in it. Every reallocation of the heap's vector starts a new buffer (`Heap.gen`). -/
structure Ptr where
  gen : Nat
  off : Nat
deriving DecidableEq, Repr

/-- `enum Value` (value.rs:8-21). -/
inductive Value where
  | i8 (x : BitVec 8)
  | u8 (x : BitVec 8)
  | i16 (x : BitVec 16)
  | u16 (x : BitVec 16)
  | i32 (x : BitVec 32)
  | u32 (x : BitVec 32)
  | i64 (x : BitVec 64)
  | u64 (x : BitVec 64)
  | f32 (x : BitVec 32)
  | f64 (x : BitVec 64)
  | object (p : Ptr)
deriving DecidableEq, Repr

/-- The operations of one floating-point type, on bit patterns. -/
structure FloatType (n : Nat) where
  add : BitVec n → BitVec n → BitVec n
  sub : BitVec n → BitVec n → BitVec n
  mul : BitVec n → BitVec n → BitVec n
  div : BitVec n → BitVec n → BitVec n
  rem : BitVec n → BitVec n → BitVec n
  neg : BitVec n → BitVec n
  eq : BitVec n → BitVec n → Bool
  cmp : BitVec n → BitVec n → Option Ordering

/-- `f32` and `f64`. -/
structure FloatOps where
  single : FloatType 32
  double : FloatType 64

/-- Rust `+`, `-`, `*`, unary `-` and the shifts on fixed-width integers: the wrapped result `r`, unless the operation
overflows in a build with overflow checks. -/
def checked {n : Nat} (cfg : Cfg) (overflow : Bool) (r : BitVec n) : Res (BitVec n) :=
  if cfg.checks && overflow then .panic else .ok r

/-- Rust `/` and `%`: a zero divisor and an overflowing quotient panic in every build. -/
def divided {n : Nat} (zeroDivisor overflow : Bool) (r : BitVec n) : Res (BitVec n) :=
  if zeroDivisor || overflow then .panic else .ok r

/-- The overflowing quotient of signed numbers: the least number by -1. -/
def quotientOverflow {n : Nat} (a b : BitVec n) : Bool := a == BitVec.intMin n && b == -1#n

/-- `BitVec` operations on signed (`iN`) and unsigned (`uN`) operands. -/
def addS (cfg : Cfg) {n : Nat} (a b : BitVec n) : Res (BitVec n) := checked cfg (BitVec.saddOverflow a b) (a + b)
def addU (cfg : Cfg) {n : Nat} (a b : BitVec n) : Res (BitVec n) := checked cfg (BitVec.uaddOverflow a b) (a + b)
def subS (cfg : Cfg) {n : Nat} (a b : BitVec n) : Res (BitVec n) := checked cfg (BitVec.ssubOverflow a b) (a - b)
def subU (cfg : Cfg) {n : Nat} (a b : BitVec n) : Res (BitVec n) := checked cfg (BitVec.usubOverflow a b) (a - b)
def mulS (cfg : Cfg) {n : Nat} (a b : BitVec n) : Res (BitVec n) := checked cfg (BitVec.smulOverflow a b) (a * b)
def mulU (cfg : Cfg) {n : Nat} (a b : BitVec n) : Res (BitVec n) := checked cfg (BitVec.umulOverflow a b) (a * b)
def divS {n : Nat} (a b : BitVec n) : Res (BitVec n) := divided (b == 0#n) (quotientOverflow a b) (BitVec.sdiv a b)
def divU {n : Nat} (a b : BitVec n) : Res (BitVec n) := divided (b == 0#n) false (BitVec.udiv a b)
def remS {n : Nat} (a b : BitVec n) : Res (BitVec n) := divided (b == 0#n) (quotientOverflow a b) (BitVec.srem a b)
def remU {n : Nat} (a b : BitVec n) : Res (BitVec n) := divided (b == 0#n) false (BitVec.umod a b)
def negS (cfg : Cfg) {n : Nat} (a : BitVec n) : Res (BitVec n) := checked cfg (BitVec.negOverflow a) (-a)

/-- Rust `<<` and `>>` with both operands of the same type: the count is the right operand, reduced modulo the width; a
count outside `0..width` is an overflow. A negative count is, as a bit pattern, at least the width. -/
def shl (cfg : Cfg) {n : Nat} (a b : BitVec n) : Res (BitVec n) :=
  checked cfg (decide (n ≤ b.toNat)) (a <<< (b.toNat % n))
def shrS (cfg : Cfg) {n : Nat} (a b : BitVec n) : Res (BitVec n) :=
  checked cfg (decide (n ≤ b.toNat)) (BitVec.sshiftRight a (b.toNat % n))
def shrU (cfg : Cfg) {n : Nat} (a b : BitVec n) : Res (BitVec n) :=
  checked cfg (decide (n ≤ b.toNat)) (a >>> (b.toNat % n))

namespace Value

/-- `Value::is_null_or_zero` (value.rs:25-39). -/
def isNullOrZero (ops : FloatOps) : Value → Res Bool
  | .i8 x => .ok (x == 0#8)
  | .u8 x => .ok (x == 0#8)
  | .i16 x => .ok (x == 0#16)
  | .u16 x => .ok (x == 0#16)
  | .i32 x => .ok (x == 0#32)
  | .u32 x => .ok (x == 0#32)
  | .i64 x => .ok (x == 0#64)
  | .u64 x => .ok (x == 0#64)
  | .f32 x => .ok (ops.single.eq x 0#32)
  | .f64 x => .ok (ops.double.eq x 0#64)
  | .object _ => .panic

/-- The derived `PartialEq` (value.rs:8). Objects are compared by address; an address in a buffer that has been freed is
taken to differ from every address in the current one. -/
def eq (ops : FloatOps) : Value → Value → Bool
  | .i8 a, .i8 b => a == b
  | .u8 a, .u8 b => a == b
  | .i16 a, .i16 b => a == b
  | .u16 a, .u16 b => a == b
  | .i32 a, .i32 b => a == b
  | .u32 a, .u32 b => a == b
  | .i64 a, .i64 b => a == b
  | .u64 a, .u64 b => a == b
  | .f32 a, .f32 b => ops.single.eq a b
  | .f64 a, .f64 b => ops.double.eq a b
  | .object p, .object q => p = q
  | _, _ => false

/-- Comparison of machine integers. -/
def cmpS {n : Nat} (a b : BitVec n) : Option Ordering := some (compare a.toInt b.toInt)
def cmpU {n : Nat} (a b : BitVec n) : Option Ordering := some (compare a.toNat b.toNat)

/-- `PartialOrd::partial_cmp` (value.rs:42-59). -/
def partialCmp (ops : FloatOps) : Value → Value → Res (Option Ordering)
  | .i8 a, .i8 b => .ok (cmpS a b)
  | .u8 a, .u8 b => .ok (cmpU a b)
  | .i16 a, .i16 b => .ok (cmpS a b)
  | .u16 a, .u16 b => .ok (cmpU a b)
  | .i32 a, .i32 b => .ok (cmpS a b)
  | .u32 a, .u32 b => .ok (cmpU a b)
  | .i64 a, .i64 b => .ok (cmpS a b)
  | .u64 a, .u64 b => .ok (cmpU a b)
  | .f32 a, .f32 b => .ok (ops.single.cmp a b)
  | .f64 a, .f64 b => .ok (ops.double.cmp a b)
  | _, _ => .panic

/-- `<`, `<=`, `>`, `>=`: the provided methods of `PartialOrd`. -/
def lt (ops : FloatOps) (a b : Value) : Res Bool := do pure ((← partialCmp ops a b) == some .lt)
def le (ops : FloatOps) (a b : Value) : Res Bool := do
  let c ← partialCmp ops a b
  pure (c == some .lt || c == some .eq)
def gt (ops : FloatOps) (a b : Value) : Res Bool := do pure ((← partialCmp ops a b) == some .gt)
def ge (ops : FloatOps) (a b : Value) : Res Bool := do
  let c ← partialCmp ops a b
  pure (c == some .gt || c == some .eq)

/-- The shape shared by `Add`, `Sub`, `Mul`, `Div`, `Rem` (value.rs:61-164). -/
def arith (s u : {n : Nat} → BitVec n → BitVec n → Res (BitVec n)) (f : BitVec 32 → BitVec 32 → BitVec 32)
    (d : BitVec 64 → BitVec 64 → BitVec 64) : Value → Value → Res Value
  | .i8 a, .i8 b => .i8 <$> s a b
  | .u8 a, .u8 b => .u8 <$> u a b
  | .i16 a, .i16 b => .i16 <$> s a b
  | .u16 a, .u16 b => .u16 <$> u a b
  | .i32 a, .i32 b => .i32 <$> s a b
  | .u32 a, .u32 b => .u32 <$> u a b
  | .i64 a, .i64 b => .i64 <$> s a b
  | .u64 a, .u64 b => .u64 <$> u a b
  | .f32 a, .f32 b => .ok (.f32 (f a b))
  | .f64 a, .f64 b => .ok (.f64 (d a b))
  | _, _ => .panic

/-- `impl Add` (value.rs:61-80). -/
def add (cfg : Cfg) (ops : FloatOps) : Value → Value → Res Value := arith (addS cfg) (addU cfg) ops.single.add ops.double.add
/-- `impl Sub` (value.rs:82-101). -/
def sub (cfg : Cfg) (ops : FloatOps) : Value → Value → Res Value := arith (subS cfg) (subU cfg) ops.single.sub ops.double.sub
/-- `impl Mul` (value.rs:103-122). -/
def mul (cfg : Cfg) (ops : FloatOps) : Value → Value → Res Value := arith (mulS cfg) (mulU cfg) ops.single.mul ops.double.mul
/-- `impl Div` (value.rs:124-143). -/
def div (ops : FloatOps) : Value → Value → Res Value := arith divS divU ops.single.div ops.double.div
/-- `impl Rem` (value.rs:145-164). -/
def rem (ops : FloatOps) : Value → Value → Res Value := arith remS remU ops.single.rem ops.double.rem

/-- `impl Neg` (value.rs:166-181). -/
def neg (cfg : Cfg) (ops : FloatOps) : Value → Res Value
  | .i8 x => .i8 <$> negS cfg x
  | .i16 x => .i16 <$> negS cfg x
  | .i32 x => .i32 <$> negS cfg x
  | .i64 x => .i64 <$> negS cfg x
  | .f32 x => .ok (.f32 (ops.single.neg x))
  | .f64 x => .ok (.f64 (ops.double.neg x))
  | _ => .panic

/-- The shape shared by `BitAnd`, `BitOr`, `BitXor`, `Shl`, `Shr` (value.rs:183-276). -/
def bits (s u : {n : Nat} → BitVec n → BitVec n → Res (BitVec n)) : Value → Value → Res Value
  | .i8 a, .i8 b => .i8 <$> s a b
  | .u8 a, .u8 b => .u8 <$> u a b
  | .i16 a, .i16 b => .i16 <$> s a b
  | .u16 a, .u16 b => .u16 <$> u a b
  | .i32 a, .i32 b => .i32 <$> s a b
  | .u32 a, .u32 b => .u32 <$> u a b
  | .i64 a, .i64 b => .i64 <$> s a b
  | .u64 a, .u64 b => .u64 <$> u a b
  | _, _ => .panic

/-- `impl BitAnd` (value.rs:183-200). -/
def and : Value → Value → Res Value := bits (fun a b => .ok (a &&& b)) (fun a b => .ok (a &&& b))
/-- `impl BitOr` (value.rs:202-219). -/
def or : Value → Value → Res Value := bits (fun a b => .ok (a ||| b)) (fun a b => .ok (a ||| b))
/-- `impl BitXor` (value.rs:221-238). -/
def xor : Value → Value → Res Value := bits (fun a b => .ok (a ^^^ b)) (fun a b => .ok (a ^^^ b))
/-- `impl Shl` (value.rs:240-257). -/
def shl (cfg : Cfg) : Value → Value → Res Value := bits (Clr.shl cfg) (Clr.shl cfg)
/-- `impl Shr` (value.rs:259-276): arithmetic on signed, logical on unsigned operands. -/
def shr (cfg : Cfg) : Value → Value → Res Value := bits (shrS cfg) (shrU cfg)

/-- `impl Not` (value.rs:278-295). -/
def not : Value → Res Value
  | .i8 x => .ok (.i8 (~~~x))
  | .u8 x => .ok (.u8 (~~~x))
  | .i16 x => .ok (.i16 (~~~x))
  | .u16 x => .ok (.u16 (~~~x))
  | .i32 x => .ok (.i32 (~~~x))
  | .u32 x => .ok (.u32 (~~~x))
  | .i64 x => .ok (.i64 (~~~x))
  | .u64 x => .ok (.u64 (~~~x))
  | _ => .panic

end Value
end Clr
