import Verif.Model.Value
/-!
# What the operators on values should compute

The eight integer types of the language, their numbers, and the operators as operations on integers.
-/

namespace Clr.Spec

/-- `sbyte`, `byte`, `short`, `ushort`, `int`, `uint`, `long`, `ulong`. -/
inductive IntType where
  | i8 | u8 | i16 | u16 | i32 | u32 | i64 | u64
deriving DecidableEq, Repr

namespace IntType

def bits : IntType → Nat
  | .i8 => 8 | .u8 => 8 | .i16 => 16 | .u16 => 16 | .i32 => 32 | .u32 => 32 | .i64 => 64 | .u64 => 64

def signed : IntType → Bool
  | .i8 => true | .u8 => false | .i16 => true | .u16 => false | .i32 => true | .u32 => false | .i64 => true | .u64 => false

/-- The least and the greatest number of the type. -/
def least (t : IntType) : Int := if t.signed then -2 ^ (t.bits - 1) else 0
def greatest (t : IntType) : Int := if t.signed then 2 ^ (t.bits - 1) - 1 else 2 ^ t.bits - 1

/-- The numbers of the type. -/
def Has (t : IntType) (x : Int) : Prop := t.least ≤ x ∧ x ≤ t.greatest

instance (t : IntType) (x : Int) : Decidable (t.Has x) := by unfold Has; infer_instance

/-- The number of the type that differs from `x` by a multiple of 2^bits. -/
def wrap (t : IntType) (x : Int) : Int := t.least + (x - t.least) % 2 ^ t.bits

/-- The value (value.rs:8-21) of the type whose number is `x`. -/
def val : IntType → Int → Value
  | .i8, x => .i8 (.ofInt 8 x) | .u8, x => .u8 (.ofInt 8 x)
  | .i16, x => .i16 (.ofInt 16 x) | .u16, x => .u16 (.ofInt 16 x)
  | .i32, x => .i32 (.ofInt 32 x) | .u32, x => .u32 (.ofInt 32 x)
  | .i64, x => .i64 (.ofInt 64 x) | .u64, x => .u64 (.ofInt 64 x)

end IntType

/-- Bit `i` of the two's complement of `x`. -/
def bit (x : Int) (i : Nat) : Prop := x / 2 ^ i % 2 = 1

/-- The result of an operation that should give `x`: in a build with overflow checks a panic if the type has no such number, in a build
without the number wrapped around. -/
def fitted (cfg : Cfg) (t : IntType) (x : Int) : Res Value :=
  if t.Has x then .ok (t.val x) else if cfg.checks then .panic else .ok (t.val (t.wrap x))

/-- The result of shifting by `y` bits, if shifting by `c` bits should give `f c`: a count that is not less than the width panics in a build
with overflow checks, and counts modulo the width in a build without. -/
def shifted (cfg : Cfg) (t : IntType) (y : Int) (f : Nat → Int) : Res Value :=
  if 0 ≤ y ∧ y < t.bits then .ok (t.val (t.wrap (f y.toNat)))
  else if cfg.checks then .panic else .ok (t.val (t.wrap (f (y % t.bits).toNat)))

/-- The kind of a value: one of the eight integer types, one of the two floating-point types, or a reference. -/
inductive ValueKind where
  | int (t : IntType) | single | double | reference
deriving DecidableEq, Repr

def valueKind : Value → ValueKind
  | .i8 _ => .int .i8 | .u8 _ => .int .u8 | .i16 _ => .int .i16 | .u16 _ => .int .u16 | .i32 _ => .int .i32 | .u32 _ => .int .u32
  | .i64 _ => .int .i64 | .u64 _ => .int .u64 | .f32 _ => .single | .f64 _ => .double | .object _ => .reference

end Clr.Spec
