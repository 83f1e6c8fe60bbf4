import Verif.Spec.Objects
import Verif.Model.Array
/-!
# Arrays as the host sees them

An array is its elements: what storing one and looking at all of them should do (ECMA-335 I.8.9.1, III.4.7, III.4.26), and
when the runtime is set up.
-/

namespace Clr

/-- An array of `size`-byte elements with the bit patterns `xs`. -/
def arrayBytes (id element size : Nat) (xs : List Nat) : Bytes :=
  2 :: leBytes 4 id ++ leBytes 4 element ++ leBytes 8 xs.length ++ xs.flatMap (leBytes size)

/-- The full names of the types the host knows (ECMA-335 I.8.2.2). -/
def Elem.fullName : Elem → Name
  | .i8 => "System.SByte".toList
  | .i16 => "System.Int16".toList
  | .i32 => "System.Int32".toList
  | .i64 => "System.Int64".toList
  | .u8 => "System.Byte".toList
  | .u16 => "System.UInt16".toList
  | .u32 => "System.UInt32".toList
  | .u64 => "System.UInt64".toList
  | .f32 => "System.Single".toList
  | .f64 => "System.Double".toList
  | .object => "System.Object".toList

/-- The number a value stands for in memory. -/
def Value.pattern : Value → Option Nat
  | .i8 x | .u8 x => some x.toNat
  | .i16 x | .u16 x => some x.toNat
  | .i32 x | .u32 x | .f32 x => some x.toNat
  | .i64 x | .u64 x | .f64 x => some x.toNat
  | .object _ => none

/-- The runtime knows its own types, and types are numbered by their positions. -/
structure RuntimeOk (w : World) : Prop where
  numbers : PrimitivesOk w
  object : ∃ ps r, w.primitives = some ps ∧ w.types[ps.object]? = some r ∧ r.fullName = "System.Object".toList
  ids : ∀ (t : Nat) (r : TypeRec), w.types[t]? = some r → r.id = t
  few : w.types.length ≤ 2 ^ 32

/-- `e` is the only type with its name. -/
def OnlyOne (w : World) (e : Nat) (er : TypeRec) : Prop :=
  w.types[e]? = some er ∧ ∀ (t : Nat) (r : TypeRec), w.types[t]? = some r → r.fullName = er.fullName → t = e

end Clr
