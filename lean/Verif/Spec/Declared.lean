import Verif.Spec.Layout
/-!
# Where a declaration puts the fields of a type

ECMA-335 II.10.1.2, II.10.7, II.22.8 (ClassLayout), II.22.16 (FieldLayout): the fields of a sequential type lie in the order of
their declaration, each at a multiple of the packing size or of its natural alignment, whichever is smaller; those of an explicit
type lie at the given offsets; an instance has at least the given size.
-/

namespace Clr.Spec

/-- The first multiple of `a` from `n` on. -/
def roundUp (n a : Nat) : Nat := (n + a - 1) / a * a

/-- `a` may be the natural alignment of type `t`: its size if it is primitive. The alignment of structs is left open. -/
def Alignment (w : World) (t a : Nat) : Prop :=
  1 ≤ a ∧ ∀ p n, w.types[t]? = some p → primitiveWidth p.fullName = some n → a = n

/-- The fields lie one after the other from byte `o` on, with packing size `pack`; the last ends at byte `e`. -/
inductive InSequence (w : World) (pack : Nat) : Nat → List FieldRec → Nat → Prop
  | nil {o : Nat} : InSequence w pack o [] o
  | cons {o n a e : Nat} {f : FieldRec} {fs : List FieldRec} : ValueWidth w f.fieldType n → Alignment w f.fieldType a →
      f.offset = roundUp o (min a pack) → InSequence w pack (f.offset + n) fs e → InSequence w pack o (f :: fs) e

/-- The own fields of type `t` with base class `b` start after the `s` bytes of the base class. -/
def OwnFrom (w : World) (t : Nat) : Option Nat → Nat → Prop
  | none, s => s = 0
  | some b, s => b < t ∧ ClassSize w b s

end Clr.Spec
