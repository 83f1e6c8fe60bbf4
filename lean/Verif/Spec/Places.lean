import Verif.Spec.MethodBody
/-!
# Where method bodies and user strings must be for their numbers to be at multiples of their sizes

From the layouts of ECMA-335 II.25.4 and II.24.2.4 alone.
-/

namespace Clr.Spec

/-- A section without small clauses. In a small clause the offset of the handler, of two bytes, is five bytes behind the kind, also
of two bytes: one of them is at an odd address. -/
def Sections.Unpacked : Sections → Prop
  | .small cs => cs = []
  | _ => True

instance : (s : Sections) → Decidable s.Unpacked
  | .absent => inferInstanceAs (Decidable True)
  | .small _ => inferInstanceAs (Decidable (_ = _))
  | .fat _ => inferInstanceAs (Decidable True)

/-- The addresses for a body with a fat header: multiples of four, and no small clauses. -/
def Fat.FitsAt (b : Fat) (address : Nat) : Prop := address % 4 = 0 ∧ b.sections.Unpacked

instance (b : Fat) (address : Nat) : Decidable (b.FitsAt address) := by unfold Fat.FitsAt; infer_instance

/-- The addresses for a user string of `n` units: the units are at an even address behind a length of one, two or four bytes,
and a length of more than one byte is at a multiple of its size. -/
def StringFitsAt (n address : Nat) : Prop :=
  if n < 64 then address % 2 = 1 else if n < 8192 then address % 2 = 0 else address % 4 = 0

instance (n address : Nat) : Decidable (StringFitsAt n address) := by unfold StringFitsAt; infer_instance

end Clr.Spec
