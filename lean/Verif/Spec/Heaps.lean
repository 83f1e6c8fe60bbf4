import Verif.Spec.Utf8
/-! # The strings heap (ECMA-335 II.24.2.3) -/

namespace Clr.Spec

/-- The text `s` is stored at index `i` of a strings heap: its UTF-8 form stands there, has no NUL in it, and is
followed by a NUL. -/
def HeapText (heap : Bytes) (i : Nat) (s : List Char) : Prop :=
  ∃ pre post, heap = pre ++ utf8 s ++ 0 :: post ∧ pre.length = i ∧ (0 : UInt8) ∉ utf8 s

end Clr.Spec
