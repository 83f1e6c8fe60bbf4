/-! # Names of types -/

namespace Clr.Spec

/-- A type's full name: `Namespace.Name`, or just the name in the global namespace. -/
def qualified : List Char → List Char → List Char
  | [], n => n
  | c :: ns, n => (c :: ns) ++ ['.'] ++ n

end Clr.Spec
