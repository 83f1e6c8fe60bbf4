import Verif.Spec.Abstract
import Verif.Spec.Valid
/-!
# The integer program that an assembly contains

The static methods of an assembly whose parameters and locals are of type `int`, with a result of type `int` or none, as
procedures of the abstract machine; a call names a method by the number of its row (II.22.26, II.23.2.1).
-/

namespace Clr.Spec

/-- The element type of 32-bit integers. -/
def isInt : ElementType → Bool
  | .int => true
  | _ => false

/-- Whether there is a result, for those two result types. -/
def intResult : ElementType → Option Bool
  | .int => some true
  | .void => some false
  | _ => none

/-- Code and number of locals of a body whose locals are 32-bit integers. -/
def intBody : Impl → Option (Bytes × Nat)
  | .tiny code => some (code, 0)
  | .fat b _ es => if es.all isInt then some (b.code, es.length) else none
  | _ => none

/-- Which row of a method table with that many rows a token stands for. -/
def methodRowOf (rows t : Nat) : Option Nat :=
  if 6 * 2 ^ 24 < t ∧ t ≤ 6 * 2 ^ 24 + rows then some (t - 6 * 2 ^ 24) else none

/-- The procedure that row `j` (from one) of the method table declares. -/
def intProg (m : Metadata) (d : Decls) (j : Nat) : Option Abs.Proc :=
  if 1 ≤ j ∧ m.tables.methodDef[j - 1]?.any (·.attributes.isStatic) then
    if (d.method j).params.all isInt then
      match intResult (d.method j).returnType, intBody (d.impl j) with
      | some r, some (code, locals) =>
        some ⟨code, (d.method j).params.length, locals, r, methodRowOf m.tables.methodDef.length⟩
      | _, _ => none
    else none
  else none

end Clr.Spec
