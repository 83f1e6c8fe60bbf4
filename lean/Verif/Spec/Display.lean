import Verif.Model.World
/-! # Reading hexadecimal numbers; C#-like signatures -/

namespace Clr.Spec

/-- The value of a hexadecimal digit. -/
def digitValue (c : Char) : Option Nat :=
  if 48 ≤ c.toNat ∧ c.toNat < 58 then some (c.toNat - 48)
  else if 97 ≤ c.toNat ∧ c.toNat < 103 then some (c.toNat - 87)
  else none

/-- The number written by hexadecimal digits, most significant first. -/
inductive Writes : List Char → Nat → Prop
  | nil : Writes [] 0
  | snoc {l : List Char} {n d : Nat} {c : Char} : Writes l n → digitValue c = some d → Writes (l ++ [c]) (16 * n + d)

/-- Names separated by a comma and a space. -/
def commaList : List Name → Name
  | [] => []
  | [n] => n
  | n :: ns => n ++ ", ".toList ++ commaList ns

/-- `Ret Name(P1, P2)`. -/
def signatureText (ret name : Name) (params : List Name) : Name :=
  ret ++ " ".toList ++ name ++ "(".toList ++ commaList params ++ ")".toList

/-- A name without the characters that structure a signature. -/
def Plain (n : Name) : Prop := n ≠ [] ∧ ∀ c ∈ n, c ≠ ' ' ∧ c ≠ '(' ∧ c ≠ ',' ∧ c ≠ ')'

instance (n : Name) : Decidable (Plain n) := inferInstanceAs (Decidable (_ ∧ _))

/-- The names of the result type and the parameter types of a method. -/
inductive NamesOf (w : World) (x : MethodRec) : Name → List Name → Prop
  | mk {r : TypeRec} {ns : List Name} : w.types[x.returnType]? = some r → ns.length = x.params.length →
      (∀ (i : Nat) p, x.params[i]? = some p → ∃ q, w.types[p.paramType]? = some q ∧ ns[i]? = some q.name) →
      NamesOf w x r.name ns

end Clr.Spec
