import Verif.Model.Loader
import Verif.Spec.Names
/-!
# What a program can do to the registry, and what subtyping means

Independent of how the loader works: which calls exist (`Reached`, `Later`), and the subtype relation of ECMA-335
(`Ancestor`, `SubtypeOf`) over the base and interface references of the type records.
-/

namespace Clr

/-- The registries a program can bring about: starting empty, any sequence of successful or failing loads, array-type
requests and console writes. -/
inductive Reached (cfg : Cfg) : World → Prop
  | start : Reached cfg {}
  | runtime {w : World} (fs : Name → Option Bytes) (depth fuel : Nat) (a b : Bytes) :
      Reached cfg w → Reached cfg (newRuntime cfg fs depth fuel a b w).2
  | loadFile {w : World} (fs : Name → Option Bytes) (depth fuel : Nat) (data : Bytes) :
      Reached cfg w → Reached cfg (loadData cfg fs depth fuel data w).2
  | loadName {w : World} (fs : Name → Option Bytes) (depth fuel : Nat) (n : Name) :
      Reached cfg w → Reached cfg (loadAssembly cfg fs depth fuel n w).2
  | arrayOf {w : World} (t : Nat) : Reached cfg w → Reached cfg (arrayType cfg t w).2
  | write {w : World} (s : List Char) : Reached cfg w → Reached cfg { w with output := w.output ++ s }

/-- Further activity: what can happen between two moments. -/
inductive Later (cfg : Cfg) : World → World → Prop
  | refl (w : World) : Later cfg w w
  | runtime {w w' : World} (fs : Name → Option Bytes) (depth fuel : Nat) (a b : Bytes) :
      Later cfg w w' → Later cfg w (newRuntime cfg fs depth fuel a b w').2
  | loadFile {w w' : World} (fs : Name → Option Bytes) (depth fuel : Nat) (data : Bytes) :
      Later cfg w w' → Later cfg w (loadData cfg fs depth fuel data w').2
  | loadName {w w' : World} (fs : Name → Option Bytes) (depth fuel : Nat) (n : Name) :
      Later cfg w w' → Later cfg w (loadAssembly cfg fs depth fuel n w').2
  | arrayOf {w w' : World} (t : Nat) : Later cfg w w' → Later cfg w (arrayType cfg t w').2
  | write {w w' : World} (s : List Char) : Later cfg w w' → Later cfg w { w' with output := w'.output ++ s }

namespace Spec

/-- `a` is `t` or one of its base classes. -/
inductive Ancestor (w : World) : Nat → Nat → Prop
  | self (t : Nat) : Ancestor w t t
  | base {t b a : Nat} {r : TypeRec} : w.types[t]? = some r → r.base = some b → Ancestor w b a → Ancestor w t a

/-- Interface `i` is implemented by `t` or one of its base classes. -/
def Implements (w : World) (t i : Nat) : Prop := ∃ a r, Ancestor w t a ∧ w.types[a]? = some r ∧ i ∈ r.interfaces

/-- The subtype relation: base classes and implemented interfaces. -/
def SubtypeOf (w : World) (t u : Nat) : Prop := Ancestor w t u ∨ Implements w t u

/-- The base chain of `t` has `n` links. -/
inductive Depth (w : World) : Nat → Nat → Prop
  | root {t : Nat} {r : TypeRec} : w.types[t]? = some r → r.base = none → Depth w t 0
  | link {t b n : Nat} {r : TypeRec} : w.types[t]? = some r → r.base = some b → Depth w b n → Depth w t (n + 1)

/-- No two registered types share a full name. -/
def DistinctNames (w : World) : Prop :=
  ∀ (i j : Nat) a b, w.types[i]? = some a → w.types[j]? = some b → a.fullName = b.fullName → i = j

/-- The full name given by a type definition or reference row. -/
inductive RowNamed (m : Metadata) : TypeDefOrRef → Name → Prop
  | typeDef (k : Nat) (row : TypeDefRow) (n ns : Name) (hk : 1 ≤ k) (hrow : m.tables.typeDef[k - 1]? = some row)
      (hn : m.string row.name = .ok (some n)) (hns : m.string row.nspace = .ok (some ns)) :
      RowNamed m (.typeDef k) (qualified ns n)
  | typeRef (k : Nat) (row : TypeRefRow) (n ns : Name) (hk : 1 ≤ k) (hrow : m.tables.typeRef[k - 1]? = some row)
      (hn : m.string row.name = .ok (some n)) (hns : m.string row.nspace = .ok (some ns)) :
      RowNamed m (.typeRef k) (qualified ns n)

/-- The library types of the built-in element types (ECMA-335 II.23.1.16, I.8.2.2). -/
def builtinName : ElementType → Option String
  | .void => some "System.Void"
  | .bool => some "System.Boolean"
  | .char => some "System.Char"
  | .sbyte => some "System.SByte"
  | .byte => some "System.Byte"
  | .short => some "System.Int16"
  | .ushort => some "System.UInt16"
  | .int => some "System.Int32"
  | .uint => some "System.UInt32"
  | .long => some "System.Int64"
  | .ulong => some "System.UInt64"
  | .float => some "System.Single"
  | .double => some "System.Double"
  | .string => some "System.String"
  | .intPtr => some "System.IntPtr"
  | .uintPtr => some "System.UIntPtr"
  | .object => some "System.Object"
  | _ => none

/-- The full name of the type an element type of a signature denotes. `root` is the name of the innermost element,
`rank` the number of array brackets. -/
inductive Denotes (m : Metadata) : ElementType → (root : Name) → (rank : Nat) → Name → Prop
  | builtin {e : ElementType} {n : String} (h : builtinName e = some n) : Denotes m e n.toList 0 n.toList
  | valueType {h : TypeDefOrRef} {n : Name} (hn : RowNamed m h n) : Denotes m (.valueType h) n 0 n
  | cls {h : TypeDefOrRef} {n : Name} (hn : RowNamed m h n) : Denotes m (.class h) n 0 n
  | array {e : ElementType} {root n : Name} {rank : Nat} (h : Denotes m e root rank n) :
      Denotes m (.szArray e) root (rank + 1) (n ++ ['[', ']'])

end Spec
end Clr
