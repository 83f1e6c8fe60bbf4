import Verif.Spec.Whole
import Verif.Spec.Objective
import Verif.Spec.Layout
/-!
# The program with objects that an assembly contains

What the procedures of the abstract machine with objects (`Spec/Objective.lean`) have to do with the rows of the tables of an
assembly (ECMA-335 II.22, II.23.2, II.24.2.4): a procedure is a row of the method table, a field is a row of the field table,
and tokens stand for rows or for places in the heap of string literals.
-/

namespace Clr.Spec
open Obj

/-- Code and number of locals of a method with a body. -/
def bodyOf : Impl → Option (Bytes × Nat)
  | .tiny code => some (code, 0)
  | .fat b _ es => some (b.code, es.length)
  | _ => none

/-- The rows of the field table that type row `k` (from zero) owns. -/
def ownFields (m : Metadata) (k : Nat) : List Nat :=
  match m.tables.typeDef[k]? with
  | some row => List.range' row.fieldList (runLength (m.tables.typeDef.map (·.fieldList)) m.tables.field.length k)
  | none => []

/-- The type of such numbers in signatures (II.23.1.16). -/
def _root_.Clr.Obj.Kind.sig : Kind → ElementType
  | .int => .int | .long => .long | .single => .float | .double => .double

/-- The own fields of type row `k` are these: instance fields of numeric types. -/
def NumFields (m : Metadata) (d : Decls) (k : Nat) (fs : List (Nat × Kind)) : Prop :=
  fs.map (·.1) = ownFields m k ∧ ∀ f ∈ fs, d.fieldType f.1 = f.2.sig ∧ d.static f.1 = false

/-- The bytes that fields need. -/
def widths (fs : List (Nat × Kind)) : Nat := (fs.map (·.2.width)).sum

/-- Type row `k` (from zero) declares this class. Its base class is one that is registered, with instances of a known size, or
one that the assembly declares earlier. -/
inductive ClassIs (m : Metadata) (w : World) (d : Decls) : Nat → Class → Prop
  | root {k b s : Nat} {fs : List (Nat × Kind)} {n : Name} {br : TypeRec} : k < m.tables.typeDef.length → primitiveWidth (d.name k) = none →
      NumFields m d k fs → d.base k = some n → ¬ Declared m n → w.types[b]? = some br →
      (∀ (t : Nat) r, w.types[t]? = some r → r.fullName = n → t = b) → ClassSize w b s →
      ClassIs m w d k ⟨fs, s + widths fs⟩
  | derived {k k' : Nat} {fs : List (Nat × Kind)} {cls : Class} : k < m.tables.typeDef.length → primitiveWidth (d.name k) = none →
      NumFields m d k fs → d.base k = some (d.name k') → k' < k → ¬ Registered w (d.name k') →
      (∀ i < m.tables.typeDef.length, d.name i = d.name k' → i = k') → ClassIs m w d k' cls →
      ClassIs m w d k ⟨cls.fields ++ fs, cls.size + widths fs⟩

/-- Row `j` (from one) of the method table declares this procedure. -/
structure ProcIs (m : Metadata) (w : World) (d : Decls) (j : Nat) (p : Proc) : Prop where
  row : ∃ row, 1 ≤ j ∧ m.tables.methodDef[j - 1]? = some row ∧
    p.params = (d.method j).params.length + if row.attributes.isStatic then 0 else 1
  body : bodyOf (d.impl j) = some (p.code, p.locals)
  value : p.returns = true → ∀ n, Resolvable m w (d.method j).returnType n → n ≠ "System.Void".toList
  void : p.returns = false → (d.method j).returnType = .void
  procs : ∀ tok i, p.calls tok = some (.proc i) → tok = 6 * 2 ^ 24 + i ∧ 1 ≤ i ∧ i ≤ m.tables.methodDef.length
  write : ∀ tok, p.calls tok = some .write → (∀ r ∈ m.tables.memberRef, r.parent.table = .typeRef) ∧
    ∃ r row, tok = 10 * 2 ^ 24 + r ∧ 1 ≤ r ∧ r < 2 ^ 24 ∧ m.tables.memberRef[r - 1]? = some row ∧ 1 ≤ row.parent.row ∧
      RowNamed m (.typeRef row.parent.row) "System.Console".toList ∧ m.string row.name = .ok (some "Write".toList)
  news : ∀ tok cls i, p.news tok = some (cls, i) → tok = 6 * 2 ^ 24 + i ∧ 1 ≤ i ∧ cls.size < 2 ^ 64 ∧
    ∃ row k, m.tables.methodDef[i - 1]? = some row ∧ row.attributes.isStatic = false ∧
      Owns (m.tables.typeDef.map (·.methodList)) m.tables.methodDef.length k i ∧ ClassIs m w d k cls
  fields : ∀ tok f, p.fields tok = some f → tok = 4 * 2 ^ 24 + f.1 ∧ 1 ≤ f.1 ∧ f.1 ≤ m.tables.field.length ∧
    f.1 < 2 ^ 24 ∧ d.fieldType f.1 = f.2.sig
  strings : ∀ tok text, p.strings tok = some text → ∃ pre post last,
    m.userStringData = pre ++ encUserString (text.flatMap utf16) last ++ post ∧ tok = 0x70 * 2 ^ 24 + pre.length ∧
      2 * (text.flatMap utf16).length + 1 < 2 ^ 29 ∧ pre.length < 2 ^ 24 ∧ post.length < 2 ^ 62
  ints : ∀ tok, p.ints tok = true → ∃ r, tok = 1 * 2 ^ 24 + r ∧ 1 ≤ r ∧ r < 2 ^ 24 ∧
    RowNamed m (.typeRef r) "System.Int32".toList

/-- The runtime is started and has what such programs use. -/
structure Started (m : Metadata) (w : World) (d : Decls) : Prop where
  primitives : w.primitives ≠ none
  numbers : ∀ κ : Kind, ∃ i, ValueLike w i ∧ ∀ (t : Nat) r, w.types[t]? = some r → r.fullName = κ.typeName → t = i
  own : ∀ κ : Kind, ¬ Declared m κ.typeName
  string : Known m w "System.String".toList
  void : Known m w "System.Void".toList
  write : ∀ (t : Nat) r, w.types[t]? = some r → r.fullName = "System.Console".toList → ∀ x ∈ r.methods,
    x.name = "Write".toList → x.impl = .internal .consoleWrite ∧ x.isStatic = true ∧ x.params.length = 1
  room : w.types.length + m.tables.typeDef.length + sumRun (fun j => brackets (d.fieldType j)) 1 m.tables.field.length +
    sumRun (methodBrackets d) 1 m.tables.methodDef.length + 1 < 2 ^ 32

end Clr.Spec
