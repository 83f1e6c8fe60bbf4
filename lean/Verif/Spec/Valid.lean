import Verif.Lemmas.MethodBody
import Verif.Spec.Partition
import Verif.Spec.Registry
import Verif.Spec.Returned
/-!
# Well-formed assemblies

What the rows of the metadata tables must say for an assembly to be loadable, after the validity rules of ECMA-335 II.22,
II.23.2 and II.25.4. `Decls` is the reading of the tables (names, bases, signatures, bodies); `WellFormed` says that the
tables are encodings of that reading and that everything they mention exists; `FiniteSizes` says that no type contains itself.
-/

namespace Clr.Spec

/-- A type of that full name is registered. -/
def Registered (w : World) (n : Name) : Prop := ∃ (t : Nat) (r : TypeRec), w.types[t]? = some r ∧ r.fullName = n

/-- A row of the type table has that full name. -/
def Declared (m : Metadata) (n : Name) : Prop := ∃ k, RowNamed m (.typeDef k) n

/-- A type of that name is there, or comes with the assembly. -/
def Known (m : Metadata) (w : World) (n : Name) : Prop := Registered w n ∨ Declared m n

/-- Number of array brackets of an element type. -/
def brackets : ElementType → Nat
  | .szArray e => brackets e + 1
  | _ => 0

/-- Number of array brackets in a list of element types. -/
def bracketsAll : List ElementType → Nat
  | [] => 0
  | e :: es => brackets e + bracketsAll es

/-- Element types that stand for reference types (II.23.1.16). -/
def refElem : ElementType → Bool
  | .class _ | .string | .object | .szArray _ => true
  | _ => false

/-- The element type is one of the supported ones (`Denotes`) and denotes a known type or array of a known type. -/
def Resolvable (m : Metadata) (w : World) (e : ElementType) (n : Name) : Prop :=
  ∃ root, Denotes m e root (brackets e) n ∧ Known m w root

/-- How a method is implemented. -/
inductive Impl where
  | native
  | absent
  | tiny (code : Bytes)
  | fat (b : Fat) (pad : Bytes) (locals : List ElementType)

/-- The reading of the tables. Types are numbered from zero, fields and methods are rows counted from one. -/
structure Decls where
  name : Nat → Name
  base : Nat → Option Name
  static : Nat → Bool
  fieldType : Nat → ElementType
  fieldTypeName : Nat → Name
  method : Nat → MethodSig
  impl : Nat → Impl

/-- The blob heap has this blob at that position. -/
def BlobHolds (m : Metadata) (h : Nat) (content : Bytes) : Prop :=
  content.length < 2 ^ 29 ∧ ∃ pre post : Bytes, m.blobHeap = pre ++ encBlob content ++ post ∧ h = pre.length ∧
    post.length < 2 ^ 62

/-- The native methods that exist. -/
inductive Native : (declaring name : Name) → MethodSig → Prop
  | getItem {s : MethodSig} (h1 : s.returnType = .char) (h2 : s.params = [.int]) :
      Native "System.String".toList "get_Item".toList s
  | getLength {s : MethodSig} (h1 : s.returnType = .int) (h2 : s.params = []) :
      Native "System.String".toList "get_Length".toList s
  | write {s : MethodSig} (h1 : s.returnType = .void) (h2 : s.params = [.string]) :
      Native "System.Console".toList "Write".toList s

/-- The types with these full names are named so within namespace `System` (and do not have a name with a dot in it). -/
def ShortNames (m : Metadata) (w : World) : Prop :=
  ∀ p ∈ [("System.Void".toList, "Void".toList), ("System.Int32".toList, "Int32".toList), ("System.Char".toList, "Char".toList)],
    (∀ (t : Nat) (r : TypeRec), w.types[t]? = some r → r.fullName = p.1 → r.name = p.2) ∧
    ∀ row ∈ m.tables.typeDef, ∀ n ns, m.string row.name = .ok (some n) → m.string row.nspace = .ok (some ns) →
      qualified ns n = p.1 → n = p.2

/-- The implementation of a method matches its flags and its place in the file. -/
inductive ImplOk (m : Metadata) (w : World) (row : MethodDefRow) (declaring name : Name) (s : MethodSig) : Impl → Prop
  | native (h1 : row.implAttributes.internalCall = true) (h2 : Native declaring name s) (h3 : ShortNames m w) :
      ImplOk m w row declaring name s .native
  | absent (h1 : row.implAttributes.internalCall = false) (h2 : row.attributes.pinvokeImpl = false)
      (h3 : row.attributes.isAbstract = true) : ImplOk m w row declaring name s .absent
  | tiny {code : Bytes} (h1 : row.implAttributes.internalCall = false) (h2 : row.attributes.pinvokeImpl = false)
      (h3 : row.attributes.isAbstract = false) (h4 : code.length < 64) (h5 : RegionAt m row.rva (tinyBody code)) :
      ImplOk m w row declaring name s (.tiny code)
  | fat {b : Fat} {pad : Bytes} {es : List ElementType} (h1 : row.implAttributes.internalCall = false)
      (h2 : row.attributes.pinvokeImpl = false) (h3 : row.attributes.isAbstract = false) (h4 : b.Fits)
      (h5 : pad.length = b.padLength) (h6 : RegionAt m row.rva (b.enc pad)) (h7 : LocalsOf m b.localToken es)
      (h8 : ∀ e ∈ es, ∃ n, Resolvable m w e n)
      (h9 : ∀ c ∈ b.sections.clauses, c.kind = .typed → ∃ n, RowName m c.extra n ∧ Known m w n) :
      ImplOk m w row declaring name s (.fat b pad es)

/-- A field row. -/
structure FieldOk (m : Metadata) (w : World) (d : Decls) (j : Nat) (row : FieldRow) : Prop where
  name : ∃ n, m.string row.name = .ok (some n)
  blob : BlobHolds m row.signature (encFieldSig (d.fieldType j))
  fits : ElemFits (d.fieldType j)
  type : Resolvable m w (d.fieldType j) (d.fieldTypeName j)
  static : row.attributes.isStatic = d.static j

/-- A method row of the type with name `declaring`. -/
structure MethodOk (m : Metadata) (w : World) (d : Decls) (declaring : Name) (j : Nat) (row : MethodDefRow) : Prop where
  blob : BlobHolds m row.signature (encMethodSig (d.method j))
  fits : MethodSigFits (d.method j)
  ret : ∃ n, Resolvable m w (d.method j).returnType n
  params : ∀ e ∈ (d.method j).params, ∃ n, Resolvable m w e n
  paramRows : ∀ i < (d.method j).params.length, 1 ≤ row.paramList ∧
    ∃ prow n, m.tables.param[row.paramList - 1 + i]? = some prow ∧ m.string prow.name = .ok (some n)
  impl : ∃ n, m.string row.name = .ok (some n) ∧ ImplOk m w row declaring n (d.method j) (d.impl j)

/-- The base column: null, or the name of a known type. -/
inductive BaseOk (m : Metadata) (w : World) (h : TypeDefOrRef) : Option Name → Prop
  | none (hh : h = .typeDef 0) : BaseOk m w h none
  | some {n : Name} (hn : RowNamed m h n) (hk : Known m w n) : BaseOk m w h (some n)

/-- Sum of `f` over the rows `start, start + 1, …`, `n` of them. -/
def sumRun (f : Nat → Nat) (start : Nat) : Nat → Nat
  | 0 => 0
  | n + 1 => sumRun f start n + f (start + n)

/-- The number of rows that type row `i` (from zero) owns: up to where the next type's rows begin. -/
def runLength (starts : List Nat) (rows i : Nat) : Nat :=
  (match starts[i + 1]? with
    | some e => e
    | none => rows + 1) - (match starts[i]? with
    | some s => s
    | none => rows + 1)

/-- At most so many array types are registered for a method. -/
def methodBrackets (d : Decls) (j : Nat) : Nat :=
  2 * (brackets (d.method j).returnType + bracketsAll (d.method j).params) +
    match d.impl j with
    | .fat _ _ es => bracketsAll es
    | _ => 0

/-- The tables of `m` are encodings of the declarations `d`, and everything they mention is registered in `w` or declared
in `m`. `entry` says which indices the entry point may have. -/
structure WellFormed (entry : Nat → Prop) (m : Metadata) (w : World) (d : Decls) : Prop where
  numbers : ∀ n ∈ numberNames, Known m w n
  valueType : Known m w "System.ValueType".toList
  typeNames : ∀ k < m.tables.typeDef.length, RowNamed m (.typeDef (k + 1)) (d.name k)
  bases : ∀ (k : Nat) row, m.tables.typeDef[k]? = some row → BaseOk m w row.baseType.typeDefOrRef (d.base k)
  fieldRuns : Partition (m.tables.typeDef.map (·.fieldList)) m.tables.field.length
  methodRuns : Partition (m.tables.typeDef.map (·.methodList)) m.tables.methodDef.length
  fields : ∀ (j : Nat) row, m.tables.field[j]? = some row → FieldOk m w d (j + 1) row
  methods : ∀ (k j : Nat) row, Owns (m.tables.typeDef.map (·.methodList)) m.tables.methodDef.length k (j + 1) →
    m.tables.methodDef[j]? = some row → MethodOk m w d (d.name k) (j + 1) row
  interfaces : ∀ row ∈ m.tables.interfaceImpl, ∃ n n', RowNamed m (.typeDef row.cls) n ∧
    RowNamed m row.iface.typeDefOrRef n' ∧ Known m w n' ∧ n' ≠ "System.ValueType".toList
  typeRefs : ∀ k < m.tables.typeRef.length, ∃ n, RowNamed m (.typeRef (k + 1)) n ∧ Registered w n
  memberRefs : ∀ row ∈ m.tables.memberRef, row.parent.table = .typeRef → ∃ n t r x, RowNamed m (.typeRef row.parent.row) n ∧
    w.types[t]? = some r ∧ r.fullName = n ∧ (∀ (t' : Nat) r', t < t' → w.types[t']? = some r' → r'.fullName ≠ n) ∧
    x ∈ r.methods ∧ m.string row.name = .ok (some x.name)
  entryPoint : ∀ e, m.entryPoint = some e → entry e ∧ e ≤ m.tables.methodDef.length
  small : m.tables.field.length < 2 ^ 32 ∧ m.tables.methodDef.length < 2 ^ 24
  room : w.types.length + m.tables.typeDef.length + sumRun (fun j => brackets (d.fieldType j)) 1 m.tables.field.length +
    sumRun (methodBrackets d) 1 m.tables.methodDef.length < 2 ^ 32

/-- What an instance field adds to the size of an object: references are pointers, values are stored in place. -/
def fieldWeight (size : Name → Nat) (d : Decls) (j : Nat) : Nat :=
  if d.static j then 0 else if refElem (d.fieldType j) then 8 else 8 + size (d.fieldTypeName j)

def baseWeight (size : Name → Nat) : Option Name → Nat
  | none => 0
  | some b => size b

/-- No type contains itself: `rank` falls from a declared type to its base and to the value types of its instance fields,
`ref` is a set of names of reference types (closed under bases, without `System.ValueType`) with those of all reference
fields, and `size` bounds the sizes. -/
structure FiniteSizes (cfg : Cfg) (m : Metadata) (w : World) (d : Decls) (ref : Name → Prop) (rank size : Name → Nat) : Prop where
  refValue : ¬ ref "System.ValueType".toList
  refArray : ref "System.Array".toList
  refOld : ∀ (t : Nat) r, w.types[t]? = some r → ref r.fullName →
    (∀ b br, r.base = some b → w.types[b]? = some br → ref br.fullName) ∧
    ∀ i ∈ r.interfaces, ∀ ir, w.types[i]? = some ir → ir.fullName ≠ "System.ValueType".toList
  refOwn : ∀ k < m.tables.typeDef.length, ref (d.name k) → ∀ b, d.base k = some b → ref b
  rankBase : ∀ k < m.tables.typeDef.length, ∀ b, d.base k = some b → Declared m b → rank b < rank (d.name k)
  fieldRef : ∀ j, 1 ≤ j → j ≤ m.tables.field.length → d.static j = false → refElem (d.fieldType j) = true →
    ref (d.fieldTypeName j)
  fieldValue : ∀ k j, Owns (m.tables.typeDef.map (·.fieldList)) m.tables.field.length k j → d.static j = false →
    refElem (d.fieldType j) = false → Declared m (d.fieldTypeName j) → d.fieldTypeName j ∉ numberNames →
    rank (d.fieldTypeName j) < rank (d.name k)
  sizeOld : ∀ (t : Nat) r, w.types[t]? = some r → (∃ n, Depth w t n) ∧
    ∃ fuel s, typeSize cfg w fuel t = .ok s ∧ s ≤ size r.fullName
  sizeNumber : ∀ n ∈ numberNames, 8 ≤ size n
  sizeArray : ∀ j, 1 ≤ j → j ≤ m.tables.field.length → 0 < brackets (d.fieldType j) →
    size "System.Array".toList ≤ size (d.fieldTypeName j)
  sizeOwn : ∀ k row, m.tables.typeDef[k]? = some row → d.name k ∉ numberNames →
    baseWeight size (d.base k) + sumRun (fieldWeight size d) row.fieldList
      (runLength (m.tables.typeDef.map (·.fieldList)) m.tables.field.length k) ≤ size (d.name k)
  sizeFits : ∀ k < m.tables.typeDef.length, size (d.name k) < 2 ^ 64
  offsets : ∀ k row, m.tables.typeDef[k]? = some row →
    baseWeight size (d.base k) + sumRun (fun j => size (d.fieldTypeName j)) row.fieldList
      (runLength (m.tables.typeDef.map (·.fieldList)) m.tables.field.length k) < 2 ^ 64

end Clr.Spec
