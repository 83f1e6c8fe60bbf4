import Verif.Model.Interp
/-! # A small registry for examples -/

namespace Clr.Ex

/-- The types of the small registry: `P` is the program's class, number 1. -/
def tinyTypes : List (String × String) :=
  [("System", "Void"), ("", "P"), ("System", "Boolean"), ("System", "Char"), ("System", "SByte"), ("System", "Byte"),
   ("System", "Int16"), ("System", "UInt16"), ("System", "Int32"), ("System", "UInt32"), ("System", "Int64"),
   ("System", "UInt64"), ("System", "Single"), ("System", "Double"), ("System", "ValueType"), ("System", "Object"),
   ("System", "String"), ("System", "Array")]

def tinyType (i : Nat) (n : String × String) : TypeRec :=
  { id := i, name := n.2.toList, nspace := n.1.toList, fullName := fullName n.1.toList n.2.toList, assembly := 0,
    isAbstract := false, kind := some .cls }

/-- A registry with one assembly, whose class `P` has the given methods and fields. -/
def tiny (methods : List MethodRec) (fields : List FieldRec := []) (strings : Bytes := []) : World :=
  { types := (tinyTypes.mapIdx tinyType).modify 1 fun t => { t with methods, fields, base := some 15 }
    typeMap := (tinyTypes.mapIdx fun i n => (fullName n.1.toList n.2.toList, i)).reverse
    nextTypeId := 18
    assemblies := [{ id := 0, name := "A".toList, types := [1], entryPoint := none, userStringData := strings,
                     methodDefs := methods, methodRefs := [], fields, typeRefs := [8, 15] }]
    nextAssembly := 1
    primitives := some ⟨4, 5, 6, 7, 8, 9, 10, 11, 12, 13, 15⟩ }

/-- A method of `P` with a body; type 0 is `void`, 8 is `int`. -/
def meth (code : Bytes) (ret : Nat := 0) (params : Nat := 0) (locals : Nat := 0) (isStatic : Bool := true) : MethodRec :=
  { name := "M".toList, declaringType := 1, returnType := ret,
    params := (List.range params).map fun i => ⟨"p".toList, i, 8⟩,
    impl := .il { code, maxStack := 8, locals := List.replicate locals 8, initLocals := true, clauses := [] },
    isStatic, isVirtual := false, isAbstract := false }

end Clr.Ex
