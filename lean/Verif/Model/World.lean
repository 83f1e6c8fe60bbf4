import Verif.Model.Metadata
/-!
# The runtime's registry: `clr_lite/src/vm/mod.rs` and the records of `clr_lite/src/vm/reflection/*.rs`

Every `Type` is an `Rc<TypeInternal>` that is pushed on `ClrInternal::types` by the function that creates it, and that
vector only grows; a type reference is therefore modelled by the position of the type in the vector. Fields, methods,
parameters and method bodies are immutable once created and are modelled by value; their references to types are
positions. `RefCell` borrow conflicts do not occur in the modelled functions (no borrow of a cell is held across a call that
borrows the same cell, `Model/Borrow`) and are not modelled here. Recursive functions over the type graph take fuel; `timeout` stands
for unbounded recursion.
-/

namespace Clr

/-- Names are Rust `String`s, modelled by their characters. -/
abbrev Name := List Char

/-- `enum TypeKind` (type.rs:509-515). -/
inductive TypeKind where
  | cls | iface | struct | enum | array
deriving DecidableEq, Repr

/-- `enum ExceptionClauseType` (method_body.rs:350-355). -/
inductive ClauseType where
  | catches | filters | finallys | faults
deriving DecidableEq, Repr

/-- `struct ExceptionClause` (method_body.rs:269-277). -/
structure ExceptionClause where
  clauseType : ClauseType
  tryOffset : Nat
  tryLength : Nat
  handlerOffset : Nat
  handlerLength : Nat
  catchType : Option Nat
  filterOffset : Option Nat
deriving DecidableEq, Repr

/-- `struct MethodBody` (method_body.rs:13-19). -/
structure MethodBody where
  code : Bytes
  maxStack : Nat
  locals : List Nat
  initLocals : Bool
  clauses : List ExceptionClause
deriving DecidableEq, Repr

/-- The three native functions registered in `internal_method/*.rs`. -/
inductive InternalMethod where
  | stringGetItem | stringGetLength | consoleWrite
deriving DecidableEq, Repr

/-- `enum MethodImplementation` (method.rs:214-224); `PInvoke` is never constructed. -/
inductive MethodImpl where
  | none
  | il (body : MethodBody)
  | internal (m : InternalMethod)
deriving DecidableEq, Repr

/-- `struct ParameterInternal` (parameter.rs:34-41). -/
structure ParamRec where
  name : Name
  index : Nat
  paramType : Nat
deriving DecidableEq, Repr

/-- `struct MethodInternal` (method.rs:199-210). -/
structure MethodRec where
  name : Name
  declaringType : Nat
  returnType : Nat
  params : List ParamRec
  impl : MethodImpl
  isStatic : Bool
  isVirtual : Bool
  isAbstract : Bool
deriving DecidableEq, Repr

/-- `struct FieldInternal` (field.rs:70-78). -/
structure FieldRec where
  name : Name
  fieldType : Nat
  declaringType : Nat
  isStatic : Bool
  offset : Nat
deriving DecidableEq, Repr

/-- `struct TypeInternal` (type.rs:530-546). `field_map` and `method_map` are determined by `fields` and `methods` (they
are filled together, type.rs:158-159, 192-193): see `TypeRec.getField`, `TypeRec.getMethod`. `assembly` is the weak
reference to the assembly, modelled by the assembly's unique number. -/
structure TypeRec where
  id : Nat
  name : Name
  nspace : Name
  fullName : Name
  assembly : Nat
  isAbstract : Bool
  kind : Option TypeKind := none
  base : Option Nat := none
  fields : List FieldRec := []
  methods : List MethodRec := []
  interfaces : List Nat := []
deriving DecidableEq, Repr

/-- `Type::get_field` (type.rs:347-349): later inserts into `field_map` replace earlier ones. -/
def TypeRec.getField (t : TypeRec) (n : Name) : Option FieldRec := t.fields.reverse.find? (·.name = n)

/-- `Type::get_method` (type.rs:368-370): later inserts into `method_map` replace earlier ones. -/
def TypeRec.getMethod (t : TypeRec) (n : Name) : Option MethodRec := t.methods.reverse.find? (·.name = n)

/-- `struct AssemblyInternal` (assembly.rs:256-269); `id` is the assembly's identity (its `Rc`). -/
structure AssemblyRec where
  id : Nat
  name : Name
  types : List Nat
  entryPoint : Option MethodRec
  userStringData : Bytes
  methodDefs : List MethodRec
  methodRefs : List MethodRec
  fields : List FieldRec
  typeRefs : List Nat
deriving DecidableEq, Repr

/-- `struct PrimitiveTypes` (vm/mod.rs:229-242). -/
structure Primitives where
  sbyte : Nat
  byte : Nat
  short : Nat
  ushort : Nat
  int : Nat
  uint : Nat
  long : Nat
  ulong : Nat
  float : Nat
  double : Nat
  object : Nat
deriving DecidableEq, Repr

/-- `struct ClrInternal` (vm/mod.rs:216-227). `type_map` is an association list, newest entry first.
`nextAssembly` numbers assemblies (identity of `Rc`s); it has no counterpart in the code. The load paths are the
file-system argument of the loader, the native method table is `internalMethods`. -/
structure World where
  types : List TypeRec := []
  typeMap : List (Name × Nat) := []
  nextTypeId : Nat := 0
  assemblies : List AssemblyRec := []
  nextAssembly : Nat := 0
  primitives : Option Primitives := none
  output : List Char := []
deriving DecidableEq, Repr

/-- Code that can fail and changes the registry: the registry survives errors and panics. -/
def M (α : Type) := World → Res α × World

namespace M

def pure' {α : Type} (a : α) : M α := fun w => (.ok a, w)

def bind' {α β : Type} (x : M α) (f : α → M β) : M β := fun w =>
  match x w with
  | (.ok a, w') => f a w'
  | (.err m, w') => (.err m, w')
  | (.panic, w') => (.panic, w')
  | (.ub, w') => (.ub, w')
  | (.timeout, w') => (.timeout, w')

instance : Monad M where
  pure := pure'
  bind := bind'

/-- Code that does not touch the registry. -/
def lift {α : Type} (x : Res α) : M α := fun w => (x, w)

/-- Code that only reads the registry. -/
def view {α : Type} (f : World → Res α) : M α := fun w => (f w, w)

/-- An update of the registry. -/
def modify (f : World → World) : M Unit := fun w => (.ok (), f w)

/-- `Result::map_err`. -/
def mapErr {α : Type} (g : String → String) (x : M α) : M α := fun w => ((x w).1.mapErr g, (x w).2)

end M

instance : MonadLift Res M where
  monadLift := M.lift

/-- `ClrLite::get_type` (vm/mod.rs:126-128). -/
def World.getType (w : World) (n : Name) : Option Nat := w.typeMap.lookup n

/-- Access to the record behind a type reference. -/
def World.typeAt (w : World) (t : Nat) : Res TypeRec := Res.unwrap w.types[t]?

/-- `ClrInternal::add_type` (vm/mod.rs:285-288). -/
def World.addType (w : World) (t : TypeRec) : World :=
  { w with types := w.types ++ [t], typeMap := (t.fullName, w.types.length) :: w.typeMap }

/-- Update of the record behind a type reference (the `RefCell` fields of `TypeInternal`). -/
def World.updType (w : World) (t : Nat) (f : TypeRec → TypeRec) : World := { w with types := w.types.modify t f }

/-- `ClrLite::next_type_id` (vm/mod.rs:168-173): a `u32` counter. -/
def nextTypeId (cfg : Cfg) : M Nat := do
  let id ← M.view fun w => .ok w.nextTypeId
  let n ← uadd cfg 32 id 1
  M.modify fun w => { w with nextTypeId := n }
  pure id

/-- The full-name rule, repeated at type.rs:26-30, 221-225, method_body.rs:327-331, assembly.rs:47-51, 80-84, 124-128,
155-159. -/
def fullName (nspace name : Name) : Name := if nspace = [] then name else nspace ++ '.' :: name

/-- `Type::get_or_create_array_type` (type.rs:274-302). -/
def arrayType (cfg : Cfg) (element : Nat) : M Nat := do
  let e ← M.view (·.typeAt element)
  let full := e.fullName ++ "[]".toList
  match ← M.view fun w => .ok (w.getType full) with
  | some t => pure t
  | none => do
    let id ← nextTypeId cfg
    let base ← M.view fun w => .ok (w.getType "System.Array".toList)
    let t ← M.view fun w => .ok w.types.length
    M.modify (·.addType { id, name := e.name ++ "[]".toList, nspace := e.nspace, fullName := full,
                          assembly := e.assembly, isAbstract := false, kind := some .array, base })
    pure t

/-- `Type::instance_of` (type.rs:386-396) with `PartialEq for Type` (type.rs:452-456). -/
def instanceOf (w : World) (other : Nat) : Nat → Nat → Res Bool
  | 0, _ => .timeout
  | fuel + 1, t => do
    let tr ← w.typeAt t
    let o ← w.typeAt other
    if tr.fullName = o.fullName then pure true
    else match tr.base with
      | some b => instanceOf w other fuel b
      | none => do
        let is ← tr.interfaces.mapM w.typeAt
        pure (is.any (·.fullName = o.fullName))

/-- `Type::is_reference_type` (type.rs:398-401). -/
def isReferenceType (w : World) (fuel t : Nat) : Res Bool := do
  let v ← Res.unwrap (w.getType "System.ValueType".toList)
  let b ← instanceOf w v fuel t
  pure (!b)

/-- The names and sizes of the `if` chain of `Type::size` (type.rs:406-429). -/
def primitiveSizes : List (Name × Nat) :=
  [("System.Boolean".toList, 1), ("System.Char".toList, 2), ("System.SByte".toList, 1), ("System.Byte".toList, 1),
   ("System.Int16".toList, 2), ("System.UInt16".toList, 2), ("System.Int32".toList, 4), ("System.UInt32".toList, 4),
   ("System.Int64".toList, 8), ("System.UInt64".toList, 8), ("System.Single".toList, 4), ("System.Double".toList, 8)]

/-- The `if` chain itself: each step looks its type up and compares full names. -/
def primitiveSize (w : World) (full : Name) : List (Name × Nat) → Res (Option Nat)
  | [] => .ok none
  | (n, s) :: rest => do
    let t ← Res.unwrap (w.getType n)
    let tr ← w.typeAt t
    if full = tr.fullName then pure (some s) else primitiveSize w full rest

/-- The `fold` over the instance fields (type.rs:431-442); `size` is the recursive call. -/
def fieldsSize (cfg : Cfg) (isRef : Nat → Res Bool) (size : Nat → Res Nat) : List FieldRec → Nat → Res Nat
  | [], a => .ok a
  | f :: fs, a => do
    let s ← (do if (← isRef f.fieldType) then pure 8 else size f.fieldType)
    let a ← uadd cfg 64 a s
    fieldsSize cfg isRef size fs a

/-- `Type::size` (type.rs:404-449). -/
def typeSize (cfg : Cfg) (w : World) : Nat → Nat → Res Nat
  | 0, _ => .timeout
  | fuel + 1, t => do
    let tr ← w.typeAt t
    match ← primitiveSize w tr.fullName primitiveSizes with
    | some s => pure s
    | none => do
      let size ← fieldsSize cfg (isReferenceType w fuel) (typeSize cfg w fuel) (tr.fields.filter (!·.isStatic)) 0
      match tr.base with
      | some b => do
        let s ← typeSize cfg w fuel b
        uadd cfg 64 size s
      | none => pure size

/-- `Type::all_fields` (type.rs:339-345). -/
def allFields (w : World) : Nat → Nat → Res (List FieldRec)
  | 0, _ => .timeout
  | fuel + 1, t => do
    let tr ← w.typeAt t
    match tr.base with
    | some b => do
      let fs ← allFields w fuel b
      pure (tr.fields ++ fs)
    | none => pure tr.fields

/-- The loop over the interfaces in `Type::all_methods` (type.rs:362-364); `rec` is the recursive call. -/
def concatMethods (rec : Nat → Res (List MethodRec)) : List Nat → Res (List MethodRec)
  | [] => .ok []
  | i :: is => do
    let ms ← rec i
    let rest ← concatMethods rec is
    pure (ms ++ rest)

/-- `Type::all_methods` (type.rs:357-366). -/
def allMethods (w : World) : Nat → Nat → Res (List MethodRec)
  | 0, _ => .timeout
  | fuel + 1, t => do
    let tr ← w.typeAt t
    let inherited ← (match tr.base with
      | some b => allMethods w fuel b
      | none => pure [])
    let fromInterfaces ← concatMethods (allMethods w fuel) tr.interfaces
    pure (tr.methods ++ inherited ++ fromInterfaces)

end Clr
