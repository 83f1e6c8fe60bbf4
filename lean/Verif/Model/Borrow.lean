/-!
# Borrow discipline

The runtime keeps its mutable state in `RefCell`s.  A `RefCell` is checked at run time: `borrow()`
panics while an exclusive guard is alive, `borrow_mut()` panics while any guard is alive
(`std::cell::RefCell`).  This file models, function by function, which cells each function of
`/repo/clr_lite/src/vm` borrows, in which mode, and which guards are alive while it calls others.

The data inside the cells is abstracted: every value read from a cell, from the file being loaded or
from the running program is arbitrary (`any`), every loop may run any number of times (`rep`), and
every place where the Rust code may return an error or panic for another reason is `mayLeave`.  So
each definition describes a superset of the possible executions of the code it cites; what is kept
exactly is the order of borrows, their modes and the extent of the guards.
Types, assemblies and methods are named by numbers in order of creation.
-/

namespace Clr.Borrow

/-- The `RefCell`s of the runtime: `ClrLite.0` (vm/mod.rs:22); `Interpreter.gc`
(vm/interpreter/mod.rs:19); the name cache of the strings of one file (metadata/strings_heap.rs:6);
the cells of `TypeInternal` (vm/reflection/type.rs:537-545); of `AssemblyInternal`
(vm/reflection/assembly.rs:260-267); of `MethodInternal` (vm/reflection/method.rs:205). -/
inductive Cell
  | clr
  | heap
  | strings (file : Nat)
  | kind (t : Nat)
  | base (t : Nat)
  | fields (t : Nat)
  | fieldMap (t : Nat)
  | methods (t : Nat)
  | methodMap (t : Nat)
  | interfaces (t : Nat)
  | asmTypes (a : Nat)
  | entryPoint (a : Nat)
  | methodDefs (a : Nat)
  | asmFields (a : Nat)
  | params (m : Nat)
  deriving DecidableEq, Repr

/-- A live guard: `Ref` (shared) or `RefMut` (exclusive) of a cell. -/
structure Guard where
  cell : Cell
  exclusive : Bool
  deriving DecidableEq, Repr

/-- The guards alive at some moment. -/
abbrev Held := List Guard

/-- How a piece of code can end: with a value; by an error return, or a panic not caused by a
borrow; or by the panic of a refused borrow. -/
inductive Out (α : Type) where
  | value (a : α)
  | left
  | clash

/-- Code, seen through its borrows: the outcomes it can have when the given guards are alive.
Guards are scoped (dropped at the end of the block, also on an early exit), so code does not change
the guards of its caller. -/
def B (α : Type) : Type := Held → Out α → Prop

namespace B
variable {α β : Type}

def ret (a : α) : B α := fun _ o => o = .value a

def andThen (x : B α) (f : α → B β) : B β := fun h o =>
  (∃ a, x h (.value a) ∧ f a h o) ∨ (x h .left ∧ o = .left) ∨ (x h .clash ∧ o = .clash)

instance : Monad B where
  pure := ret
  bind := andThen

/-- An arbitrary value. -/
def any : B α := fun _ o => ∃ a, o = .value a

/-- An arbitrary choice. -/
def coin : B Bool := any

/-- An error return or a panic for another reason. -/
def leave : B α := fun _ o => o = .left

/-- Code that may return an error or panic for another reason at this point. -/
def mayLeave : B Unit := fun _ o => o = .value () ∨ o = .left

/-- `cell.borrow()` with the guard alive during `body`. -/
def shared (c : Cell) (body : B α) : B α := fun h o =>
  if ⟨c, true⟩ ∈ h then o = .clash else body (⟨c, false⟩ :: h) o

/-- `cell.borrow_mut()` with the guard alive during `body`. -/
def exclusive (c : Cell) (body : B α) : B α := fun h o =>
  if ⟨c, true⟩ ∈ h ∨ ⟨c, false⟩ ∈ h then o = .clash else body (⟨c, true⟩ :: h) o

/-- `n` runs of a loop body. -/
def times : Nat → B Unit → B Unit
  | 0, _ => pure ()
  | n + 1, x => do x; times n x

/-- A loop with any number of runs. -/
def rep (x : B Unit) : B Unit := do
  let n : Nat ← any
  times n x

end B

open B

/-- What exists when a call begins: this many types, assemblies, methods and files. -/
structure Seen where
  types : Nat
  assemblies : Nat
  methods : Nat
  files : Nat

/-- An object created by the running call: a number not in use when the call began. -/
def new (count : Nat) : B Nat := do
  let k : Nat ← any
  pure (count + k)

/-! ## The registry -/

/-- `ClrLite::get_type` (vm/mod.rs:126-128): the guard is a temporary. -/
def getType? : B (Option Nat) := shared .clr any

/-- `get_type(..).unwrap()` and `get_type(..).ok_or_else(..)?`. -/
def getType : B Nat := do
  match ← getType? with
  | some t => pure t
  | none => leave

/-- `ClrLite::next_type_id` (vm/mod.rs:168-173). -/
def nextTypeId : B Unit := exclusive .clr mayLeave

/-- `clr.0.borrow_mut().add_type(t)` (vm/mod.rs:285-288; vm/reflection/type.rs:50, 299). -/
def addType : B Unit := exclusive .clr (pure ())

/-- `ClrLite::get_internal_method` (vm/mod.rs:183-185). -/
def getInternalMethod : B Unit := do
  shared .clr (pure ())
  mayLeave

/-- `HasManagedType::managed_type` (vm/reflection/type.rs:548-618): `clr.internal().primitives()`,
which panics before the primitive types are known. -/
def managedType : B Unit := shared .clr mayLeave

/-- `StringsHeap::get` (metadata/strings_heap.rs:20-35): the cache is borrowed exclusively while the
string is decoded; nothing else is called meanwhile.  `None` is left to `mayLeave`. -/
def getString (file : Nat) : B Unit := exclusive (.strings file) mayLeave

/-! ## Reflection -/

/-- `Type::base` (vm/reflection/type.rs:324-326). -/
def base (t : Nat) : B (Option Nat) := shared (.base t) any

/-- `Type::instance_of` (vm/reflection/type.rs:386-396); the fuel bounds the recursion. -/
def instanceOf : Nat → Nat → B Bool
  | 0, _ => leave
  | fuel + 1, t => do
    if ← coin then pure true
    else match ← base t with
      | some b => instanceOf fuel b
      | none => shared (.interfaces t) any

/-- `Type::is_reference_type` (vm/reflection/type.rs:398-401). -/
def isReferenceType (fuel t : Nat) : B Bool := do
  mayLeave
  let _ ← getType
  instanceOf fuel t

/-- `Type::size` (vm/reflection/type.rs:404-449): up to twelve look-ups by name, then the fields are
summed up while the guard on the field list is alive; the recursion into the types of the fields and
the base type is bounded by the fuel. -/
def size : Nat → Nat → B Unit
  | 0, _ => leave
  | fuel + 1, t => do
    mayLeave
    rep (do let _ ← getType)
    if ← coin then pure ()
    else
      shared (.fields t) (rep (do
        mayLeave
        let ft : Nat ← any
        if ← isReferenceType fuel ft then mayLeave
        else do
          size fuel ft
          mayLeave))
      match ← base t with
      | some b => do
        size fuel b
        mayLeave
      | none => pure ()

/-- `Type::all_fields` (vm/reflection/type.rs:339-345). -/
def allFields : Nat → Nat → B Unit
  | 0, _ => leave
  | fuel + 1, t => do
    shared (.fields t) (pure ())
    match ← base t with
    | some b => allFields fuel b
    | none => pure ()

/-- `Type::all_methods` (vm/reflection/type.rs:357-366): the guard on the interface list is alive
while the methods of the interfaces are collected. -/
def allMethods : Nat → Nat → B Unit
  | 0, _ => leave
  | fuel + 1, t => do
    shared (.methods t) (pure ())
    match ← base t with
    | some b => allMethods fuel b
    | none => pure ()
    shared (.interfaces t) (rep (do
      let i : Nat ← any
      allMethods fuel i))

/-- `Type::get_or_create_array_type` (vm/reflection/type.rs:274-302), which is also
`Type::array_of` (304-306). -/
def arrayType (s : Seen) : B Nat := do
  mayLeave
  match ← getType? with
  | some t => pure t
  | none => do
    let t ← new s.types
    nextTypeId
    let _ ← getType?
    addType
    pure t

/-- `Assembly::resolve_method` (vm/reflection/assembly.rs:204-212): only a method of the assembly
itself is looked up in a cell. -/
def resolveMethod (a : Nat) : B Unit := do
  if ← coin then shared (.methodDefs a) mayLeave else mayLeave

/-- `Assembly::resolve_field` (vm/reflection/assembly.rs:214-220). -/
def resolveField (a : Nat) : B Unit := do
  if ← coin then shared (.asmFields a) mayLeave else mayLeave

/-- `Assembly::resolve_type` (vm/reflection/assembly.rs:222-230). -/
def resolveType (a : Nat) : B Unit := do
  if ← coin then shared (.asmTypes a) mayLeave else mayLeave

/-- `fmt::Display for Method` (vm/reflection/method.rs:186-196): the guard on the parameter list is
alive while the parameters are written; names and types of parameters are in no cell. -/
def showMethod (m : Nat) : B Unit := do
  mayLeave
  shared (.params m) (rep mayLeave)

/-! ## Loading -/

/-- `Type::type_def_or_ref_name` (vm/reflection/type.rs:199-226). -/
def typeDefOrRefName (file : Nat) : B Unit := do
  mayLeave
  getString file
  getString file

/-- `Type::get_type_for_element_type` (vm/reflection/type.rs:228-272); the fuel bounds the nesting
of the signature. -/
def typeFor (s : Seen) (file : Nat) : Nat → B Nat
  | 0 => leave
  | fuel + 1 => do
    mayLeave
    match ← (any : B (Fin 3)) with
    | 0 => getType
    | 1 => do
      typeDefOrRefName file
      getType
    | 2 => do
      let _ ← typeFor s file fuel
      arrayType s

/-- `Field::load` (vm/reflection/field.rs:13-40). -/
def loadField (s : Seen) (file fuel : Nat) : B Unit := do
  mayLeave
  getString file
  mayLeave
  let _ ← typeFor s file fuel

/-- `ExceptionClause::new` (vm/reflection/method_body.rs:287-346). -/
def loadClause (file : Nat) : B Unit := do
  mayLeave
  if ← coin then
    getString file
    getString file
    let _ ← getType
  else pure ()

/-- `MethodBody::load` (vm/reflection/method_body.rs:22-245). -/
def loadBody (s : Seen) (file fuel : Nat) : B Unit := do
  mayLeave
  rep (do
    mayLeave
    let _ ← typeFor s file fuel)
  mayLeave
  rep (do
    mayLeave
    loadClause file)

/-- `Method::load` (vm/reflection/method.rs:13-109): the parameter list of the new method is borrowed
exclusively while the parameters are read. -/
def loadMethod (s : Seen) (file fuel : Nat) : B Unit := do
  mayLeave
  getString file
  mayLeave
  match ← (any : B (Fin 3)) with
  | 0 => do
    rep (do let _ ← typeFor s file fuel)
    let _ ← typeFor s file fuel
    getInternalMethod
  | 1 => loadBody s file fuel
  | 2 => mayLeave
  let _ ← typeFor s file fuel
  let m ← new s.methods
  exclusive (.params m) (rep (do
    mayLeave
    getString file
    let _ ← typeFor s file fuel))

/-- `Type::load` (vm/reflection/type.rs:15-53). -/
def loadType (s : Seen) (file : Nat) : B Nat := do
  mayLeave
  getString file
  getString file
  let t ← new s.types
  nextTypeId
  addType
  pure t

/-- `Type::resolve_base` (vm/reflection/type.rs:71-92). -/
def resolveBase (file t : Nat) : B Unit := do
  mayLeave
  if ← coin then pure ()
  else
    typeDefOrRefName file
    let _ ← getType
    exclusive (.base t) (pure ())

/-- `Type::resolve_kind` (vm/reflection/type.rs:94-118). -/
def resolveKind (t : Nat) : B Unit := do
  mayLeave
  if ← coin then pure ()
  else
    match ← base t with
    | none => pure ()
    | some _ => do
      let _ ← base t
      mayLeave
  exclusive (.kind t) (pure ())

/-- `Type::resolve_fields` (vm/reflection/type.rs:120-167): the field list and field map of the type
and the field list of the assembly are borrowed exclusively while a field is loaded; the size of its
type is computed after they are released. -/
def resolveFields (s : Seen) (file fuel a t : Nat) : B Unit := do
  mayLeave
  exclusive (.fields t) (pure ())
  mayLeave
  match ← base t with
  | some b => size fuel b
  | none => pure ()
  mayLeave
  rep (do
    exclusive (.fields t) (exclusive (.fieldMap t) (exclusive (.asmFields a) (loadField s file fuel)))
    mayLeave
    let ft : Nat ← any
    size fuel ft
    mayLeave)

/-- `Type::resolve_methods` (vm/reflection/type.rs:169-197): the method list and method map of the
type are borrowed exclusively while all its methods are loaded. -/
def resolveMethods (s : Seen) (file fuel t : Nat) : B Unit :=
  exclusive (.methods t) (exclusive (.methodMap t) (do
    mayLeave
    rep (loadMethod s file fuel)))

/-- `Type::resolve` (vm/reflection/type.rs:57-69). -/
def resolveType' (s : Seen) (file fuel a t : Nat) : B Unit := do
  resolveBase file t
  resolveKind t
  resolveFields s file fuel a t
  resolveMethods s file fuel t

/-- `Assembly::load` (vm/reflection/assembly.rs:13-188) with, for the references, `ClrLite::load_assembly`
(vm/mod.rs:60-76): the guard on the runtime is released before the file found is loaded, and the
condition `clr.assemblies().iter().any(..)` releases its guard before the branch is taken.  The fuel
bounds the nesting of references and the recursions below.  The type that receives an interface is
looked up by the name of a type of this file; all types of this file have just been registered, so it
is a new one (`Lemmas/Kept.lean`, `loadInterfaces_spares`). -/
def loadAssembly (s : Seen) : Nat → B Nat
  | 0 => leave
  | fuel + 1 => do
    mayLeave
    let file ← new s.files
    getString file
    rep (do
      getString file
      if ← shared .clr coin then pure ()
      else
        shared .clr mayLeave
        mayLeave
        let _ ← loadAssembly s fuel)
    rep (do
      mayLeave
      if ← coin then
        getString file
        getString file
        let t ← getType
        getString file
        shared (.methodMap t) mayLeave
      else pure ())
    rep (do
      mayLeave
      getString file
      getString file
      let _ ← getType)
    let a ← new s.assemblies
    rep (do let _ ← loadType s file)
    rep (do
      let t ← new s.types
      resolveType' s file fuel a t)
    rep (do
      mayLeave
      getString file
      getString file
      let _ ← getType
      let t ← new s.types
      getString file
      getString file
      let _ ← getType
      exclusive (.interfaces t) (pure ()))
    exclusive (.asmTypes a) (pure ())
    shared (.asmTypes a) (rep (do
      let t ← new s.types
      shared (.methods t) (pure ())))
    exclusive (.methodDefs a) (pure ())
    if ← coin then
      resolveMethod a
      exclusive (.entryPoint a) (pure ())
    else pure ()
    exclusive .clr (pure ())
    pure a

/-- `ClrLite::load_assembly` (vm/mod.rs:60-76), called by the host. -/
def loadByName (s : Seen) (fuel : Nat) : B Unit := do
  shared .clr mayLeave
  mayLeave
  let _ ← loadAssembly s fuel

/-- `ClrLite::new_runtime` (vm/mod.rs:42-46, 78-124). -/
def newRuntime (s : Seen) (fuel : Nat) : B Unit := do
  mayLeave
  let _ ← loadAssembly s fuel
  let _ ← loadAssembly s fuel
  times 11 (do let _ ← getType)
  exclusive .clr (pure ())

/-! ## Objects -/

/-- `Object::type_of` and `Array::type_of` (vm/gc/object.rs:52-54, vm/gc/array.rs:39-41). -/
def typeOf : B Nat := shared .clr (do mayLeave; any)

/-- `Array::as_slice`, `Array::as_mut_slice` (vm/gc/array.rs:134-146, 157-187). -/
def asSlice : B Unit := managedType

/-- `Array::set` (vm/gc/array.rs:51-132): the guard on the runtime is alive while the element type is
compared, which borrows the runtime again. -/
def arraySet : B Unit := do
  mayLeave
  shared .clr (do
    mayLeave
    asSlice)

/-- `RawObject::get` (vm/gc/raw_object.rs:33-62), through `Object::get` (vm/gc/object.rs:84-86). -/
def objectGet : B Unit := do
  mayLeave
  shared .clr mayLeave

/-- `Object::raw_data` (vm/gc/object.rs:40-50): the guard of `clr.types()` is alive while the size of
the element type is computed. -/
def rawData (fuel : Nat) : B Unit := do
  match ← (any : B (Fin 3)) with
  | 0 => shared .clr (do
      mayLeave
      let t : Nat ← any
      size fuel t)
  | 1 => mayLeave
  | 2 => do
    let t ← typeOf
    size fuel t

/-- `GcHeap::alloc` (vm/gc/mod.rs:43-58), called with the guard of the heap alive. -/
def alloc (fuel t : Nat) : B Unit := do
  size fuel t
  mayLeave

/-- `GcHeap::alloc_array` (vm/gc/mod.rs:60-77), called with the guard of the heap alive. -/
def allocArray (s : Seen) (fuel t : Nat) : B Unit := do
  size fuel t
  mayLeave
  let _ ← arrayType s

/-- `GcHeap::alloc_string` (vm/gc/mod.rs:79-97), called with the guard of the heap alive. -/
def allocString : B Unit := do
  mayLeave
  let _ ← getType

/-! ## Execution -/

/-- The instructions, by what they borrow (vm/interpreter/stack_frame.rs:53-435). -/
inductive Op
  /-- Constants, locals, arguments, stack, arithmetic, branches, comparisons. -/
  | plain
  | ret | call | newobj | stfld | ldfld | newarr | element | ldstr

/-- `System.Console.Write` (vm/internal_method/System_Console.rs:6-14); the other native methods
panic (vm/internal_method/System_String.rs:6-12). -/
def native : B Unit := do
  mayLeave
  exclusive .clr (pure ())

/-- The body of `StackFrame::execute` (vm/interpreter/stack_frame.rs:38-436) for one instruction of
a method of assembly `a`; `invoke` is `Interpreter::execute` for a called method
(`method_call`, 438-470). -/
def step (s : Seen) (fuel a : Nat) (invoke : B Unit) : Op → B Unit
  | .plain => mayLeave
  | .ret => do let _ ← getType?
  | .call => do
    resolveMethod a
    let m : Nat ← any
    shared (.params m) (pure ())
    mayLeave
    invoke
  | .newobj => do
    mayLeave
    resolveMethod a
    let t : Nat ← any
    exclusive .heap (alloc fuel t)
    let m : Nat ← any
    shared (.params m) (pure ())
    mayLeave
    resolveMethod a
    shared (.params m) (pure ())
    mayLeave
    invoke
  | .stfld => do
    resolveField a
    mayLeave
  | .ldfld => do
    resolveField a
    mayLeave
    objectGet
  | .newarr => do
    resolveType a
    mayLeave
    let t : Nat ← any
    exclusive .heap (allocArray s fuel t)
  | .element => do
    mayLeave
    asSlice
    if ← coin then
      let _ ← typeOf
      let _ ← getType
    else mayLeave
  | .ldstr => do
    mayLeave
    exclusive .heap allocString

/-- `Interpreter::execute` (vm/interpreter/mod.rs:37-43) and `StackFrame::execute`: any number of
instructions (the loop may also end without a `ret`); the fuel bounds the nesting of calls. -/
def invoke (s : Seen) : Nat → B Unit
  | 0 => leave
  | fuel + 1 => do
    match ← (any : B (Fin 3)) with
    | 0 => do
      mayLeave
      let a : Nat ← any
      rep (do
        let op : Op ← any
        step s fuel a (invoke s fuel) op)
    | 1 => native
    | 2 => do
      let m : Nat ← any
      showMethod m
      leave

/-- `ClrLite::execute` (vm/mod.rs:130-166). -/
def execute (s : Seen) (fuel : Nat) : B Unit := do
  mayLeave
  invoke s fuel
  if ← coin then rawData fuel else pure ()

/-! ## The public functions -/

/-- The public functions of the runtime, its assemblies, types, methods, fields and objects that
borrow a cell.  (The others, such as `Type::full_name`, read immutable fields only.) -/
inductive Call
  | assemblies | types | loadAssembly | loadAssemblyFromData | getType | execute | output
  | assemblyTypes (a : Nat) | entryPoint (a : Nat)
  | resolveMethod (a : Nat) | resolveField (a : Nat) | resolveType (a : Nat)
  | arrayOf | base (t : Nat) | fields (t : Nat) | allFields (t : Nat) | getField (t : Nat)
  | methods (t : Nat) | allMethods (t : Nat) | getMethod (t : Nat) | interfaces (t : Nat)
  | kind (t : Nat) | instanceOf (t : Nat) | isReferenceType (t : Nat) | size (t : Nat)
  | parameters (m : Nat) | showMethod (m : Nat)
  | managedType | typeOf | arraySet | asSlice | objectGet

/-- The borrows of a call. -/
def Call.run (s : Seen) (fuel : Nat) : Call → B Unit
  | .assemblies => shared .clr (pure ())               -- vm/mod.rs:48-52
  | .types => shared .clr (pure ())                    -- vm/mod.rs:54-58
  | .loadAssembly => loadByName s fuel
  | .loadAssemblyFromData => do let _ ← Borrow.loadAssembly s fuel
  | .getType => do let _ ← getType?
  | .execute => Borrow.execute s fuel
  | .output => shared .clr (pure ())                   -- vm/mod.rs:187-189
  | .assemblyTypes a => shared (.asmTypes a) (pure ()) -- assembly.rs:194-198
  | .entryPoint a => shared (.entryPoint a) (pure ())  -- assembly.rs:200-202
  | .resolveMethod a => Borrow.resolveMethod a
  | .resolveField a => Borrow.resolveField a
  | .resolveType a => Borrow.resolveType a
  | .arrayOf => do let _ ← arrayType s
  | .base t => do let _ ← Borrow.base t
  | .fields t => shared (.fields t) (pure ())          -- type.rs:332-336
  | .allFields t => Borrow.allFields fuel t
  | .getField t => shared (.fieldMap t) (pure ())      -- type.rs:347-349
  | .methods t => shared (.methods t) (pure ())        -- type.rs:351-355
  | .allMethods t => Borrow.allMethods fuel t
  | .getMethod t => shared (.methodMap t) (pure ())    -- type.rs:368-370
  | .interfaces t => shared (.interfaces t) (pure ())  -- type.rs:372-376
  | .kind t => shared (.kind t) mayLeave               -- type.rs:382-384
  | .instanceOf t => do let _ ← Borrow.instanceOf fuel t
  | .isReferenceType t => do let _ ← Borrow.isReferenceType fuel t
  | .size t => Borrow.size fuel t
  | .parameters m => shared (.params m) (pure ())      -- method.rs:150-154
  | .showMethod m => Borrow.showMethod m
  | .managedType => Borrow.managedType
  | .typeOf => do let _ ← Borrow.typeOf
  | .arraySet => Borrow.arraySet
  | .asSlice => Borrow.asSlice
  | .objectGet => Borrow.objectGet

end Clr.Borrow
