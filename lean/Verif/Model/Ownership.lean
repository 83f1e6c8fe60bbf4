import Verif.Model.Interp
/-!
# Who keeps what alive: the `Rc`s and `Weak`s of `clr_lite/src/vm`

In the main model records live in lists and nothing is ever freed. Here the strong references between the reference-counted
objects are made explicit, and dropping the host's handles is reference counting as the standard library does it. Execution
makes and drops handles of its own (`Interpreter`, `StackFrame`, guards), all of which are gone when it returns; objects of
the interpreted program are no part of this. The recursion of the destructors and the memory of `Weak` counters are not
modelled.
-/

namespace Clr

/-- The reference-counted objects of a runtime: `Rc<RefCell<ClrInternal>>` (vm/mod.rs:22), `Rc<AssemblyInternal>`
(assembly.rs:10, by position in the list of assemblies), `Rc<TypeInternal>` (type.rs:12), `Rc<FieldInternal>` (field.rs:10) and
`Rc<MethodInternal>` (method.rs:10), by type and position in the type's list, `Rc<ParameterInternal>` (parameter.rs:8), by
method and position. -/
inductive Owned where
  | runtime
  | assembly (i : Nat)
  | type (t : Nat)
  | field (t k : Nat)
  | method (t k : Nat)
  | param (t k j : Nat)
deriving DecidableEq, Repr

/-- The positions at which a hash map keyed by `names` and filled in order holds its values: the last one of each name. -/
def lastNamed (names : List Name) : List Nat :=
  (List.range names.length).filter fun k => match names[k]? with
    | some n => decide (n ∉ names.drop (k + 1))
    | none => false

namespace TypeRec

def fieldsOwned (r : TypeRec) (t : Nat) : List Owned := (List.range r.fields.length).map (.field t)
def methodsOwned (r : TypeRec) (t : Nat) : List Owned := (List.range r.methods.length).map (.method t)

/-- The strong references in `TypeInternal` (type.rs:530-546): `base`, `fields`, `methods`, `interfaces`, `field_map`,
`method_map`. The runtime and the assembly are weak references. -/
def owned (r : TypeRec) (t : Nat) : List Owned :=
  r.base.toList.map .type ++ r.fieldsOwned t ++ r.methodsOwned t ++ r.interfaces.map .type ++
    (lastNamed (r.fields.map (·.name))).map (.field t) ++ (lastNamed (r.methods.map (·.name))).map (.method t)

end TypeRec

/-- The strong references in `MethodInternal` (method.rs:199-210): `params`, and in the body the types of the local variables
(method_body.rs:13-19). The runtime, the declaring type, the return type and the types of caught exceptions are weak. -/
def MethodRec.owned (m : MethodRec) (t k : Nat) : List Owned :=
  (List.range m.params.length).map (.param t k) ++
    match m.impl with
    | .il b => b.locals.map .type
    | _ => []

/-- A method that is referred to by value, as an object: the last method of its name in its declaring type, which is what
`get_method` gives (assembly.rs:61-69). -/
def World.methodNamed (w : World) (m : MethodRec) : List Owned :=
  match w.types[m.declaringType]? with
  | some r => ((lastNamed (r.methods.map (·.name))).filter fun k => (r.methods[k]?).map (·.name) = some m.name).map (.method m.declaringType)
  | none => []

/-- All methods, and all fields, of a list of types. -/
def World.methodsOf (w : World) (ts : List Nat) : List Owned := ts.flatMap fun t => match w.types[t]? with
  | some r => r.methodsOwned t
  | none => []
def World.fieldsOf (w : World) (ts : List Nat) : List Owned := ts.flatMap fun t => match w.types[t]? with
  | some r => r.fieldsOwned t
  | none => []

/-- The strong references in `AssemblyInternal` (assembly.rs:256-269): `types`, `entry_point`, `method_defs`, `method_refs`,
`fields`, `type_refs`. The lists of methods and fields are those of the types, in order (assembly.rs:169-175,
type.rs:154-161). The entry point is one of the `method_defs`; the first one with that record is taken. -/
def World.assemblyOwns (w : World) (a : AssemblyRec) : List Owned :=
  a.types.map .type ++ (match a.entryPoint with
    | some m => ((w.methodsOf a.types)[a.methodDefs.idxOf m]?).toList
    | none => []) ++ w.methodsOf a.types ++ a.methodRefs.flatMap w.methodNamed ++ w.fieldsOf a.types ++ a.typeRefs.map .type

/-- `struct PrimitiveTypes` (vm/mod.rs:229-242). -/
def Primitives.all (p : Primitives) : List Nat :=
  [p.sbyte, p.byte, p.short, p.ushort, p.int, p.uint, p.long, p.ulong, p.float, p.double, p.object]

/-- The strong references in `ClrInternal` (vm/mod.rs:216-227): `assemblies`, `types`, the values of `type_map` (the newest
type of each name), `primitive_types`. -/
def World.runtimeOwns (w : World) : List Owned :=
  (List.range w.assemblies.length).map .assembly ++ (List.range w.types.length).map .type ++
    (w.typeMap.map (·.1)).eraseDups.flatMap (fun n => (w.getType n).toList.map .type) ++
    match w.primitives with
    | some p => p.all.map .type
    | none => []

/-- The strong references that an object holds, as often as it holds them. -/
def World.owns (w : World) : Owned → List Owned
  | .runtime => w.runtimeOwns
  | .assembly i => match w.assemblies[i]? with
    | some a => w.assemblyOwns a
    | none => []
  | .type t => match w.types[t]? with
    | some r => r.owned t
    | none => []
  | .method t k => match w.types[t]? with
    | some r => match r.methods[k]? with
      | some m => m.owned t k
      | none => []
    | none => []
  | .field _ _ => []
  | .param _ _ _ => []

/-- What a type brings with it: itself, its fields, its methods and their parameters. -/
def TypeRec.all (r : TypeRec) (t : Nat) : List Owned :=
  .type t :: r.fieldsOwned t ++ r.methodsOwned t ++
    (List.range r.methods.length).flatMap fun k => match r.methods[k]? with
      | some m => (List.range m.params.length).map (.param t k)
      | none => []

/-- All objects of a runtime. -/
def World.all (w : World) : List Owned :=
  .runtime :: (List.range w.assemblies.length).map .assembly ++
    (List.range w.types.length).flatMap fun t => match w.types[t]? with
      | some r => r.all t
      | none => []

/-! ## Reference counting -/

/-- The strong counts. An object with count 0 has been destroyed: `Weak::upgrade` gives `None`. -/
abbrev Counts := Owned → Nat

def Counts.set (c : Counts) (b : Owned) (n : Nat) : Counts := fun x => if x = b then n else c x

/-- `Drop for Rc` of the standard library, for the references in the list, one after the other: the count is decremented, and
when it reaches zero the references in the object are dropped before anything else. Dropping a reference to an object that has
been destroyed would be undefined behaviour. -/
def dropAll (owns : Owned → List Owned) : Nat → Counts → List Owned → Res Counts
  | _, c, [] => .ok c
  | 0, _, _ :: _ => .timeout
  | n + 1, c, b :: rest =>
    if c b = 0 then .ub
    else if c b = 1 then dropAll owns n (c.set b 0) (owns b ++ rest)
    else dropAll owns n (c.set b (c b - 1)) rest

/-- The strong counts while the host has the given handles. -/
def World.counts (w : World) (handles : List Owned) : Counts := fun b =>
  handles.count b + (w.all.map fun p => (w.owns p).count b).sum

/-- Dropping one handle. -/
def World.drop (w : World) (c : Counts) (b : Owned) : Res Counts :=
  dropAll w.owns ((w.all.map fun p => (w.owns p).length).sum + 1) c [b]

/-! ## Questions to handles, when not everything may be alive -/

/-- `Weak::upgrade` for a reference to a type: `Field::field_type`, `Field::declaring_type` (field.rs:46-52),
`Method::declaring_type`, `Method::return_type` (method.rs:142-148), `Parameter::param_type` (parameter.rs:23-25),
`ExceptionClause::catch_type` (method_body.rs:280-285). -/
def Counts.typeLink (c : Counts) (t : Nat) : Option Nat := if c (.type t) = 0 then none else some t

/-- `Parameter::method` (parameter.rs:15-17) of a parameter of method `k` of type `t`. -/
def Counts.methodLink (c : Counts) (t k : Nat) : Option (Nat × Nat) := if c (.method t k) = 0 then none else some (t, k)

/-- `ClrLite(self.0.clr.upgrade().unwrap())` (type.rs:305, 399, 405). -/
def Counts.runtimeLink (c : Counts) : Res Unit := if c .runtime = 0 then .panic else .ok ()

/-- `Type::size` (type.rs:404-459). -/
def Counts.size (c : Counts) (cfg : Cfg) (w : World) (tf t : Nat) : Res Nat := do
  c.runtimeLink
  typeSize cfg w tf t

/-- `Type::is_reference_type` (type.rs:398-401). -/
def Counts.isReference (c : Counts) (w : World) (tf t : Nat) : Res Bool := do
  c.runtimeLink
  isReferenceType w tf t

/-- `Type::array_of` (type.rs:304-306). -/
def Counts.arrayOf (c : Counts) (cfg : Cfg) (t : Nat) : M Nat := do
  c.runtimeLink
  arrayType cfg t

/-- `Type::assembly` (type.rs:328-330): the position of the assembly. -/
def Counts.assemblyLink (c : Counts) (w : World) (t : Nat) : Res Nat := do
  let r ← w.typeAt t
  match w.assemblies.findIdx? (·.id = r.assembly) with
  | some i => if c (.assembly i) = 0 then .panic else pure i
  | none => .panic

end Clr
