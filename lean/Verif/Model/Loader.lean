import Verif.Model.World
import Verif.Model.Blob
/-!
# Loading: `clr_lite/src/vm/reflection/*.rs` and the loading half of `clr_lite/src/vm/mod.rs`

Error messages that embed a formatted name or number are abbreviated. `Vec::with_capacity` and `reserve` are modelled
only where an arithmetic underflow can make the requested capacity absurd (`reserveRun`). The strings heap is consulted
with an empty cache each time; the cache never changes an answer (theorem `C12_lookup_exact`).
-/

namespace Clr

/-- `metadata.strings().get(h)` (strings_heap.rs:20-34). -/
def Metadata.string (m : Metadata) (h : Nat) : Res (Option Name) := do
  let (s, _) ← m.stringsHeap.get h
  pure s

/-- `metadata.strings().get(h).unwrap()`. -/
def Metadata.string! (m : Metadata) (h : Nat) : Res Name := do
  let s ← m.string h
  Res.unwrap s

/-- `TypeDefOrRefHandle` of a table column. Coded indices of this kind have only these three tables. -/
def Coded.typeDefOrRef (c : Coded) : TypeDefOrRef :=
  match c.table with
  | .typeDef => .typeDef c.row
  | .typeRef => .typeRef c.row
  | _ => .typeSpec c.row

/-- The name and namespace columns of a type row (type.rs:204-216). -/
def typeNameHandles (cfg : Cfg) (m : Metadata) : TypeDefOrRef → Res (Nat × Nat)
  | .typeDef h => do
    let row ← tableIndex cfg m.tables.typeDef h
    pure (row.name, row.nspace)
  | .typeRef h => do
    let row ← tableIndex cfg m.tables.typeRef h
    pure (row.name, row.nspace)
  | .typeSpec _ => .panic

/-- `Type::type_def_or_ref_name` (type.rs:199-226). -/
def typeDefOrRefName (cfg : Cfg) (m : Metadata) (h : TypeDefOrRef) : Res (Option Name) := do
  let (n, ns) ← typeNameHandles cfg m h
  match ← m.string n with
  | none => pure none
  | some name =>
    match ← m.string ns with
    | none => pure none
    | some nspace => pure (some (fullName nspace name))

/-- `clr.get_type(n).unwrap()`. -/
def getTypeUnwrap (n : String) : M Nat := M.view fun w => Res.unwrap (w.getType n.toList)

/-- The `ValueType`/`Class` arm of `get_type_for_element_type` (type.rs:250-256). -/
def namedType (cfg : Cfg) (m : Metadata) (h : TypeDefOrRef) : M Nat := do
  let name ← typeDefOrRefName cfg m h
  let name ← Res.ofOption "Unable to locate type" name
  M.view fun w => Res.ofOption "Unable to locate type" (w.getType name)

/-- `Type::get_type_for_element_type` (type.rs:228-272); `unimplemented!` is a panic. -/
def typeFor (cfg : Cfg) (m : Metadata) : ElementType → M Nat
  | .void => getTypeUnwrap "System.Void"
  | .bool => getTypeUnwrap "System.Boolean"
  | .char => getTypeUnwrap "System.Char"
  | .sbyte => getTypeUnwrap "System.SByte"
  | .byte => getTypeUnwrap "System.Byte"
  | .short => getTypeUnwrap "System.Int16"
  | .ushort => getTypeUnwrap "System.UInt16"
  | .int => getTypeUnwrap "System.Int32"
  | .uint => getTypeUnwrap "System.UInt32"
  | .long => getTypeUnwrap "System.Int64"
  | .ulong => getTypeUnwrap "System.UInt64"
  | .float => getTypeUnwrap "System.Single"
  | .double => getTypeUnwrap "System.Double"
  | .string => getTypeUnwrap "System.String"
  | .pointer _ => M.lift .panic
  | .reference _ => M.lift .panic
  | .valueType h => namedType cfg m h
  | .class h => namedType cfg m h
  | .typeGenericParam _ => M.lift .panic
  | .array _ _ => M.lift .panic
  | .generic _ _ => M.lift .panic
  | .typedReference => M.lift .panic
  | .intPtr => getTypeUnwrap "System.IntPtr"
  | .uintPtr => getTypeUnwrap "System.UIntPtr"
  | .fnPtr => M.lift .panic
  | .object => getTypeUnwrap "System.Object"
  | .szArray e => do
    let t ← typeFor cfg m e
    arrayType cfg t
  | .methodGenericParam _ => M.lift .panic
  | .varargSentinel => M.lift (.err "Invalid element type")

/-- The name lookup for a typed `catch` (method_body.rs:303-336). -/
def catchType (cfg : Cfg) (m : Metadata) (token : Token) : M Nat := do
  let (n, ns) ← (if token.table = 0x02 then typeNameHandles cfg m (.typeDef token.index)
    else if token.table = 0x01 then typeNameHandles cfg m (.typeRef token.index)
    else .err "Invalid metadata token for catch type" : Res (Nat × Nat))
  let name ← m.string n
  let name ← Res.ofOption "Cannot find exception handler type" name
  let nspace ← m.string ns
  let nspace ← Res.ofOption "Cannot find exception handler type" nspace
  M.view fun w => Res.ofOption "Cannot find exception handler type" (w.getType (fullName nspace name))

/-- `ExceptionClause::new` (method_body.rs:287-346). -/
def newClause (cfg : Cfg) (m : Metadata) (ty : ClauseType) (tryOffset tryLength handlerOffset handlerLength token : Nat) :
    M ExceptionClause := do
  let catchTy ← (match ty with
    | .catches => do
      let t ← catchType cfg m ⟨token⟩
      pure (some t)
    | _ => pure none)
  let filterOffset := match ty with
    | .filters => some token
    | _ => none
  pure ⟨ty, tryOffset, tryLength, handlerOffset, handlerLength, catchTy, filterOffset⟩

/-- An integer read with `ok_or_else(|| "Invalid method body")`. -/
def bodyU (cfg : Cfg) (r : Reader) (w : Nat) : Res (Nat × Reader) := do
  let (x, r) ← r.readU cfg w
  let x ← Res.ofOption "Invalid method body" x
  pure (x, r)

/-- `br.read_array::<u8>(n)` with `ok_or_else(|| "Invalid method body")`. -/
def bodyBytes (cfg : Cfg) (r : Reader) (n : Nat) : Res (Bytes × Reader) := do
  let (x, r) ← r.readArray cfg 1 n
  let x ← Res.ofOption "Invalid method body" x
  pure (x.flatten, r)

/-- The `match clause_code` of method_body.rs:141-152, 192-203. -/
def clauseTypeOf (code : Nat) : Res ClauseType :=
  if code = 0 then .ok .catches
  else if code = 1 then .ok .filters
  else if code = 2 then .ok .finallys
  else if code = 4 then .ok .faults
  else .err "Invalid exception clause code"

/-- One fat clause (method_body.rs:138-179). -/
def readFatClause (cfg : Cfg) (m : Metadata) (r : Reader) : M (ExceptionClause × Reader) := do
  let (code, r) ← bodyU cfg r 4
  let ty ← clauseTypeOf code
  let (tryOffset, r) ← bodyU cfg r 4
  let (tryLength, r) ← bodyU cfg r 4
  let (handlerOffset, r) ← bodyU cfg r 4
  let (handlerLength, r) ← bodyU cfg r 4
  let (token, r) ← bodyU cfg r 4
  let c ← newClause cfg m ty tryOffset tryLength handlerOffset handlerLength token
  pure (c, r)

/-- One small clause (method_body.rs:189-230). -/
def readSmallClause (cfg : Cfg) (m : Metadata) (r : Reader) : M (ExceptionClause × Reader) := do
  let (code, r) ← bodyU cfg r 2
  let ty ← clauseTypeOf code
  let (tryOffset, r) ← bodyU cfg r 2
  let (tryLength, r) ← bodyU cfg r 1
  let (handlerOffset, r) ← bodyU cfg r 2
  let (handlerLength, r) ← bodyU cfg r 1
  let (token, r) ← bodyU cfg r 4
  let c ← newClause cfg m ty tryOffset tryLength handlerOffset handlerLength token
  pure (c, r)

/-- The `for _ in 0..count` loops over clauses. -/
def readClauses (f : Reader → M (ExceptionClause × Reader)) : Nat → Reader → M (List ExceptionClause)
  | 0, _ => pure []
  | n + 1, r => do
    let (c, r) ← f r
    let cs ← readClauses f n r
    pure (c :: cs)

/-- The extra data section (method_body.rs:110-233). The alignment loop adds at most three to the position; the
position is at most the file length, so the addition cannot overflow. -/
def readClauseSection (cfg : Cfg) (m : Metadata) (r : Reader) : M (List ExceptionClause) := do
  let r := (r.goto ((r.pos + 3) / 4 * 4)).2
  let (next, r) ← bodyU cfg r 1
  if next &&& 0x1 ≠ 0x1 then M.lift (.err "Non exception extra section in method body")
  else do
    let (dataSize, r) ← bodyU cfg r 1
    if next &&& 0x40 = 0x40 then do
      let (high, r) ← bodyU cfg r 2
      readClauses (readFatClause cfg m) ((dataSize + high <<< 8) / 24) r
    else do
      let (_, r) ← r.advance cfg 2
      readClauses (readSmallClause cfg m) (dataSize / 12) r

/-- The loop over the local variable signature (method_body.rs:88-97). -/
def readLocalTypes (cfg : Cfg) (m : Metadata) : Nat → Reader → M (List Nat)
  | 0, _ => pure []
  | n + 1, r => do
    let (e, r) ← Res.mapErr (fun _ => "Invalid method body") (readElem cfg r)
    let t ← typeFor cfg m e
    let ts ← readLocalTypes cfg m n r
    pure (t :: ts)

/-- The `locals` block (method_body.rs:62-101), after the token has been read. -/
def readLocals (cfg : Cfg) (m : Metadata) (token : Token) : M (List Nat) := do
  if token.index = 0 then pure []
  else do
    let sig ← tableIndex cfg m.tables.standaloneSig token.index
    let r ← Res.mapErr (fun _ => "Invalid method body") (blobHeapReader cfg m.blobHeap sig.signature)
    let (b, r) ← Res.mapErr (fun _ => "Invalid method body") (readByte cfg r)
    if b ≠ 0x7 then M.lift (.err "Invalid method body")
    else do
      let (n, r) ← Res.mapErr (fun _ => "Invalid method body") (readCompressed cfg r)
      readLocalTypes cfg m n r

/-- The clauses of a fat body, when the header announces them (method_body.rs:112). -/
def readMoreSections (cfg : Cfg) (m : Metadata) (b : Nat) (r : Reader) : M (List ExceptionClause) :=
  if b &&& 0x8 = 0x8 then readClauseSection cfg m r else pure []

/-- `MethodBody::load` (method_body.rs:22-245). -/
def loadBody (cfg : Cfg) (m : Metadata) (rva : Nat) : M MethodBody := do
  let off ← Res.mapErr (fun _ => "Cannot find method body") (resolveRva cfg rva m.peInfo.sections)
  let d ← sliceFrom m.peData off
  let r := Reader.new d
  let (b, r) ← bodyU cfg r 1
  if b &&& 0x3 = 0x2 then do
    let (code, _) ← bodyBytes cfg r ((b &&& 0xfc) >>> 2)
    pure { code, maxStack := 8, locals := [], initLocals := decide (b &&& 0x10 = 0x10), clauses := [] }
  else if b &&& 0x3 = 0x3 then do
    let (_, r) ← r.advance cfg 1
    let (maxStack, r) ← bodyU cfg r 2
    let (codeSize, r) ← bodyU cfg r 4
    let (token, r) ← bodyU cfg r 4
    let locals ← readLocals cfg m ⟨token⟩
    let (code, r) ← bodyBytes cfg r codeSize
    let clauses ← readMoreSections cfg m b r
    pure { code, maxStack, locals, initLocals := decide (b &&& 0x10 = 0x10), clauses }
  else M.lift (.err "Invalid method body")

/-- `Type::load` (type.rs:15-53); returns the new type's position. -/
def loadType (cfg : Cfg) (assembly i : Nat) (m : Metadata) : M Nat := do
  let row ← tableIndex cfg m.tables.typeDef (i + 1)
  let name ← m.string! row.name
  let nspace ← m.string! row.nspace
  let id ← nextTypeId cfg
  let t ← M.view fun w => .ok w.types.length
  M.modify (·.addType { id, name, nspace, fullName := fullName nspace name, assembly,
                        isAbstract := row.attributes.isAbstract })
  pure t

/-- `Type::resolve_base` (type.rs:71-92). -/
def resolveBase (cfg : Cfg) (m : Metadata) (t i : Nat) : M Unit := do
  let row ← tableIndex cfg m.tables.typeDef (i + 1)
  if row.baseType.typeDefOrRef = .typeDef 0 then pure ()
  else do
    let n ← typeDefOrRefName cfg m row.baseType.typeDefOrRef
    let b ← M.view fun w => Res.ofOption "Unable to find base type" (n.bind w.getType)
    M.modify (·.updType t fun tr => { tr with base := some b })

/-- The classification of type.rs:102-113. -/
def kindOf (sem : TypeSemantics) (base : Option Name) : TypeKind :=
  match sem with
  | .iface => .iface
  | .cls =>
    match base with
    | none => .cls
    | some b =>
      if b = "System.ValueType".toList then .struct
      else if b = "System.Array".toList then .array
      else if b = "System.Enum".toList then .enum
      else .cls

/-- The full name of a type's base (type.rs:104-107). -/
def World.baseName (w : World) (t : Nat) : Res (Option Name) := do
  let tr ← w.typeAt t
  match tr.base with
  | none => pure none
  | some b => do
    let br ← w.typeAt b
    pure (some br.fullName)

/-- `Type::resolve_kind` (type.rs:94-118). -/
def resolveKind (cfg : Cfg) (m : Metadata) (t i : Nat) : M Unit := do
  let row ← tableIndex cfg m.tables.typeDef (i + 1)
  let b ← M.view (·.baseName t)
  M.modify (·.updType t fun tr => { tr with kind := some (kindOf row.attributes.semantics b) })

/-- The run of rows owned by type row `i` (type.rs:132-137, 178-183): first row and count. `list` selects the column,
`rows` is the length of the owned table. -/
def ownedRun (cfg : Cfg) (m : Metadata) (list : TypeDefRow → Nat) (rows i : Nat) : Res (Nat × Nat) := do
  let row ← tableIndex cfg m.tables.typeDef (i + 1)
  let last ← usub cfg 64 m.tables.typeDef.length 1
  if i = last then do
    let s ← usub cfg 64 (list row) 1
    let n ← usub cfg 64 rows s
    pure (list row, n)
  else do
    let next ← tableIndex cfg m.tables.typeDef (i + 1 + 1)
    let n ← usub cfg 64 (list next) (list row)
    pure (list row, n)

/-- `Vec::reserve(n)` for 8-byte elements (type.rs:139, 185): a request beyond `isize::MAX` bytes panics. -/
def reserveRun (n : Nat) : Res Unit := if n * 8 < 2 ^ 63 then .ok () else .panic

/-- `Field::load` (field.rs:13-40). -/
def loadField (cfg : Cfg) (m : Metadata) (t i offset : Nat) : M FieldRec := do
  let row ← tableIndex cfg m.tables.field i
  let name ← m.string! row.name
  let r ← blobHeapReader cfg m.blobHeap row.signature
  let (e, _) ← readFieldSig cfg r
  let fieldType ← typeFor cfg m e
  pure { name, fieldType, declaringType := t, isStatic := row.attributes.isStatic, offset }

/-- The loop of `Type::resolve_fields` (type.rs:152-164) over `n` rows from row `i`; `fuel` is for `Type::size`. The
result is the list of fields, which the code also pushes on the assembly's field list. -/
def loadFields (cfg : Cfg) (fuel : Nat) (m : Metadata) (t : Nat) : Nat → Nat → Nat → M (List FieldRec)
  | 0, _, _ => pure []
  | n + 1, i, offset => do
    let f ← loadField cfg m t i offset
    M.modify (·.updType t fun tr => { tr with fields := tr.fields ++ [f] })
    let s ← M.view fun w => typeSize cfg w fuel f.fieldType
    let offset ← uadd cfg 64 offset s
    let fs ← loadFields cfg fuel m t n (i + 1) offset
    pure (f :: fs)

/-- The start offset of type.rs:145-149. -/
def baseSize (cfg : Cfg) (fuel : Nat) (w : World) (t : Nat) : Res Nat := do
  let tr ← w.typeAt t
  match tr.base with
  | some b => typeSize cfg w fuel b
  | none => pure 0

/-- `Type::resolve_fields` (type.rs:120-167). -/
def resolveFields (cfg : Cfg) (fuel : Nat) (m : Metadata) (t i : Nat) : M (List FieldRec) := do
  let (start, n) ← ownedRun cfg m (·.fieldList) m.tables.field.length i
  let _ ← reserveRun n
  let _ ← uadd cfg 64 start n
  let offset ← M.view fun w => baseSize cfg fuel w t
  loadFields cfg fuel m t n start offset

/-- `HashMap` of native methods (internal_method.rs:12-17, internal_method/*.rs). -/
def internalMethods : List (Name × InternalMethod) :=
  [("Char System.String.get_Item(System.Int32)".toList, .stringGetItem),
   ("Int32 System.String.get_Length()".toList, .stringGetLength),
   ("Void System.Console.Write(System.String)".toList, .consoleWrite)]

/-- The parameter list of `Method::internall_call_name` (method.rs:132-137). -/
def joinParams : List Name → Name
  | [] => []
  | [p] => p
  | p :: ps => p ++ ", ".toList ++ joinParams ps

/-- `Method::internall_call_name` (method.rs:115-140). -/
def internalCallName (name declaring ret : Name) (params : List Name) : Name :=
  ret ++ ' ' :: declaring ++ '.' :: name ++ '(' :: joinParams params ++ [')']

/-- `param_types` (method.rs:30-42): the `Result` is unwrapped. Where the code loops up to the `capacity()` of a vector, that is
taken to be the capacity asked for. -/
def paramNames (cfg : Cfg) (m : Metadata) : List ElementType → M (List Name)
  | [] => pure []
  | e :: es => do
    let t ← (fun w => match typeFor cfg m e w with
      | (.err _, w') => (.panic, w')
      | x => x : M Nat)
    let tr ← M.view (·.typeAt t)
    let ns ← paramNames cfg m es
    pure (tr.fullName :: ns)

/-- The `implementation` of a method (method.rs:29-63). -/
def loadImpl (cfg : Cfg) (m : Metadata) (t : Nat) (row : MethodDefRow) (name : Name) (sig : MethodSig) : M MethodImpl := do
  if row.implAttributes.internalCall then do
    let ps ← paramNames cfg m sig.params
    let ret ← typeFor cfg m sig.returnType
    let rr ← M.view (·.typeAt ret)
    let dr ← M.view (·.typeAt t)
    let f ← Res.ofOption "No internal method with signature" (internalMethods.lookup (internalCallName name dr.fullName rr.name ps))
    pure (.internal f)
  else if row.attributes.pinvokeImpl then M.lift .panic
  else if row.attributes.isAbstract then pure .none
  else do
    let b ← loadBody cfg m row.rva
    pure (.il b)

/-- The parameter loop (method.rs:86-105). -/
def loadParams (cfg : Cfg) (m : Metadata) : List ElementType → Nat → M (List ParamRec)
  | [], _ => pure []
  | e :: es, i => do
    let row ← tableIndex cfg m.tables.param i
    let name ← m.string! row.name
    let t ← typeFor cfg m e
    let ps ← loadParams cfg m es (i + 1)
    pure (⟨name, row.index, t⟩ :: ps)

/-- `Method::load` (method.rs:13-109). -/
def loadMethod (cfg : Cfg) (m : Metadata) (t i : Nat) : M MethodRec := do
  let row ← tableIndex cfg m.tables.methodDef i
  let name ← m.string! row.name
  let r ← blobHeapReader cfg m.blobHeap row.signature
  let (sig, _) ← readMethodSig cfg r
  let impl ← loadImpl cfg m t row name sig
  let returnType ← typeFor cfg m sig.returnType
  let params ← loadParams cfg m sig.params row.paramList
  pure { name, declaringType := t, returnType, params, impl, isStatic := row.attributes.isStatic,
         isVirtual := row.attributes.isVirtual, isAbstract := row.attributes.isAbstract }

/-- The loop of `Type::resolve_methods` (type.rs:190-194). -/
def loadMethods (cfg : Cfg) (m : Metadata) (t : Nat) : Nat → Nat → M Unit
  | 0, _ => pure ()
  | n + 1, i => do
    let x ← loadMethod cfg m t i
    M.modify (·.updType t fun tr => { tr with methods := tr.methods ++ [x] })
    loadMethods cfg m t n (i + 1)

/-- `Type::resolve_methods` (type.rs:169-197). -/
def resolveMethods (cfg : Cfg) (m : Metadata) (t i : Nat) : M Unit := do
  let (start, n) ← ownedRun cfg m (·.methodList) m.tables.methodDef.length i
  let _ ← reserveRun n
  let _ ← uadd cfg 64 start n
  loadMethods cfg m t n start

/-- `Type::resolve` (type.rs:57-69); returns the fields pushed on the assembly's list. -/
def resolveType (cfg : Cfg) (fuel : Nat) (m : Metadata) (t i : Nat) : M (List FieldRec) := do
  resolveBase cfg m t i
  resolveKind cfg m t i
  let fs ← resolveFields cfg fuel m t i
  resolveMethods cfg m t i
  pure fs

/-- The loop over `types` (assembly.rs:109-111) from row `i`, `n` rows. -/
def loadTypes (cfg : Cfg) (assembly : Nat) (m : Metadata) : Nat → Nat → M (List Nat)
  | 0, _ => pure []
  | n + 1, i => do
    let t ← loadType cfg assembly i m
    let ts ← loadTypes cfg assembly m n (i + 1)
    pure (t :: ts)

/-- The loop of assembly.rs:114-116; the result is the assembly's field list. -/
def resolveTypes (cfg : Cfg) (fuel : Nat) (m : Metadata) : List Nat → Nat → M (List FieldRec)
  | [], _ => pure []
  | t :: ts, i => do
    let fs ← resolveType cfg fuel m t i
    let rest ← resolveTypes cfg fuel m ts (i + 1)
    pure (fs ++ rest)

/-- Type lookup by the name columns of a row, both unwrapped, with `get_type` (assembly.rs:40-53, 77-86, 121-129,
132-160). -/
def lookupRow (m : Metadata) (name nspace : Nat) : M (Option Nat) := do
  let n ← m.string! name
  let ns ← m.string! nspace
  M.view fun w => .ok (w.getType (fullName ns n))

/-- One interface implementation row (assembly.rs:119-164). -/
def loadInterface (cfg : Cfg) (m : Metadata) (row : InterfaceImplRow) : M Unit := do
  let td ← tableIndex cfg m.tables.typeDef row.cls
  let t ← lookupRow m td.name td.nspace
  let t ← Res.unwrap t
  let (n, ns) ← typeNameHandles cfg m row.iface.typeDefOrRef
  let i ← lookupRow m n ns
  let i ← Res.unwrap i
  M.modify (·.updType t fun tr => { tr with interfaces := tr.interfaces ++ [i] })

/-- The loop of assembly.rs:119-164. -/
def loadInterfaces (cfg : Cfg) (m : Metadata) : List InterfaceImplRow → M Unit
  | [] => pure ()
  | row :: rows => do
    loadInterface cfg m row
    loadInterfaces cfg m rows

/-- One member reference (assembly.rs:36-72); `none` for the skipped kinds. -/
def loadMemberRef (cfg : Cfg) (m : Metadata) (row : MemberRefRow) : M (Option MethodRec) := do
  if row.parent.table = .typeRef then do
    let tr ← tableIndex cfg m.tables.typeRef row.parent.row
    let t ← lookupRow m tr.name tr.nspace
    let t ← Res.ofOption "Cannot find type referenced by assembly" t
    let name ← m.string row.name
    let name ← Res.ofOption "Unable to load methods referenced by assembly" name
    let ty ← M.view (·.typeAt t)
    let x ← Res.ofOption "Unable to find method referenced by assembly" (ty.getMethod name)
    pure (some x)
  else pure none

/-- The loop over the member references: skipped rows leave no gap (assembly.rs:35-72). -/
def loadMemberRefs (cfg : Cfg) (m : Metadata) : List MemberRefRow → M (List MethodRec)
  | [] => pure []
  | row :: rows => do
    let x ← loadMemberRef cfg m row
    let xs ← loadMemberRefs cfg m rows
    pure (x.toList ++ xs)

/-- The loop over the type references (assembly.rs:75-90). -/
def loadTypeRefs (m : Metadata) : List TypeRefRow → M (List Nat)
  | [] => pure []
  | row :: rows => do
    let t ← lookupRow m row.name row.nspace
    let t ← Res.ofOption "Cannot find type referenced by assembly" t
    let ts ← loadTypeRefs m rows
    pure (t :: ts)

/-- `Assembly::resolve_method` (assembly.rs:204-212). -/
def AssemblyRec.resolveMethod (cfg : Cfg) (a : AssemblyRec) (token : Token) : Res (Option MethodRec) := do
  if token.table = 0x06 then do
    let i ← usub cfg 64 token.index 1
    pure a.methodDefs[i]?
  else if token.table = 0x0a then do
    let i ← usub cfg 64 token.index 1
    pure a.methodRefs[i]?
  else pure none

/-- `Assembly::resolve_field` (assembly.rs:214-220). -/
def AssemblyRec.resolveField (cfg : Cfg) (a : AssemblyRec) (token : Token) : Res (Option FieldRec) := do
  if token.table = 0x04 then do
    let i ← usub cfg 64 token.index 1
    pure a.fields[i]?
  else pure none

/-- `Assembly::resolve_type` (assembly.rs:222-230). -/
def AssemblyRec.resolveType (cfg : Cfg) (a : AssemblyRec) (token : Token) : Res (Option Nat) := do
  if token.table = 0x02 then do
    let i ← usub cfg 64 token.index 1
    pure a.types[i]?
  else if token.table = 0x01 then do
    let i ← usub cfg 64 token.index 1
    pure a.typeRefs[i]?
  else pure none

/-- The collection of the method list from the types (assembly.rs:169-174). -/
def collectMethods (w : World) : List Nat → Res (List MethodRec)
  | [] => .ok []
  | t :: ts => do
    let tr ← w.typeAt t
    let rest ← collectMethods w ts
    pure (tr.methods ++ rest)

/-- The entry point (assembly.rs:178-183). -/
def resolveEntryPoint (cfg : Cfg) (a : AssemblyRec) : Option Nat → Res (Option MethodRec)
  | none => .ok none
  | some ep => do
    let x ← a.resolveMethod cfg (Token.new ep 0x06)
    let x ← Res.ofOption "Missing entry point" x
    pure (some x)

/-- `Assembly::load` after the references have been loaded (assembly.rs:34-187). -/
def loadSelf (cfg : Cfg) (fuel : Nat) (m : Metadata) (name : Name) : M AssemblyRec := do
  let methodRefs ← loadMemberRefs cfg m m.tables.memberRef
  let typeRefs ← loadTypeRefs m m.tables.typeRef
  let id ← M.view fun w => .ok w.nextAssembly
  M.modify fun w => { w with nextAssembly := w.nextAssembly + 1 }
  let types ← loadTypes cfg id m m.tables.typeDef.length 0
  let fields ← resolveTypes cfg fuel m types 0
  loadInterfaces cfg m m.tables.interfaceImpl
  let methodDefs ← M.view fun w => collectMethods w types
  let a : AssemblyRec := { id, name, types, entryPoint := none, userStringData := m.userStringData, methodDefs,
                           methodRefs, fields, typeRefs }
  let entryPoint ← resolveEntryPoint cfg a m.entryPoint
  let a := { a with entryPoint }
  M.modify fun w => { w with assemblies := w.assemblies ++ [a] }
  pure a

/-- The loop over the assembly references (assembly.rs:22-32); `load` is `ClrLite::load_assembly`. -/
def loadRefs (load : Name → M AssemblyRec) (m : Metadata) : List AssemblyRefRow → M Unit
  | [] => pure ()
  | row :: rows => do
    let n ← m.string row.name
    let n ← Res.ofOption "assembly contains invalid assembly references" n
    let loaded ← M.view fun w => .ok (w.assemblies.any (·.name = n))
    if loaded then loadRefs load m rows
    else do
      let _ ← load n
      loadRefs load m rows

/-- `ClrLite::load_assembly` and `Assembly::load` (vm/mod.rs:60-76, assembly.rs:13-32). `fs` is the file system seen
through `resolve_assembly_name` and `fs::read` (vm/mod.rs:266-283): the contents found for a name, or `none`. The
recursion over references is bounded by the first fuel argument. -/
def loadData (cfg : Cfg) (fs : Name → Option Bytes) : Nat → Nat → Bytes → M AssemblyRec
  | 0, _, _ => M.lift .timeout
  | depth + 1, fuel, data => do
    let m ← readMetadata cfg data
    let row ← tableIndex cfg m.tables.assembly 1
    let name ← m.string! row.name
    loadRefs (fun n => do
      let d ← Res.ofOption "Could not locate assembly" (fs n)
      loadData cfg fs depth fuel d) m m.tables.assemblyRef
    loadSelf cfg fuel m name

/-- `ClrLite::load_assembly` (vm/mod.rs:60-76). -/
def loadAssembly (cfg : Cfg) (fs : Name → Option Bytes) (depth fuel : Nat) (n : Name) : M AssemblyRec := do
  let d ← Res.ofOption "Could not locate assembly" (fs n)
  loadData cfg fs depth fuel d

/-- The primitive types cached by `load_builtin_assemblies` (vm/mod.rs:107-121). -/
def loadPrimitives : M Unit := do
  let sbyte ← getTypeUnwrap "System.SByte"
  let byte ← getTypeUnwrap "System.Byte"
  let short ← getTypeUnwrap "System.Int16"
  let ushort ← getTypeUnwrap "System.UInt16"
  let int ← getTypeUnwrap "System.Int32"
  let uint ← getTypeUnwrap "System.UInt32"
  let long ← getTypeUnwrap "System.Int64"
  let ulong ← getTypeUnwrap "System.UInt64"
  let float ← getTypeUnwrap "System.Single"
  let double ← getTypeUnwrap "System.Double"
  let object ← getTypeUnwrap "System.Object"
  M.modify fun w => { w with primitives := some { sbyte, byte, short, ushort, int, uint, long, ulong, float, double, object } }

/-- `ClrLite::new_runtime` (vm/mod.rs:42-46, 78-124), with the two embedded library files as arguments. -/
def newRuntime (cfg : Cfg) (fs : Name → Option Bytes) (depth fuel : Nat) (runtime console : Bytes) : M Unit := do
  let _ ← loadData cfg fs depth fuel runtime
  let _ ← loadData cfg fs depth fuel console
  loadPrimitives

end Clr
