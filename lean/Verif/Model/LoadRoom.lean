import Verif.Model.Room
import Verif.Model.Loader
/-!
# Memory requested while loading

The loading of an assembly once more, with the number of elements for which memory is requested (`Vec::with_capacity`,
`Vec::reserve`) before they are made. The results are those of the loader itself (`Lemmas/LoadRoom`). Not counted are vectors that
grow one element at a time, strings, and the tables of the registry.
-/

namespace Clr

/-- A step of the loader, and the number of elements memory was requested for. -/
def MR (α : Type) : Type := World → (Res α × World) × Nat

namespace MR

def pure {α : Type} (a : α) : MR α := fun w => ((.ok a, w), 0)

/-- What was requested stays requested when the rest fails. -/
def bind {α β : Type} (x : MR α) (f : α → MR β) : MR β := fun w =>
  match (x w).1 with
  | (.ok a, w') => ((f a w').1, (x w).2 + (f a w').2)
  | (.err m, w') => ((.err m, w'), (x w).2)
  | (.panic, w') => ((.panic, w'), (x w).2)
  | (.ub, w') => ((.ub, w'), (x w).2)
  | (.timeout, w') => ((.timeout, w'), (x w).2)

instance : Monad MR where
  pure := MR.pure
  bind := MR.bind

/-- A step that requests no memory in advance. -/
def of {α : Type} (x : M α) : MR α := fun w => (x w, 0)

/-- A reader that requests memory, which does not touch the registry. -/
def ofRoom {α : Type} (x : Room α) : MR α := fun w => ((x.1, w), x.2)

/-- `Vec::with_capacity(n)`, or `reserve(n)` on an empty vector. -/
def reserve (n : Nat) : MR Unit := fun w => ((.ok (), w), n)

/-- `Result::map_err`. -/
def mapErr {α : Type} (g : String → String) (x : Room α) : Room α := (x.1.mapErr g, x.2)

end MR

/-- The loop over the local variable signature (method_body.rs:88-97). -/
def readLocalTypesR (cfg : Cfg) (m : Metadata) : Nat → Reader → MR (List Nat)
  | 0, _ => pure []
  | n + 1, r => do
    let (e, r) ← MR.ofRoom (MR.mapErr (fun _ => "Invalid method body") (readElemR cfg (r.data.length - r.pos + 1) r))
    let t ← MR.of (typeFor cfg m e)
    let ts ← readLocalTypesR cfg m n r
    pure (t :: ts)

/-- The `locals` block (method_body.rs:62-101): `with_capacity(locals_count)` in line 88. -/
def readLocalsR (cfg : Cfg) (m : Metadata) (token : Token) : MR (List Nat) := do
  if token.index = 0 then pure []
  else do
    let sig ← MR.of (tableIndex cfg m.tables.standaloneSig token.index)
    let r ← MR.of (Res.mapErr (fun _ => "Invalid method body") (blobHeapReader cfg m.blobHeap sig.signature))
    let (b, r) ← MR.of (Res.mapErr (fun _ => "Invalid method body") (readByte cfg r))
    if b ≠ 0x7 then MR.of (M.lift (.err "Invalid method body"))
    else do
      let (n, r) ← MR.of (Res.mapErr (fun _ => "Invalid method body") (readCompressed cfg r))
      MR.reserve n
      readLocalTypesR cfg m n r

/-- The extra data section (method_body.rs:110-233): `reserve(count)` in lines 136 and 187. -/
def readClauseSectionR (cfg : Cfg) (m : Metadata) (r : Reader) : MR (List ExceptionClause) := do
  let r := (r.goto ((r.pos + 3) / 4 * 4)).2
  let (next, r) ← MR.of (bodyU cfg r 1)
  if next &&& 0x1 ≠ 0x1 then MR.of (M.lift (.err "Non exception extra section in method body"))
  else do
    let (dataSize, r) ← MR.of (bodyU cfg r 1)
    if next &&& 0x40 = 0x40 then do
      let (high, r) ← MR.of (bodyU cfg r 2)
      MR.reserve ((dataSize + high <<< 8) / 24)
      MR.of (readClauses (readFatClause cfg m) ((dataSize + high <<< 8) / 24) r)
    else do
      let (_, r) ← MR.of (r.advance cfg 2)
      MR.reserve (dataSize / 12)
      MR.of (readClauses (readSmallClause cfg m) (dataSize / 12) r)

/-- The clauses of a fat body, when the header announces them (method_body.rs:112). -/
def readMoreSectionsR (cfg : Cfg) (m : Metadata) (b : Nat) (r : Reader) : MR (List ExceptionClause) :=
  if b &&& 0x8 = 0x8 then readClauseSectionR cfg m r else pure []

/-- `MethodBody::load` (method_body.rs:22-245). -/
def loadBodyR (cfg : Cfg) (m : Metadata) (rva : Nat) : MR MethodBody := do
  let off ← MR.of (Res.mapErr (fun _ => "Cannot find method body") (resolveRva cfg rva m.peInfo.sections))
  let d ← MR.of (sliceFrom m.peData off)
  let r := Reader.new d
  let (b, r) ← MR.of (bodyU cfg r 1)
  if b &&& 0x3 = 0x2 then do
    let (code, _) ← MR.of (bodyBytes cfg r ((b &&& 0xfc) >>> 2))
    pure { code, maxStack := 8, locals := [], initLocals := decide (b &&& 0x10 = 0x10), clauses := [] }
  else if b &&& 0x3 = 0x3 then do
    let (_, r) ← MR.of (r.advance cfg 1)
    let (maxStack, r) ← MR.of (bodyU cfg r 2)
    let (codeSize, r) ← MR.of (bodyU cfg r 4)
    let (token, r) ← MR.of (bodyU cfg r 4)
    let locals ← readLocalsR cfg m ⟨token⟩
    let (code, r) ← MR.of (bodyBytes cfg r codeSize)
    let clauses ← readMoreSectionsR cfg m b r
    pure { code, maxStack, locals, initLocals := decide (b &&& 0x10 = 0x10), clauses }
  else MR.of (M.lift (.err "Invalid method body"))

/-- `BlobReader::read_field_signature` (blob/field_signature.rs:10-27). -/
def readFieldSigR (cfg : Cfg) (r : Reader) : Room (ElementType × Reader) := do
  let (b, r) ← Room.of (readByte cfg r)
  if b ≠ 0x6 then Room.of (.err "Expected 0x6 at the start of field signature")
  else do
    let b ← Room.of (peekByte cfg r)
    if b = 0x1f ∨ b = 0x20 then Room.of .panic
    else readElemR cfg (r.data.length - r.pos + 1) r

/-- `Field::load` (field.rs:13-40). -/
def loadFieldR (cfg : Cfg) (m : Metadata) (t i offset : Nat) : MR FieldRec := do
  let row ← MR.of (tableIndex cfg m.tables.field i)
  let name ← MR.of (m.string! row.name)
  let r ← MR.of (blobHeapReader cfg m.blobHeap row.signature)
  let (e, _) ← MR.ofRoom (readFieldSigR cfg r)
  let fieldType ← MR.of (typeFor cfg m e)
  pure { name, fieldType, declaringType := t, isStatic := row.attributes.isStatic, offset }

/-- The loop of `Type::resolve_fields` (type.rs:152-164). -/
def loadFieldsR (cfg : Cfg) (fuel : Nat) (m : Metadata) (t : Nat) : Nat → Nat → Nat → MR (List FieldRec)
  | 0, _, _ => pure []
  | n + 1, i, offset => do
    let f ← loadFieldR cfg m t i offset
    MR.of (M.modify (·.updType t fun tr => { tr with fields := tr.fields ++ [f] }))
    let s ← MR.of (M.view fun w => typeSize cfg w fuel f.fieldType)
    let offset ← MR.of (uadd cfg 64 offset s)
    let fs ← loadFieldsR cfg fuel m t n (i + 1) offset
    pure (f :: fs)

/-- `Type::resolve_fields` (type.rs:120-167): `reserve(field_count)` in line 139. -/
def resolveFieldsR (cfg : Cfg) (fuel : Nat) (m : Metadata) (t i : Nat) : MR (List FieldRec) := do
  let (start, n) ← MR.of (ownedRun cfg m (·.fieldList) m.tables.field.length i)
  let _ ← MR.of (reserveRun n)
  MR.reserve n
  let _ ← MR.of (uadd cfg 64 start n)
  let offset ← MR.of (M.view fun w => baseSize cfg fuel w t)
  loadFieldsR cfg fuel m t n start offset

/-- The `implementation` of a method (method.rs:29-63): `with_capacity(signature.params.len())` in line 31. -/
def loadImplR (cfg : Cfg) (m : Metadata) (t : Nat) (row : MethodDefRow) (name : Name) (sig : MethodSig) : MR MethodImpl := do
  if row.implAttributes.internalCall then do
    MR.reserve sig.params.length
    let ps ← MR.of (paramNames cfg m sig.params)
    let ret ← MR.of (typeFor cfg m sig.returnType)
    let rr ← MR.of (M.view (·.typeAt ret))
    let dr ← MR.of (M.view (·.typeAt t))
    let f ← MR.of (Res.ofOption "No internal method with signature" (internalMethods.lookup (internalCallName name dr.fullName rr.name ps)))
    pure (.internal f)
  else if row.attributes.pinvokeImpl then MR.of (M.lift .panic)
  else if row.attributes.isAbstract then pure .none
  else do
    let b ← loadBodyR cfg m row.rva
    pure (.il b)

/-- `Method::load` (method.rs:13-109): `reserve(param_count)` in line 84. -/
def loadMethodR (cfg : Cfg) (m : Metadata) (t i : Nat) : MR MethodRec := do
  let row ← MR.of (tableIndex cfg m.tables.methodDef i)
  let name ← MR.of (m.string! row.name)
  let r ← MR.of (blobHeapReader cfg m.blobHeap row.signature)
  let (sig, _) ← MR.ofRoom (readMethodSigR cfg r)
  let impl ← loadImplR cfg m t row name sig
  let returnType ← MR.of (typeFor cfg m sig.returnType)
  MR.reserve sig.params.length
  let params ← MR.of (loadParams cfg m sig.params row.paramList)
  pure { name, declaringType := t, returnType, params, impl, isStatic := row.attributes.isStatic,
         isVirtual := row.attributes.isVirtual, isAbstract := row.attributes.isAbstract }

/-- The loop of `Type::resolve_methods` (type.rs:190-194). -/
def loadMethodsR (cfg : Cfg) (m : Metadata) (t : Nat) : Nat → Nat → MR Unit
  | 0, _ => pure ()
  | n + 1, i => do
    let x ← loadMethodR cfg m t i
    MR.of (M.modify (·.updType t fun tr => { tr with methods := tr.methods ++ [x] }))
    loadMethodsR cfg m t n (i + 1)

/-- `Type::resolve_methods` (type.rs:169-197): `reserve(method_count)` in line 185. -/
def resolveMethodsR (cfg : Cfg) (m : Metadata) (t i : Nat) : MR Unit := do
  let (start, n) ← MR.of (ownedRun cfg m (·.methodList) m.tables.methodDef.length i)
  let _ ← MR.of (reserveRun n)
  MR.reserve n
  let _ ← MR.of (uadd cfg 64 start n)
  loadMethodsR cfg m t n start

/-- `Type::resolve` (type.rs:57-69). -/
def resolveTypeR (cfg : Cfg) (fuel : Nat) (m : Metadata) (t i : Nat) : MR (List FieldRec) := do
  MR.of (resolveBase cfg m t i)
  MR.of (resolveKind cfg m t i)
  let fs ← resolveFieldsR cfg fuel m t i
  resolveMethodsR cfg m t i
  pure fs

/-- The loop of assembly.rs:114-116. -/
def resolveTypesR (cfg : Cfg) (fuel : Nat) (m : Metadata) : List Nat → Nat → MR (List FieldRec)
  | [], _ => pure []
  | t :: ts, i => do
    let fs ← resolveTypeR cfg fuel m t i
    let rest ← resolveTypesR cfg fuel m ts (i + 1)
    pure (fs ++ rest)

/-- `Assembly::load` after the references have been loaded (assembly.rs:34-187): `with_capacity` in lines 35, 75, 108, 169. -/
def loadSelfR (cfg : Cfg) (fuel : Nat) (m : Metadata) (name : Name) : MR AssemblyRec := do
  MR.reserve m.tables.memberRef.length
  let methodRefs ← MR.of (loadMemberRefs cfg m m.tables.memberRef)
  MR.reserve m.tables.typeRef.length
  let typeRefs ← MR.of (loadTypeRefs m m.tables.typeRef)
  let id ← MR.of (M.view fun w => .ok w.nextAssembly)
  MR.of (M.modify fun w => { w with nextAssembly := w.nextAssembly + 1 })
  MR.reserve m.tables.typeDef.length
  let types ← MR.of (loadTypes cfg id m m.tables.typeDef.length 0)
  let fields ← resolveTypesR cfg fuel m types 0
  MR.of (loadInterfaces cfg m m.tables.interfaceImpl)
  MR.reserve m.tables.methodDef.length
  let methodDefs ← MR.of (M.view fun w => collectMethods w types)
  let a : AssemblyRec := { id, name, types, entryPoint := none, userStringData := m.userStringData, methodDefs,
                           methodRefs, fields, typeRefs }
  let entryPoint ← MR.of (resolveEntryPoint cfg a m.entryPoint)
  let a := { a with entryPoint }
  MR.of (M.modify fun w => { w with assemblies := w.assemblies ++ [a] })
  pure a

/-- `Metadata::read` (mod.rs:82-234). -/
def readMetadataR (cfg : Cfg) (data : Bytes) : Room Metadata := do
  let info ← Room.of (parsePe cfg data)
  let cli ← Room.of (readCliHeader cfg data info)
  let metadata ← Room.of (metadataSlice cfg data info cli)
  let s ← Room.of (readMetadataRoot cfg metadata)
  let strings ← Room.of (Res.unwrap s.strings)
  let strings ← Room.of (streamBytes cfg metadata strings)
  let userStrings ← Room.of (userStringBytes cfg metadata s.userStrings)
  let blob ← Room.of (Res.unwrap s.blob)
  let blob ← Room.of (streamBytes cfg metadata blob)
  let guid ← Room.of (Res.unwrap s.guid)
  let guid ← Room.of (streamBytes cfg metadata guid)
  let tables ← Room.of (Res.unwrap s.tables)
  let tables ← Room.of (streamBytes cfg metadata tables)
  let tables ← readTableStreamR cfg tables
  let entryPoint ← Room.of (entryPointHandle cfg cli)
  pure { peData := data, peInfo := info, cliHeader := cli, metadata, stringsHeap := StringsHeap.new strings,
         userStringData := userStrings, blobHeap := blob, guidHeap := guid, tables, entryPoint }

/-- `Assembly::load` (assembly.rs:13-187) of a file, with the memory requested for what is in that file: `refs` is the loading of
the references, whose files have requests of their own. -/
def loadFileR (cfg : Cfg) (refs : Metadata → M Unit) (fuel : Nat) (data : Bytes) : MR AssemblyRec := do
  let m ← MR.ofRoom (readMetadataR cfg data)
  let row ← MR.of (tableIndex cfg m.tables.assembly 1)
  let name ← MR.of (m.string! row.name)
  MR.of (refs m)
  loadSelfR cfg fuel m name

end Clr
