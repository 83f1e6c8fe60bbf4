import Verif.Model.Interp
import Verif.Model.TableRows
/-!
# Addresses of typed accesses

The other model files treat memory bytewise. Rust requires more of `*(p as *mut T)`, of `slice::from_raw_parts` and of
references: the address must be a multiple of the alignment of `T`; otherwise the behaviour is undefined. Here the
functions that make such accesses are written a second time, with the address checked first. References to the headers of
objects need no check, the headers are `#[repr(packed)]` (object.rs:17, array.rs:9, string.rs:6), and neither do accesses to
bytes or to elements of a slice that has been made.
-/

namespace Clr

/-- Where the system has put the buffers: the code of each method (`Rc<[u8]>`, method_body.rs), and the successive buffers of
the vectors `stackalloc` (interpreter/mod.rs:20) and `memory` (gc/mod.rs:23). -/
structure Placement where
  code : MethodRec → Nat
  stack : Nat → Nat
  heap : Nat → Nat

namespace Strict

/-- An access to a type of alignment `n` at an address. -/
def aligned (address n : Nat) : X Unit := X.lift (if address % n = 0 then .ok () else .ub)

section
variable (pl : Placement)

/-- `StackFrame::il_get` (stack_frame.rs:485-489); the types read (`i8`, `u8`, `u16`, `i32`, `u32`, `f32`, `MetadataToken`, `i64`,
`f64`) have alignments equal to their sizes. -/
def fetch (fr : Frame) (ip n : Nat) : X Nat := do
  aligned (pl.code fr.method + ip) n
  Clr.fetch fr.code ip n

/-- `il_get` of a branch. -/
def fetchInt (fr : Frame) (ip n : Nat) : X Int := do
  let x ← fetch pl fr ip n
  pure (BitVec.ofNat (8 * n) x).toInt

/-- `stackalloc` and the slice of `Value`s, of alignment 8, made of its result (stack_frame.rs:45-51, 448-457). -/
def stackAlloc (n : Nat) : X Region := do
  let r ← Clr.stackAlloc n
  match r with
  | .slots gen base _ => aligned (pl.stack gen + 16 * base) 8
  | .host => pure ()
  pure r

/-- Part of the heap, `off` bytes after a pointer. -/
def heapAt (p : Ptr) (off : Nat) : Nat := pl.heap p.gen + p.off + off

/-- `GcHeap::alloc_string` (gc/mod.rs:79-97); `data_mut` makes a slice of `u16` (string.rs:35-37). -/
def allocString (cfg : Cfg) (units : List Nat) : X Ptr := do
  let data ← umul cfg 64 2 units.length
  let size ← uadd cfg 64 13 data
  let p ← onHeap (·.bump cfg size)
  orFlags p 4
  let t ← X.view fun v => Res.unwrap (v.world.getType "System.String".toList)
  let id ← typeId t
  poke p 1 (leBytes 4 id)
  poke p 5 (leBytes 8 units.length)
  aligned (heapAt pl p 13) 2
  poke p 13 (unitBytes units)
  pure p

/-- `Object::set` (object.rs:80-82, raw_object.rs:15-31): the alignment of a number is its size. -/
def setField (p : Ptr) (f : FieldRec) (a : Value) : X Unit := do
  rawObject p
  let bs ← valueBytes a
  aligned (heapAt pl p (5 + f.offset)) bs.length
  poke p (5 + f.offset) bs

/-- `Object::get` (object.rs:84-86, raw_object.rs:33-62). -/
def getField (p : Ptr) (f : FieldRec) : X Value := do
  rawObject p
  let (n, mk) ← X.view fun v => do
    let tr ← v.world.typeAt f.fieldType
    let ps ← Res.unwrap v.world.primitives
    fieldKind v.world tr.fullName (fieldKinds ps)
  aligned (heapAt pl p (5 + f.offset)) n
  let bs ← peekBytes p (5 + f.offset) n
  pure (mk (leNat bs))

/-- `Array::as_slice::<i32>`, `as_mut_slice::<i32>` (array.rs:157-187). -/
def intSlice (p : Ptr) : X Nat := do
  let ps ← X.view fun v => Res.unwrap v.world.primitives
  let id ← typeId ps.int
  let hd ← peekBytes p 0 17
  let n := leNat (hd.drop 9)
  if leNat ((hd.drop 5).take 4) = id then do
    aligned (heapAt pl p 17) 4
    let _ ← peekBytes p 17 (4 * n)
    pure n
  else do
    let _ ← X.view fun v => v.world.typeAt (leNat ((hd.drop 1).take 4))
    let _ ← X.view fun v => Res.unwrap (v.world.getType "System.Int32[]".toList)
    (Res.err "Cannot use the array as System.Int32[]" : Res Nat)

/-- `arr[i] = x` (stack_frame.rs:397). -/
def setInt (p : Ptr) (i : Nat) (x : BitVec 32) : X Unit := do
  let n ← intSlice pl p
  if i < n then poke p (17 + 4 * i) (leBytes 4 x.toNat) else (Res.panic : Res Unit)

/-- `arr[i]` (stack_frame.rs:411). -/
def getInt (p : Ptr) (i : Nat) : X (BitVec 32) := do
  let n ← intSlice pl p
  if i < n then do
    let bs ← peekBytes p (17 + 4 * i) 4
    pure (BitVec.ofNat 32 (leNat bs))
  else (Res.panic : Res (BitVec 32))

/-- `ManagedString::data` (string.rs:29-31). -/
def stringData (p : Ptr) : X (List Nat) := do
  let hd ← peekBytes p 0 13
  let n := leNat (hd.drop 5)
  aligned (heapAt pl p 13) 2
  let bs ← peekBytes p 13 (2 * n)
  pure ((chunks 2 n bs).map leNat)

/-- The native functions (internal_method/System_Console.rs:6-14, System_String.rs:6-12). -/
def callNative (m : InternalMethod) (params : Region) : X (Option Value) :=
  match m with
  | .consoleWrite => do
    match ← readSlot params 0 with
    | .object p => do
      let f ← objectFlags p
      if f &&& 4 = 0 then (Res.panic : Res (Option Value)) else do
        let us ← stringData pl p
        let s ← Res.unwrap (fromUtf16 us)
        X.registry (M.modify fun w => { w with output := w.output ++ s })
        pure none
    | _ => (Res.panic : Res (Option Value))
  | .stringGetItem | .stringGetLength => (Res.panic : Res (Option Value))

variable (cfg : Cfg) (ops : FloatOps) (tf : Nat) (fr : Frame)

/-- A constant from the code (stack_frame.rs:77-96). -/
def immediate (n : Nat) (mk : Nat → Value) (ip : Nat) : X Action := do
  let x ← fetch pl fr ip n
  push (mk x)
  pure (.next (ip + n))

/-- A load with an index of `n` bytes (stack_frame.rs:98-105, 123-130). -/
def loadFrom (r : Region) (n ip : Nat) : X Action := do
  let i ← fetch pl fr ip n
  loadAt' r i (ip + n)

/-- A store with an index of `n` bytes (stack_frame.rs:110-117, 135-142). -/
def storeTo (r : Region) (n ip : Nat) : X Action := do
  let i ← fetch pl fr ip n
  storeAt r i (ip + n)

/-- An unconditional branch (stack_frame.rs:156-163). -/
def branch (n ip : Nat) : X Action := do
  let d ← fetchInt pl fr ip n
  pure (.next (jump (ip + n) d))

/-- `brfalse`, `brtrue` (stack_frame.rs:164-187). -/
def branchIf (want : Bool) (n ip : Nat) : X Action := do
  let d ← fetchInt pl fr ip n
  let a ← pop
  let z ← a.isNullOrZero ops
  pure (.next (if z = want then jump (ip + n) d else ip + n))

/-- `beq` and the comparing branches (stack_frame.rs:188-267). -/
def branchCmp (rel : Value → Value → Res Bool) (n ip : Nat) : X Action := do
  let b ← pop
  let a ← pop
  let d ← fetchInt pl fr ip n
  let c ← rel a b
  pure (.next (if c then jump (ip + n) d else ip + n))

/-- `call` (stack_frame.rs:150-154). -/
def doCall (ip : Nat) : X Action := do
  let t ← fetch pl fr ip 4
  pure (.call ⟨t⟩ none (ip + 4))

/-- `newobj` (stack_frame.rs:345-357). -/
def doNewobj (ip : Nat) : X Action := do
  let t ← fetch pl fr ip 4
  let m ← fr.assembly.resolveMethod cfg ⟨t⟩
  let m ← Res.unwrap m
  let p ← allocObject cfg tf m.declaringType
  insertBelow cfg m.params.length (.object p)
  pure (.call ⟨t⟩ (some (.object p)) (ip + 4))

/-- `stfld` (stack_frame.rs:358-366). -/
def doStfld (ip : Nat) : X Action := do
  let t ← fetch pl fr ip 4
  let f ← fr.assembly.resolveField cfg ⟨t⟩
  let f ← Res.unwrap f
  let a ← pop
  match ← pop with
  | .object p => do
    setField pl p f a
    pure (.next (ip + 4))
  | _ => (Res.err "Cannot store field in a value that is not an object" : Res Action)

/-- `ldfld` (stack_frame.rs:367-374). -/
def doLdfld (ip : Nat) : X Action := do
  let t ← fetch pl fr ip 4
  let f ← fr.assembly.resolveField cfg ⟨t⟩
  let f ← Res.unwrap f
  match ← pop with
  | .object p => do
    let a ← getField pl p f
    push a
    pure (.next (ip + 4))
  | _ => (Res.err "Cannot load field from a value that is not an object" : Res Action)

/-- `newarr` (stack_frame.rs:376-382). -/
def doNewarr (ip : Nat) : X Action := do
  let t ← fetch pl fr ip 4
  let e ← fr.assembly.resolveType cfg ⟨t⟩
  let e ← Res.unwrap e
  let n ← popInt
  let p ← allocArray cfg tf e (asIndex n)
  push (.object p)
  pure (.next (ip + 4))

/-- `stelem.i4` (stack_frame.rs:384-398). -/
def doStelem (ip : Nat) : X Action := do
  let x ← popInt
  let i ← popInt
  let p ← popArray
  setInt pl p (asIndex i) x
  pure (.next ip)

/-- `ldelem.i4` (stack_frame.rs:399-412). -/
def doLdelem (ip : Nat) : X Action := do
  let i ← popInt
  let p ← popArray
  let x ← getInt pl p (asIndex i)
  push (.i32 x)
  pure (.next ip)

/-- `ldstr` (stack_frame.rs:414-425). -/
def doLdstr (ip : Nat) : X Action := do
  let t ← fetch pl fr ip 4
  let s ← getString cfg fr.assembly.userStringData ⟨t⟩
  let s ← Res.ofOption "Cannot find string for token" s
  let p ← allocString pl cfg s
  push (.object p)
  pure (.next (ip + 4))

/-- The `match` on the opcode (stack_frame.rs:55-434): the instructions that make typed accesses; the others are as before. -/
def exec (op : Op) (ip : Nat) : X Action :=
  match op with
  | .Ldc_I4_S => immediate pl fr 1 (fun n => .i32 ((BitVec.ofNat 8 n).signExtend 32)) ip
  | .Ldc_I4 => immediate pl fr 4 (fun n => .i32 n) ip
  | .Ldc_I8 => immediate pl fr 8 (fun n => .i64 n) ip
  | .Ldc_R4 => immediate pl fr 4 (fun n => .f32 n) ip
  | .Ldc_R8 => immediate pl fr 8 (fun n => .f64 n) ip
  | .Ldloc => loadFrom pl fr fr.locals 2 ip
  | .Ldloc_S => loadFrom pl fr fr.locals 1 ip
  | .Stloc => storeTo pl fr fr.locals 2 ip
  | .Stloc_S => storeTo pl fr fr.locals 1 ip
  | .Ldarg_S => loadFrom pl fr fr.params 1 ip
  | .Ldarg => loadFrom pl fr fr.params 4 ip
  | .Starg_S => storeTo pl fr fr.params 1 ip
  | .Starg => storeTo pl fr fr.params 4 ip
  | .Call => doCall pl fr ip
  | .Br_S => branch pl fr 1 ip
  | .Br => branch pl fr 4 ip
  | .Brfalse => branchIf pl ops fr true 4 ip
  | .Brfalse_S => branchIf pl ops fr true 1 ip
  | .Brtrue => branchIf pl ops fr false 4 ip
  | .Brtrue_S => branchIf pl ops fr false 1 ip
  | .Beq => branchCmp pl fr (eqTop ops) 4 ip
  | .Beq_S => branchCmp pl fr (eqTop ops) 1 ip
  | .Bge => branchCmp pl fr (Value.ge ops) 4 ip
  | .Bge_S => branchCmp pl fr (Value.ge ops) 1 ip
  | .Bgt => branchCmp pl fr (Value.gt ops) 4 ip
  | .Bgt_S => branchCmp pl fr (Value.gt ops) 1 ip
  | .Ble => branchCmp pl fr (Value.le ops) 4 ip
  | .Ble_S => branchCmp pl fr (Value.le ops) 1 ip
  | .Blt => branchCmp pl fr (Value.lt ops) 4 ip
  | .Blt_S => branchCmp pl fr (Value.lt ops) 1 ip
  | .Newobj => doNewobj pl cfg tf fr ip
  | .Stfld => doStfld pl cfg fr ip
  | .Ldfld => doLdfld pl cfg fr ip
  | .Newarr => doNewarr pl cfg tf fr ip
  | .Stelem_I4 => doStelem pl ip
  | .Ldelem_I4 => doLdelem pl ip
  | .Ldstr => doLdstr pl cfg fr ip
  | op => Clr.exec cfg ops tf fr op ip

/-- One round of the loop (stack_frame.rs:53-435). -/
def step (ip : Nat) : X Action := do
  let (op, ip) ← fetchOp fr.code ip
  exec pl cfg ops tf fr op ip

end

/-- A destructor, as `X.finally'`; after undefined behaviour nothing is certain, the destructor's doings included. -/
def finally' {α : Type} (x : X α) (f : VM → Res VM) : X α := fun v =>
  match (x v).1 with
  | .ub => (.ub, (x v).2)
  | _ => X.finally' x f v

/-- `Interpreter::execute` (interpreter/mod.rs:37-43), as `Clr.invoke`. -/
def invoke (pl : Placement) (cfg : Cfg) (run : Frame → Nat → X (Option Value)) (m : MethodRec) (params : Region) : X (Option Value) :=
  match m.impl with
  | .il body => do
    let t ← X.view fun v => v.world.typeAt m.declaringType
    let a ← X.view fun v => Res.unwrap (v.world.assemblies.find? (·.id = t.assembly))
    let outer ← X.update fun v => .ok (v.allocated, { v with allocated := 0 })
    finally' (do
      let locals ← stackAlloc pl body.locals.length
      run { method := m, assembly := a, code := body.code, locals, params } 0) (release cfg outer)
  | .internal f => callNative pl f params
  | .none => (Res.panic : Res (Option Value))

/-- `StackFrame::method_call` (stack_frame.rs:438-470). -/
def callMethod (pl : Placement) (cfg : Cfg) (run : Frame → Nat → X (Option Value)) (fr : Frame) (token : Token) : X Unit := do
  let m ← fr.assembly.resolveMethod cfg token
  let m ← Res.ofOption "Cannot find method for metadata token" m
  let n := if m.isStatic then m.params.length else m.params.length + 1
  let params ← stackAlloc pl n
  popInto params n
  match ← invoke pl cfg run m params with
  | some a => push a
  | none => pure ()

/-- `StackFrame::execute` (stack_frame.rs:38-436) after the allocation of the locals. -/
def loop (pl : Placement) (cfg : Cfg) (ops : FloatOps) (tf : Nat) : Nat → Frame → Nat → X (Option Value)
  | 0, _, _ => (Res.timeout : Res (Option Value))
  | fuel + 1, fr, ip => do
    match ← step pl cfg ops tf fr ip with
    | .next ip => loop pl cfg ops tf fuel fr ip
    | .ret a => pure a
    | .call token after ip => do
      callMethod pl cfg (loop pl cfg ops tf fuel) fr token
      match after with
      | some a => push a
      | none => pure ()
      loop pl cfg ops tf fuel fr ip

/-- `ClrLite::execute` (vm/mod.rs:130-166). -/
def hostExecute (pl : Placement) (cfg : Cfg) (ops : FloatOps) (tf fuel : Nat) (w : World) (m : MethodRec) (params : List Value) :
    Res RunResult × VM :=
  if m.isStatic then
    let r := invoke pl cfg (loop pl cfg ops tf fuel) m .host { world := w, host := params }
    (hostResult r.1, r.2)
  else (.ok (.err "Cannot use non-static method as entry point"), { world := w, host := params })

/-! ## Reading -/

/-- `BinaryReader::read::<T>` for a number of `w` bytes (binary_reader/src/lib.rs:31-43) from data at address `base`. -/
def readU (base : Nat) (cfg : Cfg) (r : Reader) (w : Nat) : Res (Option Nat × Reader) := do
  let e ← uadd cfg 64 r.pos w
  if e > r.data.length then pure (none, r)
  else if (base + r.pos) % w = 0 then r.readU cfg w
  else .ub

/-- `TableReader::_read` (tables/mod.rs), as `Clr.trRead`. -/
def trRead (base : Nat) (cfg : Cfg) (r : Reader) (w : Nat) : Res (Nat × Reader) := do
  let (x, r) ← readU base cfg r w
  let x ← Res.ofOption "Unexpected EOF" x
  pure (x, r)

/-- A column of two or four bytes, as `Clr.readWide`. -/
def readWide (base : Nat) (cfg : Cfg) (wide : Bool) (r : Reader) : Res (Nat × Reader) :=
  if wide then trRead base cfg r 4 else trRead base cfg r 2

/-- A coded index, as `Clr.readCoded`. -/
def readCoded (base : Nat) (cfg : Cfg) (t : TableCtx) (k : CodedKind) (r : Reader) : Res (Coded × Reader) := do
  let (data, r) ← readWide base cfg (t.wideCoded k) r
  let tag := data &&& k.tagMask
  let index := (data &&& (2 ^ 64 - 1 - k.tagMask)) >>> k.tagBits
  let table ← Res.ofOption "Invalid tag" (k.decodeTag tag)
  pure (⟨table, index⟩, r)

/-- `TypeDef::read_row` (type_def.rs:149-158). -/
def readTypeDefRow (base : Nat) (cfg : Cfg) (t : TableCtx) (r : Reader) : Res (TypeDefRow × Reader) := do
  let (flags, r) ← trRead base cfg r 4
  let attributes ← TypeAttributes.fromRaw flags
  let (name, r) ← readWide base cfg t.wideString r
  let (nspace, r) ← readWide base cfg t.wideString r
  let (baseType, r) ← readCoded base cfg t .typeDefOrRef r
  let (fieldList, r) ← readWide base cfg (t.wideTable TableType.field.code) r
  let (methodList, r) ← readWide base cfg (t.wideTable TableType.methodDef.code) r
  pure (⟨attributes, name, nspace, baseType, fieldList, methodList⟩, r)

end Strict
end Clr
