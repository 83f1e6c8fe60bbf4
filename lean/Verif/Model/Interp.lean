import Verif.Model.Machine
import Verif.Model.Opcodes
/-!
# The interpreter: `clr_lite/src/vm/interpreter/stack_frame.rs`, `interpreter/mod.rs`, `ClrLite::execute`

The loop over instructions and the recursion over calls take fuel; `timeout` stands for an execution that has not ended
within the fuel. Exhaustion of the machine's stack by deep recursion is not modelled.
-/

namespace Clr

/-- The parts of `struct StackFrame` that stay fixed while the frame runs (stack_frame.rs:9-18), with the two slices
`locals` (stack_frame.rs:45-51) and `params`. -/
structure Frame where
  method : MethodRec
  assembly : AssemblyRec
  code : Bytes
  locals : Region
  params : Region
deriving DecidableEq, Repr

/-- What an instruction asks for next: the next instruction; the end of the method; or a call, after which the
instruction pushes `after` (if any) and continues. -/
inductive Action where
  | next (ip : Nat)
  | ret (v : Option Value)
  | call (token : Token) (after : Option Value) (ip : Nat)
deriving DecidableEq, Repr

/-- `StackFrame::get_opcode` (stack_frame.rs:472-482): `Opcodes::Prefix7` is 0xf8. -/
def fetchOp (code : Bytes) (ip : Nat) : Res (Op × Nat) := do
  let b ← Res.unwrap code[ip]?
  if b.toNat > 0xf8 then do
    let c ← Res.unwrap code[ip + 1]?
    let op ← Res.unwrap (Op.ofCode (c.toNat ||| (b.toNat <<< 8)))
    pure (op, ip + 2)
  else do
    let op ← Res.unwrap (Op.ofCode b.toNat)
    pure (op, ip + 1)

/-- `StackFrame::il_get` (stack_frame.rs:485-489): an unchecked read of `n` bytes. -/
def fetch (code : Bytes) (ip n : Nat) : Res Nat :=
  if ip + n ≤ code.length then .ok (leNat ((code.drop ip).take n)) else .ub

/-- `il_get::<i8>()` and `il_get::<i32>()` of a branch. -/
def fetchInt (code : Bytes) (ip n : Nat) : Res Int := do
  let x ← fetch code ip n
  pure (BitVec.ofNat (8 * n) x).toInt

/-- `((self.ip as isize) + offset as isize) as usize` (stack_frame.rs:158 and the other branches); code is shorter than
2^63 bytes, so the sum does not overflow. -/
def jump (ip : Nat) (d : Int) : Nat := (((ip : Int) + d) % 2 ^ 64).toNat

/-- `{:04x}`. -/
def hex4 (n : Nat) : String :=
  let s := String.ofList (Nat.toDigits 16 n)
  String.ofList (List.replicate (4 - s.length) '0') ++ s

section
variable (cfg : Cfg) (ops : FloatOps) (tf : Nat) (fr : Frame)

/-- A constant (stack_frame.rs:67-76). -/
def constant (a : Value) (ip : Nat) : X Action := do
  push a
  pure (.next ip)

/-- A constant from the code (stack_frame.rs:77-96). -/
def immediate (n : Nat) (mk : Nat → Value) (ip : Nat) : X Action := do
  let x ← fetch fr.code ip n
  push (mk x)
  pure (.next (ip + n))

/-- A load from a slice with a fixed index (stack_frame.rs:106-109, 131-134). -/
def loadAt' (r : Region) (i ip : Nat) : X Action := do
  let a ← readSlot r i
  push a
  pure (.next ip)

/-- A load from a slice with an index of `n` bytes (stack_frame.rs:98-105, 123-130). -/
def loadFrom (r : Region) (n ip : Nat) : X Action := do
  let i ← fetch fr.code ip n
  loadAt' r i (ip + n)

/-- A store into a slice with a fixed index (stack_frame.rs:118-121). -/
def storeAt (r : Region) (i ip : Nat) : X Action := do
  let a ← pop
  writeSlot r i a
  pure (.next ip)

/-- A store into a slice with an index of `n` bytes (stack_frame.rs:110-117, 135-142). -/
def storeTo (r : Region) (n ip : Nat) : X Action := do
  let i ← fetch fr.code ip n
  storeAt r i (ip + n)

/-- An unconditional branch (stack_frame.rs:156-163). -/
def branch (n ip : Nat) : X Action := do
  let d ← fetchInt fr.code ip n
  pure (.next (jump (ip + n) d))

/-- `brfalse`, `brtrue` (stack_frame.rs:164-187): the branch is taken when the test for zero gives `want`. -/
def branchIf (want : Bool) (n ip : Nat) : X Action := do
  let d ← fetchInt fr.code ip n
  let a ← pop
  let z ← a.isNullOrZero ops
  pure (.next (if z = want then jump (ip + n) d else ip + n))

/-- `beq` and the comparing branches (stack_frame.rs:188-267); `rel` gets the lower operand first. -/
def branchCmp (rel : Value → Value → Res Bool) (n ip : Nat) : X Action := do
  let b ← pop
  let a ← pop
  let d ← fetchInt fr.code ip n
  let c ← rel a b
  pure (.next (if c then jump (ip + n) d else ip + n))

/-- `ceq`, `cgt`, `clt` (stack_frame.rs:269-283). -/
def compareOp (rel : Value → Value → Res Bool) (ip : Nat) : X Action := do
  let b ← pop
  let a ← pop
  let c ← rel a b
  push (.i32 (if c then 1 else 0))
  pure (.next ip)

/-- A binary operation (stack_frame.rs:285-309, 315-329, 334-343). -/
def binary (f : Value → Value → Res Value) (ip : Nat) : X Action := do
  let b ← pop
  let a ← pop
  let c ← f a b
  push c
  pure (.next ip)

/-- A unary operation (stack_frame.rs:310-313, 330-333). -/
def unary (f : Value → Res Value) (ip : Nat) : X Action := do
  let a ← pop
  let c ← f a
  push c
  pure (.next ip)

/-- `a == b` with the top operand first (stack_frame.rs:189-192, 270-272). -/
def eqTop (a b : Value) : Res Bool := .ok (b.eq ops a)

/-- `ret` (stack_frame.rs:59-65): types are compared by full name; both sides are `Option`s and the left one is `Some`
(types are never dropped). -/
def doRet : X Action := do
  let void ← X.view fun v => do
    let r ← v.world.typeAt fr.method.returnType
    match v.world.getType "System.Void".toList with
    | none => .ok false
    | some t => do
      let tr ← v.world.typeAt t
      pure (decide (r.fullName = tr.fullName))
  if void then pure (.ret none)
  else do
    let a ← tryPop
    pure (.ret a)

/-- `dup` (stack_frame.rs:144). -/
def doDup (ip : Nat) : X Action := do
  let a ← peek
  push a
  pure (.next ip)

/-- `pop` (stack_frame.rs:145-147). -/
def doPop (ip : Nat) : X Action := do
  let _ ← pop
  pure (.next ip)

/-- `call` (stack_frame.rs:150-154) up to `method_call`. -/
def doCall (ip : Nat) : X Action := do
  let t ← fetch fr.code ip 4
  pure (.call ⟨t⟩ none (ip + 4))

/-- `newobj` (stack_frame.rs:345-357) up to `method_call`. -/
def doNewobj (ip : Nat) : X Action := do
  let t ← fetch fr.code ip 4
  let m ← fr.assembly.resolveMethod cfg ⟨t⟩
  let m ← Res.unwrap m
  let p ← allocObject cfg tf m.declaringType
  insertBelow cfg m.params.length (.object p)
  pure (.call ⟨t⟩ (some (.object p)) (ip + 4))

/-- `stfld` (stack_frame.rs:358-366); the value printed in the message is left out. -/
def doStfld (ip : Nat) : X Action := do
  let t ← fetch fr.code ip 4
  let f ← fr.assembly.resolveField cfg ⟨t⟩
  let f ← Res.unwrap f
  let a ← pop
  match ← pop with
  | .object p => do
    setField p f a
    pure (.next (ip + 4))
  | _ => (Res.err "Cannot store field in a value that is not an object" : Res Action)

/-- `ldfld` (stack_frame.rs:367-374); the value printed in the message is left out. -/
def doLdfld (ip : Nat) : X Action := do
  let t ← fetch fr.code ip 4
  let f ← fr.assembly.resolveField cfg ⟨t⟩
  let f ← Res.unwrap f
  match ← pop with
  | .object p => do
    let a ← getField p f
    push a
    pure (.next (ip + 4))
  | _ => (Res.err "Cannot load field from a value that is not an object" : Res Action)

/-- `i32 as usize`: sign extension. -/
def asIndex (x : BitVec 32) : Nat := (x.signExtend 64).toNat

/-- `newarr` (stack_frame.rs:376-382). -/
def doNewarr (ip : Nat) : X Action := do
  let t ← fetch fr.code ip 4
  let e ← fr.assembly.resolveType cfg ⟨t⟩
  let e ← Res.unwrap e
  let n ← popInt
  let p ← allocArray cfg tf e (asIndex n)
  push (.object p)
  pure (.next (ip + 4))

/-- `stelem.i4` (stack_frame.rs:384-398). -/
def doStelem (ip : Nat) : X Action := do
  let x ← popInt
  let i ← popInt
  let p ← popArray
  setInt p (asIndex i) x
  pure (.next ip)

/-- `ldelem.i4` (stack_frame.rs:399-412). -/
def doLdelem (ip : Nat) : X Action := do
  let i ← popInt
  let p ← popArray
  let x ← getInt p (asIndex i)
  push (.i32 x)
  pure (.next ip)

/-- `ldstr` (stack_frame.rs:414-425); the printed token is left out. -/
def doLdstr (ip : Nat) : X Action := do
  let t ← fetch fr.code ip 4
  let s ← getString cfg fr.assembly.userStringData ⟨t⟩
  let s ← Res.ofOption "Cannot find string for token" s
  let p ← allocString cfg s
  push (.object p)
  pure (.next (ip + 4))

/-- The `match` on the opcode (stack_frame.rs:55-434); `ip` is the address after the opcode. -/
def exec (op : Op) (ip : Nat) : X Action :=
  match op with
  | .Nop => pure (.next ip)
  | .Ret => doRet fr
  | .Ldc_I4_M1 => constant (.i32 (-1)) ip
  | .Ldc_I4_0 => constant (.i32 0) ip
  | .Ldc_I4_1 => constant (.i32 1) ip
  | .Ldc_I4_2 => constant (.i32 2) ip
  | .Ldc_I4_3 => constant (.i32 3) ip
  | .Ldc_I4_4 => constant (.i32 4) ip
  | .Ldc_I4_5 => constant (.i32 5) ip
  | .Ldc_I4_6 => constant (.i32 6) ip
  | .Ldc_I4_7 => constant (.i32 7) ip
  | .Ldc_I4_8 => constant (.i32 8) ip
  | .Ldc_I4_S => immediate fr 1 (fun n => .i32 ((BitVec.ofNat 8 n).signExtend 32)) ip
  | .Ldc_I4 => immediate fr 4 (fun n => .i32 n) ip
  | .Ldc_I8 => immediate fr 8 (fun n => .i64 n) ip
  | .Ldc_R4 => immediate fr 4 (fun n => .f32 n) ip
  | .Ldc_R8 => immediate fr 8 (fun n => .f64 n) ip
  | .Ldloc => loadFrom fr fr.locals 2 ip
  | .Ldloc_S => loadFrom fr fr.locals 1 ip
  | .Ldloc_0 => loadAt' fr.locals 0 ip
  | .Ldloc_1 => loadAt' fr.locals 1 ip
  | .Ldloc_2 => loadAt' fr.locals 2 ip
  | .Ldloc_3 => loadAt' fr.locals 3 ip
  | .Stloc => storeTo fr fr.locals 2 ip
  | .Stloc_S => storeTo fr fr.locals 1 ip
  | .Stloc_0 => storeAt fr.locals 0 ip
  | .Stloc_1 => storeAt fr.locals 1 ip
  | .Stloc_2 => storeAt fr.locals 2 ip
  | .Stloc_3 => storeAt fr.locals 3 ip
  | .Ldarg_S => loadFrom fr fr.params 1 ip
  | .Ldarg => loadFrom fr fr.params 4 ip
  | .Ldarg_0 => loadAt' fr.params 0 ip
  | .Ldarg_1 => loadAt' fr.params 1 ip
  | .Ldarg_2 => loadAt' fr.params 2 ip
  | .Ldarg_3 => loadAt' fr.params 3 ip
  | .Starg_S => storeTo fr fr.params 1 ip
  | .Starg => storeTo fr fr.params 4 ip
  | .Dup => doDup ip
  | .Pop => doPop ip
  | .Call => doCall fr ip
  | .Br_S => branch fr 1 ip
  | .Br => branch fr 4 ip
  | .Brfalse => branchIf ops fr true 4 ip
  | .Brfalse_S => branchIf ops fr true 1 ip
  | .Brtrue => branchIf ops fr false 4 ip
  | .Brtrue_S => branchIf ops fr false 1 ip
  | .Beq => branchCmp fr (eqTop ops) 4 ip
  | .Beq_S => branchCmp fr (eqTop ops) 1 ip
  | .Bge => branchCmp fr (Value.ge ops) 4 ip
  | .Bge_S => branchCmp fr (Value.ge ops) 1 ip
  | .Bgt => branchCmp fr (Value.gt ops) 4 ip
  | .Bgt_S => branchCmp fr (Value.gt ops) 1 ip
  | .Ble => branchCmp fr (Value.le ops) 4 ip
  | .Ble_S => branchCmp fr (Value.le ops) 1 ip
  | .Blt => branchCmp fr (Value.lt ops) 4 ip
  | .Blt_S => branchCmp fr (Value.lt ops) 1 ip
  | .Ceq => compareOp (eqTop ops) ip
  | .Cgt | .Cgt_Un => compareOp (Value.gt ops) ip
  | .Clt | .Clt_Un => compareOp (Value.lt ops) ip
  | .Add => binary (Value.add cfg ops) ip
  | .Sub => binary (Value.sub cfg ops) ip
  | .Mul => binary (Value.mul cfg ops) ip
  | .Div | .Div_Un => binary (Value.div ops) ip
  | .Rem | .Rem_Un => binary (Value.rem ops) ip
  | .Neg => unary (Value.neg cfg ops) ip
  | .And => binary Value.and ip
  | .Or => binary Value.or ip
  | .Xor => binary Value.xor ip
  | .Not => unary Value.not ip
  | .Shl => binary (Value.shl cfg) ip
  | .Shr => binary (Value.shr cfg) ip
  | .Newobj => doNewobj cfg tf fr ip
  | .Stfld => doStfld cfg fr ip
  | .Ldfld => doLdfld cfg fr ip
  | .Newarr => doNewarr cfg tf fr ip
  | .Stelem_I4 => doStelem ip
  | .Ldelem_I4 => doLdelem ip
  | .Ldstr => doLdstr cfg fr ip
  | op => (Res.err ("Use of unimplemented instruction " ++ op.name ++ " at IL_" ++ hex4 (ip - 1)) : Res Action)

/-- One round of the loop (stack_frame.rs:53-435), up to `method_call`. -/
def step (ip : Nat) : X Action := do
  let (op, ip) ← fetchOp fr.code ip
  exec cfg ops tf fr op ip

end

/-- `Interpreter::execute` (interpreter/mod.rs:37-43) and `StackFrame::new` (stack_frame.rs:21-36), with the allocation of
the locals (stack_frame.rs:45-51); `run` is the loop of `StackFrame::execute`. -/
def invoke (cfg : Cfg) (run : Frame → Nat → X (Option Value)) (m : MethodRec) (params : Region) : X (Option Value) :=
  match m.impl with
  | .il body => do
    let t ← X.view fun v => v.world.typeAt m.declaringType
    let a ← X.view fun v => Res.unwrap (v.world.assemblies.find? (·.id = t.assembly))
    let outer ← X.update fun v => .ok (v.allocated, { v with allocated := 0 })
    X.finally' (do
      let locals ← stackAlloc body.locals.length
      run { method := m, assembly := a, code := body.code, locals, params } 0) (release cfg outer)
  | .internal f => callNative f params
  | .none => (Res.panic : Res (Option Value))

/-- The loop that pops the parameters (stack_frame.rs:460-462): the first `n`, last one first. -/
def popInto (r : Region) : Nat → X Unit
  | 0 => pure ()
  | n + 1 => do
    let a ← pop
    writeSlot r n a
    popInto r n

/-- `StackFrame::method_call` (stack_frame.rs:438-470); token and assembly name in the message are left out. -/
def callMethod (cfg : Cfg) (run : Frame → Nat → X (Option Value)) (fr : Frame) (token : Token) : X Unit := do
  let m ← fr.assembly.resolveMethod cfg token
  let m ← Res.ofOption "Cannot find method for metadata token" m
  let n := if m.isStatic then m.params.length else m.params.length + 1
  let params ← stackAlloc n
  popInto params n
  match ← invoke cfg run m params with
  | some a => push a
  | none => pure ()

/-- `StackFrame::execute` (stack_frame.rs:38-436) after the allocation of the locals. -/
def loop (cfg : Cfg) (ops : FloatOps) (tf : Nat) : Nat → Frame → Nat → X (Option Value)
  | 0, _, _ => (Res.timeout : Res (Option Value))
  | fuel + 1, fr, ip => do
    match ← step cfg ops tf fr ip with
    | .next ip => loop cfg ops tf fuel fr ip
    | .ret a => pure a
    | .call token after ip => do
      callMethod cfg (loop cfg ops tf fuel) fr token
      match after with
      | some a => push a
      | none => pure ()
      loop cfg ops tf fuel fr ip

/-- `enum RunResult` (vm/mod.rs:25-39); the ten numeric variants are one. -/
inductive RunResult where
  | void
  | err (m : String)
  | number (v : Value)
  | object (data : Bytes)
deriving DecidableEq, Repr

/-- The end of `ClrLite::execute` (vm/mod.rs:141-165). The `Interpreter` is a temporary of the statement that makes `r`
(vm/mod.rs:140), so it is dropped, and its heap freed, before `raw_data` reads the object. -/
def hostResult : Res (Option Value) → Res RunResult
  | .ok none => .ok .void
  | .ok (some (.object _)) => .ub
  | .ok (some a) => .ok (.number a)
  | .err m => .ok (.err m)
  | .panic => .panic
  | .ub => .ub
  | .timeout => .timeout

/-- `ClrLite::execute` (vm/mod.rs:130-166): the result and the state left behind (of which the host sees the registry and
its parameters). The method name in the message is left out. -/
def hostExecute (cfg : Cfg) (ops : FloatOps) (tf fuel : Nat) (w : World) (m : MethodRec) (params : List Value) :
    Res RunResult × VM :=
  if m.isStatic then
    let r := invoke cfg (loop cfg ops tf fuel) m .host { world := w, host := params }
    (hostResult r.1, r.2)
  else (.ok (.err "Cannot use non-static method as entry point"), { world := w, host := params })

end Clr
