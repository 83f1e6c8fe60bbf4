import Verif.Model.Heap
import Verif.Model.Loader
import Verif.Model.UserString
/-!
# The interpreter's state and the object operations

`struct Interpreter` (interpreter/mod.rs:17-22), the allocation functions of `gc/mod.rs`, and `gc/object.rs`,
`gc/raw_object.rs`, `gc/array.rs`, `gc/string.rs` as far as the interpreter and the native functions use them.
`size_of::<Value>()` is taken to be 16 and sixteen zero bytes to be the value `I8(0)` (the layout rustc chooses on 64-bit
targets), so the byte vector `stackalloc` is modelled by a list of values.
-/

namespace Clr

/-- `Interpreter::stackalloc` (interpreter/mod.rs:20), in slots of 16 bytes; `cap` is its capacity in bytes, `gen` the
number of reallocations. -/
structure Stack where
  slots : List Value := []
  cap : Nat := 1024
  gen : Nat := 0
deriving DecidableEq, Repr

/-- The storage behind a `&mut [Value]` made by the interpreter: the host's parameters, or a part of `stackalloc`. -/
inductive Region where
  | host
  | slots (gen base count : Nat)
deriving DecidableEq, Repr

/-- The state code runs on: the registry, the interpreter's vectors, the host's parameter slice and the
`amount_allocated` of the innermost frame, in slots (stack_frame.rs:14). `operands` has the top of the stack first. -/
structure VM where
  world : World
  heap : Heap := {}
  stack : Stack := {}
  operands : List Value := []
  host : List Value := []
  allocated : Nat := 0
deriving DecidableEq, Repr

/-- Code that can fail and changes the state; the state survives errors and panics. -/
def X (α : Type) := VM → Res α × VM

namespace X

def pure' {α : Type} (a : α) : X α := fun v => (.ok a, v)

def bind' {α β : Type} (x : X α) (f : α → X β) : X β := fun v =>
  match x v with
  | (.ok a, v') => f a v'
  | (.err m, v') => (.err m, v')
  | (.panic, v') => (.panic, v')
  | (.ub, v') => (.ub, v')
  | (.timeout, v') => (.timeout, v')

instance : Monad X where
  pure := pure'
  bind := bind'

/-- Code that does not touch the state. -/
def lift {α : Type} (x : Res α) : X α := fun v => (x, v)

/-- Code that only reads the state. -/
def view {α : Type} (f : VM → Res α) : X α := fun v => (f v, v)

/-- Code that changes the state unless it fails. -/
def update {α : Type} (f : VM → Res (α × VM)) : X α := fun v =>
  match f v with
  | .ok (a, v') => (.ok a, v')
  | .err m => (.err m, v)
  | .panic => (.panic, v)
  | .ub => (.ub, v)
  | .timeout => (.timeout, v)

/-- Code on the registry. -/
def registry {α : Type} (x : M α) : X α := fun v => ((x v.world).1, { v with world := (x v.world).2 })

/-- A destructor `f` that runs however `x` ends; if it fails itself, that is the outcome. -/
def finally' {α : Type} (x : X α) (f : VM → Res VM) : X α := fun v =>
  match f (x v).2 with
  | .ok v' => ((x v).1, v')
  | .err m => (.err m, (x v).2)
  | .panic => (.panic, (x v).2)
  | .ub => (.ub, (x v).2)
  | .timeout => (.timeout, (x v).2)

end X

instance : MonadLift Res X where
  monadLift := X.lift

/-! ## The evaluation stack -/

/-- `StackFrame::push` (stack_frame.rs:491-493). -/
def push (a : Value) : X Unit := X.update fun v => .ok ((), { v with operands := a :: v.operands })

/-- `StackFrame::try_pop` (stack_frame.rs:499-501). -/
def tryPop : X (Option Value) := X.update fun v =>
  match v.operands with
  | [] => .ok (none, v)
  | a :: rest => .ok (some a, { v with operands := rest })

/-- `StackFrame::pop` (stack_frame.rs:495-497). -/
def pop : X Value := do
  let a ← tryPop
  Res.unwrap a

/-- `StackFrame::peek` (stack_frame.rs:525-531). -/
def peek : X Value := X.view fun v => Res.unwrap v.operands.head?

/-- `try_pop_i32().unwrap()` (stack_frame.rs:503-508, 379, 385, 386, 400). -/
def popInt : X (BitVec 32) := do
  match ← pop with
  | .i32 x => pure x
  | _ => (Res.panic : Res (BitVec 32))

/-- `Vec::insert(len - n, a)` on the operand stack (stack_frame.rs:351-354): the position counted from the bottom. -/
def insertBelow (cfg : Cfg) (n : Nat) (a : Value) : X Unit := X.update fun v => do
  let i ← usub cfg 64 v.operands.length n
  if i ≤ v.operands.length then
    pure ((), { v with operands := v.operands.take (v.operands.length - i) ++ a :: v.operands.drop (v.operands.length - i) })
  else .panic

/-! ## Locals and arguments -/

/-- `StackFrame::stackalloc` (stack_frame.rs:533-539) for `n` values; `Vec::resize` as in `Heap.resize`. The sizes are
lengths of vectors in memory, so the multiplications by 16 and the additions do not overflow. -/
def stackAlloc (n : Nat) : X Region := X.update fun v =>
  let base := v.stack.slots.length
  let slots := v.stack.slots ++ List.replicate n (Value.i8 0)
  if 16 * (base + n) ≤ v.stack.cap then
    .ok (.slots v.stack.gen base n,
      { v with stack := { v.stack with slots }, allocated := v.allocated + n })
  else if max (2 * v.stack.cap) (16 * (base + n)) < 2 ^ 63 then
    .ok (.slots (v.stack.gen + 1) base n,
      { v with stack := { slots, cap := max (2 * v.stack.cap) (16 * (base + n)), gen := v.stack.gen + 1 },
               allocated := v.allocated + n })
  else .panic

/-- `Drop for StackFrame` (stack_frame.rs:546-553); `outer` is the `amount_allocated` of the calling frame, which becomes
the innermost one. -/
def release (cfg : Cfg) (outer : Nat) (v : VM) : Res VM := do
  let n ← usub cfg 64 v.stack.slots.length v.allocated
  pure { v with stack := { v.stack with slots := v.stack.slots.take n }, allocated := outer }

/-- `slice[i]`: a panic if `i` is not below the length; undefined behaviour if the vector behind the slice has moved. -/
def readSlot (r : Region) (i : Nat) : X Value := X.view fun v =>
  match r with
  | .host => Res.unwrap v.host[i]?
  | .slots gen base count =>
    if i < count then
      if gen = v.stack.gen then
        match v.stack.slots[base + i]? with
        | some a => .ok a
        | none => .ub
      else .ub
    else .panic

/-- `slice[i] = a`. -/
def writeSlot (r : Region) (i : Nat) (a : Value) : X Unit := X.update fun v =>
  match r with
  | .host => if i < v.host.length then .ok ((), { v with host := v.host.set i a }) else .panic
  | .slots gen base count =>
    if i < count then
      if gen = v.stack.gen ∧ base + i < v.stack.slots.length then
        .ok ((), { v with stack := { v.stack with slots := v.stack.slots.set (base + i) a } })
      else .ub
    else .panic

/-! ## Allocation -/

/-- An update of the heap. -/
def onHeap {α : Type} (f : Heap → Res (α × Heap)) : X α := X.update fun v => do
  let (a, h) ← f v.heap
  pure (a, { v with heap := h })

/-- A write into the heap. -/
def poke (p : Ptr) (off : Nat) (bs : Bytes) : X Unit := onHeap fun h => do
  let h ← h.write p off bs
  pure ((), h)

/-- A read from the heap. -/
def peekBytes (p : Ptr) (off n : Nat) : X Bytes := X.view fun v => v.heap.read p off n

/-- `flags |= …` on the first byte of an object (object.rs:18-20: the header is packed, flags first). -/
def orFlags (p : Ptr) (mask : Nat) : X Unit := do
  let b ← peekBytes p 0 1
  poke p 0 (leBytes 1 (leNat b ||| mask))

/-- `Type::id()`. -/
def typeId (t : Nat) : X Nat := X.view fun v => do
  let tr ← v.world.typeAt t
  pure tr.id

/-- `GcHeap::alloc` (gc/mod.rs:43-58): header of 5 bytes (flags, type id), then the fields. -/
def allocObject (cfg : Cfg) (tf : Nat) (t : Nat) : X Ptr := do
  let s ← X.view fun v => typeSize cfg v.world tf t
  let size ← uadd cfg 64 5 s
  let p ← onHeap (·.bump cfg size)
  let id ← typeId t
  poke p 1 (leBytes 4 id)
  pure p

/-- `GcHeap::alloc_array` (gc/mod.rs:60-77): header of 17 bytes (flags, type id, element type id, length), then the
elements. -/
def allocArray (cfg : Cfg) (tf : Nat) (element length : Nat) : X Ptr := do
  let s ← X.view fun v => typeSize cfg v.world tf element
  let data ← umul cfg 64 s length
  let size ← uadd cfg 64 17 data
  let p ← onHeap (·.bump cfg size)
  orFlags p 2
  let t ← X.registry (arrayType cfg element)
  let id ← typeId t
  poke p 1 (leBytes 4 id)
  let id ← typeId element
  poke p 5 (leBytes 4 id)
  poke p 9 (leBytes 8 length)
  pure p

/-- Bytes of a sequence of UTF-16 units. -/
def unitBytes : List Nat → Bytes
  | [] => []
  | u :: us => leBytes 2 u ++ unitBytes us

/-- `GcHeap::alloc_string` (gc/mod.rs:79-97): header of 13 bytes (flags, type id, length), then the UTF-16 units. -/
def allocString (cfg : Cfg) (units : List Nat) : X Ptr := do
  let data ← umul cfg 64 2 units.length
  let size ← uadd cfg 64 13 data
  let p ← onHeap (·.bump cfg size)
  orFlags p 4
  let t ← X.view fun v => Res.unwrap (v.world.getType "System.String".toList)
  let id ← typeId t
  poke p 1 (leBytes 4 id)
  poke p 5 (leBytes 8 units.length)
  poke p 13 (unitBytes units)
  pure p

/-! ## Objects -/

/-- `Object::header().flags` (object.rs:56-58). Making the reference requires the whole header to be valid. -/
def objectFlags (p : Ptr) : X Nat := do
  let b ← peekBytes p 0 5
  pure (leNat (b.take 1))

/-- `Object::as_raw_object().unwrap()` (object.rs:28-38, 81, 85): panics for arrays and strings. -/
def rawObject (p : Ptr) : X Unit := do
  let f ← objectFlags p
  if f &&& 6 = 0 then pure () else (Res.panic : Res Unit)

/-- The bytes `RawObject::set` writes (raw_object.rs:15-31): as many as the value's own type has, whatever the type of
the field. References are not implemented. -/
def valueBytes : Value → Res Bytes
  | .i8 x | .u8 x => .ok (leBytes 1 x.toNat)
  | .i16 x | .u16 x => .ok (leBytes 2 x.toNat)
  | .i32 x | .u32 x | .f32 x => .ok (leBytes 4 x.toNat)
  | .i64 x | .u64 x | .f64 x => .ok (leBytes 8 x.toNat)
  | .object _ => .panic

/-- `Object::set` (object.rs:80-82). -/
def setField (p : Ptr) (f : FieldRec) (a : Value) : X Unit := do
  rawObject p
  let bs ← valueBytes a
  poke p (5 + f.offset) bs

/-- The `if` chain of `RawObject::get` (raw_object.rs:38-60): types (compared by full name), widths and constructors. -/
def fieldKinds (p : Primitives) : List (Nat × Nat × (Nat → Value)) :=
  [(p.sbyte, 1, fun n => .i8 n), (p.byte, 1, fun n => .u8 n), (p.short, 2, fun n => .i16 n),
   (p.ushort, 2, fun n => .u16 n), (p.int, 4, fun n => .i32 n), (p.uint, 4, fun n => .u32 n),
   (p.long, 8, fun n => .i64 n), (p.ulong, 8, fun n => .u64 n), (p.float, 4, fun n => .f32 n),
   (p.double, 8, fun n => .f64 n)]

/-- The chain itself: the width and constructor for the type with full name `full`. -/
def fieldKind (w : World) (full : Name) : List (Nat × Nat × (Nat → Value)) → Res (Nat × (Nat → Value))
  | [] => .panic
  | (t, k) :: rest => do
    let tr ← w.typeAt t
    if full = tr.fullName then pure k else fieldKind w full rest

/-- `Object::get` (object.rs:84-86, raw_object.rs:33-62). -/
def getField (p : Ptr) (f : FieldRec) : X Value := do
  rawObject p
  let (n, mk) ← X.view fun v => do
    let tr ← v.world.typeAt f.fieldType
    let ps ← Res.unwrap v.world.primitives
    fieldKind v.world tr.fullName (fieldKinds ps)
  let bs ← peekBytes p (5 + f.offset) n
  pure (mk (leNat bs))

/-- `try_pop_array` (stack_frame.rs:517-523) with the error message of its two uses (stack_frame.rs:389, 403); the
printed form of the value is left out. -/
def popArray : X Ptr := do
  match ← pop with
  | .object p => do
    let f ← objectFlags p
    if f &&& 2 ≠ 0 then pure p else (Res.err "Invalid operation: Stelem on a value that is not an array" : Res Ptr)
  | _ => (Res.err "Invalid operation: Stelem on a value that is not an array" : Res Ptr)

/-- `Array::as_slice::<i32>`, `as_mut_slice::<i32>` (array.rs:157-187) with the error of its two uses
(stack_frame.rs:390-396, 404-410): the length of the slice. Making the slice requires all of it to be valid. The type
name in the message is left out, but not the ways making the message can fail. -/
def intSlice (p : Ptr) : X Nat := do
  let ps ← X.view fun v => Res.unwrap v.world.primitives
  let id ← typeId ps.int
  let hd ← peekBytes p 0 17
  let n := leNat (hd.drop 9)
  if leNat ((hd.drop 5).take 4) = id then do
    let _ ← peekBytes p 17 (4 * n)
    pure n
  else do
    let _ ← X.view fun v => v.world.typeAt (leNat ((hd.drop 1).take 4))
    let _ ← X.view fun v => Res.unwrap (v.world.getType "System.Int32[]".toList)
    (Res.err "Cannot use the array as System.Int32[]" : Res Nat)

/-- `arr[i] = x` on such a slice (stack_frame.rs:397). -/
def setInt (p : Ptr) (i : Nat) (x : BitVec 32) : X Unit := do
  let n ← intSlice p
  if i < n then poke p (17 + 4 * i) (leBytes 4 x.toNat) else (Res.panic : Res Unit)

/-- `arr[i]` on such a slice (stack_frame.rs:411). -/
def getInt (p : Ptr) (i : Nat) : X (BitVec 32) := do
  let n ← intSlice p
  if i < n then do
    let bs ← peekBytes p (17 + 4 * i) 4
    pure (BitVec.ofNat 32 (leNat bs))
  else (Res.panic : Res (BitVec 32))

/-- `String::from_utf16` of the standard library: the characters, or `None` for an unpaired surrogate. -/
def fromUtf16 : List Nat → Option (List Char)
  | [] => some []
  | u :: us =>
    if u < 0xd800 ∨ 0xdfff < u then (Char.ofNat u :: ·) <$> fromUtf16 us
    else match us with
      | l :: us =>
        if u ≤ 0xdbff ∧ 0xdc00 ≤ l ∧ l ≤ 0xdfff then
          (Char.ofNat (0x10000 + (u - 0xd800) * 0x400 + (l - 0xdc00)) :: ·) <$> fromUtf16 us
        else none
      | [] => none

/-- `ManagedString::data` (string.rs:29-31). -/
def stringData (p : Ptr) : X (List Nat) := do
  let hd ← peekBytes p 0 13
  let n := leNat (hd.drop 5)
  let bs ← peekBytes p 13 (2 * n)
  pure ((chunks 2 n bs).map leNat)

/-- The native functions (internal_method/System_Console.rs:6-14, System_String.rs:6-12). `print!` appends to the output of
the process; that it panics when the standard output is closed is not modelled. -/
def callNative (m : InternalMethod) (params : Region) : X (Option Value) :=
  match m with
  | .consoleWrite => do
    match ← readSlot params 0 with
    | .object p => do
      let f ← objectFlags p
      if f &&& 4 = 0 then (Res.panic : Res (Option Value)) else do
        let us ← stringData p
        let s ← Res.unwrap (fromUtf16 us)
        X.registry (M.modify fun w => { w with output := w.output ++ s })
        pure none
    | _ => (Res.panic : Res (Option Value))
  | .stringGetItem | .stringGetLength => (Res.panic : Res (Option Value))

end Clr
