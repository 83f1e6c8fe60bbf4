import Verif.Bytes
/-!
# Instructions, after ECMA-335 partition III

Opcodes, operands and meaning of the instructions the interpreter implements, written from the standard.
-/

namespace Clr

/-- The bytes `bs` are in the code at address `ip`. -/
def HasAt (code : Bytes) (ip : Nat) (bs : Bytes) : Prop := bs <+: code.drop ip

instance decHasAt (code : Bytes) (ip : Nat) (bs : Bytes) : Decidable (HasAt code ip bs) := by
  unfold HasAt; infer_instance

/-- The integer `x` is a signed `n`-bit number. -/
def Fits (n : Nat) (x : Int) : Prop := -2 ^ (n - 1) ≤ x ∧ x < 2 ^ (n - 1)

instance decFits (n : Nat) (x : Int) : Decidable (Fits n x) := by unfold Fits; infer_instance

/-- The `n` bytes that encode a signed integer, little-endian two's complement. -/
def intBytes (n : Nat) (x : Int) : Bytes := leBytes n (x % 256 ^ n).toNat

/-! ## Arithmetic -/

/-- `add`, `sub`, `mul` (III.3.1, III.3.64, III.3.48). -/
inductive Arith where
  | add | sub | mul
deriving DecidableEq, Repr

def Arith.opcode : Arith → UInt8
  | .add => 0x58 | .sub => 0x59 | .mul => 0x5a

/-- The exact result. -/
def Arith.exact : Arith → Int → Int → Int
  | .add, a, b => a + b | .sub, a, b => a - b | .mul, a, b => a * b

/-- `and`, `or`, `xor` (III.3.2, III.3.53, III.3.67). -/
inductive Bitwise where
  | and | or | xor
deriving DecidableEq, Repr

def Bitwise.opcode : Bitwise → UInt8
  | .and => 0x5f | .or => 0x60 | .xor => 0x61

/-- The result at one bit position. -/
def Bitwise.bit : Bitwise → Bool → Bool → Bool
  | .and, a, b => a && b | .or, a, b => a || b | .xor, a, b => a != b

/-- `shl`, `shr` (III.3.58, III.3.59). -/
inductive Shift where
  | shl | shr
deriving DecidableEq, Repr

def Shift.opcode : Shift → UInt8
  | .shl => 0x62 | .shr => 0x63

/-- The exact result: `shr` keeps the sign, that is, rounds down. -/
def Shift.exact : Shift → Int → Nat → Int
  | .shl, a, c => a * 2 ^ c | .shr, a, c => a / 2 ^ c

/-- `q` and `r` are quotient and remainder of `a` by `b`, truncated toward zero: the remainder is smaller than the
divisor and does not have the opposite sign of the dividend. -/
def IsTruncated (a b q r : Int) : Prop :=
  a = q * b + r ∧ r.natAbs < b.natAbs ∧ (0 ≤ a → 0 ≤ r) ∧ (a ≤ 0 → r ≤ 0)

instance decIsTruncated (a b q r : Int) : Decidable (IsTruncated a b q r) := by unfold IsTruncated; infer_instance

/-! ## Comparisons and branches -/

/-- `ceq`, `cgt`, `clt` (III.3.21, III.3.22, III.3.25): second bytes of the opcodes. -/
inductive Compare where
  | eq | gt | lt
deriving DecidableEq, Repr

def Compare.opcode : Compare → Bytes
  | .eq => [0xfe, 0x01] | .gt => [0xfe, 0x02] | .lt => [0xfe, 0x04]

def Compare.holds : Compare → Int → Int → Prop
  | .eq, a, b => a = b | .gt, a, b => a > b | .lt, a, b => a < b

instance decCompareHolds (c : Compare) (a b : Int) : Decidable (c.holds a b) := by
  cases c <;> simp only [Compare.holds] <;> infer_instance

/-- The two forms of branches: displacement of one or four bytes. -/
inductive Form where
  | short | long
deriving DecidableEq, Repr

def Form.size : Form → Nat
  | .short => 1 | .long => 4

/-- The branches that compare two values: `beq`, `bge`, `bgt`, `ble`, `blt` (III.3.5-III.3.12). -/
inductive Branch2 where
  | beq | bge | bgt | ble | blt
deriving DecidableEq, Repr

def Branch2.opcode : Branch2 → Form → UInt8
  | .beq, .short => 0x2e | .bge, .short => 0x2f | .bgt, .short => 0x30 | .ble, .short => 0x31 | .blt, .short => 0x32
  | .beq, .long => 0x3b | .bge, .long => 0x3c | .bgt, .long => 0x3d | .ble, .long => 0x3e | .blt, .long => 0x3f

def Branch2.holds : Branch2 → Int → Int → Prop
  | .beq, a, b => a = b | .bge, a, b => a ≥ b | .bgt, a, b => a > b | .ble, a, b => a ≤ b | .blt, a, b => a < b

instance decBranch2Holds (c : Branch2) (a b : Int) : Decidable (c.holds a b) := by
  cases c <;> simp only [Branch2.holds] <;> infer_instance

/-- The branches that test one value: `brfalse`, `brtrue` (III.3.17, III.3.18). -/
inductive Branch1 where
  | brfalse | brtrue
deriving DecidableEq, Repr

def Branch1.opcode : Branch1 → Form → UInt8
  | .brfalse, .short => 0x2c | .brtrue, .short => 0x2d | .brfalse, .long => 0x39 | .brtrue, .long => 0x3a

def Branch1.holds : Branch1 → Int → Prop
  | .brfalse, a => a = 0 | .brtrue, a => a ≠ 0

instance decBranch1Holds (c : Branch1) (a : Int) : Decidable (c.holds a) := by
  cases c <;> simp only [Branch1.holds] <;> infer_instance

/-- `br` (III.3.15). -/
def brOpcode : Form → UInt8
  | .short => 0x2b | .long => 0x38

/-! ## Encodings -/

/-- Operand types (III.1.9, VI.C.2). -/
inductive Operand where
  | none | int8 | int32 | int64 | float32 | float64 | uint8 | uint16 | token | target8 | target32
deriving DecidableEq, Repr

def Operand.size : Operand → Nat
  | .none => 0 | .int8 | .uint8 | .target8 => 1 | .uint16 => 2 | .int32 | .float32 | .token | .target32 => 4
  | .int64 | .float64 => 8

/-- An instruction encoding: opcode bytes and operand type. -/
structure Encoding where
  mnemonic : String
  opcode : Bytes
  operand : Operand
deriving DecidableEq, Repr

/-- The encodings of the implemented instructions, in the order of III.3 and III.4. -/
def encodings : List Encoding := [
  ⟨"add", [0x58], .none⟩, ⟨"and", [0x5f], .none⟩,
  ⟨"beq", [0x3b], .target32⟩, ⟨"beq.s", [0x2e], .target8⟩,
  ⟨"bge", [0x3c], .target32⟩, ⟨"bge.s", [0x2f], .target8⟩,
  ⟨"bgt", [0x3d], .target32⟩, ⟨"bgt.s", [0x30], .target8⟩,
  ⟨"ble", [0x3e], .target32⟩, ⟨"ble.s", [0x31], .target8⟩,
  ⟨"blt", [0x3f], .target32⟩, ⟨"blt.s", [0x32], .target8⟩,
  ⟨"br", [0x38], .target32⟩, ⟨"br.s", [0x2b], .target8⟩,
  ⟨"brfalse", [0x39], .target32⟩, ⟨"brfalse.s", [0x2c], .target8⟩,
  ⟨"brtrue", [0x3a], .target32⟩, ⟨"brtrue.s", [0x2d], .target8⟩,
  ⟨"call", [0x28], .token⟩,
  ⟨"ceq", [0xfe, 0x01], .none⟩, ⟨"cgt", [0xfe, 0x02], .none⟩, ⟨"cgt.un", [0xfe, 0x03], .none⟩,
  ⟨"clt", [0xfe, 0x04], .none⟩, ⟨"clt.un", [0xfe, 0x05], .none⟩,
  ⟨"div", [0x5b], .none⟩, ⟨"div.un", [0x5c], .none⟩, ⟨"dup", [0x25], .none⟩,
  ⟨"ldarg", [0xfe, 0x09], .uint16⟩, ⟨"ldarg.s", [0x0e], .uint8⟩,
  ⟨"ldarg.0", [0x02], .none⟩, ⟨"ldarg.1", [0x03], .none⟩, ⟨"ldarg.2", [0x04], .none⟩, ⟨"ldarg.3", [0x05], .none⟩,
  ⟨"ldc.i4", [0x20], .int32⟩, ⟨"ldc.i8", [0x21], .int64⟩, ⟨"ldc.r4", [0x22], .float32⟩, ⟨"ldc.r8", [0x23], .float64⟩,
  ⟨"ldc.i4.0", [0x16], .none⟩, ⟨"ldc.i4.1", [0x17], .none⟩, ⟨"ldc.i4.2", [0x18], .none⟩,
  ⟨"ldc.i4.3", [0x19], .none⟩, ⟨"ldc.i4.4", [0x1a], .none⟩, ⟨"ldc.i4.5", [0x1b], .none⟩,
  ⟨"ldc.i4.6", [0x1c], .none⟩, ⟨"ldc.i4.7", [0x1d], .none⟩, ⟨"ldc.i4.8", [0x1e], .none⟩,
  ⟨"ldc.i4.m1", [0x15], .none⟩, ⟨"ldc.i4.s", [0x1f], .int8⟩,
  ⟨"ldloc", [0xfe, 0x0c], .uint16⟩, ⟨"ldloc.s", [0x11], .uint8⟩,
  ⟨"ldloc.0", [0x06], .none⟩, ⟨"ldloc.1", [0x07], .none⟩, ⟨"ldloc.2", [0x08], .none⟩, ⟨"ldloc.3", [0x09], .none⟩,
  ⟨"mul", [0x5a], .none⟩, ⟨"neg", [0x65], .none⟩, ⟨"nop", [0x00], .none⟩, ⟨"not", [0x66], .none⟩,
  ⟨"or", [0x60], .none⟩, ⟨"pop", [0x26], .none⟩, ⟨"rem", [0x5d], .none⟩, ⟨"rem.un", [0x5e], .none⟩,
  ⟨"ret", [0x2a], .none⟩, ⟨"shl", [0x62], .none⟩, ⟨"shr", [0x63], .none⟩,
  ⟨"starg", [0xfe, 0x0b], .uint16⟩, ⟨"starg.s", [0x10], .uint8⟩,
  ⟨"stloc", [0xfe, 0x0e], .uint16⟩, ⟨"stloc.s", [0x13], .uint8⟩,
  ⟨"stloc.0", [0x0a], .none⟩, ⟨"stloc.1", [0x0b], .none⟩, ⟨"stloc.2", [0x0c], .none⟩, ⟨"stloc.3", [0x0d], .none⟩,
  ⟨"sub", [0x59], .none⟩, ⟨"xor", [0x61], .none⟩,
  ⟨"ldelem.i4", [0x94], .none⟩, ⟨"ldfld", [0x7b], .token⟩, ⟨"ldstr", [0x72], .token⟩, ⟨"newarr", [0x8d], .token⟩,
  ⟨"newobj", [0x73], .token⟩, ⟨"stelem.i4", [0x9e], .none⟩, ⟨"stfld", [0x7d], .token⟩]

/-- The other instructions of the standard (VI.C.2), which the interpreter does not implement. -/
def unimplemented : List (String × Bytes) := [
  ("break", [0x01]), ("ldarga.s", [0x0f]), ("ldloca.s", [0x12]), ("ldnull", [0x14]), ("jmp", [0x27]),
  ("calli", [0x29]), ("bne.un.s", [0x33]), ("bge.un.s", [0x34]), ("bgt.un.s", [0x35]), ("ble.un.s", [0x36]),
  ("blt.un.s", [0x37]), ("bne.un", [0x40]), ("bge.un", [0x41]), ("bgt.un", [0x42]), ("ble.un", [0x43]),
  ("blt.un", [0x44]), ("switch", [0x45]), ("ldind.i1", [0x46]), ("ldind.u1", [0x47]), ("ldind.i2", [0x48]),
  ("ldind.u2", [0x49]), ("ldind.i4", [0x4a]), ("ldind.u4", [0x4b]), ("ldind.i8", [0x4c]), ("ldind.i", [0x4d]),
  ("ldind.r4", [0x4e]), ("ldind.r8", [0x4f]), ("ldind.ref", [0x50]), ("stind.ref", [0x51]), ("stind.i1", [0x52]),
  ("stind.i2", [0x53]), ("stind.i4", [0x54]), ("stind.i8", [0x55]), ("stind.r4", [0x56]), ("stind.r8", [0x57]),
  ("shr.un", [0x64]), ("conv.i1", [0x67]), ("conv.i2", [0x68]), ("conv.i4", [0x69]), ("conv.i8", [0x6a]),
  ("conv.r4", [0x6b]), ("conv.r8", [0x6c]), ("conv.u4", [0x6d]), ("conv.u8", [0x6e]), ("callvirt", [0x6f]),
  ("cpobj", [0x70]), ("ldobj", [0x71]), ("castclass", [0x74]), ("isinst", [0x75]), ("conv.r.un", [0x76]),
  ("unbox", [0x79]), ("throw", [0x7a]), ("ldflda", [0x7c]), ("ldsfld", [0x7e]), ("ldsflda", [0x7f]),
  ("stsfld", [0x80]), ("stobj", [0x81]), ("conv.ovf.i1.un", [0x82]), ("conv.ovf.i2.un", [0x83]),
  ("conv.ovf.i4.un", [0x84]), ("conv.ovf.i8.un", [0x85]), ("conv.ovf.u1.un", [0x86]), ("conv.ovf.u2.un", [0x87]),
  ("conv.ovf.u4.un", [0x88]), ("conv.ovf.u8.un", [0x89]), ("conv.ovf.i.un", [0x8a]), ("conv.ovf.u.un", [0x8b]),
  ("box", [0x8c]), ("ldlen", [0x8e]), ("ldelema", [0x8f]), ("ldelem.i1", [0x90]), ("ldelem.u1", [0x91]),
  ("ldelem.i2", [0x92]), ("ldelem.u2", [0x93]), ("ldelem.u4", [0x95]), ("ldelem.i8", [0x96]), ("ldelem.i", [0x97]),
  ("ldelem.r4", [0x98]), ("ldelem.r8", [0x99]), ("ldelem.ref", [0x9a]), ("stelem.i", [0x9b]), ("stelem.i1", [0x9c]),
  ("stelem.i2", [0x9d]), ("stelem.i8", [0x9f]), ("stelem.r4", [0xa0]), ("stelem.r8", [0xa1]), ("stelem.ref", [0xa2]),
  ("ldelem", [0xa3]), ("stelem", [0xa4]), ("unbox.any", [0xa5]), ("conv.ovf.i1", [0xb3]), ("conv.ovf.u1", [0xb4]),
  ("conv.ovf.i2", [0xb5]), ("conv.ovf.u2", [0xb6]), ("conv.ovf.i4", [0xb7]), ("conv.ovf.u4", [0xb8]),
  ("conv.ovf.i8", [0xb9]), ("conv.ovf.u8", [0xba]), ("refanyval", [0xc2]), ("ckfinite", [0xc3]),
  ("mkrefany", [0xc6]), ("ldtoken", [0xd0]), ("conv.u2", [0xd1]), ("conv.u1", [0xd2]), ("conv.i", [0xd3]),
  ("conv.ovf.i", [0xd4]), ("conv.ovf.u", [0xd5]), ("add.ovf", [0xd6]), ("add.ovf.un", [0xd7]), ("mul.ovf", [0xd8]),
  ("mul.ovf.un", [0xd9]), ("sub.ovf", [0xda]), ("sub.ovf.un", [0xdb]), ("endfinally", [0xdc]), ("leave", [0xdd]),
  ("leave.s", [0xde]), ("stind.i", [0xdf]), ("conv.u", [0xe0]), ("arglist", [0xfe, 0x00]), ("ldftn", [0xfe, 0x06]),
  ("ldvirtftn", [0xfe, 0x07]), ("ldarga", [0xfe, 0x0a]), ("ldloca", [0xfe, 0x0d]), ("localloc", [0xfe, 0x0f]),
  ("endfilter", [0xfe, 0x11]), ("unaligned.", [0xfe, 0x12]), ("volatile.", [0xfe, 0x13]), ("tail.", [0xfe, 0x14]),
  ("initobj", [0xfe, 0x15]), ("constrained.", [0xfe, 0x16]), ("cpblk", [0xfe, 0x17]), ("initblk", [0xfe, 0x18]),
  ("rethrow", [0xfe, 0x1a]), ("sizeof", [0xfe, 0x1c]), ("refanytype", [0xfe, 0x1d]), ("readonly.", [0xfe, 0x1e]),
  ("no.", [0xfe, 0x19])]

/-- The mnemonic as an identifier: parts capitalised, dots as underscores. -/
def identifier : Bool → List Char → List Char
  | _, [] => []
  | _, '.' :: cs => '_' :: identifier true cs
  | up, c :: cs => (if up then c.toUpper else c) :: identifier false cs

/-- Value of a hexadecimal digit. -/
def hexDigit (c : Char) : Nat := if c.isDigit then c.toNat - '0'.toNat else 10 + (c.toNat - 'a'.toNat)

/-- Value of a hexadecimal number. -/
def hexValue (s : List Char) : Nat := s.foldl (fun n c => 16 * n + hexDigit c) 0

/-! ## Well-formed code -/

/-- The addresses in `S` are those of complete instructions, and control flow never leaves `S`. -/
def ClosedCode (encs : List Encoding) (code : Bytes) (S : Nat → Prop) : Prop :=
  ∀ ip, S ip → ∃ e ∈ encs, ∃ arg : Bytes, arg.length = e.operand.size ∧ HasAt code ip (e.opcode ++ arg) ∧
    (e.mnemonic ≠ "ret" → e.mnemonic ≠ "br" → e.mnemonic ≠ "br.s" → S (ip + (e.opcode ++ arg).length)) ∧
    (e.operand = .target8 ∨ e.operand = .target32 →
      ∃ d : Int, ∃ t : Nat, arg = intBytes e.operand.size d ∧ Fits (8 * e.operand.size) d ∧
        (t : Int) = (ip + (e.opcode ++ arg).length : Nat) + d ∧ S t)

/-! ## Variables -/

/-- Local variables and arguments. -/
inductive Var where
  | loc | arg
deriving DecidableEq, Repr

/-- The encodings of the instruction that loads variable `i`: `ldloc` (III.3.43), `ldarg` (III.3.38). -/
def Var.loads : Var → Nat → List Bytes
  | .loc, i => (if i < 4 then [[0x06 + UInt8.ofNat i]] else []) ++ (if i < 256 then [[0x11, UInt8.ofNat i]] else []) ++
      (if i < 65536 then [[0xfe, 0x0c] ++ leBytes 2 i] else [])
  | .arg, i => (if i < 4 then [[0x02 + UInt8.ofNat i]] else []) ++ (if i < 256 then [[0x0e, UInt8.ofNat i]] else []) ++
      (if i < 65536 then [[0xfe, 0x09] ++ leBytes 2 i] else [])

/-- The encodings of the instruction that stores into variable `i`: `stloc` (III.3.63), `starg` (III.3.61). -/
def Var.stores : Var → Nat → List Bytes
  | .loc, i => (if i < 4 then [[0x0a + UInt8.ofNat i]] else []) ++ (if i < 256 then [[0x13, UInt8.ofNat i]] else []) ++
      (if i < 65536 then [[0xfe, 0x0e] ++ leBytes 2 i] else [])
  | .arg, i => (if i < 256 then [[0x10, UInt8.ofNat i]] else []) ++
      (if i < 65536 then [[0xfe, 0x0b] ++ leBytes 2 i] else [])

end Clr
