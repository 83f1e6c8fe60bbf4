import Verif.Spec.Abstract
import Verif.Spec.MetadataRoot
import Verif.Spec.TableSchema
import Verif.Spec.Signature
import Verif.Spec.MethodBody
import Verif.Spec.Utf8

/-!
# A small language with procedures, its meaning, and a compiler and assembler for it

The meaning does not mention stacks, frames, code or files. A program is a list of procedures with integer parameters, locals and
result. The compiler gives the code of each procedure, the assembler the bytes of an assembly file.
-/

namespace Clr.Source

/-- Statements; `call x i f es` assigns the result of procedure `f` with the values of `es` to a variable. -/
inductive Stmt where
  | skip
  | set (x : Var) (i : Nat) (e : Expr)
  | call (x : Var) (i : Nat) (f : Nat) (es : List Expr)
  | seq (a b : Stmt)
  | cond (c : Expr) (a b : Stmt)
  | while (c : Expr) (a : Stmt)
deriving Repr

structure Proc where
  params : Nat
  locals : Nat
  body : Stmt
  result : Expr
deriving Repr

abbrev Program := List Proc

/-! ## Meaning -/

/-- The values of expressions, from left to right. -/
def evalAll (checked : Bool) (σ : Store) : List Expr → Outcome (List (BitVec 32))
  | [] => .done []
  | e :: es => (e.eval checked σ).bind fun a => (evalAll checked σ es).bind fun as => .done (a :: as)

/-- A loop with at most the given number of iterations. -/
def iterate {S : Type} (test : S → Outcome Bool) (body : Nat → S → Outcome S) : Nat → S → Outcome S
  | 0, s => (test s).bind fun b => if b then .unfinished else .done s
  | fuel + 1, s => (test s).bind fun b => if b then (body fuel s).bind fun s => iterate test body fuel s else .done s

/-- The value of a condition. -/
def test (checked : Bool) (c : Expr) (s : Store × Nat) : Outcome Bool :=
  (c.eval checked s.1).bind fun n => .done (decide (n.toInt ≠ 0))

/-- Execution in which every loop makes at most `fuel` iterations; `invoke room f args` is the result of procedure `f`.

The number next to the store is the room for variables that is left: there is no claim about programs that use more. A call needs room
for the parameters and locals of the procedure while it lasts, and afterwards, until the caller returns, for the parameters (C71). -/
def Stmt.exec (checked : Bool) (P : Program) (invoke : Nat → Nat → List (BitVec 32) → Outcome (BitVec 32)) :
    Stmt → Nat → Store × Nat → Outcome (Store × Nat)
  | .skip, _, s => .done s
  | .set x i e, _, s => (e.eval checked s.1).bind fun a => .done (s.1.set x i a, s.2)
  | .call x i f es, _, s => (evalAll checked s.1 es).bind fun as =>
    match P[f]? with
    | some q =>
      if q.params + q.locals ≤ s.2 then
        (invoke (s.2 - (q.params + q.locals)) f as).bind fun a => .done (s.1.set x i a, s.2 - q.params)
      else .undefined
    | none => .undefined
  | .seq a b, fuel, s => (a.exec checked P invoke fuel s).bind fun s => b.exec checked P invoke fuel s
  | .cond c a b, fuel, s => (test checked c s).bind fun t => if t then a.exec checked P invoke fuel s else b.exec checked P invoke fuel s
  | .while c a, fuel, s => iterate (test checked c) (a.exec checked P invoke) fuel s

/-- The variables at the start of a procedure: only parameters have values. -/
def start (args : List (BitVec 32)) : Store
  | .loc, _ => none
  | .arg, i => args[i]?

/-- The result of a procedure, with nesting of calls and iterations of loops bounded by `fuel`; `room` is the room for the variables of
the procedures it calls. -/
def Program.invoke (checked : Bool) (P : Program) : Nat → Nat → Nat → List (BitVec 32) → Outcome (BitVec 32)
  | 0, _, _, _ => .unfinished
  | fuel + 1, room, f, args =>
    match P[f]? with
    | some p => (p.body.exec checked P (invoke checked P fuel) fuel (start args, room)).bind fun s => p.result.eval checked s.1
    | none => .undefined

/-! ## Legal programs -/

/-- Constants are 32-bit numbers. -/
def ConstsFit : Expr → Prop
  | .const n => Fits 32 n
  | .var _ _ => True
  | .neg a | .not a => ConstsFit a
  | .arith _ a b | .bitwise _ a b | .shift _ a b | .div a b | .rem a b | .compare _ a b => ConstsFit a ∧ ConstsFit b

/-- Number of variables of each kind. -/
def Proc.vars (p : Proc) : Var → Nat
  | .loc => p.locals
  | .arg => p.params

def LegalExpr (p : Proc) (e : Expr) : Prop := ConstsFit e ∧ e.Within p.vars

/-- Variables are declared, procedures exist and get as many arguments as they have parameters. -/
def Stmt.Legal (P : Program) (p : Proc) : Stmt → Prop
  | .skip => True
  | .set x i e => i < p.vars x ∧ LegalExpr p e
  | .call x i f es => i < p.vars x ∧ (∀ e ∈ es, LegalExpr p e) ∧ ∃ q, P[f]? = some q ∧ es.length = q.params
  | .seq a b => a.Legal P p ∧ b.Legal P p
  | .cond c a b => LegalExpr p c ∧ a.Legal P p ∧ b.Legal P p
  | .while c a => LegalExpr p c ∧ a.Legal P p

/-! ## Compiler -/

/-- The first, that is shortest, encoding. -/
def shortest (cs : List Bytes) : Bytes := cs.headD []

def compileExpr : Expr → Bytes
  | .const n => shortest (constCodes n)
  | .var x i => shortest (x.loads i)
  | .neg a => compileExpr a ++ [0x65]
  | .not a => compileExpr a ++ [0x66]
  | .arith op a b => compileExpr a ++ (compileExpr b ++ [op.opcode])
  | .bitwise op a b => compileExpr a ++ (compileExpr b ++ [op.opcode])
  | .shift op a b => compileExpr a ++ (compileExpr b ++ [op.opcode])
  | .div a b => compileExpr a ++ (compileExpr b ++ [0x5b])
  | .rem a b => compileExpr a ++ (compileExpr b ++ [0x5d])
  | .compare c a b => compileExpr a ++ (compileExpr b ++ c.opcode)

def compileAll : List Expr → Bytes
  | [] => []
  | e :: es => compileExpr e ++ compileAll es

/-- The token of procedure `f`: its row in the method table, counted from one. -/
def methodToken (f : Nat) : Nat := 6 * 2 ^ 24 + (f + 1)

/-- `brfalse` and `br` with a displacement of four bytes. -/
def jumpFalse (d : Int) : Bytes := Branch1.brfalse.opcode .long :: intBytes 4 d
def jump (d : Int) : Bytes := brOpcode .long :: intBytes 4 d

def compile : Stmt → Bytes
  | .skip => []
  | .set x i e => compileExpr e ++ shortest (x.stores i)
  | .call x i f es => compileAll es ++ ((0x28 :: leBytes 4 (methodToken f)) ++ shortest (x.stores i))
  | .seq a b => compile a ++ compile b
  | .cond c a b => compileExpr c ++ (jumpFalse ((compile a).length + 5) ++ (compile a ++ (jump (compile b).length ++ compile b)))
  | .while c a => compileExpr c ++ (jumpFalse ((compile a).length + 5) ++
      (compile a ++ jump (-((compileExpr c).length + 5 + (compile a).length + 5))))

/-- The code of a procedure. -/
def Proc.code (p : Proc) : Bytes := compile p.body ++ (compileExpr p.result ++ [0x2a])

end Clr.Source

namespace Clr.Source
open Spec

/-! ## Assembler

The file has one section, at address 0x2000 and file offset 0x200: the method bodies, the CLI header, the metadata. Header fields
without meaning for the loader are zero. -/

/-- Zeros up to a multiple of four. -/
def pad4 (b : Bytes) : Bytes := b ++ List.replicate ((4 - b.length % 4) % 4) 0

/-- The variable parts of a file. -/
structure Contents where
  sizes : Sizes
  /-- The tables present, one bit for each. -/
  valid : Nat
  rows : Bytes
  strings : Bytes
  blob : Bytes
  guid : Bytes
  bodies : Bytes
  entry : Nat

/-- The table stream: header and rows. -/
def Contents.tableStream (c : Contents) : Bytes := pad4 (encTableHeader c.sizes [0, 0, 0, 0, 2, 0] 1 c.valid 0 ++ c.rows)

/-- The metadata root, with the stream directory. -/
def Contents.root (c : Contents) : Root where
  skipped := [1, 0, 1, 0, 0, 0, 0, 0]
  version := "v4.0".toList
  versionLength := 8
  flags := [0, 0]
  streams := [⟨"#~".toList, 92, c.tableStream.length⟩, ⟨"#Strings".toList, 92 + c.tableStream.length, c.strings.length⟩,
    ⟨"#Blob".toList, 92 + c.tableStream.length + c.strings.length, c.blob.length⟩,
    ⟨"#GUID".toList, 92 + c.tableStream.length + c.strings.length + c.blob.length, c.guid.length⟩]

def Contents.metadata (c : Contents) : Bytes := c.root.enc ++ (c.tableStream ++ (c.strings ++ (c.blob ++ c.guid)))

def Contents.image (c : Contents) : Spec.Image where
  machine := 0x14c
  timestamp := 0
  symbolTable := 0
  symbolCount := 0
  optSize := 224
  characteristics := 0x2102
  plus := false
  opt := List.replicate 28 0
  dirs := List.replicate 14 (0, 0) ++ [(0x2000 + c.bodies.length, 72), (0, 0)]
  sections := [⟨[0x2e, 0x74, 0x65, 0x78, 0x74, 0, 0, 0], c.bodies.length + 72 + c.metadata.length, 0x2000,
    c.bodies.length + 72 + c.metadata.length, 0x200, 0, 0, 0, 0, 0x60000020⟩]

def Contents.cli (c : Contents) : Cli where
  cb := 72
  major := 2
  minor := 5
  metadata := (0x2000 + c.bodies.length + 72, c.metadata.length)
  flags := 1
  entryToken := c.entry
  resources := (0, 0)
  others := List.replicate 5 (0, 0)

/-- "MZ" header, PE header and section table up to 0x200, then the section. -/
def Contents.file (c : Contents) : Bytes :=
  [0x4d, 0x5a] ++ (List.replicate 58 0 ++ (leBytes 4 0x40 ++ (c.image.enc ++
    (List.replicate (0x200 - (64 + c.image.enc.length)) 0 ++ (c.bodies ++ (c.cli.enc ++ c.metadata))))))

/-- Total over the procedures before procedure `f`. -/
def before (size : Proc → Nat) (P : Program) (f : Nat) : Nat := ((P.take f).map size).sum

/-- Strings heap. Procedure `f` has the name `ff…f` with `f + 1` letters; all names share their ends. -/
def stringsHeap (n : Nat) : Bytes :=
  pad4 (utf8 "\x00app\x00core\x00System\x00Object\x00P\x00x\x00<Module>\x00".toList ++ (List.replicate n 0x66 ++ [0]))

def nameAt (n f : Nat) : Nat := 37 + (n - (f + 1))

/-- Signatures: all types are `int`. -/
def sigOf (p : Proc) : MethodSig := ⟨false, false, false, 0, .int, List.replicate p.params .int⟩
def localTypes (p : Proc) : List ElementType := List.replicate (max p.locals 1) .int
def sigBlob (p : Proc) : Bytes := encBlob (encMethodSig (sigOf p))
def localsBlob (p : Proc) : Bytes := encBlob (0x07 :: (encUnsigned (localTypes p).length ++ encElems (localTypes p)))

def blobHeap (P : Program) : Bytes := pad4 (0 :: (P.map fun p => sigBlob p ++ localsBlob p).flatten)

def sigAt (P : Program) (f : Nat) : Nat := 1 + before (fun p => (sigBlob p ++ localsBlob p).length) P f
def localsAt (P : Program) (f : Nat) (p : Proc) : Nat := sigAt P f + (sigBlob p).length

/-- Method bodies: fat headers; a procedure with locals has the token of its signature of locals. -/
def bodyOf (f : Nat) (p : Proc) : Fat :=
  ⟨true, 0x30, 0xffff, if p.locals = 0 then 0 else 0x11 * 2 ^ 24 + (f + 1), p.code, .absent⟩

def bodies (P : Program) : Bytes := (P.mapIdx fun f p => pad4 ((bodyOf f p).enc [])).flatten

def bodySize (p : Proc) : Nat := (pad4 ((bodyOf 0 p).enc [])).length
def bodyAt (P : Program) (f : Nat) : Nat := 0x2000 + before bodySize P f

/-- Number of the first parameter row of a procedure. -/
def paramAt (P : Program) (f : Nat) : Nat := 1 + before (·.params) P f

/-- Tables. Rows are lists of columns, with width and value. -/
def moduleRows : List (List (Nat × Nat)) := [[(2, 0), (2, 1), (2, 1), (2, 0), (2, 0)]]
def typeRefRows : List (List (Nat × Nat)) := [[(2, 1 * 4 + 2), (2, 17), (2, 10)]]
def typeDefRows : List (List (Nat × Nat)) := [[(4, 0), (2, 28), (2, 0), (2, 0), (2, 1), (2, 1)], [(4, 0), (2, 24), (2, 0), (2, 1 * 4 + 1), (2, 1), (2, 1)]]
def methodRow (P : Program) (f : Nat) : List (Nat × Nat) :=
  [(4, bodyAt P f), (2, 0), (2, 0x16), (2, nameAt P.length f), (2, sigAt P f), (2, paramAt P f)]
def methodRows (P : Program) : List (List (Nat × Nat)) := P.mapIdx fun f _ => methodRow P f
def paramNumbers (P : Program) : List Nat := (P.map fun p => List.range p.params).flatten
def paramRows (P : Program) : List (List (Nat × Nat)) := (paramNumbers P).map fun i => [(2, 0), (2, i + 1), (2, 26)]
def localsRows (P : Program) : List (List (Nat × Nat)) := P.mapIdx fun f p => [(2, localsAt P f p)]
def assemblyRows : List (List (Nat × Nat)) := [[(4, 0), (2, 1), (2, 0), (2, 0), (2, 0), (4, 0), (2, 0), (2, 1), (2, 0)]]
def assemblyRefRows : List (List (Nat × Nat)) := [[(2, 1), (2, 0), (2, 0), (2, 0), (4, 0), (2, 0), (2, 5), (2, 0), (2, 0)]]

def tables (P : Program) : List (Nat × List (List (Nat × Nat))) :=
  [(0x00, moduleRows), (0x01, typeRefRows), (0x02, typeDefRows), (0x06, methodRows P), (0x08, paramRows P), (0x11, localsRows P),
    (0x20, assemblyRows), (0x23, assemblyRefRows)]

/-- Row counts. -/
def rowCounts (P : Program) (i : Nat) : Nat :=
  match (tables P).lookup i with
  | some rows => rows.length
  | none => 0

/-- The assembly: a class `P` with the procedures as static methods, and no entry point. -/
def assemble (P : Program) : Contents where
  sizes := ⟨false, false, false, rowCounts P⟩
  valid := ((tables P).map fun t => 2 ^ t.1).sum
  rows := ((tables P).map fun t => (t.2.map encFields).flatten).flatten
  strings := stringsHeap P.length
  blob := blobHeap P
  guid := List.replicate 16 1
  bodies := bodies P
  entry := 0x06000000

/-- Legal programs: procedures have at most 100 parameters and 100 locals, and the file does not exceed the limits of this
assembler, which writes indices in two bytes. -/
structure Program.Legal (P : Program) : Prop where
  procs : ∀ p ∈ P, p.params ≤ 100 ∧ p.locals ≤ 100 ∧ p.body.Legal P p ∧ LegalExpr p p.result
  count : P.length < 2 ^ 11
  params : before (·.params) P P.length < 2 ^ 11
  blob : (blobHeap P).length < 2 ^ 16
  code : (bodies P).length < 2 ^ 30

end Clr.Source
