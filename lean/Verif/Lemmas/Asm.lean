import Verif.Props.Metadata
import Verif.Model.Loader
/-!
# A small assembler for concrete assembly files

Used only in examples and counterexamples. All heaps stay below 65536 bytes, so every index takes two bytes.
-/

namespace Clr.Ex
open Spec

/-- The bytes of ASCII text. -/
def text (s : String) : Bytes := s.toList.map fun c => UInt8.ofNat c.toNat

/-- Contents of an assembly file. Table rows are lists of (width, value) columns. -/
structure Asm where
  strings : List String
  blobs : List Bytes := []
  userStrings : Bytes := []
  /-- Table number and rows, in ascending order of table number. -/
  tables : List (Nat × List (List (Nat × Nat)))
  /-- What the section starts with, at address 0x2000. -/
  bodies : Bytes := []
  entry : Nat := 0

/-- Strings heap: the empty string, then the strings, NUL-terminated. -/
def Asm.stringsHeap (a : Asm) : Bytes := 0 :: (a.strings.map fun s => text s ++ [0]).flatten

/-- The handle of the `i`-th string (from 0). -/
def strAt (ss : List String) (i : Nat) : Nat := 1 + ((ss.take i).map fun s => s.length + 1).sum

/-- The handle of string `s`; the empty string is 0. -/
def str (ss : List String) (s : String) : Nat := if s = "" then 0 else strAt ss (ss.idxOf s)

def Asm.blobHeap (a : Asm) : Bytes := 0 :: (a.blobs.map encBlob).flatten

/-- The handle of the `i`-th blob. -/
def blobAt (bs : List Bytes) (i : Nat) : Nat := 1 + ((bs.take i).map fun b => (encBlob b).length).sum

def Asm.tableStream (a : Asm) : Bytes :=
  [0, 0, 0, 0, 2, 0, 0, 1] ++ leBytes 8 ((a.tables.map fun t => 2 ^ t.1).sum) ++ leBytes 8 0 ++
    (a.tables.map fun t => leBytes 4 t.2.length).flatten ++ (a.tables.map fun t => (t.2.map encFields).flatten).flatten

/-- The metadata root with the streams at the given sizes; 108 bytes. -/
def root (s b u t : Nat) : Root where
  skipped := [1, 0, 1, 0, 0, 0, 0, 0]
  version := "v4.0".toList
  versionLength := 8
  flags := [0, 0]
  streams := [⟨"#~".toList, 104, t⟩, ⟨"#Strings".toList, 104 + t, s⟩, ⟨"#US".toList, 104 + t + s, u⟩,
    ⟨"#Blob".toList, 104 + t + s + u, b⟩, ⟨"#GUID".toList, 104 + t + s + u + b, 0⟩]

def Asm.metadata (a : Asm) : Bytes :=
  (root a.stringsHeap.length a.blobHeap.length a.userStrings.length a.tableStream.length).enc ++
    a.tableStream ++ a.stringsHeap ++ a.userStrings ++ a.blobHeap

/-- The file: headers padded to 0x200, then the section: bodies, CLI header, metadata. -/
def Asm.file (a : Asm) : Bytes :=
  let md := a.metadata
  let i : Image :=
    { machine := 0x14c, timestamp := 0, symbolTable := 0, symbolCount := 0, optSize := 224, characteristics := 0x2102,
      plus := false, opt := List.replicate 28 0,
      dirs := List.replicate 14 (0, 0) ++ [(0x2000 + a.bodies.length, 72), (0, 0)]
      sections := [⟨[0x2e, 0x74, 0x65, 0x78, 0x74, 0, 0, 0], 72 + a.bodies.length + md.length, 0x2000,
        72 + a.bodies.length + md.length, 0x200, 0, 0, 0, 0, 0x60000020⟩] }
  let c : Cli :=
    { cb := 72, major := 2, minor := 5, metadata := (0x2000 + a.bodies.length + 72, md.length), flags := 1,
      entryToken := a.entry, resources := (0, 0), others := List.replicate 5 (0, 0) }
  let head := [0x4d, 0x5a] ++ List.replicate 58 0 ++ leBytes 4 0x40 ++ i.enc
  head ++ List.replicate (0x200 - head.length) 0 ++ a.bodies ++ c.enc ++ md

/-! ## Rows -/

def assemblyRow (ss : List String) (name : String) : List (Nat × Nat) :=
  [(4, 0), (2, 1), (2, 0), (2, 0), (2, 0), (4, 0), (2, 0), (2, str ss name), (2, 0)]

def assemblyRefRow (ss : List String) (name : String) : List (Nat × Nat) :=
  [(2, 1), (2, 0), (2, 0), (2, 0), (4, 0), (2, 0), (2, str ss name), (2, 0), (2, 0)]

/-- Attributes, name, namespace, coded base, first field, first method. -/
def typeRow (ss : List String) (attrs : Nat) (nspace name : String) (base fields methods : Nat) : List (Nat × Nat) :=
  [(4, attrs), (2, str ss name), (2, str ss nspace), (2, base), (2, fields), (2, methods)]

def typeRefRow (ss : List String) (nspace name : String) : List (Nat × Nat) :=
  [(2, 6), (2, str ss name), (2, str ss nspace)]

/-- Coded references to type rows. -/
def defRow (k : Nat) : Nat := k * 4
def refRow (k : Nat) : Nat := k * 4 + 1

def methodRow (ss : List String) (rva impl attrs : Nat) (name : String) (sig params : Nat) : List (Nat × Nat) :=
  [(4, rva), (2, impl), (2, attrs), (2, str ss name), (2, sig), (2, params)]

def fieldRow (ss : List String) (attrs : Nat) (name : String) (sig : Nat) : List (Nat × Nat) :=
  [(2, attrs), (2, str ss name), (2, sig)]

def paramRow (ss : List String) (index : Nat) (name : String) : List (Nat × Nat) := [(2, 0), (2, index), (2, str ss name)]

/-- Coded parent (`k * 8 + 1` for type reference row `k`), name, signature. -/
def memberRefRow (ss : List String) (parent : Nat) (name : String) (sig : Nat) : List (Nat × Nat) :=
  [(2, parent), (2, str ss name), (2, sig)]

/-! ## A core library -/

def coreStrings : List String :=
  ["core", "<Module>", "System", "Object", "ValueType", "Void", "Boolean", "Char", "SByte", "Byte", "Int16", "UInt16",
   "Int32", "UInt32", "Int64", "UInt64", "Single", "Double", "String", "Array", "Console", "Write", "value"]

/-- `Object`, `ValueType`, `Void`, the twelve primitives, `String`, `Array`, and `Console` with a runtime-implemented
`Write(string)`. -/
def core : Asm where
  strings := coreStrings
  blobs := [[0x00, 1, 0x01, 0x0e]]
  tables :=
    [(0x02, [typeRow coreStrings 0 "" "<Module>" 0 1 1, typeRow coreStrings 0 "System" "Object" 0 1 1,
             typeRow coreStrings 0 "System" "ValueType" (defRow 2) 1 1] ++
            (["Void", "Boolean", "Char", "SByte", "Byte", "Int16", "UInt16", "Int32", "UInt32", "Int64", "UInt64",
              "Single", "Double"].map fun n => typeRow coreStrings 0 "System" n (defRow 3) 1 1) ++
            (["String", "Array", "Console"].map fun n => typeRow coreStrings 0 "System" n (defRow 2) 1 1)),
     (0x06, [methodRow coreStrings 0 0x1000 0x10 "Write" 1 1]),
     (0x08, [paramRow coreStrings 1 "value"]),
     (0x20, [assemblyRow coreStrings "core"])]

def coreFile : Bytes := core.file

def noFiles : Name → Option Bytes := fun _ => none

/-- The registry after loading the core library. -/
def coreWorld : World := (loadData Cfg.debug noFiles 1 100 coreFile {}).2

end Clr.Ex
