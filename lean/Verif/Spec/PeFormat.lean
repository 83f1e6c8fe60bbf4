import Verif.Bytes
/-!
# The PE file layout (Microsoft PE/COFF specification; ECMA-335 II.25.2), as an encoder

Written independently of the model: a file is described by field values; `IsPeFile` says where the bytes are.
-/

namespace Clr.Spec

/-- Consecutive little-endian fields. -/
def encFields : List (Nat × Nat) → Bytes
  | [] => []
  | (w, v) :: fs => leBytes w v ++ encFields fs

/-- A value fits its field width. -/
def FitsAll (fs : List (Nat × Nat)) : Prop := ∀ f ∈ fs, f.2 < 256 ^ f.1

instance (fs : List (Nat × Nat)) : Decidable (FitsAll fs) := by unfold FitsAll; infer_instance

structure Section where
  name : Bytes
  virtualSize : Nat
  virtualAddress : Nat
  rawSize : Nat
  rawPointer : Nat
  relocPointer : Nat
  linePointer : Nat
  relocCount : Nat
  lineCount : Nat
  flags : Nat
deriving DecidableEq

def Section.fields (s : Section) : List (Nat × Nat) :=
  [(4, s.virtualSize), (4, s.virtualAddress), (4, s.rawSize), (4, s.rawPointer), (4, s.relocPointer),
   (4, s.linePointer), (2, s.relocCount), (2, s.lineCount), (4, s.flags)]

/-- A section table entry: 8 name bytes, then the fields. -/
def Section.enc (s : Section) : Bytes := s.name ++ encFields s.fields

def Section.Legal (s : Section) : Prop := s.name.length = 8 ∧ FitsAll s.fields

instance (s : Section) : Decidable s.Legal := by unfold Section.Legal; infer_instance

/-- A PE image description. `opt` holds the fields between the magic number and the directory count, for PE32
(`plus = false`) or PE32+ (`plus = true`). -/
structure Image where
  machine : Nat
  timestamp : Nat
  symbolTable : Nat
  symbolCount : Nat
  optSize : Nat
  characteristics : Nat
  plus : Bool
  opt : List Nat
  dirs : List (Nat × Nat)
  sections : List Section
deriving DecidableEq

/-- Widths of the optional-header fields between the magic number and the directory count. -/
def optWidths : Bool → List Nat
  | false => [1, 1, 4, 4, 4, 4, 4, 4, 4, 4, 4, 2, 2, 2, 2, 2, 2, 4, 4, 4, 4, 2, 2, 4, 4, 4, 4, 4]
  | true => [1, 1, 4, 4, 4, 4, 4, 8, 4, 4, 2, 2, 2, 2, 2, 2, 4, 4, 4, 4, 2, 2, 8, 8, 8, 8, 4]

def optMagic : Bool → Nat
  | false => 0x10b
  | true => 0x20b

def Image.headerFields (i : Image) : List (Nat × Nat) :=
  [(2, i.machine), (2, i.sections.length), (4, i.timestamp), (4, i.symbolTable), (4, i.symbolCount),
   (2, i.optSize), (2, i.characteristics)]

def Image.optFields (i : Image) : List (Nat × Nat) :=
  (2, optMagic i.plus) :: (List.zip (optWidths i.plus) i.opt ++ [(4, i.dirs.length)])

def encDir (d : Nat × Nat) : Bytes := leBytes 4 d.1 ++ leBytes 4 d.2

/-- The bytes from the PE signature to the end of the section table. -/
def Image.enc (i : Image) : Bytes :=
  [0x50, 0x45, 0, 0] ++ encFields i.headerFields ++ encFields i.optFields ++
    (i.dirs.map encDir).flatten ++ (i.sections.map Section.enc).flatten

/-- All field values fit. -/
def Image.Legal (i : Image) : Prop :=
  FitsAll i.headerFields ∧ FitsAll i.optFields ∧ i.opt.length = (optWidths i.plus).length ∧
  (∀ d ∈ i.dirs, d.1 < 2 ^ 32 ∧ d.2 < 2 ^ 32) ∧ (∀ s ∈ i.sections, s.Legal)

instance (i : Image) : Decidable i.Legal := by unfold Image.Legal; infer_instance

/-- `data` is a file containing image `i` with its PE header at offset `off`: "MZ" at 0, the header offset at
0x3c, the encoded headers at `off`. All other bytes are arbitrary. -/
def IsPeFile (data : Bytes) (off : Nat) (i : Image) : Prop :=
  data.take 2 = [0x4d, 0x5a] ∧ (data.drop 0x3c).take 4 = leBytes 4 off ∧ off < 2 ^ 32 ∧
  ∃ rest, data.drop off = i.enc ++ rest

/-- A section's raw range contains an address. -/
def Section.Contains (s : Section) (x : Nat) : Prop :=
  s.virtualAddress ≤ x ∧ x < s.virtualAddress + s.rawSize

/-- No 32-bit wrap-around: addresses and file offsets of the raw range stay below 2^32. -/
def Section.NoWrap (s : Section) : Prop :=
  s.virtualAddress + s.rawSize < 2 ^ 32 ∧ s.rawPointer + s.rawSize ≤ 2 ^ 32

end Clr.Spec
