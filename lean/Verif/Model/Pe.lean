import Verif.Model.BinaryReader
/-!
# `clr_lite/src/pe.rs`

`#[repr(C)]` header structures are read by copying their bytes. All of them are laid out without padding, so a
structure is the list of its little-endian fields with the widths of its declaration.
-/

namespace Clr

/-- Values of consecutive little-endian fields with the given widths: the meaning of copying a `#[repr(C)]`
structure without padding out of a byte buffer. -/
def decodeFields : List Nat → Bytes → List Nat
  | [], _ => []
  | w :: ws, bs => leNat (bs.take w) :: decodeFields ws (bs.drop w)

/-- Field widths of `PeHeader` (pe.rs:34-44), 20 bytes. -/
def peHeaderWidths : List Nat := [2, 2, 4, 4, 4, 2, 2]

/-- Field widths of `Pe32OptionalHeader` (pe.rs:48-82), 96 bytes, without the last field (4 bytes at offset 92). -/
def pe32Widths : List Nat :=
  [2, 1, 1, 4, 4, 4, 4, 4, 4, 4, 4, 4, 2, 2, 2, 2, 2, 2, 4, 4, 4, 4, 2, 2, 4, 4, 4, 4, 4]

/-- Field widths of `Pe64OptionalHeader` (pe.rs:86-119), 112 bytes, without the last field (4 bytes at offset 108). -/
def pe64Widths : List Nat :=
  [2, 1, 1, 4, 4, 4, 4, 4, 8, 4, 4, 2, 2, 2, 2, 2, 2, 4, 4, 4, 4, 2, 2, 8, 8, 8, 8, 4]

/-- `struct PeHeader` (pe.rs:34-44). -/
structure PeHeader where
  machine : Nat
  numberOfSections : Nat
  timestamp : Nat
  symbolTable : Nat
  numberOfSymbols : Nat
  optionalHeaderSize : Nat
  characteristics : Nat
deriving DecidableEq, Repr

/-- Reinterpreting 20 bytes as `PeHeader`. -/
def PeHeader.ofBytes (bs : Bytes) : PeHeader :=
  match decodeFields peHeaderWidths bs with
  | [a, b, c, d, e, f, g] => ⟨a, b, c, d, e, f, g⟩
  | _ => ⟨0, 0, 0, 0, 0, 0, 0⟩ -- unreachable: `decodeFields` returns one value per width

/-- `enum PeOptionalHeader` (pe.rs:123-127). The named fields of the two structures are the values in declaration
order; the last one, `number_of_data_directories`, is kept apart because `parse_pe` uses it. -/
inductive PeOptionalHeader where
  | pe32 (fields : List Nat) (numberOfDataDirectories : Nat)
  | pe64 (fields : List Nat) (numberOfDataDirectories : Nat)
deriving DecidableEq, Repr

/-- Reinterpreting 96 bytes as `Pe32OptionalHeader`. -/
def PeOptionalHeader.ofBytes32 (bs : Bytes) : PeOptionalHeader :=
  .pe32 (decodeFields pe32Widths bs) (leNat ((bs.drop 92).take 4))

/-- Reinterpreting 112 bytes as `Pe64OptionalHeader`. -/
def PeOptionalHeader.ofBytes64 (bs : Bytes) : PeOptionalHeader :=
  .pe64 (decodeFields pe64Widths bs) (leNat ((bs.drop 108).take 4))

/-- `struct RvaAndSize` (pe.rs:129-134), 8 bytes. -/
structure RvaAndSize where
  rva : Nat
  size : Nat
deriving DecidableEq, Repr

/-- Reinterpreting 8 bytes as `RvaAndSize`. -/
def RvaAndSize.ofBytes (bs : Bytes) : RvaAndSize :=
  ⟨leNat (bs.take 4), leNat ((bs.drop 4).take 4)⟩

/-- `struct PeSectionHeader` (pe.rs:138-151), 40 bytes. The name is kept as raw bytes. -/
structure PeSection where
  name : Bytes
  virtualSize : Nat
  virtualAddress : Nat
  sizeOfRawData : Nat
  pointerToRawData : Nat
  pointerToRelocations : Nat
  pointerToLineNumbers : Nat
  numberOfRelocations : Nat
  numberOfLineNumbers : Nat
  characteristics : Nat
deriving DecidableEq, Repr

/-- Reinterpreting 40 bytes as `PeSectionHeader`. -/
def PeSection.ofBytes (bs : Bytes) : PeSection :=
  match decodeFields [4, 4, 4, 4, 4, 4, 2, 2, 4] (bs.drop 8) with
  | [a, b, c, d, e, f, g, h, i] => ⟨bs.take 8, a, b, c, d, e, f, g, h, i⟩
  | _ => ⟨[], 0, 0, 0, 0, 0, 0, 0, 0, 0⟩ -- unreachable: `decodeFields` returns one value per width

/-- `str::trim_matches('\0')` (pe.rs:157): NULs are removed at both ends. -/
def trimNul (cs : List Char) : List Char :=
  ((cs.dropWhile (· = Char.ofNat 0)).reverse.dropWhile (· = Char.ofNat 0)).reverse

/-- `PeSectionHeader::name` (pe.rs:156-158): `from_utf8(..).unwrap()` panics on bytes that are not UTF-8. -/
def PeSection.nameText (s : PeSection) : Res (List Char) :=
  match fromUtf8 s.name with
  | none => .panic
  | some cs => .ok (trimNul cs)

/-- `struct PeInfo` (pe.rs:161-167). -/
structure PeInfo where
  header : PeHeader
  optionalHeader : PeOptionalHeader
  dataDirectories : List RvaAndSize
  sections : List PeSection
deriving DecidableEq, Repr

/-- `p.number_of_data_directories` (pe.rs:202-205). -/
def PeOptionalHeader.numberOfDataDirectories : PeOptionalHeader → Nat
  | .pe32 _ n => n
  | .pe64 _ n => n

/-- `PeInfo::parse_pe` (pe.rs:170-216). Error values carry only the message. -/
def parsePe (cfg : Cfg) (data : Bytes) : Res PeInfo := do
  let r := Reader.new data
  if (← r.peekArray cfg 1 2) ≠ some [[0x4d], [0x5a]] then
    .err "Not a PE file"
  else do
    let r := (r.goto 0x3c).2
    match ← r.peekU cfg 4 with
    | none => .err "Unexpected end of file"
    | some offset => do
      let r := (r.goto offset).2
      let (sig, r) ← r.readArray cfg 1 4
      if sig ≠ some [[0x50], [0x45], [0], [0]] then
        .err "Invalid PE file"
      else do
        let (hb, r) ← r.read cfg 20
        let header ← Res.ofOption "Invalid PE file" (hb.map PeHeader.ofBytes)
        let magic ← Res.ofOption "Invalid PE file" (← r.peekU cfg 2)
        let (optionalHeader, r) ← (
          if magic = 0x10b then do
            let (ob, r) ← r.read cfg 96
            let ob ← Res.ofOption "Invalid PE file" ob
            pure (PeOptionalHeader.ofBytes32 ob, r)
          else if magic = 0x20b then do
            let (ob, r) ← r.read cfg 112
            let ob ← Res.ofOption "Invalid PE file" ob
            pure (PeOptionalHeader.ofBytes64 ob, r)
          else .err "Invalid PE file")
        let (dirs, r) ← r.readArray cfg 8 optionalHeader.numberOfDataDirectories
        let dirs ← Res.ofOption "Invalid PE file" dirs
        let (secs, _) ← r.readArray cfg 40 header.numberOfSections
        let secs ← Res.ofOption "Invalid PE file" secs
        pure { header, optionalHeader, dataDirectories := dirs.map RvaAndSize.ofBytes,
               sections := secs.map PeSection.ofBytes }

/-- `PeInfo::resolve_rva_` (pe.rs:223-232): first section whose raw range contains the RVA, with `u32`
arithmetic. -/
def resolveRva (cfg : Cfg) (rva : Nat) : List PeSection → Res Nat
  | [] => .err "Invalid RVA"
  | s :: ss =>
    if rva ≥ s.virtualAddress then do
      let e ← uadd cfg 32 s.virtualAddress s.sizeOfRawData
      if rva < e then do
        let d ← usub cfg 32 rva s.virtualAddress
        uadd cfg 32 d s.pointerToRawData
      else resolveRva cfg rva ss
    else resolveRva cfg rva ss

end Clr
