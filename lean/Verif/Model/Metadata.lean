import Verif.Model.Pe
import Verif.Model.Token
import Verif.Model.StringsHeap
import Verif.Model.TableRows
/-!
# `clr_lite/src/metadata/mod.rs`

`Metadata::read` is one Rust function; the model splits it at the points where a local variable is complete
(`cli_header`, `metadata`, the stream headers, the streams). The error messages that embed a formatted number or name
are abbreviated.
-/

namespace Clr

/-- `struct CliHeader` (mod.rs:55-70), 72 bytes, without padding. -/
structure CliHeader where
  size : Nat
  minMajorRuntimeVersion : Nat
  minMinorRuntimeVersion : Nat
  metadata : RvaAndSize
  flags : Nat
  entryPoint : Token
  resources : RvaAndSize
  strongNameSignature : RvaAndSize
  codeManagerTable : RvaAndSize
  vtableFixups : RvaAndSize
  exportAddressTableJumps : RvaAndSize
  managedNativeHeader : RvaAndSize
deriving DecidableEq, Repr

/-- Reinterpreting 72 bytes as `CliHeader`. -/
def CliHeader.ofBytes (bs : Bytes) : CliHeader where
  size := leNat (bs.take 4)
  minMajorRuntimeVersion := leNat ((bs.drop 4).take 2)
  minMinorRuntimeVersion := leNat ((bs.drop 6).take 2)
  metadata := RvaAndSize.ofBytes ((bs.drop 8).take 8)
  flags := leNat ((bs.drop 16).take 4)
  entryPoint := ⟨leNat ((bs.drop 20).take 4)⟩
  resources := RvaAndSize.ofBytes ((bs.drop 24).take 8)
  strongNameSignature := RvaAndSize.ofBytes ((bs.drop 32).take 8)
  codeManagerTable := RvaAndSize.ofBytes ((bs.drop 40).take 8)
  vtableFixups := RvaAndSize.ofBytes ((bs.drop 48).take 8)
  exportAddressTableJumps := RvaAndSize.ofBytes ((bs.drop 56).take 8)
  managedNativeHeader := RvaAndSize.ofBytes ((bs.drop 64).take 8)

/-- `struct StreamHeader` (mod.rs:74-79) without the name. -/
structure StreamHeader where
  offset : Nat
  size : Nat
deriving DecidableEq, Repr

/-- The five mutable locals of mod.rs:146-150. -/
structure Streams where
  strings : Option StreamHeader := none
  userStrings : Option StreamHeader := none
  blob : Option StreamHeader := none
  guid : Option StreamHeader := none
  tables : Option StreamHeader := none
deriving DecidableEq, Repr

/-- The `match name` of mod.rs:170-182. -/
def Streams.set (s : Streams) (name : List Char) (h : StreamHeader) : Res Streams :=
  if name = "#Strings".toList then .ok { s with strings := some h }
  else if name = "#US".toList then .ok { s with userStrings := some h }
  else if name = "#Blob".toList then .ok { s with blob := some h }
  else if name = "#GUID".toList then .ok { s with guid := some h }
  else if name = "#~".toList then .ok { s with tables := some h }
  else .err "Unrecognised metadata stream"

/-- The `for _ in 0..number_of_streams` loop (mod.rs:156-183). `& !3` on `usize` clears the two low bits. -/
def readStreamHeaders (cfg : Cfg) : Nat → Reader → Streams → Res Streams
  | 0, _, s => pure s
  | n + 1, r, s => do
    let (offset, r) ← r.readU cfg 4
    let offset ← Res.ofOption "Invalid metadata header" offset
    let (size, r) ← r.readU cfg 4
    let size ← Res.ofOption "Invalid metadata header" size
    let (name, r) ← r.readCStr cfg
    let name ← Res.ofOption "Invalid metadata header" name
    let p ← uadd cfg 64 r.pos 4
    let r := (r.goto (p / 4 * 4)).2
    let s ← s.set name ⟨offset, size⟩
    readStreamHeaders cfg n r s

/-- The metadata root (mod.rs:116-183): magic, 8 skipped bytes, version string, 2 skipped bytes, stream headers. -/
def readMetadataRoot (cfg : Cfg) (metadata : Bytes) : Res Streams := do
  let r := Reader.new metadata
  let (magic, r) ← r.readU cfg 4
  if magic ≠ some 0x424A5342 then .err "Invalid metadata header"
  else do
    let (ok, r) ← r.advance cfg 8
    if ok = false then .err "Invalid metadata header"
    else do
      let (length, r) ← r.readU cfg 4
      let length ← Res.ofOption "Invalid metadata header" length
      let (version, r) ← r.readStr cfg length
      let _ ← Res.ofOption "Invalid version string in metadata" version
      let (_, r) ← r.advance cfg 2
      let (n, r) ← r.readU cfg 2
      let n ← Res.ofOption "Invalid metadata header" n
      readStreamHeaders cfg n r {}

/-- `&metadata[h.offset as usize..(h.offset + h.size) as usize]` (mod.rs:186-213): the addition is on `u32`. -/
def streamBytes (cfg : Cfg) (metadata : Bytes) (h : StreamHeader) : Res Bytes := do
  let e ← uadd cfg 32 h.offset h.size
  slice metadata h.offset e

/-- The optional user-string stream (mod.rs:191-196). -/
def userStringBytes (cfg : Cfg) (metadata : Bytes) : Option StreamHeader → Res Bytes
  | some h => streamBytes cfg metadata h
  | none => .ok []

/-- `struct Metadata` (mod.rs:33-51). The blob and guid heaps are their bytes; `entryPoint` is the index inside
`MethodDefHandle`. -/
structure Metadata where
  peData : Bytes
  peInfo : PeInfo
  cliHeader : CliHeader
  metadata : Bytes
  stringsHeap : StringsHeap
  userStringData : Bytes
  blobHeap : Bytes
  guidHeap : Bytes
  tables : Tables
  entryPoint : Option Nat

/-- The `cli_header` block (mod.rs:86-102). -/
def readCliHeader (cfg : Cfg) (data : Bytes) (info : PeInfo) : Res CliHeader := do
  let dir ← Res.ofOption "Not .NET assembly" info.dataDirectories[14]?
  let off ← Res.mapErr (fun _ => "Invalid CLI header") (resolveRva cfg dir.rva info.sections)
  let d ← sliceFrom data off
  let (b, _) ← (Reader.new d).read cfg 72
  Res.ofOption "Invalid CLI header" (b.map CliHeader.ofBytes)

/-- The `metadata` block (mod.rs:104-114). -/
def metadataSlice (cfg : Cfg) (data : Bytes) (info : PeInfo) (cli : CliHeader) : Res Bytes := do
  let off ← Res.mapErr (fun _ => "Invalid CLI header RVA") (resolveRva cfg cli.metadata.rva info.sections)
  let e ← uadd cfg 64 off cli.metadata.size
  slice data off e

/-- The entry point field (mod.rs:226-232). -/
def entryPointHandle (cfg : Cfg) (cli : CliHeader) : Res (Option Nat) := do
  if cli.entryPoint.index = 0 then pure none
  else do
    let i ← usub cfg 64 cli.entryPoint.index 1
    pure (some i)

/-- `Metadata::read` (mod.rs:82-234). -/
def readMetadata (cfg : Cfg) (data : Bytes) : Res Metadata := do
  let info ← parsePe cfg data
  let cli ← readCliHeader cfg data info
  let metadata ← metadataSlice cfg data info cli
  let s ← readMetadataRoot cfg metadata
  let strings ← Res.unwrap s.strings
  let strings ← streamBytes cfg metadata strings
  let userStrings ← userStringBytes cfg metadata s.userStrings
  let blob ← Res.unwrap s.blob
  let blob ← streamBytes cfg metadata blob
  let guid ← Res.unwrap s.guid
  let guid ← streamBytes cfg metadata guid
  let tables ← Res.unwrap s.tables
  let tables ← streamBytes cfg metadata tables
  let tables ← readTableStream cfg tables
  let entryPoint ← entryPointHandle cfg cli
  pure { peData := data, peInfo := info, cliHeader := cli, metadata, stringsHeap := StringsHeap.new strings,
         userStringData := userStrings, blobHeap := blob, guidHeap := guid, tables, entryPoint }

/-- `Metadata::get_pe_data` (mod.rs:255-261). -/
def Metadata.getPeData (cfg : Cfg) (m : Metadata) (d : RvaAndSize) : Res Bytes := do
  let off ← resolveRva cfg d.rva m.peInfo.sections
  let e ← uadd cfg 64 off d.size
  slice m.peData off e

/-- `Metadata::get_resource_data` (mod.rs:263-267): the four index expressions panic when the data is short. -/
def Metadata.getResourceData (cfg : Cfg) (m : Metadata) (offset : Nat) : Res Bytes := do
  let d ← m.getPeData cfg m.cliHeader.resources
  let d ← sliceFrom d offset
  let b0 ← Res.unwrap d[0]?
  let b1 ← Res.unwrap d[1]?
  let b2 ← Res.unwrap d[2]?
  let b3 ← Res.unwrap d[3]?
  let e ← uadd cfg 64 4 (leNat [b0, b1, b2, b3])
  slice d 4 e

end Clr
