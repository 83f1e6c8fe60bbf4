import Verif.Model.Metadata
/-!
# Addresses of typed accesses in the headers of files

`parse_pe` and `Metadata::read` a second time, with the address checked at every read of a type with an alignment, for a file
at address `base`. The structures are `#[repr(C)]`, with the alignment of their widest field. The rows of the tables are in
`Model/AlignTables`.
-/

namespace Clr.Strict

/-- The check of an address: `*(p as *const T)` and `slice::from_raw_parts(p as *const T, _)` for a `T` of alignment `n`. -/
def alignedAt (address n : Nat) : Res Unit := if address % n = 0 then .ok () else .ub

/-- `BinaryReader::peek::<T>` (binary_reader/src/lib.rs:31-37) for a `T` of `w` bytes and alignment `n`. -/
def peekAt (base : Nat) (cfg : Cfg) (r : Reader) (w n : Nat) : Res (Option Bytes) := do
  let e ← uadd cfg 64 r.pos w
  if e > r.data.length then pure none
  else do
    let _ ← sliceFrom r.data r.pos
    alignedAt (base + r.pos) n
    r.peek cfg w

/-- `BinaryReader::read::<T>` (lib.rs:39-43). -/
def readAt (base : Nat) (cfg : Cfg) (r : Reader) (w n : Nat) : Res (Option Bytes × Reader) := do
  match ← peekAt base cfg r w n with
  | none => pure (none, r)
  | some b => do
    let (_, r') ← r.advance cfg w
    pure (some b, r')

/-- `BinaryReader::read_array::<T>` (lib.rs:55-64). -/
def readArrayAt (base : Nat) (cfg : Cfg) (r : Reader) (w n count : Nat) : Res (Option (List Bytes) × Reader) := do
  let k ← umul cfg 64 count w
  let e ← uadd cfg 64 r.pos k
  if e > r.data.length then pure (none, r)
  else do
    let _ ← sliceFrom r.data r.pos
    alignedAt (base + r.pos) n
    r.readArray cfg w count

/-- An integer read, of alignment equal to its width. -/
def readNum (base : Nat) (cfg : Cfg) (r : Reader) (w : Nat) : Res (Option Nat × Reader) := do
  let (b, r') ← readAt base cfg r w w
  pure (b.map leNat, r')

/-- `PeInfo::parse_pe` (pe.rs:170-216), as `Clr.parsePe`: `PeHeader` and `Pe32OptionalHeader` have alignment 4,
`Pe64OptionalHeader` 8 (it has `u64` fields), `RvaAndSize` and `PeSectionHeader` 4; an empty array too is at an address. -/
def parsePe (base : Nat) (cfg : Cfg) (data : Bytes) : Res PeInfo := do
  let r := Reader.new data
  if (← r.peekArray cfg 1 2) ≠ some [[0x4d], [0x5a]] then
    .err "Not a PE file"
  else do
    let r := (r.goto 0x3c).2
    match ← peekAt base cfg r 4 4 with
    | none => .err "Unexpected end of file"
    | some offset => do
      let r := (r.goto (leNat offset)).2
      let (sig, r) ← r.readArray cfg 1 4
      if sig ≠ some [[0x50], [0x45], [0], [0]] then
        .err "Invalid PE file"
      else do
        let (hb, r) ← readAt base cfg r 20 4
        let header ← Res.ofOption "Invalid PE file" (hb.map PeHeader.ofBytes)
        let magic ← peekAt base cfg r 2 2
        let magic ← Res.ofOption "Invalid PE file" magic
        let (optionalHeader, r) ← (
          if leNat magic = 0x10b then do
            let (ob, r) ← readAt base cfg r 96 4
            let ob ← Res.ofOption "Invalid PE file" ob
            pure (PeOptionalHeader.ofBytes32 ob, r)
          else if leNat magic = 0x20b then do
            let (ob, r) ← readAt base cfg r 112 8
            let ob ← Res.ofOption "Invalid PE file" ob
            pure (PeOptionalHeader.ofBytes64 ob, r)
          else .err "Invalid PE file")
        let (dirs, r) ← readArrayAt base cfg r 8 4 optionalHeader.numberOfDataDirectories
        let dirs ← Res.ofOption "Invalid PE file" dirs
        let (secs, _) ← readArrayAt base cfg r 40 4 header.numberOfSections
        let secs ← Res.ofOption "Invalid PE file" secs
        pure { header, optionalHeader, dataDirectories := dirs.map RvaAndSize.ofBytes,
               sections := secs.map PeSection.ofBytes }

/-- The `cli_header` block (metadata/mod.rs:86-102), as `Clr.readCliHeader`: `CliHeader` has alignment 4. -/
def readCliHeader (base : Nat) (cfg : Cfg) (data : Bytes) (info : PeInfo) : Res CliHeader := do
  let dir ← Res.ofOption "Not .NET assembly" info.dataDirectories[14]?
  let off ← Res.mapErr (fun _ => "Invalid CLI header") (resolveRva cfg dir.rva info.sections)
  let d ← sliceFrom data off
  let (b, _) ← readAt (base + off) cfg (Reader.new d) 72 4
  Res.ofOption "Invalid CLI header" (b.map CliHeader.ofBytes)

/-- The start of the stream of tables, `TableReader::read` (tables/mod.rs:241-297), as `Clr.readTableHeader`: two `u64` and an
array of `u32`; the stream is at address `base`. -/
def readTableHeader (base : Nat) (cfg : Cfg) (data : Bytes) : Res (TableCtx × Reader) := do
  let r := Reader.new data
  let (_, r) ← r.advance cfg 6
  let (b, r) ← readNum base cfg r 1
  let heapSizes ← Res.ofOption "Invalid metadata header" (b.bind heapSizeFlags)
  let (_, r) ← r.advance cfg 1
  let (present, r) ← readNum base cfg r 8
  let present ← Res.ofOption "Invalid metadata header" present
  let (sorted, r) ← readNum base cfg r 8
  let _ ← Res.ofOption "Invalid metadata header" sorted
  let (raw, r) ← readArrayAt base cfg r 4 4 (countOnes present)
  let raw ← Res.ofOption "Invalid metadata header" raw
  let counts ← distributeRows present (List.range 64) (raw.map leNat)
  let rows : Nat → Nat := fun i => match counts[i]? with
    | some n => n
    | none => 0
  pure (TableCtx.ofCounts heapSizes rows, r)

/-- The loop over the stream headers (metadata/mod.rs:156-183), as `Clr.readStreamHeaders`. -/
def readStreamHeaders (base : Nat) (cfg : Cfg) : Nat → Reader → Streams → Res Streams
  | 0, _, s => pure s
  | n + 1, r, s => do
    let (offset, r) ← readNum base cfg r 4
    let offset ← Res.ofOption "Invalid metadata header" offset
    let (size, r) ← readNum base cfg r 4
    let size ← Res.ofOption "Invalid metadata header" size
    let (name, r) ← r.readCStr cfg
    let name ← Res.ofOption "Invalid metadata header" name
    let p ← uadd cfg 64 r.pos 4
    let r := (r.goto (p / 4 * 4)).2
    let s ← s.set name ⟨offset, size⟩
    readStreamHeaders base cfg n r s

/-- The metadata root (mod.rs:116-183), as `Clr.readMetadataRoot`. -/
def readMetadataRoot (base : Nat) (cfg : Cfg) (metadata : Bytes) : Res Streams := do
  let r := Reader.new metadata
  let (magic, r) ← readNum base cfg r 4
  if magic ≠ some 0x424A5342 then .err "Invalid metadata header"
  else do
    let (ok, r) ← r.advance cfg 8
    if ok = false then .err "Invalid metadata header"
    else do
      let (length, r) ← readNum base cfg r 4
      let length ← Res.ofOption "Invalid metadata header" length
      let (version, r) ← r.readStr cfg length
      let _ ← Res.ofOption "Invalid version string in metadata" version
      let (_, r) ← r.advance cfg 2
      let (n, r) ← readNum base cfg r 2
      let n ← Res.ofOption "Invalid metadata header" n
      readStreamHeaders base cfg n r {}

end Clr.Strict
