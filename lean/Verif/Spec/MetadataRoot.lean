import Verif.Spec.PeFormat
import Verif.Spec.Utf8
/-!
# CLI header and metadata root (ECMA-335 II.25.3.3 and II.24.2), as encoders

Independent of the model: an assembly file is described by its image (sections, directories), its CLI header fields
and its metadata root.
-/

namespace Clr.Spec

/-- The fields of a CLI header that the loader looks at; the others are arbitrary. -/
structure Cli where
  cb : Nat
  major : Nat
  minor : Nat
  metadata : Nat × Nat
  flags : Nat
  entryToken : Nat
  resources : Nat × Nat
  others : List (Nat × Nat)
deriving DecidableEq

def Cli.fields (c : Cli) : List (Nat × Nat) :=
  [(4, c.cb), (2, c.major), (2, c.minor), (4, c.metadata.1), (4, c.metadata.2), (4, c.flags), (4, c.entryToken),
   (4, c.resources.1), (4, c.resources.2)]

/-- The 72 bytes of a CLI header. -/
def Cli.enc (c : Cli) : Bytes := encFields c.fields ++ (c.others.map encDir).flatten

def Cli.Legal (c : Cli) : Prop :=
  FitsAll c.fields ∧ c.others.length = 5 ∧ ∀ d ∈ c.others, d.1 < 2 ^ 32 ∧ d.2 < 2 ^ 32

instance (c : Cli) : Decidable c.Legal := by unfold Cli.Legal; infer_instance

/-- One entry of the stream directory. -/
structure Stream where
  name : List Char
  offset : Nat
  size : Nat
deriving DecidableEq

/-- Zero bytes that terminate a name of `n` bytes and pad it to a multiple of four: one to four of them. -/
def namePad (n : Nat) : Bytes := List.replicate (4 - n % 4) 0

def Stream.enc (s : Stream) : Bytes :=
  leBytes 4 s.offset ++ leBytes 4 s.size ++ utf8 s.name ++ namePad (utf8 s.name).length

/-- Offsets fit their fields; the name has no NUL. -/
def Stream.Legal (s : Stream) : Prop :=
  s.offset < 2 ^ 32 ∧ s.size < 2 ^ 32 ∧ Char.ofNat 0 ∉ s.name

instance (s : Stream) : Decidable s.Legal := by unfold Stream.Legal; infer_instance

/-- A metadata root: signature, version numbers and reserved word (`skipped`, 8 bytes), the length-prefixed version
text padded with zeros to `versionLength`, the flags (2 bytes), the stream directory, and then `body`. -/
structure Root where
  skipped : Bytes
  version : List Char
  versionLength : Nat
  flags : Bytes
  streams : List Stream
deriving DecidableEq

def Root.enc (m : Root) : Bytes :=
  leBytes 4 0x424A5342 ++ m.skipped ++ leBytes 4 m.versionLength ++
    (utf8 m.version ++ List.replicate (m.versionLength - (utf8 m.version).length) 0) ++
    m.flags ++ leBytes 2 m.streams.length ++ (m.streams.map Stream.enc).flatten

def Root.Legal (m : Root) : Prop :=
  m.skipped.length = 8 ∧ m.flags.length = 2 ∧ m.versionLength < 2 ^ 32 ∧ m.versionLength % 4 = 0 ∧
  (utf8 m.version).length ≤ m.versionLength ∧ Char.ofNat 0 ∉ m.version ∧ m.streams.length < 2 ^ 16 ∧
  ∀ s ∈ m.streams, s.Legal

instance (m : Root) : Decidable m.Legal := by unfold Root.Legal; infer_instance

/-- The stream names the runtime knows (ECMA-335 II.24.2.2, without the uncompressed `#-`). -/
def knownStreams : List (List Char) :=
  ["#Strings".toList, "#US".toList, "#Blob".toList, "#GUID".toList, "#~".toList]

/-- The directory places stream `name` at `offset` with `size`, and nowhere else. -/
def Root.Places (m : Root) (name : String) (offset size : Nat) : Prop :=
  (⟨name.toList, offset, size⟩ : Stream) ∈ m.streams ∧
  ∀ s ∈ m.streams, s.name = name.toList → s = ⟨name.toList, offset, size⟩

/-- The directory does not mention stream `name`. -/
def Root.Lacks (m : Root) (name : String) : Prop := ∀ s ∈ m.streams, s.name ≠ name.toList

instance (m : Root) (n : String) (o s : Nat) : Decidable (m.Places n o s) := by unfold Root.Places; infer_instance
instance (m : Root) (n : String) : Decidable (m.Lacks n) := by unfold Root.Lacks; infer_instance

/-- The bytes `[off, off+size)` of a file. -/
def part (data : Bytes) (off size : Nat) : Bytes := (data.drop off).take size

/-- Address `rva` lies in a section whose raw data is in the file; `off` is its file offset. -/
def Image.At (i : Image) (rva off : Nat) : Prop :=
  ∃ s ∈ i.sections, s.Contains rva ∧ off = s.rawPointer + (rva - s.virtualAddress)

/-- Sections neither wrap 32 bits nor share an address. -/
def Image.Sound (i : Image) : Prop :=
  (∀ s ∈ i.sections, s.NoWrap) ∧
  ∀ x, ∀ s ∈ i.sections, ∀ t ∈ i.sections, s.Contains x → t.Contains x → s = t

/-- `data` is an assembly file: image `i` with its headers at `peOff`, directory 14 pointing to CLI header `c`, whose
metadata directory covers `mlen` bytes at file offset `moff`. -/
structure IsAssemblyFile (data : Bytes) (peOff : Nat) (i : Image) (c : Cli) (moff : Nat) : Prop where
  small : data.length < 2 ^ 63
  legal : i.Legal
  file : IsPeFile data peOff i
  sound : i.Sound
  cliLegal : c.Legal
  /-- Directory 14 exists, resolves, and the CLI header is there. -/
  cli : ∃ rva size off tail, i.dirs[14]? = some (rva, size) ∧ i.At rva off ∧ data.drop off = c.enc ++ tail
  metadataAt : i.At c.metadata.1 moff
  metadataIn : moff + c.metadata.2 ≤ data.length

end Clr.Spec
