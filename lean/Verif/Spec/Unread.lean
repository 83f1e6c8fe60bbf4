import Verif.Spec.PeFormat
/-!
# Files with the same contents

Microsoft PE/COFF specification: the loader finds the contents of a file through the directory entries and the section table. The
DOS program, time stamps, checksums, linker versions, section names and padding are not part of the contents.
-/

namespace Clr.Spec

/-- Address, size, and place relative to `b`, of the raw data of a section. -/
def Section.place (b : Nat) (s : Section) : Nat × Nat × Nat := (s.virtualAddress, s.rawSize, s.rawPointer - b)

/-- From byte `b` on, before which no section has raw data, the file is the same as the other from byte `b'` on; the section tables
say so, and the CLI header has the same address. -/
structure SameContents (data data' : Bytes) (i i' : Image) (b b' : Nat) : Prop where
  start : b ≤ data.length ∧ b' ≤ data'.length
  contents : data'.drop b' = data.drop b
  before : (∀ s ∈ i.sections, b ≤ s.rawPointer ∧ s.NoWrap) ∧ ∀ s ∈ i'.sections, b' ≤ s.rawPointer ∧ s.NoWrap
  sections : i'.sections.map (Section.place b') = i.sections.map (Section.place b)
  cli : i'.dirs[14]?.map (·.1) = i.dirs[14]?.map (·.1)

/-- The same file, or two PE files with the same contents. -/
def Rehoused (data data' : Bytes) : Prop :=
  data' = data ∨ ∃ off off' i i' b b', IsPeFile data off i ∧ IsPeFile data' off' i' ∧ i.Legal ∧ i'.Legal ∧
    data.length < 2 ^ 63 ∧ data'.length < 2 ^ 63 ∧ SameContents data data' i i' b b'

/-- File systems with files under the same names that correspond. -/
def SameFiles {N : Type} (R : Bytes → Bytes → Prop) (fs fs' : N → Option Bytes) : Prop :=
  ∀ n, (fs n = none ∧ fs' n = none) ∨ ∃ d d', fs n = some d ∧ fs' n = some d' ∧ R d d'

/-- What may be at a path: nothing, something that cannot be read, or corresponding files. -/
def SameDisk {P : Type} (R : Bytes → Bytes → Prop) (disk disk' : P → Option (Option Bytes)) : Prop :=
  ∀ p, (disk p = none ∧ disk' p = none) ∨ (disk p = some none ∧ disk' p = some none) ∨
    ∃ d d', disk p = some (some d) ∧ disk' p = some (some d') ∧ R d d'

end Clr.Spec
