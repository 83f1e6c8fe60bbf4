import Verif.Props.Metadata
import Verif.Props.Heaps
import Verif.Props.Signature
import Verif.Props.MethodBody
/-! # C91: an assembly file is read back as it was written -/

namespace Clr
open Spec Reader

/-- What an assembler writes into a file (ECMA-335 II.24, II.25): the image with its sections, the CLI header, the heaps,
the row counts and widths of the tables, and the table rows. -/
structure FileParts where
  image : Image
  cli : Cli
  strings : Bytes
  blob : Bytes
  guid : Bytes
  userStrings : Option Bytes
  sizes : Sizes
  tables : Tables

/-- `data` is a file with these parts: any legal header contents, streams anywhere in the metadata and in any order, any
padding. -/
def FileParts.Written (t : FileParts) (data : Bytes) : Prop :=
  ∃ (peOff moff : Nat) (root : Root) (body : Bytes) (d : Directory),
    IsAssemblyFile data peOff t.image t.cli moff ∧ root.Legal ∧
    part data moff t.cli.metadata.2 = root.enc ++ body ∧ d.Of root t.cli.metadata.2 ∧
    part (part data moff t.cli.metadata.2) d.strings.1 d.strings.2 = t.strings ∧
    part (part data moff t.cli.metadata.2) d.blob.1 d.blob.2 = t.blob ∧
    part (part data moff t.cli.metadata.2) d.guid.1 d.guid.2 = t.guid ∧
    d.userStrings.map (fun e => part (part data moff t.cli.metadata.2) e.1 e.2) = t.userStrings ∧
    ∃ (unused : Bytes) (u1 : UInt8) (valid sorted : Nat) (rows post : Bytes),
      HeaderFits t.sizes unused valid sorted ∧ IsTables t.sizes rows t.tables ∧
      part (part data moff t.cli.metadata.2) d.tables.1 d.tables.2 =
        encTableHeader t.sizes unused u1 valid sorted ++ (rows ++ post)

/-- The loaded metadata answers every question about the file as the parts say. -/
structure FileParts.ReadAs (cfg : Cfg) (t : FileParts) (data : Bytes) (m : Metadata) : Prop where
  /-- Every row of every table. -/
  tables : m.tables = t.tables
  /-- The entry point token and the flags of the CLI header. -/
  entry : m.cliHeader.entryPoint = ⟨t.cli.entryToken⟩
  flags : m.cliHeader.flags = t.cli.flags
  /-- A name column yields a text exactly when that text is in the strings heap there. -/
  strings : ∀ i, ∃ r, m.string i = .ok r ∧ ∀ s, r = some s ↔ HeapText t.strings i s
  /-- A blob column opens exactly the blob written there. -/
  blobs : ∀ pre content post, t.blob = pre ++ encBlob content ++ post → content.length < 2 ^ 29 →
    blobHeapReader cfg m.blobHeap pre.length = .ok (Reader.new content)
  /-- The blob heap as a whole. -/
  heap : m.blobHeap = t.blob
  /-- A string literal token yields the code units written there. -/
  literals : ∀ pre units last post, t.userStrings = some (pre ++ encUserString units last ++ post) →
    (∀ u ∈ units, u < 2 ^ 16) → 2 * units.length + 1 < 2 ^ 29 → pre.length < 2 ^ 24 →
    getString cfg m.userStringData ⟨0x70000000 + pre.length⟩ = .ok (some units)
  guids : m.guidHeap = t.guid
  /-- A resource is returned as exactly its content. -/
  resources : ∀ roff before content after, t.image.At t.cli.resources.1 roff →
    roff + t.cli.resources.2 ≤ data.length →
    part data roff t.cli.resources.2 = before ++ leBytes 4 content.length ++ content ++ after →
    m.getResourceData cfg before.length = .ok content
  /-- The bytes at an address in a section are those the file holds there (with C31, C32, C33: the method bodies). -/
  regions : ∀ rva off bytes tail, t.image.At rva off → off ≤ data.length → data.drop off = bytes ++ tail →
    RegionAt m rva bytes
  /-- In particular, a tiny method body is its code. -/
  bodies : ∀ rva off code tail w, t.image.At rva off → off ≤ data.length → code.length < 64 →
    data.drop off = tinyBody code ++ tail → ∃ b, loadBody cfg m rva w = (.ok b, w) ∧ b.code = code

/-- The claim of C91 for files restricted by `P`. -/
def ReadsBack (P : FileParts → Prop) : Prop :=
  ∀ (cfg : Cfg) (data : Bytes) (t : FileParts), t.Written data → P t →
    ∃ m, readMetadata cfg data = .ok m ∧ t.ReadAs cfg data m

/-- What the code handles: no tables numbered below 0x2c that it does not know (C28), no row counts that make it use a
wrong column width (C26), no custom attributes on security declarations (C25). -/
structure FileParts.Handled (t : FileParts) : Prop where
  known : ∀ i, i < 0x2c → i ∉ supportedTables → t.sizes.rows i = 0
  widths : t.sizes.Regular
  attributes : ∀ row ∈ t.tables.customAttribute, row.parent.table ≠ .declSecurity

theorem part_length_le (b : Bytes) (o n : Nat) : (part b o n).length ≤ b.length := by
  simp only [part, List.length_take, List.length_drop]; omega

/-- **C91**, the part that holds: a file written from parts the code handles is read without error, and every table row,
heap entry, resource, code byte and header field is what was written. Missing: the files of `C91_refuted`, and those of
`C26_refuted` and `C28_refuted`. -/
theorem C91_partial : ReadsBack FileParts.Handled := by
  intro cfg data t hw hp
  obtain ⟨peOff, moff, root, body, d, hf, hroot, hpart, hdir, hs, hb, hg, hu, unused, u1, valid, sorted, rows, post,
    hfits, hrows, htab⟩ := hw
  have hmd : (part data moff t.cli.metadata.2).length ≤ data.length := part_length_le _ _ _
  have hsmall := hf.small
  have h32 : (part data moff t.cli.metadata.2).length < 2 ^ 32 := by
    have h1 := hf.cliLegal.1 (4, t.cli.metadata.2) (by simp [Cli.fields])
    have h2 : (part data moff t.cli.metadata.2).length ≤ t.cli.metadata.2 := by simp [part]; omega
    have h3 : t.cli.metadata.2 < 256 ^ 4 := h1
    omega
  have hrt := C28_partial cfg t.sizes unused u1 valid sorted rows post t.tables hfits hp.known hp.widths hp.attributes hrows
    (by rw [← htab]; have := part_length_le (part data moff t.cli.metadata.2) d.tables.1 d.tables.2; omega)
  obtain ⟨m, hm, es, eb, eg, eu, et⟩ :=
    (C09_streams cfg data peOff moff t.image t.cli hf root hroot body hpart d hdir).1 t.tables (by rw [htab]; exact hrt)
  have hpre : m.peData = data ∧ m.peInfo = infoOf t.image ∧ CliOf t.cli m.cliHeader ∧
      ∃ b, m.stringsHeap = StringsHeap.new b := by
    obtain ⟨hd, hh, hc⟩ := readCliHeader_at cfg hf
    have hmd := hm
    unfold readMetadata at hmd
    rw [parsePe_enc cfg data peOff t.image hf.small hf.legal hf.file] at hmd
    simp only [Res.ok_bind, hh] at hmd
    rw [metadataSlice_at cfg hf hc] at hmd
    simp only [Res.ok_bind] at hmd
    repeat (obtain ⟨_, _, hmd⟩ := Res.bind_eq_ok.mp hmd)
    have := Res.ok.inj hmd
    subst this
    exact ⟨rfl, rfl, hc, _, rfl⟩
  obtain ⟨hpd, hpi, hcli, sb, hsb⟩ := hpre
  have hsb' : sb = t.strings := by rw [← hs, ← es, hsb]; rfl
  subst hsb'
  have region : ∀ rva off bytes tail, t.image.At rva off → off ≤ data.length → data.drop off = bytes ++ tail →
      RegionAt m rva bytes := by
    rintro rva off bytes tail ⟨s, hs, hc, rfl⟩ hle hdrop
    refine ⟨by rw [hpd]; exact hsmall, t.image.sections, s, tail, ?_, hf.sound.1, hf.sound.2 rva, hs, hc, ?_, ?_⟩
    · rw [hpi]; rfl
    · rw [hpd]; exact hle
    · rw [hpd]; exact hdrop
  refine ⟨m, hm, ?_⟩
  constructor
  · exact et
  · exact hcli.entryPoint
  · exact hcli.flags
  · intro i
    obtain ⟨_, r, _, e1, e2, h⟩ := C12_lookup_exact t.strings [] i
    cases e1
    refine ⟨r, ?_, h⟩
    unfold Metadata.string
    rw [hsb, e2]
    rfl
  · intro pre content post he hl
    have hpl : (pre ++ encBlob content ++ post).length < 2 ^ 32 := by
      rw [← he, ← hb]; exact Nat.lt_of_le_of_lt (part_length_le _ _ _) h32
    rw [eb, hb, he]
    exact C17_confined cfg pre content post hl (by simp only [List.length_append] at hpl; omega)
  · rw [eb, hb]
  · intro pre units last post he h1 h2 h3
    rw [he] at hu
    cases hdu : d.userStrings with
    | none => rw [hdu] at hu; simp at hu
    | some e =>
      rw [hdu] at hu eu
      simp only [Option.map_some, Option.some.injEq] at hu
      have hpl : (pre ++ encUserString units last ++ post).length < 2 ^ 32 := by
        rw [← hu]; exact Nat.lt_of_le_of_lt (part_length_le _ _ _) h32
      dsimp only at eu
      rw [eu, hu]
      exact C13_user_string cfg pre post units last h1 h2 h3 (by simp only [List.length_append] at hpl; omega)
  · rw [eg, hg]
  · intro roff before content after hat hin hres
    exact C14_resources cfg data peOff moff t.image t.cli hf m hm roff hat hin before content after hres
  · exact region
  · intro rva off code tail w hat hle hc hdrop
    obtain ⟨b, h1, h2, _⟩ := C31_tiny cfg m rva code hc (region rva off _ tail hat hle hdrop) w
    exact ⟨b, h1, h2⟩

/-! ## Instances -/

/-- A file with the tables of stream `tables` (`n` bytes) next to small heaps; the streams in the order of `exRoot`. -/
def backRoot (n : Nat) : Root :=
  { exRoot with streams := [⟨"#GUID".toList, 100, 0⟩, ⟨"#Blob".toList, 96, 4⟩, ⟨"#~".toList, 100, n⟩, ⟨"#Strings".toList, 92, 4⟩] }

def backFile (tables : Bytes) : Bytes :=
  exAsmFile ((backRoot tables.length).enc ++ ([0, 0x61, 0x62, 0] ++ [0, 2, 6, 8] ++ tables)) []

/-- Its parts. -/
def backParts (n : Nat) (s : Sizes) (x : Tables) : FileParts where
  image := exAsmImage (180 + n)
  cli := exCli (100 + n) 0
  strings := [0, 0x61, 0x62, 0]
  blob := [0, 2, 6, 8]
  guid := []
  userStrings := none
  sizes := s
  tables := x

/-- The table stream of `pairTables`, with a stray byte behind it. -/
def pairStream : Bytes := encTableHeader pairSizes [0, 0, 0, 0, 2, 0] 1 5 0 ++ (pairBody ++ [0xff])

/-- The table stream of `attrTables`. -/
def attrStream : Bytes := encTableHeader attrSizes [0, 0, 0, 0, 2, 0] 1 (2 ^ 0xc + 2 ^ 0xe) 0 ++ (attrBody ++ [])

theorem pairStream_length : pairStream.length = 57 := by decide +kernel
theorem attrStream_length : attrStream.length = 44 := by decide +kernel

theorem pair_assembly : IsAssemblyFile (backFile pairStream) 0x40 (exAsmImage 237) (exCli 157 0) 0x250 where
  small := by decide +kernel
  legal := by decide +kernel
  file := ⟨by decide +kernel, by decide +kernel, by decide, (backFile pairStream).drop (0x40 + (exAsmImage 237).enc.length),
    by decide +kernel⟩
  sound := exAsm_sound _ (by decide)
  cliLegal := by decide +kernel
  cli := ⟨0x2008, 72, 0x208, (backFile pairStream).drop 0x250, by decide, exAsm_at _ _ _ (by decide) (by decide), by decide +kernel⟩
  metadataAt := exAsm_at _ _ _ (by decide) (by decide)
  metadataIn := by decide +kernel

theorem attr_assembly : IsAssemblyFile (backFile attrStream) 0x40 (exAsmImage 224) (exCli 144 0) 0x250 where
  small := by decide +kernel
  legal := by decide +kernel
  file := ⟨by decide +kernel, by decide +kernel, by decide, (backFile attrStream).drop (0x40 + (exAsmImage 224).enc.length),
    by decide +kernel⟩
  sound := exAsm_sound _ (by decide)
  cliLegal := by decide +kernel
  cli := ⟨0x2008, 72, 0x208, (backFile attrStream).drop 0x250, by decide, exAsm_at _ _ _ (by decide) (by decide), by decide +kernel⟩
  metadataAt := exAsm_at _ _ _ (by decide) (by decide)
  metadataIn := by decide +kernel

def backDirectory (n : Nat) : Directory := ⟨(92, 4), (96, 4), (100, 0), (100, n), none⟩

theorem pair_fits : HeaderFits pairSizes [0, 0, 0, 0, 2, 0] 5 0 := by
  refine ⟨rfl, by omega, by omega, ?_, ?_⟩
  · intro i; simp only [pairSizes]; split <;> omega
  · have : ∀ i : Fin 64, (5 : Nat).testBit i.val = false → (if i.val = 0 ∨ i.val = 2 then 1 else 0) = 0 := by decide
    intro i hi h; exact this ⟨i, hi⟩ h

theorem pair_written : (backParts 57 pairSizes pairTables).Written (backFile pairStream) :=
  ⟨0x40, 0x250, backRoot 57, [0, 0x61, 0x62, 0] ++ [0, 2, 6, 8] ++ pairStream, backDirectory 57, pair_assembly,
    by decide +kernel, by decide +kernel,
    ⟨by decide, ⟨by decide, by decide⟩, ⟨by decide, by decide⟩, ⟨by decide, by decide⟩, ⟨by decide, by decide⟩,
      (by decide : (backRoot 57).Lacks "#US")⟩,
    by decide +kernel, by decide +kernel, by decide +kernel, rfl,
    [0, 0, 0, 0, 2, 0], 1, 5, 0, pairBody, [0xff], pair_fits, pair_isTables, by decide +kernel⟩

theorem attr_written : (backParts 44 attrSizes attrTables).Written (backFile attrStream) :=
  ⟨0x40, 0x250, backRoot 44, [0, 0x61, 0x62, 0] ++ [0, 2, 6, 8] ++ attrStream, backDirectory 44, attr_assembly,
    by decide +kernel, by decide +kernel,
    ⟨by decide, ⟨by decide, by decide⟩, ⟨by decide, by decide⟩, ⟨by decide, by decide⟩, ⟨by decide, by decide⟩,
      (by decide : (backRoot 44).Lacks "#US")⟩,
    by decide +kernel, by decide +kernel, by decide +kernel, rfl,
    [0, 0, 0, 0, 2, 0], 1, 2 ^ 0xc + 2 ^ 0xe, 0, attrBody, [], attr_fits, attr_isTables, by decide +kernel⟩

theorem pair_handled : (backParts 57 pairSizes pairTables).Handled where
  known := by
    have : ∀ i : Fin 0x2c, i.val ∉ supportedTables → (if i.val = 0 ∨ i.val = 2 then 1 else 0) = 0 := by decide
    intro i hi h; exact this ⟨i, hi⟩ h
  widths := by
    refine ⟨?_, by decide⟩
    intro k ty _
    cases k <;> cases ty <;> decide
  attributes := by intro row h; cases h

/-- C91, instance: the file is one of those the theorem covers, and the theorem gives its rows, a name, a blob. -/
example : ∃ m, readMetadata Cfg.debug (backFile pairStream) = .ok m ∧ m.tables = pairTables ∧
    m.string 1 = .ok (some ['a', 'b']) ∧ blobHeapReader Cfg.debug m.blobHeap 1 = .ok (Reader.new [6, 8]) := by
  obtain ⟨m, hm, h⟩ := C91_partial Cfg.debug _ _ pair_written pair_handled
  refine ⟨m, hm, h.tables, ?_, h.blobs [0] [6, 8] [] (by decide) (by decide)⟩
  obtain ⟨r, hr, hs⟩ := h.strings 1
  rw [hr, (hs ['a', 'b']).2 ⟨[0], [], by decide, by decide, by decide⟩]

/-- **C91** is false of the code for files in general: a file with a custom attribute on a security declaration is
rejected. -/
theorem C91_refuted : ¬ ReadsBack (fun _ => True) := by
  intro h
  obtain ⟨m, hm, _⟩ := h Cfg.debug _ _ attr_written trivial
  obtain ⟨e, he⟩ := attr_rejected Cfg.debug
  have := (C09_streams Cfg.debug (backFile attrStream) 0x40 0x250 _ _ attr_assembly (backRoot 44) (by decide +kernel)
    ([0, 0x61, 0x62, 0] ++ [0, 2, 6, 8] ++ attrStream) (by decide +kernel) (backDirectory 44)
    ⟨by decide, ⟨by decide, by decide⟩, ⟨by decide, by decide⟩, ⟨by decide, by decide⟩, ⟨by decide, by decide⟩,
      (by decide : (backRoot 44).Lacks "#US")⟩).2 e (by
        rw [show part (part (backFile attrStream) 0x250 (exCli 144 0).metadata.2) (backDirectory 44).tables.1 (backDirectory 44).tables.2
          = encTableHeader attrSizes [0, 0, 0, 0, 2, 0] 1 (2 ^ 0xc + 2 ^ 0xe) 0 ++ attrBody by decide +kernel]
        exact he)
  rw [this] at hm
  cases hm

end Clr
