import Verif.Lemmas.Metadata
import Verif.Lemmas.Safe
/-! # C09, C10, C14: metadata root and resources -/

namespace Clr
open Spec Reader

/-! ## C09 -/

/-- A directory entry inside a metadata block of `len` bytes. -/
def Inside (len : Nat) (e : Nat × Nat) : Prop := e.1 + e.2 ≤ len

instance (len : Nat) (e : Nat × Nat) : Decidable (Inside len e) := by unfold Inside; infer_instance

/-- The stream directory of a root: where the four mandatory streams are, and the user strings if present. -/
structure Directory where
  strings : Nat × Nat
  blob : Nat × Nat
  guid : Nat × Nat
  tables : Nat × Nat
  userStrings : Option (Nat × Nat)

/-- The root lists exactly known streams, the mandatory ones once each, in any order, all inside `len` bytes. -/
structure Directory.Of (d : Directory) (m : Root) (len : Nat) : Prop where
  known : ∀ s ∈ m.streams, s.name ∈ knownStreams
  strings : m.Places "#Strings" d.strings.1 d.strings.2 ∧ Inside len d.strings
  blob : m.Places "#Blob" d.blob.1 d.blob.2 ∧ Inside len d.blob
  guid : m.Places "#GUID" d.guid.1 d.guid.2 ∧ Inside len d.guid
  tables : m.Places "#~" d.tables.1 d.tables.2 ∧ Inside len d.tables
  userStrings : match d.userStrings with
    | some e => m.Places "#US" e.1 e.2 ∧ Inside len e
    | none => m.Lacks "#US"

/-- What a successful `readMetadata` did before the streams. -/
theorem readMetadata_prefix (cfg : Cfg) {data : Bytes} {peOff moff : Nat} {i : Image} {c : Cli}
    (h : IsAssemblyFile data peOff i c moff) {m : Root} (hm : m.Legal) {body : Bytes}
    (hroot : part data moff c.metadata.2 = m.enc ++ body) {s : Streams} (hs : setAll m.streams {} = .ok s) :
    ∃ hd, CliOf c hd ∧ readMetadata cfg data = (do
      let metadata := part data moff c.metadata.2
      let strings ← Res.unwrap s.strings
      let strings ← streamBytes cfg metadata strings
      let userStrings ← userStringBytes cfg metadata s.userStrings
      let blob ← Res.unwrap s.blob
      let blob ← streamBytes cfg metadata blob
      let guid ← Res.unwrap s.guid
      let guid ← streamBytes cfg metadata guid
      let tables ← Res.unwrap s.tables
      let tables ← streamBytes cfg metadata tables
      let tables ← readTableStream cfg tables
      let entryPoint ← entryPointHandle cfg hd
      pure { peData := data, peInfo := infoOf i, cliHeader := hd, metadata, stringsHeap := StringsHeap.new strings,
             userStringData := userStrings, blobHeap := blob, guidHeap := guid, tables, entryPoint }) := by
  obtain ⟨hd, hh, hc⟩ := readCliHeader_at cfg h
  refine ⟨hd, hc, ?_⟩
  have hl : (part data moff c.metadata.2).length < 2 ^ 63 := by
    have := h.small; simp [part]; omega
  unfold readMetadata
  rw [parsePe_enc cfg data peOff i h.small h.legal h.file]
  simp only [Res.ok_bind]
  rw [hh]
  simp only [Res.ok_bind]
  rw [metadataSlice_at cfg h hc]
  simp only [Res.ok_bind]
  rw [readMetadataRoot_at cfg m hm hl hroot, hs]
  rfl

theorem entryPointHandle_ok (cfg : Cfg) (hd : CliHeader) : ∃ e, entryPointHandle cfg hd = .ok e := by
  unfold entryPointHandle
  split
  · exact ⟨_, rfl⟩
  · rw [usub_ok (by omega)]; exact ⟨_, rfl⟩

/-- **C09.** For an assembly file whose metadata root lists the known streams in any order, at any places inside the
metadata, with any version text and name padding: if the table stream is readable, loading succeeds and every stream
holds exactly its bytes `[offset, offset+size)` (no bytes for absent user strings); if the table stream is not readable,
loading reports an error. -/
theorem C09_streams (cfg : Cfg) (data : Bytes) (peOff moff : Nat) (i : Image) (c : Cli)
    (h : IsAssemblyFile data peOff i c moff) (m : Root) (hm : m.Legal) (body : Bytes)
    (hroot : part data moff c.metadata.2 = m.enc ++ body) (d : Directory) (hd : d.Of m c.metadata.2) :
    (∀ t, readTableStream cfg (part (part data moff c.metadata.2) d.tables.1 d.tables.2) = .ok t →
      ∃ md, readMetadata cfg data = .ok md ∧
        md.stringsHeap.data = part (part data moff c.metadata.2) d.strings.1 d.strings.2 ∧
        md.blobHeap = part (part data moff c.metadata.2) d.blob.1 d.blob.2 ∧
        md.guidHeap = part (part data moff c.metadata.2) d.guid.1 d.guid.2 ∧
        md.userStringData = (match d.userStrings with
          | some e => part (part data moff c.metadata.2) e.1 e.2
          | none => []) ∧
        md.tables = t) ∧
    (∀ e, readTableStream cfg (part (part data moff c.metadata.2) d.tables.1 d.tables.2) = .err e →
      readMetadata cfg data = .err e) := by
  obtain ⟨s, hs⟩ := setAll_known m.streams {} hd.known
  obtain ⟨hdr, _, hrd⟩ := readMetadata_prefix cfg h hm hroot hs
  have hlen : (part data moff c.metadata.2).length = c.metadata.2 := by
    have := h.metadataIn
    simp [part]; omega
  have h32 : c.metadata.2 < 2 ^ 32 := by
    have := h.cliLegal.1 (4, c.metadata.2) (by simp [Cli.fields])
    simpa using this
  generalize part data moff c.metadata.2 = md at *
  have hb : ∀ e : Nat × Nat, Inside c.metadata.2 e → streamBytes cfg md ⟨e.1, e.2⟩ = .ok (part md e.1 e.2) := by
    intro e he
    have he' : e.1 + e.2 ≤ c.metadata.2 := he
    exact streamBytes_at cfg md e.1 e.2 (by omega) (by omega)
  have g : ∀ {name : String} {get : Streams → Option StreamHeader} (_ : Slot name get) (e : Nat × Nat)
      (_ : m.Places name e.1 e.2), get s = some ⟨e.1, e.2⟩ :=
    fun hsl e hp => setAll_places hsl m.streams {} s hs e.1 e.2 hp.2 (Or.inl hp.1)
  have hus : userStringBytes cfg md s.userStrings = .ok (match d.userStrings with
          | some e => part md e.1 e.2
          | none => []) := by
    have := hd.userStrings
    cases hu : d.userStrings with
    | some e =>
      rw [hu] at this
      rw [g slotUserStrings e this.1]
      exact hb e this.2
    | none =>
      rw [hu] at this
      rw [setAll_lacks slotUserStrings m.streams {} s hs this]
      rfl
  rw [g slotStrings _ hd.strings.1, g slotBlob _ hd.blob.1, g slotGuid _ hd.guid.1, g slotTables _ hd.tables.1] at hrd
  simp only [Res.unwrap_some, Res.ok_bind, hb _ hd.strings.2, hb _ hd.blob.2, hb _ hd.guid.2, hb _ hd.tables.2, hus] at hrd
  rw [hrd]
  obtain ⟨ep, hep⟩ := entryPointHandle_ok cfg hdr
  constructor
  · intro t ht
    rw [ht]
    simp only [Res.ok_bind, hep]
    exact ⟨_, rfl, rfl, rfl, rfl, rfl, rfl⟩
  · intro e he
    rw [he]
    rfl

/-- **C09, unknown streams.** A stream directory with an unknown name anywhere is a format error. -/
theorem C09_unknown (cfg : Cfg) (data : Bytes) (peOff moff : Nat) (i : Image) (c : Cli)
    (h : IsAssemblyFile data peOff i c moff) (m : Root) (hm : m.Legal) (body : Bytes)
    (hroot : part data moff c.metadata.2 = m.enc ++ body) (hu : ∃ s ∈ m.streams, s.name ∉ knownStreams) :
    ∃ e, readMetadata cfg data = .err e := by
  obtain ⟨hd, hh, hc⟩ := readCliHeader_at cfg h
  obtain ⟨e, he⟩ := setAll_unknown m.streams {} hu
  have hl : (part data moff c.metadata.2).length < 2 ^ 63 := by
    have := h.small; simp [part]; omega
  refine ⟨e, ?_⟩
  unfold readMetadata
  rw [parsePe_enc cfg data peOff i h.small h.legal h.file]
  simp only [Res.ok_bind]
  rw [hh]
  simp only [Res.ok_bind]
  rw [metadataSlice_at cfg h hc]
  simp only [Res.ok_bind]
  rw [readMetadataRoot_at cfg m hm hl hroot, he]
  rfl

/-! ### An assembly file -/

/-- A PE32 image with 16 directories and one section of `raw` bytes at file offset 0x200, mapped at 0x2000. -/
def exAsmImage (raw : Nat) : Image where
  machine := 0x14c
  timestamp := 0
  symbolTable := 0
  symbolCount := 0
  optSize := 224
  characteristics := 0x2102
  plus := false
  opt := List.replicate 28 0
  dirs := List.replicate 14 (0, 0) ++ [(0x2008, 72), (0, 0)]
  sections := [⟨[0x2e, 0x74, 0x65, 0x78, 0x74, 0, 0, 0], raw, 0x2000, raw, 0x200, 0, 0, 0, 0, 0x60000020⟩]

/-- CLI header: metadata at 0x2050, resources of `rsize` bytes right behind it, entry point method row 1. -/
def exCli (msize rsize : Nat) : Cli where
  cb := 72
  major := 2
  minor := 5
  metadata := (0x2050, msize)
  flags := 1
  entryToken := 0x06000001
  resources := (0x2050 + msize, rsize)
  others := List.replicate 5 (0, 0)

/-- A file: headers padded to 0x200, then 8 bytes, the CLI header, the metadata and the resources. -/
def exAsmFile (metadata resources : Bytes) : Bytes :=
  let i := exAsmImage (80 + metadata.length + resources.length)
  let head := [0x4d, 0x5a] ++ List.replicate 58 0 ++ leBytes 4 0x40 ++ i.enc
  head ++ List.replicate (0x200 - head.length) 0 ++ List.replicate 8 7 ++ (exCli metadata.length resources.length).enc ++
    metadata ++ resources

/-- A table stream with no tables: 24 bytes. -/
def exTables : Bytes := [0, 0, 0, 0, 2, 0, 0, 1] ++ List.replicate 16 0

/-- The streams in an unusual order, without user strings. The root takes 92 bytes. -/
def exRoot : Root where
  skipped := [1, 0, 1, 0, 0, 0, 0, 0]
  version := "v4.0".toList
  versionLength := 8
  flags := [0, 0]
  streams := [⟨"#GUID".toList, 100, 0⟩, ⟨"#Blob".toList, 96, 4⟩, ⟨"#~".toList, 100, 24⟩, ⟨"#Strings".toList, 92, 4⟩]

def exMetadata : Bytes := exRoot.enc ++ [0, 0x61, 0x62, 0] ++ [0, 1, 2, 3] ++ exTables

def exDirectory : Directory := ⟨(92, 4), (96, 4), (100, 0), (100, 24), none⟩

theorem exAsm_sound (n : Nat) (h : n < 2 ^ 20) : (exAsmImage n).Sound := by
  constructor
  · simp [exAsmImage, Section.NoWrap]; omega
  · intro x s hs t ht _ _
    simp only [exAsmImage, List.mem_cons, List.not_mem_nil, or_false] at hs ht
    rw [hs, ht]

theorem exAsm_at (n rva off : Nat) (h : 0x2000 ≤ rva ∧ rva < 0x2000 + n) (ho : off = 0x200 + (rva - 0x2000)) :
    (exAsmImage n).At rva off := by
  refine ⟨⟨[0x2e, 0x74, 0x65, 0x78, 0x74, 0, 0, 0], n, 0x2000, n, 0x200, 0, 0, 0, 0, 0x60000020⟩, ?_, h, ho⟩
  simp [exAsmImage]

theorem exAsm_isAssembly : IsAssemblyFile (exAsmFile exMetadata []) 0x40 (exAsmImage 204) (exCli 124 0) 0x250 where
  small := by decide +kernel
  legal := by decide +kernel
  file := ⟨by decide +kernel, by decide +kernel, by decide, (exAsmFile exMetadata []).drop (0x40 + (exAsmImage 204).enc.length),
    by decide +kernel⟩
  sound := exAsm_sound _ (by decide)
  cliLegal := by decide +kernel
  cli := ⟨0x2008, 72, 0x208, exMetadata, by decide, exAsm_at _ _ _ (by decide) (by decide), by decide +kernel⟩
  metadataAt := exAsm_at _ _ _ (by decide) (by decide)
  metadataIn := by decide +kernel

example : exRoot.Legal ∧ part (exAsmFile exMetadata []) 0x250 124 = exRoot.enc ++ ([0, 0x61, 0x62, 0] ++ [0, 1, 2, 3] ++ exTables) ∧
    exDirectory.Of exRoot 124 :=
  ⟨by decide +kernel, by decide +kernel,
   ⟨by decide, ⟨by decide, by decide⟩, ⟨by decide, by decide⟩, ⟨by decide, by decide⟩, ⟨by decide, by decide⟩,
    (by decide : exRoot.Lacks "#US")⟩⟩
example : (do let m ← readMetadata Cfg.debug (exAsmFile exMetadata []); pure (m.stringsHeap.data, m.blobHeap)) =
    .ok ([0, 0x61, 0x62, 0], [0, 1, 2, 3]) := by decide +kernel
/-- The same root with a stream `#Pdb`. -/
def exRootPdb : Root := { exRoot with streams := exRoot.streams ++ [⟨"#Pdb".toList, 0, 0⟩] }
example : exRootPdb.Legal ∧ (∃ s ∈ exRootPdb.streams, s.name ∉ knownStreams) ∧
    (do let m ← readMetadata Cfg.debug (exAsmFile exRootPdb.enc []); pure m.blobHeap) = .err "Unrecognised metadata stream" := by decide +kernel

/-! ## C10 -/

theorem resolveRva_safe (cfg : Cfg) (rva : Nat) (ss : List PeSection) : Safe (resolveRva cfg rva ss) := by
  induction ss with
  | nil => exact Safe.err _
  | cons s ss ih =>
    unfold resolveRva
    split
    · refine (uadd_safe ..).bind fun e _ => ?_
      split
      · exact (usub_safe ..).bind fun d _ => uadd_safe ..
      · exact ih
    · exact ih

/-- The stream directory of arbitrary bytes: a list of streams or an error. -/
theorem readStreamHeaders_returns (cfg : Cfg) (n : Nat) (r : Reader) (s : Streams) (hl : r.data.length < 2 ^ 63)
    (hp : r.pos ≤ r.data.length + 4) : (readStreamHeaders cfg n r s).Returns := by
  induction n generalizing r s with
  | zero => simp [readStreamHeaders]
  | succ n ih =>
    unfold readStreamHeaders
    rcases readU_cases cfg r 4 (by omega) with h | ⟨o, h, _, hp1⟩
    · simp [h]
    · simp only [h, Res.ok_bind, Res.ofOption_some]
      rcases readU_cases cfg (r.skip 4) 4 (by simp; omega) with h | ⟨z, h, _, hp2⟩
      · simp [h]
      · simp only [h, Res.ok_bind, Res.ofOption_some]
        simp only [skip_skip] at *
        have hp3 : (r.skip (4 + 4)).pos ≤ (r.skip (4 + 4)).data.length := by simpa using hp2
        unfold readCStr
        rw [sliceFrom_ok hp3]
        simp only [Res.ok_bind]
        cases hnul : nulPos ((r.skip (4 + 4)).data.drop (r.skip (4 + 4)).pos) with
        | none => simp
        | some k =>
          have hk := (nulPos_some hnul).1
          simp only [List.length_drop] at hk
          have hin : (r.skip (4 + 4)).pos + k ≤ (r.skip (4 + 4)).data.length := by omega
          have hd : (r.skip (4 + 4)).data.length < 2 ^ 63 := hl
          simp only
          rw [readStr_eq cfg _ k (by omega), if_pos hin]
          simp only [Res.ok_bind]
          generalize fromUtf8 (beforeNul (List.take k (r.skip (4 + 4)).rest)) = nm
          cases nm with
          | none => simp
          | some nm =>
            simp only [Res.ofOption_some, Res.ok_bind]
            rw [uadd_ok (by simp at *; omega)]
            simp only [Res.ok_bind]
            have hset : (s.set nm ⟨o, z⟩).Returns := by
              by_cases hkn : nm ∈ knownStreams
              · obtain ⟨s', hs'⟩ := Streams.set_known s nm ⟨o, z⟩ hkn; rw [hs']; simp
              · obtain ⟨s', hs'⟩ := Streams.set_unknown s nm ⟨o, z⟩ hkn; rw [hs']; simp
            apply hset.bind
            intro s' _
            apply ih
            · exact hl
            · simp [goto] at *; omega

/-- The metadata root of arbitrary bytes: a stream directory or an error. -/
theorem readMetadataRoot_returns (cfg : Cfg) (bytes : Bytes) (hl : bytes.length < 2 ^ 63) :
    (readMetadataRoot cfg bytes).Returns := by
  unfold readMetadataRoot
  have hd : (Reader.new bytes).data = bytes := rfl
  have h0 : (Reader.new bytes).pos = 0 := rfl
  simp only
  rcases readU_cases cfg (Reader.new bytes) 4 (by omega) with h | ⟨v, h, _, hp⟩
  · simp [h]
  · simp only [h, Res.ok_bind]
    split
    · simp
    · rw [advance_eq cfg _ 8 (by simp; omega)]
      simp only [Res.ok_bind]
      split
      · simp
      · next hadv =>
        simp only [Bool.not_eq_false, decide_eq_true_eq] at hadv
        simp only [skip_skip, skip_data, skip_pos] at *
        rcases readU_cases cfg ((Reader.new bytes).skip (4 + 8)) 4 (by simp; omega) with h | ⟨len, h, hlen, hp1⟩
        · simp [h]
        · simp only [h, Res.ok_bind, Res.ofOption_some, skip_skip]
          rw [readStr_eq cfg _ len (by simp; omega)]
          generalize hr : (Reader.new bytes).skip (4 + 8 + 4) = r1
          have hr1 : r1.pos ≤ r1.data.length ∧ r1.data.length < 2 ^ 63 := by
            subst hr; exact ⟨by simpa using hp1, hl⟩
          clear hr hp1 hadv hp h
          by_cases hin : r1.pos + len ≤ r1.data.length
          · rw [if_pos hin]
            simp only [Res.ok_bind]
            generalize fromUtf8 (beforeNul (List.take len r1.rest)) = ver
            cases ver with
            | none => simp
            | some ver =>
              simp only [Res.ofOption_some, Res.ok_bind]
              rw [advance_eq cfg _ 2 (by simp; omega)]
              simp only [Res.ok_bind]
              rcases readU_cases cfg ((r1.skip len).skip 2) 2 (by simp; omega) with h | ⟨n, h, _, hp2⟩
              · rw [h]; simp
              · simp only [h, Res.ok_bind, Res.ofOption_some]
                apply readStreamHeaders_returns
                · simpa using hr1.2
                · simp at *; omega
          · rw [if_neg hin]; simp

theorem readCliHeader_safe (cfg : Cfg) (data : Bytes) (info : PeInfo) (hl : data.length < 2 ^ 63) :
    Safe (readCliHeader cfg data info) := by
  unfold readCliHeader
  refine (ofOption_safe ..).bind fun d _ => (mapErr_safe _ (resolveRva_safe ..)).bind fun off _ =>
    (sliceFrom_safe ..).bind fun d' hd => ?_
  have hl' : d'.length < 2 ^ 63 := by
    unfold sliceFrom at hd
    split at hd
    · rw [← Res.ok.inj hd]; simp; omega
    · cases hd
  rcases read_cases cfg (Reader.new d') 72 (by simp [Reader.new]) with h | ⟨b, h, _⟩ <;> rw [h]
  · exact Safe.err _
  · exact Safe.ok _

theorem metadataSlice_safe (cfg : Cfg) (data : Bytes) (info : PeInfo) (cli : CliHeader) :
    Safe (metadataSlice cfg data info cli) :=
  (mapErr_safe _ (resolveRva_safe ..)).bind fun _ _ => (uadd_safe ..).bind fun _ _ => slice_safe ..

theorem slice_length {α : Type} {d s : List α} {a b : Nat} (h : slice d a b = .ok s) : s.length ≤ d.length := by
  unfold slice at h
  split at h
  · rw [← Res.ok.inj h]; simp; omega
  · cases h

theorem metadataSlice_length {cfg : Cfg} {data : Bytes} {info : PeInfo} {cli : CliHeader} {md : Bytes}
    (h : metadataSlice cfg data info cli = .ok md) : md.length ≤ data.length := by
  unfold metadataSlice at h
  obtain ⟨_, _, h⟩ := Res.bind_eq_ok.mp h
  obtain ⟨_, _, h⟩ := Res.bind_eq_ok.mp h
  exact slice_length h

theorem streamBytes_safe (cfg : Cfg) (md : Bytes) (h : StreamHeader) : Safe (streamBytes cfg md h) :=
  (uadd_safe ..).bind fun _ _ => slice_safe ..

theorem streamBytes_length {cfg : Cfg} {md s : Bytes} {h : StreamHeader} (e : streamBytes cfg md h = .ok s) :
    s.length ≤ md.length := by
  obtain ⟨_, _, h⟩ := Res.bind_eq_ok.mp e
  exact slice_length h

/-- **C10: refuted.** Files that make `Metadata::read` panic: one whose CLI header address lies in a section behind the
end of the file, and one whose metadata root lists no streams. -/
theorem C10_refuted :
    (∃ data : Bytes, ∀ cfg, readMetadata cfg data = .panic) ∧
    (∃ root : Root, root.Legal ∧ ∀ cfg, ∃ data, part data 0x250 (root.enc.length) = root.enc ∧
      readMetadata cfg data = .panic) := by
  constructor
  · refine ⟨(exAsmFile [] []).take 0x1ff, ?_⟩
    rintro ⟨_ | _⟩ <;> decide +kernel
  · refine ⟨{ exRoot with streams := [] }, by decide +kernel, ?_⟩
    rintro ⟨_ | _⟩
    · exact ⟨exAsmFile ({ exRoot with streams := [] } : Root).enc [], by decide +kernel, by decide +kernel⟩
    · exact ⟨exAsmFile ({ exRoot with streams := [] } : Root).enc [], by decide +kernel, by decide +kernel⟩

/-- **C10, partial.** Reading arbitrary bytes gives a value, a format error, or a panic: it never reads outside the file
and always ends. Missing: the panics (`C10_refuted`). -/
theorem C10_memory_safe_partial (cfg : Cfg) (data : Bytes) (hl : data.length < 2 ^ 63) :
    Safe (readMetadata cfg data) := by
  unfold readMetadata
  refine (Safe.of_returns (parsePe_returns cfg data hl)).bind fun info _ => ?_
  refine (readCliHeader_safe cfg data info hl).bind fun cli _ => ?_
  refine (metadataSlice_safe ..).bind fun md hmd => ?_
  have hml : md.length < 2 ^ 63 := Nat.lt_of_le_of_lt (metadataSlice_length hmd) hl
  refine (Safe.of_returns (readMetadataRoot_returns cfg md hml)).bind fun s _ => ?_
  refine (unwrap_safe _).bind fun _ _ => (streamBytes_safe ..).bind fun _ _ => ?_
  refine Safe.bind (by cases s.userStrings <;> first | exact Safe.ok _ | exact streamBytes_safe ..) fun _ _ => ?_
  refine (unwrap_safe _).bind fun _ _ => (streamBytes_safe ..).bind fun _ _ => ?_
  refine (unwrap_safe _).bind fun _ _ => (streamBytes_safe ..).bind fun _ _ => ?_
  refine (unwrap_safe _).bind fun _ _ => (streamBytes_safe ..).bind fun tb htb => ?_
  have htl : tb.length < 2 ^ 63 := Nat.lt_of_le_of_lt (streamBytes_length htb) hml
  refine (Safe.of_returns (C67_total cfg tb htl)).bind fun _ _ => ?_
  obtain ⟨e, he⟩ := entryPointHandle_ok cfg cli
  rw [he]
  exact Safe.ok _

/-- The file positions that `Metadata::read` trusts without a check: each must lie in the file, and the mandatory
streams must be listed. -/
structure TrustedPositions (cfg : Cfg) (data : Bytes) (info : PeInfo) : Prop where
  /-- Sections do not wrap 32 bits and lie in the file. -/
  sections : ∀ s ∈ info.sections, s.virtualAddress + s.sizeOfRawData < 2 ^ 32 ∧
    s.pointerToRawData + s.sizeOfRawData < 2 ^ 32 ∧ s.pointerToRawData + s.sizeOfRawData ≤ data.length
  /-- The metadata directory lies in the file. -/
  metadata : ∀ cli off, readCliHeader cfg data info = .ok cli →
    resolveRva cfg cli.metadata.rva info.sections = .ok off → off + cli.metadata.size ≤ data.length
  /-- The streams lie in the metadata. -/
  streams : ∀ cli md s, readCliHeader cfg data info = .ok cli → metadataSlice cfg data info cli = .ok md →
    readMetadataRoot cfg md = .ok s →
    (∀ h, (s.strings = some h ∨ s.userStrings = some h ∨ s.blob = some h ∨ s.guid = some h ∨ s.tables = some h) →
      h.offset + h.size < 2 ^ 32 ∧ h.offset + h.size ≤ md.length) ∧
    s.strings.isSome ∧ s.blob.isSome ∧ s.guid.isSome ∧ s.tables.isSome

theorem resolveRva_inside (cfg : Cfg) (rva n : Nat) (ss : List PeSection)
    (h : ∀ s ∈ ss, s.virtualAddress + s.sizeOfRawData < 2 ^ 32 ∧
      s.pointerToRawData + s.sizeOfRawData < 2 ^ 32 ∧ s.pointerToRawData + s.sizeOfRawData ≤ n) :
    (∃ m, resolveRva cfg rva ss = .err m) ∨ ∃ off, resolveRva cfg rva ss = .ok off ∧ off < n ∧ off < 2 ^ 32 := by
  induction ss with
  | nil => exact Or.inl ⟨_, rfl⟩
  | cons s ss ih =>
    obtain ⟨h1, h2, h3⟩ := h s (by simp)
    have ih := ih (fun t ht => h t (by simp [ht]))
    unfold resolveRva
    by_cases hv : rva ≥ s.virtualAddress
    · rw [if_pos hv, uadd_ok h1]
      simp only [Res.ok_bind]
      by_cases he : rva < s.virtualAddress + s.sizeOfRawData
      · rw [if_pos he, usub_ok hv]
        simp only [Res.ok_bind]
        rw [uadd_ok (by omega)]
        exact Or.inr ⟨_, rfl, by omega, by omega⟩
      · rw [if_neg he]; exact ih
    · rw [if_neg hv]; exact ih

/-- **C10, partial.** Malformed or not, a file is read or rejected with an error, provided the positions the code trusts
lie in the file and the four mandatory streams are listed. Missing: files that violate this (`C10_refuted`). -/
theorem C10_returns_partial (cfg : Cfg) (data : Bytes) (hl : data.length < 2 ^ 63)
    (ht : ∀ info, parsePe cfg data = .ok info → TrustedPositions cfg data info) :
    (readMetadata cfg data).Returns := by
  unfold readMetadata
  refine (parsePe_returns cfg data hl).bind fun info hi => ?_
  have ht := ht info hi
  have hcli : (readCliHeader cfg data info).Returns := by
    unfold readCliHeader
    refine Res.Returns.bind (by cases info.dataDirectories[14]? <;> simp) fun d _ => ?_
    rcases resolveRva_inside cfg d.rva data.length info.sections ht.sections with ⟨m, h⟩ | ⟨off, h, hlt, _⟩
    · rw [h]; simp
    · rw [h]
      simp only [Res.mapErr_ok, Res.ok_bind]
      rw [sliceFrom_ok (by omega)]
      simp only [Res.ok_bind]
      rcases read_cases cfg (Reader.new (data.drop off)) 72 (by simp [Reader.new]) with h | ⟨b, h, _⟩ <;> rw [h] <;> simp
  refine hcli.bind fun cli hc => ?_
  have hms : (metadataSlice cfg data info cli).Returns := by
    unfold metadataSlice
    rcases resolveRva_inside cfg cli.metadata.rva data.length info.sections ht.sections with ⟨m, h⟩ | ⟨off, h, hlt, _⟩
    · rw [h]; simp
    · have := ht.metadata cli off hc h
      rw [h]
      simp only [Res.mapErr_ok, Res.ok_bind]
      rw [uadd_ok (by omega)]
      simp only [Res.ok_bind]
      rw [slice_ok ⟨by omega, this⟩]
      simp
  refine hms.bind fun md hmd => ?_
  have hml : md.length < 2 ^ 63 := Nat.lt_of_le_of_lt (metadataSlice_length hmd) hl
  refine (readMetadataRoot_returns cfg md hml).bind fun s hs => ?_
  obtain ⟨hin, h1, h2, h3, h4⟩ := ht.streams cli md s hc hmd hs
  have hb : ∀ h, (s.strings = some h ∨ s.userStrings = some h ∨ s.blob = some h ∨ s.guid = some h ∨ s.tables = some h) →
      (streamBytes cfg md h).Returns := by
    intro h hh
    obtain ⟨ha, hb⟩ := hin h hh
    have := streamBytes_at cfg md h.offset h.size hb ha
    rw [show h = ⟨h.offset, h.size⟩ from rfl, this]
    simp
  obtain ⟨a, ha⟩ := Option.isSome_iff_exists.mp h1
  obtain ⟨b, hbl⟩ := Option.isSome_iff_exists.mp h2
  obtain ⟨g, hg⟩ := Option.isSome_iff_exists.mp h3
  obtain ⟨t, htb⟩ := Option.isSome_iff_exists.mp h4
  rw [ha, hbl, hg, htb]
  simp only [Res.unwrap_some, Res.ok_bind]
  refine (hb a (Or.inl ha)).bind fun _ _ => ?_
  refine Res.Returns.bind ?_ fun _ _ => ?_
  · cases hu : s.userStrings with
    | none => simp [userStringBytes]
    | some u => exact hb u (Or.inr (Or.inl hu))
  refine (hb b (by simp [hbl])).bind fun _ _ => (hb g (by simp [hg])).bind fun _ _ => (hb t (by simp [htb])).bind fun tb htb => ?_
  have htl : tb.length < 2 ^ 63 := Nat.lt_of_le_of_lt (streamBytes_length htb) hml
  refine (C67_total cfg tb htl).bind fun _ _ => ?_
  obtain ⟨e, he⟩ := entryPointHandle_ok cfg cli
  rw [he]
  simp

/-- A truncated file is an error, not a panic. -/
example : (readMetadata Cfg.debug ((exAsmFile exMetadata []).take 300)).Returns := by decide +kernel

/-! ## C14 -/

/-- **C14.** In an assembly file whose resources directory lies in the file: the resource written as a 4-byte length and
its content at offset `o` of the directory is returned as exactly its content, whatever surrounds it. -/
theorem C14_resources (cfg : Cfg) (data : Bytes) (peOff moff : Nat) (i : Image) (c : Cli)
    (h : IsAssemblyFile data peOff i c moff) (md : Metadata) (hmd : readMetadata cfg data = .ok md)
    (roff : Nat) (hat : i.At c.resources.1 roff) (hin : roff + c.resources.2 ≤ data.length)
    (before content after : Bytes)
    (hres : part data roff c.resources.2 = before ++ leBytes 4 content.length ++ content ++ after) :
    md.getResourceData cfg before.length = .ok content := by
  have hpre : md.peData = data ∧ md.peInfo = infoOf i ∧ CliOf c md.cliHeader := by
    obtain ⟨hd, hh, hc⟩ := readCliHeader_at cfg h
    unfold readMetadata at hmd
    rw [parsePe_enc cfg data peOff i h.small h.legal h.file] at hmd
    simp only [Res.ok_bind, hh] at hmd
    rw [metadataSlice_at cfg h hc] at hmd
    simp only [Res.ok_bind] at hmd
    repeat (obtain ⟨_, _, hmd⟩ := Res.bind_eq_ok.mp hmd)
    have := Res.ok.inj hmd
    subst this
    exact ⟨rfl, rfl, hc⟩
  obtain ⟨hpd, hpi, hc⟩ := hpre
  have hsm := h.small
  have h32 : c.resources.2 < 2 ^ 32 := by
    have := h.cliLegal.1 (4, c.resources.2) (by simp [Cli.fields])
    simpa using this
  have hlen := congrArg List.length hres
  simp only [part, List.length_append, List.length_take, List.length_drop, length_leBytes] at hlen
  unfold Metadata.getResourceData Metadata.getPeData
  rw [hpd, hpi, hc.resources]
  simp only [resolveRva_at cfg h.sound hat, Res.ok_bind]
  rw [uadd_ok (by omega)]
  simp only [Res.ok_bind]
  rw [slice_ok ⟨by omega, hin⟩]
  simp only [Res.ok_bind]
  have e : (data.drop roff).take (roff + c.resources.2 - roff) = before ++ leBytes 4 content.length ++ content ++ after := by
    rw [← hres, part]; simp
  rw [e, sliceFrom_ok (by simp)]
  simp only [Res.ok_bind]
  have e2 : (before ++ leBytes 4 content.length ++ content ++ after).drop before.length =
      leBytes 4 content.length ++ (content ++ after) := by
    simp [List.append_assoc]
  rw [e2]
  have hn : content.length < 256 ^ 4 := by omega
  have hle := leNat_leBytes 4 content.length hn
  simp only [leBytes] at hle
  have e3 : leBytes 4 content.length ++ (content ++ after) =
      UInt8.ofNat (content.length % 256) :: UInt8.ofNat (content.length / 256 % 256) ::
      UInt8.ofNat (content.length / 256 / 256 % 256) :: UInt8.ofNat (content.length / 256 / 256 / 256 % 256) ::
      (content ++ after) := rfl
  rw [e3]
  simp only [List.getElem?_cons_zero, List.getElem?_cons_succ, Res.unwrap_some, Res.ok_bind, hle]
  rw [uadd_ok (by omega)]
  simp only [Res.ok_bind]
  rw [slice_ok ⟨by omega, by simp; omega⟩]
  simp

/-- Two resources, the second one at offset 7. -/
example : (do let m ← readMetadata Cfg.debug (exAsmFile exMetadata ([3, 0, 0, 0, 1, 2, 3] ++ [2, 0, 0, 0, 0x68, 0x69] ++ [9, 9]))
              m.getResourceData Cfg.debug 7) = .ok [0x68, 0x69] := by decide +kernel

end Clr
