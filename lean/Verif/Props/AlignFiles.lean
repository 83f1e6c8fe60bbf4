import Verif.Lemmas.AlignTables
import Verif.Props.Metadata
/-! # C101: addresses of the headers of files -/

namespace Clr
open Spec Reader

/-- The addresses at which the headers of a file are read in one piece: everything at multiples of four, the headers of a PE32+
image and the stream of tables at multiples of eight. -/
def Spec.HeadersFit (base peOff cliOff moff tablesOff : Nat) (i : Image) : Prop :=
  base % 4 = 0 ∧ peOff % 4 = 0 ∧ (i.plus = true → (base + peOff) % 8 = 0) ∧ cliOff % 4 = 0 ∧ moff % 4 = 0 ∧
    (base + moff + tablesOff) % 8 = 0

instance {base peOff cliOff moff tablesOff : Nat} {i : Image} : Decidable (HeadersFit base peOff cliOff moff tablesOff i) := by
  unfold HeadersFit; infer_instance

theorem infoOf_isWide (i : Image) : (infoOf i).optionalHeader.isWide = i.plus := by
  cases h : i.plus <;> simp [infoOf, h, PeOptionalHeader.isWide]

theorem leBytes4_inj {a b : Nat} (ha : a < 2 ^ 32) (hb : b < 2 ^ 32) (h : leBytes 4 a = leBytes 4 b) : a = b := by
  have := congrArg leNat h
  rwa [leNat_leBytes 4 a (by omega), leNat_leBytes 4 b (by omega)] at this

/-- What stands at the addresses that the parts of a file get: the headers, and the columns of the rows. -/
def Spec.FileFits (base peOff cliOff moff tablesOff rowsOff : Nat) (i : Image) (t : TableCtx) : Prop :=
  HeadersFit base peOff cliOff moff tablesOff i ∧ AllAligned (base + moff + tablesOff + rowsOff) (allColumns t)

instance {base peOff cliOff moff tablesOff rowsOff : Nat} {i : Image} {t : TableCtx} :
    Decidable (FileFits base peOff cliOff moff tablesOff rowsOff i t) := by unfold FileFits; infer_instance

/-- **C101, files.** A file of the format that is read at all is read with aligned accesses if its headers and all columns of its
tables are at the addresses they must be at, and otherwise reading it is undefined behaviour. -/
theorem C101_files (cfg : Cfg) (base : Nat) (data : Bytes) (peOff cliOff moff : Nat) (i : Image) (c : Cli)
    (h : IsAssemblyFile data peOff i c moff) (hcli : ∃ rva size, i.dirs[14]? = some (rva, size) ∧ i.At rva cliOff)
    (m : Root) (hm : m.Legal) (body : Bytes)
    (hroot : part data moff c.metadata.2 = m.enc ++ body) (d : Directory) (hd : d.Of m c.metadata.2)
    (t : TableCtx) (r : Reader)
    (ht : readTableHeader cfg (part (part data moff c.metadata.2) d.tables.1 d.tables.2) = .ok (t, r))
    (md : Metadata) (hmd : readMetadata cfg data = .ok md) :
    Strict.readMetadata base cfg data =
      if FileFits base peOff cliOff moff d.tables.1 r.pos i t then .ok md else .ub := by
  obtain ⟨s, hs⟩ := setAll_known m.streams {} hd.known
  have hlen : (part data moff c.metadata.2).length = c.metadata.2 := by
    have := h.metadataIn
    simp [part]; omega
  have h32 : c.metadata.2 < 2 ^ 32 := by
    have := h.cliLegal.1 (4, c.metadata.2) (by simp [Cli.fields])
    simpa using this
  have hl : (part data moff c.metadata.2).length < 2 ^ 63 := by omega
  -- the PE headers
  obtain ⟨off, ho1, ho2, hpe⟩ := parsePe_exact (base := base) h.small (parsePe_enc cfg data peOff i h.small h.legal h.file)
  obtain rfl : off = peOff := leBytes4_inj ho2 h.file.2.2.1 (ho1.symm.trans h.file.2.1)
  -- the CLI header
  obtain ⟨hdr, hh, hc⟩ := readCliHeader_at cfg h
  obtain ⟨dir, coff, hdir, hcoff, hch⟩ := readCliHeader_exact (base := base) h.small hh
  obtain ⟨rva, size, hr1, hr2⟩ := hcli
  have hdir' : (infoOf i).dataDirectories[14]? = some ⟨rva, size⟩ := by
    simp [infoOf, hr1]
  rw [hdir'] at hdir
  rw [← Option.some.inj hdir, resolveRva_at cfg h.sound hr2] at hcoff
  obtain rfl : cliOff = coff := Res.ok.inj hcoff
  -- the metadata
  have g : ∀ {name : String} {get : Streams → Option StreamHeader} (_ : Slot name get) (e : Nat × Nat)
      (_ : m.Places name e.1 e.2), get s = some ⟨e.1, e.2⟩ :=
    fun hsl e hp => setAll_places hsl m.streams {} s hs e.1 e.2 hp.2 (Or.inl hp.1)
  have hrt := readMetadataRoot_at cfg m hm hl hroot
  rw [hs] at hrt
  have hrx := readMetadataRoot_exact (base := base + moff) hl hrt (by rw [g slotTables _ hd.tables.1]; simp)
  have hvl : leNat (((part data moff c.metadata.2).drop 12).take 4) = m.versionLength := by
    obtain ⟨h1, -, h3, -⟩ := hm
    rw [hroot, Root.enc]
    have e : leBytes 4 0x424A5342 ++ m.skipped ++ leBytes 4 m.versionLength ++
        (utf8 m.version ++ List.replicate (m.versionLength - (utf8 m.version).length) 0) ++
        m.flags ++ leBytes 2 m.streams.length ++ (m.streams.map Stream.enc).flatten ++ body =
        (leBytes 4 0x424A5342 ++ m.skipped) ++ (leBytes 4 m.versionLength ++
        ((utf8 m.version ++ List.replicate (m.versionLength - (utf8 m.version).length) 0) ++
        m.flags ++ leBytes 2 m.streams.length ++ (m.streams.map Stream.enc).flatten ++ body)) := by
      simp only [List.append_assoc]
    rw [e, List.drop_left' (by simp [h1]), List.take_left' (by simp), leNat_leBytes 4 _ (by omega)]
  rw [hvl] at hrx
  have hms := metadataSlice_at cfg h hc
  unfold readMetadata at hmd
  rw [parsePe_enc cfg data off i h.small h.legal h.file] at hmd
  simp only [Res.ok_bind] at hmd
  rw [hh] at hmd
  simp only [Res.ok_bind] at hmd
  rw [hms] at hmd
  simp only [Res.ok_bind] at hmd
  rw [hrt] at hmd
  simp only [Res.ok_bind] at hmd
  unfold metadataSlice at hms
  rw [hc.metadata] at hms
  simp only [resolveRva_at cfg h.sound h.metadataAt, Res.mapErr_ok, Res.ok_bind] at hms
  generalize part data moff c.metadata.2 = md at *
  have hb : ∀ e : Nat × Nat, Inside c.metadata.2 e → streamBytes cfg md ⟨e.1, e.2⟩ = .ok (part md e.1 e.2) := by
    intro e he
    have he' : e.1 + e.2 ≤ c.metadata.2 := he
    exact streamBytes_at cfg md e.1 e.2 (by omega) (by omega)
  have hus : ∃ u, userStringBytes cfg md s.userStrings = .ok u := by
    have := hd.userStrings
    cases hu : d.userStrings with
    | some e =>
      rw [hu] at this
      rw [g slotUserStrings e this.1]
      exact ⟨_, hb e this.2⟩
    | none =>
      rw [hu] at this
      rw [setAll_lacks slotUserStrings m.streams {} s hs this]
      exact ⟨_, rfl⟩
  obtain ⟨u, hus⟩ := hus
  have htl : (part md d.tables.1 d.tables.2).length < 2 ^ 63 := by
    simp [part]; omega
  obtain ⟨hrok, hth⟩ := readTableHeader_exact (base := base + moff + d.tables.1) htl ht
  have hv4 := hm.2.2.2.1
  have hal : HeadersAligned base off (infoOf i) ↔ base % 4 = 0 ∧ off % 4 = 0 ∧ (i.plus = true → (base + off) % 8 = 0) := by
    unfold HeadersAligned; rw [infoOf_isWide]
  unfold Strict.readMetadata
  rw [hpe, ite_bind_ub]
  refine ite_then (fun c1 => ?_) (fun e => hal.2 ⟨e.1.1, e.1.2.1, e.1.2.2.1⟩)
  have c1 := hal.1 c1
  rw [hch, ite_bind_ub]
  refine ite_then (fun c2 => ?_) (fun e => by have := e.1.1; have := e.1.2.2.2.1; omega)
  rw [hc.metadata]
  simp only [resolveRva_at cfg h.sound h.metadataAt, Res.mapErr_ok, Res.ok_bind]
  obtain ⟨e, he1, he2⟩ := Res.bind_eq_ok.1 hms
  rw [he1]
  simp only [Res.ok_bind]
  rw [he2]
  simp only [Res.ok_bind]
  rw [hrx, ite_bind_ub]
  refine ite_then (fun c3 => ?_) (fun e => by have := e.1.1; have := e.1.2.2.2.2.1; omega)
  rw [g slotStrings _ hd.strings.1, g slotBlob _ hd.blob.1, g slotGuid _ hd.guid.1, g slotTables _ hd.tables.1]
  simp only [Res.unwrap_some, Res.ok_bind, hb _ hd.strings.2, hb _ hd.blob.2, hb _ hd.guid.2, hb _ hd.tables.2, hus]
  rw [g slotStrings _ hd.strings.1, g slotBlob _ hd.blob.1, g slotGuid _ hd.guid.1, g slotTables _ hd.tables.1] at hmd
  simp only [Res.unwrap_some, Res.ok_bind, hb _ hd.strings.2, hb _ hd.blob.2, hb _ hd.guid.2, hb _ hd.tables.2, hus] at hmd
  obtain ⟨tables, ht1, hmd⟩ := Res.bind_eq_ok.1 hmd
  unfold readTableStream at ht1
  rw [ht] at ht1
  simp only [Res.ok_bind] at ht1
  obtain ⟨⟨tables', r2⟩, ht2, ht1⟩ := Res.bind_eq_ok.1 ht1
  obtain rfl : tables' = tables := Res.ok.inj ht1
  obtain ⟨-, -, ht3⟩ := Checked.readTables (base := base + moff + d.tables.1) r tables' r2 hrok ht2
  unfold StrictTables.readTableStream
  rw [hth, ite_bind_ub]
  show ((if _ then _ else Res.ub : Res Tables) >>= _) = _
  by_cases c4 : (base + moff + d.tables.1) % 8 = 0
  · rw [if_pos c4]
    dsimp only
    rw [ht3, ite_bind_ub]
    by_cases c5 : AllAligned (base + moff + d.tables.1 + r.pos) (allColumns t)
    · rw [if_pos c5, if_pos ⟨⟨c1.1, c1.2.1, c1.2.2, by omega, by omega, c4⟩, c5⟩]
      exact hmd
    · rw [if_neg c5, if_neg (fun e => c5 e.2)]
      rfl
  · rw [if_neg c4, if_neg (fun e => c4 e.1.2.2.2.2.2)]
    rfl

/-- **C101, files: no address.** A PE32+ file whose table stream is not where its headers are, modulo eight, has no suitable
address, though all its parts may be at multiples of four, which is what the format asks for. -/
theorem C101_files_never (cfg : Cfg) (base : Nat) (data : Bytes) (peOff cliOff moff : Nat) (i : Image) (c : Cli)
    (h : IsAssemblyFile data peOff i c moff) (hcli : ∃ rva size, i.dirs[14]? = some (rva, size) ∧ i.At rva cliOff)
    (m : Root) (hm : m.Legal) (body : Bytes)
    (hroot : part data moff c.metadata.2 = m.enc ++ body) (d : Directory) (hd : d.Of m c.metadata.2)
    (hmd : ∃ md, readMetadata cfg data = .ok md)
    (ht : ∃ x, readTableHeader cfg (part (part data moff c.metadata.2) d.tables.1 d.tables.2) = .ok x)
    (hp : i.plus = true) (h8 : (moff + d.tables.1) % 8 ≠ peOff % 8) : Strict.readMetadata base cfg data = .ub := by
  obtain ⟨⟨t, r⟩, ht⟩ := ht
  obtain ⟨md, hmd⟩ := hmd
  rw [C101_files cfg base data peOff cliOff moff i c h hcli m hm body hroot d hd t r ht md hmd, if_neg]
  intro hf
  have := hf.1.2.2.1 hp
  have := hf.1.2.2.2.2.2
  omega

/-- The columns of types are two bytes wide, except the attributes. -/
def Spec.SmallTypes (t : TableCtx) : Prop :=
  t.wideString = false ∧ t.wideCoded .typeDefOrRef = false ∧ t.wideTable TableType.field.code = false ∧
    t.wideTable TableType.methodDef.code = false

instance {t : TableCtx} : Decidable (SmallTypes t) := by unfold SmallTypes; infer_instance

/-- **C101, files with types.** A file of the usual format with two rows of types has no suitable address: its rows take
fourteen bytes and start with a number of four. A class takes a second row, the first one is for the module. -/
theorem C101_files_types (cfg : Cfg) (base : Nat) (data : Bytes) (peOff cliOff moff : Nat) (i : Image) (c : Cli)
    (h : IsAssemblyFile data peOff i c moff) (hcli : ∃ rva size, i.dirs[14]? = some (rva, size) ∧ i.At rva cliOff)
    (m : Root) (hm : m.Legal) (body : Bytes)
    (hroot : part data moff c.metadata.2 = m.enc ++ body) (d : Directory) (hd : d.Of m c.metadata.2)
    (t : TableCtx) (r : Reader)
    (ht : readTableHeader cfg (part (part data moff c.metadata.2) d.tables.1 d.tables.2) = .ok (t, r))
    (hmd : ∃ md, readMetadata cfg data = .ok md) (hs : SmallTypes t) (hn : 2 ≤ t.rowCount TableType.typeDef.code) :
    Strict.readMetadata base cfg data = .ub := by
  obtain ⟨md, hmd⟩ := hmd
  rw [C101_files cfg base data peOff cliOff moff i c h hcli m hm body hroot d hd t r ht md hmd, if_neg]
  intro hf
  have ha := hf.2
  generalize base + moff + d.tables.1 + r.pos = a at ha
  obtain ⟨n, hn⟩ : ∃ n, t.rowCount TableType.typeDef.code = n + 2 := ⟨_, (Nat.sub_add_cancel hn).symm⟩
  have hc : columns t .typeDef = [4, 2, 2, 2, 2, 2] := by
    unfold columns
    rw [hs.1, hs.2.1, hs.2.2.1, hs.2.2.2]
    rfl
  unfold allColumns tableOrder at ha
  rw [List.flatMap_cons, List.flatMap_cons, List.flatMap_cons] at ha
  have h1 := (AllAligned.append.1 (AllAligned.append.1 (AllAligned.append.1 ha).2).2).1
  rw [hn, hc, List.replicate_succ, List.flatten_cons, List.replicate_succ, List.flatten_cons] at h1
  have h2 := (AllAligned.append.1 h1).1.1
  have h3 := (AllAligned.append.1 (AllAligned.append.1 h1).2).1.1
  have e : [4, 2, 2, 2, 2, 2].sum = 14 := rfl
  rw [e] at h3
  omega

/-! ### A file, and one that no address suits -/

theorem exMetadata_parts : exRoot.Legal ∧ part (exAsmFile exMetadata []) 0x250 124 = exRoot.enc ++ ([0, 0x61, 0x62, 0] ++ [0, 1, 2, 3] ++ exTables) ∧
    exDirectory.Of exRoot 124 :=
  ⟨by decide +kernel, by decide +kernel,
   ⟨by decide, ⟨by decide, by decide⟩, ⟨by decide, by decide⟩, ⟨by decide, by decide⟩, ⟨by decide, by decide⟩,
    (by decide : exRoot.Lacks "#US")⟩⟩

theorem exTables_read : ∃ x, readTableHeader .debug exTables = .ok x := by
  have h : (do let _ ← readTableHeader .debug exTables; pure () : Res Unit) = .ok () := by decide +kernel
  obtain ⟨x, hx, -⟩ := Res.bind_eq_ok.1 h
  exact ⟨x, hx⟩

theorem exAsm_read : ∃ md, readMetadata .debug (exAsmFile exMetadata []) = .ok md := by
  have h : (do let _ ← readMetadata .debug (exAsmFile exMetadata []); pure () : Res Unit) = .ok () := by decide +kernel
  obtain ⟨x, hx, -⟩ := Res.bind_eq_ok.1 h
  exact ⟨x, hx⟩

theorem exTables_empty {x : TableCtx × Reader} (h : readTableHeader .debug exTables = .ok x) : allColumns x.1 = [] := by
  have e : (do let x ← readTableHeader .debug exTables; pure (allColumns x.1) : Res (List Nat)) = .ok [] := by decide +kernel
  rw [h] at e
  exact Res.ok.inj e

/-- The table stream of the small assembly is at offset 692 of the file: it can be read at addresses that are four more than a
multiple of eight. -/
example (base : Nat) : ∃ md, Strict.readMetadata base .debug (exAsmFile exMetadata []) = if base % 8 = 4 then .ok md else .ub := by
  obtain ⟨x, hx⟩ := exTables_read
  obtain ⟨md, hmd⟩ := exAsm_read
  have hp : part (part (exAsmFile exMetadata []) 0x250 124) 100 24 = exTables := by decide +kernel
  refine ⟨md, ?_⟩
  rw [C101_files .debug base _ 0x40 0x208 0x250 _ _ exAsm_isAssembly ⟨0x2008, 72, by decide, exAsm_at _ _ _ (by decide) (by decide)⟩
    exRoot exMetadata_parts.1 _ exMetadata_parts.2.1 exDirectory exMetadata_parts.2.2 x.1 x.2 (by exact (congrArg _ hp).trans hx) md hmd]
  refine ite_congr (propext ?_) (fun _ => rfl) (fun _ => rfl)
  have : (exAsmImage 204).plus = false := rfl
  simp only [FileFits, HeadersFit, this, exDirectory, exTables_empty hx, AllAligned]
  constructor
  · intro h; omega
  · intro h; refine ⟨⟨by omega, by decide, by simp, by decide, by decide, by omega⟩, trivial⟩

/-- The same image in the wide format. -/
def exWideImage (raw : Nat) : Image :=
  { exAsmImage raw with machine := 0x8664, optSize := 240, plus := true, opt := List.replicate 27 0 }

def exWideFile (metadata : Bytes) : Bytes :=
  let i := exWideImage (80 + metadata.length)
  let head := [0x4d, 0x5a] ++ List.replicate 58 0 ++ leBytes 4 0x40 ++ i.enc
  head ++ List.replicate (0x200 - head.length) 0 ++ List.replicate 8 7 ++ (exCli metadata.length 0).enc ++ metadata

theorem exWide_at (n rva off : Nat) (h : 0x2000 ≤ rva ∧ rva < 0x2000 + n) (ho : off = 0x200 + (rva - 0x2000)) :
    (exWideImage n).At rva off := exAsm_at n rva off h ho

theorem exWide_isAssembly : IsAssemblyFile (exWideFile exMetadata) 0x40 (exWideImage 204) (exCli 124 0) 0x250 where
  small := by decide +kernel
  legal := by decide +kernel
  file := ⟨by decide +kernel, by decide +kernel, by decide, (exWideFile exMetadata).drop (0x40 + (exWideImage 204).enc.length),
    by decide +kernel⟩
  sound := exAsm_sound 204 (by decide)
  cliLegal := by decide +kernel
  cli := ⟨0x2008, 72, 0x208, exMetadata, by decide, exWide_at _ _ _ (by decide) (by decide), by decide +kernel⟩
  metadataAt := exWide_at _ _ _ (by decide) (by decide)
  metadataIn := by decide +kernel

theorem exWide_read : ∃ md, readMetadata .debug (exWideFile exMetadata) = .ok md := by
  have h : (do let _ ← readMetadata .debug (exWideFile exMetadata); pure () : Res Unit) = .ok () := by decide +kernel
  obtain ⟨x, hx, -⟩ := Res.bind_eq_ok.1 h
  exact ⟨x, hx⟩

/-- **C101, files, refuted.** A file without any row that `Metadata::read` accepts and that is read with a misaligned access
wherever it is in memory. -/
theorem C101_files_refuted : (∃ md, readMetadata .debug (exWideFile exMetadata) = .ok md) ∧
    ∀ base, Strict.readMetadata base .debug (exWideFile exMetadata) = .ub := by
  refine ⟨exWide_read, fun base => ?_⟩
  obtain ⟨x, hx⟩ := exTables_read
  have hp : part (part (exWideFile exMetadata) 0x250 124) 100 24 = exTables := by decide +kernel
  exact C101_files_never .debug base _ 0x40 0x208 0x250 _ _ exWide_isAssembly
    ⟨0x2008, 72, by decide, exWide_at _ _ _ (by decide) (by decide)⟩
    exRoot exMetadata_parts.1 ([0, 0x61, 0x62, 0] ++ [0, 1, 2, 3] ++ exTables) (by decide +kernel) exDirectory exMetadata_parts.2.2
    exWide_read ⟨x, by exact (congrArg _ hp).trans hx⟩ rfl (by decide)

/-! ### A file with two types -/

/-- A stream of tables with two rows of types. -/
def exTypeTables : Bytes := [0, 0, 0, 0, 2, 0, 0, 1] ++ leBytes 8 4 ++ leBytes 8 0 ++ leBytes 4 2 ++ List.replicate 28 0

def exTypeRoot : Root := { exRoot with
  streams := [⟨"#GUID".toList, 100, 0⟩, ⟨"#Blob".toList, 96, 4⟩, ⟨"#~".toList, 100, 56⟩, ⟨"#Strings".toList, 92, 4⟩] }

def exTypeMetadata : Bytes := exTypeRoot.enc ++ [0, 0x61, 0x62, 0] ++ [0, 1, 2, 3] ++ exTypeTables

def exTypeDirectory : Directory := ⟨(92, 4), (96, 4), (100, 0), (100, 56), none⟩

theorem exType_isAssembly : IsAssemblyFile (exAsmFile exTypeMetadata []) 0x40 (exAsmImage 236) (exCli 156 0) 0x250 where
  small := by decide +kernel
  legal := by decide +kernel
  file := ⟨by decide +kernel, by decide +kernel, by decide, (exAsmFile exTypeMetadata []).drop (0x40 + (exAsmImage 236).enc.length),
    by decide +kernel⟩
  sound := exAsm_sound 236 (by decide)
  cliLegal := by decide +kernel
  cli := ⟨0x2008, 72, 0x208, exTypeMetadata, by decide, exAsm_at _ _ _ (by decide) (by decide), by decide +kernel⟩
  metadataAt := exAsm_at _ _ _ (by decide) (by decide)
  metadataIn := by decide +kernel

theorem exType_facts : (do let _ ← readMetadata .debug (exAsmFile exTypeMetadata []); pure () : Res Unit) = .ok () ∧
    (do let x ← readTableHeader .debug exTypeTables
        pure (decide (SmallTypes x.1 ∧ 2 ≤ x.1.rowCount TableType.typeDef.code)) : Res Bool) = .ok true ∧
    part (part (exAsmFile exTypeMetadata []) 0x250 156) 100 56 = exTypeTables := by decide +kernel

example (base : Nat) : Strict.readMetadata base .debug (exAsmFile exTypeMetadata []) = .ub := by
  obtain ⟨h1, h2, h3⟩ := exType_facts
  obtain ⟨md, hmd, -⟩ := Res.bind_eq_ok.1 h1
  obtain ⟨x, hx, h2⟩ := Res.bind_eq_ok.1 h2
  have h4 := of_decide_eq_true (Res.ok.inj h2)
  exact C101_files_types .debug base _ 0x40 0x208 0x250 _ _ exType_isAssembly
    ⟨0x2008, 72, by decide, exAsm_at _ _ _ (by decide) (by decide)⟩
    exTypeRoot (by decide +kernel) ([0, 0x61, 0x62, 0] ++ [0, 1, 2, 3] ++ exTypeTables) (by decide +kernel) exTypeDirectory
    ⟨by decide, ⟨by decide, by decide⟩, ⟨by decide, by decide⟩, ⟨by decide, by decide⟩, ⟨by decide, by decide⟩,
      (by decide : exTypeRoot.Lacks "#US")⟩ x.1 x.2 (by exact (congrArg _ h3).trans hx) ⟨md, hmd⟩ h4.1 h4.2

end Clr
