import Verif.Lemmas.TableRows
import Verif.Props.Signature
/-! # C25–C30, C67: metadata tables -/

namespace Clr
open Reader Spec

/-! ## C25 -/

/-- **C25** is false of the code for one pair: a custom attribute on a security declaration (tag 8) is rejected. -/
theorem C25_refuted (cfg : Cfg) (t : TableCtx) (r : Reader) (row : Nat) (hr : r.Ok)
    (w : Nat) (hw : w = if t.wideCoded .hasCustomAttribute then 4 else 2) (hv : row * 2 ^ 5 + 8 < 256 ^ w) (tl : Bytes)
    (h : r.rest = leBytes w (row * 2 ^ 5 + 8) ++ tl) :
    (codedTables .hasCustomAttribute)[8]? = some (some .declSecurity) ∧ codedBits .hasCustomAttribute = 5 ∧
      ∃ m, readCoded cfg t .hasCustomAttribute r = .err m := by
  refine ⟨by decide, by decide, ?_⟩
  have h1 := readWide_reads cfg (wide := t.wideCoded .hasCustomAttribute) (v := row * 2 ^ 5 + 8)
    (bs := leBytes w (row * 2 ^ 5 + 8)) ⟨hw ▸ hv, by rw [hw]⟩ r tl hr h
  unfold readCoded
  rw [h1]
  simp only [Res.ok_bind]
  have : (row * 2 ^ 5 + 8) &&& CodedKind.hasCustomAttribute.tagMask = 8 := by
    rw [CodedKind.tagMask, and_mask]
    simp only [CodedKind.tagBits]
    omega
  rw [this]
  exact ⟨_, rfl⟩

/-- **C25** for all other pairs: in a two- or four-byte column (whichever the reader uses), the row number above the tag
bits with the tag of the table reads back as that table and row. Missing: the pair of `C25_refuted`. -/
theorem C25_round_trip_partial (cfg : Cfg) (t : TableCtx) (k : CodedKind) (table : TableType) (row tag w : Nat)
    (htag : (codedTables k)[tag]? = some (some table)) (hd : ¬ (k = .hasCustomAttribute ∧ table = .declSecurity))
    (hw : w = if t.wideCoded k then 4 else 2) (hv : row * 2 ^ codedBits k + tag < 256 ^ w) :
    Decodes (readCoded cfg t k) (leBytes w (row * 2 ^ codedBits k + tag)) ⟨table, row⟩ := by
  subst hw
  obtain ⟨h3, h4⟩ := decodeTag_eq k tag table htag (fun a b => hd ⟨a, b⟩)
  rw [tagBits_eq] at hv ⊢
  refine Reads.decodes fun r tl hr h => ?_
  have h1 := readWide_reads cfg (wide := t.wideCoded k) ⟨hv, rfl⟩ r tl hr h
  have hlt : row * 2 ^ k.tagBits + tag < 2 ^ 64 := by
    cases ht : t.wideCoded k <;> simp [ht] at hv <;> omega
  unfold readCoded
  rw [h1]
  simp only [Res.ok_bind, CodedKind.tagMask]
  rw [and_mask, and_not_mask _ _ hlt (by cases k <;> decide)]
  rw [Nat.add_comm, Nat.add_mul_mod_self_right, Nat.mod_eq_of_lt h3, h4]
  rw [Nat.add_mul_div_right _ _ (Nat.two_pow_pos _), Nat.div_eq_of_lt h3, Nat.zero_add]
  rfl

/-- **C25**, the other direction: whatever is accepted carries a tag the format assigns to the table reported; so every
tag without a table is an error. -/
theorem C25_only_assigned (cfg : Cfg) (t : TableCtx) (k : CodedKind) (r r' : Reader) (x : Coded) (hr : r.Ok)
    (h : readCoded cfg t k r = .ok (x, r')) :
    ∃ v w, (w = 2 ∨ w = 4) ∧ w ≤ r.rest.length ∧ leNat (r.rest.take w) = v ∧ r' = r.skip w ∧
      (codedTables k)[v % 2 ^ codedBits k]? = some (some x.table) ∧ x.row = v / 2 ^ codedBits k := by
  have h1 := hr.1
  have h2 := hr.2
  have main : ∀ w, (w = 2 ∨ w = 4) → readWide cfg (t.wideCoded k) r = trRead cfg r w →
      ∃ v w, (w = 2 ∨ w = 4) ∧ w ≤ r.rest.length ∧ leNat (r.rest.take w) = v ∧ r' = r.skip w ∧
        (codedTables k)[v % 2 ^ codedBits k]? = some (some x.table) ∧ x.row = v / 2 ^ codedBits k := by
    intro w hw he
    unfold readCoded at h
    rw [he] at h
    unfold trRead at h
    rw [readU_eq cfg r w (by omega)] at h
    by_cases hl : r.pos + w ≤ r.data.length
    · rw [if_pos hl] at h
      simp only [Res.ok_bind, Res.ofOption_some, Res.pure_eq] at h
      have hlt : leNat (r.rest.take w) < 2 ^ 64 := by
        have := leNat_lt (r.rest.take w)
        rw [List.length_take, Nat.min_eq_left (by rw [length_rest]; omega)] at this
        rcases hw with rfl | rfl <;> omega
      refine ⟨leNat (r.rest.take w), w, hw, by rw [length_rest]; omega, rfl, ?_⟩
      generalize leNat (r.rest.take w) = v at h hlt ⊢
      rw [CodedKind.tagMask, and_mask, and_not_mask _ _ hlt (by cases k <;> decide)] at h
      rw [tagBits_eq]
      cases hdt : k.decodeTag (v % 2 ^ k.tagBits) with
      | none => rw [hdt] at h; simp at h
      | some ty =>
        rw [hdt] at h
        simp only [Res.ofOption_some, Res.ok_bind, Res.ok.injEq, Prod.mk.injEq] at h
        obtain ⟨rfl, rfl⟩ := h
        exact ⟨rfl, decodeTag_sound k _ _ hdt, rfl⟩
    · rw [if_neg hl] at h
      simp at h
  cases ht : t.wideCoded k
  · exact main 2 (.inl rfl) (by simp [readWide, ht])
  · exact main 4 (.inr rfl) (by simp [readWide, ht])

/-- A file in which nothing is large. -/
def smallCtx : TableCtx := TableCtx.ofCounts 0 (fun _ => 1)

/-- C25, instances: the base type `TypeRef` row 5, and an unassigned tag. -/
example : readCoded Cfg.debug smallCtx .typeDefOrRef ⟨[0x15, 0x00, 7], 0⟩ = .ok (⟨.typeRef, 5⟩, ⟨[0x15, 0x00, 7], 2⟩) ∧
    readCoded Cfg.debug smallCtx .typeDefOrRef ⟨[0x17, 0x00, 7], 0⟩ = .err "Invalid tag" ∧
    (codedTables .typeDefOrRef)[1]? = some (some .typeRef) ∧ codedBits .hasCustomAttribute = 5 := by decide

/-! ## C26 -/

/-- `f` reads a column of `w` bytes: it fails when fewer are left, and otherwise consumes `w` bytes or fails. -/
def UsesWidth {α : Type} (f : Reader → Res (α × Reader)) (w : Nat) : Prop :=
  ∀ r : Reader, r.Ok → (r.rest.length < w ∧ ∃ m, f r = .err m) ∨
    (w ≤ r.rest.length ∧ ((∃ m, f r = .err m) ∨ ∃ a, f r = .ok (a, r.skip w)))

theorem trRead_uses (cfg : Cfg) {w : Nat} (hw : w ≤ 8) : UsesWidth (fun r => trRead cfg r w) w := by
  intro r hr
  have h1 := hr.1
  have h2 := hr.2
  have hl := length_rest r
  simp only [trRead]
  rw [readU_eq cfg r w (by omega)]
  by_cases hc : r.pos + w ≤ r.data.length
  · rw [if_pos hc]; exact .inr ⟨by omega, .inr ⟨_, rfl⟩⟩
  · rw [if_neg hc]; exact .inl ⟨by omega, _, rfl⟩

theorem readWide_uses (cfg : Cfg) (wide : Bool) : UsesWidth (readWide cfg wide) (if wide then 4 else 2) := by
  cases wide
  · exact trRead_uses cfg (by omega)
  · exact trRead_uses cfg (by omega)

theorem readCoded_uses (cfg : Cfg) (t : TableCtx) (k : CodedKind) :
    UsesWidth (readCoded cfg t k) (if t.wideCoded k then 4 else 2) := by
  intro r hr
  unfold readCoded
  rcases readWide_uses cfg (t.wideCoded k) r hr with ⟨h, m, hm⟩ | ⟨h, ⟨m, hm⟩ | ⟨a, ha⟩⟩
  · rw [hm]; exact .inl ⟨h, m, rfl⟩
  · rw [hm]; exact .inr ⟨h, .inl ⟨m, rfl⟩⟩
  · rw [ha]
    refine .inr ⟨h, ?_⟩
    simp only [Res.ok_bind]
    cases k.decodeTag (a &&& k.tagMask) with
    | none => exact .inl ⟨_, rfl⟩
    | some ty => exact .inr ⟨_, rfl⟩

/-- **C26**, the part that holds: for every header, heap-index and table-index columns have the prescribed width, and so
does a coded-index column, provided no table it points into has exactly `2 ^ (16 - n)` rows and (for custom-attribute
parents) there are fewer than `2 ^ 11` security declarations. Missing: those two exceptions, which are real. -/
theorem C26_widths_partial (cfg : Cfg) (s : Sizes) (unused : Bytes) (u1 : UInt8) (valid sorted : Nat) (tl : Bytes)
    (hf : HeaderFits s unused valid sorted) (hsize : (encTableHeader s unused u1 valid sorted ++ tl).length < 2 ^ 63) :
    ∃ t r, readTableHeader cfg (encTableHeader s unused u1 valid sorted ++ tl) = .ok (t, r) ∧
      UsesWidth (readStringHandle cfg t) s.stringWidth ∧ UsesWidth (readGuidHandle cfg t) s.guidWidth ∧
      UsesWidth (readBlobHandle cfg t) s.blobWidth ∧ (∀ ty, UsesWidth (readHandle cfg t ty) (s.indexWidth ty)) ∧
      ∀ k, (∀ ty, some ty ∈ codedTables k → s.rows ty.code ≠ 2 ^ (16 - codedBits k)) →
        (k = .hasCustomAttribute → s.rows TableType.declSecurity.code < 2 ^ 11) →
        UsesWidth (readCoded cfg t k) (s.codedWidth k) := by
  obtain ⟨rows, r, h, hrows, _, _⟩ := readTableHeader_at cfg hf hsize
  refine ⟨_, r, h, ?_, ?_, ?_, ?_, ?_⟩
  · have := readWide_uses cfg s.wideStrings
    rw [← (heapByte_bits s).1] at this
    rw [Sizes.stringWidth, ← (heapByte_bits s).1]; exact this
  · have := readWide_uses cfg s.wideGuids
    rw [← (heapByte_bits s).2.1] at this
    rw [Sizes.guidWidth, ← (heapByte_bits s).2.1]; exact this
  · have := readWide_uses cfg s.wideBlobs
    rw [← (heapByte_bits s).2.2] at this
    rw [Sizes.blobWidth, ← (heapByte_bits s).2.2]; exact this
  · intro ty
    have := readWide_uses cfg (decide (rows ty.code > 65535))
    have e := wideTable_eq hrows ty
    rcases s.indexWidth_cases ty with h2 | h2
    · rw [h2] at e ⊢; rw [e] at this
      unfold readHandle TableCtx.ofCounts; simp only [e]; exact this
    · rw [h2] at e ⊢; rw [e] at this
      unfold readHandle TableCtx.ofCounts; simp only [e]; exact this
  · intro k hlim hsec
    have := readCoded_uses cfg (TableCtx.ofCounts s.heapByte rows) k
    have e : (TableCtx.ofCounts s.heapByte rows).wideCoded k = _ := wideCoded_eq hrows k hlim hsec
    rw [e] at this
    rcases s.codedWidth_cases k with h2 | h2 <;> rw [h2] at this ⊢ <;> exact this

/-- Only one table, number `i`, with `n` rows. -/
def oneTable (i n : Nat) : Sizes := ⟨false, false, false, fun j => if j = i then n else 0⟩

theorem readCoded_zero (cfg : Cfg) (t : TableCtx) (h : t.wideCoded .hasCustomAttribute = false) :
    readCoded cfg t .hasCustomAttribute ⟨[0, 0, 0, 0], 0⟩ = .ok (⟨.methodDef, 0⟩, ⟨[0, 0, 0, 0], 2⟩) := by
  have : readWide cfg false ⟨[0, 0, 0, 0], 0⟩ = .ok (0, ⟨[0, 0, 0, 0], 2⟩) := by rcases cfg with ⟨_ | _⟩ <;> decide
  unfold readCoded
  rw [h, this]
  rfl

/-- **C26** is false of the code: with 2048 module references the custom-attribute parent should be four bytes wide and
is read as two; the same with 5000 security declarations. -/
theorem C26_refuted (cfg : Cfg) :
    (∃ t r, readTableHeader cfg (encTableHeader (oneTable 0x1a 2048) [0, 0, 0, 0, 2, 0] 1 (2 ^ 0x1a) 0) = .ok (t, r) ∧
      (oneTable 0x1a 2048).codedWidth .hasCustomAttribute = 4 ∧ ¬ UsesWidth (readCoded cfg t .hasCustomAttribute) 4) ∧
    (∃ t r, readTableHeader cfg (encTableHeader (oneTable 0x0e 5000) [0, 0, 0, 0, 2, 0] 1 (2 ^ 0x0e) 0) = .ok (t, r) ∧
      (oneTable 0x0e 5000).codedWidth .hasCustomAttribute = 4 ∧ ¬ UsesWidth (readCoded cfg t .hasCustomAttribute) 4) := by
  have key : ∀ i n, i < 64 → n < 2 ^ 32 →
      (∀ rows : Nat → Nat, (∀ j, j < 64 → rows j = (oneTable i n).rows j) →
        isCodedIndexWide CodedKind.hasCustomAttribute.largeRowSize CodedKind.hasCustomAttribute.tables rows = false) →
      ∃ t r, readTableHeader cfg (encTableHeader (oneTable i n) [0, 0, 0, 0, 2, 0] 1 (2 ^ i) 0) = .ok (t, r) ∧
        ¬ UsesWidth (readCoded cfg t .hasCustomAttribute) 4 := by
    intro i n hi hn hw
    have hf : HeaderFits (oneTable i n) [0, 0, 0, 0, 2, 0] (2 ^ i) 0 := by
      refine ⟨rfl, Nat.pow_lt_pow_right (by omega) hi, by omega, ?_, ?_⟩
      · intro j
        simp only [oneTable]
        split <;> omega
      · intro j _ hj
        simp only [oneTable]
        split
        · subst j; rw [Nat.testBit_two_pow_self] at hj; simp at hj
        · rfl
    have hsz : (encTableHeader (oneTable i n) [0, 0, 0, 0, 2, 0] 1 (2 ^ i) 0 ++ []).length < 2 ^ 63 := by
      have hb : ∀ l : List Nat, ((l.map fun i_1 => leBytes 4 ((oneTable i n).rows i_1)).flatten).length = 4 * l.length := by
        intro l
        induction l with
        | nil => rfl
        | cons a l ih => simp only [List.map_cons, List.flatten_cons, List.length_append, length_leBytes, ih, List.length_cons]; omega
      have := countOnes_le (2 ^ i)
      unfold countOnes at this
      simp only [encTableHeader, List.length_append, List.length_cons, List.length_nil, length_leBytes, hb, presentTables]
      omega
    obtain ⟨rows, r0, h0, hrows, _, _⟩ := readTableHeader_at cfg hf hsz
    rw [List.append_nil] at h0
    refine ⟨_, _, h0, fun hu => ?_⟩
    have hf2 : (TableCtx.ofCounts (oneTable i n).heapByte rows).wideCoded .hasCustomAttribute = false := hw rows hrows
    have hz := readCoded_zero cfg _ hf2
    rcases hu ⟨[0, 0, 0, 0], 0⟩ ⟨by decide, by decide⟩ with ⟨h, _⟩ | ⟨_, ⟨m, hm⟩ | ⟨a, ha⟩⟩
    · simp [Reader.rest] at h
    · rw [hz] at hm; simp at hm
    · rw [hz] at ha; simp [Reader.skip] at ha
  constructor
  · suffices hs : _ from
      have ⟨t, r, h, hu⟩ := key 0x1a 2048 (by omega) (by omega) hs
      ⟨t, r, h, by decide, hu⟩
    intro rows hrows
    simp only [isCodedIndexWide, List.any_eq_false, decide_eq_true_eq]
    intro ty hm
    rw [hrows _ (code_lt ty)]
    cases ty <;> decide
  · suffices hs : _ from
      have ⟨t, r, h, hu⟩ := key 0x0e 5000 (by omega) (by omega) hs
      ⟨t, r, h, by decide, hu⟩
    intro rows hrows
    simp only [isCodedIndexWide, List.any_eq_false, decide_eq_true_eq]
    intro ty hm
    rw [hrows _ (code_lt ty)]
    cases ty <;> first | decide | (exfalso; revert hm; decide)

/-! ## C27, C28, C67 -/

/-- The numbers of the tables the library decodes (all of ECMA-335 II.22). -/
def supportedTables : List Nat := [0x00, 0x01, 0x02, 0x04, 0x06, 0x08, 0x09, 0x0a, 0x0b, 0x0c, 0x0d, 0x0e, 0x0f, 0x10,
  0x11, 0x12, 0x14, 0x15, 0x17, 0x18, 0x19, 0x1a, 0x1b, 0x1c, 0x1d, 0x20, 0x21, 0x22, 0x23, 0x24, 0x25, 0x26, 0x27,
  0x28, 0x29, 0x2a, 0x2b, 0x2c]

/-- **C28**, the part that holds: the rows of all supported tables are returned exactly if every other table that has
rows is numbered above the supported ones, so that its rows (part of `post`) come last. Together with the exceptions of
C25 and C26 this is what is missing. -/
theorem C28_partial (cfg : Cfg) (s : Sizes) (unused : Bytes) (u1 : UInt8) (valid sorted : Nat) (body post : Bytes)
    (x : Tables) (hf : HeaderFits s unused valid sorted)
    (_hother : ∀ i, i < 0x2c → i ∉ supportedTables → s.rows i = 0)
    (hreg : s.Regular) (hd : ∀ row ∈ x.customAttribute, row.parent.table ≠ .declSecurity) (hx : IsTables s body x)
    (hsize : (encTableHeader s unused u1 valid sorted ++ (body ++ post)).length < 2 ^ 63) :
    readTableStream cfg (encTableHeader s unused u1 valid sorted ++ (body ++ post)) = .ok x := by
  obtain ⟨rows, r, h, hrows, hr, hrest⟩ := readTableHeader_at cfg hf hsize
  unfold readTableStream
  rw [h]
  simp only [Res.ok_bind]
  rw [readTables_reads cfg (ofCounts_agree hrows hreg) hd hx r post hr hrest]
  rfl

/-- **C27**, the part that holds: any rows in any of the 38 tables, written with any heap-size flags, are read back
exactly, whatever follows. Missing: files with a custom attribute on a security declaration, and files hitting the
width exceptions of C26 (`Regular`); both are misread. -/
theorem C27_round_trip_partial (cfg : Cfg) (s : Sizes) (unused : Bytes) (u1 : UInt8) (valid sorted : Nat)
    (body post : Bytes) (x : Tables) (hf : HeaderFits s unused valid sorted)
    (hother : ∀ i, i < 64 → i ∉ supportedTables → s.rows i = 0)
    (hreg : s.Regular) (hd : ∀ row ∈ x.customAttribute, row.parent.table ≠ .declSecurity) (hx : IsTables s body x)
    (hsize : (encTableHeader s unused u1 valid sorted ++ (body ++ post)).length < 2 ^ 63) :
    readTableStream cfg (encTableHeader s unused u1 valid sorted ++ (body ++ post)) = .ok x :=
  C28_partial cfg s unused u1 valid sorted body post x hf (fun i hi => hother i (by omega)) hreg hd hx hsize

theorem IsTable.empty {α : Type} (p : Bytes → α → Prop) : IsTable p 0 [] [] := ⟨[], rfl, by simp, rfl, rfl⟩

theorem IsTable.single {α : Type} {p : Bytes → α → Prop} {bs : Bytes} {x : α} (h : p bs x) : IsTable p 1 bs [x] :=
  ⟨[(bs, x)], rfl, by simpa using h, rfl, by simp⟩

/-- No rows. -/
def noTables : Tables := ⟨[], [], [], [], [], [], [], [], [], [], [], [], [], [], [], [], [], [], [], [], [], [], [], [],
  [], [], [], [], [], [], [], [], [], [], [], [], [], []⟩

/-- One security declaration carrying one custom attribute: the row counts. -/
def attrSizes : Sizes := ⟨false, false, false, fun i => if i = 0xc then 1 else if i = 0xe then 1 else 0⟩

/-- Its two rows as bytes. -/
def attrBody : Bytes := [0x28, 0, 0x0a, 0, 5, 0] ++ [3, 0, 4, 0, 9, 0]

/-- Its two rows. -/
def attrTables : Tables :=
  { noTables with customAttribute := [⟨⟨.declSecurity, 1⟩, ⟨.methodDef, 1⟩, 5⟩], declSecurity := [⟨3, ⟨.typeDef, 1⟩, 9⟩] }

theorem attr_fits : HeaderFits attrSizes [0, 0, 0, 0, 2, 0] (2 ^ 0xc + 2 ^ 0xe) 0 := by
  refine ⟨rfl, by omega, by omega, ?_, ?_⟩
  · intro i; simp only [attrSizes]; split <;> (try split) <;> omega
  · have : ∀ i : Fin 64, (2 ^ 0xc + 2 ^ 0xe : Nat).testBit i.val = false →
        (if i.val = 0xc then 1 else if i.val = 0xe then 1 else 0) = 0 := by decide
    intro i hi h; exact this ⟨i, hi⟩ h

theorem attr_isTables : IsTables attrSizes attrBody attrTables := by
  refine ⟨fun i => if i = 9 then [0x28, 0, 0x0a, 0, 5, 0] else if i = 11 then [3, 0, 4, 0, 9, 0] else [],
    IsTable.empty _, IsTable.empty _, IsTable.empty _, IsTable.empty _, IsTable.empty _, IsTable.empty _,
    IsTable.empty _, IsTable.empty _, IsTable.empty _, IsTable.single ?_, IsTable.empty _, IsTable.single ?_,
    IsTable.empty _, IsTable.empty _, IsTable.empty _, IsTable.empty _, IsTable.empty _, IsTable.empty _,
    IsTable.empty _, IsTable.empty _, IsTable.empty _, IsTable.empty _, IsTable.empty _, IsTable.empty _,
    IsTable.empty _, IsTable.empty _, IsTable.empty _, IsTable.empty _, IsTable.empty _, IsTable.empty _,
    IsTable.empty _, IsTable.empty _, IsTable.empty _, IsTable.empty _, IsTable.empty _, IsTable.empty _,
    IsTable.empty _, IsTable.empty _, ?_⟩
  · exact ⟨[0x28, 0], [0x0a, 0], [5, 0], ⟨8, by decide, by decide, by decide⟩, ⟨2, by decide, by decide, by decide⟩,
      ⟨by decide, by decide⟩, by decide⟩
  · exact ⟨[3, 0], [4, 0], [9, 0], ⟨by decide, by decide⟩, ⟨0, by decide, by decide, by decide⟩,
      ⟨by decide, by decide⟩, by decide⟩
  · decide

theorem attr_rejected (cfg : Cfg) : ∃ m, readTableStream cfg
    (encTableHeader attrSizes [0, 0, 0, 0, 2, 0] 1 (2 ^ 0xc + 2 ^ 0xe) 0 ++ attrBody) = .err m := by
  obtain ⟨_ | _⟩ := cfg <;> exact ⟨"Invalid tag", by decide +kernel⟩

/-- **C27** is false of the code in general: one security declaration carrying one custom attribute, legally encoded,
is rejected. -/
theorem C27_refuted : ∃ (s : Sizes) (unused : Bytes) (u1 : UInt8) (valid sorted : Nat) (body : Bytes) (x : Tables),
    HeaderFits s unused valid sorted ∧ (∀ i, i < 64 → i ∉ supportedTables → s.rows i = 0) ∧ s.Regular ∧
    IsTables s body x ∧
    ∀ cfg, ∃ m, readTableStream cfg (encTableHeader s unused u1 valid sorted ++ body) = .err m := by
  refine ⟨attrSizes, [0, 0, 0, 0, 2, 0], 1, 2 ^ 0xc + 2 ^ 0xe, 0, attrBody, attrTables, attr_fits, ?_, ⟨?_, by decide⟩,
    attr_isTables, attr_rejected⟩
  · have : ∀ i : Fin 64, i.val ∉ supportedTables → (if i.val = 0xc then 1 else if i.val = 0xe then 1 else 0) = 0 := by decide
    intro i hi h; exact this ⟨i, hi⟩ h
  · intro k ty _
    cases k <;> cases ty <;> decide

/-- C27, instance: a module with one type deriving from `TypeRef` row 1, as bytes and as rows. -/
example : readTableStream Cfg.debug (encTableHeader ⟨false, false, false, fun i => if i = 0 ∨ i = 2 then 1 else 0⟩
    [0, 0, 0, 0, 2, 0] 1 5 0 ++ ([0, 0, 7, 0, 1, 0, 0, 0, 0, 0] ++
      [1, 0, 0x10, 0, 9, 0, 12, 0, 5, 0, 1, 0, 1, 0] ++ [0xff])) =
    .ok { noTables with
      module := [⟨7, 1⟩],
      typeDef := [⟨⟨.pub, .auto, .cls, false, false, false, false, false, .ansi, true, false, false, false⟩, 9, 12,
        ⟨.typeRef, 1⟩, 1, 1⟩] } := by decide +kernel

/-- The row counts, bytes and rows of that file. -/
def pairSizes : Sizes := ⟨false, false, false, fun i => if i = 0 ∨ i = 2 then 1 else 0⟩

def pairBody : Bytes := [0, 0, 7, 0, 1, 0, 0, 0, 0, 0] ++ [1, 0, 0x10, 0, 9, 0, 12, 0, 5, 0, 1, 0, 1, 0]

def pairTables : Tables :=
  { noTables with
    module := [⟨7, 1⟩],
    typeDef := [⟨⟨.pub, .auto, .cls, false, false, false, false, false, .ansi, true, false, false, false⟩, 9, 12,
      ⟨.typeRef, 1⟩, 1, 1⟩] }

/-- C27, the hypotheses are met by that file. -/
theorem pair_isTables : IsTables pairSizes pairBody pairTables := by
  refine ⟨fun i => if i = 0 then [0, 0, 7, 0, 1, 0, 0, 0, 0, 0] else if i = 2 then
      [1, 0, 0x10, 0, 9, 0, 12, 0, 5, 0, 1, 0, 1, 0] else [],
      IsTable.single ?_, IsTable.empty _, IsTable.single ?_, IsTable.empty _, IsTable.empty _, IsTable.empty _,
      IsTable.empty _, IsTable.empty _, IsTable.empty _, IsTable.empty _, IsTable.empty _, IsTable.empty _,
      IsTable.empty _, IsTable.empty _, IsTable.empty _, IsTable.empty _, IsTable.empty _, IsTable.empty _,
      IsTable.empty _, IsTable.empty _, IsTable.empty _, IsTable.empty _, IsTable.empty _, IsTable.empty _,
      IsTable.empty _, IsTable.empty _, IsTable.empty _, IsTable.empty _, IsTable.empty _, IsTable.empty _,
      IsTable.empty _, IsTable.empty _, IsTable.empty _, IsTable.empty _, IsTable.empty _, IsTable.empty _,
      IsTable.empty _, IsTable.empty _, ?_⟩
  · exact ⟨[0, 0], [7, 0], [1, 0], [0, 0], [0, 0], ⟨0, by decide, by decide⟩, ⟨by decide, by decide⟩,
      ⟨by decide, by decide⟩, ⟨0, by decide, by decide⟩, ⟨0, by decide, by decide⟩, by decide⟩
  · exact ⟨[1, 0, 0x10, 0], [9, 0], [12, 0], [5, 0], [1, 0], [1, 0], ⟨0x100001, ⟨by decide, by decide⟩, by decide⟩,
      ⟨by decide, by decide⟩, ⟨by decide, by decide⟩, ⟨1, by decide, by decide, by decide⟩, ⟨by decide, by decide⟩,
      ⟨by decide, by decide⟩, by decide⟩
  · decide

/-- **C28** is false of the code: a file with one row in the field-pointer table (number 3, two bytes per row) and one
field is read without an error, and the field row is wrong. -/
theorem C28_refuted (cfg : Cfg) :
    let s : Sizes := ⟨false, false, false, fun i => if i = 3 ∨ i = 4 then 1 else 0⟩
    let fieldRow : Bytes := [6, 0, 0x20, 0, 0x0a, 0]
    let field : FieldRow :=
      ⟨⟨.pub, false, false, false, false, false, false, false, false, false, false⟩, 0x20, 0x0a⟩
    IsField s fieldRow field ∧
    ∃ x, readTableStream cfg (encTableHeader s [0, 0, 0, 0, 2, 0] 1 0x18 0 ++ ([1, 0] ++ fieldRow)) = .ok x ∧
      x.field ≠ [field] := by
  refine ⟨⟨[6, 0], [0x20, 0], [0x0a, 0], ⟨6, ⟨by decide, by decide⟩, by decide⟩, ⟨by decide, by decide⟩,
    ⟨by decide, by decide⟩, by decide⟩,
    { noTables with field := [⟨⟨.priv, false, false, false, false, false, false, false, false, false, false⟩, 6, 0x20⟩] },
    ?_, by decide⟩
  rcases cfg with ⟨_ | _⟩ <;> decide +kernel

/-- **C67.** Reading a table stream from arbitrary bytes returns tables or an error. -/
theorem C67_total (cfg : Cfg) (data : Bytes) (hsize : data.length < 2 ^ 63) : (readTableStream cfg data).Returns := by
  unfold readTableStream
  rcases readTableHeader_total cfg data hsize with ⟨m, h⟩ | ⟨t, r, h, hr⟩
  · rw [h]; simp
  · rw [h]
    simp only [Res.ok_bind]
    rcases readTables_step cfg t hr with ⟨m, h⟩ | ⟨a, k, h, _⟩ <;> rw [h] <;> simp

/-- C67, instance: a header that announces a row that is not there. -/
example : readTableStream Cfg.debug [0, 0, 0, 0, 2, 0, 0, 1, 1, 0, 0, 0, 0, 0, 0, 0, 0, 0, 0, 0, 0, 0, 0, 0, 1, 0, 0, 0, 9] =
    .err "Unexpected EOF" := by decide +kernel

/-! ## C29 -/

/-- **C29** is false of the code for interface implementations: the handle of the first row panics and the handle of
the second row addresses the first. -/
theorem C29_refuted (cfg : Cfg) : (TableType.interfaceImpl.handle cfg 0 >>= tableIndex cfg [10, 20]) = .panic ∧
    (TableType.interfaceImpl.handle cfg 1 >>= tableIndex cfg [10, 20]) = .ok 10 := by
  rcases cfg with ⟨_ | _⟩ <;> decide

/-- **C29** for every other table. -/
theorem C29_partial (cfg : Cfg) (t : TableType) (ht : t ≠ .interfaceImpl) {α : Type} (rows : List α) (i : Nat)
    (hi : i < rows.length) (hsize : rows.length < 2 ^ 64) : (t.handle cfg i >>= tableIndex cfg rows) = .ok rows[i] := by
  unfold TableType.handle tableIndex
  rw [if_neg ht, uadd_ok (by omega)]
  simp [usub_ok (Nat.le_add_left 1 i), hi]

example : (TableType.typeDef.handle Cfg.debug 1 >>= tableIndex Cfg.debug [10, 20]) = .ok 20 := by decide

/-! ## C30 -/

/-- **C30.** Every attribute decoder computes the bit assignment of ECMA-335 II.23.1: for every raw word it returns the
record of that assignment, and an error exactly for the words the assignment leaves undefined. -/
theorem C30_attributes :
    Computes TypeAttributes.fromRaw typeAttributes ∧ Computes FieldAttributes.fromRaw fieldAttributes ∧
    Computes MethodAttributes.fromRaw methodAttributes ∧ Computes MethodImplAttributes.fromRaw methodImplAttributes ∧
    Computes ParamAttributes.fromRaw paramAttributes ∧ Computes PropertyAttributes.fromRaw propertyAttributes ∧
    Computes EventAttributes.fromRaw eventAttributes ∧ Computes MethodSemanticsType.fromRaw methodSemanticsType ∧
    Computes PInvokeAttributes.fromRaw pinvokeAttributes ∧
    Computes GenericParamAttributes.fromRaw genericParamAttributes ∧ Computes AssemblyFlags.fromRaw assemblyFlags ∧
    Computes AssemblyHashAlgorithm.fromRaw assemblyHashAlgorithm ∧ Computes ConstantType.fromRaw constantType :=
  ⟨TypeAttributes.computes, FieldAttributes.computes, MethodAttributes.computes, MethodImplAttributes.computes,
    ParamAttributes.computes, PropertyAttributes.computes, EventAttributes.computes, MethodSemanticsType.computes,
    PInvokeAttributes.computes, GenericParamAttributes.computes, AssemblyFlags.computes, AssemblyHashAlgorithm.computes,
    ConstantType.computes⟩

/-- C30, instances: a public static method hiding by signature; a reserved visibility; a sealed type; a reserved layout. -/
example : (MethodAttributes.fromRaw 0x96).Returns ∧
    MethodAttributes.fromRaw 0x96 = .ok ⟨.pub, true, false, false, true, true, false, false, false, false, false, false,
      false, false⟩ ∧ methodAttributes 0x97 = none ∧ (typeAttributes 0x100).isSome ∧ typeAttributes 0x18 = none := by decide

end Clr
