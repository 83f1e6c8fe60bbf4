import Verif.Lemmas.Signature
import Verif.Lemmas.Attributes
import Verif.Spec.TableSchema
/-! # Column readers and the table-stream header -/

namespace Clr
open Reader Spec

/-! ### Sequencing -/

/-- One read followed by the rest of a reader. -/
theorem Reads.andThen {α β : Type} {f : Reader → Res (α × Reader)} {k : α × Reader → Res (β × Reader)} {r : Reader}
    {e1 e2 t : Bytes} {a : α} {b : β} (hf : Reads f e1 a) (hr : r.Ok) (h : r.rest = (e1 ++ e2) ++ t)
    (hk : ∀ r' : Reader, r'.Ok → r'.rest = e2 ++ t → k (a, r') = .ok (b, r'.skip e2.length)) :
    (f r >>= k) = .ok (b, r.skip (e1 ++ e2).length) := by
  rw [List.append_assoc] at h
  rw [hf r _ hr h]
  simp only [Res.ok_bind]
  rw [hk _ (ok_at hr h) (rest_at h)]
  simp

theorem Reads.finish {β : Type} (b : β) (r : Reader) :
    (pure (b, r) : Res (β × Reader)) = .ok (b, r.skip ([] : Bytes).length) := by simp

theorem Step.andThen {α β : Type} {x : Res (α × Reader)} {f : α × Reader → Res (β × Reader)} {r : Reader}
    (hx : Step x r 0) (hr : r.Ok) (hf : ∀ (a : α) (r' : Reader), r'.Ok → Step (f (a, r')) r' 0) :
    Step (x >>= f) r 0 := hx.bind hr (lo' := 0) fun a _ _ _ hok => hf a _ hok

/-! ### Columns -/

theorem trRead_step (cfg : Cfg) {r : Reader} (hr : r.Ok) {w : Nat} (hw : w ≤ 8) : Step (trRead cfg r w) r 0 := by
  unfold trRead
  have h1 := hr.1
  have h2 := hr.2
  rcases readU_cases cfg r w (by omega) with h | ⟨n, h, _, hl⟩
  · rw [h]; simp [Step]
  · rw [h]
    refine .inr ⟨n, w, by simp, Nat.zero_le _, ?_⟩
    rw [length_rest]; omega

theorem trReadIgnored_step (cfg : Cfg) {r : Reader} (hr : r.Ok) {w : Nat} (hw : w ≤ 8) :
    Step (trReadIgnored cfg r w) r 0 := by
  unfold trReadIgnored
  have h1 := hr.1
  have h2 := hr.2
  rcases readU_cases cfg r w (by omega) with h | ⟨n, h, _, hl⟩
  · rw [h]; exact .inr ⟨(), 0, by simp, Nat.le_refl _, Nat.zero_le _⟩
  · rw [h]
    refine .inr ⟨(), w, by simp, Nat.zero_le _, ?_⟩
    rw [length_rest]; omega

theorem trReadWith_step {α : Type} {f : Nat → Res α} (hf : ∀ x, (f x).Returns) (cfg : Cfg) {r : Reader} (hr : r.Ok)
    {w : Nat} (hw : w ≤ 8) : Step (trReadWith f cfg r w) r 0 := by
  unfold trReadWith
  refine Step.andThen (trRead_step cfg hr hw) hr fun x r hr => ?_
  rcases hf x with ⟨a, h⟩ | ⟨m, h⟩
  · simp only [h]; exact Step.pure _ _
  · simp only [h]; exact Step.err _ _ _

theorem readWide_step (cfg : Cfg) (wide : Bool) {r : Reader} (hr : r.Ok) : Step (readWide cfg wide r) r 0 := by
  unfold readWide
  split <;> exact trRead_step cfg hr (by omega)

theorem readHandle_step (cfg : Cfg) (t : TableCtx) (ty : TableType) {r : Reader} (hr : r.Ok) :
    Step (readHandle cfg t ty r) r 0 := readWide_step cfg _ hr
theorem readStringHandle_step (cfg : Cfg) (t : TableCtx) {r : Reader} (hr : r.Ok) :
    Step (readStringHandle cfg t r) r 0 := readWide_step cfg _ hr
theorem readGuidHandle_step (cfg : Cfg) (t : TableCtx) {r : Reader} (hr : r.Ok) :
    Step (readGuidHandle cfg t r) r 0 := readWide_step cfg _ hr
theorem readBlobHandle_step (cfg : Cfg) (t : TableCtx) {r : Reader} (hr : r.Ok) :
    Step (readBlobHandle cfg t r) r 0 := readWide_step cfg _ hr

theorem readCoded_step (cfg : Cfg) (t : TableCtx) (k : CodedKind) {r : Reader} (hr : r.Ok) :
    Step (readCoded cfg t k r) r 0 := by
  unfold readCoded
  refine Step.andThen (readWide_step cfg _ hr) hr fun x r hr => ?_
  simp only
  cases k.decodeTag (x &&& k.tagMask) with
  | none => exact Step.err _ _ _
  | some a => exact Step.pure _ _

theorem readTable_step {α : Type} {f : Reader → Res (α × Reader)} (t : TableCtx) (ty : TableType)
    (hf : ∀ s : Reader, s.Ok → Step (f s) s 0) {r : Reader} (hr : r.Ok) : Step (readTable f t ty r) r 0 :=
  readMany_step (r0 := r) _ hr (Nat.le_refl _) fun s hs _ => hf s hs

/-- The constant row skips one byte without checking; a skip past the end is caught by the next read. -/
theorem readConstantRow_step' (cfg : Cfg) (t : TableCtx) {r : Reader} (hr : r.Ok) :
    Step (readConstantRow cfg t r) r 0 := by
  unfold readConstantRow
  refine Step.andThen (trReadWith_step ConstantType.fromRaw_returns cfg hr (by omega)) hr fun ty r hr => ?_
  have h1 := hr.1
  have h2 := hr.2
  simp only
  rw [advance_eq cfg r 1 (by omega)]
  simp only [Res.ok_bind]
  by_cases hl : 1 ≤ r.rest.length
  · have hok := hr.skip hl
    have : Step (do
        let (parent, r) ← readCoded cfg t .hasConstant (r.skip 1)
        let (value, r) ← readBlobHandle cfg t r
        pure ((⟨ty, parent, value⟩ : ConstantRow), r)) (r.skip 1) 0 := by
      refine Step.andThen (readCoded_step cfg t _ hok) hok fun _ r hr => ?_
      refine Step.andThen (readBlobHandle_step cfg t hr) hr fun _ r hr => ?_
      exact Step.pure _ _
    rcases this with ⟨m, h⟩ | ⟨a, k, h, _, hk⟩
    · exact .inl ⟨m, h⟩
    · refine .inr ⟨a, 1 + k, by rw [← skip_skip]; exact h, Nat.zero_le _, ?_⟩
      rw [rest_skip, List.length_drop] at hk
      omega
  · left
    rw [length_rest] at hl
    have he : ∀ wide, readWide cfg wide (r.skip 1) = .err "Unexpected EOF" := by
      intro wide
      unfold readWide trRead
      have hp : ∀ w, 2 ≤ w → w ≤ 4 → (r.skip 1).readU cfg w = .ok (none, r.skip 1) := by
        intro w hw hw'
        rw [readU_eq cfg _ w (by simp; omega), if_neg (by simp; omega)]
      cases wide
      · simp [hp 2 (by omega) (by omega)]
      · simp [hp 4 (by omega) (by omega)]
    refine ⟨"Unexpected EOF", ?_⟩
    unfold readCoded
    rw [he]
    rfl

theorem Spec.ColNum.reads (cfg : Cfg) {w : Nat} {bs : Bytes} {v : Nat} (h : ColNum w bs v) :
    Reads (fun r => trRead cfg r w) bs v := by
  obtain ⟨hv, rfl⟩ := h
  intro r t hr h
  simp [trRead, readU_at cfg hr hv h]

theorem Spec.ColNum.reads_ignored (cfg : Cfg) {w : Nat} {bs : Bytes} (h : ∃ v, ColNum w bs v) :
    Reads (fun r => trReadIgnored cfg r w) bs () := by
  obtain ⟨v, hv, rfl⟩ := h
  intro r t hr h
  simp [trReadIgnored, readU_at cfg hr hv h]

theorem reads_with {α : Type} {f : Nat → Res α} (cfg : Cfg) {w : Nat} {bs : Bytes} {raw : Nat} {a : α}
    (h : ColNum w bs raw) (hf : f raw = .ok a) : Reads (fun r => trReadWith f cfg r w) bs a := by
  intro r t hr hrest
  have := h.reads cfg r t hr hrest
  simp only at this
  simp [trReadWith, this, hf]

theorem Spec.ColWord.reads {α : Type} {g : Nat → Option α} {f : Nat → Res α} (cfg : Cfg) {w : Nat} {bs : Bytes} {v : α}
    (hf : ∀ {raw : Nat} {a : α}, g raw = some a → f raw = .ok a) (h : ColWord w g bs v) :
    Reads (fun r => trReadWith f cfg r w) bs v := by
  obtain ⟨raw, h1, h2⟩ := h
  exact reads_with cfg h1 (hf h2)

theorem Spec.ColOpt.reads (cfg : Cfg) {w : Nat} {bs : Bytes} {v : Option Nat} (h : ColOpt w bs v) :
    Reads (fun r => trReadWith (fun x => .ok (if x = 0 then none else some x)) cfg r w) bs v := by
  refine reads_with cfg h.1 ?_
  cases v with
  | none => simp
  | some n =>
    have := h.2
    simp only [ne_eq, Option.some.injEq] at this
    simp [this]

theorem Spec.ColFlag.reads (cfg : Cfg) {w n : Nat} {bs : Bytes} {v : Bool} (h : ColFlag w n bs v) :
    Reads (fun r => trReadWith (fun x => .ok (decide (x = n))) cfg r w) bs v := by
  obtain ⟨raw, h1, h2⟩ := h
  refine reads_with cfg h1 ?_
  cases v <;> simp at h2 <;> simp [h2]

theorem pad_reads (cfg : Cfg) {bs : Bytes} (h : bs = [0]) : Reads (fun r => r.advance cfg 1) bs true := by
  subst h
  intro r t hr h
  have h1 := hr.1
  have h2 := hr.2
  have hl := length_rest r
  rw [h] at hl
  simp only [List.cons_append, List.nil_append, List.length_cons] at hl
  show r.advance cfg 1 = _
  rw [advance_eq cfg r 1 (by omega)]
  simp
  omega

/-! ### Widths -/

/-- The reader's widths and row counts are those of the format. -/
structure WidthsAgree (t : TableCtx) (s : Sizes) : Prop where
  rows : ∀ ty : TableType, t.rowCount ty.code = s.rows ty.code
  table : ∀ ty : TableType, t.wideTable ty.code = decide (s.indexWidth ty = 4)
  string : t.wideString = s.wideStrings
  guid : t.wideGuid = s.wideGuids
  blob : t.wideBlob = s.wideBlobs
  coded : ∀ k, t.wideCoded k = decide (s.codedWidth k = 4)

theorem Spec.Sizes.indexWidth_cases (s : Sizes) (ty : TableType) : s.indexWidth ty = 2 ∨ s.indexWidth ty = 4 := by
  unfold Sizes.indexWidth; split <;> simp

theorem Spec.Sizes.codedWidth_cases (s : Sizes) (k : CodedKind) : s.codedWidth k = 2 ∨ s.codedWidth k = 4 := by
  unfold Sizes.codedWidth; split <;> simp

theorem readWide_reads (cfg : Cfg) {wide : Bool} {bs : Bytes} {v : Nat} (h : ColNum (if wide then 4 else 2) bs v) :
    Reads (readWide cfg wide) bs v := by
  cases wide
  · exact h.reads cfg
  · exact h.reads cfg

theorem readStringHandle_reads (cfg : Cfg) {t : TableCtx} {s : Sizes} (hw : WidthsAgree t s) {bs : Bytes} {v : Nat}
    (h : ColNum s.stringWidth bs v) : Reads (readStringHandle cfg t) bs v := by
  apply readWide_reads; rw [hw.string]; exact h
theorem readGuidHandle_reads (cfg : Cfg) {t : TableCtx} {s : Sizes} (hw : WidthsAgree t s) {bs : Bytes} {v : Nat}
    (h : ColNum s.guidWidth bs v) : Reads (readGuidHandle cfg t) bs v := by
  apply readWide_reads; rw [hw.guid]; exact h
theorem readBlobHandle_reads (cfg : Cfg) {t : TableCtx} {s : Sizes} (hw : WidthsAgree t s) {bs : Bytes} {v : Nat}
    (h : ColNum s.blobWidth bs v) : Reads (readBlobHandle cfg t) bs v := by
  apply readWide_reads; rw [hw.blob]; exact h

theorem readHandle_reads (cfg : Cfg) {t : TableCtx} {s : Sizes} (hw : WidthsAgree t s) {ty : TableType} {bs : Bytes}
    {v : Nat} (h : ColNum (s.indexWidth ty) bs v) : Reads (readHandle cfg t ty) bs v := by
  apply readWide_reads
  rw [hw.table]
  rcases s.indexWidth_cases ty with e | e <;> rw [e] at h ⊢ <;> exact h

theorem tagBits_eq (k : CodedKind) : codedBits k = k.tagBits := by cases k <;> decide

/-- The code's tag tables are the format's, except that the custom-attribute parent lacks tag 8. -/
theorem decodeTag_eq (k : CodedKind) (tag : Nat) (ty : TableType)
    (h : (codedTables k)[tag]? = some (some ty)) (hd : k = .hasCustomAttribute → ty ≠ .declSecurity) :
    tag < 2 ^ k.tagBits ∧ k.decodeTag tag = some ty := by
  have hlen : tag < (codedTables k).length := by
    by_cases hc : tag < (codedTables k).length
    · exact hc
    · rw [List.getElem?_eq_none (by omega)] at h; simp at h
  have hl22 : (codedTables k).length ≤ 22 := by cases k <;> decide
  have hall : ∀ k : CodedKind, ∀ tag : Fin 22, ∀ ty, (codedTables k)[tag.val]? = some (some ty) →
      (k = .hasCustomAttribute → ty ≠ .declSecurity) → tag.val < 2 ^ k.tagBits ∧ k.decodeTag tag.val = some ty := by
    intro k tag ty h hd
    cases k <;> revert tag ty <;> simp only [Fin.forall_iff] <;> intro i hi ty h hd <;>
      (rcases i with _ | _ | _ | _ | _ | _ | _ | _ | _ | _ | _ | _ | _ | _ | _ | _ | _ | _ | _ | _ | _ | _ | i <;>
        simp [codedTables] at h hd <;> first | (subst h; decide) | (subst h; simp at hd; done) | omega)
  exact hall k ⟨tag, by omega⟩ ty h hd

theorem decodeTag_sound (k : CodedKind) (tag : Nat) (ty : TableType) (h : k.decodeTag tag = some ty) :
    (codedTables k)[tag]? = some (some ty) := by
  unfold CodedKind.decodeTag at h
  split at h <;> simp at h <;> subst h <;> rfl

theorem and_mask (x n : Nat) : x &&& (2 ^ n - 1) = x % 2 ^ n := Nat.and_two_pow_sub_one_eq_mod x n

theorem and_not_mask (x n : Nat) (hx : x < 2 ^ 64) (hn : n ≤ 64) : (x &&& (2 ^ 64 - 1 - (2 ^ n - 1))) >>> n = x / 2 ^ n := by
  have e : 2 ^ 64 - 1 - (2 ^ n - 1) = (2 ^ (64 - n) - 1) * 2 ^ n := by
    rw [Nat.sub_mul, ← Nat.pow_add, Nat.sub_add_cancel hn]
    have : 0 < 2 ^ n := Nat.two_pow_pos n
    omega
  rw [e, and_shift, Nat.shiftRight_eq_div_pow, Nat.mul_div_cancel _ (Nat.two_pow_pos n)]
  unfold bits
  refine Nat.mod_eq_of_lt ?_
  rw [Nat.div_lt_iff_lt_mul (Nat.two_pow_pos n), ← Nat.pow_add, Nat.sub_add_cancel hn]
  exact hx

theorem readCoded_reads (cfg : Cfg) {t : TableCtx} {s : Sizes} (hw : WidthsAgree t s) {k : CodedKind} {bs : Bytes}
    {x : Coded} (hd : k = .hasCustomAttribute → x.table ≠ .declSecurity) (h : ColCoded s k bs x) :
    Reads (readCoded cfg t k) bs x := by
  obtain ⟨tag, h1, h2⟩ := h
  obtain ⟨h3, h4⟩ := decodeTag_eq k tag x.table h1 hd
  rw [tagBits_eq] at h2
  have hlt : x.row * 2 ^ k.tagBits + tag < 2 ^ 64 := by
    have := h2.1
    rcases s.codedWidth_cases k with e | e <;> rw [e] at this <;> omega
  have h5 : Reads (readWide cfg (t.wideCoded k)) bs (x.row * 2 ^ k.tagBits + tag) := by
    apply readWide_reads
    rw [hw.coded]
    rcases s.codedWidth_cases k with e | e <;> rw [e] at h2 ⊢ <;> exact h2
  intro r tl hr h
  unfold readCoded
  rw [h5 r tl hr h]
  simp only [Res.ok_bind, CodedKind.tagMask]
  rw [and_mask, and_not_mask _ _ hlt (by cases k <;> decide)]
  rw [Nat.add_comm, Nat.add_mul_mod_self_right, Nat.mod_eq_of_lt h3, h4]
  rw [Nat.add_mul_div_right _ _ (Nat.two_pow_pos _), Nat.div_eq_of_lt h3, Nat.zero_add]
  rfl

theorem readTable_reads {α : Type} {f : Reader → Res (α × Reader)} {t : TableCtx} {s : Sizes} (hw : WidthsAgree t s)
    {ty : TableType} {isRow : Bytes → α → Prop} {bs : Bytes} {rows : List α}
    (hf : ∀ {bs : Bytes} {x : α}, isRow bs x → x ∈ rows → Reads f bs x)
    (h : IsTable isRow (s.rows ty.code) bs rows) : Reads (readTable f t ty) bs rows := by
  obtain ⟨items, hl, hi, rfl, rfl⟩ := h
  unfold readTable
  rw [hw.rows, ← hl]
  exact readMany_reads items fun p hp => hf (hi p hp) (List.mem_map_of_mem hp)

/-! ### The header -/

theorem distributeRows_ok (valid : Nat) (rows : Nat → Nat) : ∀ is : List Nat,
    distributeRows valid is ((is.filter valid.testBit).map rows) =
      .ok (is.map fun i => if valid.testBit i then rows i else 0)
  | [] => rfl
  | i :: is => by
    unfold distributeRows
    by_cases h : valid.testBit i
    · simp [h, distributeRows_ok valid rows is]
    · simp [h, distributeRows_ok valid rows is]

/-- The loop never runs out of row counts: as many were read as bits are set. -/
theorem distributeRows_returns (valid : Nat) : ∀ (is raw : List Nat), (is.filter valid.testBit).length ≤ raw.length →
    ∃ l, distributeRows valid is raw = .ok l
  | [], raw, _ => ⟨_, rfl⟩
  | i :: is, raw, h => by
    unfold distributeRows
    by_cases hb : valid.testBit i
    · simp only [hb, List.filter_cons_of_pos, List.length_cons] at h
      cases raw with
      | nil => simp at h
      | cons n raw =>
        obtain ⟨l, hl⟩ := distributeRows_returns valid is raw (by simpa using h)
        simp [hb, hl]
    · rw [List.filter_cons_of_neg (by simpa using hb)] at h
      obtain ⟨l, hl⟩ := distributeRows_returns valid is raw h
      simp [hb, hl]

theorem heapByte_lt (s : Sizes) : s.heapByte < 8 := by
  unfold Sizes.heapByte
  split <;> split <;> split <;> omega

theorem heapSizeFlags_heapByte (s : Sizes) : heapSizeFlags s.heapByte = some s.heapByte := by
  have h : ∀ a b c : Bool, heapSizeFlags ((if a then 1 else 0) + (if b then 2 else 0) + (if c then 4 else 0)) =
      some ((if a then 1 else 0) + (if b then 2 else 0) + (if c then 4 else 0)) := by decide
  exact h _ _ _

theorem code_lt (ty : TableType) : ty.code < 64 := by cases ty <;> decide

theorem advance_at (cfg : Cfg) {r : Reader} {bs t : Bytes} (hr : r.Ok) (h : r.rest = bs ++ t) :
    r.advance cfg bs.length = .ok (true, r.skip bs.length) := by
  have h1 := hr.1
  have h2 := hr.2
  have hl := length_rest r
  rw [h, List.length_append] at hl
  rw [advance_eq cfg r _ (by omega)]
  simp
  omega

/-- Reading an encoded header yields the flags computed from the encoded sizes, and stops at the first table. -/
theorem readTableHeader_at (cfg : Cfg) {s : Sizes} {unused : Bytes} {u1 : UInt8} {valid sorted : Nat} {tl : Bytes}
    (hf : HeaderFits s unused valid sorted) (hsize : (encTableHeader s unused u1 valid sorted ++ tl).length < 2 ^ 63) :
    ∃ (rows : Nat → Nat) (r : Reader),
      readTableHeader cfg (encTableHeader s unused u1 valid sorted ++ tl) = .ok (TableCtx.ofCounts s.heapByte rows, r) ∧
      (∀ i, i < 64 → rows i = s.rows i) ∧ r.Ok ∧ r.rest = tl := by
  generalize hd : encTableHeader s unused u1 valid sorted ++ tl = data at *
  have hr : (Reader.new data).Ok := Ok.new hsize
  have h : (Reader.new data).rest = unused ++ (leBytes 1 s.heapByte ++ ([u1] ++ (leBytes 8 valid ++ (leBytes 8 sorted ++
      (((presentTables valid).map fun i => leBytes 4 (s.rows i)).flatten ++ tl))))) := by
    rw [rest_new, ← hd]; simp [encTableHeader]
  unfold readTableHeader
  simp only
  rw [show (6 : Nat) = unused.length from hf.unused6.symm, advance_at cfg hr h]
  simp only [Res.ok_bind]
  have hr1 := ok_at hr h
  have h1 := rest_at h
  generalize (Reader.new data).skip unused.length = r1 at *
  rw [readU_at cfg hr1 (by have := heapByte_lt s; omega) h1]
  simp only [Res.ok_bind, Option.bind_some, heapSizeFlags_heapByte, Res.ofOption_some]
  have hr2 := ok_le hr1 h1
  have h2 := rest_le h1
  generalize r1.skip 1 = r2 at *
  have h3 := advance_at cfg hr2 h2
  simp only [List.length_cons, List.length_nil, Nat.zero_add] at h3
  rw [h3]
  simp only [Res.ok_bind]
  have hr3 := ok_at hr2 h2
  have h4 := rest_at h2
  simp only [List.length_cons, List.length_nil, Nat.zero_add] at hr3 h4
  generalize r2.skip 1 = r3 at *
  rw [readU_at cfg hr3 (by have := hf.valid64; omega) h4]
  simp only [Res.ok_bind, Res.ofOption_some]
  have hr4 := ok_le hr3 h4
  have h5 := rest_le h4
  generalize r3.skip 8 = r4 at *
  rw [readU_at cfg hr4 (by have := hf.sorted64; omega) h5]
  simp only [Res.ok_bind, Res.ofOption_some]
  have hr5 := ok_le hr4 h5
  have h6 := rest_le h5
  generalize r4.skip 8 = r5 at *
  have hw4 : ∀ x ∈ (presentTables valid).map (fun i => leBytes 4 (s.rows i)), x.length = 4 := by
    intro x hx
    simp only [List.mem_map] at hx
    obtain ⟨i, _, rfl⟩ := hx
    simp
  have h7 := readArray_at cfg hr5 hw4 h6
  have hfl : (((presentTables valid).map fun i => leBytes 4 (s.rows i)).flatten).length = countOnes valid * 4 := by
    unfold countOnes presentTables
    generalize (List.range 64).filter valid.testBit = l
    induction l with
    | nil => rfl
    | cons a l ih => simp only [List.map_cons, List.flatten_cons, List.length_append, length_leBytes, ih, List.length_cons]; omega
  have hlen : ((presentTables valid).map (fun i => leBytes 4 (s.rows i))).length = countOnes valid := by
    simp [presentTables, countOnes]
  rw [hlen] at h7
  rw [h7]
  simp only [Res.ok_bind, Res.ofOption_some, List.map_map]
  have hmap : ((presentTables valid).map (leNat ∘ fun i => leBytes 4 (s.rows i))) = (presentTables valid).map s.rows := by
    apply List.map_congr_left
    intro i _
    exact leNat_leBytes 4 _ (by have := hf.rows32 i; omega)
  rw [hmap]
  unfold presentTables
  rw [distributeRows_ok]
  simp only [Res.ok_bind]
  refine ⟨_, _, rfl, ?_, ?_, ?_⟩
  · intro i hi
    simp only [List.getElem?_map, List.getElem?_range hi, Option.map_some]
    by_cases hb : valid.testBit i
    · simp [hb]
    · simp [hb, hf.absent i hi (by simpa using hb)]
  · have := ok_at hr5 h6
    rwa [hfl] at this
  · have := rest_at h6
    rwa [hfl] at this

theorem countOnes_le (x : Nat) : countOnes x ≤ 64 := by
  unfold countOnes
  have := List.length_filter_le x.testBit (List.range 64)
  simpa using this

theorem readTableHeader_total (cfg : Cfg) (data : Bytes) (hsize : data.length < 2 ^ 63) :
    (∃ m, readTableHeader cfg data = .err m) ∨ ∃ t r, readTableHeader cfg data = .ok (t, r) ∧ r.Ok := by
  unfold readTableHeader
  simp only
  rw [advance_eq cfg _ 6 (by simp [Reader.new])]
  simp only [Res.ok_bind]
  rcases readU_cases cfg ((Reader.new data).skip 6) 1 (by simp [Reader.new]) with h | ⟨b, h, _, hl⟩
  · rw [h]; exact .inl ⟨_, rfl⟩
  rw [h]
  simp only [Res.ok_bind, Option.bind_some]
  cases heapSizeFlags b with
  | none => exact .inl ⟨_, rfl⟩
  | some fl =>
    simp only [Res.ofOption_some, Res.ok_bind, skip_skip]
    rw [advance_eq cfg _ 1 (by simp [Reader.new])]
    simp only [Res.ok_bind, skip_skip]
    rcases readU_cases cfg ((Reader.new data).skip (6 + 1 + 1)) 8 (by simp [Reader.new]) with h | ⟨valid, h, _, hl2⟩
    · rw [h]; exact .inl ⟨_, rfl⟩
    rw [h]
    simp only [Res.ok_bind, Res.ofOption_some, skip_skip]
    rcases readU_cases cfg ((Reader.new data).skip (6 + 1 + 1 + 8)) 8 (by simp [Reader.new]) with h | ⟨sorted, h, _, hl3⟩
    · rw [h]; exact .inl ⟨_, rfl⟩
    rw [h]
    simp only [Res.ok_bind, Res.ofOption_some, skip_skip]
    have hc := countOnes_le valid
    rcases readArray_cases cfg ((Reader.new data).skip (6 + 1 + 1 + 8 + 8)) 4 (countOnes valid)
      (by simp [Reader.new]; omega) with h | ⟨raw, h, hraw, hl4⟩
    · rw [h]; exact .inl ⟨_, rfl⟩
    rw [h]
    simp only [Res.ok_bind, Res.ofOption_some, skip_skip]
    obtain ⟨l, hd⟩ := distributeRows_returns valid (List.range 64) (raw.map leNat) (by
      rw [List.length_map, hraw]; exact Nat.le_refl _)
    rw [hd]
    refine .inr ⟨_, _, rfl, ?_⟩
    constructor
    · simp only [skip_pos, skip_data, Reader.new] at hl4 ⊢
      omega
    · exact hsize

/-! ### Widths computed from the header -/

theorem mem_codedTables (k : CodedKind) (ty : TableType) :
    some ty ∈ codedTables k ↔ ty ∈ k.tables ∨ (k = .hasCustomAttribute ∧ ty = .declSecurity) := by
  cases k <;> cases ty <;> decide

theorem wideCoded_eq {s : Sizes} {rows : Nat → Nat} (hrows : ∀ i, i < 64 → rows i = s.rows i) (k : CodedKind)
    (hlim : ∀ ty, some ty ∈ codedTables k → s.rows ty.code ≠ 2 ^ (16 - codedBits k))
    (hsec : k = .hasCustomAttribute → s.rows TableType.declSecurity.code < 2 ^ 11) :
    isCodedIndexWide k.largeRowSize k.tables rows = decide (s.codedWidth k = 4) := by
  rw [Bool.eq_iff_iff]
  have hL : k.largeRowSize = 2 ^ (16 - codedBits k) := by rw [tagBits_eq]; rfl
  rw [hL]
  simp only [isCodedIndexWide, List.any_eq_true, decide_eq_true_eq]
  unfold Sizes.codedWidth
  constructor
  · rintro ⟨ty, hm, hgt⟩
    rw [hrows _ (code_lt ty)] at hgt
    rw [if_neg]
    intro hall
    have := hall (some ty) ((mem_codedTables k ty).2 (.inl hm)) ty rfl
    omega
  · intro h
    by_cases hall : ∀ t ∈ codedTables k, ∀ ty, t = some ty → s.rows ty.code < 2 ^ (16 - codedBits k)
    · rw [if_pos hall] at h; omega
    · simp only [Classical.not_forall] at hall
      obtain ⟨t, ht, ty, rfl, hge⟩ := hall
      have hne := hlim ty ht
      rcases (mem_codedTables k ty).1 ht with hm | ⟨rfl, rfl⟩
      · exact ⟨ty, hm, by rw [hrows _ (code_lt ty)]; omega⟩
      · have := hsec rfl
        have e : codedBits .hasCustomAttribute = 5 := by decide
        rw [e] at hge
        omega

theorem heapByte_bits (s : Sizes) : decide (s.heapByte &&& 1 = 1) = s.wideStrings ∧
    decide (s.heapByte &&& 2 = 2) = s.wideGuids ∧ decide (s.heapByte &&& 4 = 4) = s.wideBlobs := by
  have h : ∀ a b c : Bool, let n := (if a then 1 else 0) + (if b then 2 else 0) + (if c then 4 else 0)
      decide (n &&& 1 = 1) = a ∧ decide (n &&& 2 = 2) = b ∧ decide (n &&& 4 = 4) = c := by decide
  exact h _ _ _

theorem wideTable_eq {s : Sizes} {rows : Nat → Nat} (hrows : ∀ i, i < 64 → rows i = s.rows i) (ty : TableType) :
    decide (rows ty.code > 65535) = decide (s.indexWidth ty = 4) := by
  rw [hrows _ (code_lt ty)]
  unfold Sizes.indexWidth
  by_cases h : s.rows ty.code < 2 ^ 16
  · rw [if_pos h]; simp; omega
  · rw [if_neg h]; simp; omega

theorem ofCounts_agree {s : Sizes} {rows : Nat → Nat} (hrows : ∀ i, i < 64 → rows i = s.rows i) (hs : s.Regular) :
    WidthsAgree (TableCtx.ofCounts s.heapByte rows) s where
  rows ty := hrows _ (code_lt ty)
  table ty := wideTable_eq hrows ty
  string := (heapByte_bits s).1
  guid := (heapByte_bits s).2.1
  blob := (heapByte_bits s).2.2
  coded k := wideCoded_eq hrows k (hs.limit k) (fun _ => hs.security)

end Clr
