import Verif.Model.Pe
import Verif.Spec.PeFormat
import Verif.Lemmas.Reader
/-! # Lemmas about PE parsing -/

namespace Clr
open Spec Reader

theorem decodeFields_encFields (fs : List (Nat × Nat)) (t : Bytes) (h : FitsAll fs) :
    decodeFields (fs.map Prod.fst) (encFields fs ++ t) = fs.map Prod.snd := by
  induction fs with
  | nil => rfl
  | cons f fs ih =>
    obtain ⟨w, v⟩ := f
    have hv : v < 256 ^ w := h (w, v) (by simp)
    have ih' := ih (fun f hf => h f (by simp [hf]))
    simp only [List.map_cons, encFields, List.append_assoc, decodeFields]
    have h1 : (leBytes w v ++ (encFields fs ++ t)).take w = leBytes w v := by
      rw [List.take_append_of_le_length (by simp), List.take_of_length_le (by simp)]
    have h2 : (leBytes w v ++ (encFields fs ++ t)).drop w = encFields fs ++ t := by
      rw [List.drop_append_of_le_length (by simp), List.drop_of_length_le (by simp)]; rfl
    rw [h1, h2, leNat_leBytes w v hv, ih']

theorem length_encFields (fs : List (Nat × Nat)) :
    (encFields fs).length = (fs.map Prod.fst).sum := by
  induction fs with
  | nil => rfl
  | cons f fs ih => obtain ⟨w, v⟩ := f; simp [encFields, ih]

@[simp] theorem length_decodeFields (ws : List Nat) (bs : Bytes) :
    (decodeFields ws bs).length = ws.length := by
  induction ws generalizing bs with
  | nil => rfl
  | cons w ws ih => simp [decodeFields, ih]

theorem decodeFields_lt (ws : List Nat) (bs : Bytes) (k : Nat) (h : ∀ w ∈ ws, w ≤ k) :
    ∀ v ∈ decodeFields ws bs, v < 256 ^ k := by
  induction ws generalizing bs with
  | nil => simp [decodeFields]
  | cons w ws ih =>
    intro v hv
    simp only [decodeFields, List.mem_cons] at hv
    rcases hv with rfl | hv
    · have h1 := leNat_lt (bs.take w)
      have h2 : (bs.take w).length ≤ k := by
        have := h w (by simp)
        simp; omega
      exact Nat.lt_of_lt_of_le h1 (Nat.pow_le_pow_right (by omega) h2)
    · exact ih (bs.drop w) (fun w hw => h w (by simp [hw])) v hv

theorem leNat_take_lt (bs : Bytes) (w : Nat) : leNat (bs.take w) < 256 ^ w := by
  have h1 := leNat_lt (bs.take w)
  exact Nat.lt_of_lt_of_le h1 (Nat.pow_le_pow_right (by omega) (by simp; omega))

theorem numberOfSections_lt (bs : Bytes) : (PeHeader.ofBytes bs).numberOfSections < 2 ^ 16 := by
  have := leNat_take_lt (bs.drop 2) 2
  simpa [PeHeader.ofBytes, decodeFields, peHeaderWidths] using this

theorem numDirs32_lt (bs : Bytes) : (PeOptionalHeader.ofBytes32 bs).numberOfDataDirectories < 2 ^ 32 := by
  have := leNat_take_lt (bs.drop 92) 4
  simpa [PeOptionalHeader.ofBytes32, PeOptionalHeader.numberOfDataDirectories] using this

theorem numDirs64_lt (bs : Bytes) : (PeOptionalHeader.ofBytes64 bs).numberOfDataDirectories < 2 ^ 32 := by
  have := leNat_take_lt (bs.drop 108) 4
  simpa [PeOptionalHeader.ofBytes64, PeOptionalHeader.numberOfDataDirectories] using this

/-- The tail of `parse_pe` after the optional header. -/
theorem parsePe_tail_returns (cfg : Cfg) (r : Reader) (n m : Nat) (hn : n < 2 ^ 32) (hm : m < 2 ^ 16)
    (hr : r.pos ≤ r.data.length) (hl : r.data.length < 2 ^ 63) (f : List Bytes → List Bytes → PeInfo) :
    Res.Returns (do
      let (dirs, r) ← r.readArray cfg 8 n
      let dirs ← Res.ofOption "Invalid PE file" dirs
      let (secs, _) ← r.readArray cfg 40 m
      let secs ← Res.ofOption "Invalid PE file" secs
      pure (f dirs secs)) := by
  rcases readArray_cases cfg r 8 n (by omega) with h | ⟨xs, h, _, hp⟩
  · simp [h]
  · simp only [h, Res.ok_bind, Res.ofOption_some]
    rcases readArray_cases cfg (r.skip (n * 8)) 40 m (by simp; omega) with h | ⟨ys, h, _, hp⟩
    · simp [h]
    · simp [h]

theorem parsePe_returns (cfg : Cfg) (data : Bytes) (hl : data.length < 2 ^ 63) :
    (parsePe cfg data).Returns := by
  unfold parsePe
  have h0 : (Reader.new data).data = data := rfl
  have h0p : (Reader.new data).pos = 0 := rfl
  simp only
  rw [peekArray_eq cfg (Reader.new data) 1 2 (by rw [h0p]; omega)]
  generalize (if (Reader.new data).pos + 2 * 1 < (Reader.new data).data.length then
    some (chunks 1 2 ((Reader.new data).rest.take (2 * 1))) else none) = mz
  simp only [Res.ok_bind]
  split
  · simp
  · have e1 : ((Reader.new data).goto 0x3c).2 = ⟨data, 0x3c⟩ := rfl
    simp only [e1]
    rcases peekU_cases cfg ⟨data, 0x3c⟩ 4 (by simp) with h | ⟨off, h, hoff, hp⟩
    · simp [h]
    · simp only [h, Res.ok_bind]
      have e2 : ((Reader.mk data 0x3c).goto off).2 = ⟨data, off⟩ := rfl
      simp only [e2]
      rcases readArray_cases cfg ⟨data, off⟩ 1 4 (by simp at *; omega) with h | ⟨sg, h, _, hp⟩
      · simp [h]
      · simp only [h, Res.ok_bind]
        split
        · simp
        · generalize hr2 : (Reader.mk data off).skip (4 * 1) = r2
          have hd2 : r2.data = data := by rw [← hr2]; rfl
          have hp2 : r2.pos ≤ r2.data.length := by rw [← hr2]; exact hp
          have hl2 : r2.data.length < 2 ^ 63 := by rw [hd2]; exact hl
          rcases read_cases cfg r2 20 (by omega) with h | ⟨hb, h, _, hp3⟩
          · simp [h]
          · simp only [h, Res.ok_bind, Option.map_some, Res.ofOption_some]
            rcases peekU_cases cfg (r2.skip 20) 2 (by simp; omega) with h | ⟨magic, h, _, _⟩
            · simp [h]
            · simp only [h, Res.ok_bind, Res.ofOption_some]
              split
              · rcases read_cases cfg (r2.skip 20) 96 (by simp; omega) with h | ⟨ob, h, _, hp4⟩
                · simp [h]
                · simp only [h, Res.ok_bind, Res.ofOption_some, Res.pure_eq]
                  exact parsePe_tail_returns cfg ((r2.skip 20).skip 96) _ _ (numDirs32_lt ob) (numberOfSections_lt hb) hp4 hl2 _
              · split
                · rcases read_cases cfg (r2.skip 20) 112 (by simp; omega) with h | ⟨ob, h, _, hp4⟩
                  · simp [h]
                  · simp only [h, Res.ok_bind, Res.ofOption_some, Res.pure_eq]
                    exact parsePe_tail_returns cfg ((r2.skip 20).skip 112) _ _ (numDirs64_lt ob) (numberOfSections_lt hb) hp4 hl2 _
                · simp


/-! ### Round trip -/

theorem PeHeader_ofBytes_enc (i : Image) (h : FitsAll i.headerFields) :
    PeHeader.ofBytes (encFields i.headerFields) =
      ⟨i.machine, i.sections.length, i.timestamp, i.symbolTable, i.symbolCount, i.optSize, i.characteristics⟩ := by
  have := decodeFields_encFields i.headerFields [] h
  simp only [List.append_nil] at this
  have hw : i.headerFields.map Prod.fst = peHeaderWidths := rfl
  rw [hw] at this
  simp only [PeHeader.ofBytes, this]
  rfl

theorem PeSection_ofBytes_enc (s : Section) (h : s.Legal) :
    PeSection.ofBytes s.enc =
      ⟨s.name, s.virtualSize, s.virtualAddress, s.rawSize, s.rawPointer, s.relocPointer, s.linePointer,
        s.relocCount, s.lineCount, s.flags⟩ := by
  have := decodeFields_encFields s.fields [] h.2
  simp only [List.append_nil] at this
  have hw : s.fields.map Prod.fst = [4, 4, 4, 4, 4, 4, 2, 2, 4] := rfl
  rw [hw] at this
  have hd : s.enc.drop 8 = encFields s.fields := by
    simp [Section.enc, ← h.1]
  have ht : s.enc.take 8 = s.name := by
    simp [Section.enc, ← h.1]
  simp only [PeSection.ofBytes, hd, this, ht]
  rfl

theorem RvaAndSize_ofBytes_enc (d : Nat × Nat) (h : d.1 < 2 ^ 32 ∧ d.2 < 2 ^ 32) :
    RvaAndSize.ofBytes (encDir d) = ⟨d.1, d.2⟩ := by
  have h1 : (encDir d).take 4 = leBytes 4 d.1 := by
    rw [encDir, List.take_append_of_le_length (by simp), List.take_of_length_le (by simp)]
  have h2 : (encDir d).drop 4 = leBytes 4 d.2 := by
    rw [encDir, List.drop_append_of_le_length (by simp), List.drop_of_length_le (by simp)]; rfl
  simp only [RvaAndSize.ofBytes, h1, h2, List.take_of_length_le (show (leBytes 4 d.2).length ≤ 4 by simp)]
  rw [leNat_leBytes 4 _ (by simpa using h.1), leNat_leBytes 4 _ (by simpa using h.2)]

theorem zip_fst {α β : Type} (a : List α) (b : List β) (h : b.length = a.length) :
    (a.zip b).map Prod.fst = a := by
  rw [List.map_fst_zip]; omega
theorem zip_snd {α β : Type} (a : List α) (b : List β) (h : b.length = a.length) :
    (a.zip b).map Prod.snd = b := by
  rw [List.map_snd_zip]; omega

theorem encFields_append (a b : List (Nat × Nat)) : encFields (a ++ b) = encFields a ++ encFields b := by
  induction a with
  | nil => rfl
  | cons f a ih => obtain ⟨w, v⟩ := f; simp [encFields, ih]

/-- The optional header splits into the fields before the directory count, and the count. -/
theorem optFields_split (i : Image) :
    encFields i.optFields =
      encFields ((2, optMagic i.plus) :: List.zip (optWidths i.plus) i.opt) ++ leBytes 4 i.dirs.length := by
  rw [Image.optFields, ← List.cons_append, encFields_append]; simp [encFields]

theorem optHeader_ofBytes (i : Image) (h : i.Legal) :
    (if i.plus then PeOptionalHeader.ofBytes64 (encFields i.optFields)
      else PeOptionalHeader.ofBytes32 (encFields i.optFields)) =
    (if i.plus then .pe64 (0x20b :: i.opt) i.dirs.length else .pe32 (0x10b :: i.opt) i.dirs.length) ∧
    (encFields i.optFields).length = (if i.plus then 112 else 96) := by
  obtain ⟨_, hf, hlen, _, _⟩ := h
  have hd : i.dirs.length < 256 ^ 4 := hf (4, i.dirs.length) (by simp [Image.optFields])
  have hf' : FitsAll ((2, optMagic i.plus) :: List.zip (optWidths i.plus) i.opt) := by
    intro f hf1
    apply hf f
    rw [Image.optFields, ← List.cons_append]
    exact List.mem_append_left _ hf1
  have hdec := decodeFields_encFields _ (leBytes 4 i.dirs.length) hf'
  rw [← optFields_split] at hdec
  rw [List.map_cons, List.map_cons, zip_fst _ _ hlen, zip_snd _ _ hlen] at hdec
  have hl1 := length_encFields ((2, optMagic i.plus) :: List.zip (optWidths i.plus) i.opt)
  rw [List.map_cons, zip_fst _ _ hlen] at hl1
  have hlast : ∀ k, k = (encFields ((2, optMagic i.plus) :: List.zip (optWidths i.plus) i.opt)).length →
      leNat (((encFields i.optFields).drop k).take 4) = i.dirs.length := by
    intro k hk
    rw [optFields_split, hk]
    simp only [List.drop_left]
    rw [List.take_of_length_le (by simp), leNat_leBytes _ _ hd]
  constructor
  · cases hp : i.plus
    · simp only [hp, optWidths] at hl1 hdec
      simp only [PeOptionalHeader.ofBytes32, Bool.false_eq_true, if_false]
      rw [hlast 92 (by rw [hp, optWidths, hl1]; rfl)]
      rw [show pe32Widths = [2, 1, 1, 4, 4, 4, 4, 4, 4, 4, 4, 4, 2, 2, 2, 2, 2, 2, 4, 4, 4, 4, 2, 2, 4, 4, 4, 4, 4] from rfl,
        hdec]
      rfl
    · simp only [hp, optWidths] at hl1 hdec
      simp only [PeOptionalHeader.ofBytes64, if_true]
      rw [hlast 108 (by rw [hp, optWidths, hl1]; rfl)]
      rw [show pe64Widths = [2, 1, 1, 4, 4, 4, 4, 4, 8, 4, 4, 2, 2, 2, 2, 2, 2, 4, 4, 4, 4, 2, 2, 8, 8, 8, 8, 4] from rfl,
        hdec]
      rfl
  · rw [optFields_split, List.length_append, hl1, length_leBytes]
    cases hp : i.plus <;> rfl

/-- What `parse_pe` returns for an image. -/
def infoOf (i : Image) : PeInfo where
  header := ⟨i.machine, i.sections.length, i.timestamp, i.symbolTable, i.symbolCount, i.optSize, i.characteristics⟩
  optionalHeader := if i.plus then .pe64 (0x20b :: i.opt) i.dirs.length else .pe32 (0x10b :: i.opt) i.dirs.length
  dataDirectories := i.dirs.map (fun d => ⟨d.1, d.2⟩)
  sections := i.sections.map (fun s =>
    ⟨s.name, s.virtualSize, s.virtualAddress, s.rawSize, s.rawPointer, s.relocPointer, s.linePointer,
      s.relocCount, s.lineCount, s.flags⟩)

theorem parsePe_enc (cfg : Cfg) (data : Bytes) (off : Nat) (i : Image) (hl : data.length < 2 ^ 63)
    (hi : i.Legal) (hf : IsPeFile data off i) : parsePe cfg data = .ok (infoOf i) := by
  obtain ⟨hmz, hoffb, hoff, rst, hrst⟩ := hf
  have hi' := hi
  obtain ⟨hh, ho, holen, hdirs, hsecs⟩ := hi
  -- sizes
  have hlen64 : 0x3c + 4 ≤ data.length := by
    have := congrArg List.length hoffb
    simp at this; omega
  have hhl : (encFields i.headerFields).length = 20 := by rw [length_encFields]; rfl
  obtain ⟨hopt, hol⟩ := optHeader_ofBytes i hi'
  unfold parsePe
  simp only
  have hmz' : (Reader.new data).peekArray cfg 1 2 = .ok (some [[0x4d], [0x5a]]) := by
    rw [peekArray_eq cfg _ 1 2 (by show 0 + 2 * 1 < _; decide), if_pos (by show 0 + 2 * 1 < data.length; omega)]
    have : (Reader.new data).rest.take (2 * 1) = [0x4d, 0x5a] := by rw [rest_new]; exact hmz
    rw [this]; rfl
  rw [hmz']
  simp only [Res.ok_bind, ne_eq, not_true_eq_false, if_false]
  have e1 : ((Reader.new data).goto 0x3c).2 = ⟨data, 0x3c⟩ := rfl
  simp only [e1]
  have hpk : (Reader.mk data 0x3c).peekU cfg 4 = .ok (some off) := by
    apply peekU_at cfg (n := off) (t := data.drop (0x3c + 4)) ⟨by show 0x3c ≤ data.length; omega, hl⟩ (by simpa using hoff)
    show data.drop 0x3c = _
    rw [← hoffb, ← List.drop_drop, List.take_append_drop]
  rw [hpk]
  simp only [Res.ok_bind]
  have e2 : ((Reader.mk data 0x3c).goto off).2 = ⟨data, off⟩ := rfl
  simp only [e2]
  -- the header block
  have hoffle : off ≤ data.length := by
    have := congrArg List.length hrst
    simp [Image.enc] at this; omega
  have hr0 : (Reader.mk data off).Ok := ⟨hoffle, hl⟩
  have hrest0 : (Reader.mk data off).rest =
      ([[0x50], [0x45], [0], [0]] : List Bytes).flatten ++ (encFields i.headerFields ++ (encFields i.optFields ++
        ((i.dirs.map encDir).flatten ++ ((i.sections.map Section.enc).flatten ++ rst)))) := by
    show data.drop off = _
    rw [hrst, Image.enc]; simp
  have hs := readArray_at cfg (w := 1) hr0 (by simp) hrest0
  rw [show ([[0x50], [0x45], [0], [0]] : List Bytes).length = 4 from rfl] at hs
  rw [hs]
  simp only [Res.ok_bind, not_true_eq_false, if_false]
  generalize hr1d : (Reader.mk data off).skip (4 * 1) = r1
  have hr1 : r1.Ok := by rw [← hr1d]; exact ok_at hr0 hrest0
  have hrest1 : r1.rest = encFields i.headerFields ++ (encFields i.optFields ++
        ((i.dirs.map encDir).flatten ++ ((i.sections.map Section.enc).flatten ++ rst))) := by
    rw [← hr1d]; exact rest_at hrest0
  clear hr0 hrest0 hs hr1d
  have h1 := read_at cfg hr1 hrest1
  have hr2 := ok_at hr1 hrest1
  have hrest2 := rest_at hrest1
  rw [hhl] at h1 hr2 hrest2
  rw [h1]
  simp only [Res.ok_bind, Option.map_some, Res.ofOption_some, PeHeader_ofBytes_enc i hh]
  generalize r1.skip 20 = r2 at *
  have hmag : r2.peekU cfg 2 = .ok (some (optMagic i.plus)) := by
    apply peekU_at cfg hr2 (n := optMagic i.plus)
      (t := encFields (List.zip (optWidths i.plus) i.opt) ++ leBytes 4 i.dirs.length ++ ((i.dirs.map encDir).flatten ++
        ((i.sections.map Section.enc).flatten ++ rst)))
    · cases i.plus <;> decide
    · rw [hrest2, optFields_split]; simp [encFields]
  rw [hmag]
  simp only [Res.ok_bind, Res.ofOption_some]
  have h2 := read_at cfg hr2 hrest2
  have hr3 := ok_at hr2 hrest2
  have hrest3 := rest_at hrest2
  rw [hol] at h2 hr3 hrest3
  -- the two formats
  have hstep : (if optMagic i.plus = 0x10b then do
            let (ob, r) ← r2.read cfg 96
            let ob ← Res.ofOption "Invalid PE file" ob
            pure (PeOptionalHeader.ofBytes32 ob, r)
          else if optMagic i.plus = 0x20b then do
            let (ob, r) ← r2.read cfg 112
            let ob ← Res.ofOption "Invalid PE file" ob
            pure (PeOptionalHeader.ofBytes64 ob, r)
          else .err "Invalid PE file") =
        (Res.ok ((infoOf i).optionalHeader, r2.skip (if i.plus then 112 else 96)) : Res (PeOptionalHeader × Reader)) := by
    cases hp : i.plus
    · simp only [hp, Bool.false_eq_true, if_false] at h2 hopt
      simp [optMagic, h2, hopt, infoOf, hp]
    · simp only [hp, if_true] at h2 hopt
      simp [optMagic, h2, hopt, infoOf, hp]
  rw [hstep]
  simp only [Res.ok_bind]
  generalize r2.skip (if i.plus then 112 else 96) = r3 at *
  have hnd : (infoOf i).optionalHeader.numberOfDataDirectories = (i.dirs.map encDir).length := by
    cases hp : i.plus <;> simp [infoOf, hp, PeOptionalHeader.numberOfDataDirectories]
  rw [hnd]
  have hdw : ∀ x ∈ i.dirs.map encDir, x.length = 8 := by
    intro x hx
    obtain ⟨d, _, rfl⟩ := List.mem_map.mp hx
    simp [encDir]
  rw [readArray_at cfg hr3 hdw hrest3]
  simp only [Res.ok_bind, Res.ofOption_some]
  have hflat : ((i.dirs.map encDir).flatten).length = (i.dirs.map encDir).length * 8 := by
    have : ∀ l : List Bytes, (∀ x ∈ l, x.length = 8) → l.flatten.length = l.length * 8 := by
      intro l hl
      induction l with
      | nil => rfl
      | cons x l ih =>
        simp only [List.flatten_cons, List.length_append, List.length_cons, Nat.succ_mul]
        rw [ih (fun y hy => hl y (by simp [hy])), hl x (by simp)]; omega
    exact this _ hdw
  have hr4 := ok_at hr3 hrest3
  have hrest4 := rest_at hrest3
  rw [hflat] at hr4 hrest4
  have hsw : ∀ x ∈ i.sections.map Section.enc, x.length = 40 := by
    intro x hx
    obtain ⟨s, hs, rfl⟩ := List.mem_map.mp hx
    have := (hsecs s hs).1
    simp [Section.enc, this, length_encFields, Section.fields]
  have h4 := readArray_at cfg hr4 hsw hrest4
  have hns : (i.sections.map Section.enc).length = i.sections.length := by simp
  rw [hns] at h4
  simp only [h4, Res.ok_bind, Res.ofOption_some, Res.pure_eq, List.map_map]
  congr 1
  unfold infoOf
  congr 1
  · apply List.map_congr_left
    intro d hd
    exact RvaAndSize_ofBytes_enc d (hdirs d hd)
  · apply List.map_congr_left
    intro s hs
    exact PeSection_ofBytes_enc s (hsecs s hs)

end Clr
