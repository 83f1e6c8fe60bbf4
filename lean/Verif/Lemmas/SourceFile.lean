import Verif.Spec.Source
import Verif.Props.ReadBack

namespace Clr.Source
open Spec

theorem encFields_length (fs : List (Nat × Nat)) : (encFields fs).length = (fs.map (·.1)).sum := by
  induction fs with
  | nil => rfl
  | cons f fs ih => obtain ⟨w, v⟩ := f; simp [encFields, length_leBytes, ih]

theorem dirs_length (l : List (Nat × Nat)) : ((l.map encDir).flatten).length = 8 * l.length := by
  induction l with
  | nil => rfl
  | cons d l ih =>
    rw [List.map_cons, List.flatten_cons, List.length_append, ih]
    simp only [encDir, List.length_append, length_leBytes, List.length_cons]; omega

theorem image_length (c : Contents) : c.image.enc.length = 288 := by
  have h1 : (encFields c.image.headerFields).length = 20 := by rw [encFields_length]; rfl
  have h2 : (encFields c.image.optFields).length = 96 := by
    rw [encFields_length]
    have : c.image.optFields = (2, 0x10b) :: (List.zip (optWidths false) (List.replicate 28 0) ++ [(4, 16)]) := rfl
    rw [this]; decide
  have h3 : ((c.image.sections.map Section.enc).flatten).length = 40 := by
    simp only [Contents.image, List.map_cons, List.map_nil, List.flatten_cons, List.flatten_nil, List.append_nil, Section.enc, List.length_append,
      encFields_length]
    rfl
  have h4 : c.image.dirs.length = 16 := rfl
  simp only [Image.enc, List.length_append, h1, h2, h3, dirs_length, h4, List.length_cons, List.length_nil]

theorem cli_length (c : Contents) : c.cli.enc.length = 72 := by
  simp only [Cli.enc, List.length_append, encFields_length, dirs_length]
  rfl

theorem root_length (c : Contents) : c.root.enc.length = 92 := by
  have h1 : (utf8 "v4.0".toList).length = 4 := by decide
  have h2 : (utf8 "#~".toList).length = 2 := by decide
  have h3 : (utf8 "#Strings".toList).length = 8 := by decide
  have h4 : (utf8 "#Blob".toList).length = 5 := by decide
  have h5 : (utf8 "#GUID".toList).length = 5 := by decide
  simp only [Root.enc, Contents.root, List.length_append, length_leBytes, List.length_replicate, List.length_flatten, List.map_cons, List.map_nil,
    Stream.enc, namePad, h1, h2, h3, h4, h5, List.sum_cons, List.sum_nil, List.length_cons, List.length_nil]
  rfl

/-- The part of a file. -/
theorem part_of {data : Bytes} {off size : Nat} (pre mid post : Bytes) (h : data = pre ++ (mid ++ post)) (h1 : pre.length = off) (h2 : mid.length = size) :
    part data off size = mid := by
  subst h h1 h2
  simp [part]

structure Contents.Fits (c : Contents) : Prop where
  size : c.bodies.length + c.metadata.length < 2 ^ 31
  entry : c.entry < 2 ^ 32
  header : HeaderFits c.sizes [0, 0, 0, 0, 2, 0] c.valid 0

def Contents.parts (c : Contents) (x : Tables) : FileParts := ⟨c.image, c.cli, c.strings, c.blob, c.guid, none, c.sizes, x⟩

def Contents.pre (c : Contents) : Bytes :=
  [0x4d, 0x5a] ++ (List.replicate 58 0 ++ (leBytes 4 0x40 ++ (c.image.enc ++ List.replicate (0x200 - (64 + c.image.enc.length)) 0)))

theorem pre_length (c : Contents) : c.pre.length = 0x200 := by
  simp only [Contents.pre, image_length, length_leBytes, List.length_append, List.length_replicate, List.length_cons, List.length_nil]

theorem file_eq (c : Contents) : c.file = c.pre ++ (c.bodies ++ (c.cli.enc ++ c.metadata)) := by
  simp [Contents.file, Contents.pre]

theorem file_length (c : Contents) : c.file.length = 0x200 + (c.bodies.length + (72 + c.metadata.length)) := by
  rw [file_eq]; simp [pre_length, cli_length]

theorem metadata_length (c : Contents) : c.metadata.length = 92 + (c.tableStream.length + (c.strings.length + (c.blob.length + c.guid.length))) := by
  simp [Contents.metadata, root_length]

theorem written {c : Contents} (hc : c.Fits) {x : Tables} (hx : IsTables c.sizes c.rows x) : (c.parts x).Written c.file := by
  have hml := metadata_length c
  have hsize := hc.size
  refine ⟨0x40, 0x200 + c.bodies.length + 72, c.root, c.tableStream ++ (c.strings ++ (c.blob ++ c.guid)),
    ⟨(92 + c.tableStream.length, c.strings.length), (92 + c.tableStream.length + c.strings.length, c.blob.length),
      (92 + c.tableStream.length + c.strings.length + c.blob.length, c.guid.length), (92, c.tableStream.length), none⟩, ?_, ?_, ?_, ?_, ?_⟩
  · have hs : ∀ s ∈ c.image.sections, s = c.image.sections.headD ⟨[], 0, 0, 0, 0, 0, 0, 0, 0, 0⟩ := by
      intro s hs; exact List.mem_singleton.mp hs
    refine ⟨?_, ?_, ?_, ?_, ?_, ?_, ?_, ?_⟩
    · rw [file_length]; omega
    · refine ⟨?_, ?_, ?_, ?_, ?_⟩
      · unfold FitsAll; intro f hf
        simp only [Image.headerFields, Contents.parts, Contents.image, List.mem_cons, List.not_mem_nil, or_false, List.length_cons, List.length_nil] at hf
        rcases hf with rfl | rfl | rfl | rfl | rfl | rfl | rfl <;> decide
      · have : (c.parts x).image.optFields = (2, 0x10b) :: (List.zip (optWidths false) (List.replicate 28 0) ++ [(4, 16)]) := rfl
        rw [this]; decide
      · rfl
      · intro d hd
        simp only [Contents.parts, Contents.image, List.mem_append, List.mem_replicate, List.mem_cons, List.not_mem_nil, or_false] at hd
        rcases hd with ⟨-, rfl⟩ | rfl | rfl
        · decide
        · constructor
          · show 0x2000 + c.bodies.length < 2 ^ 32; omega
          · show 72 < 2 ^ 32; decide
        · decide
      · intro s hs
        rw [List.mem_singleton.mp hs]
        refine ⟨rfl, ?_⟩
        intro f hf
        simp only [Section.fields, List.mem_cons, List.not_mem_nil, or_false] at hf
        rcases hf with rfl | rfl | rfl | rfl | rfl | rfl | rfl | rfl | rfl
        · show c.bodies.length + 72 + c.metadata.length < 256 ^ 4; omega
        · decide
        · show c.bodies.length + 72 + c.metadata.length < 256 ^ 4; omega
        all_goals decide
    · refine ⟨rfl, ?_, by decide, List.replicate (0x200 - (64 + c.image.enc.length)) 0 ++ (c.bodies ++ (c.cli.enc ++ c.metadata)), ?_⟩
      · exact part_of ([0x4d, 0x5a] ++ List.replicate 58 0) (leBytes 4 0x40) _ (by rw [Contents.file, List.append_assoc]) (by decide) (by rw [length_leBytes])
      · have : c.file = ([0x4d, 0x5a] ++ (List.replicate 58 0 ++ leBytes 4 0x40)) ++ (c.image.enc ++
          (List.replicate (0x200 - (64 + c.image.enc.length)) 0 ++ (c.bodies ++ (c.cli.enc ++ c.metadata)))) := by
          rw [Contents.file]; simp only [List.append_assoc]
        rw [this]
        exact List.drop_left' (by simp [length_leBytes])
    · refine ⟨?_, ?_⟩
      · intro s hs
        rw [List.mem_singleton.mp hs]
        refine ⟨?_, ?_⟩
        · show 0x2000 + (c.bodies.length + 72 + c.metadata.length) < _; omega
        · show 0x200 + (c.bodies.length + 72 + c.metadata.length) ≤ _; omega
      · intro _ s hs t ht _ _
        rw [List.mem_singleton.mp hs, List.mem_singleton.mp ht]
    · refine ⟨?_, rfl, ?_⟩
      · intro f hf
        simp only [Cli.fields, Contents.parts, Contents.cli, List.mem_cons, List.not_mem_nil, or_false] at hf
        have := hc.entry
        rcases hf with rfl | rfl | rfl | rfl | rfl | rfl | rfl | rfl | rfl
        · decide
        · decide
        · decide
        · show 0x2000 + c.bodies.length + 72 < 256 ^ 4; omega
        · show c.metadata.length < 256 ^ 4; omega
        · decide
        · show c.entry < 256 ^ 4; omega
        · decide
        · decide
      · intro d hd
        simp only [Contents.parts, Contents.cli, List.mem_replicate] at hd
        rw [hd.2]; decide
    · refine ⟨0x2000 + c.bodies.length, 72, 0x200 + c.bodies.length, c.metadata, rfl, ⟨_, List.mem_singleton.mpr rfl, ⟨?_, ?_⟩, ?_⟩, ?_⟩
      · show 0x2000 ≤ 0x2000 + c.bodies.length; omega
      · show 0x2000 + c.bodies.length < 0x2000 + (c.bodies.length + 72 + c.metadata.length); omega
      · show 0x200 + c.bodies.length = 0x200 + (0x2000 + c.bodies.length - 0x2000); omega
      · rw [file_eq, ← List.append_assoc]
        exact List.drop_left' (by simp [pre_length])
    · refine ⟨_, List.mem_singleton.mpr rfl, ⟨?_, ?_⟩, ?_⟩
      · show 0x2000 ≤ 0x2000 + c.bodies.length + 72; omega
      · show 0x2000 + c.bodies.length + 72 < 0x2000 + (c.bodies.length + 72 + c.metadata.length); omega
      · show 0x200 + c.bodies.length + 72 = 0x200 + (0x2000 + c.bodies.length + 72 - 0x2000); omega
    · show 0x200 + c.bodies.length + 72 + c.metadata.length ≤ c.file.length
      rw [file_length]; omega
  · refine ⟨rfl, rfl, by show 8 < 2 ^ 32; decide, by show 8 % 4 = 0; rfl, by show (utf8 "v4.0".toList).length ≤ 8; decide, by show _ ∉ "v4.0".toList; decide, by show 4 < 2 ^ 16; decide, ?_⟩
    intro s hs
    simp only [Contents.root, List.mem_cons, List.not_mem_nil, or_false] at hs
    rcases hs with rfl | rfl | rfl | rfl
    · exact ⟨by show 92 < _; decide, by show c.tableStream.length < _; omega, by show _ ∉ "#~".toList; decide⟩
    · exact ⟨by show 92 + c.tableStream.length < _; omega, by show c.strings.length < _; omega, by show _ ∉ "#Strings".toList; decide⟩
    · exact ⟨by show 92 + c.tableStream.length + c.strings.length < _; omega, by show c.blob.length < _; omega, by show _ ∉ "#Blob".toList; decide⟩
    · exact ⟨by show 92 + c.tableStream.length + c.strings.length + c.blob.length < _; omega, by show c.guid.length < _; omega, by show _ ∉ "#GUID".toList; decide⟩
  · exact part_of (c.pre ++ (c.bodies ++ c.cli.enc)) _ [] (by rw [file_eq]; simp [Contents.metadata]) (by simp [pre_length, cli_length]; omega) (by rw [← Contents.metadata]; rfl)
  · have ne1 : "#~".toList ≠ "#Strings".toList := by decide
    have ne2 : "#~".toList ≠ "#Blob".toList := by decide
    have ne3 : "#~".toList ≠ "#GUID".toList := by decide
    have ne4 : "#Strings".toList ≠ "#Blob".toList := by decide
    have ne5 : "#Strings".toList ≠ "#GUID".toList := by decide
    have ne6 : "#Blob".toList ≠ "#GUID".toList := by decide
    have hin : ∀ s ∈ c.root.streams, s = ⟨"#~".toList, 92, c.tableStream.length⟩ ∨ s = ⟨"#Strings".toList, 92 + c.tableStream.length, c.strings.length⟩ ∨
      s = ⟨"#Blob".toList, 92 + c.tableStream.length + c.strings.length, c.blob.length⟩ ∨
      s = ⟨"#GUID".toList, 92 + c.tableStream.length + c.strings.length + c.blob.length, c.guid.length⟩ := by
      intro s hs
      simpa only [Contents.root, List.mem_cons, List.not_mem_nil, or_false] using hs
    refine ⟨?_, ⟨⟨?_, ?_⟩, ?_⟩, ⟨⟨?_, ?_⟩, ?_⟩, ⟨⟨?_, ?_⟩, ?_⟩, ⟨⟨?_, ?_⟩, ?_⟩, ?_⟩
    · intro s hs
      rcases hin s hs with rfl | rfl | rfl | rfl <;> (simp only [knownStreams]; simp)
    · simp [Contents.root]
    · intro s hs hn
      rcases hin s hs with rfl | rfl | rfl | rfl <;> first | rfl | (exact absurd hn (by assumption)) | (exact absurd hn.symm (by assumption))
    · show 92 + c.tableStream.length + c.strings.length ≤ c.metadata.length; omega
    · simp [Contents.root]
    · intro s hs hn
      rcases hin s hs with rfl | rfl | rfl | rfl <;> first | rfl | (exact absurd hn (by assumption)) | (exact absurd hn.symm (by assumption))
    · show 92 + c.tableStream.length + c.strings.length + c.blob.length ≤ c.metadata.length; omega
    · simp [Contents.root]
    · intro s hs hn
      rcases hin s hs with rfl | rfl | rfl | rfl <;> first | rfl | (exact absurd hn (by assumption)) | (exact absurd hn.symm (by assumption))
    · show 92 + c.tableStream.length + c.strings.length + c.blob.length + c.guid.length ≤ c.metadata.length; omega
    · simp [Contents.root]
    · intro s hs hn
      rcases hin s hs with rfl | rfl | rfl | rfl <;> first | rfl | (exact absurd hn (by assumption)) | (exact absurd hn.symm (by assumption))
    · show 92 + c.tableStream.length ≤ c.metadata.length; omega
    · intro s hs
      rcases hin s hs with rfl | rfl | rfl | rfl <;> (show String.toList _ ≠ _; decide)
  · have hmeta : part c.file (0x200 + c.bodies.length + 72) (c.parts x).cli.metadata.2 = c.metadata :=
      part_of (c.pre ++ (c.bodies ++ c.cli.enc)) _ [] (by rw [file_eq]; simp) (by simp [pre_length, cli_length]; omega) rfl
    rw [hmeta]
    refine ⟨?_, ?_, ?_, rfl, [0, 0, 0, 0, 2, 0], 1, c.valid, 0, c.rows, List.replicate ((4 - (encTableHeader c.sizes [0, 0, 0, 0, 2, 0] 1 c.valid 0 ++ c.rows).length % 4) % 4) 0, hc.header, hx, ?_⟩
    · exact part_of (c.root.enc ++ c.tableStream) _ (c.blob ++ c.guid) (by simp [Contents.metadata]; rfl) (by simp [root_length]) rfl
    · exact part_of (c.root.enc ++ (c.tableStream ++ c.strings)) _ c.guid (by simp [Contents.metadata]; rfl) (by simp [root_length]; omega) rfl
    · exact part_of (c.root.enc ++ (c.tableStream ++ (c.strings ++ c.blob))) _ [] (by simp [Contents.metadata]; rfl) (by simp [root_length]; omega) rfl
    · rw [part_of (c.root.enc) c.tableStream (c.strings ++ (c.blob ++ c.guid)) (by simp [Contents.metadata]) (by simp [root_length]) rfl]
      simp [Contents.tableStream, pad4]; rfl

end Clr.Source
