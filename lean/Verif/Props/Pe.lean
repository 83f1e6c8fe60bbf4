import Verif.Lemmas.Pe
/-! # C05–C08: PE images -/

namespace Clr
open Spec

/-! ## C05 -/

/-- **C05.** Parsing any byte string returns an image or an error, in both build modes: no panic, no read outside the
input. -/
theorem C05_parse_total (cfg : Cfg) (data : Bytes) (hlen : data.length < 2 ^ 63) :
    (∃ info, parsePe cfg data = .ok info) ∨ (∃ m, parsePe cfg data = .err m) :=
  parsePe_returns cfg data hlen

/-- A hostile header: the offset at 0x3c points far outside the file. -/
example : parsePe Cfg.debug ([0x4d, 0x5a] ++ List.replicate 58 0 ++ [0xff, 0xff, 0xff, 0xff]) =
    .err "Invalid PE file" := by decide +kernel
example : parsePe Cfg.release [] = .err "Not a PE file" := by decide

/-! ## C06 -/

/-- **C06.** A file that holds the encoding of image `i` at header offset `off` parses to exactly the header fields,
data directories and sections of `i`. -/
theorem C06_round_trip (cfg : Cfg) (data : Bytes) (off : Nat) (i : Image) (hlen : data.length < 2 ^ 63)
    (hi : i.Legal) (hf : IsPeFile data off i) :
    ∃ info, parsePe cfg data = .ok info ∧
      info.header = ⟨i.machine, i.sections.length, i.timestamp, i.symbolTable, i.symbolCount, i.optSize,
        i.characteristics⟩ ∧
      info.optionalHeader = (if i.plus then .pe64 (0x20b :: i.opt) i.dirs.length
        else .pe32 (0x10b :: i.opt) i.dirs.length) ∧
      info.dataDirectories = i.dirs.map (fun d => ⟨d.1, d.2⟩) ∧
      info.sections = i.sections.map (fun s => ⟨s.name, s.virtualSize, s.virtualAddress, s.rawSize, s.rawPointer,
        s.relocPointer, s.linePointer, s.relocCount, s.lineCount, s.flags⟩) :=
  ⟨infoOf i, parsePe_enc cfg data off i hlen hi hf, rfl, rfl, rfl, rfl⟩

/-- A PE32+ image with two directories and two sections. -/
def exImage : Image where
  machine := 0x8664
  timestamp := 0x5f000000
  symbolTable := 0
  symbolCount := 0
  optSize := 128
  characteristics := 0x2022
  plus := true
  opt := [48, 0, 512, 0, 0, 0x2000, 0x2000, 0x180000000, 0x2000, 0x200, 4, 0, 0, 0, 4, 0, 0, 0x4000, 0x200, 0, 3,
    0x8540, 0x400000, 0x4000, 0x100000, 0x2000, 0]
  dirs := [(0, 0), (0x2008, 72)]
  sections :=
    [⟨[0x2e, 0x74, 0x65, 0x78, 0x74, 0, 0, 0], 100, 0x2000, 0x200, 0x200, 0, 0, 0, 0, 0x60000020⟩,
     ⟨[0x2e, 0x72, 0x73, 0x72, 0x63, 0, 0, 0], 80, 0x4000, 0x200, 0x400, 0, 0, 0, 0, 0x40000040⟩]

/-- The same image in a file with header offset 0x44 and arbitrary other bytes. -/
def exFile : Bytes :=
  [0x4d, 0x5a] ++ List.replicate 58 0x90 ++ leBytes 4 0x44 ++ [1, 2, 3, 4] ++ exImage.enc ++ [9, 9, 9]

example : exImage.Legal := by decide +kernel
example : IsPeFile exFile 0x44 exImage :=
  ⟨by decide +kernel, by decide +kernel, by decide, [9, 9, 9], by decide +kernel⟩
example : (parsePe Cfg.debug exFile).Returns ∧
    (do let i ← parsePe Cfg.debug exFile; pure (i.sections.map PeSection.virtualAddress) : Res (List Nat)) = .ok [0x2000, 0x4000] := by
  decide +kernel

/-! ## C07 -/

/-- The section header the parser returns for a section description. -/
def secOf (s : Section) : PeSection :=
  ⟨s.name, s.virtualSize, s.virtualAddress, s.rawSize, s.rawPointer, s.relocPointer, s.linePointer,
    s.relocCount, s.lineCount, s.flags⟩

theorem resolveRva_hit (cfg : Cfg) (ss : List Section) (x : Nat)
    (hw : ∀ s ∈ ss, s.NoWrap)
    (hd : ∀ s ∈ ss, ∀ t ∈ ss, s.Contains x → t.Contains x → s = t)
    (s : Section) (hs : s ∈ ss) (hc : s.Contains x) :
    resolveRva cfg x (ss.map secOf) = .ok (s.rawPointer + (x - s.virtualAddress)) := by
  induction ss with
  | nil => simp at hs
  | cons t ss ih =>
    obtain ⟨hw1, hw2⟩ := hw t (by simp)
    by_cases ht : t.Contains x
    · have e := hd s hs t (by simp) hc ht
      subst e
      obtain ⟨h1, h2⟩ := ht
      simp only [List.map_cons, resolveRva, secOf]
      rw [if_pos h1, uadd_ok hw1]
      simp only [Res.ok_bind]
      rw [if_pos h2, usub_ok h1]
      simp only [Res.ok_bind]
      rw [uadd_ok (by omega), Nat.add_comm]
    · have hs' : s ∈ ss := by
        rcases List.mem_cons.mp hs with rfl | h
        · exact absurd hc ht
        · exact h
      have hrec := ih (fun u hu => hw u (by simp [hu]))
        (fun u hu v hv => hd u (by simp [hu]) v (by simp [hv])) hs'
      simp only [List.map_cons, resolveRva, secOf]
      by_cases h1 : x ≥ t.virtualAddress
      · rw [if_pos h1, uadd_ok hw1]
        simp only [Res.ok_bind]
        rw [if_neg (fun h2 => ht ⟨h1, h2⟩)]
        exact hrec
      · rw [if_neg h1]; exact hrec

theorem resolveRva_miss (cfg : Cfg) (ss : List Section) (x : Nat)
    (hw : ∀ s ∈ ss, s.NoWrap) (hn : ∀ s ∈ ss, ¬ s.Contains x) :
    ∃ m, resolveRva cfg x (ss.map secOf) = .err m := by
  induction ss with
  | nil => exact ⟨_, rfl⟩
  | cons t ss ih =>
    obtain ⟨hw1, hw2⟩ := hw t (by simp)
    have ht := hn t (by simp)
    have hrec := ih (fun u hu => hw u (by simp [hu])) (fun u hu => hn u (by simp [hu]))
    simp only [List.map_cons, resolveRva, secOf]
    by_cases h1 : x ≥ t.virtualAddress
    · rw [if_pos h1, uadd_ok hw1]
      simp only [Res.ok_bind]
      rw [if_neg (fun h2 => ht ⟨h1, h2⟩)]
      exact hrec
    · rw [if_neg h1]; exact hrec

/-- **C07.** For sections that do not wrap 32 bits and of which at most one contains the address `x`:
the containing section determines the file offset, in whatever order the sections are listed; an address in no
section is an error; and two addresses of one section get different offsets. -/
theorem C07_resolve (cfg : Cfg) (ss : List Section) (hw : ∀ s ∈ ss, s.NoWrap)
    (hd : ∀ x, ∀ s ∈ ss, ∀ t ∈ ss, s.Contains x → t.Contains x → s = t) :
    (∀ s ∈ ss, ∀ x, s.Contains x → ∀ ss' : List Section, ss'.Perm ss →
      resolveRva cfg x (ss'.map secOf) = .ok (s.rawPointer + (x - s.virtualAddress))) ∧
    (∀ x, (∀ s ∈ ss, ¬ s.Contains x) → ∃ m, resolveRva cfg x (ss.map secOf) = .err m) ∧
    (∀ s ∈ ss, ∀ x y, s.Contains x → s.Contains y →
      resolveRva cfg x (ss.map secOf) = resolveRva cfg y (ss.map secOf) → x = y) := by
  refine ⟨?_, ?_, ?_⟩
  · intro s hs x hc ss' hp
    apply resolveRva_hit cfg ss' x _ _ s (hp.mem_iff.mpr hs) hc
    · exact fun u hu => hw u (hp.mem_iff.mp hu)
    · exact fun u hu v hv => hd x u (hp.mem_iff.mp hu) v (hp.mem_iff.mp hv)
  · exact fun x hn => resolveRva_miss cfg ss x hw hn
  · intro s hs x y hx hy e
    rw [resolveRva_hit cfg ss x hw (hd x) s hs hx, resolveRva_hit cfg ss y hw (hd y) s hs hy] at e
    have := Res.ok.inj e
    have h1 := hx.1
    have h2 := hy.1
    omega

/-- The sections of `exImage` meet the hypotheses of C07, and resolve as expected. -/
example : (∀ s ∈ exImage.sections, s.NoWrap) ∧
    (∀ x, ∀ s ∈ exImage.sections, ∀ t ∈ exImage.sections, s.Contains x → t.Contains x → s = t) := by
  constructor
  · simp [exImage, Section.NoWrap]
  · intro x s hs t ht h1 h2
    simp only [exImage, List.mem_cons, List.not_mem_nil, or_false] at hs ht
    rcases hs with rfl | rfl <;> rcases ht with rfl | rfl <;> simp_all [Section.Contains] <;> omega
example : resolveRva Cfg.debug 0x4010 (exImage.sections.map secOf) = .ok 0x410 ∧
    (∃ m, resolveRva Cfg.debug 0x3000 (exImage.sections.map secOf) = .err m) := ⟨by decide, _, rfl⟩

/-! ## C08 -/

/-- **C08: refuted.** A section at the top of the address space makes debug builds panic, and debug and release builds
disagree. -/
theorem C08_hostile_sections_refuted :
    ∃ (s : PeSection) (rva : Nat), s.virtualAddress < 2 ^ 32 ∧ s.sizeOfRawData < 2 ^ 32 ∧ rva < 2 ^ 32 ∧
      resolveRva Cfg.debug rva [s] = .panic ∧ (∃ m, resolveRva Cfg.release rva [s] = .err m) :=
  ⟨⟨[], 0, 0xffffffff, 2, 0, 0, 0, 0, 0, 0⟩, 0xffffffff, by decide, by decide, by decide, by decide, _, rfl⟩

/-- **C08, partial.** If no section wraps 32 bits, resolution returns an offset or an error in every build mode, and all
build modes agree. Missing: sections that do wrap, where the code differs (`C08_hostile_sections_refuted`). -/
theorem C08_no_wrap_partial (ss : List Section) (rva : Nat) (hw : ∀ s ∈ ss, s.NoWrap) :
    (∀ cfg, (resolveRva cfg rva (ss.map secOf)).Returns) ∧
    (∀ cfg cfg', resolveRva cfg rva (ss.map secOf) = resolveRva cfg' rva (ss.map secOf)) := by
  induction ss with
  | nil => exact ⟨fun _ => by simp [resolveRva], fun _ _ => rfl⟩
  | cons t ss ih =>
    obtain ⟨hw1, hw2⟩ := hw t (by simp)
    obtain ⟨ih1, ih2⟩ := ih (fun u hu => hw u (by simp [hu]))
    by_cases h1 : rva ≥ t.virtualAddress
    · by_cases h2 : rva < t.virtualAddress + t.rawSize
      · have : ∀ cfg, resolveRva cfg rva ((t :: ss).map secOf) = .ok (rva - t.virtualAddress + t.rawPointer) := by
          intro cfg
          simp only [List.map_cons, resolveRva, secOf]
          rw [if_pos h1, uadd_ok hw1]
          simp only [Res.ok_bind]
          rw [if_pos h2, usub_ok h1]
          simp only [Res.ok_bind]
          rw [uadd_ok (by omega)]
        exact ⟨fun cfg => by rw [this]; simp, fun cfg cfg' => by rw [this, this]⟩
      · have : ∀ cfg, resolveRva cfg rva ((t :: ss).map secOf) = resolveRva cfg rva (ss.map secOf) := by
          intro cfg
          simp only [List.map_cons, resolveRva, secOf]
          rw [if_pos h1, uadd_ok hw1]
          simp only [Res.ok_bind]
          rw [if_neg h2]
        exact ⟨fun cfg => by rw [this]; exact ih1 cfg, fun cfg cfg' => by rw [this, this]; exact ih2 _ _⟩
    · have : ∀ cfg, resolveRva cfg rva ((t :: ss).map secOf) = resolveRva cfg rva (ss.map secOf) := by
        intro cfg
        simp only [List.map_cons, resolveRva, secOf]
        rw [if_neg h1]
      exact ⟨fun cfg => by rw [this]; exact ih1 cfg, fun cfg cfg' => by rw [this, this]; exact ih2 _ _⟩

/-- **C08, release builds.** In release builds resolution returns for arbitrary section headers. -/
theorem C08_release_total_partial (ss : List PeSection) (rva : Nat) :
    (resolveRva Cfg.release rva ss).Returns := by
  have hu : ∀ a b, ∃ c, uadd Cfg.release 32 a b = .ok c := by
    intro a b
    by_cases h : a + b < 2 ^ 32
    · exact ⟨_, uadd_ok h⟩
    · exact ⟨_, by simp only [uadd, if_neg h]; rfl⟩
  induction ss with
  | nil => simp [resolveRva]
  | cons t ss ih =>
    simp only [resolveRva]
    split
    · rename_i h1
      obtain ⟨c, hc⟩ := hu t.virtualAddress t.sizeOfRawData
      simp only [hc, Res.ok_bind]
      split
      · rw [usub_ok h1]
        obtain ⟨d, hd⟩ := hu (rva - t.virtualAddress) t.pointerToRawData
        simp [hd]
      · exact ih
    · exact ih

example : (resolveRva Cfg.release 0x10 [⟨[], 0, 0x8, 0xffffffff, 0xffffffff, 0, 0, 0, 0, 0⟩]).Returns := by decide

end Clr
