import Verif.Lemmas.UnreadMain
import Verif.Props.Main
/-!
# C108: what is not part of the contents of a file does not matter

`Spec.Rehoused` and the file systems that correspond are in `Verif/Spec/Unread.lean`.
-/

namespace Clr
open Spec

/-- **C108, further bytes at the end.** If a load succeeds, it gives the same assembly and the same registry when bytes are added at
the end of the file and of the files it refers to. -/
theorem C108_tail (cfg : Cfg) (fs fs' : Name → Option Bytes) (hf : SameFiles (· <+: ·) fs fs') (depth fuel : Nat) (data data' : Bytes)
    (hd : data <+: data') (w w' : World) (a : AssemblyRec) (h : loadData cfg fs depth fuel data w = (.ok a, w')) :
    loadData cfg fs' depth fuel data' w = (.ok a, w') := by
  rw [loadData_prefix hf depth fuel hd w (by rw [h]; trivial), h]

/-- **C108, the same for the command-line program**: if it ends with a result, result and output stay the same. -/
theorem C108_tail_program (cfg : Cfg) (ops : FloatOps) (disk disk' : Disk) (hd : SameDisk (· <+: ·) disk disk')
    (runtime runtime' console console' : Bytes) (hr : runtime <+: runtime') (hc : console <+: console') (exeDir : Path)
    (depth fuel tf steps : Nat) (args : List Path) (r : RunResult) (out : List Char)
    (h : mainProgram cfg ops runtime console disk exeDir depth fuel tf steps args = (.ok r, out)) :
    mainProgram cfg ops runtime' console' disk' exeDir depth fuel tf steps args = (.ok r, out) := by
  have hl := mainLoads_prefix (cfg := cfg) hd hr hc exeDir depth fuel args {}
  unfold mainProgram at h ⊢
  rcases e : mainLoads cfg runtime console disk exeDir depth fuel args {} with ⟨x, w⟩
  rw [e] at h hl
  cases x with
  | ok m => rw [hl trivial]; exact h
  | _ => cases h

/-- **C108, other headers.** Loads of PE files with the same contents do the same, from every state of the registry and whatever
the outcome: DOS program, time stamps, checksums, the names of sections, the place of the headers, padding, and how far into the
file the sections start make no difference. -/
theorem C108_headers (cfg : Cfg) (fs fs' : Name → Option Bytes) (hf : SameFiles Rehoused fs fs') (depth fuel : Nat) (data data' : Bytes)
    (hd : Rehoused data data') (w : World) : loadData cfg fs' depth fuel data' w = loadData cfg fs depth fuel data w := by
  rw [loadData_rehoused hf fuel depth hd]

/-- **C108, the same for the command-line program.** -/
theorem C108_headers_program (cfg : Cfg) (ops : FloatOps) (disk disk' : Disk) (hd : SameDisk Rehoused disk disk')
    (runtime runtime' console console' : Bytes) (hr : Rehoused runtime runtime') (hc : Rehoused console console') (exeDir : Path)
    (depth fuel tf steps : Nat) (args : List Path) :
    mainProgram cfg ops runtime' console' disk' exeDir depth fuel tf steps args =
      mainProgram cfg ops runtime console disk exeDir depth fuel tf steps args := by
  unfold mainProgram
  rw [mainLoads_rehoused hd hr hc]

/-! ## Cases -/

namespace Ex

/-- The image of the core library. -/
def coreImage : Spec.Image :=
  { machine := 0x14c, timestamp := 0, symbolTable := 0, symbolCount := 0, optSize := 224, characteristics := 0x2102,
    plus := false, opt := List.replicate 28 0,
    dirs := List.replicate 14 (0, 0) ++ [(0x2000, 72), (0, 0)]
    sections := [⟨[0x2e, 0x74, 0x65, 0x78, 0x74, 0, 0, 0], 72 + core.metadata.length, 0x2000,
      72 + core.metadata.length, 0x200, 0, 0, 0, 0, 0x60000020⟩] }

/-- Another machine, time stamp, optional header, section name and virtual size; the section starts at 0x400. -/
def otherImage : Spec.Image :=
  { machine := 0x8664, timestamp := 0x5f5e1000, symbolTable := 0, symbolCount := 0, optSize := 240, characteristics := 0x22,
    plus := true, opt := List.replicate 27 1,
    dirs := List.replicate 14 (7, 7) ++ [(0x2000, 99), (1, 1)]
    sections := [⟨[0x63, 0x6f, 0x64, 0x65, 0, 0, 0, 0], 5, 0x2000, 72 + core.metadata.length, 0x400, 0, 0, 0, 0, 0⟩] }

/-- The core library with those headers at 0x80, after a DOS program. -/
def otherCore : Bytes :=
  let head := [0x4d, 0x5a] ++ List.replicate 58 0x90 ++ leBytes 4 0x80 ++ List.replicate 0x40 0xcc ++ otherImage.enc
  head ++ List.replicate (0x400 - head.length) 0xee ++ coreFile.drop 0x200

theorem isPeFile_of {data : Bytes} {off : Nat} {i : Spec.Image} (h : data.take 2 = [0x4d, 0x5a] ∧ (data.drop 0x3c).take 4 = leBytes 4 off ∧
    off < 2 ^ 32 ∧ (data.drop off).take i.enc.length = i.enc) : IsPeFile data off i := by
  refine ⟨h.1, h.2.1, h.2.2.1, (data.drop off).drop i.enc.length, ?_⟩
  conv => lhs; rw [← List.take_append_drop i.enc.length (data.drop off), h.2.2.2]

theorem core_rehoused : Rehoused coreFile otherCore := by
  refine .inr ⟨0x40, 0x80, coreImage, otherImage, 0x200, 0x400, isPeFile_of (by decide +kernel), isPeFile_of (by decide +kernel),
    by decide +kernel, by decide +kernel, by decide +kernel, by decide +kernel, ⟨by decide +kernel, by decide +kernel, ⟨?_, ?_⟩,
    by decide +kernel, by decide +kernel⟩⟩
  · intro s hs; rw [List.mem_singleton.1 hs]; unfold Section.NoWrap; decide +kernel
  · intro s hs; rw [List.mem_singleton.1 hs]; unfold Section.NoWrap; decide +kernel

theorem mainDisk_refl : SameDisk Rehoused mainDisk mainDisk := by
  intro p
  unfold mainDisk
  split
  · exact .inr (.inr ⟨_, _, rfl, rfl, .inl rfl⟩)
  · exact .inl ⟨rfl, rfl⟩

/-- The disk of C92's case, with two bytes added to the program. -/
def longerDisk : Disk := fun p => if p = "app".toList then some (some (mainAsm.file ++ [1, 2])) else none

theorem mainDisk_longer : SameDisk (· <+: ·) mainDisk longerDisk := by
  intro p
  unfold mainDisk longerDisk
  split
  · exact .inr (.inr ⟨_, _, rfl, rfl, ⟨_, rfl⟩⟩)
  · exact .inl ⟨rfl, rfl⟩

end Ex

/-- The hypotheses of the theorems can be met, and the program of C92's case still writes `Hi`: with a core library that has other
headers, and with bytes added to all three files. -/
example : ∃ depth fuel tf, ∀ (ops : FloatOps) (e : Nat), LawfulEq ops →
    mainProgram .debug ops Ex.otherCore Ex.conAsm.file Ex.mainDisk [] depth fuel tf (e + 6) ["program".toList, "app".toList] =
      (.ok (.number (.i32 8)), "Hi".toList) ∧
    mainProgram .debug ops (Ex.coreFile ++ [0]) (Ex.conAsm.file ++ [5, 5]) Ex.longerDisk [] depth fuel tf (e + 6)
      ["program".toList, "app".toList] = (.ok (.number (.i32 8)), "Hi".toList) := by
  obtain ⟨G, hG⟩ := Ex.main_uses (C92_partial .debug) (by decide) Ex.firstProc rfl
  obtain ⟨T, hT⟩ := hG 1 (by decide) G (Nat.le_refl _)
  refine ⟨1, G, T, fun ops e hops => ?_⟩
  have this := hT T (Nat.le_refl _) ops (e + 6) 1 Ex.firstStore _ hops (by decide) (by decide) (by rintro r ⟨⟩ b ⟨⟩) (Ex.first_runs ops e)
  have this : mainProgram .debug ops Ex.coreFile Ex.conAsm.file Ex.mainDisk [] 1 G T (e + 6) ["program".toList, "app".toList] =
    (.ok (.number (.i32 8)), "Hi".toList) := Prod.ext this.2 this.1
  constructor
  · rw [C108_headers_program .debug ops _ _ Ex.mainDisk_refl _ _ _ _ Ex.core_rehoused (.inl rfl), this]
  · exact C108_tail_program .debug ops _ _ Ex.mainDisk_longer _ _ _ _ ⟨_, rfl⟩ ⟨_, rfl⟩ _ _ _ _ _ _ _ _ this

/-- `C108_tail` is only about loads that succeed: a file that is cut short does not load, and does when the missing bytes are
added. -/
example : Ex.coreFile.take 700 <+: Ex.coreFile ∧
    Ex.holds (fun _ => true) (loadData .debug Ex.noFiles 1 100 (Ex.coreFile.take 700) {}).1 = false ∧
    Ex.holds (fun _ => true) (loadData .debug Ex.noFiles 1 100 Ex.coreFile {}).1 = true := by
  refine ⟨List.take_prefix _ _, by decide +kernel, by decide +kernel⟩

end Clr
