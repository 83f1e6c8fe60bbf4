import Verif.Model.Files
/-! # Property C77: finding assemblies by name -/

namespace Clr

/-- The file `name` in the directory `dir`. -/
def fileIn (dir : Path) (name : List Char) : Path := dir ++ '/' :: name

/-- A directory given by a name that does not end in a separator. -/
def PlainDir (dir : Path) : Prop := dir ≠ [] ∧ dir.getLast? ≠ some '/'

instance (dir : Path) : Decidable (PlainDir dir) := by unfold PlainDir; infer_instance

/-- In directory `dir` the file to take for `name` is `path`. -/
def Picks (disk : Disk) (name : Name) (dir path : Path) : Prop :=
  (path = fileIn dir (name ++ ".dll".toList) ∧ disk path ≠ none) ∨
  (disk (fileIn dir (name ++ ".dll".toList)) = none ∧ path = fileIn dir (name ++ ".exe".toList) ∧ disk path ≠ none)

/-- `name` is not in directory `dir`. -/
def Lacks (disk : Disk) (name : Name) (dir : Path) : Prop :=
  disk (fileIn dir (name ++ ".dll".toList)) = none ∧ disk (fileIn dir (name ++ ".exe".toList)) = none

/-- The file of the first directory that has one. -/
def FirstPick (disk : Disk) (name : Name) (dirs : List Path) (path : Path) : Prop :=
  ∃ before dir after, dirs = before ++ dir :: after ∧ (∀ d ∈ before, Lacks disk name d) ∧ Picks disk name dir path

/-- The claim: loading by name takes the file of the first load directory that has one. -/
def FindsFiles : Prop := ∀ (disk : Disk) (dirs : List Path) (name : Name), (∀ d ∈ dirs, PlainDir d) →
  (∀ path, resolveAssemblyName disk name dirs = some path → FirstPick disk name dirs path) ∧
  (resolveAssemblyName disk name dirs = none → ∀ d ∈ dirs, Lacks disk name d)

theorem push_plain {dir : Path} (hd : PlainDir dir) {n : List Char} (hn : n.head? ≠ some '/') :
    pushPath dir n = fileIn dir n := by
  unfold pushPath fileIn
  rw [if_neg hn, if_neg (not_or.2 hd)]

theorem pop_plain {dir : Path} (hd : PlainDir dir) {n : List Char} (hn : '/' ∉ n) : popPath (fileIn dir n) = dir := by
  have h1 : ((fileIn dir n).reverse.dropWhile (· ≠ '/')) = '/' :: dir.reverse := by
    unfold fileIn
    rw [List.reverse_append, List.reverse_cons, List.append_assoc, List.dropWhile_append_of_pos]
    · rfl
    · intro c hc
      simp only [decide_eq_true_eq]
      rintro rfl
      exact hn (List.mem_reverse.1 hc)
  have h2 : ∃ c r, dir.reverse = c :: r ∧ c ≠ '/' := by
    cases hr : dir.reverse with
    | nil => exact absurd (List.reverse_eq_nil_iff.1 hr) hd.1
    | cons c r =>
      refine ⟨c, r, rfl, ?_⟩
      rintro rfl
      apply hd.2
      rw [List.getLast?_eq_head?_reverse, hr]; rfl
  obtain ⟨c, r, h2, h3⟩ := h2
  unfold popPath
  simp only [h1, h2]
  rw [if_neg (by simp [h3])]
  rw [List.dropWhile_cons_of_pos (by simp), List.dropWhile_cons_of_neg (by simpa using h3), ← h2, List.reverse_reverse]

/-- **C77 for names without separators**: loading by name takes the file `name.dll`, or else `name.exe`, of the first load
directory that has one of them, and fails exactly if none has.

Missing: names with separators, see `C77_refuted`. -/
theorem C77_partial (disk : Disk) (dirs : List Path) (name : Name) (hn : '/' ∉ name) (hd : ∀ d ∈ dirs, PlainDir d) :
    (∀ path, resolveAssemblyName disk name dirs = some path ↔ FirstPick disk name dirs path) ∧
    (resolveAssemblyName disk name dirs = none ↔ ∀ d ∈ dirs, Lacks disk name d) := by
  have hdll : '/' ∉ name ++ ".dll".toList := by simp [hn]
  have hexe : '/' ∉ name ++ ".exe".toList := by simp [hn]
  have hh : ∀ {n : List Char}, '/' ∉ n → n.head? ≠ some '/' := fun h e => h (List.mem_of_mem_head? e)
  induction dirs with
  | nil =>
    refine ⟨fun path => ⟨fun h => ?_, ?_⟩, by simp [resolveAssemblyName]⟩
    · cases h
    · rintro ⟨b, d, a, h, -⟩
      cases b <;> cases h
  | cons dir dirs ih =>
    obtain ⟨ih1, ih2⟩ := ih fun d h => hd d (List.mem_cons_of_mem _ h)
    have hp := hd dir (List.mem_cons_self ..)
    have first : ∀ path, FirstPick disk name (dir :: dirs) path ↔
        Picks disk name dir path ∨ Lacks disk name dir ∧ FirstPick disk name dirs path := by
      intro path
      constructor
      · rintro ⟨b, d, a, h1, h2, h3⟩
        cases b with
        | nil => cases h1; exact .inl h3
        | cons x b =>
          cases h1
          exact .inr ⟨h2 _ (List.mem_cons_self ..), b, d, a, rfl, fun d h => h2 d (List.mem_cons_of_mem _ h), h3⟩
      · rintro (h | ⟨h, b, d, a, h1, h2, h3⟩)
        · exact ⟨[], dir, dirs, rfl, by simp, h⟩
        · refine ⟨dir :: b, d, a, by rw [h1]; rfl, ?_, h3⟩
          intro d' hd'
          rcases List.mem_cons.1 hd' with rfl | hd'
          · exact h
          · exact h2 d' hd'
    unfold resolveAssemblyName
    simp only [push_plain hp (hh hdll), pop_plain hp hdll, push_plain hp (hh hexe), Disk.present]
    cases h1 : disk (fileIn dir (name ++ ".dll".toList)) with
    | some x =>
      simp only [Option.isSome_some, if_true]
      refine ⟨fun path => ?_, ?_⟩
      · rw [first]
        constructor
        · rintro h; cases h; exact .inl (.inl ⟨rfl, by rw [h1]; nofun⟩)
        · rintro ((⟨h, -⟩ | ⟨h, -⟩) | ⟨h, -⟩)
          · rw [h]
          · rw [h1] at h; cases h
          · rw [h.1] at h1; cases h1
      · constructor
        · nofun
        · intro h; rw [(h dir (List.mem_cons_self ..)).1] at h1; cases h1
    | none =>
      simp only [Option.isSome_none, Bool.false_eq_true, if_false]
      cases h2 : disk (fileIn dir (name ++ ".exe".toList)) with
      | some x =>
        simp only [Option.isSome_some, if_true]
        refine ⟨fun path => ?_, ?_⟩
        · rw [first]
          constructor
          · rintro h; cases h; exact .inl (.inr ⟨h1, rfl, by rw [h2]; nofun⟩)
          · rintro ((⟨h, h'⟩ | ⟨-, h, -⟩) | ⟨h, -⟩)
            · rw [h, h1] at h'; exact absurd rfl h'
            · rw [h]
            · rw [h.2] at h2; cases h2
        · constructor
          · nofun
          · intro h; rw [(h dir (List.mem_cons_self ..)).2] at h2; cases h2
      | none =>
        simp only [Option.isSome_none, Bool.false_eq_true, if_false]
        refine ⟨fun path => ?_, ?_⟩
        · rw [first, ih1]
          constructor
          · exact fun h => .inr ⟨⟨h1, h2⟩, h⟩
          · rintro ((⟨h, h'⟩ | ⟨-, h, h'⟩) | ⟨-, h⟩)
            · rw [h, h1] at h'; exact absurd rfl h'
            · rw [h, h2] at h'; exact absurd rfl h'
            · exact h
        · rw [ih2]
          constructor
          · intro h d hd'
            rcases List.mem_cons.1 hd' with rfl | hd'
            · exact ⟨h1, h2⟩
            · exact h d hd'
          · exact fun h d hd' => h d (List.mem_cons_of_mem _ hd')

/-- **C77 for the directories of a program**: a program looks for an assembly next to itself, and only if it is not there in its
subdirectory `libraries`. -/
theorem C77_program_partial (disk : Disk) (dir : Path) (hd : PlainDir dir) (name : Name) (hn : '/' ∉ name) (path : Path) :
    resolveAssemblyName disk name (loadPaths dir) = some path ↔
      Picks disk name dir path ∨ Lacks disk name dir ∧ Picks disk name (fileIn dir "libraries".toList) path := by
  have hpush : pushPath dir "libraries".toList = fileIn dir "libraries".toList := push_plain hd (by decide)
  have hplain : PlainDir (fileIn dir "libraries".toList) := ⟨by simp [fileIn], by simp [fileIn]⟩
  have h := (C77_partial disk [dir, fileIn dir "libraries".toList] name hn (List.forall_mem_cons.2 ⟨hd, List.forall_mem_cons.2 ⟨hplain, nofun⟩⟩)).1 path
  rw [loadPaths, hpush, h]
  constructor
  · rintro ⟨b, d, a, h1, h2, h3⟩
    match b, h1 with
    | [], h1 => cases h1; exact .inl h3
    | [x], h1 => cases h1; exact .inr ⟨h2 _ (by simp), h3⟩
    | _ :: _ :: _ :: _, h1 => simp at h1
    | [_, _], h1 => simp at h1
  · rintro (h1 | ⟨h1, h2⟩)
    · exact ⟨[], _, _, rfl, by simp, h1⟩
    · exact ⟨[dir], _, _, rfl, by simpa using h1, h2⟩

/-- A disk with some files, for the load directories `/app` and `/app/libraries`. -/
def Ex.someDisk : Disk := fun p =>
  if p = "/app/A.exe".toList then some (some [1])
  else if p = "/app/libraries/A.dll".toList then some (some [2])
  else if p = "/app/libraries/B.dll".toList then some (some [3])
  else if p = "/app/libraries/B.exe".toList then some (some [4])
  else if p = "/tmp/C.dll".toList then some (some [5])
  else none

example : (∀ d ∈ loadPaths "/app".toList, PlainDir d) ∧ PlainDir "/app".toList ∧
    resolveAssemblyName Ex.someDisk "A".toList (loadPaths "/app".toList) = some "/app/A.exe".toList ∧
    foundFiles Ex.someDisk (loadPaths "/app".toList) "A".toList = some [1] ∧
    foundFiles Ex.someDisk (loadPaths "/app".toList) "B".toList = some [3] ∧
    foundFiles Ex.someDisk (loadPaths "/app".toList) "C".toList = none := by
  decide +kernel

/-- **C77 fails** for names with separators: an assembly that refers to an assembly named `/tmp/C` makes the runtime load a
file that is in none of the load directories. -/
theorem C77_refuted : ¬ FindsFiles := by
  intro h
  have hd : ∀ d ∈ loadPaths "/app".toList, PlainDir d := by decide +kernel
  obtain ⟨b, d, a, h1, h2, h3⟩ := (h Ex.someDisk (loadPaths "/app".toList) "/tmp/C".toList hd).1 "/tmp/C.dll".toList
    (by decide +kernel)
  have hm : d ∈ loadPaths "/app".toList := by rw [h1]; simp
  have hno : ∀ d ∈ loadPaths "/app".toList, "/tmp/C.dll".toList ≠ fileIn d ("/tmp/C".toList ++ ".dll".toList) ∧
      "/tmp/C.dll".toList ≠ fileIn d ("/tmp/C".toList ++ ".exe".toList) := by decide +kernel
  rcases h3 with ⟨h3, -⟩ | ⟨-, h3, -⟩
  · exact (hno d hm).1 h3
  · exact (hno d hm).2 h3

end Clr
