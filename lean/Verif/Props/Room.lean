import Verif.Lemmas.LoadCost
import Verif.Lemmas.Asm
/-! # Memory requested while reading a file (C105) -/

namespace Clr
open Spec

/-- **C105, results.** Counting the elements for which memory is requested in advance changes no result. -/
theorem C105_counted (cfg : Cfg) (data : Bytes) (r : Reader) : (readTableStreamR cfg data).1 = readTableStream cfg data ∧
    (readMethodSigR cfg r).1 = readMethodSig cfg r ∧ (readPropertySigR cfg r).1 = readPropertySig cfg r ∧
      (readMethodSpecR cfg r).1 = readMethodSpec cfg r ∧ (readElemR cfg (r.data.length - r.pos + 1) r).1 = readElem cfg r :=
  ⟨readTableStreamR_fst cfg data, readMethodSigR_fst cfg r, readPropertySigR_fst cfg r, readMethodSpecR_fst cfg r, readElemR_elem cfg r⟩

/-- **C105, tables (partial).** A table stream that is read successfully requested memory for no more rows than it has bytes.

Missing: table streams that are rejected (`C105_refuted`). -/
theorem C105_tables_partial (cfg : Cfg) (data : Bytes) (hsize : data.length < 2 ^ 63) (t : Tables)
    (h : readTableStream cfg data = .ok t) : (readTableStreamR cfg data).2 ≤ data.length :=
  readTableStreamR_room cfg hsize ((readTableStreamR_fst cfg data).trans h)

/-- **C105, signatures (partial).** A signature that is decoded successfully requested memory for fewer elements than it has
bytes: those of a method, of a property, of the arguments of a generic method, of a single type.

Missing: signatures that are rejected (`C105_refuted`). -/
theorem C105_signatures_partial (cfg : Cfg) (data : Bytes) (hsize : data.length < 2 ^ 63) :
    (∀ p, readMethodSig cfg (Reader.new data) = .ok p → (readMethodSigR cfg (Reader.new data)).2 < data.length) ∧
    (∀ p, readPropertySig cfg (Reader.new data) = .ok p → (readPropertySigR cfg (Reader.new data)).2 < data.length) ∧
    (∀ p, readMethodSpec cfg (Reader.new data) = .ok p → (readMethodSpecR cfg (Reader.new data)).2 < data.length) ∧
    ∀ p, readElem cfg (Reader.new data) = .ok p → (readElemR cfg (data.length + 1) (Reader.new data)).2 < data.length := by
  have hr : (Reader.new data).Ok := ⟨Nat.zero_le _, hsize⟩
  have hl : (Reader.new data).rest.length = data.length := rfl
  refine ⟨fun p h => ?_, fun p h => ?_, fun p h => ?_, fun p h => ?_⟩
  · exact (readMethodSigR_step cfg hr).paid ((readMethodSigR_fst cfg _).trans h)
  · exact (readPropertySigR_step cfg hr).paid ((readPropertySigR_fst cfg _).trans h)
  · exact (readMethodSpecR_step cfg hr).paid ((readMethodSpecR_fst cfg _).trans h)
  · exact (readElemR_step' cfg hr).paid ((readElemR_elem cfg _).trans h)

/-- **C105, tables, whatever happens.** No table stream makes the reader request memory for more than 2^32 rows in each of the
38 tables. A row takes less than 2^20 bytes in memory, so the request is never beyond what `Vec` can express on a 64-bit host
(which would be a panic). -/
theorem C105_bounded (cfg : Cfg) (data : Bytes) : (readTableStreamR cfg data).2 ≤ 38 * 2 ^ 32 ∧
    (readTableStreamR cfg data).2 * 2 ^ 20 < 2 ^ 63 :=
  ⟨readTableStreamR_le cfg data, by have := readTableStreamR_le cfg data; omega⟩

/-- A table stream of 28 bytes: the header, and a count of 2^32 − 1 rows of the module table. -/
def hugeCount : Bytes := [0, 0, 0, 0, 2, 0, 0, 1, 1, 0, 0, 0, 0, 0, 0, 0, 0, 0, 0, 0, 0, 0, 0, 0, 0xff, 0xff, 0xff, 0xff]

/-- A method signature of 6 bytes: no `this`, a count of 2^29 − 1 parameters, and a result of type `void`. -/
def hugeParams : Bytes := [0, 0xdf, 0xff, 0xff, 0xff, 1]

/-- Whether a reading ended with an error. -/
def Room.failed {α : Type} (x : Room α) : Bool :=
  match x.1 with
  | .err _ => true
  | _ => false

theorem Room.failed_err {α : Type} {x : Room α} (h : x.failed = true) : ∃ m, x.1 = .err m := by
  unfold Room.failed at h
  split at h
  · exact ⟨_, by assumption⟩
  · cases h

/-- The other places with a count: a property, the arguments of a generic method, a generic type, and an array with its sizes or
its lower bounds. -/
def hugeProperty : Bytes := [8, 0xdf, 0xff, 0xff, 0xff, 1]
def hugeSpec : Bytes := [0xa, 0xdf, 0xff, 0xff, 0xff]
def hugeGeneric : Bytes := [0x15, 0x12, 5, 0xdf, 0xff, 0xff, 0xff]
def hugeSizes : Bytes := [0x14, 8, 1, 0xdf, 0xff, 0xff, 0xff]
def hugeBounds : Bytes := [0x14, 8, 1, 0, 0xdf, 0xff, 0xff, 0xff]

theorem huge_facts : (readTableStreamR .debug hugeCount).failed = true ∧ (readTableStreamR .debug hugeCount).2 = 2 ^ 32 - 1 ∧
    (readMethodSigR .debug (Reader.new hugeParams)).failed = true ∧
    (readMethodSigR .debug (Reader.new hugeParams)).2 = 2 ^ 29 - 1 := by decide +kernel

theorem huge_facts2 : ((readPropertySigR .debug (Reader.new hugeProperty)).failed = true ∧
    (readPropertySigR .debug (Reader.new hugeProperty)).2 = 2 ^ 29 - 1) ∧
    ((readMethodSpecR .debug (Reader.new hugeSpec)).failed = true ∧ (readMethodSpecR .debug (Reader.new hugeSpec)).2 = 2 ^ 29 - 1) ∧
    ∀ b ∈ [hugeGeneric, hugeSizes, hugeBounds], (readElemR .debug (b.length + 1) (Reader.new b)).failed = true ∧
      (readElemR .debug (b.length + 1) (Reader.new b)).2 = 2 ^ 29 - 1 := by decide +kernel

/-- **C105, what happens instead.** The 28 bytes are rejected, and before that memory is requested for 4,294,967,295 rows; the 6
bytes are rejected after memory is requested for 536,870,911 parameters. -/
theorem C105_refuted : ((∃ m, readTableStream .debug hugeCount = .err m) ∧ (readTableStreamR .debug hugeCount).2 = 2 ^ 32 - 1) ∧
    (∃ m, readMethodSig .debug (Reader.new hugeParams) = .err m) ∧ (readMethodSigR .debug (Reader.new hugeParams)).2 = 2 ^ 29 - 1 := by
  obtain ⟨h1, h2, h3, h4⟩ := huge_facts
  have h1 := Room.failed_err h1
  have h3 := Room.failed_err h3
  rw [readTableStreamR_fst] at h1
  rw [readMethodSigR_fst] at h3
  exact ⟨⟨h1, h2⟩, h3, h4⟩

/-- **C105, what happens instead, elsewhere.** Likewise for the other counts: of at most eight bytes, all are rejected after memory
is requested for 536,870,911 elements. -/
theorem C105_refuted_signatures :
    ((∃ m, readPropertySig .debug (Reader.new hugeProperty) = .err m) ∧ (readPropertySigR .debug (Reader.new hugeProperty)).2 = 2 ^ 29 - 1) ∧
    ((∃ m, readMethodSpec .debug (Reader.new hugeSpec) = .err m) ∧ (readMethodSpecR .debug (Reader.new hugeSpec)).2 = 2 ^ 29 - 1) ∧
    ∀ b ∈ [hugeGeneric, hugeSizes, hugeBounds], (∃ m, readElem .debug (Reader.new b) = .err m) ∧
      (readElemR .debug (b.length + 1) (Reader.new b)).2 = 2 ^ 29 - 1 := by
  obtain ⟨⟨h1, h2⟩, ⟨h3, h4⟩, h5⟩ := huge_facts2
  have h1 := Room.failed_err h1
  have h3 := Room.failed_err h3
  rw [readPropertySigR_fst] at h1
  rw [readMethodSpecR_fst] at h3
  refine ⟨⟨h1, h2⟩, ⟨h3, h4⟩, fun b hb => ⟨?_, (h5 b hb).2⟩⟩
  have h := Room.failed_err (h5 b hb).1
  rw [show b.length + 1 = (Reader.new b).data.length - (Reader.new b).pos + 1 from rfl, readElemR_elem] at h
  exact h

/-- The full claim, for all files, is false. -/
theorem C105_full_refuted : ¬ ∀ data : Bytes, data.length < 2 ^ 63 → (readTableStreamR .debug data).2 ≤ 1000000 * data.length := by
  intro h
  have := h hugeCount (by decide)
  rw [C105_refuted.1.2] at this
  simp [hugeCount] at this

/-- C105, instance: a module with one type; memory for two rows is requested, of 57 bytes. -/
example : (readTableStreamR .debug ([0, 0, 0, 0, 2, 0, 0, 1, 5, 0, 0, 0, 0, 0, 0, 0, 0, 0, 0, 0, 0, 0, 0, 0, 1, 0, 0, 0, 1, 0, 0, 0] ++
    ([0, 0, 7, 0, 1, 0, 0, 0, 0, 0] ++ [1, 0, 0x10, 0, 9, 0, 12, 0, 5, 0, 1, 0, 1, 0] ++ [0xff]))).2 = 2 := by decide +kernel

/-- C105, instance: a method of an `int32` and a `List<string, object>` with result `void`; memory for two parameters and two
generic arguments is requested. -/
example : (∃ p, readMethodSig .debug (Reader.new [0, 2, 1, 8, 0x15, 0x12, 5, 2, 0xe, 0x1c]) = .ok p) ∧
    (readMethodSigR .debug (Reader.new [0, 2, 1, 8, 0x15, 0x12, 5, 2, 0xe, 0x1c])).2 = 4 := by
  refine ⟨⟨_, rfl⟩, by decide +kernel⟩

/-! ## Loading -/

/-- **C105, results of loading.** Counting changes no result of loading a method body or a file either; the loading of the
references, which are files of their own, is part of both. -/
theorem C105_load_counted (cfg : Cfg) (fs : Name → Option Bytes) (depth fuel : Nat) (data : Bytes) (m : Metadata) (rva : Nat) (w : World) :
    (loadBodyR cfg m rva w).1 = loadBody cfg m rva w ∧
    (loadFileR cfg (fun m => loadRefs (loadAssembly cfg fs depth fuel) m m.tables.assemblyRef) fuel data w).1 =
      loadData cfg fs (depth + 1) fuel data w := 
  ⟨(loadBody_counts rva).eq w, (loadFile_counts fs depth fuel data).eq w⟩

/-- **C105, method bodies (partial).** A method body that is loaded requested memory for no more local variables, elements of their
types, and exception clauses than there are bytes in the blob heap and the file.

Missing: bodies that are rejected (`C105_refuted_load`). -/
theorem C105_bodies_partial (cfg : Cfg) (m : Metadata) (hb : m.blobHeap.length < 2 ^ 63) (hf : m.peData.length < 2 ^ 63) (rva : Nat)
    (w w' : World) (b : MethodBody) (h : loadBody cfg m rva w = (.ok b, w')) :
    (loadBodyR cfg m rva w).2 ≤ m.blobHeap.length + m.peData.length :=
  (loadBodyR_cost hb hf rva w b w' (((loadBody_counts rva).eq w).trans h)).1

/-- **C105, files (partial).** A file of `n` bytes that is loaded requested memory for at most `4 * (n + 2) ^ 2` elements: rows,
parts of signatures, fields, methods, parameters, local variables and clauses. (The square is there because signatures and bodies can
be shared by any number of rows.) The files of its references have requests of their own.

Missing: files that are rejected (`C105_refuted`, `C105_refuted_load`); a bound that is not a square. -/
theorem C105_load_partial (cfg : Cfg) (fs : Name → Option Bytes) (depth fuel : Nat) (data : Bytes) (hsize : data.length < 2 ^ 63)
    (w w' : World) (a : AssemblyRec) (h : loadData cfg fs (depth + 1) fuel data w = (.ok a, w')) :
    (loadFileR cfg (fun m => loadRefs (loadAssembly cfg fs depth fuel) m m.tables.assemblyRef) fuel data w).2 ≤
      4 * (data.length + 2) ^ 2 := 
  (loadFileR_cost hsize _ fuel w a w' (((loadFile_counts fs depth fuel data).eq w).trans h)).1

namespace Ex

/-- A file with a class and a static method; `sig` is the signature of its local variables, `body` its body, `fields` the first field
of a second class. -/
def hugeAsm (sig body : Bytes) (fields : Nat) : Asm where
  strings := ["a", "<Module>", "C", "M"]
  blobs := [[0, 0, 1], sig]
  tables :=
    [(0x02, [typeRow ["a", "<Module>", "C", "M"] 0 "" "<Module>" 0 1 1, typeRow ["a", "<Module>", "C", "M"] 0 "" "C" 0 fields 2]),
     (0x06, [methodRow ["a", "<Module>", "C", "M"] 0x2000 0 0x10 "M" 1 1]),
     (0x11, [[(2, 5)]]),
     (0x20, [assemblyRow ["a", "<Module>", "C", "M"] "a"])]
  bodies := body

/-- A body with local variables, of which the signature announces 2^29 − 1. -/
def hugeLocals : Bytes := (hugeAsm [7, 0xdf, 0xff, 0xff, 0xff] [0x13, 0x30, 8, 0, 0, 0, 0, 0, 1, 0, 0, 0x11] 1).file

/-- A body whose section of exception clauses claims to be 2^24 − 1 bytes long. -/
def hugeClauses : Bytes := (hugeAsm [7, 0] [0x1b, 0x30, 8, 0, 0, 0, 0, 0, 0, 0, 0, 0, 0x41, 0xff, 0xff, 0xff] 1).file

/-- A class whose fields are rows 1 to 65534 of a table with no rows. -/
def hugeRun : Bytes := (hugeAsm [7, 0] [0x2a] 0xffff).file

/-- The size, whether the load failed, and the number of elements requested. -/
def requested (data : Bytes) : Nat × Bool × Nat :=
  let x := loadFileR .debug (fun _ => pure ()) 100 data {}
  (data.length, (match x.1.1 with | .ok _ => false | _ => true), x.2)

end Ex

theorem Ex.huge_loads : Ex.requested Ex.hugeLocals = (833, true, 2 ^ 29 + 7) ∧ Ex.requested Ex.hugeClauses = (834, true, 699058) ∧
    Ex.requested Ex.hugeRun = (819, true, 65541) := by decide +kernel

/-- **C105, what happens instead, while loading.** Three files of less than 900 bytes that are not loaded: before that, memory is
requested for more than 536,870,911 local variables, more than 699,050 exception clauses, more than 65,534 fields. -/
theorem C105_refuted_load : ∀ p ∈ [(Ex.hugeLocals, 2 ^ 29 - 1), (Ex.hugeClauses, 699050), (Ex.hugeRun, 65534)],
    p.1.length < 900 ∧ (∀ a, (loadFileR .debug (fun _ => pure ()) 100 p.1 {}).1.1 ≠ .ok a) ∧
      p.2 ≤ (loadFileR .debug (fun _ => pure ()) 100 p.1 {}).2 := by
  have key : ∀ {d : Bytes} {n k : Nat} (l : Nat), Ex.requested d = (n, true, k) → n < 900 → l ≤ k → d.length < 900 ∧
      (∀ a, (loadFileR .debug (fun _ => pure ()) 100 d {}).1.1 ≠ .ok a) ∧ l ≤ (loadFileR .debug (fun _ => pure ()) 100 d {}).2 := by
    intro d n k l h hn hl
    unfold Ex.requested at h
    dsimp only at h
    obtain ⟨h1, h⟩ := Prod.mk.inj h
    obtain ⟨h2, h3⟩ := Prod.mk.inj h
    refine ⟨h1 ▸ hn, fun a ha => ?_, h3 ▸ hl⟩
    rw [ha] at h2
    cases h2
  obtain ⟨h1, h2, h3⟩ := Ex.huge_loads
  have h1 := key (2 ^ 29 - 1) h1 (by decide) (by decide)
  have h2 := key 699050 h2 (by decide) (by decide)
  have h3 := key 65534 h3 (by decide) (by decide)
  generalize Ex.hugeLocals = a at *
  generalize Ex.hugeClauses = b at *
  generalize Ex.hugeRun = c at *
  intro p hp
  rcases List.mem_cons.1 hp with rfl | hp
  · exact h1
  rcases List.mem_cons.1 hp with rfl | hp
  · exact h2
  rcases List.mem_cons.1 hp with rfl | hp
  · exact h3
  · cases hp

/-- C105, instance: the small core library, of 1196 bytes, is loaded, and requests memory for 46 elements: 22 rows, 1 parameter when
the signature is read and 2 when the method is loaded, 1 method, 19 types and 1 method of the assembly. -/
example : Ex.requested Ex.coreFile = (1196, false, 46) := by decide +kernel

/-- C105, instance: a file whose method has two local variables and a `finally` clause is loaded, and requests memory for 12
elements: 5 rows, 2 types, 1 method of the class, 2 local variables, 1 clause and 1 method of the assembly. -/
example : (let x := loadFileR .debug (fun _ => pure ()) 100 (Ex.hugeAsm [7, 2, 8, 8] [0x1b, 0x30, 8, 0, 1, 0, 0, 0, 1, 0, 0, 0x11, 0x2a, 0, 0, 0,
    1, 16, 0, 0, 2, 0, 0, 0, 1, 0, 0, 1, 0, 0, 0, 0] 1).file Ex.coreWorld
    ((match x.1.1 with | .ok _ => true | _ => false), x.2)) = (true, 12) := by decide +kernel

end Clr
