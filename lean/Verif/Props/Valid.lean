import Verif.Lemmas.MidSelf
import Verif.Props.Acyclic
/-! # C85: well-formed assemblies load -/

namespace Clr
open Spec

/-- The chain of bases of every registered type ends, and every type has a size. -/
def Spec.Sized (cfg : Cfg) (w : World) : Prop :=
  ∀ (t : Nat) r, w.types[t]? = some r → (∃ n, Depth w t n) ∧ ∃ fuel s, typeSize cfg w fuel t = .ok s

/-- Full statement of C85, for the tables of a file: they can be loaded when the entry point, if there is one, is a method
of the file. Entry point `e` is row `e + 1`. -/
def C85_full (cfg : Cfg) : Prop :=
  ∀ (w : World) (m : Metadata) (d : Decls) (ref : Name → Prop) (rank size : Name → Nat) (name : Name), Reached cfg w →
    WellFormed (fun e => e < m.tables.methodDef.length) m w d → FiniteSizes cfg m w d ref rank size →
    ∃ G, ∀ fuel ≥ G, ∃ a w', loadSelf cfg fuel m name w = (.ok a, w')

theorem loadSelf_wellFormed {cfg : Cfg} {w : World} (h : Inv w) {m : Metadata} {d : Decls} {ref : Name → Prop}
    {rank size : Name → Nat} (name : Name) (hwf : WellFormed (fun e => 1 ≤ e) m w d) (hf : FiniteSizes cfg m w d ref rank size) :
    ∃ G, ∀ fuel ≥ G, ∃ a w', loadSelf cfg fuel m name w = (.ok a, w') ∧ Sized cfg w' ∧ Mid m w d w' ∧ a.id = w.nextAssembly ∧
      w'.types.length ≤ w.types.length + m.tables.typeDef.length +
        sumRun (fun j => brackets (d.fieldType j)) 1 m.tables.field.length + sumRun (methodBrackets d) 1 m.tables.methodDef.length := by
  obtain ⟨G, hG⟩ := mid_size h hf hwf
  obtain ⟨C, hC⟩ := mid_depth h hf hwf.typeNames
  refine ⟨G, fun fuel hge => ?_⟩
  obtain ⟨a, w', h1, h2, h3⟩ := loadSelf_mid h hwf hf (fun wi hm t tr htr => hG wi hm fuel hge t tr htr) name
  refine ⟨a, w', h1, fun t r hr => ⟨?_, ?_⟩, h2, h3⟩
  · obtain ⟨n, -, hn⟩ := hC w' h2 t (List.getElem?_eq_some_iff.mp hr).1
    exact ⟨n, hn⟩
  · obtain ⟨s, hs, -⟩ := hG w' h2 G (Nat.le_refl _) t r hr
    exact ⟨G, s, hs⟩

/-- **C85, partial.** An assembly with well-formed tables, whose types do not contain themselves, is loaded without an
error, and afterwards the types in the registry are again such that the next one can be loaded.

Missing: an entry point in row 1 of the method table, which is not accepted (`C85_refuted`). -/
theorem C85_partial (cfg : Cfg) (w : World) (h : Reached cfg w) (m : Metadata) (d : Decls) (ref : Name → Prop)
    (rank size : Name → Nat) (name : Name) (hwf : WellFormed (fun e => 1 ≤ e) m w d)
    (hf : FiniteSizes cfg m w d ref rank size) :
    ∃ G, ∀ fuel ≥ G, ∃ a w', loadSelf cfg fuel m name w = (.ok a, w') ∧ Sized cfg w' := by
  obtain ⟨G, hG⟩ := loadSelf_wellFormed h.inv name hwf hf
  refine ⟨G, fun fuel hge => ?_⟩
  obtain ⟨a, w', h1, h2, -⟩ := hG fuel hge
  exact ⟨a, w', h1, h2⟩

theorem loadRefs_present (load : Name → M AssemblyRec) (m : Metadata) (w : World) (rows : List AssemblyRefRow)
    (h : ∀ row ∈ rows, ∃ n, m.string row.name = .ok (some n) ∧ ∃ a ∈ w.assemblies, a.name = n) :
    loadRefs load m rows w = (.ok (), w) := by
  induction rows with
  | nil => rfl
  | cons row rows ih =>
    obtain ⟨n, hn, a, ha, hname⟩ := h row List.mem_cons_self
    unfold loadRefs
    rw [M.liftM_bind_ok hn, M.liftM_bind_ok (show Res.ofOption _ (some n) = .ok n from rfl)]
    have hany : w.assemblies.any (·.name = n) = true := by
      rw [List.any_eq_true]; exact ⟨a, ha, by simp [hname]⟩
    rw [M.view_bind_ok (show Res.ok (w.assemblies.any (·.name = n)) = .ok true by rw [hany]), if_pos rfl]
    exact ih fun row hr => h row (List.mem_cons_of_mem _ hr)

theorem loadData_wellFormed {cfg : Cfg} (fs : Name → Option Bytes) {w : World} (h : Inv w) {data : Bytes} {m : Metadata}
    {d : Decls} {ref : Name → Prop} {rank size : Name → Nat} {k : Nat} {row : AssemblyRow} {name : Name}
    (hm : readMetadata cfg data = .ok m) (ha : m.tables.assembly[0]? = some row) (hn : m.string row.name = .ok (some name))
    (hrefs : ∀ r ∈ m.tables.assemblyRef, ∃ n, m.string r.name = .ok (some n) ∧ ∃ a ∈ w.assemblies, a.name = n)
    (hk : m.cliHeader.entryPoint = ⟨6 * 2 ^ 24 + k⟩) (hk' : k < 2 ^ 24) (hk1 : k ≠ 1)
    (hwf : WellFormed (fun _ => True) m w d)
    (hf : FiniteSizes cfg m w d ref rank size) :
    ∃ G, ∀ depth, ∀ fuel ≥ G, ∃ a w', loadData cfg fs (depth + 1) fuel data w = (.ok a, w') ∧
      loadSelf cfg fuel m name w = (.ok a, w') ∧ Sized cfg w' ∧ Mid m w d w' ∧ a.id = w.nextAssembly ∧
      w'.types.length ≤ w.types.length + m.tables.typeDef.length +
        sumRun (fun j => brackets (d.fieldType j)) 1 m.tables.field.length + sumRun (methodBrackets d) 1 m.tables.methodDef.length := by
  have hent := readMetadata_entry hm
  unfold entryPointHandle at hent
  rw [hk, token_index 6 k hk'] at hent
  have hwf' : WellFormed (fun e => 1 ≤ e) m w d :=
    { hwf with entryPoint := fun e he => ⟨by
        by_cases h0 : k = 0
        · rw [if_pos h0, he] at hent
          simp at hent
        · rw [if_neg h0, usub_ok (by omega), he] at hent
          simp only [Res.ok_bind, Res.pure_eq, Res.ok.injEq, Option.some.injEq] at hent
          omega, (hwf.entryPoint e he).2⟩ }
  obtain ⟨G, hG⟩ := loadSelf_wellFormed h name hwf' hf
  refine ⟨G, fun depth fuel hge => ?_⟩
  obtain ⟨a, w', h1, h2⟩ := hG fuel hge
  refine ⟨a, w', ?_, h1, h2⟩
  unfold loadData
  have ht : tableIndex cfg m.tables.assembly 1 = .ok row := by
    unfold tableIndex
    rw [usub_ok (Nat.le_refl 1), Res.ok_bind]
    simp [ha]
  rw [M.liftM_bind_ok hm, M.liftM_bind_ok ht, M.liftM_bind_ok (string!_of hn), M.bind_ok (loadRefs_present _ m w _ hrefs)]
  exact h1

/-- **C85, files.** The file of such an assembly, with the assemblies it refers to loaded, is loaded without an error if the
entry point is not in the first row. -/
theorem C85_file (cfg : Cfg) (fs : Name → Option Bytes) (w : World) (h : Reached cfg w) (data : Bytes) (m : Metadata)
    (d : Decls) (ref : Name → Prop) (rank size : Name → Nat) (k : Nat) (row : AssemblyRow) (name : Name)
    (hm : readMetadata cfg data = .ok m) (ha : m.tables.assembly[0]? = some row) (hn : m.string row.name = .ok (some name))
    (hrefs : ∀ r ∈ m.tables.assemblyRef, ∃ n, m.string r.name = .ok (some n) ∧ ∃ a ∈ w.assemblies, a.name = n)
    (hk : m.cliHeader.entryPoint = ⟨6 * 2 ^ 24 + k⟩) (hk' : k < 2 ^ 24) (hk1 : k ≠ 1)
    (hwf : WellFormed (fun _ => True) m w d)
    (hf : FiniteSizes cfg m w d ref rank size) :
    ∃ G, ∀ depth, ∀ fuel ≥ G, ∃ a w', loadData cfg fs (depth + 1) fuel data w = (.ok a, w') ∧ Sized cfg w' := by
  obtain ⟨G, hG⟩ := loadData_wellFormed fs h.inv hm ha hn hrefs hk hk' hk1 hwf hf
  refine ⟨G, fun depth fuel hge => ?_⟩
  obtain ⟨a, w', h1, -, h2, -⟩ := hG depth fuel hge
  exact ⟨a, w', h1, h2⟩

namespace Ex

def validStrings : List String :=
  ["app", "core", "System", "Object", "ValueType", "Console", "Write", "Point", "Node", "I", "X", "Y", "next", "at", "count",
   "data", "Get", "p", "Main"]

/-- `struct Point { int X; int Y; }`, `class Node : I { Node next; Point at; static int count; int[] data; }` with methods
`static int Get(Point p)` and `static void Main()`, and `interface I`. -/
def validAsm (entry : Nat) : Asm where
  strings := validStrings
  blobs := [[0x06, 0x08], [0x06, 0x12, 0x08], [0x06, 0x11, 0x04], [0x06, 0x1d, 0x08], [0x00, 1, 0x08, 0x11, 0x04], [0x00, 0, 0x01],
    [0x00, 1, 0x01, 0x0e]]
  tables :=
    [(0x01, [typeRefRow validStrings "System" "Object", typeRefRow validStrings "System" "ValueType",
             typeRefRow validStrings "System" "Console"]),
     (0x02, [typeRow validStrings 0 "" "Point" (refRow 2) 1 1, typeRow validStrings 0 "" "Node" (refRow 1) 3 1,
             typeRow validStrings 0xa0 "" "I" 0 7 3]),
     (0x04, [fieldRow validStrings 0 "X" 1, fieldRow validStrings 0 "Y" 1, fieldRow validStrings 0 "next" 4,
             fieldRow validStrings 0 "at" 8, fieldRow validStrings 0x10 "count" 1, fieldRow validStrings 0 "data" 12]),
     (0x06, [methodRow validStrings 0x2000 0 0x10 "Get" 16 1, methodRow validStrings 0x2000 0 0x10 "Main" 22 2]),
     (0x08, [paramRow validStrings 1 "p"]),
     (0x09, [[(2, 2), (2, defRow 3)]]),
     (0x0a, [memberRefRow validStrings 25 "Write" 26]),
     (0x20, [assemblyRow validStrings "app"]),
     (0x23, [assemblyRefRow validStrings "core"])]
  bodies := [0x06, 0x2a]
  entry := entry

/-- The reading of the tables of that file. -/
def validDecls : Decls where
  name k := if k = 0 then "Point".toList else if k = 1 then "Node".toList else "I".toList
  base k := if k = 0 then some "System.ValueType".toList else if k = 1 then some "System.Object".toList else none
  static j := decide (j = 5)
  fieldType j := if j = 3 then .class (.typeDef 2) else if j = 4 then .valueType (.typeDef 1) else
    if j = 6 then .szArray .int else .int
  fieldTypeName j := if j = 3 then "Node".toList else if j = 4 then "Point".toList else
    if j = 6 then "System.Int32[]".toList else "System.Int32".toList
  method j := if j = 1 then ⟨false, false, false, 0, .int, [.valueType (.typeDef 1)]⟩ else ⟨false, false, false, 0, .void, []⟩
  impl _ := .tiny [0x2a]

def validSection (n : Nat) : Section := ⟨[0x2e, 0x74, 0x65, 0x78, 0x74, 0, 0, 0], n, 0x2000, n, 0x200, 0, 0, 0, 0, 0x60000020⟩

def validBlob : Bytes := 0 :: ([[0x06, 0x08], [0x06, 0x12, 0x08], [0x06, 0x11, 0x04], [0x06, 0x1d, 0x08], [0x00, 1, 0x08, 0x11, 0x04],
    [0x00, 0, 0x01], [0x00, 1, 0x01, 0x0e]].map encBlob).flatten

/-- What is read from the file. -/
def ValidFacts (m : Metadata) : Prop :=
  m.tables.typeDef.map (fun r => (r.baseType.typeDefOrRef, r.fieldList, r.methodList, m.string r.name, m.string r.nspace)) =
    [(.typeRef 2, 1, 1, .ok (some "Point".toList), .ok (some [])), (.typeRef 1, 3, 1, .ok (some "Node".toList), .ok (some [])),
     (.typeDef 0, 7, 3, .ok (some "I".toList), .ok (some []))] ∧
  m.tables.typeRef.map (fun r => (m.string r.name, m.string r.nspace)) =
    [(.ok (some "Object".toList), .ok (some "System".toList)), (.ok (some "ValueType".toList), .ok (some "System".toList)),
     (.ok (some "Console".toList), .ok (some "System".toList))] ∧
  m.tables.field.map (fun r => (r.attributes.isStatic, r.signature, m.string r.name)) =
    [(false, 1, .ok (some "X".toList)), (false, 1, .ok (some "Y".toList)), (false, 4, .ok (some "next".toList)),
     (false, 8, .ok (some "at".toList)), (true, 1, .ok (some "count".toList)), (false, 12, .ok (some "data".toList))] ∧
  m.tables.methodDef.map (fun r => (r.rva, r.signature, r.paramList, m.string r.name)) =
    [(0x2000, 16, 1, .ok (some "Get".toList)), (0x2000, 22, 2, .ok (some "Main".toList))] ∧
  (∀ r ∈ m.tables.methodDef, r.implAttributes.internalCall = false ∧ r.attributes.pinvokeImpl = false ∧
    r.attributes.isAbstract = false) ∧
  m.tables.param.map (fun r => m.string r.name) = [.ok (some "p".toList)] ∧
  m.tables.interfaceImpl.map (fun r => (r.cls, r.iface.typeDefOrRef)) = [(2, .typeDef 3)] ∧
  m.tables.memberRef.map (fun r => (r.parent.table, r.parent.row, m.string r.name)) = [(.typeRef, 3, .ok (some "Write".toList))] ∧
  m.tables.assembly.map (fun r => m.string r.name) = [.ok (some "app".toList)] ∧
  m.tables.assemblyRef.map (fun r => m.string r.name) = [.ok (some "core".toList)] ∧
  m.blobHeap = validBlob ∧
  m.peInfo.sections = [secOf (validSection (m.peData.length - 0x200))] ∧
  0x202 ≤ m.peData.length ∧ m.peData.length < 2 ^ 20 ∧ (m.peData.drop 0x200).take 2 = [0x06, 0x2a]

deriving instance DecidableEq for PeSection

set_option synthInstance.maxHeartbeats 200000 in
set_option synthInstance.maxSize 1000 in
instance (m : Metadata) : Decidable (ValidFacts m) := by
  unfold ValidFacts
  repeat' apply instDecidableAnd

theorem validFacts : holds (fun m => decide (ValidFacts m ∧ m.entryPoint = some 0)) (readMetadata .debug (validAsm 0x06000001).file) = true ∧
    holds (fun m => decide (ValidFacts m ∧ m.entryPoint = some 1 ∧ m.cliHeader.entryPoint = ⟨6 * 2 ^ 24 + 2⟩))
      (readMetadata .debug (validAsm 0x06000002).file) = true := by
  decide +kernel


theorem reg {n : Name} (h : n ∈ coreWorld.types.map (·.fullName)) : Registered coreWorld n := by
  obtain ⟨r, h1, h2⟩ := List.mem_map.mp h
  obtain ⟨t, ht⟩ := List.getElem?_of_mem h1
  exact ⟨t, r, ht, h2⟩

theorem coreNames : ∀ n ∈ numberNames ++ ["System.ValueType".toList, "System.Object".toList, "System.Void".toList,
    "System.Console".toList], n ∈ coreWorld.types.map (·.fullName) := by
  decide +kernel

theorem coreKnown (m : Metadata) : (∀ n ∈ numberNames, Known m coreWorld n) ∧ Known m coreWorld "System.ValueType".toList ∧
    Known m coreWorld "System.Object".toList ∧ Known m coreWorld "System.Void".toList ∧
    Known m coreWorld "System.Int32".toList :=
  ⟨fun n hn => .inl (reg (coreNames n (List.mem_append_left _ hn))), .inl (reg (coreNames _ (by simp))),
    .inl (reg (coreNames _ (by simp))), .inl (reg (coreNames _ (by simp))), .inl (reg (coreNames _ (by simp [numberNames])))⟩

theorem coreConsole : (coreWorld.types[18]?.map fun r => (r.fullName, r.methods.map (·.name))) =
    some ("System.Console".toList, ["Write".toList]) ∧ coreWorld.types.length = 19 := by
  decide +kernel

theorem valid_names {m : Metadata} (h : ValidFacts m) :
    RowNamed m (.typeDef 1) "Point".toList ∧ RowNamed m (.typeDef 2) "Node".toList ∧ RowNamed m (.typeDef 3) "I".toList ∧
    RowNamed m (.typeRef 1) "System.Object".toList ∧ RowNamed m (.typeRef 2) "System.ValueType".toList ∧
    RowNamed m (.typeRef 3) "System.Console".toList := by
  obtain ⟨h1, h2, -⟩ := h
  obtain ⟨a0, l, e1, g0, h1⟩ := List.map_eq_cons_iff.mp h1
  obtain ⟨a1, l, rfl, g1, h1⟩ := List.map_eq_cons_iff.mp h1
  obtain ⟨a2, l, rfl, g2, h1⟩ := List.map_eq_cons_iff.mp h1
  obtain ⟨b0, l, e2, k0, h2⟩ := List.map_eq_cons_iff.mp h2
  obtain ⟨b1, l, rfl, k1, h2⟩ := List.map_eq_cons_iff.mp h2
  obtain ⟨b2, l, rfl, k2, h2⟩ := List.map_eq_cons_iff.mp h2
  simp only [Prod.mk.injEq] at g0 g1 g2 k0 k1 k2
  refine ⟨?_, ?_, ?_, ?_, ?_, ?_⟩
  · exact .typeDef 1 a0 _ _ (by decide) (by simp [e1]) g0.2.2.2.1 g0.2.2.2.2
  · exact .typeDef 2 a1 _ _ (by decide) (by simp [e1]) g1.2.2.2.1 g1.2.2.2.2
  · exact .typeDef 3 a2 _ _ (by decide) (by simp [e1]) g2.2.2.2.1 g2.2.2.2.2
  · exact .typeRef 1 b0 _ _ (by decide) (by simp [e2]) k0.1 k0.2
  · exact .typeRef 2 b1 _ _ (by decide) (by simp [e2]) k1.1 k1.2
  · exact .typeRef 3 b2 _ _ (by decide) (by simp [e2]) k2.1 k2.2

theorem valid_types {m : Metadata} (h : ValidFacts m) : ∃ a0 a1 a2, m.tables.typeDef = [a0, a1, a2] ∧
    (a0.baseType.typeDefOrRef = .typeRef 2 ∧ a0.fieldList = 1 ∧ a0.methodList = 1) ∧
    (a1.baseType.typeDefOrRef = .typeRef 1 ∧ a1.fieldList = 3 ∧ a1.methodList = 1) ∧
    (a2.baseType.typeDefOrRef = .typeDef 0 ∧ a2.fieldList = 7 ∧ a2.methodList = 3) := by
  obtain ⟨h1, -⟩ := h
  obtain ⟨a0, l, e1, g0, h1⟩ := List.map_eq_cons_iff.mp h1
  obtain ⟨a1, l, rfl, g1, h1⟩ := List.map_eq_cons_iff.mp h1
  obtain ⟨a2, l, rfl, g2, h1⟩ := List.map_eq_cons_iff.mp h1
  obtain rfl := List.map_eq_nil_iff.mp h1
  simp only [Prod.mk.injEq] at g0 g1 g2
  exact ⟨a0, a1, a2, e1, ⟨g0.1, g0.2.1, g0.2.2.1⟩, ⟨g1.1, g1.2.1, g1.2.2.1⟩, ⟨g2.1, g2.2.1, g2.2.2.1⟩⟩

theorem valid_body {m : Metadata} (h : ValidFacts m) : RegionAt m 0x2000 (tinyBody [0x2a]) := by
  obtain ⟨-, -, -, -, -, -, -, -, -, -, -, h1, h2, h3, h4⟩ := h
  refine ⟨by omega, [validSection (m.peData.length - 0x200)], validSection (m.peData.length - 0x200), m.peData.drop 0x202, h1,
    ?_, ?_, List.mem_singleton.mpr rfl, ?_, ?_, ?_⟩
  · intro s hs
    rw [List.mem_singleton.mp hs]
    simp only [Section.NoWrap, validSection]; omega
  · intro s hs t ht _ _
    rw [List.mem_singleton.mp hs, List.mem_singleton.mp ht]
  · simp only [Section.Contains, validSection]; omega
  · simp only [validSection]; omega
  · simp only [validSection]
    rw [show tinyBody [0x2a] = [0x06, 0x2a] from rfl, ← h4, show (512 + (8192 - 8192)) = 512 from rfl,
      show (0x202 : Nat) = 512 + 2 from rfl, ← List.drop_drop, List.take_append_drop]


theorem blobHolds_of {m : Metadata} {b content : Bytes} {h : Nat} (hb : m.blobHeap = b)
    (hd : content.length < 2 ^ 29 ∧ b = b.take h ++ encBlob content ++ b.drop (h + (encBlob content).length) ∧ h ≤ b.length ∧
      b.length < 2 ^ 20) :
    BlobHolds m h content := by
  obtain ⟨h1, h2, h3, h4⟩ := hd
  exact ⟨h1, b.take h, b.drop (h + (encBlob content).length), by rw [hb]; exact h2, by rw [List.length_take]; omega,
    by rw [List.length_drop]; omega⟩

theorem valid_resolves {m : Metadata} (h : ValidFacts m) (j : Nat) (hj : 1 ≤ j ∧ j ≤ 6) :
    Resolvable m coreWorld (validDecls.fieldType j) (validDecls.fieldTypeName j) := by
  obtain ⟨n1, n2, -⟩ := valid_names h
  obtain ⟨-, -, -, -, k5⟩ := coreKnown m
  have hint : Resolvable m coreWorld .int "System.Int32".toList := ⟨_, .builtin (n := "System.Int32") rfl, k5⟩
  obtain rfl | rfl | rfl | rfl | rfl | rfl : j = 1 ∨ j = 2 ∨ j = 3 ∨ j = 4 ∨ j = 5 ∨ j = 6 := by omega
  · exact hint
  · exact hint
  · exact ⟨_, .cls n2, .inr ⟨_, n2⟩⟩
  · exact ⟨_, .valueType n1, .inr ⟨_, n1⟩⟩
  · exact hint
  · exact ⟨_, .array (.builtin (n := "System.Int32") rfl), k5⟩

theorem valid_fits (j : Nat) : ElemFits (validDecls.fieldType j) := by
  show ElemFits (if j = 3 then .class (.typeDef 2) else if j = 4 then .valueType (.typeDef 1) else
    if j = 6 then .szArray .int else .int)
  split
  · simp [ElemFits, rowOf]
  · split
    · simp [ElemFits, rowOf]
    · split <;> simp [ElemFits]

theorem valid_blobs (m : Metadata) (h : m.blobHeap = validBlob) :
    (∀ p ∈ [(1, 1), (2, 1), (3, 4), (4, 8), (5, 1), (6, 12)], BlobHolds m p.2 (encFieldSig (validDecls.fieldType p.1))) ∧
    ∀ p ∈ [(1, 16), (2, 22)], BlobHolds m p.2 (encMethodSig (validDecls.method p.1)) := by
  refine ⟨fun p hp => blobHolds_of h ?_, fun p hp => blobHolds_of h ?_⟩
  · revert p; decide +kernel
  · revert p; decide +kernel

theorem valid_methodFits : MethodSigFits ⟨false, false, false, 0, .int, [.valueType (.typeDef 1)]⟩ ∧
    MethodSigFits ⟨false, false, false, 0, .void, []⟩ := by
  refine ⟨⟨?_, ?_, ?_, ?_, trivial⟩, ⟨?_, ?_, ?_, trivial⟩⟩
  · exact Nat.two_pow_pos _
  · show 1 < 2 ^ 29; decide
  · simp [ElemFits]
  · simp [ElemFits, rowOf]
  · exact Nat.two_pow_pos _
  · exact Nat.two_pow_pos _
  · simp [ElemFits]

theorem valid_wellFormed {entry : Nat → Prop} {m : Metadata} (h : ValidFacts m)
    (he : ∀ e, m.entryPoint = some e → entry e ∧ e ≤ 2) : WellFormed entry m coreWorld validDecls := by
  obtain ⟨n1, n2, n3, n4, n5, n6⟩ := valid_names h
  obtain ⟨k1, k2, k3, k4, k5⟩ := coreKnown m
  have hres := valid_resolves h
  have hbody := valid_body h
  obtain ⟨a0, a1, a2, et, ⟨p1, p2, p3⟩, ⟨p4, p5, p6⟩, ⟨p7, p8, p9⟩⟩ := valid_types h
  obtain ⟨-, g2, g3, g4, g5, g6, g7, g8, -, -, hblob, -⟩ := h
  have lf : m.tables.field.length = 6 := by have := congrArg List.length g3; simpa using this
  have lm : m.tables.methodDef.length = 2 := by have := congrArg List.length g4; simpa using this
  have lr : m.tables.typeRef.length = 3 := by have := congrArg List.length g2; simpa using this
  have fieldAt : ∀ {j : Nat} {row : FieldRow} {x : Bool × Nat × Res (Option Name)}, m.tables.field[j]? = some row →
      (m.tables.field.map (fun r => (r.attributes.isStatic, r.signature, m.string r.name)))[j]? = some x →
      row.attributes.isStatic = x.1 ∧ row.signature = x.2.1 ∧ m.string row.name = x.2.2 := by
    intro j row x h1 h2
    rw [List.getElem?_map, h1, Option.map_some, Option.some.injEq] at h2
    subst h2; exact ⟨rfl, rfl, rfl⟩
  have methAt : ∀ {j : Nat} {row : MethodDefRow} {x : Nat × Nat × Nat × Res (Option Name)}, m.tables.methodDef[j]? = some row →
      (m.tables.methodDef.map (fun r => (r.rva, r.signature, r.paramList, m.string r.name)))[j]? = some x →
      row.rva = x.1 ∧ row.signature = x.2.1 ∧ row.paramList = x.2.2.1 ∧ m.string row.name = x.2.2.2 := by
    intro j row x h1 h2
    rw [List.getElem?_map, h1, Option.map_some, Option.some.injEq] at h2
    subst h2; exact ⟨rfl, rfl, rfl, rfl⟩
  rw [g3] at fieldAt
  rw [g4] at methAt
  refine ⟨k1, k2, ?_, ?_, ?_, ?_, ?_, ?_, ?_, ?_, ?_, ?_, ?_, ?_⟩
  · intro k hk
    rw [et] at hk
    obtain rfl | rfl | rfl : k = 0 ∨ k = 1 ∨ k = 2 := by simp at hk; omega
    exacts [n1, n2, n3]
  · intro k row hrow
    rw [et] at hrow
    have hk := (List.getElem?_eq_some_iff.mp hrow).1
    obtain rfl | rfl | rfl : k = 0 ∨ k = 1 ∨ k = 2 := by simp at hk; omega
    all_goals simp only [List.getElem?_cons_zero, List.getElem?_cons_succ, Option.some.injEq] at hrow; subst hrow
    · rw [p1]; exact .some n5 k2
    · rw [p4]; exact .some n4 k3
    · rw [p7]; exact .none rfl
  · rw [et, lf]; simp only [List.map_cons, List.map_nil, p2, p5, p8]; decide
  · rw [et, lm]; simp only [List.map_cons, List.map_nil, p3, p6, p9]; decide
  · intro j row hrow
    have hj := (List.getElem?_eq_some_iff.mp hrow).1
    rw [lf] at hj
    obtain rfl | rfl | rfl | rfl | rfl | rfl : j = 0 ∨ j = 1 ∨ j = 2 ∨ j = 3 ∨ j = 4 ∨ j = 5 := by omega
    all_goals
      obtain ⟨f1, f2, f3⟩ := fieldAt hrow rfl
      exact ⟨⟨_, f3⟩, by rw [f2]; exact (valid_blobs m hblob).1 (_, _) (by simp), valid_fits _, hres _ (by omega), by rw [f1]; rfl⟩
  · intro k j row hown hrow
    have hj := (List.getElem?_eq_some_iff.mp hrow).1
    rw [lm] at hj
    obtain ⟨q1, q2, q3⟩ := g5 row (List.mem_of_getElem? hrow)
    obtain ⟨prow, l, ep, hp, -⟩ := List.map_eq_cons_iff.mp g6
    obtain rfl | rfl : j = 0 ∨ j = 1 := by omega
    · obtain ⟨f1, f2, f3, f4⟩ := methAt hrow rfl
      refine ⟨by rw [f2]; exact (valid_blobs m hblob).2 (_, _) (by simp), valid_methodFits.1,
        ⟨_, _, .builtin (n := "System.Int32") rfl, k5⟩, ?_, ?_, ⟨_, f4, .tiny q1 q2 q3 (by decide) (by rw [f1]; exact hbody)⟩⟩
      · intro e he
        obtain rfl : e = .valueType (.typeDef 1) := List.mem_singleton.mp he
        exact ⟨_, _, .valueType n1, .inr ⟨_, n1⟩⟩
      · intro i hi
        obtain rfl : i = 0 := Nat.lt_one_iff.mp hi
        rw [f3]
        exact ⟨by decide, prow, _, by rw [ep]; rfl, hp⟩
    · obtain ⟨f1, f2, f3, f4⟩ := methAt hrow rfl
      refine ⟨by rw [f2]; exact (valid_blobs m hblob).2 (_, _) (by simp), valid_methodFits.2,
        ⟨_, _, .builtin (n := "System.Void") rfl, k4⟩, ?_, ?_, ⟨_, f4, .tiny q1 q2 q3 (by decide) (by rw [f1]; exact hbody)⟩⟩
      · intro e he; exact absurd he List.not_mem_nil
      · intro i hi; exact absurd hi (Nat.not_lt_zero i)
  · intro row hrow
    obtain ⟨r, l, e, hr, hl⟩ := List.map_eq_cons_iff.mp g7
    obtain rfl := List.map_eq_nil_iff.mp hl
    rw [e, List.mem_singleton] at hrow
    subst hrow
    simp only [Prod.mk.injEq] at hr
    rw [hr.1, hr.2]
    exact ⟨_, _, n2, n3, .inr ⟨_, n3⟩, by decide⟩
  · intro k hk
    rw [lr] at hk
    have hreg := fun n hn => reg (coreNames n (List.mem_append_right numberNames hn))
    obtain rfl | rfl | rfl : k = 0 ∨ k = 1 ∨ k = 2 := by omega
    exacts [⟨_, n4, hreg _ (by simp)⟩, ⟨_, n5, hreg _ (by simp)⟩, ⟨_, n6, hreg _ (by simp)⟩]
  · intro row hrow _
    obtain ⟨r, l, e, hr, hl⟩ := List.map_eq_cons_iff.mp g8
    obtain rfl := List.map_eq_nil_iff.mp hl
    rw [e, List.mem_singleton] at hrow
    subst hrow
    simp only [Prod.mk.injEq] at hr
    obtain ⟨c1, c2⟩ := coreConsole
    obtain ⟨tr, c3, c4⟩ := Option.map_eq_some_iff.mp c1
    simp only [Prod.mk.injEq] at c4
    obtain ⟨x, xl, e2, hx, -⟩ := List.map_eq_cons_iff.mp c4.2
    rw [hr.2.1]
    refine ⟨_, 18, tr, x, n6, c3, c4.1, ?_, by rw [e2]; exact List.mem_cons_self, by rw [hx]; exact hr.2.2⟩
    intro t' r' hlt ht'
    have := (List.getElem?_eq_some_iff.mp ht').1
    omega
  · intro e hee
    obtain ⟨x, y⟩ := he e hee
    exact ⟨x, by rw [lm]; exact y⟩
  · rw [lf, lm]; decide
  · rw [lf, lm, et, coreConsole.2]; show 19 + 3 + _ + _ < _; decide


def validRef (n : Name) : Prop := n ∈ ["System.Object".toList, "System.Array".toList, "Node".toList, "System.Int32[]".toList]
instance (n : Name) : Decidable (validRef n) := by unfold validRef; infer_instance
def validRank (n : Name) : Nat := if n = "Node".toList then 2 else if n = "Point".toList then 1 else 0
def validSize (n : Name) : Nat := if n = "Node".toList then 1000 else if n = "Point".toList then 100 else 8

theorem coreSizes : ∀ t < 19, holds (fun s => decide (s ≤ 8)) (typeSize .debug coreWorld 100 t) = true := by decide +kernel

theorem coreRefs : ∀ t < 19, ∀ r ∈ coreWorld.types[t]?, validRef r.fullName →
    r.interfaces = [] ∧ ∀ b ∈ r.base, ∀ br ∈ coreWorld.types[b]?, validRef br.fullName := by
  decide +kernel

theorem valid_size (n : Name) : 8 ≤ validSize n := by
  unfold validSize; split
  · decide
  · split <;> decide

theorem valid_finite {m : Metadata} (h : ValidFacts m) :
    FiniteSizes .debug m coreWorld validDecls validRef validRank validSize := by
  obtain ⟨a0, a1, a2, et, ⟨p1, p2, p3⟩, ⟨p4, p5, p6⟩, ⟨p7, p8, p9⟩⟩ := valid_types h
  have lt : m.tables.typeDef.length = 3 := by rw [et]; rfl
  obtain ⟨-, -, g3, -⟩ := h
  have lf : m.tables.field.length = 6 := by have := congrArg List.length g3; simpa using this
  have ef : m.tables.typeDef.map (·.fieldList) = [1, 3, 7] := by rw [et]; simp only [List.map_cons, List.map_nil, p2, p5, p8]
  have htypes : ∀ {t : Nat} {r : TypeRec}, coreWorld.types[t]? = some r → t < 19 := by
    intro t r hr
    have := (List.getElem?_eq_some_iff.mp hr).1
    rw [coreConsole.2] at this; exact this
  have rows : ∀ {k : Nat} {row : TypeDefRow}, m.tables.typeDef[k]? = some row → ∃ s, (k, s) ∈ [(0, 1), (1, 3), (2, 7)] ∧ row.fieldList = s := by
    intro k row hrow
    have hk := (List.getElem?_eq_some_iff.mp hrow).1
    rw [et] at hrow hk
    obtain rfl | rfl | rfl : k = 0 ∨ k = 1 ∨ k = 2 := by simp at hk; omega
    all_goals simp only [List.getElem?_cons_zero, List.getElem?_cons_succ, Option.some.injEq] at hrow; subst hrow
    exacts [⟨1, by simp, p2⟩, ⟨3, by simp, p5⟩, ⟨7, by simp, p8⟩]
  refine ⟨by decide, by decide, ?_, ?_, ?_, ?_, ?_, ?_, fun n _ => valid_size n, ?_, ?_, ?_, ?_⟩
  · intro t r hr hv
    obtain ⟨h1, h2⟩ := coreRefs t (htypes hr) r hr hv
    refine ⟨fun b br hb hbr => h2 b hb br hbr, fun i hi => ?_⟩
    rw [h1] at hi
    exact absurd hi List.not_mem_nil
  · rw [lt]
    have : ∀ k < 3, validRef (validDecls.name k) → ∀ b ∈ validDecls.base k, validRef b := by decide
    exact this
  · rw [lt]
    have : ∀ k < 3, ∀ b ∈ validDecls.base k, validRank b < validRank (validDecls.name k) := by decide
    exact fun k hk b hb _ => this k hk b hb
  · rw [lf]
    have : ∀ j < 7, 1 ≤ j → validDecls.static j = false → refElem (validDecls.fieldType j) = true →
        validRef (validDecls.fieldTypeName j) := by decide
    exact fun j h1 h2 => this j (by omega) h1
  · rw [lf, ef]
    rintro k j ⟨⟨s, h1, h2⟩, h3, h4⟩ h5 h6 - h8
    have : ∀ j < 7, j ≠ 4 → refElem (validDecls.fieldType j) = false → validDecls.fieldTypeName j ∈ numberNames := by decide
    obtain rfl : j = 4 := by
      by_contra hne
      exact h8 (this j (by omega) hne h6)
    have hk := (List.getElem?_eq_some_iff.mp h1).1
    simp only [List.length_cons, List.length_nil] at hk
    obtain rfl | rfl | rfl : k = 0 ∨ k = 1 ∨ k = 2 := by omega
    · have := h3 3 rfl; omega
    · decide
    · simp only [List.getElem?_cons_zero, List.getElem?_cons_succ, Option.some.injEq] at h1; omega
  · intro t r hr
    refine ⟨ends_of (fun t => if t = 1 then 0 else if t = 2 then 1 else 2) (by decide +kernel) t (List.getElem?_eq_some_iff.1 hr).1, ?_⟩
    obtain ⟨s, h1, h2⟩ := holds_iff (coreSizes t (htypes hr))
    exact ⟨100, s, h1, Nat.le_trans (of_decide_eq_true h2) (valid_size _)⟩
  · intro j _ _ _
    exact Nat.le_trans (by decide) (valid_size _)
  · intro k row hrow _
    obtain ⟨s, h1, h2⟩ := rows hrow
    rw [h2, lf, ef]
    have : ∀ p ∈ [(0, 1), (1, 3), (2, 7)], baseWeight validSize (validDecls.base p.1) +
        sumRun (fieldWeight validSize validDecls) p.2 (runLength [1, 3, 7] 6 p.1) ≤ validSize (validDecls.name p.1) := by decide
    exact this (k, s) h1
  · intro k _
    unfold validSize; split
    · decide
    · split <;> decide
  · intro k row hrow
    obtain ⟨s, h1, h2⟩ := rows hrow
    rw [h2, lf, ef]
    have : ∀ p ∈ [(0, 1), (1, 3), (2, 7)], baseWeight validSize (validDecls.base p.1) +
        sumRun (fun j => validSize (validDecls.fieldTypeName j)) p.2 (runLength [1, 3, 7] 6 p.1) < 2 ^ 64 := by decide
    exact this (k, s) h1

end Ex

/-- The hypotheses of `C85_partial` and `C85_file` can be met: the example file with its second method as entry point. -/
example : ∃ m, readMetadata .debug (Ex.validAsm 0x06000002).file = .ok m ∧ Reached .debug Ex.coreWorld ∧
    WellFormed (fun e => 1 ≤ e) m Ex.coreWorld Ex.validDecls ∧
    FiniteSizes .debug m Ex.coreWorld Ex.validDecls Ex.validRef Ex.validRank Ex.validSize ∧
    m.cliHeader.entryPoint = ⟨6 * 2 ^ 24 + 2⟩ := by
  obtain ⟨m, h1, h2⟩ := Ex.holds_iff Ex.validFacts.2
  obtain ⟨h3, h4, h5⟩ := of_decide_eq_true h2
  exact ⟨m, h1, Ex.coreReached, Ex.valid_wellFormed h3 (fun e he => by rw [h4] at he; cases he; decide), Ex.valid_finite h3, h5⟩

/-- It does load: three types, two methods and six fields, and an array type. -/
example : Ex.holds (fun a => decide (a.types = [19, 20, 21] ∧ a.methodDefs.length = 2 ∧ a.fields.length = 6 ∧
    a.entryPoint.map (·.name) = some "Get".toList))
    (loadData .debug Ex.noFiles 1 100 (Ex.validAsm 0x06000002).file Ex.coreWorld).1 = true := by
  decide +kernel

/-- **C85 fails for an entry point in row 1.** The same file with its first method as entry point does not load. -/
theorem C85_refuted : ¬ C85_full .debug := by
  intro hfull
  obtain ⟨m, h1, h2⟩ := Ex.holds_iff Ex.validFacts.1
  obtain ⟨h3, h4⟩ := of_decide_eq_true h2
  have lm : m.tables.methodDef.length = 2 := by have := congrArg List.length h3.2.2.2.1; simpa using this
  obtain ⟨G, hG⟩ := hfull Ex.coreWorld m Ex.validDecls _ _ _ "app".toList Ex.coreReached
    (Ex.valid_wellFormed h3 (fun e he => by rw [h4] at he; cases he; exact ⟨by rw [lm]; decide, by decide⟩)) (Ex.valid_finite h3)
  obtain ⟨a, w', h5⟩ := hG G (Nat.le_refl _)
  have hs := loadSelf_ok Ex.coreReached.inv h5
  have hent := hs.entry
  rw [h4] at hent
  unfold resolveEntryPoint at hent
  dsimp only at hent
  rw [token_new 0 (by decide)] at hent
  obtain ⟨o, h6, -⟩ := Res.bind_eq_ok.mp hent
  rw [resolveMethod_def _ (by decide)] at h6
  cases h6

end Clr
