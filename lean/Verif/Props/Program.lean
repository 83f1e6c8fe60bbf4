import Verif.Lemmas.Program
import Verif.Lemmas.TypeFuel
/-! # C90: programs with objects, arrays, strings and output, from the file to the result -/

namespace Clr
open Spec

/-- The result the host gets agrees with the outcome, for results that are not objects. -/
def DeliversVal (r : Res RunResult) : Outcome (Option Obj.Val) → Prop
  | .done (some (.num a)) => r = .ok (.number a.value)
  | .done (some (.ref _)) => ∃ b, r = .ok (.object b)
  | .done none => r = .ok .void
  | .stops => r = .panic
  | .unfinished => r = .timeout
  | .undefined => False

/-- The claim C90: a well-formed assembly file can be loaded into a started runtime, which writes nothing; and its static
methods, when executed, write and return what the abstract machine says of the program `prog` that the tables of the file
declare. `j` is the row of the method, named by its token. `ok` says which encodings programs use, `init` what locals hold at
first, `negative` whether a negative array length stops the program, `room` bounds the number of variables in use at the
same time, `heap` the bytes that all objects need, `good` are the results considered, and `entry` is about the row of the entry
point. -/
def FileRuns (cfg : Cfg) (ok : Bytes → Prop) (init : Option Obj.Val) (negative : Bool) (room heap : Nat → Prop)
    (good : Option Obj.Val → Prop) (entry : Nat → Prop) : Prop :=
  ∀ (fs : Name → Option Bytes) (w : World) (data : Bytes) (m : Metadata) (d : Decls) (ref : Name → Prop) (rank size : Name → Nat)
    (e : Nat) (row : AssemblyRow) (name : Name), Reached cfg w → readMetadata cfg data = .ok m →
    m.tables.assembly[0]? = some row → m.string row.name = .ok (some name) →
    (∀ r ∈ m.tables.assemblyRef, ∃ n, m.string r.name = .ok (some n) ∧ ∃ a ∈ w.assemblies, a.name = n) →
    m.cliHeader.entryPoint = ⟨6 * 2 ^ 24 + e⟩ → e < 2 ^ 24 → entry e →
    WellFormed (fun _ => True) m w d → FiniteSizes cfg m w d ref rank size → Started m w d →
    ∃ G, ∀ depth, ∀ fuel ≥ G, ∃ a w', loadData cfg fs (depth + 1) fuel data w = (.ok a, w') ∧ w'.output = w.output ∧
      ∃ T, ∀ tf ≥ T, ∀ prog : Nat → Option Obj.Proc, (∀ i q, prog i = some q → ProcIs m w d i q) →
        ∀ j p mrow, prog j = some p → m.tables.methodDef[j - 1]? = some mrow → mrow.attributes.isStatic = true →
          ∃ x, a.resolveMethod cfg ⟨6 * 2 ^ 24 + j⟩ = .ok (some x) ∧
            ∀ (ops : FloatOps) (n k : Nat) (args : List Obj.Num) (s : Obj.Store) (o : Outcome (Option Obj.Val)), LawfulEq ops →
              args.length = p.params → room (p.locals + k) → heap s.cost → (∀ r, o = .done r → good r) →
              Obj.Runs ⟨ops, cfg.checks, negative, ok, init, prog⟩ n k p 0 ⟨[], []⟩ (p.start init (args.map .num)) s o →
              (hostExecute cfg ops tf n w' x (args.map Obj.Num.value)).2.world.output = w.output ++ s.output ∧
              DeliversVal (hostExecute cfg ops tf n w' x (args.map Obj.Num.value)).1 o

/-- **C90** for the programs of C89 and entry points in other rows than row 1.

Missing: what C89 leaves out (locals that are read before they are assigned, more than 64 variables in use, more than 1024
bytes of objects, objects as results, `ldarg` and `starg` with a two-byte index, and negative array lengths in builds without
overflow checks), classes with other fields than numbers of the four types, and entry points in row 1 (C85). -/
theorem C90_partial (cfg : Cfg) : FileRuns cfg (fun l => ¬ Wide l) none cfg.checks (· ≤ 64) (· ≤ 1024)
    (fun r => ∀ b, r ≠ some (.ref b)) (· ≠ 1) := by
  intro fs w data m d ref rank size e row name h hm ha hn hrefs hk hk' hk1 hwf hf hst
  obtain ⟨G, hG⟩ := loadData_wellFormed fs h.inv hm ha hn hrefs hk hk' hk1 hwf hf
  refine ⟨G, fun depth fuel hge => ?_⟩
  obtain ⟨a, w', h1, h2, h3, h4, h5, h6⟩ := hG depth fuel hge
  have hr : Reached cfg w' := by have := Reached.loadFile fs (depth + 1) fuel data h; rwa [h1] at this
  have hsil := loadData_silent (cfg := cfg) fs (depth + 1) fuel data w
  rw [h1] at hsil
  obtain ⟨hout, hpr⟩ := hsil
  obtain ⟨ps, hps⟩ := Option.ne_none_iff_exists'.1 (show w'.primitives ≠ none by rw [hpr]; exact hst.primitives)
  obtain ⟨hprim, hready, meth, fld, g1, T, g2⟩ := loaded_program hwf h.inv (loadSelf_ok h.inv h2) h4 hr.settled h.freshId h5 hst h3 h6
    ⟨ps, hps, hr.named ps hps⟩
  refine ⟨a, w', h1, hout, T, fun tf htf prog hprog j p mrow hp hrow hstat => ⟨meth j, ?_, ?_⟩⟩
  · obtain ⟨_, q1, q2, -⟩ := (hprog j p hp).row
    have := (List.getElem?_eq_some_iff.mp q2).1
    exact (g1 j q1 (by omega)).1
  · intro ops n k args s o hops hargs hroom hheap hgood hruns
    have hstatic : (meth j).isStatic = true := by
      obtain ⟨_, q1, q2, -⟩ := (hprog j p hp).row
      have := (List.getElem?_eq_some_iff.mp q2).1
      obtain ⟨row', q3, q4⟩ := (g1 j q1 (by omega)).2
      rw [hrow] at q3; cases q3
      rw [q4]; exact hstat
    have := C89_partial cfg ops tf w' prog meth fld j p args n k s o hops hprim hready (fun i q hq => g2 tf htf i q (hprog i q hq)) hp hstatic
      hargs hroom hheap hgood hruns
    dsimp only [] at hout
    rw [hout] at this
    refine ⟨this.1, ?_⟩
    have h7 := this.2
    unfold DeliversVal
    split at h7 <;> exact h7

namespace Ex
open Obj

/-- An assembly without types, in the place of the console library. -/
def conAsm : Asm where
  strings := ["con"]
  tables := [(0x20, [assemblyRow ["con"] "con"])]

/-- The runtime started with the core library. -/
def runWorld : World := (newRuntime Cfg.debug noFiles 1 100 coreFile conAsm.file {}).2

theorem runReached : Reached Cfg.debug runWorld := .runtime _ _ _ _ _ .start

def progStrings : List String :=
  ["app", "core", "System", "Object", "Int32", "Console", "Write", "P", "Q", "x", "y", "Main", "Sum", ".ctor", "n"]

def progMainCode : Bytes :=
  [0x73, 3, 0, 0, 6, 0x25, 0x02, 0x7d, 1, 0, 0, 4, 0x25, 0x23, 0, 0, 0, 0, 0, 0, 0x14, 0x40, 0x7d, 2, 0, 0, 4, 0x72, 1, 0, 0, 0x70,
   0x28, 1, 0, 0, 0x0a, 0x02, 0x8d, 2, 0, 0, 1, 0x25, 0x17, 0x02, 0x9e, 0x17, 0x94, 0x10, 0, 0x7b, 1, 0, 0, 4, 0x28, 2, 0, 0, 6, 0x2a]
def progSumCode : Bytes := [0x02, 0x2d, 0x02, 0x16, 0x2a, 0x02, 0x17, 0x59, 0x28, 2, 0, 0, 6, 0x02, 0x58, 0x2a]

/-- `class P { int x; static int Main(int n); static int Sum(int n); }` and `class Q : P { double y; }`, with
`Main(n) { Q q = new Q(); q.x = n; q.y = 5.0; Console.Write("Hi"); int[] a = new int[n]; a[1] = n; n = a[1]; return Sum(q.x); }`
(`q` and `a` are on the evaluation stack) and `Sum(n) { return n == 0 ? 0 : Sum(n - 1) + n; }`. -/
def progAsm : Asm where
  strings := progStrings
  blobs := [[0x06, 0x08], [0x00, 1, 0x08, 0x08], [0x20, 0, 0x01], [0x00, 1, 0x01, 0x0e], [0x06, 0x0d]]
  userStrings := 0 :: encUserString [0x48, 0x69] 0
  tables :=
    [(0x01, [typeRefRow progStrings "System" "Object", typeRefRow progStrings "System" "Int32",
             typeRefRow progStrings "System" "Console"]),
     (0x02, [typeRow progStrings 0 "" "P" (refRow 1) 1 1, typeRow progStrings 0 "" "Q" (defRow 1) 2 3]),
     (0x04, [fieldRow progStrings 0 "x" 1, fieldRow progStrings 0 "y" 18]),
     (0x06, [methodRow progStrings 0x2000 0 0x10 "Main" 4 1, methodRow progStrings 0x203f 0 0x10 "Sum" 4 2,
             methodRow progStrings 0x2050 0 0 ".ctor" 9 3]),
     (0x08, [paramRow progStrings 1 "n", paramRow progStrings 1 "n"]),
     (0x0a, [memberRefRow progStrings 25 "Write" 13]),
     (0x20, [assemblyRow progStrings "app"]),
     (0x23, [assemblyRefRow progStrings "core"])]
  bodies := 0xfa :: progMainCode ++ 0x42 :: progSumCode ++ [0x06, 0x2a]
  entry := 0x06000000

/-- The reading of the tables of that file. -/
def progDecls : Decls where
  name k := if k = 0 then "P".toList else "Q".toList
  base k := if k = 0 then some "System.Object".toList else some "P".toList
  static _ := false
  fieldType j := if j = 2 then .double else .int
  fieldTypeName j := if j = 2 then "System.Double".toList else "System.Int32".toList
  method j := if j = 3 then ⟨true, false, false, 0, .void, []⟩ else ⟨false, false, false, 0, .int, [.int]⟩
  impl j := if j = 1 then .tiny progMainCode else if j = 2 then .tiny progSumCode else .tiny [0x2a]

def progBlob : Bytes := 0 :: ([[0x06, 0x08], [0x00, 1, 0x08, 0x08], [0x20, 0, 0x01], [0x00, 1, 0x01, 0x0e], [0x06, 0x0d]].map encBlob).flatten

def progBodies : Bytes := 0xfa :: progMainCode ++ 0x42 :: progSumCode ++ [0x06, 0x2a]

/-- What is read from the file. -/
def ProgFacts (m : Metadata) : Prop :=
  m.tables.typeDef.map (fun r => (r.baseType.typeDefOrRef, r.fieldList, r.methodList, m.string r.name, m.string r.nspace)) =
    [(.typeRef 1, 1, 1, .ok (some "P".toList), .ok (some [])), (.typeDef 1, 2, 3, .ok (some "Q".toList), .ok (some []))] ∧
  m.tables.typeRef.map (fun r => (m.string r.name, m.string r.nspace)) =
    [(.ok (some "Object".toList), .ok (some "System".toList)), (.ok (some "Int32".toList), .ok (some "System".toList)),
     (.ok (some "Console".toList), .ok (some "System".toList))] ∧
  m.tables.field.map (fun r => (r.attributes.isStatic, r.signature, m.string r.name)) =
    [(false, 1, .ok (some "x".toList)), (false, 18, .ok (some "y".toList))] ∧
  m.tables.methodDef.map (fun r => (r.rva, r.signature, r.paramList, r.attributes.isStatic, m.string r.name)) =
    [(0x2000, 4, 1, true, .ok (some "Main".toList)), (0x203f, 4, 2, true, .ok (some "Sum".toList)),
     (0x2050, 9, 3, false, .ok (some ".ctor".toList))] ∧
  (∀ r ∈ m.tables.methodDef, r.implAttributes.internalCall = false ∧ r.attributes.pinvokeImpl = false ∧
    r.attributes.isAbstract = false) ∧
  m.tables.param.map (fun r => m.string r.name) = [.ok (some "n".toList), .ok (some "n".toList)] ∧
  m.tables.interfaceImpl.length = 0 ∧
  m.tables.memberRef.map (fun r => (r.parent.table, r.parent.row, m.string r.name)) = [(.typeRef, 3, .ok (some "Write".toList))] ∧
  m.tables.assembly.map (fun r => m.string r.name) = [.ok (some "app".toList)] ∧
  m.tables.assemblyRef.map (fun r => m.string r.name) = [.ok (some "core".toList)] ∧
  m.blobHeap = progBlob ∧ m.userStringData = 0 :: encUserString [0x48, 0x69] 0 ∧
  m.peInfo.sections = [secOf (validSection (m.peData.length - 0x200))] ∧
  0x252 ≤ m.peData.length ∧ m.peData.length < 2 ^ 20 ∧ (m.peData.drop 0x200).take 82 = progBodies ∧
  m.entryPoint = none ∧ m.cliHeader.entryPoint = ⟨6 * 2 ^ 24 + 0⟩

set_option synthInstance.maxHeartbeats 200000 in
set_option synthInstance.maxSize 1000 in
instance (m : Metadata) : Decidable (ProgFacts m) := by
  unfold ProgFacts
  repeat' apply instDecidableAnd

theorem progFacts : holds (fun m => decide (ProgFacts m)) (readMetadata .debug progAsm.file) = true := by
  decide +kernel

theorem runLength19 : runWorld.types.length = 19 := by decide +kernel

theorem runNames : ∀ n ∈ numberNames ++ ["System.ValueType".toList, "System.Object".toList, "System.Void".toList,
    "System.Console".toList, "System.String".toList], n ∈ runWorld.types.map (·.fullName) := by
  decide +kernel

/-- Where the types of numbers are registered. -/
def kindRow : Kind → Nat
  | .int => 10 | .long => 12 | .single => 14 | .double => 15

theorem kind_mem (κ : Kind) : κ ∈ [Kind.int, .long, .single, .double] := by cases κ <;> decide

/-- What is needed of the types of the runtime: no two of those have the same name, and `Write` is the native one. -/
def RunType (t : Nat) (r : TypeRec) : Prop :=
  (∀ κ ∈ [Kind.int, .long, .single, .double], r.fullName = κ.typeName → t = kindRow κ) ∧ (r.fullName = "System.Object".toList → t = 1) ∧
  (r.fullName = "System.Console".toList → r.methods.all (fun x => decide (x.impl = .internal .consoleWrite) && x.isStatic &&
    decide (x.params.length = 1)) = true) ∧
  r.fullName ≠ "P".toList

instance (t : Nat) (r : TypeRec) : Decidable (RunType t r) := by unfold RunType; infer_instance

theorem runTypes : ∀ t < 19, ∀ r ∈ runWorld.types[t]?, RunType t r := by
  decide +kernel

theorem runSizes : ∀ t < 19, holds (fun s => decide (s ≤ 8)) (typeSize .debug runWorld 100 t) = true := by decide +kernel

/-- Records of some types. -/
theorem runRecs : (runWorld.types[1]?.map fun r => (r.fullName, r.base, r.fields)) = some ("System.Object".toList, none, []) ∧
    (runWorld.types[2]?.map (·.fullName)) = some "System.ValueType".toList ∧ 
    (∀ κ ∈ [Kind.int, .long, .single, .double], (runWorld.types[kindRow κ]?.map (·.base)) = some (some 2)) ∧
    (runWorld.types[18]?.map fun r => (r.fullName, r.methods.map (·.name))) =
      some ("System.Console".toList, ["Write".toList]) ∧ runWorld.primitives.isSome = true ∧ runWorld.output = [] ∧
    runWorld.assemblies.any (fun a => decide (a.name = "core".toList)) = true := by decide +kernel

theorem runReg {n : Name} (h : n ∈ runWorld.types.map (·.fullName)) : Registered runWorld n := by
  obtain ⟨r, h1, h2⟩ := List.mem_map.mp h
  obtain ⟨t, ht⟩ := List.getElem?_of_mem h1
  exact ⟨t, r, ht, h2⟩

theorem runKnown (m : Metadata) : (∀ n ∈ numberNames, Known m runWorld n) ∧ Known m runWorld "System.ValueType".toList ∧
    Known m runWorld "System.Object".toList ∧ Known m runWorld "System.Void".toList ∧
    Known m runWorld "System.Int32".toList ∧ Known m runWorld "System.String".toList ∧ Known m runWorld "System.Double".toList :=
  ⟨fun n hn => .inl (runReg (runNames n (List.mem_append_left _ hn))), .inl (runReg (runNames _ (by simp))),
    .inl (runReg (runNames _ (by simp))), .inl (runReg (runNames _ (by simp))),
    .inl (runReg (runNames _ (by simp [numberNames]))), .inl (runReg (runNames _ (by simp))),
    .inl (runReg (runNames _ (by simp [numberNames])))⟩

theorem prog_names {m : Metadata} (h : ProgFacts m) :
    RowNamed m (.typeDef 1) "P".toList ∧ RowNamed m (.typeDef 2) "Q".toList ∧ RowNamed m (.typeRef 1) "System.Object".toList ∧
    RowNamed m (.typeRef 2) "System.Int32".toList ∧ RowNamed m (.typeRef 3) "System.Console".toList := by
  obtain ⟨h1, h2, -⟩ := h
  obtain ⟨a0, l, e1, g0, h1⟩ := List.map_eq_cons_iff.mp h1
  obtain ⟨a1, l, rfl, g1, h1⟩ := List.map_eq_cons_iff.mp h1
  obtain ⟨b0, l, e2, k0, h2⟩ := List.map_eq_cons_iff.mp h2
  obtain ⟨b1, l, rfl, k1, h2⟩ := List.map_eq_cons_iff.mp h2
  obtain ⟨b2, l, rfl, k2, h2⟩ := List.map_eq_cons_iff.mp h2
  simp only [Prod.mk.injEq] at g0 g1 k0 k1 k2
  exact ⟨.typeDef 1 a0 _ _ (by decide) (by simp [e1]) g0.2.2.2.1 g0.2.2.2.2, .typeDef 2 a1 _ _ (by decide) (by simp [e1]) g1.2.2.2.1 g1.2.2.2.2,
    .typeRef 1 b0 _ _ (by decide) (by simp [e2]) k0.1 k0.2, .typeRef 2 b1 _ _ (by decide) (by simp [e2]) k1.1 k1.2,
    .typeRef 3 b2 _ _ (by decide) (by simp [e2]) k2.1 k2.2⟩

theorem prog_types {m : Metadata} (h : ProgFacts m) : ∃ a0 a1, m.tables.typeDef = [a0, a1] ∧
    (a0.baseType.typeDefOrRef = .typeRef 1 ∧ a0.fieldList = 1 ∧ a0.methodList = 1) ∧
    (a1.baseType.typeDefOrRef = .typeDef 1 ∧ a1.fieldList = 2 ∧ a1.methodList = 3) := by
  obtain ⟨h1, -⟩ := h
  obtain ⟨a0, l, e1, g0, h1⟩ := List.map_eq_cons_iff.mp h1
  obtain ⟨a1, l, rfl, g1, h1⟩ := List.map_eq_cons_iff.mp h1
  obtain rfl := List.map_eq_nil_iff.mp h1
  simp only [Prod.mk.injEq] at g0 g1
  exact ⟨a0, a1, e1, ⟨g0.1, g0.2.1, g0.2.2.1⟩, g1.1, g1.2.1, g1.2.2.1⟩

theorem prog_typeNames {m : Metadata} (h : ProgFacts m) :
    ∀ k < m.tables.typeDef.length, RowNamed m (.typeDef (k + 1)) (progDecls.name k) := by
  obtain ⟨n1, n2, -⟩ := prog_names h
  obtain ⟨a0, a1, et, -⟩ := prog_types h
  intro k hk
  rw [et] at hk
  obtain rfl | rfl : k = 0 ∨ k = 1 := by simp at hk; omega
  exacts [n1, n2]

/-- The assembly declares no other types. -/
theorem prog_declared {m : Metadata} (h : ProgFacts m) {n : Name} (hd : Declared m n) : n = "P".toList ∨ n = "Q".toList := by
  obtain ⟨a0, a1, et, -⟩ := prog_types h
  obtain ⟨k, hk, rfl⟩ := Mid.declared_index (prog_typeNames h) hd
  rw [et] at hk
  obtain rfl | rfl : k = 0 ∨ k = 1 := by simp at hk; omega
  exacts [.inl rfl, .inr rfl]

theorem prog_region {m : Metadata} (h : ProgFacts m) (i : Nat) (body : Bytes) (hb : (progBodies.drop i).take body.length = body)
    (hi : i + body.length ≤ 82 ∧ 0 < body.length) : RegionAt m (0x2000 + i) body := by
  obtain ⟨-, -, -, -, -, -, -, -, -, -, -, -, h1, h2, h3, h4, -⟩ := h
  refine ⟨by omega, [validSection (m.peData.length - 0x200)], validSection (m.peData.length - 0x200),
    m.peData.drop (0x200 + i + body.length), h1, ?_, ?_, List.mem_singleton.mpr rfl, ?_, ?_, ?_⟩
  · intro s hs
    rw [List.mem_singleton.mp hs]
    simp only [Section.NoWrap, validSection]; omega
  · intro s hs t ht _ _
    rw [List.mem_singleton.mp hs, List.mem_singleton.mp ht]
  · simp only [Section.Contains, validSection]; omega
  · simp only [validSection]; omega
  · simp only [validSection]
    rw [show 512 + (8192 + i - 8192) = 512 + i by omega]
    have : ((m.peData.drop (512 + i)).take body.length) = body := by
      rw [← h4] at hb
      rw [List.drop_take, List.take_take, List.drop_drop, Nat.min_eq_left (by omega)] at hb
      exact hb
    have h5 := List.take_append_drop body.length (m.peData.drop (512 + i))
    rw [this, List.drop_drop] at h5
    exact h5.symm

theorem prog_blobs (m : Metadata) (h : m.blobHeap = progBlob) : BlobHolds m 1 (encFieldSig .int) ∧ BlobHolds m 18 (encFieldSig .double) ∧
    ∀ p ∈ [(1, 4), (2, 4), (3, 9)], BlobHolds m p.2 (encMethodSig (progDecls.method p.1)) := by
  refine ⟨blobHolds_of h (by decide +kernel), blobHolds_of h (by decide +kernel), fun p hp => blobHolds_of h ?_⟩
  revert p; decide +kernel

theorem prog_methodFits : MethodSigFits ⟨false, false, false, 0, .int, [.int]⟩ ∧ MethodSigFits ⟨true, false, false, 0, .void, []⟩ := by
  refine ⟨⟨?_, ?_, ?_, ?_, trivial⟩, ⟨?_, ?_, ?_, trivial⟩⟩
  · exact Nat.two_pow_pos _
  · show 1 < 2 ^ 29; decide
  · simp [ElemFits]
  · simp [ElemFits]
  · exact Nat.two_pow_pos _
  · exact Nat.two_pow_pos _
  · simp [ElemFits]

theorem prog_fits (j : Nat) : ElemFits (progDecls.fieldType j) := by
  simp only [progDecls]; split <;> simp [ElemFits]

theorem run_lt {t : Nat} {r : TypeRec} (h : runWorld.types[t]? = some r) : t < 19 := by
  have := (List.getElem?_eq_some_iff.mp h).1
  rw [runLength19] at this; exact this

theorem prog_wellFormed {m : Metadata} (h : ProgFacts m) : WellFormed (fun _ => True) m runWorld progDecls := by
  obtain ⟨n1, n2, n3, n4, n5⟩ := prog_names h
  obtain ⟨k1, k2, k3, k4, k5, k6, k7⟩ := runKnown m
  have hnames := prog_typeNames h
  have hbody := prog_region h
  obtain ⟨a0, a1, et, ⟨p1, p2, p3⟩, ⟨p4, p5, p6⟩⟩ := prog_types h
  obtain ⟨-, g2, g3, g4, g5, g6, g7, g8, -, -, hblob, -, -, -, -, -, ge, -⟩ := h
  have lf : m.tables.field.length = 2 := by have := congrArg List.length g3; simpa using this
  have lm : m.tables.methodDef.length = 3 := by have := congrArg List.length g4; simpa using this
  have lr : m.tables.typeRef.length = 3 := by have := congrArg List.length g2; simpa using this
  have hblobs := prog_blobs m hblob
  have hint : Resolvable m runWorld .int "System.Int32".toList := ⟨_, .builtin (n := "System.Int32") rfl, k5⟩
  have hdbl : Resolvable m runWorld .double "System.Double".toList := ⟨_, .builtin (n := "System.Double") rfl, k7⟩
  have fieldAt : ∀ {j : Nat} {row : FieldRow} {x : Bool × Nat × Res (Option Name)}, m.tables.field[j]? = some row →
      (m.tables.field.map (fun r => (r.attributes.isStatic, r.signature, m.string r.name)))[j]? = some x →
      row.attributes.isStatic = x.1 ∧ row.signature = x.2.1 ∧ m.string row.name = x.2.2 := by
    intro j row x h1 h2
    rw [List.getElem?_map, h1, Option.map_some, Option.some.injEq] at h2
    subst h2; exact ⟨rfl, rfl, rfl⟩
  have methAt : ∀ {j : Nat} {row : MethodDefRow} {x : Nat × Nat × Nat × Bool × Res (Option Name)}, m.tables.methodDef[j]? = some row →
      (m.tables.methodDef.map (fun r => (r.rva, r.signature, r.paramList, r.attributes.isStatic, m.string r.name)))[j]? = some x →
      row.rva = x.1 ∧ row.signature = x.2.1 ∧ row.paramList = x.2.2.1 ∧ m.string row.name = x.2.2.2.2 := by
    intro j row x h1 h2
    rw [List.getElem?_map, h1, Option.map_some, Option.some.injEq] at h2
    subst h2; exact ⟨rfl, rfl, rfl, rfl⟩
  rw [g3] at fieldAt
  rw [g4] at methAt
  refine ⟨k1, k2, hnames, ?_, ?_, ?_, ?_, ?_, ?_, ?_, ?_, ?_, ?_, ?_⟩
  · intro k row hrow
    rw [et] at hrow
    have hk := (List.getElem?_eq_some_iff.mp hrow).1
    obtain rfl | rfl : k = 0 ∨ k = 1 := by simp at hk; omega
    all_goals simp only [List.getElem?_cons_zero, List.getElem?_cons_succ, Option.some.injEq] at hrow; subst hrow
    · rw [p1]; exact .some n3 k3
    · rw [p4]; exact .some n1 (.inr ⟨_, n1⟩)
  · rw [et, lf]; simp only [List.map_cons, List.map_nil, p2, p5]; decide
  · rw [et, lm]; simp only [List.map_cons, List.map_nil, p3, p6]; decide
  · intro j row hrow
    have hj := (List.getElem?_eq_some_iff.mp hrow).1
    rw [lf] at hj
    obtain rfl | rfl : j = 0 ∨ j = 1 := by omega
    · obtain ⟨f1, f2, f3⟩ := fieldAt hrow rfl
      exact ⟨⟨_, f3⟩, by rw [f2]; exact hblobs.1, prog_fits _, hint, by rw [f1]; rfl⟩
    · obtain ⟨f1, f2, f3⟩ := fieldAt hrow rfl
      exact ⟨⟨_, f3⟩, by rw [f2]; exact hblobs.2.1, prog_fits _, hdbl, by rw [f1]; rfl⟩
  · intro k j row hown hrow
    have hj := (List.getElem?_eq_some_iff.mp hrow).1
    rw [lm] at hj
    obtain ⟨q1, q2, q3⟩ := g5 row (List.mem_of_getElem? hrow)
    obtain ⟨prow, l, ep, hp, g6⟩ := List.map_eq_cons_iff.mp g6
    obtain ⟨prow', l, rfl, hp', g6⟩ := List.map_eq_cons_iff.mp g6
    obtain rfl | rfl | rfl : j = 0 ∨ j = 1 ∨ j = 2 := by omega
    · obtain ⟨f1, f2, f3, f4⟩ := methAt hrow rfl
      refine ⟨by rw [f2]; exact hblobs.2.2 (1, 4) (.head _), prog_methodFits.1, ⟨_, hint⟩, ?_, ?_,
        ⟨_, f4, .tiny q1 q2 q3 (by decide) (by rw [f1]; exact hbody 0 (tinyBody progMainCode) (by decide) (by decide))⟩⟩
      · intro e he
        obtain rfl : e = .int := List.mem_singleton.mp he
        exact ⟨_, hint⟩
      · intro i hi
        obtain rfl : i = 0 := Nat.lt_one_iff.mp hi
        rw [f3]
        exact ⟨by decide, prow, _, by rw [ep]; rfl, hp⟩
    · obtain ⟨f1, f2, f3, f4⟩ := methAt hrow rfl
      refine ⟨by rw [f2]; exact hblobs.2.2 (2, 4) (.tail _ (.head _)), prog_methodFits.1, ⟨_, hint⟩, ?_, ?_,
        ⟨_, f4, .tiny q1 q2 q3 (by decide) (by rw [f1]; exact hbody 0x3f (tinyBody progSumCode) (by decide) (by decide))⟩⟩
      · intro e he
        obtain rfl : e = .int := List.mem_singleton.mp he
        exact ⟨_, hint⟩
      · intro i hi
        obtain rfl : i = 0 := Nat.lt_one_iff.mp hi
        rw [f3]
        exact ⟨by decide, prow', _, by rw [ep]; rfl, hp'⟩
    · obtain ⟨f1, f2, f3, f4⟩ := methAt hrow rfl
      refine ⟨by rw [f2]; exact hblobs.2.2 (3, 9) (.tail _ (.tail _ (.head _))), prog_methodFits.2,
        ⟨_, _, .builtin (n := "System.Void") rfl, k4⟩, ?_, ?_,
        ⟨_, f4, .tiny q1 q2 q3 (by decide) (by rw [f1]; exact hbody 0x50 (tinyBody [0x2a]) (by decide) (by decide))⟩⟩
      · intro e he; exact absurd he List.not_mem_nil
      · intro i hi; exact absurd hi (Nat.not_lt_zero i)
  · intro row hrow
    rw [List.length_eq_zero_iff] at g7
    rw [g7] at hrow; cases hrow
  · intro k hk
    rw [lr] at hk
    have hreg := fun n hn => runReg (runNames n hn)
    obtain rfl | rfl | rfl : k = 0 ∨ k = 1 ∨ k = 2 := by omega
    exacts [⟨_, n3, hreg _ (by simp)⟩, ⟨_, n4, hreg _ (by simp [numberNames])⟩, ⟨_, n5, hreg _ (by simp)⟩]
  · intro row hrow _
    obtain ⟨r, l, e, hr, hl⟩ := List.map_eq_cons_iff.mp g8
    obtain rfl := List.map_eq_nil_iff.mp hl
    rw [e, List.mem_singleton] at hrow
    subst hrow
    simp only [Prod.mk.injEq] at hr
    obtain ⟨-, -, -, c1, -⟩ := runRecs
    obtain ⟨tr, c3, c4⟩ := Option.map_eq_some_iff.mp c1
    simp only [Prod.mk.injEq] at c4
    obtain ⟨x, xl, e2, hx, -⟩ := List.map_eq_cons_iff.mp c4.2
    rw [hr.2.1]
    refine ⟨_, 18, tr, x, n5, c3, c4.1, ?_, by rw [e2]; exact List.mem_cons_self, by rw [hx]; exact hr.2.2⟩
    intro t' r' hlt ht'
    have := run_lt ht'
    omega
  · intro e hee
    rw [ge] at hee; cases hee
  · rw [lf, lm]; decide
  · rw [lf, lm, et, runLength19]; show 19 + 2 + _ + _ < _; decide

def progRef (n : Name) : Prop := n ∈ ["System.Object".toList, "System.Array".toList, "P".toList, "Q".toList]
instance (n : Name) : Decidable (progRef n) := by unfold progRef; infer_instance
def progRank (n : Name) : Nat := if n = "Q".toList then 2 else if n = "P".toList then 1 else 0
def progSize (n : Name) : Nat := if n = "Q".toList then 300 else if n = "P".toList then 100 else 8

theorem runRefs : ∀ t < 19, ∀ r ∈ runWorld.types[t]?, progRef r.fullName →
    r.interfaces = [] ∧ ∀ b ∈ r.base, ∀ br ∈ runWorld.types[b]?, progRef br.fullName := by
  decide +kernel

theorem prog_size (n : Name) : 8 ≤ progSize n := by
  unfold progSize; split
  · decide
  · split <;> decide

theorem prog_finite {m : Metadata} (h : ProgFacts m) :
    FiniteSizes .debug m runWorld progDecls progRef progRank progSize := by
  obtain ⟨a0, a1, et, ⟨p1, p2, p3⟩, ⟨p4, p5, p6⟩⟩ := prog_types h
  have hdec := fun {n} => prog_declared h (n := n)
  have lt : m.tables.typeDef.length = 2 := by rw [et]; rfl
  obtain ⟨-, -, g3, -⟩ := h
  have lf : m.tables.field.length = 2 := by have := congrArg List.length g3; simpa using this
  have ef : m.tables.typeDef.map (·.fieldList) = [1, 2] := by rw [et]; simp only [List.map_cons, List.map_nil, p2, p5]
  have rows : ∀ {k : Nat} {row : TypeDefRow}, m.tables.typeDef[k]? = some row → k = 0 ∧ row.fieldList = 1 ∨ k = 1 ∧ row.fieldList = 2 := by
    intro k row hrow
    have hk := (List.getElem?_eq_some_iff.mp hrow).1
    rw [et] at hrow hk
    obtain rfl | rfl : k = 0 ∨ k = 1 := by simp at hk; omega
    all_goals simp only [List.getElem?_cons_zero, List.getElem?_cons_succ, Option.some.injEq] at hrow; subst hrow
    · exact .inl ⟨rfl, p2⟩
    · exact .inr ⟨rfl, p5⟩
  refine ⟨by decide, by decide, ?_, ?_, ?_, ?_, ?_, ?_, fun n _ => prog_size n, ?_, ?_, ?_, ?_⟩
  · intro t r hr hv
    obtain ⟨h1, h2⟩ := runRefs t (run_lt hr) r hr hv
    refine ⟨fun b br hb hbr => h2 b hb br hbr, fun i hi => ?_⟩
    rw [h1] at hi
    exact absurd hi List.not_mem_nil
  · intro k _ _ b hb
    simp only [progDecls] at hb
    split at hb <;> cases hb <;> decide
  · intro k hk b hb hd
    rw [lt] at hk
    obtain rfl | rfl : k = 0 ∨ k = 1 := by omega
    · simp only [progDecls, if_true, Option.some.injEq] at hb
      subst hb
      show progRank "System.Object".toList < progRank "P".toList
      decide
    · simp only [progDecls, if_neg Nat.one_ne_zero, Option.some.injEq] at hb
      subst hb
      show progRank "P".toList < progRank "Q".toList
      decide
  · intro j _ _ _ hr
    simp only [progDecls] at hr
    split at hr <;> cases hr
  · intro k j _ _ _ hd hn
    refine absurd ?_ hn
    simp only [progDecls]
    split <;> simp [numberNames]
  · intro t r hr
    refine ⟨ends_of (fun t => if t = 1 then 0 else if t = 2 then 1 else 2) (by decide +kernel) t (List.getElem?_eq_some_iff.1 hr).1, ?_⟩
    obtain ⟨s, h1, h2⟩ := holds_iff (runSizes t (run_lt hr))
    exact ⟨100, s, h1, Nat.le_trans (of_decide_eq_true h2) (prog_size _)⟩
  · intro j _ _ _
    exact Nat.le_trans (by decide) (prog_size _)
  · intro k row hrow _
    obtain ⟨rfl, h2⟩ | ⟨rfl, h2⟩ := rows hrow <;> rw [h2, lf, ef] <;> decide
  · intro k _
    show progSize _ < _
    unfold progSize; split
    · decide
    · split <;> decide
  · intro k row hrow
    obtain ⟨rfl, h2⟩ | ⟨rfl, h2⟩ := rows hrow <;> rw [h2, lf, ef] <;> decide

theorem run_numbers (κ : Kind) : ∃ i, ValueLike runWorld i ∧
    ∀ (t : Nat) r, runWorld.types[t]? = some r → r.fullName = κ.typeName → t = i := by
  obtain ⟨-, c1, c2, -⟩ := runRecs
  obtain ⟨vr, c4, c5⟩ := Option.map_eq_some_iff.mp c1
  obtain ⟨ir, c6, c7⟩ := Option.map_eq_some_iff.mp (c2 κ (kind_mem κ))
  exact ⟨kindRow κ, .base c6 c7 (by cases κ <;> decide) (.here c4 c5),
    fun t r hr hn => (runTypes t (run_lt hr) r hr).1 κ (kind_mem κ) hn⟩

theorem prog_started {m : Metadata} (h : ProgFacts m) : Started m runWorld progDecls := by
  obtain ⟨a0, a1, et, -⟩ := prog_types h
  obtain ⟨-, -, -, k4, -, k6, -⟩ := runKnown m
  have hdec := fun {n} => prog_declared h (n := n)
  obtain ⟨-, -, g3, g4, -⟩ := h
  have lf : m.tables.field.length = 2 := by have := congrArg List.length g3; simpa using this
  have lm : m.tables.methodDef.length = 3 := by have := congrArg List.length g4; simpa using this
  obtain ⟨-, -, -, -, c3, -⟩ := runRecs
  refine ⟨(fun hn => by rw [hn] at c3; cases c3), run_numbers, ?_, k6, k4, ?_, ?_⟩
  · intro κ hd
    rcases hdec hd with h | h <;> cases κ <;> exact absurd h (by decide)
  · intro t r hr hn x hx _
    have := List.all_eq_true.mp ((runTypes t (run_lt hr) r hr).2.2.1 hn) x hx
    simpa [and_assoc] using this
  · rw [lf, lm, et, runLength19]; show 19 + 2 + _ + _ + 1 < _; decide

def progClass : Class := ⟨[(1, .int), (2, .double)], 12⟩

def progCalls (t : Nat) : Option Callee := if t = 0x06000002 then some (.proc 2) else if t = 0x0a000001 then some .write else none
def progNews (t : Nat) : Option (Class × Nat) := if t = 0x06000003 then some (progClass, 3) else none
def progFields (t : Nat) : Option (Nat × Kind) :=
  if t = 0x04000001 then some (1, .int) else if t = 0x04000002 then some (2, .double) else none
def progTexts (t : Nat) : Option (List Char) := if t = 0x70000001 then some "Hi".toList else none
def progInts (t : Nat) : Bool := decide (t = 0x01000002)

def progMain : Proc := ⟨progMainCode, 1, 0, true, progCalls, progNews, progFields, progTexts, progInts⟩
def progSum : Proc := ⟨progSumCode, 1, 0, true, progCalls, progNews, progFields, progTexts, progInts⟩
def progCtor : Proc := ⟨[0x2a], 1, 0, false, progCalls, progNews, progFields, progTexts, progInts⟩
def progProcs (i : Nat) : Option Proc :=
  if i = 1 then some progMain else if i = 2 then some progSum else if i = 3 then some progCtor else none

theorem prog_class {m : Metadata} (h : ProgFacts m) : ClassIs m runWorld progDecls 1 progClass := by
  obtain ⟨a0, a1, et, ⟨-, p2, -⟩, ⟨-, p5, -⟩⟩ := prog_types h
  have hdec := fun {n} => prog_declared h (n := n)
  obtain ⟨-, -, g3, -⟩ := h
  have lf : m.tables.field.length = 2 := by have := congrArg List.length g3; simpa using this
  have o0 : ownFields m 0 = [1] := by
    simp [ownFields, et, runLength, p2, p5]
  have o1 : ownFields m 1 = [2] := by
    simp [ownFields, et, lf, runLength, p2, p5]
  obtain ⟨c1, -⟩ := runRecs
  obtain ⟨r, c2, c3⟩ := Option.map_eq_some_iff.mp c1
  simp only [Prod.mk.injEq] at c3
  have hP : ClassIs m runWorld progDecls 0 ⟨[(1, .int)], 4⟩ := by
    have := ClassIs.root (m := m) (w := runWorld) (d := progDecls) (k := 0) (b := 1) (s := 0) (fs := [(1, .int)]) (n := "System.Object".toList) (br := r)
      (by rw [et]; exact Nat.two_pos) (by decide) ⟨o0.symm, fun f hf => by rw [List.mem_singleton.mp hf]; exact ⟨rfl, rfl⟩⟩ rfl
      (fun hd => by rcases hdec hd with h | h <;> exact absurd h (by decide)) c2
      (fun t r' hr hn => (runTypes t (run_lt hr) r' hr).2.1 hn)
      (.root c2 (by rw [c3.1]; decide) c3.2.1 (by rw [c3.2.2]; exact .nil))
    exact this
  have := ClassIs.derived (m := m) (w := runWorld) (d := progDecls) (k := 1) (k' := 0) (fs := [(2, .double)]) (by rw [et]; exact Nat.one_lt_two) (by decide)
    ⟨o1.symm, fun f hf => by rw [List.mem_singleton.mp hf]; exact ⟨rfl, rfl⟩⟩ rfl (by decide) (by
      rintro ⟨t, r', hr, hn⟩
      exact (runTypes t (run_lt hr) r' hr).2.2.2 hn) (by
      intro i hi hn
      rw [et] at hi
      obtain rfl | rfl : i = 0 ∨ i = 1 := by simp at hi; omega
      · rfl
      · exact absurd hn (by decide)) hP
  exact this

/-- The three methods are procedures of the program. -/
theorem prog_procs {m : Metadata} (h : ProgFacts m) (i : Nat) (q : Proc) (hq : progProcs i = some q) :
    ProcIs m runWorld progDecls i q := by
  have hcls := prog_class h
  obtain ⟨n1, n2, n3, n4, n5⟩ := prog_names h
  obtain ⟨a0, a1, et, ⟨-, -, p3⟩, ⟨-, -, p6⟩⟩ := prog_types h
  obtain ⟨-, -, g3, g4, -, -, -, g8, -, -, -, hus, -⟩ := h
  have lf : m.tables.field.length = 2 := by have := congrArg List.length g3; simpa using this
  obtain ⟨r0, l, em, hm0, g4⟩ := List.map_eq_cons_iff.mp g4
  obtain ⟨r1, l, rfl, hm1, g4⟩ := List.map_eq_cons_iff.mp g4
  obtain ⟨r2, l, rfl, hm2, g4⟩ := List.map_eq_cons_iff.mp g4
  obtain rfl := List.map_eq_nil_iff.mp g4
  obtain ⟨mr, l, er, hmr, g8⟩ := List.map_eq_cons_iff.mp g8
  obtain rfl := List.map_eq_nil_iff.mp g8
  simp only [Prod.mk.injEq] at hm0 hm1 hm2 hmr
  have procs : ∀ tok i, progCalls tok = some (.proc i) → tok = 6 * 2 ^ 24 + i ∧ 1 ≤ i ∧ i ≤ m.tables.methodDef.length := by
    intro tok i ht
    rw [em]
    simp only [progCalls] at ht
    split at ht
    · cases ht; subst tok; exact ⟨rfl, by decide, by show 2 ≤ 3; decide⟩
    · split at ht <;> cases ht
  have write : ∀ tok, progCalls tok = some .write → (∀ r ∈ m.tables.memberRef, r.parent.table = .typeRef) ∧
      ∃ r row, tok = 10 * 2 ^ 24 + r ∧ 1 ≤ r ∧ r < 2 ^ 24 ∧ m.tables.memberRef[r - 1]? = some row ∧ 1 ≤ row.parent.row ∧
        RowNamed m (.typeRef row.parent.row) "System.Console".toList ∧ m.string row.name = .ok (some "Write".toList) := by
    intro tok ht
    simp only [progCalls] at ht
    split at ht
    · cases ht
    · split at ht <;> cases ht
      subst tok
      refine ⟨fun r hr => by rw [er, List.mem_singleton] at hr; rw [hr]; exact hmr.1, 1, mr, rfl, by decide, by decide,
        by rw [er]; rfl, by rw [hmr.2.1]; decide, by rw [hmr.2.1]; exact n5, hmr.2.2⟩
  have news : ∀ tok cls i, progNews tok = some (cls, i) → tok = 6 * 2 ^ 24 + i ∧ 1 ≤ i ∧ cls.size < 2 ^ 64 ∧
      ∃ row k, m.tables.methodDef[i - 1]? = some row ∧ row.attributes.isStatic = false ∧
        Owns (m.tables.typeDef.map (·.methodList)) m.tables.methodDef.length k i ∧ ClassIs m runWorld progDecls k cls := by
    intro tok cls i ht
    simp only [progNews] at ht
    split at ht <;> cases ht
    subst tok
    refine ⟨rfl, by decide, by decide, r2, 1, by rw [em]; rfl, hm2.2.2.2.1, ?_, hcls⟩
    rw [em, et]; simp only [List.map_cons, List.map_nil, p3, p6]; exact ⟨⟨3, rfl, Nat.le_refl 3⟩, nofun, Nat.le_refl 3⟩
  have fields : ∀ tok f, progFields tok = some f → tok = 4 * 2 ^ 24 + f.1 ∧ 1 ≤ f.1 ∧
      f.1 ≤ m.tables.field.length ∧ f.1 < 2 ^ 24 ∧ progDecls.fieldType f.1 = f.2.sig := by
    intro tok f ht
    rw [lf]
    simp only [progFields] at ht
    split at ht
    · cases ht; subst tok; exact ⟨rfl, by decide, by decide, by decide, rfl⟩
    · split at ht <;> cases ht
      subst tok; exact ⟨rfl, by decide, by decide, by decide, rfl⟩
  have strings : ∀ tok text, progTexts tok = some text → ∃ pre post last,
      m.userStringData = pre ++ encUserString (text.flatMap utf16) last ++ post ∧ tok = 0x70 * 2 ^ 24 + pre.length ∧
        2 * (text.flatMap utf16).length + 1 < 2 ^ 29 ∧ pre.length < 2 ^ 24 ∧ post.length < 2 ^ 62 := by
    intro tok text ht
    simp only [progTexts] at ht
    split at ht <;> cases ht
    subst tok
    refine ⟨[0], [], 0, by rw [hus]; decide, by decide, by decide, by decide, by decide⟩
  have ints : ∀ tok, progInts tok = true → ∃ r, tok = 1 * 2 ^ 24 + r ∧ 1 ≤ r ∧ r < 2 ^ 24 ∧
      RowNamed m (.typeRef r) "System.Int32".toList := by
    intro tok ht
    obtain rfl := of_decide_eq_true ht
    exact ⟨2, rfl, by decide, by decide, n4⟩
  have value : ∀ n, Resolvable m runWorld .int n → n ≠ "System.Void".toList := by
    intro n hn
    rw [resolvable_kind (κ := .int) hn]; decide
  unfold progProcs at hq
  split at hq
  · cases hq; subst i
    exact ⟨⟨r0, by decide, by rw [em]; rfl, by rw [hm0.2.2.2.1]; rfl⟩, rfl, fun _ => value, (fun h => by cases h), procs, write, news, fields, strings, ints⟩
  split at hq
  · cases hq; subst i
    exact ⟨⟨r1, by decide, by rw [em]; rfl, by rw [hm1.2.2.2.1]; rfl⟩, rfl, fun _ => value, (fun h => by cases h), procs, write, news, fields, strings, ints⟩
  split at hq <;> cases hq
  subst i
  exact ⟨⟨r2, by decide, by rw [em]; rfl, by rw [hm2.2.2.2.1]; rfl⟩, rfl, (fun h => by cases h), fun _ => rfl, procs, write, news, fields, strings, ints⟩

def progMachine (F : FloatOps) : Machine := ⟨F, true, true, fun l => ¬ Wide l, none, progProcs⟩

theorem prog_ok {F : FloatOps} {l : Bytes} (h : ¬ Wide l) : (progMachine F).ok l := h

theorem progSum_runs (F : FloatOps) (i e : Nat) (hi : i ≤ 1000) (s : Obj.Store) :
    Runs (progMachine F) (6 * i + 4 + e) i progSum 0 s (progSum.start none [.int (BitVec.ofNat 32 i)]) s
      (.done (some (.int (BitVec.ofNat 32 (triangle i))))) := by
  induction i generalizing e with
  | zero =>
    rw [show 6 * 0 + 4 + e = e + 1 + 1 + 1 + 1 by omega]
    refine Runs.next (c := [0x02]) (.base (.load (x := .arg) (i := 0) (by decide) (prog_ok (by decide)))) (by decide) rfl (d := 0) (ip' := 1) rfl ?_
    refine Runs.next (c := [0x2d, 0x02]) (.base (.br1 (c := .brtrue) (f := .short) (d := 2) (by decide))) (by decide) (d := 0)
      (by rfl) (ip' := 3) rfl ?_
    refine Runs.next (c := [0x16]) (.base (.const (n := 0) (by decide))) (by decide) rfl (d := 0) (ip' := 4) rfl ?_
    exact .ret (by decide) (.value rfl)
  | succ i ih =>
    rw [show 6 * (i + 1) + 4 + e = 6 * i + 4 + e + 1 + 1 + 1 + 1 + 1 + 1 by omega]
    have hne : (BitVec.ofNat 32 (i + 1)).toInt ≠ 0 := by rw [toInt_small (by omega)]; omega
    refine Runs.next (c := [0x02]) (.base (.load (x := .arg) (i := 0) (by decide) (prog_ok (by decide)))) (by decide) rfl (d := 0) (ip' := 1) rfl ?_
    refine Runs.next (c := [0x2d, 0x02]) (.base (.br1 (c := .brtrue) (f := .short) (d := 2) (by decide))) (by decide) (d := 2) (s' := s)
      (σ' := ⟨[], [], [.int (BitVec.ofNat 32 (i + 1))]⟩) (by
        simp only [Instr.effect, Act.base, Proc.start]
        rw [Obj.Num.branch, decide_eq_true (show Branch1.brtrue.holds _ from hne)]
        rfl) (ip' := 5) rfl ?_
    refine Runs.next (c := [0x02]) (.base (.load (x := .arg) (i := 0) (by decide) (prog_ok (by decide)))) (by decide) rfl (d := 0) (ip' := 6) rfl ?_
    refine Runs.next (c := [0x17]) (.base (.const (n := 1) (by decide))) (by decide) rfl (d := 0) (ip' := 7) rfl ?_
    refine Runs.next (c := [0x59]) (.base (.arith (op := .sub))) (by decide) (d := 0) (s' := s)
      (σ' := ⟨[.int (BitVec.ofNat 32 i)], [], [.int (BitVec.ofNat 32 (i + 1))]⟩) ?_ (ip' := 8) rfl ?_
    · simp only [Instr.effect, Act.base, Act.binary, Obj.Num.arith, Arith.exact]
      rw [toInt_small (by omega), show (((i + 1 : Nat) : Int) - (BitVec.ofInt 32 1).toInt) = (i : Nat) by
        rw [show (BitVec.ofInt 32 1).toInt = 1 from by decide]; omega, fit_small _ (by omega)]
      rfl
    refine .call (t := 0x06000002) (j := 2) (q := progSum) (k' := i) (k'' := i) (args := [.int (BitVec.ofNat 32 i)]) (rest := [])
      (by decide) (by decide) rfl rfl rfl rfl (by show 1 + 0 + i ≤ i + 1; omega) (ih e (by omega)) (by show 1 + i ≤ i + 1; omega) ?_
    rw [show 6 * i + 4 + e = 6 * i + e + 1 + 1 + 1 + 1 by omega]
    refine Runs.next (c := [0x02]) (.base (.load (x := .arg) (i := 0) (by decide) (prog_ok (by decide)))) (by decide) rfl (d := 0) (ip' := 14) rfl ?_
    refine Runs.next (c := [0x58]) (.base (.arith (op := .add))) (by decide) (d := 0) (s' := s)
      (σ' := ⟨[.int (BitVec.ofNat 32 (triangle (i + 1)))], [], [.int (BitVec.ofNat 32 (i + 1))]⟩) ?_ (ip' := 15) rfl ?_
    · have := triangle_le hi
      simp only [triangle] at this
      simp only [Instr.effect, Act.base, Act.binary, Obj.Num.arith, Arith.exact, Option.toList, List.cons_append, List.nil_append]
      rw [toInt_small (by omega), toInt_small (by omega), ← Int.natCast_add, fit_small _ (by omega)]
      rfl
    · exact .ret (by decide) (.value rfl)

/-- The store of the program before the array is made, and after that. -/
def progCells (n : Nat) : List Cell :=
  [.inst progClass (fun g => if g = (2, .double) then .double 0x4014000000000000 else
    if g = (1, .int) then .int (BitVec.ofNat 32 n) else g.2.zero), .str "Hi".toList]
def progStore (n : Nat) : Obj.Store :=
  ⟨progCells n ++ [.ints ((List.replicate n (0 : BitVec 32)).set 1 (BitVec.ofNat 32 n))], "Hi".toList⟩

/-- `Main` up to the call of `Sum`. -/
theorem progMain_runs (F : FloatOps) (n r k : Nat) (hn : 1 < n) (hn' : n ≤ 1000) (s : Obj.Store) (o : Outcome (Option Val))
    (h : Runs (progMachine F) r k progMain 56 (progStore n) ⟨[.int (BitVec.ofNat 32 n)], [], [.int (BitVec.ofNat 32 n)]⟩ s o) :
    Runs (progMachine F) (r + 19) (k + 2) progMain 0 ⟨[], []⟩ (progMain.start none [.int (BitVec.ofNat 32 n)]) s o := by
  have h1 : (BitVec.ofNat 32 n).toInt = n := toInt_small (by omega)
  refine .new (t := 0x06000003) (j := 3) (q := progCtor) (k' := 0) (k'' := k + 1) (args := []) (rest := []) (by decide) (by decide) rfl rfl
    rfl rfl rfl (by show 1 + 0 + 0 ≤ _; omega) (.ret (by decide) (.void rfl)) (by show 1 + _ ≤ _; omega) ?_
  refine Runs.next (c := [0x25]) (.base .dup) (by decide) rfl (d := 0) (ip' := 6) rfl ?_
  refine Runs.next (c := [0x02]) (.base (.load (x := .arg) (i := 0) (by decide) (prog_ok (by decide)))) (by decide) rfl (d := 0) (ip' := 7) rfl ?_
  refine Runs.next (c := [0x7d, 1, 0, 0, 4]) (.stfld (t := 0x04000001) (by decide)) (by decide) rfl (d := 0) (ip' := 12) rfl ?_
  refine Runs.next (c := [0x25]) (.base .dup) (by decide) rfl (d := 0) (ip' := 13) rfl ?_
  refine Runs.next (c := [0x23, 0, 0, 0, 0, 0, 0, 0x14, 0x40]) (.double (x := 0x4014000000000000)) (by decide) rfl (d := 0) (ip' := 22) rfl ?_
  refine Runs.next (c := [0x7d, 2, 0, 0, 4]) (.stfld (t := 0x04000002) (by decide)) (by decide) rfl (d := 0) (ip' := 27) rfl ?_
  refine Runs.next (c := [0x72, 1, 0, 0, 0x70]) (.ldstr (t := 0x70000001) (by decide)) (by decide) rfl (d := 0) (ip' := 32) rfl ?_
  refine .write (t := 0x0a000001) (k' := k) (text := "Hi".toList) (rest := [.ref 0]) (by decide) (by decide) rfl rfl rfl (by omega) ?_
  refine Runs.next (c := [0x02]) (.base (.load (x := .arg) (i := 0) (by decide) (prog_ok (by decide)))) (by decide) rfl (d := 0) (ip' := 38) rfl ?_
  refine Runs.next (c := [0x8d, 2, 0, 0, 1]) (.newarr (t := 0x01000002) (by decide)) (by decide) (d := 0)
    (s' := ⟨progCells n ++ [.ints (List.replicate n 0)], "Hi".toList⟩)
    (σ' := ⟨[.ref 2, .ref 0], [], [.int (BitVec.ofNat 32 n)]⟩) ?_ (ip' := 43) rfl ?_
  · simp only [Instr.effect]
    rw [show progMain.ints 0x01000002 = true from rfl]
    dsimp only []
    rw [if_pos (by rw [h1]; omega), h1]
    rfl
  refine Runs.next (c := [0x25]) (.base .dup) (by decide) rfl (d := 0) (ip' := 44) rfl ?_
  refine Runs.next (c := [0x17]) (.base (.const (n := 1) (by decide))) (by decide) rfl (d := 0) (ip' := 45) rfl ?_
  refine Runs.next (c := [0x02]) (.base (.load (x := .arg) (i := 0) (by decide) (prog_ok (by decide)))) (by decide) rfl (d := 0) (ip' := 46) rfl ?_
  have h2 : element (List.replicate n (0 : BitVec 32)) (BitVec.ofInt 32 1) = some 0 := by
    show (List.replicate n (0 : BitVec 32))[1]? = some 0
    rw [List.getElem?_replicate_of_lt hn]
  have h3 : element ((List.replicate n (0 : BitVec 32)).set 1 (BitVec.ofNat 32 n)) (BitVec.ofInt 32 1) = some (BitVec.ofNat 32 n) := by
    show ((List.replicate n (0 : BitVec 32)).set 1 (BitVec.ofNat 32 n))[1]? = some _
    rw [List.getElem?_set_self (by rw [List.length_replicate]; exact hn)]
  refine Runs.next (c := [0x9e]) .stelem (by decide) (d := 0) (s' := progStore n)
    (σ' := ⟨[.ref 2, .ref 0], [], [.int (BitVec.ofNat 32 n)]⟩) ?_ (ip' := 47) rfl ?_
  · simp only [Instr.effect, progCells, List.cons_append, List.nil_append, List.getElem?_cons_succ, List.getElem?_cons_zero, h2]
    rfl
  refine Runs.next (c := [0x17]) (.base (.const (n := 1) (by decide))) (by decide) rfl (d := 0) (ip' := 48) rfl ?_
  refine Runs.next (c := [0x94]) .ldelem (by decide) (d := 0) (s' := progStore n)
    (σ' := ⟨[.int (BitVec.ofNat 32 n), .ref 0], [], [.int (BitVec.ofNat 32 n)]⟩) ?_ (ip' := 49) rfl ?_
  · simp only [Instr.effect, progStore, progCells, List.cons_append, List.nil_append, List.getElem?_cons_succ, List.getElem?_cons_zero, h3]
  refine Runs.next (c := [0x10, 0]) (.base (.store (x := .arg) (i := 0) (by decide) (prog_ok (by decide)))) (by decide) rfl (d := 0) (ip' := 51) rfl ?_
  refine Runs.next (c := [0x7b, 1, 0, 0, 4]) (.ldfld (t := 0x04000001) (by decide)) (by decide) rfl (d := 0) (ip' := 56) rfl ?_
  exact h

/-- The whole program. -/
theorem prog_runs (F : FloatOps) (n e : Nat) (hn : 1 < n) (hn' : n ≤ 1000) :
    Runs (progMachine F) (6 * n + 24 + e) (n + 3) progMain 0 ⟨[], []⟩ (progMain.start none [.int (BitVec.ofNat 32 n)]) (progStore n)
      (.done (some (.int (BitVec.ofNat 32 (triangle n))))) := by
  rw [show 6 * n + 24 + e = (6 * n + 4 + e + 1) + 19 by omega]
  refine progMain_runs F n _ (n + 1) hn hn' _ _ ?_
  refine .call (t := 0x06000002) (j := 2) (q := progSum) (k' := n) (k'' := 0) (args := [.int (BitVec.ofNat 32 n)]) (rest := [])
      (by decide) (by decide) rfl rfl rfl rfl (by show 1 + 0 + n ≤ n + 1; omega) (progSum_runs F n e hn' _) (by show 1 + 0 ≤ _; omega) ?_
  rw [show 6 * n + 4 + e = 6 * n + e + 3 + 1 by omega]
  exact .ret (by decide) (.value rfl)

theorem prog_cost (n : Nat) : (progStore n).cost = 51 + 4 * n := by
  simp only [progStore, progCells, Obj.Store.cost, List.cons_append, List.nil_append, List.map_cons, List.map_nil, Cell.cost,
    List.sum_cons, List.sum_nil, List.length_set, List.length_replicate]
  show 17 + (17 + (17 + 4 * n + 0)) = _
  omega

/-- Running `Main` of the loaded file is undefined behaviour. -/
def progBroken (n fuel : Nat) (l : Res AssemblyRec × World) : Bool :=
  match l.1 with
  | .ok a =>
    match a.resolveMethod .debug ⟨6 * 2 ^ 24 + 1⟩ with
    | .ok (some x) => decide ((hostExecute .debug floats 100 fuel l.2 x [.i32 (BitVec.ofNat 32 n)]).1 = .ub)
    | _ => false
  | _ => false

/-- The claim for the example file, and what it says about `Main`. -/
theorem prog_uses {negative : Bool} {room heap : Nat → Prop} {good : Option Val → Prop} {entry : Nat → Prop} (he : entry 0)
    (h : FileRuns .debug (fun l => ¬ Wide l) none negative room heap good entry) :
    ∃ G, ∀ depth, ∀ fuel ≥ G, ∃ a w', loadData .debug noFiles (depth + 1) fuel progAsm.file runWorld = (.ok a, w') ∧
      w'.output = [] ∧ ∃ x, a.resolveMethod .debug ⟨6 * 2 ^ 24 + 1⟩ = .ok (some x) ∧ ∃ T, ∀ tf ≥ T,
        ∀ (ops : FloatOps) (n k : Nat) (i : BitVec 32) (s : Obj.Store) (o : Outcome (Option Val)),
          LawfulEq ops → room k → heap s.cost → (∀ r, o = .done r → good r) →
          Runs ⟨ops, true, negative, fun l => ¬ Wide l, none, progProcs⟩ n k progMain 0 ⟨[], []⟩ (progMain.start none [.int i]) s o →
          (hostExecute .debug ops tf n w' x [.i32 i]).2.world.output = s.output ∧
          DeliversVal (hostExecute .debug ops tf n w' x [.i32 i]).1 o := by
  obtain ⟨m, hm, h2⟩ := holds_iff progFacts
  have hF := of_decide_eq_true h2
  have hF' := hF
  obtain ⟨-, -, -, h6, -, -, -, -, h3, h4, -, -, -, -, -, -, -, h5⟩ := hF'
  obtain ⟨row, l, e, hr, -⟩ := List.map_eq_cons_iff.mp h3
  obtain ⟨rr, l', e', hr', hl'⟩ := List.map_eq_cons_iff.mp h4
  obtain rfl := List.map_eq_nil_iff.mp hl'
  obtain ⟨-, -, -, -, -, hout, hcore⟩ := runRecs
  obtain ⟨mrow, l'', e'', hmr, -⟩ := List.map_eq_cons_iff.mp h6
  simp only [Prod.mk.injEq] at hmr
  obtain ⟨G, hG⟩ := h noFiles runWorld _ m progDecls _ _ _ 0 row _ runReached hm (by rw [e]; rfl) hr
    (by
      rw [e']; intro r h; rw [List.mem_singleton] at h; subst h
      obtain ⟨a, h1, h2⟩ := List.any_eq_true.mp hcore
      exact ⟨_, hr', a, h1, of_decide_eq_true h2⟩)
    h5 (by decide) he (prog_wellFormed hF) (prog_finite hF) (prog_started hF)
  refine ⟨G, fun depth fuel hge => ?_⟩
  obtain ⟨a, w', g1, g2, T, g3⟩ := hG depth fuel hge
  have g4 := fun tf htf => g3 tf htf progProcs (prog_procs hF) 1 progMain mrow rfl (by rw [e'']; rfl) hmr.2.2.2.1
  obtain ⟨x, g5, -⟩ := g4 T (Nat.le_refl T)
  refine ⟨a, w', g1, g2.trans hout, x, g5, T, fun tf htf ops n k i s o hops hroom hheap hgood hruns => ?_⟩
  obtain ⟨x', g6, g7⟩ := g4 tf htf
  rw [g5] at g6
  obtain rfl := Option.some.inj (Res.ok.inj g6)
  have := g7 ops n k [.int i] s o hops rfl (by show room (0 + k); rw [Nat.zero_add]; exact hroom) hheap hgood hruns
  rw [hout] at this
  exact this

/-- If the claim holds for a run of the example, it does not end with undefined behaviour. -/
theorem prog_contra {negative : Bool} {room heap : Nat → Prop} {good : Option Val → Prop} {entry : Nat → Prop} (he : entry 0)
    (h : FileRuns .debug (fun l => ¬ Wide l) none negative room heap good entry) (n fuel k : Nat) (s : Obj.Store)
    (o : Outcome (Option Val)) (hroom : room k) (hheap : heap s.cost) (hgood : ∀ r, o = .done r → good r)
    (hruns : Runs ⟨floats, true, negative, fun l => ¬ Wide l, none, progProcs⟩ fuel k progMain 0 ⟨[], []⟩
      (progMain.start none [.int (BitVec.ofNat 32 n)]) s o)
    (hbad : progBroken n fuel (loadData .debug noFiles 1 100 progAsm.file runWorld) = true) : False := by
  obtain ⟨G, hG⟩ := prog_uses he h
  obtain ⟨a, w', h6, -, x, h8, T, h9⟩ := hG 0 (max G 100) (by omega)
  have h10 := (h9 (max T 100) (by omega) floats fuel k _ s o floats_lawful hroom hheap hgood hruns).2
  have h12 := M.Refined.loadData (cfg := .debug) noFiles (d := 1) (k := 100) (k' := max G 100) (by omega) (Nat.le_refl _)
    progAsm.file runWorld (by intro hc; rw [progBroken] at hbad; simp [hc] at hbad)
  rw [h6] at h12
  rw [← h12] at hbad
  simp only [progBroken, h8, decide_eq_true_eq] at hbad
  rw [hostExecute_sizes (tf := 100) (by omega) (by rw [hbad]; simp), hbad] at h10
  cases o with
  | done r =>
    rcases r with _ | ⟨a | b⟩
    · cases h10
    · cases h10
    · obtain ⟨_, h⟩ := h10; cases h
  | stops => cases h10
  | unfinished => cases h10
  | undefined => exact h10

end Ex

/-- The hypotheses of `C90_partial` can be met, and what it says of the example file: it loads, and `Main` writes `Hi` and
returns the sum of the numbers up to its argument. -/
example : ∃ G, ∀ depth, ∀ fuel ≥ G, ∃ a w', loadData .debug Ex.noFiles (depth + 1) fuel Ex.progAsm.file Ex.runWorld = (.ok a, w') ∧
    w'.output = [] ∧ ∃ x, a.resolveMethod .debug ⟨6 * 2 ^ 24 + 1⟩ = .ok (some x) ∧ ∃ T, ∀ tf ≥ T, ∀ (ops : FloatOps) (n e : Nat),
      LawfulEq ops → 1 < n → n ≤ 61 →
      (hostExecute .debug ops tf (6 * n + 24 + e) w' x [.i32 (BitVec.ofNat 32 n)]).2.world.output = "Hi".toList ∧
      (hostExecute .debug ops tf (6 * n + 24 + e) w' x [.i32 (BitVec.ofNat 32 n)]).1 =
        .ok (.number (.i32 (BitVec.ofNat 32 (Ex.triangle n)))) := by
  obtain ⟨G, hG⟩ := Ex.prog_uses (by decide) (C90_partial .debug)
  refine ⟨G, fun depth fuel hge => ?_⟩
  obtain ⟨a, w', h6, h7, x, h8, T, h9⟩ := hG depth fuel hge
  refine ⟨a, w', h6, h7, x, h8, T, fun tf htf ops n e hops hn hn' => ?_⟩
  exact h9 tf htf ops _ (n + 3) _ (Ex.progStore n) _ hops (by show n + 3 ≤ 64; omega) (by rw [Ex.prog_cost]; omega)
    (by rintro r ⟨⟩ b ⟨⟩) (Ex.prog_runs ops n e hn (by omega))

/-- **C90 fails for deeper calls**: the example file loads, and its method is undefined behaviour for 65. -/
theorem C90_refuted_room : ¬ FileRuns .debug (fun l => ¬ Wide l) none true (fun _ => True) (· ≤ 1024)
    (fun r => ∀ b, r ≠ some (.ref b)) (· ≠ 1) := fun h =>
  Ex.prog_contra (by decide) h 65 (6 * 65 + 24) (65 + 3) (Ex.progStore 65) _ trivial (by rw [Ex.prog_cost]; decide)
    (by rintro r ⟨⟩ b ⟨⟩) (Ex.prog_runs Ex.floats 65 0 (by decide) (by decide)) (by decide +kernel)

/-- **C90 fails for more than 1024 bytes of objects**: the object that `Main` made first is moved when it makes an array of
300 elements, and reading the field of it afterwards is undefined behaviour. -/
theorem C90_refuted_heap : ¬ FileRuns .debug (fun l => ¬ Wide l) none true (· ≤ 64) (fun _ => True)
    (fun r => ∀ b, r ≠ some (.ref b)) (· ≠ 1) := fun h =>
  Ex.prog_contra (by decide) h 300 19 2 (Ex.progStore 300) .unfinished (by decide) trivial (by rintro r ⟨⟩)
    (Ex.progMain_runs Ex.floats 300 0 0 (by decide) (by decide) _ _ .more) (by decide +kernel)

end Clr
