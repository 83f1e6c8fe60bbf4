import Verif.Lemmas.Main
import Verif.Props.Program
/-! # C92: the command-line program -/

namespace Clr
open Spec

/-- The claim C92: the program, given the path of a well-formed assembly file, executes the method that the entry point of the
file names, and its output and result are those of the abstract machine. `e` is the row of the method table in the
entry-point token and `runs e` the row of the method that is executed. The other restrictions are those of C90. -/
def MainRuns (cfg : Cfg) (runs : Nat → Nat) (entry : Nat → Prop) (ok : Bytes → Prop) (init : Option Obj.Val) (negative : Bool)
    (room heap : Nat → Prop) (good : Option Obj.Val → Prop) : Prop :=
  ∀ (disk : Disk) (exeDir : Path) (runtime console : Bytes) (d₀ f₀ : Nat) (w : World),
    newRuntime cfg (foundFiles disk (loadPaths exeDir)) d₀ f₀ runtime console {} = (.ok (), w) →
  ∀ (args : List Path) (path : Path) (data : Bytes) (m : Metadata) (d : Decls) (ref : Name → Prop) (rank size : Name → Nat)
    (e : Nat) (row : AssemblyRow) (name : Name), args[1]? = some path → disk.read path = some data →
    readMetadata cfg data = .ok m → m.tables.assembly[0]? = some row → m.string row.name = .ok (some name) →
    (∀ r ∈ m.tables.assemblyRef, ∃ n, m.string r.name = .ok (some n) ∧ ∃ a ∈ w.assemblies, a.name = n) →
    m.cliHeader.entryPoint = ⟨6 * 2 ^ 24 + e⟩ → e < 2 ^ 24 → 1 ≤ e → entry e →
    WellFormed (fun _ => True) m w d → FiniteSizes cfg m w d ref rank size → Started m w d →
  ∀ (prog : Nat → Option Obj.Proc) (p : Obj.Proc) (mrow : MethodDefRow), (∀ i q, prog i = some q → ProcIs m w d i q) →
    prog (runs e) = some p → m.tables.methodDef[runs e - 1]? = some mrow → mrow.attributes.isStatic = true → p.params = 0 →
    ∃ G, ∀ depth ≥ d₀, ∀ fuel ≥ G, ∃ T, ∀ tf ≥ T,
      ∀ (ops : FloatOps) (n k : Nat) (s : Obj.Store) (o : Outcome (Option Obj.Val)), LawfulEq ops →
        room (p.locals + k) → heap s.cost → (∀ r, o = .done r → good r) →
        Obj.Runs ⟨ops, cfg.checks, negative, ok, init, prog⟩ n k p 0 ⟨[], []⟩ (p.start init []) s o →
        (mainProgram cfg ops runtime console disk exeDir depth fuel tf n args).2 = s.output ∧
        DeliversVal (mainProgram cfg ops runtime console disk exeDir depth fuel tf n args).1 o

/-- What `main` does once the file has been loaded. -/
theorem mainLoads_ok {cfg : Cfg} {disk : Disk} {exeDir : Path} {runtime console : Bytes} {depth fuel : Nat} {w w' : World}
    {args : List Path} {path : Path} {data : Bytes} {a : AssemblyRec} {x : MethodRec}
    (hrt : newRuntime cfg (foundFiles disk (loadPaths exeDir)) depth fuel runtime console {} = (.ok (), w))
    (hpath : args[1]? = some path) (hread : disk.read path = some data)
    (ha : loadData cfg (foundFiles disk (loadPaths exeDir)) depth fuel data w = (.ok a, w')) (hx : a.entryPoint = some x) :
    mainLoads cfg runtime console disk exeDir depth fuel args {} = (.ok x, w') := by
  unfold mainLoads
  rw [M.bind_ok (M.unwrap_ok hrt), M.liftM_bind_ok (show Res.unwrap args[1]? = .ok path by rw [hpath]; rfl), M.bind_ok (M.unwrap_ok (by
    unfold loadPath
    rw [M.liftM_bind_ok (show Res.ofOption _ (disk.read path) = .ok data by rw [hread]; rfl)]
    exact ha)), hx]
  rfl

/-- **C92**, what holds of it: the program executes the method in the row *before* the one that the entry point names, for
entry points in other rows than row 1, and the output and the result are those of that method.

Missing: that it is the method that the entry point names (`C92_refuted`), and what C90 leaves out. -/
theorem C92_partial (cfg : Cfg) : MainRuns cfg (· - 1) (· ≠ 1) (fun l => ¬ Wide l) none cfg.checks (· ≤ 64) (· ≤ 1024)
    (fun r => ∀ b, r ≠ some (.ref b)) := by
  intro disk exeDir runtime console d₀ f₀ w hrt args path data m d ref rank size e row name hpath hread hm ha hn hrefs hk hk' hk1
    hent hwf hf hst prog p mrow hprog hp hrow hstat hpar
  have hw : Reached cfg w := by have := Reached.runtime (cfg := cfg) (foundFiles disk (loadPaths exeDir)) d₀ f₀ runtime console .start; rwa [hrt] at this
  have hout : w.output = [] := by
    have := Wordless.newRuntime (cfg := cfg) (foundFiles disk (loadPaths exeDir)) d₀ f₀ runtime console {}
    rw [hrt] at this; exact this
  obtain ⟨G, hG⟩ := C90_partial cfg (foundFiles disk (loadPaths exeDir)) w data m d ref rank size e row name hw hm ha hn hrefs hk hk' hent
    hwf hf hst
  have hd₀ : d₀ ≠ 0 := by
    rintro rfl
    have : (newRuntime cfg (foundFiles disk (loadPaths exeDir)) 0 f₀ runtime console {}).1 = .timeout := rfl
    rw [hrt] at this; cases this
  refine ⟨max G f₀, fun depth hdepth fuel hge => ?_⟩
  have hrt' : newRuntime cfg (foundFiles disk (loadPaths exeDir)) depth fuel runtime console {} = (.ok (), w) := by
    rw [M.Refined.newRuntime (cfg := cfg) _ (show f₀ ≤ fuel by omega) hdepth runtime console {} (by rw [hrt]; simp), hrt]
  obtain ⟨a, w', h1, h2, T, h3⟩ := hG (depth - 1) fuel (by omega)
  rw [show depth - 1 + 1 = depth by omega] at h1
  refine ⟨T, fun tf htf ops n k s o hops hroom hheap hgood hruns => ?_⟩
  obtain ⟨x, h4, h5⟩ := h3 tf htf prog hprog (e - 1) p mrow hp hrow hstat
  have hx : a.entryPoint = some x := by
    obtain ⟨name, w1, hs, -, -⟩ := loadData_selfIs hw.inv hm h1
    have hent := readMetadata_entry hm
    unfold entryPointHandle at hent
    rw [hk, token_index 6 e hk', if_neg (by omega), usub_ok hk1] at hent
    simp only [Res.ok_bind, Res.pure_eq, Res.ok.injEq] at hent
    have hsel := hs.entry
    rw [← hent] at hsel
    unfold resolveEntryPoint at hsel
    dsimp only at hsel
    rw [token_new (e - 1) (by omega)] at hsel
    obtain ⟨o, g1, g2⟩ := Res.bind_eq_ok.mp hsel
    obtain ⟨y, g3, g4⟩ := Res.bind_eq_ok.mp g2
    rw [ofOption_eq_ok] at g3
    simp only [Res.pure_eq, Res.ok.injEq] at g4
    subst g3
    have g5 : a.resolveMethod cfg ⟨6 * 2 ^ 24 + (e - 1)⟩ = .ok (some y) := g1
    rw [h4] at g5
    cases g5
    exact g4.symm
  have h6 := h5 ops n k [] s o hops hpar.symm hroom hheap hgood hruns
  unfold mainProgram
  rw [mainLoads_ok hrt' hpath hread h1 hx]
  rw [hout, List.nil_append] at h6
  exact h6

/-! ## When nothing can be executed -/

/-- Without an argument, the program ends with a panic and without output. -/
theorem C92_no_argument (cfg : Cfg) (ops : FloatOps) (runtime console : Bytes) (disk : Disk) (exeDir : Path)
    (depth fuel tf n : Nat) (args : List Path) (w : World)
    (hrt : newRuntime cfg (foundFiles disk (loadPaths exeDir)) depth fuel runtime console {} = (.ok (), w))
    (h : args.length ≤ 1) :
    mainProgram cfg ops runtime console disk exeDir depth fuel tf n args = (.panic, []) := by
  have hq := Wordless.mainLoads (cfg := cfg) runtime console disk exeDir depth fuel args {}
  have : mainLoads cfg runtime console disk exeDir depth fuel args {} = (.panic, w) := by
    unfold mainLoads
    rw [M.bind_ok (M.unwrap_ok hrt), show args[1]? = none by rw [List.getElem?_eq_none_iff]; omega]
    rfl
  unfold mainProgram
  rw [this] at hq ⊢
  exact Prod.ext rfl hq

/-- If the file cannot be read or is rejected by the loader, or has no entry point, the program ends with a panic and without
output. -/
theorem C92_rejected (cfg : Cfg) (ops : FloatOps) (runtime console : Bytes) (disk : Disk) (exeDir : Path)
    (depth fuel tf n : Nat) (args : List Path) (w : World) (path : Path)
    (hrt : newRuntime cfg (foundFiles disk (loadPaths exeDir)) depth fuel runtime console {} = (.ok (), w))
    (hpath : args[1]? = some path)
    (h : match disk.read path with
      | none => True
      | some data => (∃ e, (loadData cfg (foundFiles disk (loadPaths exeDir)) depth fuel data w).1 = .err e) ∨
        ∃ a, (loadData cfg (foundFiles disk (loadPaths exeDir)) depth fuel data w).1 = .ok a ∧ a.entryPoint = none) :
    mainProgram cfg ops runtime console disk exeDir depth fuel tf n args = (.panic, []) := by
  have hq := Wordless.mainLoads (cfg := cfg) runtime console disk exeDir depth fuel args {}
  have : (mainLoads cfg runtime console disk exeDir depth fuel args {}).1 = .panic := by
    unfold mainLoads
    rw [M.bind_ok (M.unwrap_ok hrt), M.liftM_bind_ok (show Res.unwrap args[1]? = .ok path by rw [hpath]; rfl), M.bind_run]
    cases hr : disk.read path with
    | none => simp only [M.unwrap, loadPath, hr]; rfl
    | some data =>
      rw [hr] at h
      dsimp only at h
      have hl : loadPath cfg disk (foundFiles disk (loadPaths exeDir)) depth fuel path w =
          loadData cfg (foundFiles disk (loadPaths exeDir)) depth fuel data w := by
        unfold loadPath
        rw [M.liftM_bind_ok (show Res.ofOption _ (disk.read path) = .ok data by rw [hr]; rfl)]
      rcases hd : loadData cfg (foundFiles disk (loadPaths exeDir)) depth fuel data w with ⟨r, w'⟩
      rw [hd] at h hl
      obtain ⟨e, he⟩ | ⟨a, he, hx⟩ := h
      · dsimp only at he; subst he
        rw [M.unwrap_err hl]
      · dsimp only at he; subst he
        rw [M.unwrap_ok hl]
        dsimp only
        rw [hx]
        rfl
  rcases hm : mainLoads cfg runtime console disk exeDir depth fuel args {} with ⟨r, w'⟩
  rw [hm] at this hq
  dsimp only at this; subst this
  unfold mainProgram
  rw [hm]
  exact Prod.ext rfl hq

/-! ## Instances -/

namespace Ex
open Obj

def mainStrings : List String := ["app", "core", "System", "Object", "Console", "Write", "P", "First", "Second"]

def firstCode : Bytes := [0x72, 1, 0, 0, 0x70, 0x28, 1, 0, 0, 0x0a, 0x28, 2, 0, 0, 6, 0x17, 0x58, 0x2a]
def secondCode : Bytes := [0x1d, 0x2a]

/-- `class P { static int First() { Console.Write("Hi"); return Second() + 1; } static int Second() { return 7; } }`, whose
entry point is `Second`, in row 2. -/
def mainAsm : Asm where
  strings := mainStrings
  blobs := [[0x00, 0, 0x08], [0x00, 1, 0x01, 0x0e]]
  userStrings := 0 :: encUserString [0x48, 0x69] 0
  tables :=
    [(0x01, [typeRefRow mainStrings "System" "Object", typeRefRow mainStrings "System" "Console"]),
     (0x02, [typeRow mainStrings 0 "" "P" (refRow 1) 1 1]),
     (0x06, [methodRow mainStrings 0x2000 0 0x10 "First" 1 1, methodRow mainStrings 0x2013 0 0x10 "Second" 1 1]),
     (0x0a, [memberRefRow mainStrings 17 "Write" 5]),
     (0x20, [assemblyRow mainStrings "app"]),
     (0x23, [assemblyRefRow mainStrings "core"])]
  bodies := 0x4a :: firstCode ++ 0x0a :: secondCode
  entry := 0x06000002

def mainDecls : Decls where
  name _ := "P".toList
  base _ := some "System.Object".toList
  static _ := false
  fieldType _ := .int
  fieldTypeName _ := "System.Int32".toList
  method _ := ⟨false, false, false, 0, .int, []⟩
  impl j := if j = 1 then .tiny firstCode else .tiny secondCode

def mainBlob : Bytes := 0 :: ([[0x00, 0, 0x08], [0x00, 1, 0x01, 0x0e]].map encBlob).flatten

/-- What is read from the file. -/
def MainFacts (m : Metadata) : Prop :=
  m.tables.typeDef.map (fun r => (r.baseType.typeDefOrRef, r.fieldList, r.methodList, m.string r.name, m.string r.nspace)) =
    [(.typeRef 1, 1, 1, .ok (some "P".toList), .ok (some []))] ∧
  m.tables.typeRef.map (fun r => (m.string r.name, m.string r.nspace)) =
    [(.ok (some "Object".toList), .ok (some "System".toList)), (.ok (some "Console".toList), .ok (some "System".toList))] ∧
  m.tables.field.length = 0 ∧
  m.tables.methodDef.map (fun r => (r.rva, r.signature, r.paramList, r.attributes.isStatic, m.string r.name)) =
    [(0x2000, 1, 1, true, .ok (some "First".toList)), (0x2013, 1, 1, true, .ok (some "Second".toList))] ∧
  (∀ r ∈ m.tables.methodDef, r.implAttributes.internalCall = false ∧ r.attributes.pinvokeImpl = false ∧
    r.attributes.isAbstract = false) ∧
  m.tables.interfaceImpl.length = 0 ∧
  m.tables.memberRef.map (fun r => (r.parent.table, r.parent.row, m.string r.name)) = [(.typeRef, 2, .ok (some "Write".toList))] ∧
  m.tables.assembly.map (fun r => m.string r.name) = [.ok (some "app".toList)] ∧
  m.tables.assemblyRef.map (fun r => m.string r.name) = [.ok (some "core".toList)] ∧
  m.blobHeap = mainBlob ∧ m.userStringData = 0 :: encUserString [0x48, 0x69] 0 ∧
  m.peInfo.sections = [secOf (validSection (m.peData.length - 0x200))] ∧
  0x216 ≤ m.peData.length ∧ m.peData.length < 2 ^ 20 ∧ (m.peData.drop 0x200).take 22 = mainAsm.bodies ∧
  m.entryPoint = some 1 ∧ m.cliHeader.entryPoint = ⟨6 * 2 ^ 24 + 2⟩

set_option synthInstance.maxHeartbeats 200000 in
set_option synthInstance.maxSize 1000 in
instance (m : Metadata) : Decidable (MainFacts m) := by
  unfold MainFacts
  repeat' apply instDecidableAnd

theorem mainFacts : holds (fun m => decide (MainFacts m)) (readMetadata .debug mainAsm.file) = true := by
  decide +kernel

theorem main_names {m : Metadata} (h : MainFacts m) :
    RowNamed m (.typeDef 1) "P".toList ∧ RowNamed m (.typeRef 1) "System.Object".toList ∧
    RowNamed m (.typeRef 2) "System.Console".toList := by
  obtain ⟨h1, h2, -⟩ := h
  obtain ⟨a0, l, e1, g0, h1⟩ := List.map_eq_cons_iff.mp h1
  obtain ⟨b0, l, e2, k0, h2⟩ := List.map_eq_cons_iff.mp h2
  obtain ⟨b1, l, rfl, k1, h2⟩ := List.map_eq_cons_iff.mp h2
  simp only [Prod.mk.injEq] at g0 k0 k1
  exact ⟨.typeDef 1 a0 _ _ (by decide) (by simp [e1]) g0.2.2.2.1 g0.2.2.2.2,
    .typeRef 1 b0 _ _ (by decide) (by simp [e2]) k0.1 k0.2, .typeRef 2 b1 _ _ (by decide) (by simp [e2]) k1.1 k1.2⟩

theorem main_types {m : Metadata} (h : MainFacts m) : ∃ a0, m.tables.typeDef = [a0] ∧
    a0.baseType.typeDefOrRef = .typeRef 1 ∧ a0.fieldList = 1 ∧ a0.methodList = 1 := by
  obtain ⟨h1, -⟩ := h
  obtain ⟨a0, l, e1, g0, h1⟩ := List.map_eq_cons_iff.mp h1
  obtain rfl := List.map_eq_nil_iff.mp h1
  simp only [Prod.mk.injEq] at g0
  exact ⟨a0, e1, g0.1, g0.2.1, g0.2.2.1⟩

theorem main_typeNames {m : Metadata} (h : MainFacts m) :
    ∀ k < m.tables.typeDef.length, RowNamed m (.typeDef (k + 1)) (mainDecls.name k) := by
  obtain ⟨n1, -⟩ := main_names h
  obtain ⟨a0, et, -⟩ := main_types h
  intro k hk
  rw [et] at hk
  obtain rfl : k = 0 := by simp at hk; omega
  exact n1

theorem main_declared {m : Metadata} (h : MainFacts m) {n : Name} (hd : Declared m n) : n = "P".toList := by
  obtain ⟨k, hk, rfl⟩ := Mid.declared_index (main_typeNames h) hd
  rfl

theorem main_region {m : Metadata} (h : MainFacts m) (i : Nat) (body : Bytes) (hb : (mainAsm.bodies.drop i).take body.length = body)
    (hi : i + body.length ≤ 22 ∧ 0 < body.length) : RegionAt m (0x2000 + i) body := by
  obtain ⟨-, -, -, -, -, -, -, -, -, -, -, h1, h2, h3, h4, -⟩ := h
  refine ⟨by omega, [validSection (m.peData.length - 0x200)], validSection (m.peData.length - 0x200),
    m.peData.drop (0x200 + i + body.length), h1, ?_, ?_, List.mem_singleton.mpr rfl, ?_, ?_, ?_⟩
  · intro s hs
    rw [List.mem_singleton.mp hs]
    simp only [Section.NoWrap, validSection]; omega
  · intro s hs t ht _ _
    rw [List.mem_singleton.mp hs, List.mem_singleton.mp ht]
  · simp only [Section.Contains, validSection]; omega
  · simp only [validSection]; omega
  · simp only [validSection]
    rw [show 512 + (8192 + i - 8192) = 512 + i by omega]
    have : ((m.peData.drop (512 + i)).take body.length) = body := by
      rw [← h4] at hb
      rw [List.drop_take, List.take_take, List.drop_drop, Nat.min_eq_left (by omega)] at hb
      exact hb
    have h5 := List.take_append_drop body.length (m.peData.drop (512 + i))
    rw [this, List.drop_drop] at h5
    exact h5.symm

theorem main_blob (m : Metadata) (h : m.blobHeap = mainBlob) (j : Nat) : BlobHolds m 1 (encMethodSig (mainDecls.method j)) :=
  blobHolds_of h (show ([0x00, 0, 0x08] : Bytes).length < 2 ^ 29 ∧ mainBlob = mainBlob.take 1 ++ encBlob [0x00, 0, 0x08] ++
    mainBlob.drop (1 + (encBlob [0x00, 0, 0x08]).length) ∧ 1 ≤ mainBlob.length ∧ mainBlob.length < 2 ^ 20 by decide)

theorem main_methodFits : MethodSigFits ⟨false, false, false, 0, .int, []⟩ := by
  refine ⟨?_, ?_, ?_, trivial⟩
  · exact Nat.two_pow_pos _
  · exact Nat.two_pow_pos _
  · simp [ElemFits]

theorem main_wellFormed {m : Metadata} (h : MainFacts m) : WellFormed (fun _ => True) m runWorld mainDecls := by
  obtain ⟨n1, n2, n3⟩ := main_names h
  obtain ⟨k1, k2, k3, k4, k5, k6, -⟩ := runKnown m
  have hnames := main_typeNames h
  have hbody := main_region h
  obtain ⟨a0, et, p1, p2, p3⟩ := main_types h
  obtain ⟨-, g2, lf, g4, g5, g7, g8, -, -, hblob, -, -, -, -, -, ge, -⟩ := h
  have lm : m.tables.methodDef.length = 2 := by have := congrArg List.length g4; simpa using this
  have lr : m.tables.typeRef.length = 2 := by have := congrArg List.length g2; simpa using this
  have hsig := main_blob m hblob
  have hint : Resolvable m runWorld .int "System.Int32".toList := ⟨_, .builtin (n := "System.Int32") rfl, k5⟩
  have methAt : ∀ {j : Nat} {row : MethodDefRow} {x : Nat × Nat × Nat × Bool × Res (Option Name)}, m.tables.methodDef[j]? = some row →
      (m.tables.methodDef.map (fun r => (r.rva, r.signature, r.paramList, r.attributes.isStatic, m.string r.name)))[j]? = some x →
      row.rva = x.1 ∧ row.signature = x.2.1 ∧ row.paramList = x.2.2.1 ∧ m.string row.name = x.2.2.2.2 := by
    intro j row x h1 h2
    rw [List.getElem?_map, h1, Option.map_some, Option.some.injEq] at h2
    subst h2; exact ⟨rfl, rfl, rfl, rfl⟩
  rw [g4] at methAt
  refine ⟨k1, k2, hnames, ?_, ?_, ?_, ?_, ?_, ?_, ?_, ?_, ?_, ?_, ?_⟩
  · intro k row hrow
    rw [et] at hrow
    have hk := (List.getElem?_eq_some_iff.mp hrow).1
    obtain rfl : k = 0 := by simp at hk; omega
    simp only [List.getElem?_cons_zero, Option.some.injEq] at hrow; subst hrow
    rw [p1]; exact .some n2 k3
  · rw [et, lf]; simp only [List.map_cons, List.map_nil, p2]; decide
  · rw [et, lm]; simp only [List.map_cons, List.map_nil, p3]; decide
  · intro j row hrow
    have hj := (List.getElem?_eq_some_iff.mp hrow).1
    omega
  · intro k j row hown hrow
    have hj := (List.getElem?_eq_some_iff.mp hrow).1
    rw [lm] at hj
    obtain ⟨q1, q2, q3⟩ := g5 row (List.mem_of_getElem? hrow)
    obtain rfl | rfl : j = 0 ∨ j = 1 := by omega
    · obtain ⟨f1, f2, f3, f4⟩ := methAt hrow rfl
      refine ⟨by rw [f2]; exact hsig 1, main_methodFits, ⟨_, hint⟩, ?_, ?_,
        ⟨_, f4, .tiny q1 q2 q3 (by decide) (by rw [f1]; exact hbody 0 (tinyBody firstCode) (by decide) (by decide))⟩⟩
      · intro e he; exact absurd he List.not_mem_nil
      · intro i hi; exact absurd hi (Nat.not_lt_zero i)
    · obtain ⟨f1, f2, f3, f4⟩ := methAt hrow rfl
      refine ⟨by rw [f2]; exact hsig 2, main_methodFits, ⟨_, hint⟩, ?_, ?_,
        ⟨_, f4, .tiny q1 q2 q3 (by decide) (by rw [f1]; exact hbody 0x13 (tinyBody secondCode) (by decide) (by decide))⟩⟩
      · intro e he; exact absurd he List.not_mem_nil
      · intro i hi; exact absurd hi (Nat.not_lt_zero i)
  · intro row hrow
    rw [List.length_eq_zero_iff] at g7
    rw [g7] at hrow; cases hrow
  · intro k hk
    rw [lr] at hk
    have hreg := fun n hn => runReg (runNames n hn)
    obtain rfl | rfl : k = 0 ∨ k = 1 := by omega
    exacts [⟨_, n2, hreg _ (by simp)⟩, ⟨_, n3, hreg _ (by simp)⟩]
  · intro row hrow _
    obtain ⟨r, l, e, hr, hl⟩ := List.map_eq_cons_iff.mp g8
    obtain rfl := List.map_eq_nil_iff.mp hl
    rw [e, List.mem_singleton] at hrow
    subst hrow
    simp only [Prod.mk.injEq] at hr
    obtain ⟨-, -, -, c1, -⟩ := runRecs
    obtain ⟨tr, c3, c4⟩ := Option.map_eq_some_iff.mp c1
    simp only [Prod.mk.injEq] at c4
    obtain ⟨x, xl, e2, hx, -⟩ := List.map_eq_cons_iff.mp c4.2
    rw [hr.2.1]
    refine ⟨_, 18, tr, x, n3, c3, c4.1, ?_, by rw [e2]; exact List.mem_cons_self, by rw [hx]; exact hr.2.2⟩
    intro t' r' hlt ht'
    have := run_lt ht'
    omega
  · intro e hee
    rw [ge] at hee; cases hee
    exact ⟨trivial, by rw [lm]; decide⟩
  · rw [lf, lm]; decide
  · rw [lf, lm, et, runLength19]; show 19 + 1 + _ + _ < _; decide

theorem main_finite {m : Metadata} (h : MainFacts m) :
    FiniteSizes .debug m runWorld mainDecls progRef progRank progSize := by
  obtain ⟨a0, et, p1, p2, p3⟩ := main_types h
  obtain ⟨-, -, lf, -⟩ := h
  have ef : m.tables.typeDef.map (·.fieldList) = [1] := by rw [et]; simp only [List.map_cons, List.map_nil, p2]
  have rows : ∀ {k : Nat} {row : TypeDefRow}, m.tables.typeDef[k]? = some row → k = 0 ∧ row.fieldList = 1 := by
    intro k row hrow
    have hk := (List.getElem?_eq_some_iff.mp hrow).1
    rw [et] at hrow hk
    obtain rfl : k = 0 := by simp at hk; omega
    simp only [List.getElem?_cons_zero, Option.some.injEq] at hrow; subst hrow
    exact ⟨rfl, p2⟩
  refine ⟨by decide, by decide, ?_, ?_, ?_, ?_, ?_, ?_, fun n _ => prog_size n, ?_, ?_, ?_, ?_⟩
  · intro t r hr hv
    obtain ⟨h1, h2⟩ := runRefs t (run_lt hr) r hr hv
    refine ⟨fun b br hb hbr => h2 b hb br hbr, fun i hi => ?_⟩
    rw [h1] at hi
    exact absurd hi List.not_mem_nil
  · intro k _ _ b hb
    cases hb; decide
  · intro k hk b hb hd
    cases hb
    show progRank "System.Object".toList < progRank "P".toList
    decide
  · intro j _ _ _ hr
    cases hr
  · intro k j _ _ _ hd hn
    exact absurd (show "System.Int32".toList ∈ numberNames by simp [numberNames]) hn
  · intro t r hr
    refine ⟨ends_of (fun t => if t = 1 then 0 else if t = 2 then 1 else 2) (by decide +kernel) t (List.getElem?_eq_some_iff.1 hr).1, ?_⟩
    obtain ⟨s, h1, h2⟩ := holds_iff (runSizes t (run_lt hr))
    exact ⟨100, s, h1, Nat.le_trans (of_decide_eq_true h2) (prog_size _)⟩
  · intro j _ _ _
    exact Nat.le_trans (by decide) (prog_size _)
  · intro k row hrow _
    obtain ⟨rfl, h2⟩ := rows hrow; rw [h2, lf, ef]; decide
  · intro k _
    show progSize "P".toList < _
    decide
  · intro k row hrow
    obtain ⟨rfl, h2⟩ := rows hrow; rw [h2, lf, ef]; decide

theorem main_started {m : Metadata} (h : MainFacts m) : Started m runWorld mainDecls := by
  obtain ⟨a0, et, -⟩ := main_types h
  obtain ⟨-, -, -, k4, -, k6, -⟩ := runKnown m
  have hdec := fun {n} => main_declared h (n := n)
  obtain ⟨-, -, lf, g4, -⟩ := h
  have lm : m.tables.methodDef.length = 2 := by have := congrArg List.length g4; simpa using this
  obtain ⟨-, -, -, -, c3, -⟩ := runRecs
  refine ⟨(fun hn => by rw [hn] at c3; cases c3), run_numbers, ?_, k6, k4, ?_, ?_⟩
  · intro κ hd
    exact absurd (hdec hd) (by cases κ <;> decide)
  · intro t r hr hn x hx _
    have := List.all_eq_true.mp ((runTypes t (run_lt hr) r hr).2.2.1 hn) x hx
    simpa [and_assoc] using this
  · rw [lf, lm, et, runLength19]; show 19 + 1 + _ + _ + 1 < _; decide

def firstProc : Proc := ⟨firstCode, 0, 0, true, progCalls, fun _ => none, fun _ => none, progTexts, fun _ => false⟩
def secondProc : Proc := ⟨secondCode, 0, 0, true, progCalls, fun _ => none, fun _ => none, progTexts, fun _ => false⟩
def mainProcs (i : Nat) : Option Proc := if i = 1 then some firstProc else if i = 2 then some secondProc else none

theorem main_procs {m : Metadata} (h : MainFacts m) (i : Nat) (q : Proc) (hq : mainProcs i = some q) :
    ProcIs m runWorld mainDecls i q := by
  obtain ⟨n1, n2, n3⟩ := main_names h
  obtain ⟨-, -, -, g4, -, -, g8, -, -, -, hus, -⟩ := h
  obtain ⟨r0, l, em, hm0, g4⟩ := List.map_eq_cons_iff.mp g4
  obtain ⟨r1, l, rfl, hm1, g4⟩ := List.map_eq_cons_iff.mp g4
  obtain rfl := List.map_eq_nil_iff.mp g4
  obtain ⟨mr, l, er, hmr, g8⟩ := List.map_eq_cons_iff.mp g8
  obtain rfl := List.map_eq_nil_iff.mp g8
  simp only [Prod.mk.injEq] at hm0 hm1 hmr
  have procs : ∀ tok i, progCalls tok = some (.proc i) → tok = 6 * 2 ^ 24 + i ∧ 1 ≤ i ∧ i ≤ m.tables.methodDef.length := by
    intro tok i ht
    rw [em]
    simp only [progCalls] at ht
    split at ht
    · cases ht; subst tok; exact ⟨rfl, by decide, by show 2 ≤ 2; decide⟩
    · split at ht <;> cases ht
  have write : ∀ tok, progCalls tok = some .write → (∀ r ∈ m.tables.memberRef, r.parent.table = .typeRef) ∧
      ∃ r row, tok = 10 * 2 ^ 24 + r ∧ 1 ≤ r ∧ r < 2 ^ 24 ∧ m.tables.memberRef[r - 1]? = some row ∧ 1 ≤ row.parent.row ∧
        RowNamed m (.typeRef row.parent.row) "System.Console".toList ∧ m.string row.name = .ok (some "Write".toList) := by
    intro tok ht
    simp only [progCalls] at ht
    split at ht
    · cases ht
    · split at ht <;> cases ht
      subst tok
      refine ⟨fun r hr => by rw [er, List.mem_singleton] at hr; rw [hr]; exact hmr.1, 1, mr, rfl, by decide, by decide,
        by rw [er]; rfl, by rw [hmr.2.1]; decide, by rw [hmr.2.1]; exact n3, hmr.2.2⟩
  have strings : ∀ tok text, progTexts tok = some text → ∃ pre post last,
      m.userStringData = pre ++ encUserString (text.flatMap utf16) last ++ post ∧ tok = 0x70 * 2 ^ 24 + pre.length ∧
        2 * (text.flatMap utf16).length + 1 < 2 ^ 29 ∧ pre.length < 2 ^ 24 ∧ post.length < 2 ^ 62 := by
    intro tok text ht
    simp only [progTexts] at ht
    split at ht <;> cases ht
    subst tok
    refine ⟨[0], [], 0, by rw [hus]; decide, by decide, by decide, by decide, by decide⟩
  have value : ∀ n, Resolvable m runWorld .int n → n ≠ "System.Void".toList := by
    intro n hn
    rw [resolvable_kind (κ := .int) hn]; decide
  unfold mainProcs at hq
  split at hq
  · cases hq; subst i
    exact ⟨⟨r0, by decide, by rw [em]; rfl, by rw [hm0.2.2.2.1]; rfl⟩, rfl, fun _ => value, (fun h => by cases h), procs, write, nofun, nofun, strings, nofun⟩
  split at hq <;> cases hq
  subst i
  exact ⟨⟨r1, by decide, by rw [em]; rfl, by rw [hm1.2.2.2.1]; rfl⟩, rfl, fun _ => value, (fun h => by cases h), procs, write, nofun, nofun, strings, nofun⟩

def mainMachine (F : FloatOps) : Machine := ⟨F, true, true, fun l => ¬ Wide l, none, mainProcs⟩

theorem second_runs (F : FloatOps) (e : Nat) (s : Obj.Store) : Runs (mainMachine F) (e + 2) 0 secondProc 0 s (secondProc.start none []) s
    (.done (some (.int 7))) := by
  refine Runs.next (c := [0x1d]) (.base (.const (n := 7) (by decide))) (by decide) rfl (d := 0) (ip' := 1) rfl ?_
  exact .ret (by decide) (.value rfl)

def firstStore : Obj.Store := ⟨[.str "Hi".toList], "Hi".toList⟩

theorem first_runs (F : FloatOps) (e : Nat) : Runs (mainMachine F) (e + 6) 1 firstProc 0 ⟨[], []⟩ (firstProc.start none []) firstStore
    (.done (some (.int 8))) := by
  refine Runs.next (c := [0x72, 1, 0, 0, 0x70]) (.ldstr (t := 0x70000001) (by decide)) (by decide) rfl (d := 0) (ip' := 5) rfl ?_
  refine .write (t := 0x0a000001) (k' := 0) (text := "Hi".toList) (rest := []) (by decide) (by decide) rfl rfl rfl (by omega) ?_
  refine .call (t := 0x06000002) (j := 2) (q := secondProc) (k' := 0) (k'' := 0) (args := []) (rest := [])
    (by decide) (by decide) rfl rfl rfl rfl (by decide) (second_runs F (e + 1) _) (by decide) ?_
  refine Runs.next (c := [0x17]) (.base (.const (n := 1) (by decide))) (by decide) rfl (d := 0) (ip' := 16) rfl ?_
  refine Runs.next (c := [0x58]) (.base (.arith (op := .add))) (by decide) rfl (d := 0) (ip' := 17) rfl ?_
  exact .ret (by decide) (.value rfl)

/-- A disk with only the file `app`. -/
def mainDisk : Disk := fun p => if p = "app".toList then some (some mainAsm.file) else none

theorem pushPath_length (p q : Path) : q.length ≤ (pushPath p q).length := by
  unfold pushPath
  split
  · exact Nat.le_refl _
  · split
    · simp
    · simp; omega

theorem mainDisk_long {p : Path} (h : 4 ≤ p.length) : mainDisk.present p = false := by
  unfold Disk.present mainDisk
  rw [if_neg (by rintro rfl; revert h; decide)]
  rfl

/-- No library is on that disk. -/
theorem mainDisk_files (dirs : List Path) : foundFiles mainDisk dirs = noFiles := by
  funext n
  have : resolveAssemblyName mainDisk n dirs = none := by
    induction dirs with
    | nil => rfl
    | cons d dirs ih =>
      have h1 : ∀ p (x : String), 4 ≤ x.toList.length → mainDisk.present (pushPath p (n ++ x.toList)) = false := fun p x hx =>
        mainDisk_long (Nat.le_trans (by simp only [List.length_append]; omega) (pushPath_length _ _))
      unfold resolveAssemblyName
      dsimp only
      rw [h1 _ ".dll" (by decide), h1 _ ".exe" (by decide)]
      exact ih
  unfold foundFiles
  rw [this]
  rfl

theorem runStarts : newRuntime Cfg.debug noFiles 1 100 coreFile conAsm.file {} = (.ok (), runWorld) := by
  have : (newRuntime Cfg.debug noFiles 1 100 coreFile conAsm.file {}).1 = .ok () := by decide +kernel
  generalize hx : newRuntime Cfg.debug noFiles 1 100 coreFile conAsm.file {} = x at this
  have h2 : runWorld = x.2 := by rw [← hx, runWorld]
  rw [h2, ← this]

/-- The claim for the program `program app`. -/
theorem main_uses {runs : Nat → Nat} {entry : Nat → Prop} {negative : Bool} {room heap : Nat → Prop} {good : Option Val → Prop}
    (h : MainRuns .debug runs entry (fun l => ¬ Wide l) none negative room heap good) (he : entry 2) (p : Proc)
    (hp : mainProcs (runs 2) = some p) :
    ∃ G, ∀ depth ≥ 1, ∀ fuel ≥ G, ∃ T, ∀ tf ≥ T, ∀ (ops : FloatOps) (n k : Nat) (s : Obj.Store) (o : Outcome (Option Val)),
      LawfulEq ops → room k → heap s.cost → (∀ r, o = .done r → good r) →
      Runs ⟨ops, true, negative, fun l => ¬ Wide l, none, mainProcs⟩ n k p 0 ⟨[], []⟩ (p.start none []) s o →
      (mainProgram .debug ops coreFile conAsm.file mainDisk [] depth fuel tf n ["program".toList, "app".toList]).2 = s.output ∧
      DeliversVal (mainProgram .debug ops coreFile conAsm.file mainDisk [] depth fuel tf n ["program".toList, "app".toList]).1 o := by
  obtain ⟨m, hm, h2⟩ := holds_iff mainFacts
  have hF := of_decide_eq_true h2
  have hF' := hF
  obtain ⟨-, -, -, h6, -, -, -, h3, h4, -, -, -, -, -, -, -, h5⟩ := hF'
  obtain ⟨row, l, e, hr, -⟩ := List.map_eq_cons_iff.mp h3
  obtain ⟨rr, l', e', hr', hl'⟩ := List.map_eq_cons_iff.mp h4
  obtain rfl := List.map_eq_nil_iff.mp hl'
  obtain ⟨-, -, -, -, -, hout, hcore⟩ := runRecs
  obtain ⟨r0, l, em, hm0, h6⟩ := List.map_eq_cons_iff.mp h6
  obtain ⟨r1, l, rfl, hm1, h6⟩ := List.map_eq_cons_iff.mp h6
  obtain rfl := List.map_eq_nil_iff.mp h6
  simp only [Prod.mk.injEq] at hm0 hm1
  have hrow : ∃ mrow, m.tables.methodDef[runs 2 - 1]? = some mrow ∧ mrow.attributes.isStatic = true ∧ p.params = 0 ∧ p.locals = 0 := by
    rw [em]
    unfold mainProcs at hp
    split at hp
    · rename_i h1; cases hp; rw [h1]; exact ⟨r0, rfl, hm0.2.2.2.1, rfl, rfl⟩
    · split at hp
      · rename_i h1; cases hp; rw [h1]; exact ⟨r1, rfl, hm1.2.2.2.1, rfl, rfl⟩
      · cases hp
  obtain ⟨mrow, hrow, hstat, hpar, hloc⟩ := hrow
  obtain ⟨G, hG⟩ := h mainDisk [] coreFile conAsm.file 1 100 runWorld (by rw [mainDisk_files]; exact runStarts)
    ["program".toList, "app".toList] "app".toList mainAsm.file m mainDecls _ _ _ 2 row _ rfl (by unfold Disk.read mainDisk; rw [if_pos rfl]; rfl)
    hm (by rw [e]; rfl) hr
    (by
      rw [e']; intro r h; rw [List.mem_singleton] at h; subst h
      obtain ⟨a, h1, h2⟩ := List.any_eq_true.mp hcore
      exact ⟨_, hr', a, h1, of_decide_eq_true h2⟩)
    h5 (by decide) (by decide) he (main_wellFormed hF) (main_finite hF) (main_started hF) mainProcs p mrow (main_procs hF) hp hrow hstat hpar
  refine ⟨G, fun depth hd fuel hf => ?_⟩
  obtain ⟨T, hT⟩ := hG depth hd fuel hf
  refine ⟨T, fun tf htf ops n k s o hops hroom => ?_⟩
  exact hT tf htf ops n k s o hops (by rw [hloc, Nat.zero_add]; exact hroom)

end Ex

/-- The hypotheses of `C92_partial` can be met: for the file whose entry point is `Second`, the program executes `First`. -/
example : ∃ G, ∀ depth ≥ 1, ∀ fuel ≥ G, ∃ T, ∀ tf ≥ T, ∀ (ops : FloatOps) (e : Nat), LawfulEq ops →
    mainProgram .debug ops Ex.coreFile Ex.conAsm.file Ex.mainDisk [] depth fuel tf (e + 6) ["program".toList, "app".toList] =
      (.ok (.number (.i32 8)), "Hi".toList) := by
  obtain ⟨G, hG⟩ := Ex.main_uses (C92_partial .debug) (by decide) Ex.firstProc rfl
  refine ⟨G, fun depth hd fuel hf => ?_⟩
  obtain ⟨T, hT⟩ := hG depth hd fuel hf
  refine ⟨T, fun tf htf ops e hops => ?_⟩
  have := hT tf htf ops (e + 6) 1 Ex.firstStore _ hops (by decide) (by decide) (by rintro r ⟨⟩ b ⟨⟩) (Ex.first_runs ops e)
  exact Prod.ext this.2 this.1

/-- **C92 fails**: the program does not execute the method that the entry point names. It writes `Hi`, and `Second` does
not. -/
theorem C92_refuted : ¬ MainRuns .debug id (· ≠ 1) (fun l => ¬ Wide l) none true (· ≤ 64) (· ≤ 1024)
    (fun r => ∀ b, r ≠ some (.ref b)) := by
  intro h
  obtain ⟨G, hG⟩ := Ex.main_uses h (by decide) Ex.secondProc rfl
  obtain ⟨G', hG'⟩ := Ex.main_uses (C92_partial .debug) (by decide) Ex.firstProc rfl
  obtain ⟨T, hT⟩ := hG 1 (by decide) (max G G') (by omega)
  obtain ⟨T', hT'⟩ := hG' 1 (by decide) (max G G') (by omega)
  have h1 := (hT (max T T') (by omega) Ex.floats 6 0 ⟨[], []⟩ _ Ex.floats_lawful (by decide) (by decide) (by rintro r ⟨⟩ b ⟨⟩) (Ex.second_runs _ 4 _)).1
  have h2 := (hT' (max T T') (by omega) Ex.floats 6 1 Ex.firstStore _ Ex.floats_lawful (by decide) (by decide) (by rintro r ⟨⟩ b ⟨⟩) (Ex.first_runs _ 0)).1
  rw [h1] at h2
  cases h2

end Clr
