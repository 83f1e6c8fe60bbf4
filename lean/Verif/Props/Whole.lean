import Verif.Spec.Whole
import Verif.Lemmas.LoadFuel
import Verif.Props.Abstract
import Verif.Props.Valid
/-! # C88: from the file to the result -/

namespace Clr
open Spec

/-- The result the host gets agrees with the outcome. -/
def Delivers (r : Res RunResult) : Outcome (Option (BitVec 32)) → Prop
  | .done (some a) => r = .ok (.number (.i32 a))
  | .done none => r = .ok .void
  | .stops => r = .panic
  | .unfinished => r = .timeout
  | .undefined => False

theorem C84_delivers (cfg : Cfg) (ops : FloatOps) (tf : Nat) (w : World) (prog : Nat → Option Abs.Proc) (meth : Nat → MethodRec)
    (j : Nat) (p : Abs.Proc) (args : List (BitVec 32)) (n k : Nat) (o : Outcome (Option (BitVec 32)))
    (h1 : ∀ i q, prog i = some q → Abs.LinkedTo cfg w meth (meth i) q) (h2 : prog j = some p) (h3 : (meth j).isStatic)
    (h4 : args.length = p.params) (h5 : p.locals + k ≤ 64)
    (h6 : Abs.Runs cfg.checks (fun l => ¬ Wide l) none prog n k p 0 (p.start none args) o) :
    Delivers (hostExecute cfg ops tf n w (meth j) (args.map .i32)).1 o := by
  have h := C84_partial cfg ops tf w prog meth j p args n k o h1 h2 h3 h4 h5 h6
  unfold Delivers
  split at h <;> exact h

section
variable {cfg : Cfg} {m : Metadata} {w w' : World} {d : Decls}

/-- The methods of a loaded assembly, row by row. -/
theorem loaded_methods {name : Name} {a : AssemblyRec} (hwf : WellFormed entry m w d) (hs : SelfIs cfg m name w w' a)
    (hm : Mid m w d w') (j : Nat) (hj : 1 ≤ j) (hj' : j ≤ m.tables.methodDef.length) :
    ∃ x k, a.methodDefs[j - 1]? = some x ∧ k < m.tables.typeDef.length ∧ MethodIs m w d w' k j x ∧
      Owns (m.tables.typeDef.map (·.methodList)) m.tables.methodDef.length k j := by
  obtain ⟨xss, h1, h2, h3⟩ := hs.methods
  have htl : a.types.length = m.tables.typeDef.length := by rw [hs.types]; simp
  have hget : ∀ (k : Nat) t, a.types[k]? = some t → t = w.types.length + k ∧ k < m.tables.typeDef.length := by
    intro k t hk
    rw [hs.types] at hk
    have hl := (List.getElem?_eq_some_iff.mp hk).1
    rw [List.length_range'] at hl
    rw [List.getElem?_range' hl, Nat.one_mul] at hk
    cases hk
    exact ⟨rfl, hl⟩
  obtain ⟨g1, g2⟩ := runs_cover (cfg := cfg) (P := fun t r x => ∃ k < m.tables.typeDef.length, t = w.types.length + k ∧ MethodIs m w d w' k r x)
    hwf.methodRuns h2 htl fun k t hk => by
      obtain ⟨tr, h4, h5, s, n, h6, h7, -⟩ := h3 k t hk
      obtain ⟨rfl, hl⟩ := hget k t hk
      have hrow : m.tables.typeDef[k]? = some m.tables.typeDef[k] := List.getElem?_eq_getElem hl
      obtain ⟨tr', g1, g2⟩ := hm.own k hl
      rw [h4] at g1; cases g1
      refine ⟨_, h5, s, n, h6, h7, fun i x hx => ⟨k, hl, rfl, ?_⟩⟩
      rw [ownedRun_partition hwf.methodRuns hrow] at h6
      cases h6
      exact g2.methods _ hrow i x hx
  have hlt : j - 1 < xss.flatten.length := by omega
  have hx : xss.flatten[j - 1]? = some xss.flatten[j - 1] := List.getElem?_eq_getElem hlt
  obtain ⟨i, t, ht, g4, k, hk, rfl, g3⟩ := g2 (j - 1) _ hx
  obtain rfl : k = i := by have := (hget i _ ht).1; omega
  rw [show j - 1 + 1 = j by omega] at g3 g4
  exact ⟨_, k, by rw [h1]; exact hx, hk, g3, g4⟩

theorem resolvable_int {n : Name} (h : Resolvable m w .int n) : n = "System.Int32".toList := by
  obtain ⟨root, h, -⟩ := h
  cases h with
  | builtin h => cases h; rfl

theorem resolvable_void {n : Name} (h : Resolvable m w .void n) : n = "System.Void".toList := by
  obtain ⟨root, h, -⟩ := h
  cases h with
  | builtin h => cases h; rfl

theorem Mid.void (hm : Mid m w d w') (hwf : WellFormed entry m w d) (hv : Known m w "System.Void".toList) :
    ∃ t tr, w'.getType "System.Void".toList = some t ∧ w'.types[t]? = some tr ∧ tr.fullName = "System.Void".toList := by
  obtain ⟨i, r, h1, h2, h3, -⟩ := hm.resolves hwf.typeNames hv
  exact ⟨i, r, h1, h2, h3⟩

/-- What the declaration of an integer procedure says. -/
theorem intProg_inv {j : Nat} {p : Abs.Proc} (h : intProg m d j = some p) :
    ∃ row, 1 ≤ j ∧ m.tables.methodDef[j - 1]? = some row ∧ row.attributes.isStatic = true ∧
      intResult (d.method j).returnType = some p.returns ∧ intBody (d.impl j) = some (p.code, p.locals) ∧
      p.params = (d.method j).params.length ∧ p.calls = methodRowOf m.tables.methodDef.length := by
  unfold intProg at h
  split at h
  · next h1 =>
    split at h
    · split at h
      · next h2 h3 =>
        cases h
        obtain ⟨hj, h1⟩ := h1
        obtain ⟨row, hr, hs⟩ : ∃ row, m.tables.methodDef[j - 1]? = some row ∧ row.attributes.isStatic = true := by
          cases hr : m.tables.methodDef[j - 1]? with
          | none => rw [hr] at h1; cases h1
          | some row => exact ⟨row, rfl, by simpa [hr] using h1⟩
        exact ⟨row, hj, hr, hs, h2, h3, rfl, rfl⟩
      · cases h
    · cases h
  · cases h

theorem loaded_linked {name : Name} {a : AssemblyRec} (hwf : WellFormed entry m w d) (hs : SelfIs cfg m name w w' a)
    (hm : Mid m w d w') (hf : FreshId w) (hid : a.id = w.nextAssembly) (hv : Known m w "System.Void".toList) :
    ∃ meth : Nat → MethodRec, (∀ j, 1 ≤ j → j ≤ m.tables.methodDef.length →
        a.resolveMethod cfg ⟨6 * 2 ^ 24 + j⟩ = .ok (some (meth j))) ∧
      ∀ j p, intProg m d j = some p → Abs.LinkedTo cfg w' meth (meth j) p ∧ (meth j).isStatic = true := by
  have hall := loaded_methods hwf hs hm
  have hex : ∀ j, ∃ x : MethodRec, 1 ≤ j → j ≤ m.tables.methodDef.length → a.methodDefs[j - 1]? = some x := by
    intro j
    by_cases hj : 1 ≤ j ∧ j ≤ m.tables.methodDef.length
    · obtain ⟨x, k, h, -⟩ := hall j hj.1 hj.2
      exact ⟨x, fun _ _ => h⟩
    · exact ⟨⟨[], 0, 0, [], .none, false, false, false⟩, fun h1 h2 => absurd ⟨h1, h2⟩ hj⟩
  obtain ⟨meth, hmeth⟩ := Classical.axiomOfChoice hex
  have hres : ∀ j, 1 ≤ j → j ≤ m.tables.methodDef.length → a.resolveMethod cfg ⟨6 * 2 ^ 24 + j⟩ = .ok (some (meth j)) := by
    intro j h1 h2
    have := hwf.small.2
    rw [resolveMethod_def _ (by omega), usub_ok h1, Res.ok_bind, hmeth j h1 h2]
    rfl
  refine ⟨meth, hres, fun j p hp => ?_⟩
  obtain ⟨row, hj, hrow, hst, hret, hbody, hpar, hcalls⟩ := intProg_inv hp
  have hj' : j ≤ m.tables.methodDef.length := by
    have := (List.getElem?_eq_some_iff.mp hrow).1
    omega
  obtain ⟨x, k, hx, hk, hxi, howns⟩ := hall j hj hj'
  have : meth j = x := by
    have := hmeth j hj hj'
    rw [hx] at this; cases this; rfl
  rw [this]
  obtain ⟨row', hrow', -, hstat⟩ := hxi.row
  rw [hrow] at hrow'; cases hrow'
  rw [hst] at hstat
  obtain ⟨tr, htr, hown⟩ := hm.own k hk
  have hmo := hwf.methods k (j - 1) row (by rwa [show j - 1 + 1 = j by omega]) hrow
  rw [show j - 1 + 1 = j by omega] at hmo
  obtain ⟨nm, -, himpl⟩ := hmo.impl
  have hcode : (∃ b, x.impl = .il b ∧ b.code = p.code ∧ b.locals.length = p.locals) ∧ p.code.length < 2 ^ 62 := by
    have hxim := hxi.impl
    generalize d.impl j = im at *
    cases himpl with
    | native => cases hbody
    | absent => cases hbody
    | tiny _ _ _ hl _ =>
      simp only [intBody, Option.some.injEq, Prod.mk.injEq] at hbody
      rw [← hbody.1, ← hbody.2]
      exact ⟨hxim, by omega⟩
    | fat _ _ _ hl =>
      simp only [intBody] at hbody
      split at hbody
      · simp only [Option.some.injEq, Prod.mk.injEq] at hbody
        rw [← hbody.1, ← hbody.2]
        exact ⟨hxim, by have := hl.2.1; omega⟩
      · cases hbody
  obtain ⟨⟨b, b1, b2, b3⟩, hsize⟩ := hcode
  obtain ⟨n, r, hn, hr, hrn⟩ := hxi.ret
  obtain ⟨vt, vr, v1, v2, v3⟩ := hm.void hwf hv
  refine ⟨⟨⟨b, tr, a, b1, b2, b3, by rw [hxi.declaring]; exact htr, ?_, fun tok i' hi' => ?_⟩, hsize, ?_, fun hr' => ?_, fun hr' => ?_⟩, hstat⟩
  · rw [hs.assemblies, hown.assembly, List.find?_append]
    have : w.assemblies.find? (·.id = w.nextAssembly) = none := by
      rw [List.find?_eq_none]
      intro a' ha'
      have := hf a' ha'
      simp only [decide_eq_true_eq]; omega
    rw [this]
    simp [hid]
  · rw [hcalls] at hi'
    unfold methodRowOf at hi'
    split at hi'
    · next ht =>
      have hi' : i' = tok - 6 * 2 ^ 24 := (Option.some.inj hi').symm
      have e : tok = 6 * 2 ^ 24 + i' := by omega
      rw [e]
      exact hres i' (by omega) (by omega)
    · cases hi'
  · unfold MethodRec.slots
    rw [hstat, hpar, hxi.params]; rfl
  · refine ⟨r, vt, vr, hr, v1, v2, ?_⟩
    generalize (d.method j).returnType = e at hret hn
    rw [hr'] at hret
    cases e <;> first | (simp [intResult] at hret; done) | skip
    rw [hrn, v3, resolvable_int hn]
    decide
  · refine ⟨r, vt, vr, hr, v1, v2, ?_⟩
    generalize (d.method j).returnType = e at hret hn
    rw [hr'] at hret
    cases e <;> first | (simp [intResult] at hret; done) | skip
    rw [hrn, v3, resolvable_void hn]

end

/-- The claim C88: the methods of a well-formed assembly file that work on 32-bit integers, once loaded, compute what the
abstract machine says. `k` is the row of the method, named by its token. `ok` says which encodings programs use, `init` what
locals hold at first, `room` bounds the number of variables in use at the same time, and `entry` is about the row of the
entry point. -/
def FileComputes (cfg : Cfg) (ok : Bytes → Prop) (init : Option (BitVec 32)) (room entry : Nat → Prop) : Prop :=
  ∀ (fs : Name → Option Bytes) (w : World) (data : Bytes) (m : Metadata) (d : Decls) (ref : Name → Prop) (rank size : Name → Nat)
    (e : Nat) (row : AssemblyRow) (name : Name), Reached cfg w → readMetadata cfg data = .ok m →
    m.tables.assembly[0]? = some row → m.string row.name = .ok (some name) →
    (∀ r ∈ m.tables.assemblyRef, ∃ n, m.string r.name = .ok (some n) ∧ ∃ a ∈ w.assemblies, a.name = n) →
    m.cliHeader.entryPoint = ⟨6 * 2 ^ 24 + e⟩ → e < 2 ^ 24 → entry e →
    WellFormed (fun _ => True) m w d → FiniteSizes cfg m w d ref rank size → Known m w "System.Void".toList →
    ∃ G, ∀ depth, ∀ fuel ≥ G, ∃ a w', loadData cfg fs (depth + 1) fuel data w = (.ok a, w') ∧
      ∀ k p, intProg m d k = some p → ∃ x, a.resolveMethod cfg ⟨6 * 2 ^ 24 + k⟩ = .ok (some x) ∧
        ∀ (ops : FloatOps) (tf n k : Nat) (args : List (BitVec 32)) (o : Outcome (Option (BitVec 32))),
          args.length = p.params → room (p.locals + k) →
          Abs.Runs cfg.checks ok init (intProg m d) n k p 0 (p.start init args) o →
          Delivers (hostExecute cfg ops tf n w' x (args.map .i32)).1 o

/-- **C88** for the programs of C84 and entry points in other rows than row 1.

Missing: what C84 leaves out (locals that are read before they are assigned, more than 64 variables in use, `ldarg` and
`starg` with a two-byte index), and entry points in row 1 (C85). -/
theorem C88_partial (cfg : Cfg) : FileComputes cfg (fun l => ¬ Wide l) none (· ≤ 64) (· ≠ 1) := by
  intro fs w data m d ref rank size e row name h hm ha hn hrefs hk hk' hk1 hwf hf hv
  obtain ⟨G, hG⟩ := loadData_wellFormed fs h.inv hm ha hn hrefs hk hk' hk1 hwf hf
  refine ⟨G, fun depth fuel hge => ?_⟩
  obtain ⟨a, w', h1, h2, -, h3, h4, -⟩ := hG depth fuel hge
  obtain ⟨meth, g1, g2⟩ := loaded_linked hwf (loadSelf_ok h.inv h2) h3 h.freshId h4 hv
  refine ⟨a, w', h1, fun k p hp => ⟨meth k, ?_, fun ops tf n room args o ho hroom hruns => ?_⟩⟩
  · obtain ⟨row, hj, hrow, -⟩ := intProg_inv hp
    have := (List.getElem?_eq_some_iff.mp hrow).1
    exact g1 k hj (by omega)
  · exact C84_delivers cfg ops tf w' (intProg m d) meth k p args n room o (fun i q hq => (g2 i q hq).1) hp (g2 k p hp).2 ho
      hroom hruns

namespace Ex

def wholeStrings : List String := ["app", "core", "System", "Object", "P", "T", "x"]

/-- `class P { static int T(int x) { return x == 0 ? 0 : x + T(x - 1); } }`. -/
def wholeAsm : Asm where
  strings := wholeStrings
  blobs := [[0x00, 1, 0x08, 0x08]]
  tables :=
    [(0x01, [typeRefRow wholeStrings "System" "Object"]),
     (0x02, [typeRow wholeStrings 0 "" "P" (refRow 1) 1 1]),
     (0x06, [methodRow wholeStrings 0x2000 0 0x10 "T" 1 1]),
     (0x08, [paramRow wholeStrings 1 "x"]),
     (0x20, [assemblyRow wholeStrings "app"]),
     (0x23, [assemblyRefRow wholeStrings "core"])]
  bodies := 0x42 :: triCode
  entry := 0x06000000

/-- The reading of the tables of that file. -/
def wholeDecls : Decls where
  name _ := "P".toList
  base _ := some "System.Object".toList
  static _ := false
  fieldType _ := .int
  fieldTypeName _ := "System.Int32".toList
  method _ := ⟨false, false, false, 0, .int, [.int]⟩
  impl _ := .tiny triCode

def wholeBlob : Bytes := 0 :: encBlob [0x00, 1, 0x08, 0x08]

/-- What is read from the file. -/
def WholeFacts (m : Metadata) : Prop :=
  m.tables.typeDef.map (fun r => (r.baseType.typeDefOrRef, r.fieldList, r.methodList, m.string r.name, m.string r.nspace)) =
    [(.typeRef 1, 1, 1, .ok (some "P".toList), .ok (some []))] ∧
  m.tables.typeRef.map (fun r => (m.string r.name, m.string r.nspace)) = [(.ok (some "Object".toList), .ok (some "System".toList))] ∧
  m.tables.field.length = 0 ∧
  m.tables.methodDef.map (fun r => (r.rva, r.signature, r.paramList, r.attributes.isStatic, m.string r.name)) =
    [(0x2000, 1, 1, true, .ok (some "T".toList))] ∧
  (∀ r ∈ m.tables.methodDef, r.implAttributes.internalCall = false ∧ r.attributes.pinvokeImpl = false ∧
    r.attributes.isAbstract = false) ∧
  m.tables.param.map (fun r => m.string r.name) = [.ok (some "x".toList)] ∧
  m.tables.interfaceImpl.length = 0 ∧ m.tables.memberRef.length = 0 ∧
  m.tables.assembly.map (fun r => m.string r.name) = [.ok (some "app".toList)] ∧
  m.tables.assemblyRef.map (fun r => m.string r.name) = [.ok (some "core".toList)] ∧
  m.blobHeap = wholeBlob ∧
  m.peInfo.sections = [secOf (validSection (m.peData.length - 0x200))] ∧
  0x211 ≤ m.peData.length ∧ m.peData.length < 2 ^ 20 ∧ (m.peData.drop 0x200).take 17 = 0x42 :: triCode ∧
  m.entryPoint = none ∧ m.cliHeader.entryPoint = ⟨6 * 2 ^ 24 + 0⟩

set_option synthInstance.maxHeartbeats 200000 in
set_option synthInstance.maxSize 1000 in
instance (m : Metadata) : Decidable (WholeFacts m) := by
  unfold WholeFacts
  repeat' apply instDecidableAnd

theorem wholeFacts : holds (fun m => decide (WholeFacts m)) (readMetadata .debug wholeAsm.file) = true := by
  decide +kernel

theorem whole_names {m : Metadata} (h : WholeFacts m) :
    RowNamed m (.typeDef 1) "P".toList ∧ RowNamed m (.typeRef 1) "System.Object".toList := by
  obtain ⟨h1, h2, -⟩ := h
  obtain ⟨a0, l, e1, g0, h1⟩ := List.map_eq_cons_iff.mp h1
  obtain ⟨b0, l, e2, k0, h2⟩ := List.map_eq_cons_iff.mp h2
  simp only [Prod.mk.injEq] at g0 k0
  exact ⟨.typeDef 1 a0 _ _ (by decide) (by simp [e1]) g0.2.2.2.1 g0.2.2.2.2, .typeRef 1 b0 _ _ (by decide) (by simp [e2]) k0.1 k0.2⟩

theorem whole_types {m : Metadata} (h : WholeFacts m) : ∃ a0, m.tables.typeDef = [a0] ∧
    a0.baseType.typeDefOrRef = .typeRef 1 ∧ a0.fieldList = 1 ∧ a0.methodList = 1 := by
  obtain ⟨h1, -⟩ := h
  obtain ⟨a0, l, e1, g0, h1⟩ := List.map_eq_cons_iff.mp h1
  obtain rfl := List.map_eq_nil_iff.mp h1
  simp only [Prod.mk.injEq] at g0
  exact ⟨a0, e1, g0.1, g0.2.1, g0.2.2.1⟩

theorem whole_body {m : Metadata} (h : WholeFacts m) : RegionAt m 0x2000 (tinyBody triCode) := by
  obtain ⟨-, -, -, -, -, -, -, -, -, -, -, h1, h2, h3, h4, -⟩ := h
  refine ⟨by omega, [validSection (m.peData.length - 0x200)], validSection (m.peData.length - 0x200), m.peData.drop 0x211, h1,
    ?_, ?_, List.mem_singleton.mpr rfl, ?_, ?_, ?_⟩
  · intro s hs
    rw [List.mem_singleton.mp hs]
    simp only [Section.NoWrap, validSection]; omega
  · intro s hs t ht _ _
    rw [List.mem_singleton.mp hs, List.mem_singleton.mp ht]
  · simp only [Section.Contains, validSection]; omega
  · simp only [validSection]; omega
  · simp only [validSection]
    rw [show tinyBody triCode = 0x42 :: triCode from rfl, ← h4, show (512 + (8192 - 8192)) = 512 from rfl,
      show (0x211 : Nat) = 512 + 17 from rfl, ← List.drop_drop, List.take_append_drop]

theorem whole_wellFormed {m : Metadata} (h : WholeFacts m) : WellFormed (fun _ => True) m coreWorld wholeDecls := by
  obtain ⟨n1, n4⟩ := whole_names h
  obtain ⟨k1, k2, k3, k4, k5⟩ := coreKnown m
  have hbody := whole_body h
  obtain ⟨a0, et, p1, p2, p3⟩ := whole_types h
  obtain ⟨-, g2, g3, g4, g5, g6, g7, g8, -, -, hblob, -, -, -, -, ge, -⟩ := h
  have lm : m.tables.methodDef.length = 1 := by have := congrArg List.length g4; simpa using this
  have lr : m.tables.typeRef.length = 1 := by have := congrArg List.length g2; simpa using this
  refine ⟨k1, k2, ?_, ?_, ?_, ?_, ?_, ?_, ?_, ?_, ?_, ?_, ?_, ?_⟩
  · intro k hk
    rw [et] at hk
    obtain rfl : k = 0 := by simp at hk; omega
    exact n1
  · intro k row hrow
    rw [et] at hrow
    have hk := (List.getElem?_eq_some_iff.mp hrow).1
    obtain rfl : k = 0 := by simp at hk; omega
    simp only [List.getElem?_cons_zero, Option.some.injEq] at hrow; subst hrow
    rw [p1]; exact .some n4 k3
  · rw [et, g3]; simp only [List.map_cons, List.map_nil, p2]; decide
  · rw [et, lm]; simp only [List.map_cons, List.map_nil, p3]; decide
  · intro j row hrow
    have hj := (List.getElem?_eq_some_iff.mp hrow).1
    rw [g3] at hj; omega
  · intro k j row hown hrow
    have hj := (List.getElem?_eq_some_iff.mp hrow).1
    rw [lm] at hj
    obtain ⟨q1, q2, q3⟩ := g5 row (List.mem_of_getElem? hrow)
    obtain ⟨prow, l, ep, hp, -⟩ := List.map_eq_cons_iff.mp g6
    obtain ⟨mrow, l', em, hmr, -⟩ := List.map_eq_cons_iff.mp g4
    obtain rfl : j = 0 := by omega
    rw [em, List.getElem?_cons_zero, Option.some.injEq] at hrow
    subst hrow
    simp only [Prod.mk.injEq] at hmr
    obtain ⟨f1, f2, f3, -, f4⟩ := hmr
    refine ⟨by rw [f2]; exact blobHolds_of hblob (by decide +kernel), ⟨Nat.two_pow_pos _, by show 1 < 2 ^ 29; decide, by simp [ElemFits, wholeDecls], by simp [ElemFits], trivial⟩,
      ⟨_, _, .builtin (n := "System.Int32") rfl, k5⟩, ?_, ?_, ⟨_, f4, .tiny q1 q2 q3 (by decide) (by rw [f1]; exact hbody)⟩⟩
    · intro e he
      obtain rfl : e = .int := List.mem_singleton.mp he
      exact ⟨_, _, .builtin (n := "System.Int32") rfl, k5⟩
    · intro i hi
      obtain rfl : i = 0 := Nat.lt_one_iff.mp hi
      rw [f3]
      exact ⟨by decide, prow, _, by rw [ep]; rfl, hp⟩
  · intro row hrow
    rw [List.length_eq_zero_iff] at g7
    rw [g7] at hrow; cases hrow
  · intro k hk
    rw [lr] at hk
    have hreg := fun n hn => reg (coreNames n (List.mem_append_right numberNames hn))
    obtain rfl : k = 0 := by omega
    exact ⟨_, n4, hreg _ (by simp)⟩
  · intro row hrow _
    rw [List.length_eq_zero_iff] at g8
    rw [g8] at hrow; cases hrow
  · intro e hee
    rw [ge] at hee; cases hee
  · rw [g3, lm]; decide
  · rw [g3, lm, et, coreConsole.2]; show 19 + 1 + _ + _ < _; decide

def wholeRef (n : Name) : Prop := n ∈ ["System.Object".toList, "System.Array".toList, "P".toList]
instance (n : Name) : Decidable (wholeRef n) := by unfold wholeRef; infer_instance
def wholeRank (n : Name) : Nat := if n = "P".toList then 1 else 0
def wholeSize (n : Name) : Nat := if n = "P".toList then 100 else 8

theorem wholeCoreRefs : ∀ t < 19, ∀ r ∈ coreWorld.types[t]?, wholeRef r.fullName →
    r.interfaces = [] ∧ ∀ b ∈ r.base, ∀ br ∈ coreWorld.types[b]?, wholeRef br.fullName := by
  decide +kernel

theorem whole_size (n : Name) : 8 ≤ wholeSize n := by
  unfold wholeSize; split <;> decide

theorem whole_finite {m : Metadata} (h : WholeFacts m) :
    FiniteSizes .debug m coreWorld wholeDecls wholeRef wholeRank wholeSize := by
  obtain ⟨a0, et, p1, p2, p3⟩ := whole_types h
  have lt : m.tables.typeDef.length = 1 := by rw [et]; rfl
  obtain ⟨-, -, lf, -⟩ := h
  have ef : m.tables.typeDef.map (·.fieldList) = [1] := by rw [et]; simp only [List.map_cons, List.map_nil, p2]
  have htypes : ∀ {t : Nat} {r : TypeRec}, coreWorld.types[t]? = some r → t < 19 := by
    intro t r hr
    have := (List.getElem?_eq_some_iff.mp hr).1
    rw [coreConsole.2] at this; exact this
  have rows : ∀ {k : Nat} {row : TypeDefRow}, m.tables.typeDef[k]? = some row → k = 0 ∧ row.fieldList = 1 := by
    intro k row hrow
    have hk := (List.getElem?_eq_some_iff.mp hrow).1
    rw [et] at hrow hk
    obtain rfl : k = 0 := by simp at hk; omega
    simp only [List.getElem?_cons_zero, Option.some.injEq] at hrow; subst hrow
    exact ⟨rfl, p2⟩
  refine ⟨by decide, by decide, ?_, ?_, ?_, ?_, ?_, ?_, fun n _ => whole_size n, ?_, ?_, ?_, ?_⟩
  · intro t r hr hv
    obtain ⟨h1, h2⟩ := wholeCoreRefs t (htypes hr) r hr hv
    refine ⟨fun b br hb hbr => h2 b hb br hbr, fun i hi => ?_⟩
    rw [h1] at hi
    exact absurd hi List.not_mem_nil
  · intro k _ _ b hb
    simp only [wholeDecls, Option.some.injEq] at hb
    subst hb; decide
  · intro k _ b hb _
    simp only [wholeDecls, Option.some.injEq] at hb
    subst hb
    show wholeRank "System.Object".toList < wholeRank "P".toList
    decide
  · rw [lf]; intro j h1 h2; omega
  · rw [lf, ef]
    rintro k j ⟨⟨s, h1, h2⟩, h3, h4⟩
    have hk := (List.getElem?_eq_some_iff.mp h1).1
    simp only [List.length_cons, List.length_nil] at hk
    obtain rfl : k = 0 := by omega
    simp only [List.getElem?_cons_zero, Option.some.injEq] at h1
    omega
  · intro t r hr
    refine ⟨ends_of (fun t => if t = 1 then 0 else if t = 2 then 1 else 2) (by decide +kernel) t (List.getElem?_eq_some_iff.1 hr).1, ?_⟩
    obtain ⟨s, h1, h2⟩ := holds_iff (coreSizes t (htypes hr))
    exact ⟨100, s, h1, Nat.le_trans (of_decide_eq_true h2) (whole_size _)⟩
  · intro j _ _ _
    exact Nat.le_trans (by decide) (whole_size _)
  · intro k row hrow _
    obtain ⟨rfl, h2⟩ := rows hrow
    rw [h2, lf, ef]
    decide
  · intro k _
    show wholeSize _ < _
    unfold wholeSize; split <;> decide
  · intro k row hrow
    obtain ⟨rfl, h2⟩ := rows hrow
    rw [h2, lf, ef]
    decide

theorem whole_prog {m : Metadata} (h : WholeFacts m) : intProg m wholeDecls 1 = some (triWith (methodRowOf 1)) := by
  obtain ⟨-, -, -, g4, -⟩ := h
  obtain ⟨r, l, e, hr, hl⟩ := List.map_eq_cons_iff.mp g4
  obtain rfl := List.map_eq_nil_iff.mp hl
  simp only [Prod.mk.injEq] at hr
  unfold intProg
  rw [e, if_pos ⟨Nat.le_refl 1, by simpa using hr.2.2.2.1⟩]
  rfl

/-- Running the only method of the loaded file with argument 65 is undefined behaviour. -/
def wholeDeep (l : Res AssemblyRec × World) : Bool :=
  match l.1 with
  | .ok a =>
    match a.resolveMethod .debug ⟨6 * 2 ^ 24 + 1⟩ with
    | .ok (some x) => decide ((hostExecute .debug floats 9 394 l.2 x [.i32 65]).1 = .ub)
    | _ => false
  | _ => false

end Ex

/-- The hypotheses of `C88_partial` can be met, and what it says of the example file: it loads, and the method in its only
row returns the sum of the numbers up to its argument. -/
example : ∃ G, ∀ depth, ∀ fuel ≥ G, ∃ a w', loadData .debug Ex.noFiles (depth + 1) fuel Ex.wholeAsm.file Ex.coreWorld = (.ok a, w') ∧
    ∃ x, a.resolveMethod .debug ⟨6 * 2 ^ 24 + 1⟩ = .ok (some x) ∧ ∀ (ops : FloatOps) (tf i : Nat), i ≤ 64 →
      Delivers (hostExecute .debug ops tf (6 * i + 4) w' x [.i32 (BitVec.ofNat 32 i)]).1
        (.done (some (BitVec.ofNat 32 (Ex.triangle i)))) := by
  obtain ⟨m, hm, h2⟩ := Ex.holds_iff Ex.wholeFacts
  have hF := of_decide_eq_true h2
  have hF' := hF
  obtain ⟨-, -, -, -, -, -, -, -, h3, h4, -, -, -, -, -, -, h5⟩ := hF'
  obtain ⟨row, l, e, hr, -⟩ := List.map_eq_cons_iff.mp h3
  obtain ⟨rr, l', e', hr', hl'⟩ := List.map_eq_cons_iff.mp h4
  obtain rfl := List.map_eq_nil_iff.mp hl'
  obtain ⟨G, hG⟩ := C88_partial .debug Ex.noFiles Ex.coreWorld _ m Ex.wholeDecls _ _ _ 0 row _ Ex.coreReached hm (by rw [e]; rfl) hr
    (by
      rw [e']; intro r h; rw [List.mem_singleton] at h; subst h
      exact ⟨_, hr', by decide +kernel⟩)
    h5 (by decide) (by decide) (Ex.whole_wellFormed hF) (Ex.whole_finite hF) (Ex.coreKnown m).2.2.2.1
  refine ⟨G, fun depth fuel hge => ?_⟩
  obtain ⟨a, w', h6, h7⟩ := hG depth fuel hge
  obtain ⟨x, h8, h9⟩ := h7 1 _ (Ex.whole_prog hF)
  refine ⟨a, w', h6, x, h8, fun ops tf i hi => h9 ops tf _ i [_] _ rfl (by show 0 + i ≤ 64; omega) ?_⟩
  exact Ex.tri_runs_in (by simp [Wide]) none true (j := 1) (by decide) (Ex.whole_prog hF) i 0 (by omega)

/-- **C88 fails for deeper calls**: the example file loads, and its method is undefined behaviour for 65. -/
theorem C88_refuted (ok : Bytes → Prop) (init : Option (BitVec 32)) (hok : ok [0x02]) :
    ¬ FileComputes .debug ok init (fun _ => True) (· ≠ 1) := by
  intro hfull
  obtain ⟨m, hm, h2⟩ := Ex.holds_iff Ex.wholeFacts
  have hF := of_decide_eq_true h2
  have hF' := hF
  obtain ⟨-, -, -, -, -, -, -, -, h3, h4, -, -, -, -, -, -, h5⟩ := hF'
  obtain ⟨row, l, e, hr, -⟩ := List.map_eq_cons_iff.mp h3
  obtain ⟨rr, l', e', hr', hl'⟩ := List.map_eq_cons_iff.mp h4
  obtain rfl := List.map_eq_nil_iff.mp hl'
  obtain ⟨G, hG⟩ := hfull Ex.noFiles Ex.coreWorld _ m Ex.wholeDecls _ _ _ 0 row _ Ex.coreReached hm (by rw [e]; rfl) hr
    (by
      rw [e']; intro r h; rw [List.mem_singleton] at h; subst h
      exact ⟨_, hr', by decide +kernel⟩)
    h5 (by decide) (by decide) (Ex.whole_wellFormed hF) (Ex.whole_finite hF) (Ex.coreKnown m).2.2.2.1
  obtain ⟨a, w', h6, h7⟩ := hG 0 (max G 100) (by omega)
  obtain ⟨x, h8, h9⟩ := h7 1 _ (Ex.whole_prog hF)
  have h10 := h9 Ex.floats 9 _ 65 [BitVec.ofNat 32 65] _ rfl trivial
    (Ex.tri_runs_in hok init true (j := 1) (by decide) (Ex.whole_prog hF) 65 0 (by decide))
  have h11 : Ex.wholeDeep (loadData .debug Ex.noFiles 1 100 Ex.wholeAsm.file Ex.coreWorld) = true := by decide +kernel
  have h12 := M.Refined.loadData (cfg := .debug) Ex.noFiles (d := 1) (k := 100) (k' := max G 100) (by omega) (Nat.le_refl _)
    Ex.wholeAsm.file Ex.coreWorld (by intro hc; rw [Ex.wholeDeep] at h11; simp [hc] at h11)
  rw [h6] at h12
  rw [← h12] at h11
  simp only [Ex.wholeDeep, h8, decide_eq_true_eq] at h11
  unfold Delivers at h10
  cases h11.symm.trans h10

end Clr
