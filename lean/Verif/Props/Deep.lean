import Verif.Lemmas.DeepRun
import Verif.Props.Assemblies
import Verif.Props.Construct
import Verif.Props.Contains
/-! # C111: how deep questions and loads recurse; C42: a file that never loads -/

namespace Clr
open Spec

variable {cfg : Cfg} {fs : Name → Option Bytes}

theorem never_or {α : Type} {x : Nat → Res α} {n : Nat} (mono : ∀ {k k'}, k ≤ k' → Res.Refined (x k) (x k'))
    (deep : ∀ k, Res.Refined (x k) (x n)) : (∀ k, x k = .timeout) ∨ ∃ r, r ≠ .timeout ∧ ∀ k ≥ n, x k = r := by
  by_cases h : x n = .timeout
  · left
    intro k
    by_cases e : x k = .timeout
    · exact e
    · rw [← deep k e]; exact h
  · exact .inr ⟨x n, h, fun k hk => mono hk h⟩

/-- **C111, sizes.** In any registry the size of a type is never found, or it is found with at most two nested calls for each
registered type, and one more. -/
theorem C111_size (cfg : Cfg) (w : World) (t : Nat) : (∀ depth, typeSize cfg w depth t = .timeout) ∨
    ∃ r, r ≠ .timeout ∧ ∀ depth ≥ 2 * w.types.length + 1, typeSize cfg w depth t = r :=
  never_or (x := fun k => typeSize cfg w k t) (fun h => .typeSize h t) fun k => .typeSize_deep w k t

/-- **C111, instance tests.** Likewise with one nested call for each registered type, and one more. -/
theorem C111_instance (w : World) (o t : Nat) : (∀ depth, instanceOf w o depth t = .timeout) ∨
    ∃ r, r ≠ .timeout ∧ ∀ depth ≥ w.types.length + 1, instanceOf w o depth t = r :=
  never_or (x := fun k => instanceOf w o k t) (fun h => .instanceOf h t) fun k => .instanceOf_deep w o k t

/-- **C111, lists of fields.** -/
theorem C111_fields (w : World) (t : Nat) : (∀ depth, allFields w depth t = .timeout) ∨
    ∃ r, r ≠ .timeout ∧ ∀ depth ≥ w.types.length + 1, allFields w depth t = r :=
  never_or (x := fun k => allFields w k t) (fun h => .allFields h t) fun k => .allFields_deep w k t

/-- **C111, lists of methods.** -/
theorem C111_methods (w : World) (t : Nat) : (∀ depth, allMethods w depth t = .timeout) ∨
    ∃ r, r ≠ .timeout ∧ ∀ depth ≥ w.types.length + 1, allMethods w depth t = r :=
  never_or (x := fun k => allMethods w k t) (fun h => .allMethods h t) fun k => .allMethods_deep w k t

/-- **C111, loading.** A load that succeeds nests no more loads than the number of assemblies it adds, and no more calls for sizes
than two for each type that is registered at the end, and one more. -/
theorem C111_load {depth fuel : Nat} {n : Name} {w w' : World} {a : AssemblyRec} (h : loadAssembly cfg fs depth fuel n w = (.ok a, w')) :
    ∀ d ≥ w'.assemblies.length - w.assemblies.length, ∀ k ≥ 2 * w'.types.length + 1,
      loadAssembly cfg fs d k n w = (.ok a, w') := by
  intro d hd k hk
  have h1 := (M.Enough.loadAssembly (cfg := cfg) (k := fuel) (k' := k) fs depth n).ends w (by rw [h]; simp) (by rw [h]; exact hk)
  rw [h] at h1
  obtain ⟨data, h2, h3⟩ := M.liftM_bind_eq_ok.mp h1
  unfold loadAssembly
  rw [M.liftM_bind_ok h2]
  exact (loadData_nested fs k depth data w a w' h3).2 d hd

/-- **C111, loads that fail.** The bound on the calls for sizes holds for every load that ends, whatever the outcome. -/
theorem C111_load_ends {depth fuel : Nat} {n : Name} {w : World} (h : (loadAssembly cfg fs depth fuel n w).1 ≠ .timeout) :
    ∀ k ≥ 2 * (loadAssembly cfg fs depth fuel n w).2.types.length + 1,
      loadAssembly cfg fs depth k n w = loadAssembly cfg fs depth fuel n w :=
  fun _ hk => (M.Enough.loadAssembly fs depth n).ends w h hk

/-- **C111, loads that never end.** A load that has made more nested calls for a size than two for each type registered so far, and
one more, never ends. -/
theorem C111_load_never {depth fuel : Nat} {n : Name} {w : World} (h : (loadAssembly cfg fs depth fuel n w).1 = .timeout)
    (hk : 2 * (loadAssembly cfg fs depth fuel n w).2.types.length + 1 ≤ fuel) :
    ∀ k, (loadAssembly cfg fs depth k n w).1 = .timeout :=
  fun _ => (M.Enough.loadAssembly fs depth n).stuck w h hk

/-- **C111, executions.** An execution that ends in any way makes no more nested calls for a size than two for each type that is
registered at the end, and one more. -/
theorem C111_execute {ops : FloatOps} {tf fuel : Nat} {w : World} {m : MethodRec} {params : List Value}
    (h : (hostExecute cfg ops tf fuel w m params).1 ≠ .timeout) :
    ∀ k ≥ 2 * (hostExecute cfg ops tf fuel w m params).2.world.types.length + 1,
      hostExecute cfg ops k fuel w m params = hostExecute cfg ops tf fuel w m params :=
  fun _ hk => hostExecute_suffices h hk

namespace Ex

def selfStrings : List String := ["lib", "System", "ValueType", "S", "f"]

/-- `struct S { S f; }`. -/
def selfAsm : Asm where
  strings := selfStrings
  blobs := [[0x06, 0x11, 0x04]]
  tables :=
    [(0x01, [typeRefRow selfStrings "System" "ValueType"]),
     (0x02, [typeRow selfStrings 0 "" "S" (refRow 1) 1 1]),
     (0x04, [fieldRow selfStrings 0 "f" 1]),
     (0x20, [assemblyRow selfStrings "lib"])]

def selfDisk : Name → Option Bytes := disk [("lib".toList, selfAsm.file)]

end Ex

theorem Ex.self_facts : ∀ b : Bool, Ex.holds (fun m => m.tables.assemblyRef.isEmpty) (readMetadata ⟨b⟩ Ex.selfAsm.file) = true ∧
    (match (loadAssembly ⟨b⟩ Ex.selfDisk 1 100 "lib".toList Ex.coreWorld) with
      | (.timeout, w) => decide (2 * w.types.length + 1 ≤ 100)
      | _ => false) = true := by
  decide +kernel

/-- The bound is not generous: in this registry of a chain of two base classes, three types, and in the library the answers are found,
and not with one call less than there are types in the chain. -/
example : let w : World := { types := [{ id := 0, name := [], nspace := [], fullName := "A".toList, assembly := 0, isAbstract := false },
      { id := 1, name := [], nspace := [], fullName := "B".toList, assembly := 0, isAbstract := false, base := some 0 },
      { id := 2, name := [], nspace := [], fullName := "C".toList, assembly := 0, isAbstract := false, base := some 1 }] }
    (allFields w 2 2 = .timeout ∧ Ex.holds (fun _ => true) (allFields w 3 2) = true) ∧ instanceOf w 0 2 2 = .timeout ∧
      instanceOf w 0 3 2 = .ok true := by decide

/-- Loads of four assemblies that succeed, with as many nested loads as they say. -/
example : Ex.holds (fun _ => true) (loadAssembly Cfg.debug (Ex.disk Ex.diamond) 4 100 "top".toList Ex.coreWorld).1 = true ∧
    (loadAssembly Cfg.debug (Ex.disk Ex.diamond) 2 100 "top".toList Ex.coreWorld).1 = .timeout ∧
    2 * (loadAssembly Cfg.debug (Ex.disk Ex.diamond) 4 100 "top".toList Ex.coreWorld).2.types.length + 1 ≤ 100 := by
  decide +kernel

/-- An execution that makes an object, and so asks for a size: with one nested call it does not get through, with three it does. -/
example :
    let ctor := Ex.meth [0x02, 0x03, 0x04, 0x59, 0x7d, 0x01, 0x00, 0x00, 0x04, 0x2a] (params := 2) (isStatic := false)
    let m := Ex.meth [0x1f, 0x0a, 0x1a, 0x73, 0x02, 0x00, 0x00, 0x06, 0x7b, 0x01, 0x00, 0x00, 0x04, 0x2a] (ret := 8)
    let w := Ex.tiny [m, ctor] [⟨"x".toList, 8, 1, false, 0⟩]
    (hostExecute .debug Ex.floats 1 40 w m []).1 = .timeout ∧ (hostExecute .debug Ex.floats 3 40 w m []).1 = .ok (.number (.i32 6)) := by
  decide +kernel

/-- **C42: refuted for a single file.** There is a file without references to other assemblies, `struct S { S f; }`, whose load
never ends: the size of the type contains itself. -/
theorem C42_refuted_size : ∃ (fs : Name → Option Bytes) (n : Name) (w : World), Survived .debug w ∧
    (∀ cfg x y, ¬ RefersTo cfg fs x y) ∧ ∀ cfg depth fuel, (loadAssembly cfg fs depth fuel n w).1 = .timeout := by
  have href : ∀ cfg x y, ¬ RefersTo cfg Ex.selfDisk x y := by
    intro cfg x y ⟨d, m, row, h1, h2, h3, h4⟩
    have e := Ex.disk_mem h1
    rw [List.mem_singleton] at e
    cases e
    obtain ⟨m', e1, e2⟩ := Ex.holds_iff (Ex.self_facts cfg.checks).1
    rw [show readMetadata cfg Ex.selfAsm.file = .ok m' from e1] at h2
    cases h2
    rw [List.isEmpty_iff.1 e2] at h3
    cases h3
  refine ⟨Ex.selfDisk, "lib".toList, Ex.coreWorld, Ex.coreSurvived, href, fun cfg depth fuel => ?_⟩
  have h2 := (Ex.self_facts cfg.checks).2
  rw [show (⟨cfg.checks⟩ : Cfg) = cfg from rfl] at h2
  have key : (loadAssembly cfg Ex.selfDisk 1 fuel "lib".toList Ex.coreWorld).1 = .timeout := by
    generalize Ex.selfDisk = fs at *
    generalize Ex.coreWorld = w at *
    split at h2
    · rename_i w' e
      exact C111_load_never (fuel := 100) (by rw [e]) (by rw [e]; exact of_decide_eq_true h2) fuel
    · cases h2
  cases depth with
  | zero =>
    have hfs : Ex.selfDisk "lib".toList = some Ex.selfAsm.file := by
      unfold Ex.selfDisk Ex.disk; rw [List.lookup_cons]; simp
    unfold loadAssembly
    rw [hfs, ofOption_some, M.liftM_bind_ok rfl]
    rfl
  | succ d =>
    rw [C42_partial (rank := fun _ => 0) (fun x y h => absurd h (href cfg x y)) _ (by omega)]
    exact key

end Clr
