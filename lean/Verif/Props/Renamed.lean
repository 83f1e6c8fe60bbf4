import Verif.Lemmas.Renamed
import Verif.Props.Spelling
/-! # C118: the names of methods and parameters do not matter to programs -/

namespace Clr
open Spec

variable {cfg : Cfg} {ops : FloatOps} {tf : Nat} {w : World} {m m' : MethodRec} {params : List Value} {φ : MethodRec → MethodRec}

/-- **C118, the names of methods and parameters do not matter to programs.** Any number of methods of loaded assemblies and their parameters may be
renamed, several to the same name: the program ends if it ended before and conversely, with the same result, error or panic, and leaves
the same objects, parameters of the host and registry, up to the names. -/
theorem C118_renamed (hφ : ∀ m, Renamed m (φ m)) (hm : Renamed m m') :
    ((∃ fuel, (hostExecute cfg ops tf fuel w m params).1 ≠ .timeout) ↔
      ∃ fuel, (hostExecute cfg ops tf fuel (withMethods φ w) m' params).1 ≠ .timeout) ∧
    ∀ fuel fuel', (hostExecute cfg ops tf fuel w m params).1 ≠ .timeout →
      (hostExecute cfg ops tf fuel' (withMethods φ w) m' params).1 ≠ .timeout →
      hostExecute cfg ops tf fuel' (withMethods φ w) m' params =
        ((hostExecute cfg ops tf fuel w m params).1, leftWith φ (hostExecute cfg ops tf fuel w m params).2) :=
  hostExecute_concur hm.matched (loop_spot fun m => (hφ m).matched)

/-- Gives all methods and parameters the same name. -/
def Ex.anonymous (m : MethodRec) : MethodRec := { m with name := ['a'], params := m.params.map fun p => { p with name := ['a'] } }

theorem Ex.anonymous_renames (m : MethodRec) : Renamed m (anonymous m) := ⟨rfl, by simp [anonymous, Function.comp_def]⟩

/-- A program with a call, by its own names and with all names the same. -/
example : (∀ m, Renamed m (Ex.anonymous m)) ∧
    (hostExecute .debug Ex.floats 9 60 (Ex.tiny [Ex.sumS, Ex.caller]) Ex.caller [.i32 3]).1 = .ok (.number (.i32 12)) ∧
    (hostExecute .debug Ex.floats 9 60 (withMethods Ex.anonymous (Ex.tiny [Ex.sumS, Ex.caller])) (Ex.anonymous Ex.caller) [.i32 3]).1 =
      .ok (.number (.i32 12)) ∧
    withMethods Ex.anonymous (Ex.tiny [Ex.sumS, Ex.caller]) ≠ Ex.tiny [Ex.sumS, Ex.caller] :=
  ⟨Ex.anonymous_renames, by decide +kernel⟩

end Clr
