import Verif.Model.Interp
/-!
# What a host can do with a started runtime

Independent of how loading and running work: which calls there are after the runtime has been started.
-/

namespace Clr.Spec

/-- What can happen between two moments: loads, that succeed or fail, and executions of methods, however they end. -/
inductive Onward (cfg : Cfg) : World → World → Prop
  | refl (w : World) : Onward cfg w w
  | loadFile {w w' : World} (fs : Name → Option Bytes) (depth fuel : Nat) (data : Bytes) :
      Onward cfg w w' → Onward cfg w (loadData cfg fs depth fuel data w').2
  | loadName {w w' : World} (fs : Name → Option Bytes) (depth fuel : Nat) (n : Name) :
      Onward cfg w w' → Onward cfg w (loadAssembly cfg fs depth fuel n w').2
  | execute {w w' : World} (ops : FloatOps) (tf fuel : Nat) (m : MethodRec) (params : List Value) :
      Onward cfg w w' → Onward cfg w (hostExecute cfg ops tf fuel w' m params).2.world

end Clr.Spec
