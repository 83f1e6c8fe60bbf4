import Verif.Model.Main
/-!
# What the builds of the runtime have in common (specification)

The host of the runtime calls its functions one after another. A call answers with a value or an error, or it does not come back
(a panic, undefined behaviour, or no end).
-/

namespace Clr.Spec
open Clr

/-- A call from the host. Files are found through `fs`; `depth`, `fuel`, `tf` and `steps` are bounds of the model. -/
inductive HostCall where
  | start (fs : Name → Option Bytes) (depth fuel : Nat) (runtime console : Bytes)
  | loadFile (fs : Name → Option Bytes) (depth fuel : Nat) (data : Bytes)
  | loadName (fs : Name → Option Bytes) (depth fuel : Nat) (n : Name)
  | arrayOf (t : Nat)
  | sizeOf (fuel t : Nat)
  | execute (tf steps : Nat) (m : MethodRec) (args : List Value)

/-- What a call gives the host. After `execute`, the host sees the result and the parameters it passed. -/
inductive Answer where
  | done
  | assembly (a : AssemblyRec)
  | type (t : Nat)
  | size (n : Nat)
  | ran (r : RunResult) (args : List Value)

/-- A call in a build. -/
def HostCall.make (cfg : Cfg) (ops : FloatOps) (w : World) : HostCall → Res Answer × World
  | .start fs depth fuel a b =>
    let r := newRuntime cfg fs depth fuel a b w
    ((fun _ => .done) <$> r.1, r.2)
  | .loadFile fs depth fuel data =>
    let r := loadData cfg fs depth fuel data w
    (.assembly <$> r.1, r.2)
  | .loadName fs depth fuel n =>
    let r := loadAssembly cfg fs depth fuel n w
    (.assembly <$> r.1, r.2)
  | .arrayOf t =>
    let r := arrayType cfg t w
    (.type <$> r.1, r.2)
  | .sizeOf fuel t => (.size <$> typeSize cfg w fuel t, w)
  | .execute tf steps m args =>
    let r := hostExecute cfg ops tf steps w m args
    ((fun x => .ran x r.2.host) <$> r.1, r.2.world)

/-- The call came back. -/
def CameBack {α : Type} : Res α → Bool
  | .ok _ => true
  | .err _ => true
  | _ => false

/-- A session: the calls in order, up to one that does not come back. -/
def session (cfg : Cfg) (ops : FloatOps) : List HostCall → World → List (Res Answer) × World
  | [], w => ([], w)
  | c :: cs, w =>
    let r := c.make cfg ops w
    if CameBack r.1 then
      let rest := session cfg ops cs r.2
      (r.1 :: rest.1, rest.2)
    else ([r.1], r.2)

end Clr.Spec
