import Verif.Model.Files
import Verif.Model.Interp
/-!
# The command-line program: `test_program/src/main.rs`

What `dbg!` prints is the value `execute` returns; its formatting is not modelled. A panic ends the program.
-/

namespace Clr

/-- `Result::unwrap` of the standard library, for code that uses the registry. -/
def M.unwrap {α : Type} (x : M α) : M α := fun w =>
  match x w with
  | (.err _, w') => (.panic, w')
  | r => r

/-- `ClrLite::load_assembly_from_path` (clr_lite/src/vm/mod.rs:69-72). The message of the system is abbreviated. -/
def loadPath (cfg : Cfg) (disk : Disk) (fs : Name → Option Bytes) (depth fuel : Nat) (path : Path) : M AssemblyRec := do
  let data ← Res.ofOption "Could not read file" (disk.read path)
  loadData cfg fs depth fuel data

/-- `main` up to the call of `execute` (test_program/src/main.rs:4-9): start the runtime, load the file that the first
argument names, and take its entry point. `args` starts with the name of the program, `exeDir` is the directory the program is
in, `runtime` and `console` are the two library files that are part of the program. -/
def mainLoads (cfg : Cfg) (runtime console : Bytes) (disk : Disk) (exeDir : Path) (depth fuel : Nat) (args : List Path) :
    M MethodRec := do
  let fs := foundFiles disk (loadPaths exeDir)
  M.unwrap (newRuntime cfg fs depth fuel runtime console)
  let path ← Res.unwrap args[1]?
  let a ← M.unwrap (loadPath cfg disk fs depth fuel path)
  M.lift (Res.unwrap a.entryPoint)

/-- `main` (test_program/src/main.rs:3-10): what `execute` returns, and the console output. -/
def mainProgram (cfg : Cfg) (ops : FloatOps) (runtime console : Bytes) (disk : Disk) (exeDir : Path)
    (depth fuel tf steps : Nat) (args : List Path) : Res RunResult × List Char :=
  match mainLoads cfg runtime console disk exeDir depth fuel args {} with
  | (.ok m, w) =>
    let r := hostExecute cfg ops tf steps w m []
    (r.1, r.2.world.output)
  | (.err e, w) => (.err e, w.output)
  | (.panic, w) => (.panic, w.output)
  | (.ub, w) => (.ub, w.output)
  | (.timeout, w) => (.timeout, w.output)

end Clr
