import Verif.Model.Loader
/-!
# Finding assemblies by name: `clr_lite/src/vm/mod.rs`

Paths are strings, as on Unix, and the file system is a function of them. Symbolic links, permissions and changes of the
file system while it is read are not modelled; a path that exists but cannot be read gives `some none`.
-/

namespace Clr

/-- Paths as strings. -/
abbrev Path := List Char

/-- What is at a path: nothing, something unreadable (say, a directory), or a file with contents. -/
abbrev Disk := Path → Option (Option Bytes)

/-- `Path::exists` of the standard library. -/
def Disk.present (d : Disk) (p : Path) : Bool := (d p).isSome

/-- `fs::read` of the standard library. -/
def Disk.read (d : Disk) (p : Path) : Option Bytes := (d p).join

/-- `PathBuf::push` of the standard library: an absolute path replaces, another one is appended after a separator. -/
def pushPath (p q : Path) : Path :=
  if q.head? = some '/' then q
  else if p = [] ∨ p.getLast? = some '/' then p ++ q
  else p ++ '/' :: q

/-- `PathBuf::pop` of the standard library: everything before the last component. Only paths without `.` components are
treated exactly. -/
def popPath (p : Path) : Path :=
  let r := p.reverse.dropWhile (· ≠ '/')
  if r.all (· = '/') then r.take 1 else (r.dropWhile (· = '/')).reverse

/-- `ClrInternal::resolve_assembly_name` (vm/mod.rs:266-283). -/
def resolveAssemblyName (disk : Disk) (name : Name) : List Path → Option Path
  | [] => none
  | dir :: dirs =>
    let path := pushPath dir (name ++ ".dll".toList)
    if disk.present path then some path
    else
      let path := pushPath (popPath path) (name ++ ".exe".toList)
      if disk.present path then some path else resolveAssemblyName disk name dirs

/-- The files `load_assembly` (vm/mod.rs:60-72) finds, for `loadData` and `loadAssembly`. -/
def foundFiles (disk : Disk) (dirs : List Path) (name : Name) : Option Bytes := do
  let path ← resolveAssemblyName disk name dirs
  disk.read path

/-- `assembly_load_paths` (vm/mod.rs:246-253): the directory of the running program and its subdirectory `libraries`. -/
def loadPaths (exeDir : Path) : List Path := [exeDir, pushPath exeDir "libraries".toList]

end Clr
