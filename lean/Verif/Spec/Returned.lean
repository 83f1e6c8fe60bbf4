import Verif.Spec.Registry
/-!
# Programs whose calls all return

The registries of `Reached` include those left behind by calls that panic, run out of stack or never end. Here every call
returns, with a result or an error.
-/

namespace Clr.Spec

/-- A result or a reported error: neither a panic, nor undefined behaviour, nor an endless (or too deep) computation. -/
inductive Returned {α : Type} : Res α → Prop
  | ok (a : α) : Returned (.ok a)
  | err (e : String) : Returned (.err e)

/-- The registries a program can bring about whose calls all return. -/
inductive Survived (cfg : Cfg) : World → Prop
  | start : Survived cfg {}
  | runtime {w : World} (fs : Name → Option Bytes) (depth fuel : Nat) (a b : Bytes) :
      Survived cfg w → Returned (newRuntime cfg fs depth fuel a b w).1 → Survived cfg (newRuntime cfg fs depth fuel a b w).2
  | loadFile {w : World} (fs : Name → Option Bytes) (depth fuel : Nat) (data : Bytes) :
      Survived cfg w → Returned (loadData cfg fs depth fuel data w).1 → Survived cfg (loadData cfg fs depth fuel data w).2
  | loadName {w : World} (fs : Name → Option Bytes) (depth fuel : Nat) (n : Name) :
      Survived cfg w → Returned (loadAssembly cfg fs depth fuel n w).1 → Survived cfg (loadAssembly cfg fs depth fuel n w).2
  | arrayOf {w : World} (t : Nat) : Survived cfg w → Survived cfg (arrayType cfg t w).2
  | write {w : World} (s : List Char) : Survived cfg w → Survived cfg { w with output := w.output ++ s }

/-- The base chain of `t` ends. -/
def ChainEnds (w : World) (t : Nat) : Prop := ∃ n, Depth w t n

/-- The types the runtime gives a fixed size (ECMA-335 I.12.1: built-in number types). -/
def numberNames : List Name :=
  ["System.Boolean".toList, "System.Char".toList, "System.SByte".toList, "System.Byte".toList, "System.Int16".toList,
   "System.UInt16".toList, "System.Int32".toList, "System.UInt32".toList, "System.Int64".toList, "System.UInt64".toList,
   "System.Single".toList, "System.Double".toList]

end Clr.Spec
