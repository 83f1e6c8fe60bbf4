import Verif.Spec.Instructions
import Verif.Model.Interp
/-! # Code whose operands are aligned -/

namespace Clr.Spec

/-- The instructions that access numbers inside objects, arrays and strings. -/
def objectInstructions : List String := ["stfld", "ldfld", "stelem.i4", "ldelem.i4", "ldstr"]

/-- Code that can be run through, without these instructions, with the operands at multiples of their size from its start. -/
structure EvenCode (code : Bytes) (S : Nat → Prop) : Prop where
  start : S 0
  closed : ClosedCode (encodings.filter fun e => e.mnemonic ≠ "ldarg" ∧ e.mnemonic ≠ "starg") code S
  even : ∀ ip e, S ip → e ∈ encodings → HasAt code ip e.opcode →
    e.mnemonic ∉ objectInstructions ∧ (e.operand.size = 0 ∨ (ip + e.opcode.length) % e.operand.size = 0)

/-- A set of methods with such code, which calls only methods of the set, and among the native functions not
`Console.Write`. -/
structure Even (cfg : Cfg) (w : World) (M : MethodRec → Prop) : Prop where
  types : ∀ m, M m → m.declaringType < w.types.length
  natives : ∀ m, M m → m.impl ≠ .internal .consoleWrite
  code : ∀ m body, M m → m.impl = .il body → body.code.length < 2 ^ 62 ∧ ∃ S, EvenCode body.code S ∧
    ∀ ip e (arg : Bytes) tr a m', S ip → e ∈ encodings → e.mnemonic = "call" ∨ e.mnemonic = "newobj" → arg.length = 4 →
      HasAt body.code ip (e.opcode ++ arg) → w.typeAt m.declaringType = .ok tr →
      w.assemblies.find? (·.id = tr.assembly) = some a → a.resolveMethod cfg ⟨leNat arg⟩ = .ok (some m') → M m'

end Clr.Spec
