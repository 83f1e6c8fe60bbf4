import Verif.Spec.Straight
/-! # Programs that only compute (for C122) -/

namespace Clr.Spec

/-- The instructions that make or change objects: `ldstr`, `newobj`, `stfld`, `newarr`, `stelem.i4` (III.4.16, 4.21, 4.28, 4.20, 4.26). -/
def objectOpcodes : Bytes := [0x72, 0x73, 0x7d, 0x8d, 0x9e]

/-- `m` and the methods it calls, directly and indirectly, write no output and come to none of these instructions. -/
structure Harmless (cfg : Cfg) (w : World) (m : MethodRec) : Prop where
  silent : ∀ x, Relation.ReflTransGen (MayCall cfg w) m x → x.impl ≠ .internal .consoleWrite
  computes : ∀ x body, Relation.ReflTransGen (MayCall cfg w) m x → x.impl = .il body →
    ∀ ip, Visits body.code ip → ∀ b ∈ objectOpcodes, ¬ HasAt body.code ip [b]

end Clr.Spec
