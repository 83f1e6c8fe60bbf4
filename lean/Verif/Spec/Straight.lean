import Mathlib.Logic.Relation
import Verif.Spec.Instructions
import Verif.Spec.Links
/-! # Programs without loops and recursion: what their code says -/

namespace Clr.Spec

/-- Control can pass from the instruction at `ip` to the address `n`: the instruction is complete, and `n` is the address after it, unless
it is `ret` or an unconditional branch; or it is a branch and `n` its target. -/
def Passes (code : Bytes) (ip n : Nat) : Prop :=
  ∃ e ∈ encodings, ∃ arg : Bytes, arg.length = e.operand.size ∧ HasAt code ip (e.opcode ++ arg) ∧
    (e.mnemonic ≠ "ret" ∧ e.mnemonic ≠ "br" ∧ e.mnemonic ≠ "br.s" ∧ n = ip + (e.opcode ++ arg).length ∨
    (e.operand = .target8 ∨ e.operand = .target32) ∧ ∃ d : Int, arg = intBytes e.operand.size d ∧ Fits (8 * e.operand.size) d ∧
      (n : Int) = (ip + (e.opcode ++ arg).length : Nat) + d)

/-- Control can come to the address `ip` of the code. -/
def Visits (code : Bytes) (ip : Nat) : Prop := Relation.ReflTransGen (Passes code) 0 ip

/-- Code without loops: control never comes back to an instruction it comes to. -/
def NoLoops (code : Bytes) : Prop := ∀ ip, Visits code ip → ¬ Relation.TransGen (Passes code) ip ip

/-- Control comes to no instruction `ldarg` or `starg` with an index of two bytes, which the interpreter does not read as the standard
encodes it (`C53_refuted`). -/
def ShortArgs (code : Bytes) : Prop := ∀ ip, Visits code ip → ¬ HasAt code ip [0xfe, 0x09] ∧ ¬ HasAt code ip [0xfe, 0x0b]

/-- Control can come to an instruction in the code of `m`, `call` or `newobj`, whose token stands for `m'` in the assembly of `m`. -/
def MayCall (cfg : Cfg) (w : World) (m m' : MethodRec) : Prop :=
  ∃ (a : AssemblyRec) (body : MethodBody) (ip : Nat) (token : Bytes), w.assemblyOf m.declaringType = .ok a ∧ m.impl = .il body ∧
    Visits body.code ip ∧ token.length = 4 ∧ (HasAt body.code ip (0x28 :: token) ∨ HasAt body.code ip (0x73 :: token)) ∧
    a.resolveMethod cfg ⟨leNat token⟩ = .ok (some m')

/-- No loops and no recursion in `m` and the methods it calls, directly and indirectly, whose code takes at most `L` bytes each. -/
structure Terminating (cfg : Cfg) (w : World) (L : Nat) (m : MethodRec) : Prop where
  loops : ∀ x body, Relation.ReflTransGen (MayCall cfg w) m x → x.impl = .il body → NoLoops body.code
  recursion : ∀ x, Relation.ReflTransGen (MayCall cfg w) m x → ¬ Relation.TransGen (MayCall cfg w) x x
  length : ∀ x body, Relation.ReflTransGen (MayCall cfg w) m x → x.impl = .il body → body.code.length ≤ L

/-- Every registered type has a size. -/
def HasSizes (cfg : Cfg) (w : World) : Prop := ∀ t < w.types.length, ∃ k s, typeSize cfg w k t = .ok s

end Clr.Spec
