import Verif.Spec.Straight
import Verif.Spec.Spelling
/-! # Code that control cannot come to (for C117) -/

namespace Clr.Spec

/-- Control comes to complete instructions only, and the same instructions stand at the same addresses of `code'`. Nothing is said about the
other bytes of `code'`, nor about its length. -/
def Covers (code code' : Bytes) : Prop := ∀ ip, Visits code ip → ∃ e ∈ encodings, ∃ arg : Bytes, arg.length = e.operand.size ∧
  HasAt code ip (e.opcode ++ arg) ∧ HasAt code' ip (e.opcode ++ arg)

/-- `m'` is `m`, perhaps with a body that is the same where control comes to, and that has as many locals. `ok` restricts the code. -/
def Trimmed (ok : Bytes → Prop) (m m' : MethodRec) : Prop :=
  m' = { m with impl := m'.impl } ∧ (m'.impl = m.impl ∨ ∃ b b' : MethodBody, m.impl = .il b ∧ m'.impl = .il b' ∧
    b.locals.length = b'.locals.length ∧ b.code.length < 2 ^ 62 ∧ b'.code.length < 2 ^ 62 ∧ Covers b.code b'.code ∧ ok b.code)

end Clr.Spec
