import Verif.Spec.Instructions
/-!
# Depths of the evaluation stack, after ECMA-335 partition III

Every instruction takes a fixed number of values from the evaluation stack and puts a fixed number on it; a method can be
checked by giving the depth of its stack at every address it reaches.
-/

namespace Clr

/-- Stack transitions (III.3, III.4): mnemonic, values taken, values put. `call`, `newobj` and `ret` depend on methods. -/
def stackMoves : List (String × Nat × Nat) := [
  ("add", 2, 1), ("and", 2, 1), ("beq", 2, 0), ("beq.s", 2, 0), ("bge", 2, 0), ("bge.s", 2, 0), ("bgt", 2, 0),
  ("bgt.s", 2, 0), ("ble", 2, 0), ("ble.s", 2, 0), ("blt", 2, 0), ("blt.s", 2, 0), ("br", 0, 0), ("br.s", 0, 0),
  ("brfalse", 1, 0), ("brfalse.s", 1, 0), ("brtrue", 1, 0), ("brtrue.s", 1, 0), ("ceq", 2, 1), ("cgt", 2, 1),
  ("cgt.un", 2, 1), ("clt", 2, 1), ("clt.un", 2, 1), ("div", 2, 1), ("div.un", 2, 1), ("dup", 1, 2), ("ldarg.s", 0, 1),
  ("ldarg.0", 0, 1), ("ldarg.1", 0, 1), ("ldarg.2", 0, 1), ("ldarg.3", 0, 1), ("ldc.i4", 0, 1), ("ldc.i8", 0, 1),
  ("ldc.r4", 0, 1), ("ldc.r8", 0, 1), ("ldc.i4.0", 0, 1), ("ldc.i4.1", 0, 1), ("ldc.i4.2", 0, 1), ("ldc.i4.3", 0, 1),
  ("ldc.i4.4", 0, 1), ("ldc.i4.5", 0, 1), ("ldc.i4.6", 0, 1), ("ldc.i4.7", 0, 1), ("ldc.i4.8", 0, 1),
  ("ldc.i4.m1", 0, 1), ("ldc.i4.s", 0, 1), ("ldloc", 0, 1), ("ldloc.s", 0, 1), ("ldloc.0", 0, 1), ("ldloc.1", 0, 1),
  ("ldloc.2", 0, 1), ("ldloc.3", 0, 1), ("mul", 2, 1), ("neg", 1, 1), ("nop", 0, 0), ("not", 1, 1), ("or", 2, 1),
  ("pop", 1, 0), ("rem", 2, 1), ("rem.un", 2, 1), ("shl", 2, 1), ("shr", 2, 1), ("starg.s", 1, 0), ("stloc", 1, 0),
  ("stloc.s", 1, 0), ("stloc.0", 1, 0), ("stloc.1", 1, 0), ("stloc.2", 1, 0), ("stloc.3", 1, 0), ("sub", 2, 1),
  ("xor", 2, 1), ("ldelem.i4", 2, 1), ("ldfld", 1, 1), ("ldstr", 0, 1), ("newarr", 1, 1), ("stelem.i4", 3, 0),
  ("stfld", 2, 0)]

/-- What a call does to the stack: parameters, whether there is a receiver, results. -/
structure CallShape where
  params : Nat
  this : Bool
  results : Nat
deriving DecidableEq, Repr

/-- Values taken by `call`. -/
def CallShape.taken (s : CallShape) : Nat := s.params + if s.this then 1 else 0

/-- `S ip d` says that the method may reach the address `ip` with `d` values of its own on the stack. Every instruction
finds the values it takes among them, and `S` contains what follows; `ret` finds exactly the result. `sig` gives the
shapes of the methods behind the tokens. -/
def Balanced (encs : List Encoding) (sig : Nat → Option CallShape) (results : Nat) (code : Bytes) (S : Nat → Nat → Prop) :
    Prop :=
  ∀ ip d, S ip d → ∃ e ∈ encs, ∃ arg : Bytes, arg.length = e.operand.size ∧ HasAt code ip (e.opcode ++ arg) ∧
    ((e.mnemonic = "ret" ∧ d = results) ∨
     (e.mnemonic = "call" ∧ ∃ t s, t < 2 ^ 32 ∧ arg = leBytes 4 t ∧ sig t = some s ∧ s.taken ≤ d ∧
        S (ip + 5) (d - s.taken + s.results)) ∨
     (e.mnemonic = "newobj" ∧ ∃ t n, t < 2 ^ 32 ∧ arg = leBytes 4 t ∧ sig t = some ⟨n, true, 0⟩ ∧ n ≤ d ∧
        S (ip + 5) (d - n + 1)) ∨
     (∃ p q, (e.mnemonic, p, q) ∈ stackMoves ∧ p ≤ d ∧
        (e.mnemonic ≠ "br" → e.mnemonic ≠ "br.s" → S (ip + (e.opcode ++ arg).length) (d - p + q)) ∧
        (e.operand = .target8 ∨ e.operand = .target32 →
          ∃ x : Int, ∃ t : Nat, arg = intBytes e.operand.size x ∧ Fits (8 * e.operand.size) x ∧
            (t : Int) = (ip + (e.opcode ++ arg).length : Nat) + x ∧ S t (d - p + q))))

end Clr
