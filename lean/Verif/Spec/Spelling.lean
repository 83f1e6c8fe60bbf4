import Verif.Spec.Lang
import Verif.Model.Interp
/-! # Programs apart from their spelling (for C115)

ECMA-335 gives several encodings to the same instruction (a constant, a variable and a branch target may be spelled in one or
more bytes) and lets `nop` stand anywhere. Here a program is a list of lines without addresses; branches name lines. A
method's code spells such a program if the encodings of the lines stand in it in this order, with any number of `nop`s in
between. -/

namespace Clr.Spec

/-- A line of a program. -/
inductive Line where
  /-- Pushes a constant: `ldc.i4` (III.3.40). -/
  | const (n : Int)
  /-- Loads a variable: `ldloc`, `ldarg`. -/
  | load (x : Var) (i : Nat)
  /-- Stores into a variable: `stloc`, `starg`. -/
  | store (x : Var) (i : Nat)
  /-- Goes to a line: `br`. -/
  | goto (t : Nat)
  /-- Goes to a line depending on a value: `brfalse`, `brtrue`. -/
  | test (c : Branch1) (t : Nat)
  /-- Goes to a line depending on two values: `beq` and the others. -/
  | cmp (c : Branch2) (t : Nat)
  /-- Any other implemented instruction. -/
  | other (e : Encoding) (arg : Bytes)

/-- The line that a branch names. -/
def Line.target : Line → Option Nat
  | .goto t | .test _ t | .cmp _ t => some t
  | _ => none

/-- Does control flow on to the next line? -/
def Line.falls : Line → Prop
  | .goto _ => False
  | .other e _ => e.mnemonic ≠ "ret"
  | _ => True

/-- `nop`s stand at all addresses from `a` up to, but not including, `b`. -/
def Nops (code : Bytes) (a b : Nat) : Prop := a ≤ b ∧ ∀ q, a ≤ q → q < b → code[q]? = some 0

/-- A displacement of form `f` in an instruction of `1 + f.size` bytes at `a` that leads to the line at `b`, or to a `nop`
before it. -/
def Leads (code : Bytes) (f : Form) (a b : Nat) (d : Int) : Prop :=
  Fits (8 * f.size) d ∧ ∃ q : Nat, (q : Int) = a + (1 + f.size) + d ∧ Nops code q b

/-- `bs` spells a line at address `a` of `code`; `addr` gives the addresses of the lines. `ok` restricts the encodings. -/
inductive Line.Spells (ok : Bytes → Prop) (code : Bytes) (addr : Nat → Nat) (a : Nat) : Line → Bytes → Prop
  | const {n : Int} {c : Bytes} : c ∈ constCodes n → Spells ok code addr a (.const n) c
  | load {x : Var} {i : Nat} {c : Bytes} : c ∈ x.loads i → ok c → Spells ok code addr a (.load x i) c
  | store {x : Var} {i : Nat} {c : Bytes} : c ∈ x.stores i → ok c → Spells ok code addr a (.store x i) c
  | goto {t : Nat} {f : Form} {d : Int} : Leads code f a (addr t) d →
      Spells ok code addr a (.goto t) (brOpcode f :: intBytes f.size d)
  | test {c : Branch1} {t : Nat} {f : Form} {d : Int} : Leads code f a (addr t) d →
      Spells ok code addr a (.test c t) (c.opcode f :: intBytes f.size d)
  | cmp {c : Branch2} {t : Nat} {f : Form} {d : Int} : Leads code f a (addr t) d →
      Spells ok code addr a (.cmp c t) (c.opcode f :: intBytes f.size d)
  | other {e : Encoding} {arg : Bytes} : e ∈ encodings → e.operand ≠ .target8 → e.operand ≠ .target32 →
      arg.length = e.operand.size → ok (e.opcode ++ arg) → Spells ok code addr a (.other e arg) (e.opcode ++ arg)

/-- `code` spells the program `p` with its lines at the addresses `addr`; only the encodings `ok` are used. Control flow does
not leave the program. -/
structure Spelling (ok : Bytes → Prop) (p : List Line) (code : Bytes) (addr : Nat → Nat) : Prop where
  starts : 0 < p.length ∧ Nops code 0 (addr 0)
  line : ∀ k l, p[k]? = some l → ∃ bs, HasAt code (addr k) bs ∧ l.Spells ok code addr (addr k) bs ∧
    (l.falls → k + 1 < p.length ∧ Nops code (addr k + bs.length) (addr (k + 1))) ∧ ∀ t, l.target = some t → t < p.length

/-! ## Programs of several methods -/

/-- `m'` is `m`, perhaps with a body that spells the same program in another way. -/
def Respelled (ok : Bytes → Prop) (m m' : MethodRec) : Prop :=
  m' = { m with impl := m'.impl } ∧ (m'.impl = m.impl ∨ ∃ b b' : MethodBody, m.impl = .il b ∧ m'.impl = .il b' ∧
    b.locals.length = b'.locals.length ∧ b.code.length < 2 ^ 62 ∧ b'.code.length < 2 ^ 62 ∧
    ∃ p addr addr', Spelling ok p b.code addr ∧ Spelling ok p b'.code addr')

/-- The registry with `φ m` in place of every method `m`. -/
def withMethods (φ : MethodRec → MethodRec) (w : World) : World :=
  { w with
    types := w.types.map fun t => { t with methods := t.methods.map φ }
    assemblies := w.assemblies.map fun a =>
      { a with entryPoint := a.entryPoint.map φ, methodDefs := a.methodDefs.map φ, methodRefs := a.methodRefs.map φ } }

end Clr.Spec
