import Verif.Spec.Lang
/-!
# The abstract machine for 32-bit integer programs, after ECMA-335 partition I.12.3 and partition III

Every activation of a method has its own evaluation stack, locals and arguments. There is no shared memory, no frame and no
address other than the position in the code of the method. Instructions are those of 32-bit integers without the unsigned
ones, variables, branches, calls and `ret`.
-/

namespace Clr.Abs

/-- Instructions. Branches have the displacement from the end of the instruction. -/
inductive Instr where
  | nop
  | const (n : Int)
  | load (x : Var) (i : Nat)
  | store (x : Var) (i : Nat)
  | dup
  | pop
  | neg
  | not
  | arith (op : Arith)
  | bitwise (op : Bitwise)
  | shift (op : Shift)
  | div
  | rem
  | compare (c : Compare)
  | br (d : Int)
  | br1 (c : Branch1) (d : Int)
  | br2 (c : Branch2) (d : Int)
deriving DecidableEq, Repr

/-- The encodings of an instruction; `ok` restricts those of loads and stores. -/
inductive Enc (ok : Bytes → Prop) : Instr → Bytes → Prop
  | nop : Enc ok .nop [0x00]
  | const {n : Int} {c : Bytes} : c ∈ constCodes n → Enc ok (.const n) c
  | load {x : Var} {i : Nat} {c : Bytes} : c ∈ x.loads i → ok c → Enc ok (.load x i) c
  | store {x : Var} {i : Nat} {c : Bytes} : c ∈ x.stores i → ok c → Enc ok (.store x i) c
  | dup : Enc ok .dup [0x25]
  | pop : Enc ok .pop [0x26]
  | neg : Enc ok .neg [0x65]
  | not : Enc ok .not [0x66]
  | arith {op : Arith} : Enc ok (.arith op) [op.opcode]
  | bitwise {op : Bitwise} : Enc ok (.bitwise op) [op.opcode]
  | shift {op : Shift} : Enc ok (.shift op) [op.opcode]
  | div : Enc ok .div [0x5b]
  | rem : Enc ok .rem [0x5d]
  | compare {c : Compare} : Enc ok (.compare c) c.opcode
  | br {f : Form} {d : Int} : Fits (8 * f.size) d → Enc ok (.br d) (brOpcode f :: intBytes f.size d)
  | br1 {c : Branch1} {f : Form} {d : Int} : Fits (8 * f.size) d → Enc ok (.br1 c d) (c.opcode f :: intBytes f.size d)
  | br2 {c : Branch2} {f : Form} {d : Int} : Fits (8 * f.size) d → Enc ok (.br2 c d) (c.opcode f :: intBytes f.size d)

/-- An activation: evaluation stack (top first), locals (those that have been assigned have a value), arguments. -/
structure Act where
  stack : List (BitVec 32)
  locals : List (Option (BitVec 32))
  args : List (BitVec 32)
deriving DecidableEq, Repr

/-- The value of a variable. -/
def Act.get (σ : Act) : Var → Nat → Option (BitVec 32)
  | .loc, i => σ.locals[i]?.join
  | .arg, i => σ.args[i]?

/-- Assignment to a variable. -/
def Act.set (σ : Act) (a : BitVec 32) : Var → Nat → Option Act
  | .loc, i => if i < σ.locals.length then some { σ with locals := σ.locals.set i (some a) } else none
  | .arg, i => if i < σ.args.length then some { σ with args := σ.args.set i a } else none

/-- An operation on the two topmost values, the upper one being the right operand. -/
def Act.binary (σ : Act) (f : BitVec 32 → BitVec 32 → Outcome (BitVec 32)) : Outcome (Act × Int) :=
  match σ.stack with
  | b :: a :: s => (f a b).bind fun r => .done ({ σ with stack := r :: s }, 0)
  | _ => .undefined

/-- An operation on the topmost value. -/
def Act.unary (σ : Act) (f : BitVec 32 → Outcome (BitVec 32)) : Outcome (Act × Int) :=
  match σ.stack with
  | a :: s => (f a).bind fun r => .done ({ σ with stack := r :: s }, 0)
  | _ => .undefined

/-- The effect of an instruction: the new activation and the displacement of the jump, 0 if there is none. With `checked`
arithmetic the program stops when a result does not fit. -/
def Instr.effect (checked : Bool) (σ : Act) : Instr → Outcome (Act × Int)
  | .nop => .done (σ, 0)
  | .const n => .done ({ σ with stack := BitVec.ofInt 32 n :: σ.stack }, 0)
  | .load x i =>
    match σ.get x i with
    | some a => .done ({ σ with stack := a :: σ.stack }, 0)
    | none => .undefined
  | .store x i =>
    match σ.stack with
    | a :: s =>
      match ({ σ with stack := s } : Act).set a x i with
      | some σ' => .done (σ', 0)
      | none => .undefined
    | [] => .undefined
  | .dup =>
    match σ.stack with
    | a :: s => .done ({ σ with stack := a :: a :: s }, 0)
    | [] => .undefined
  | .pop =>
    match σ.stack with
    | _ :: s => .done ({ σ with stack := s }, 0)
    | [] => .undefined
  | .neg => σ.unary fun a => fit checked (-a.toInt)
  | .not => σ.unary fun a => .done (~~~a)
  | .arith op => σ.binary fun a b => fit checked (op.exact a.toInt b.toInt)
  | .bitwise op => σ.binary fun a b => .done (op.result a b)
  | .shift op => σ.binary fun a b => shiftResult checked op a b
  | .div => σ.binary fun a b => if divides a b then .done (BitVec.ofInt 32 (a.toInt.tdiv b.toInt)) else .stops
  | .rem => σ.binary fun a b => if divides a b then .done (BitVec.ofInt 32 (a.toInt.tmod b.toInt)) else .stops
  | .compare c => σ.binary fun a b => .done (if c.holds a.toInt b.toInt then 1 else 0)
  | .br d => .done (σ, d)
  | .br1 c d =>
    match σ.stack with
    | a :: s => .done ({ σ with stack := s }, if c.holds a.toInt then d else 0)
    | [] => .undefined
  | .br2 c d =>
    match σ.stack with
    | b :: a :: s => .done ({ σ with stack := s }, if c.holds a.toInt b.toInt then d else 0)
    | _ => .undefined

/-- A procedure; `calls` says which procedure the token of a `call` stands for. -/
structure Proc where
  code : Bytes
  params : Nat
  locals : Nat
  returns : Bool
  calls : Nat → Option Nat

/-- A fresh activation; `init` is what locals hold at first. -/
def Proc.start (p : Proc) (init : Option (BitVec 32)) (args : List (BitVec 32)) : Act := ⟨[], List.replicate p.locals init, args⟩

/-- What `ret` gives: in a procedure with a result exactly that is on the stack, otherwise nothing. -/
inductive Proc.Result (p : Proc) : List (BitVec 32) → Option (BitVec 32) → Prop
  | value {a : BitVec 32} : p.returns = true → Result p [a] (some a)
  | void : p.returns = false → Result p [] none

/-- `Runs n k p ip σ o`: from the address `ip` with the activation `σ`, the procedure `p` ends with `o`; `.unfinished` if it
has not ended when `n` instructions one after the other, or one inside the other, have been begun.

`k` bounds the variables in use at the same time, not counting those of `p` itself: parameters and locals of the procedures
called. Parameters count until the *caller* returns, since this is how long the interpreter keeps them (C71). -/
inductive Runs (checked : Bool) (ok : Bytes → Prop) (init : Option (BitVec 32)) (prog : Nat → Option Proc) :
    Nat → Nat → Proc → Nat → Act → Outcome (Option (BitVec 32)) → Prop
  | more {k ip : Nat} {p : Proc} {σ : Act} : Runs checked ok init prog 0 k p ip σ .unfinished
  | ret {n k ip : Nat} {p : Proc} {σ : Act} {r : Option (BitVec 32)} : HasAt p.code ip [0x2a] → p.Result σ.stack r →
      Runs checked ok init prog (n + 1) k p ip σ (.done r)
  | next {n k ip ip' : Nat} {p : Proc} {σ σ' : Act} {d : Int} {o : Outcome (Option (BitVec 32))} {i : Instr} {c : Bytes} :
      Enc ok i c → HasAt p.code ip c → i.effect checked σ = .done (σ', d) → (ip' : Int) = (ip + c.length : Nat) + d →
      Runs checked ok init prog n k p ip' σ' o → Runs checked ok init prog (n + 1) k p ip σ o
  | stops {n k ip : Nat} {p : Proc} {σ : Act} {i : Instr} {c : Bytes} :
      Enc ok i c → HasAt p.code ip c → i.effect checked σ = .stops → Runs checked ok init prog (n + 1) k p ip σ .stops
  | call {n k k' k'' ip t j : Nat} {p q : Proc} {σ : Act} {args rest : List (BitVec 32)} {r : Option (BitVec 32)}
      {o : Outcome (Option (BitVec 32))} : t < 2 ^ 32 → HasAt p.code ip (0x28 :: leBytes 4 t) → p.calls t = some j →
      prog j = some q → σ.stack = args.reverse ++ rest → args.length = q.params →
      q.params + q.locals + k' ≤ k → Runs checked ok init prog n k' q 0 (q.start init args) (.done r) →
      q.params + k'' ≤ k → Runs checked ok init prog n k'' p (ip + 5) { σ with stack := r.toList ++ rest } o →
      Runs checked ok init prog (n + 1) k p ip σ o
  | inner {n k k' ip t j : Nat} {p q : Proc} {σ : Act} {args rest : List (BitVec 32)}
      {o : Outcome (Option (BitVec 32))} : t < 2 ^ 32 → HasAt p.code ip (0x28 :: leBytes 4 t) → p.calls t = some j →
      prog j = some q → σ.stack = args.reverse ++ rest → args.length = q.params →
      q.params + q.locals + k' ≤ k → Runs checked ok init prog n k' q 0 (q.start init args) o → (∀ r, o ≠ .done r) →
      Runs checked ok init prog (n + 1) k p ip σ o

end Clr.Abs
