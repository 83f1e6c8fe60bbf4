import Verif.Spec.Instructions
/-!
# A small language

Integer expressions and statements, their meaning, and their compilation to IL as a compiler would do it. The meaning does
not mention stacks, frames or code.
-/

namespace Clr

/-! ## Expressions -/

/-- Integer expressions over locals and arguments. -/
inductive Expr where
  | const (n : Int)
  | var (x : Var) (i : Nat)
  | neg (a : Expr)
  | not (a : Expr)
  | arith (op : Arith) (a b : Expr)
  | bitwise (op : Bitwise) (a b : Expr)
  | shift (op : Shift) (a b : Expr)
  | div (a b : Expr)
  | rem (a b : Expr)
  | compare (c : Compare) (a b : Expr)
deriving Repr

/-- How an evaluation or execution ends. -/
inductive Outcome (α : Type) where
  /-- Normally. -/
  | done (a : α)
  /-- The program is stopped, because of a division by zero, for example. -/
  | stops
  /-- The program uses a variable that has no value yet: there is no claim about it. -/
  | undefined
  /-- It does not end within the given number of iterations. -/
  | unfinished
deriving DecidableEq, Repr

def Outcome.bind {α β : Type} : Outcome α → (α → Outcome β) → Outcome β
  | .done a, f => f a
  | .stops, _ => .stops
  | .undefined, _ => .undefined
  | .unfinished, _ => .unfinished

/-- The values of the variables that have one. -/
abbrev Store := Var → Nat → Option (BitVec 32)

def Store.set (σ : Store) (x : Var) (i : Nat) (a : BitVec 32) : Store :=
  fun y j => if y = x ∧ j = i then some a else σ y j

/-- The exact result `n` as a 32-bit number; with `checked` arithmetic the program stops if it is not one. -/
def fit (checked : Bool) (n : Int) : Outcome (BitVec 32) :=
  if checked = true ∧ ¬ Fits 32 n then .stops else .done (BitVec.ofInt 32 n)

def Bitwise.result : Bitwise → BitVec 32 → BitVec 32 → BitVec 32
  | .and, a, b => a &&& b | .or, a, b => a ||| b | .xor, a, b => a ^^^ b

/-- Shift counts from 0 to 31 are meant; others stop the program in checked builds and are taken modulo 32 otherwise. -/
def shiftResult (checked : Bool) (op : Shift) (a b : BitVec 32) : Outcome (BitVec 32) :=
  if 0 ≤ b.toInt ∧ b.toInt < 32 then .done (BitVec.ofInt 32 (op.exact a.toInt b.toInt.toNat))
  else if checked then .stops
  else .done (BitVec.ofInt 32 (op.exact a.toInt (b.toInt % 32).toNat))

/-- Division stops the program for divisor 0 and for -2^31 by -1, where the quotient is not a 32-bit number. -/
def divides (a b : BitVec 32) : Prop := ¬ (b.toInt = 0 ∨ a.toInt = -2 ^ 31 ∧ b.toInt = -1)

instance (a b : BitVec 32) : Decidable (divides a b) := by unfold divides; infer_instance

/-- The value of an expression, operands from left to right. -/
def Expr.eval (checked : Bool) (σ : Store) : Expr → Outcome (BitVec 32)
  | .const n => .done (BitVec.ofInt 32 n)
  | .var x i =>
    match σ x i with
    | some a => .done a
    | none => .undefined
  | .neg a => (a.eval checked σ).bind fun a => fit checked (-a.toInt)
  | .not a => (a.eval checked σ).bind fun a => .done (~~~a)
  | .arith op a b =>
    (a.eval checked σ).bind fun a => (b.eval checked σ).bind fun b => fit checked (op.exact a.toInt b.toInt)
  | .bitwise op a b => (a.eval checked σ).bind fun a => (b.eval checked σ).bind fun b => .done (op.result a b)
  | .shift op a b => (a.eval checked σ).bind fun a => (b.eval checked σ).bind fun b => shiftResult checked op a b
  | .div a b => (a.eval checked σ).bind fun a => (b.eval checked σ).bind fun b =>
    if divides a b then .done (BitVec.ofInt 32 (a.toInt.tdiv b.toInt)) else .stops
  | .rem a b => (a.eval checked σ).bind fun a => (b.eval checked σ).bind fun b =>
    if divides a b then .done (BitVec.ofInt 32 (a.toInt.tmod b.toInt)) else .stops
  | .compare c a b => (a.eval checked σ).bind fun a => (b.eval checked σ).bind fun b =>
    .done (if c.holds a.toInt b.toInt then 1 else 0)

/-- The encodings of the instruction that pushes the constant `n` (III.3.40). -/
def constCodes (n : Int) : List Bytes :=
  (if -1 ≤ n ∧ n ≤ 8 then [[UInt8.ofNat (0x16 + n).toNat]] else []) ++
  (if Fits 8 n then [0x1f :: intBytes 1 n] else []) ++
  (if Fits 32 n then [0x20 :: intBytes 4 n] else [])

/-- The encodings of `ldarg` and `starg` with an index of two bytes. -/
def Wide (l : Bytes) : Prop := [0xfe, 0x09] <+: l ∨ [0xfe, 0x0b] <+: l

instance (l : Bytes) : Decidable (Wide l) := by unfold Wide; infer_instance

/-- The code for an expression: operands from left to right, then the operator. `ok` restricts the encodings of variables. -/
inductive Expr.Code (ok : Bytes → Prop) : Expr → Bytes → Prop
  | const {n : Int} {c : Bytes} : c ∈ constCodes n → Code ok (.const n) c
  | var {x : Var} {i : Nat} {c : Bytes} : c ∈ x.loads i → ok c → Code ok (.var x i) c
  | neg {a : Expr} {ca : Bytes} : Code ok a ca → Code ok (.neg a) (ca ++ [0x65])
  | not {a : Expr} {ca : Bytes} : Code ok a ca → Code ok (.not a) (ca ++ [0x66])
  | arith {op : Arith} {a b : Expr} {ca cb : Bytes} : Code ok a ca → Code ok b cb → Code ok (.arith op a b) (ca ++ (cb ++ [op.opcode]))
  | bitwise {op : Bitwise} {a b : Expr} {ca cb : Bytes} :
      Code ok a ca → Code ok b cb → Code ok (.bitwise op a b) (ca ++ (cb ++ [op.opcode]))
  | shift {op : Shift} {a b : Expr} {ca cb : Bytes} : Code ok a ca → Code ok b cb → Code ok (.shift op a b) (ca ++ (cb ++ [op.opcode]))
  | div {a b : Expr} {ca cb : Bytes} : Code ok a ca → Code ok b cb → Code ok (.div a b) (ca ++ (cb ++ [0x5b]))
  | rem {a b : Expr} {ca cb : Bytes} : Code ok a ca → Code ok b cb → Code ok (.rem a b) (ca ++ (cb ++ [0x5d]))
  | compare {c : Compare} {a b : Expr} {ca cb : Bytes} :
      Code ok a ca → Code ok b cb → Code ok (.compare c a b) (ca ++ (cb ++ c.opcode))

/-! ## Statements -/

/-- Statements. -/
inductive Stmt where
  | skip
  | set (x : Var) (i : Nat) (e : Expr)
  | seq (a b : Stmt)
  | cond (c : Expr) (a b : Stmt)
  | while (c : Expr) (a : Stmt)
deriving Repr

/-- A loop with at most the given number of iterations. -/
def iterate (checked : Bool) (c : Expr) (body : Nat → Store → Outcome Store) : Nat → Store → Outcome Store
  | 0, σ => (c.eval checked σ).bind fun n => if n.toInt = 0 then .done σ else .unfinished
  | fuel + 1, σ => (c.eval checked σ).bind fun n =>
    if n.toInt = 0 then .done σ else (body fuel σ).bind fun σ => iterate checked c body fuel σ

/-- Execution in which every loop makes at most `fuel` iterations, those of inner loops counted: the final store. -/
def Stmt.exec (checked : Bool) : Stmt → Nat → Store → Outcome Store
  | .skip, _, σ => .done σ
  | .set x i e, _, σ => (e.eval checked σ).bind fun a => .done (σ.set x i a)
  | .seq a b, fuel, σ => (a.exec checked fuel σ).bind fun σ => b.exec checked fuel σ
  | .cond c a b, fuel, σ =>
    (c.eval checked σ).bind fun n => if n.toInt = 0 then b.exec checked fuel σ else a.exec checked fuel σ
  | .while c a, fuel, σ => iterate checked c (a.exec checked) fuel σ

/-- The code for a statement; branches are short or long. -/
inductive Stmt.Code (ok : Bytes → Prop) : Stmt → Bytes → Prop
  | skip : Code ok .skip []
  | set {x : Var} {i : Nat} {e : Expr} {ce l : Bytes} : e.Code ok ce → l ∈ x.stores i → ok l → Code ok (.set x i e) (ce ++ l)
  | seq {a b : Stmt} {ca cb : Bytes} : Code ok a ca → Code ok b cb → Code ok (.seq a b) (ca ++ cb)
  | cond {c : Expr} {a b : Stmt} {cc ca cb : Bytes} {f g : Form} : c.Code ok cc → Code ok a ca → Code ok b cb →
      Fits (8 * f.size) (ca.length + (1 + g.size)) → Fits (8 * g.size) cb.length →
      Code ok (.cond c a b) (cc ++ (Branch1.brfalse.opcode f :: intBytes f.size (ca.length + (1 + g.size)) ++
        (ca ++ (brOpcode g :: intBytes g.size cb.length ++ cb))))
  | while {c : Expr} {a : Stmt} {cc ca : Bytes} {f g : Form} : c.Code ok cc → Code ok a ca →
      Fits (8 * f.size) (ca.length + (1 + g.size)) →
      Fits (8 * g.size) (-(cc.length + (1 + f.size) + ca.length + (1 + g.size))) →
      Code ok (.while c a) (cc ++ (Branch1.brfalse.opcode f :: intBytes f.size (ca.length + (1 + g.size)) ++
        (ca ++ brOpcode g :: intBytes g.size (-(cc.length + (1 + f.size) + ca.length + (1 + g.size))))))

/-- All variables are among the first `n x` of their kind. -/
def Expr.Within (n : Var → Nat) : Expr → Prop
  | .const _ => True
  | .var x i => i < n x
  | .neg a | .not a => a.Within n
  | .arith _ a b | .bitwise _ a b | .shift _ a b | .div a b | .rem a b | .compare _ a b => a.Within n ∧ b.Within n

def Stmt.Within (n : Var → Nat) : Stmt → Prop
  | .skip => True
  | .set x i e => i < n x ∧ e.Within n
  | .seq a b => a.Within n ∧ b.Within n
  | .cond c a b => c.Within n ∧ a.Within n ∧ b.Within n
  | .while c a => c.Within n ∧ a.Within n

end Clr
